import Verif.Circuit.EmulatedCurve

/-!
# Conversion of points from short Weierstrass to twisted Edwards form

`relation/src/gadgets/ecc/conversion.rs` and `TEPoint` in `relation/src/gadgets/ecc/mod.rs`. No circuit is built here.
-/

namespace Verif.Circuit

/-- the value of a big integer with 64 bit limbs, lowest limb first (`BigInteger384::new`) -/
def limbs64 : List ℕ → ℕ
  | [] => 0
  | l :: ls => l + 2 ^ 64 * limbs64 ls

/-- `SWToTEConParam`, `conversion.rs:62-69` -/
structure ConvParams where
  s : ℕ
  negAlpha : ℕ
  beta : ℕ

/-- the constants for the base field of BLS12-377, `conversion.rs:75-98` -/
def conv377 : ConvParams where
  s := limbs64 [0x3401d618f0339eab, 0x0f793b8504b428d4, 0x0ff643cca95ccc0d, 0xd7a504665d66cc8c, 0x1dc07a44b1eeea84,
    0x10f272020f118a]
  negAlpha := limbs64 [1, 0, 0, 0, 0, 0]
  beta := limbs64 [0x450ae9206343e6e4, 0x7af39509df5027b6, 0xab82b31405cf8a30, 0x80d743e1f6c15c7c, 0x0cec22e650360183,
    0x272fd56ac5c669]

/-- the constants for the base fields of BN254, BLS12-381 and BW6-761, `conversion.rs:105-131` -/
def convDummy : ConvParams := ⟨0, 0, 0⟩

variable {q : ℕ} [Fact q.Prime]

/-- division of field elements; division by zero is a panic (`ark-ff`, the inverse is unwrapped) -/
def fdiv (x y : ZMod q) : Option (ZMod q) := if y = 0 then none else some (x * y⁻¹)

/-- `TEPoint::from(SWAffine)`, `conversion.rs:27-57`; `none` is a panic -/
def swToTe (C : ConvParams) (p : SwPoint) : Option (ZMod q × ZMod q) :=
  if p.inf then some (0, 1)
  else
    let s : ZMod q := C.s
    let negAlpha : ZMod q := C.negAlpha
    let beta : ZMod q := C.beta
    let mx : ZMod q := s * (p.x + negAlpha)
    let my : ZMod q := s * p.y
    (fdiv (beta * mx) my).bind fun ex =>
      (fdiv (mx - 1) (mx + 1)).map fun ey => (ex, ey)

/-- `TEPoint::inverse`, `mod.rs:68-70` -/
def teInverse (P : ZMod q × ZMod q) : ZMod q × ZMod q := (-P.1, P.2)

end Verif.Circuit
