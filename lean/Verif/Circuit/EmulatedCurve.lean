import Verif.Circuit.Emulated

/-!
# Points of curves over an emulated field

Model of `relation/src/gadgets/ecc/emulated/{short_weierstrass,twisted_edwards}.rs`.  Elements of the emulated
field are integers below `E.q`, as in `Verif/Circuit/Emulated.lean`.
-/

namespace Verif.Circuit

variable {p : ℕ}

/-! ## Short Weierstrass form -/

/-- `SWPoint`, `short_weierstrass.rs:20` -/
structure SwPoint where
  x : ℕ
  y : ℕ
  inf : Bool
deriving DecidableEq

/-- `EmulatedSWPointVariable`, `short_weierstrass.rs:53-57` -/
structure SwVar where
  x : List ℕ
  y : List ℕ
  inf : ℕ
deriving DecidableEq

/-- `emulated_sw_point_witness`, `short_weierstrass.rs:61-69` -/
def swWitness (E : Emu) (P : SwVar) : Build p SwPoint := do
  let x ← emulatedWitness E P.x
  let y ← emulatedWitness E P.y
  let i ← witness P.inf
  pure ⟨x, y, decide (i = 1)⟩

/-- `create_emulated_sw_point_variable`, `short_weierstrass.rs:72-80` -/
def createSw (E : Emu) (P : SwPoint) : Build p SwVar := do
  let x ← createEmulated E P.x
  let y ← createEmulated E P.y
  let i ← createBooleanVariable P.inf
  pure ⟨x, y, i⟩

/-- `create_constant_emulated_sw_point_variable`, `short_weierstrass.rs:83-91` -/
def createConstantSw (E : Emu) (P : SwPoint) : Build p SwVar := do
  let x ← createConstantEmulated E P.x
  let y ← createConstantEmulated E P.y
  pure ⟨x, y, if P.inf then 1 else 0⟩

/-- `create_public_emulated_sw_point_variable`, `short_weierstrass.rs:94-102` -/
def createPublicSw (E : Emu) (P : SwPoint) : Build p SwVar := do
  let x ← createPublicEmulated E P.x
  let y ← createPublicEmulated E P.y
  let i ← createPublicBooleanVariable P.inf
  pure ⟨x, y, i⟩

/-- `binary_emulated_sw_point_vars_select`, `short_weierstrass.rs:108-123` -/
def selectSw (b : ℕ) (P Q : SwVar) : Build p SwVar := do
  let x ← conditionalSelectEmulated b P.x Q.x
  let y ← conditionalSelectEmulated b P.y Q.y
  let i ← conditionalSelect b P.inf Q.inf
  pure ⟨x, y, i⟩

/-- `enforce_emulated_sw_point_equal`, `short_weierstrass.rs:127-136` -/
def enforceSwEqual (P Q : SwVar) : Build p Unit := do
  enforceEmulatedEqual P.x Q.x
  enforceEmulatedEqual P.y Q.y
  enforceEqual P.inf Q.inf

/-- `is_emulated_sw_point_equal`, `short_weierstrass.rs:140-151` -/
def isSwEqual (P Q : SwVar) : Build p ℕ := do
  let r0 ← isEmulatedEqual P.x Q.x
  let r1 ← isEmulatedEqual P.y Q.y
  let r2 ← isEqual P.inf Q.inf
  let r ← mul r0 r1
  mul r r2

/-- the bits of `emulated_sw_ecc_add_gate`, `short_weierstrass.rs:201-234`: cases 1 and 2 and the start of case 3.
Returns `non_infinity_mark`, `neq_x0_x1` and `doubling_coef`. -/
def swFlags (P Q R : SwVar) : Build p (ℕ × ℕ × ℕ) := do
  let e12 ← isSwEqual Q R
  let e02 ← isSwEqual P R
  enforceEqual P.inf e12
  enforceEqual Q.inf e02
  let im ← logicOr P.inf Q.inf
  let nim ← logicNeg im
  let ni2 ← logicNeg R.inf
  let ex ← isEmulatedEqual P.x Q.x
  let nex ← logicNeg ex
  let ey ← isEmulatedEqual P.y Q.y
  let z0 ← isEmulatedZero P.y
  let nz0 ← logicNeg z0
  let t ← logicAnd ey nz0
  let t ← logicOr nex t
  let t ← logicOr ni2 t
  logicOrGate im t
  let dm ← mul ex ey
  let dc ← mul dm nim
  let dc ← mul dc nz0
  pure (nim, nex, dc)

/-- a bit as an emulated variable, `short_weierstrass.rs:235-239` and `271-275` -/
def bitVar (E : Emu) (b : ℕ) : List ℕ := b :: List.replicate (E.n - 1) 0

/-- case 3 of `emulated_sw_ecc_add_gate`, `short_weierstrass.rs:241-266`.  Returns `x0_plus_x1_plus_x2` and
`x0_minus_x2`. -/
def swDouble (E : Emu) (a : ℕ) (P Q R : SwVar) (dc : List ℕ) : Build p (List ℕ × List ℕ) := do
  let y02 ← emulatedAdd E P.y P.y
  let x01 ← emulatedAdd E P.x Q.x
  let x012 ← emulatedAdd E R.x x01
  let lhs ← emulatedMul E x012 y02
  let lhs ← emulatedMul E lhs y02
  let s ← emulatedMul E P.x P.x
  let s ← emulatedMulConstant E s (3 % E.q)
  let s ← emulatedAddConstant E s a
  let rhs ← emulatedMul E s s
  let lhs ← emulatedMul E lhs dc
  let rhs ← emulatedMul E rhs dc
  enforceEmulatedEqual lhs rhs
  let y20 ← emulatedAdd E R.y P.y
  let lhs ← emulatedMul E y20 y02
  let x02 ← emulatedSub E P.x R.x
  let rhs ← emulatedMul E s x02
  let lhs ← emulatedMul E lhs dc
  let rhs ← emulatedMul E rhs dc
  enforceEmulatedEqual lhs rhs
  pure (x012, x02)

/-- case 4 of `emulated_sw_ecc_add_gate`, `short_weierstrass.rs:277-299` -/
def swChord (E : Emu) (P Q R : SwVar) (x012 x02 ac : List ℕ) : Build p Unit := do
  let x01 ← emulatedSub E P.x Q.x
  let lhs ← emulatedMul E x01 x01
  let lhs ← emulatedMul E lhs x012
  let y01 ← emulatedSub E P.y Q.y
  let rhs ← emulatedMul E y01 y01
  let lhs ← emulatedMul E lhs ac
  let rhs ← emulatedMul E rhs ac
  enforceEmulatedEqual lhs rhs
  let lhs ← emulatedMul E x02 y01
  let y02 ← emulatedAdd E P.y R.y
  let rhs ← emulatedMul E y02 x01
  let lhs ← emulatedMul E lhs ac
  let rhs ← emulatedMul E rhs ac
  enforceEmulatedEqual lhs rhs

/-- `emulated_sw_ecc_add_gate`, `short_weierstrass.rs:194-302` -/
def swAddGate (E : Emu) (a : ℕ) (P Q R : SwVar) : Build p Unit := do
  let (nim, nex, dc) ← swFlags P Q R
  let (x012, x02) ← swDouble E a P Q R (bitVar E dc)
  let ac ← mul nim nex
  swChord E P Q R x012 x02 (bitVar E ac)

/-- the point that `emulated_sw_ecc_add` stores, `short_weierstrass.rs:317-332`; arithmetic in the field with `q`
elements -/
def swSum (q a : ℕ) (P Q : SwPoint) : SwPoint :=
  if P.inf then Q
  else if Q.inf then P
  else
    let line (s : ZMod q) : SwPoint :=
      let x2 := s * s - P.x - Q.x
      ⟨x2.val, (s * (P.x - x2) - P.y).val, false⟩
    if P.x = Q.x ∧ P.y = Q.y then
      if P.y = 0 then ⟨0, 0, true⟩
      else line ((P.x * P.x * 3 + a) * (P.y + P.y : ZMod q)⁻¹)
    else if P.x = Q.x then ⟨0, 0, true⟩
    else line ((P.y - Q.y) * (P.x - Q.x : ZMod q)⁻¹)

/-- `emulated_sw_ecc_add`, `short_weierstrass.rs:305-336` -/
def swAdd (E : Emu) (a : ℕ) (P Q : SwVar) : Build p SwVar := do
  let P' ← swWitness E P
  let Q' ← swWitness E Q
  let R ← createSw E (swSum E.q a P' Q')
  swAddGate E a P Q R
  pure R

/-! ## Twisted Edwards form -/

/-- `EmulatedTEPointVariable`, `twisted_edwards.rs:17` -/
structure TeVar where
  x : List ℕ
  y : List ℕ
deriving DecidableEq

/-- `create_emulated_te_point_variable`, `twisted_edwards.rs:31-38` -/
def createTe (E : Emu) (P : ℕ × ℕ) : Build p TeVar := do
  let x ← createEmulated E P.1
  let y ← createEmulated E P.2
  pure ⟨x, y⟩

/-- `create_constant_emulated_te_point_variable`, `twisted_edwards.rs:41-48` -/
def createConstantTe (E : Emu) (P : ℕ × ℕ) : Build p TeVar := do
  let x ← createConstantEmulated E P.1
  let y ← createConstantEmulated E P.2
  pure ⟨x, y⟩

/-- `create_public_emulated_te_point_variable`, `twisted_edwards.rs:51-58` -/
def createPublicTe (E : Emu) (P : ℕ × ℕ) : Build p TeVar := do
  let x ← createPublicEmulated E P.1
  let y ← createPublicEmulated E P.2
  pure ⟨x, y⟩

/-- `binary_emulated_te_point_vars_select`, `twisted_edwards.rs:64-74` -/
def selectTe (b : ℕ) (P Q : TeVar) : Build p TeVar := do
  let x ← conditionalSelectEmulated b P.x Q.x
  let y ← conditionalSelectEmulated b P.y Q.y
  pure ⟨x, y⟩

/-- `enforce_emulated_te_point_equal`, `twisted_edwards.rs:78-86` -/
def enforceTeEqual (P Q : TeVar) : Build p Unit := do
  enforceEmulatedEqual P.x Q.x
  enforceEmulatedEqual P.y Q.y

/-- `is_emulated_te_point_equal`, `twisted_edwards.rs:90-99` -/
def isTeEqual (P Q : TeVar) : Build p ℕ := do
  let r0 ← isEmulatedEqual P.x Q.x
  let r1 ← isEmulatedEqual P.y Q.y
  mul r0 r1

/-- `emulated_te_ecc_add_gate`, `twisted_edwards.rs:103-130` -/
def teAddGate (E : Emu) (d : ℕ) (P Q R : TeVar) : Build p Unit := do
  let x0y1 ← emulatedMul E P.x Q.y
  let x1y0 ← emulatedMul E Q.x P.y
  let x0x1 ← emulatedMul E P.x Q.x
  let y0y1 ← emulatedMul E P.y Q.y
  let m ← emulatedMul E x0x1 y0y1
  let dm ← emulatedMulConstant E m d
  let t1 ← emulatedAdd E x0y1 x1y0
  let t2 ← emulatedMul E dm R.x
  emulatedAddGate E R.x t2 t1
  let t1 ← emulatedAdd E x0x1 y0y1
  let t2 ← emulatedMul E dm R.y
  emulatedAddGate E t1 t2 R.y

/-- the point that `emulated_te_ecc_add` stores, `twisted_edwards.rs:144-149`; a denominator that is zero is a
panic -/
def teSum (q d : ℕ) (P Q : ℕ × ℕ) : Option (ℕ × ℕ) :=
  let t1 : ZMod q := P.1 * Q.2
  let t2 : ZMod q := Q.1 * P.2
  let m := d * t1 * t2
  if 1 + m = 0 ∨ 1 - m = 0 then none
  else some (((t1 + t2) * (1 + m)⁻¹).val, ((P.1 * Q.1 + P.2 * Q.2) * (1 - m)⁻¹ : ZMod q).val)

/-- `emulated_te_ecc_add`, `twisted_edwards.rs:133-153` -/
def teAdd (E : Emu) (d : ℕ) (P Q : TeVar) : Build p TeVar := do
  let x0 ← emulatedWitness E P.x
  let y0 ← emulatedWitness E P.y
  let x1 ← emulatedWitness E Q.x
  let y1 ← emulatedWitness E Q.y
  match teSum E.q d (x0, y0) (x1, y1) with
  | none => Build.fail .panic
  | some R => do
    let R ← createTe E R
    teAddGate E d P Q R
    pure R

end Verif.Circuit
