import Verif.Circuit.Ecc
import Verif.Util.Fields
import Mathlib.NumberTheory.LegendreSymbol.Basic

/-!
# The twisted Edwards curves used with the gadgets

The constants are those of the arkworks crates `ark-ed-on-bn254`, `ark-ed-on-bls12-377`,
`ark-ed-on-bls12-381`, `ark-ed-on-bls12-381-bandersnatch` and `ark-bls12-377` (`g1`, in twisted
Edwards form); these crates are not part of the repository.
-/

namespace Verif.Curves

open Verif.Circuit Verif.Rescue Verif.Primality

instance fact254 : Fact (Nat.Prime p_ed254) := ⟨Fields.prime_ed254⟩
instance fact377 : Fact (Nat.Prime p_ed377) := ⟨Fields.prime_ed377⟩
instance fact381 : Fact (Nat.Prime p_ed381) := ⟨Fields.prime_ed381⟩
instance factQ377 : Fact (Nat.Prime p_fq377) := ⟨Fields.prime_fq377⟩

/-- `ark_ed_on_bn254::EdwardsConfig` -/
def edBn254 : TE p_ed254 where
  a := 1
  d := 9706598848417545097372247223557719406784115219466060233080913168975159366771
  r := 2736030358979909402780800718157159386076813972158567259200215660948447373041

/-- `ark_ed_on_bls12_377::EdwardsConfig` -/
def edBls377 : TE p_ed377 where
  a := -1
  d := 3021
  r := 2111115437357092606062206234695386632838870926408408195193685246394721360383

/-- `ark_ed_on_bls12_381::EdwardsConfig` (Jubjub) -/
def edBls381 : TE p_ed381 where
  a := -1
  d := 19257038036680949359750312669786877991949435402254120286184196891950884077233
  r := 6554484396890773809930967563523245729705921265872317281365359162392183254199

/-- `ark_ed_on_bls12_381_bandersnatch::EdwardsConfig` -/
def bandersnatch : TE p_ed381 where
  a := -5
  d := 45022363124591815672509500913686876175488063829319466900776701791074614335719
  r := 13108968793781547619861935127046491459309155893440570251786403306729687672801

/-- `ark_bls12_377::g1::Config`, twisted Edwards form -/
def g1Bls377 : TE p_fq377 where
  a := -1
  d := 122268283598675559488486339158635529096981886914877139579534153582033676785385790730042363341236035746924960903179
  r := p_ed377

/-- Euler's criterion with an evaluated power -/
theorem not_square {p : ℕ} [Fact p.Prime] {x : ZMod p} {n : ℕ} (hx : (n : ZMod p) = x) (h0 : n % p ≠ 0)
    (he : p / 2 < 2 ^ 512) (h1 : powMod p n (p / 2) ≠ 1) (hl : powMod p n (p / 2) < p) : ¬ IsSquare x := by
  have hp1 : 1 < p := (Fact.out : p.Prime).one_lt
  have hx0 : x ≠ 0 := by
    rw [← hx]
    intro h
    exact h0 (Nat.mod_eq_zero_of_dvd ((ZMod.natCast_eq_zero_iff _ _).1 h))
  rw [ZMod.euler_criterion p hx0, ← hx, ← powMod_cast he]
  intro h
  apply h1
  have := congrArg ZMod.val h
  rwa [ZMod.val_natCast_of_lt hl, ZMod.val_one] at this

theorem edBn254_d : ¬ IsSquare edBn254.d :=
  not_square (n := 9706598848417545097372247223557719406784115219466060233080913168975159366771)
    (by decide +kernel) (by decide +kernel) (by decide +kernel) (by decide +kernel) (by decide +kernel)

theorem edBls377_d : ¬ IsSquare edBls377.d :=
  not_square (n := 3021)
    (by decide +kernel) (by decide +kernel) (by decide +kernel) (by decide +kernel) (by decide +kernel)

theorem edBls381_d : ¬ IsSquare edBls381.d :=
  not_square (n := 19257038036680949359750312669786877991949435402254120286184196891950884077233)
    (by decide +kernel) (by decide +kernel) (by decide +kernel) (by decide +kernel) (by decide +kernel)

theorem bandersnatch_d : ¬ IsSquare bandersnatch.d :=
  not_square (n := 45022363124591815672509500913686876175488063829319466900776701791074614335719)
    (by decide +kernel) (by decide +kernel) (by decide +kernel) (by decide +kernel) (by decide +kernel)

theorem bandersnatch_a : ¬ IsSquare (-bandersnatch.a) :=
  not_square (n := 5)
    (by decide +kernel) (by decide +kernel) (by decide +kernel) (by decide +kernel) (by decide +kernel)

theorem edBn254_a : IsSquare edBn254.a := ⟨1, by decide +kernel⟩
theorem edBls377_a : IsSquare edBls377.a := ⟨880904806456922042258150504921383618666682042621506879489, by decide +kernel⟩
theorem edBls381_a : IsSquare edBls381.a := ⟨3465144826073652318776269530687742778270252468765361963008, by decide +kernel⟩

theorem two_254 : (2 : ZMod p_ed254) ≠ 0 := by decide +kernel
theorem two_377 : (2 : ZMod p_ed377) ≠ 0 := by decide +kernel
theorem two_381 : (2 : ZMod p_ed381) ≠ 0 := by decide +kernel

/-- all points of the curve -/
def edBn254G : EdGroup (ZMod p_ed254) := EdGroup.complete edBn254.a edBn254.d two_254 edBn254_a edBn254_d
/-- all points of the curve -/
def edBls377G : EdGroup (ZMod p_ed377) := EdGroup.complete edBls377.a edBls377.d two_377 edBls377_a edBls377_d
/-- all points of the curve -/
def edBls381G : EdGroup (ZMod p_ed381) := EdGroup.complete edBls381.a edBls381.d two_381 edBls381_a edBls381_d
/-- the points of Bandersnatch with `1 - d x²` a square -/
def bandersnatchG : EdGroup (ZMod p_ed381) := EdGroup.half bandersnatch.a bandersnatch.d bandersnatch_a bandersnatch_d

end Verif.Curves
