import Mathlib.Data.ZMod.Basic
import Mathlib.Algebra.Field.Defs

/-! # A small prime field for the examples

The integers modulo 101 with an inverse (`x^99`) that the kernel can evaluate; used only in
`example`s and counterexamples. -/

namespace Verif

def F101 : Type := ZMod 101

instance : CommRing F101 := inferInstanceAs (CommRing (ZMod 101))
instance : DecidableEq F101 := inferInstanceAs (DecidableEq (ZMod 101))
instance : Fintype F101 := inferInstanceAs (Fintype (ZMod 101))

@[irreducible] def F101.inv (x : F101) : F101 := x ^ 99

instance : Inv F101 := ⟨F101.inv⟩

instance : Div F101 := ⟨fun a b => a * F101.inv b⟩

instance : Field F101 where
  div_eq_mul_inv := fun _ _ => rfl
  exists_pair_ne := ⟨0, 1, by decide +kernel⟩
  mul_inv_cancel := by decide +kernel
  inv_zero := by decide +kernel
  nnqsmul := _
  qsmul := _

end Verif
