import Verif.Util.Fields

/-! # The scalar field of `ed_on_bls12_377` has prime order

Generated certificate, checked by the kernel. -/

set_option linter.unusedSimpArgs false

namespace Verif.Fields

open Verif.Primality

theorem prime_1553 : Nat.Prime 1553 := by norm_num
theorem prime_933403 : Nat.Prime 933403 := by norm_num
theorem prime_17 : Nat.Prime 17 := by norm_num
theorem prime_71 : Nat.Prime 71 := by norm_num
theorem prime_1187 : Nat.Prime 1187 := by norm_num

theorem prime_1282495723 : Nat.Prime 1282495723 := by
  refine prime_of_check [(933403, 1, 2)] ?_ (by decide +kernel)
  simp only [List.mem_cons, List.not_mem_nil, or_false, forall_eq_or_imp, forall_eq]
  exact prime_933403

theorem prime_188799526603 : Nat.Prime 188799526603 := by
  refine prime_of_check [(17, 1, 2), (71, 1, 2), (1187, 1, 2)] ?_ (by decide +kernel)
  simp only [List.mem_cons, List.not_mem_nil, or_false, forall_eq_or_imp, forall_eq]
  exact ⟨prime_17, prime_71, prime_1187⟩

theorem prime_4153589585267 : Nat.Prime 4153589585267 := by
  refine prime_of_check [(188799526603, 1, 2)] ?_ (by decide +kernel)
  simp only [List.mem_cons, List.not_mem_nil, or_false, forall_eq_or_imp, forall_eq]
  exact prime_188799526603

theorem prime_fr_ed377 : Nat.Prime 2111115437357092606062206234695386632838870926408408195193685246394721360383 := by
  refine prime_of_checkCube 9924659832265359273570595 [(2, 1, 5), (1553, 1, 2), (1282495723, 1, 2), (4153589585267, 1, 2)]
    ?_ (by decide +kernel)
  simp only [List.mem_cons, List.not_mem_nil, or_false, forall_eq_or_imp, forall_eq]
  exact ⟨prime_2, prime_1553, prime_1282495723, prime_4153589585267⟩

end Verif.Fields
