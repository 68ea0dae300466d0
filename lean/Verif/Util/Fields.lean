import Verif.Util.Primality
import Verif.Hash.RescueConsts
import Mathlib.Tactic.NormNum.Prime

/-! # The moduli of the fields in use are prime

Generated certificates, checked by the kernel. -/

set_option linter.unusedSimpArgs false

namespace Verif.Fields

open Verif.Primality Verif.Rescue

theorem prime_2 : Nat.Prime 2 := by norm_num

theorem prime_11 : Nat.Prime 11 := by norm_num

theorem prime_19 : Nat.Prime 19 := by norm_num

theorem prime_10177 : Nat.Prime 10177 := by norm_num

theorem prime_125527 : Nat.Prime 125527 := by norm_num

theorem prime_859267 : Nat.Prime 859267 := by norm_num

theorem prime_906349 : Nat.Prime 906349 := by norm_num

theorem prime_52435875175126190479447740508185965837690552500527637822603658699938581184513 : Nat.Prime 52435875175126190479447740508185965837690552500527637822603658699938581184513 := by
  refine prime_of_check [(2, 32, 5), (11, 1, 2), (19, 1, 2), (10177, 1, 2), (125527, 1, 2), (859267, 1, 2), (906349, 2, 2)] ?_ (by decide +kernel)
  simp only [List.mem_cons, List.not_mem_nil, or_false, forall_eq_or_imp, forall_eq]
  exact ⟨prime_2, prime_11, prime_19, prime_10177, prime_125527, prime_859267, prime_906349⟩

theorem prime_9586122913090633729 : Nat.Prime 9586122913090633729 := by
  refine prime_of_check [(2, 46, 11)] ?_ (by decide +kernel)
  simp only [List.mem_cons, List.not_mem_nil, or_false, forall_eq_or_imp, forall_eq]
  exact prime_2

theorem prime_8444461749428370424248824938781546531375899335154063827935233455917409239041 : Nat.Prime 8444461749428370424248824938781546531375899335154063827935233455917409239041 := by
  refine prime_of_check [(9586122913090633729, 2, 2)] ?_ (by decide +kernel)
  simp only [List.mem_cons, List.not_mem_nil, or_false, forall_eq_or_imp, forall_eq]
  exact prime_9586122913090633729

theorem prime_13 : Nat.Prime 13 := by norm_num

theorem prime_29 : Nat.Prime 29 := by norm_num

theorem prime_983 : Nat.Prime 983 := by norm_num

theorem prime_11003 : Nat.Prime 11003 := by norm_num

theorem prime_237073 : Nat.Prime 237073 := by norm_num

theorem prime_3691 : Nat.Prime 3691 := by norm_num

theorem prime_405928799 : Nat.Prime 405928799 := by
  refine prime_of_check [(11, 1, 2), (3691, 1, 2)] ?_ (by decide +kernel)
  simp only [List.mem_cons, List.not_mem_nil, or_false, forall_eq_or_imp, forall_eq]
  exact ⟨prime_11, prime_3691⟩

theorem prime_7 : Nat.Prime 7 := by norm_num

theorem prime_661 : Nat.Prime 661 := by norm_num

theorem prime_12048837557 : Nat.Prime 12048837557 := by
  refine prime_of_check [(2, 2, 2), (7, 2, 2), (661, 1, 2)] ?_ (by decide +kernel)
  simp only [List.mem_cons, List.not_mem_nil, or_false, forall_eq_or_imp, forall_eq]
  exact ⟨prime_2, prime_7, prime_661⟩

theorem prime_5156902474397 : Nat.Prime 5156902474397 := by
  refine prime_of_check [(12048837557, 1, 2)] ?_ (by decide +kernel)
  simp only [List.mem_cons, List.not_mem_nil, or_false, forall_eq_or_imp, forall_eq]
  exact prime_12048837557

theorem prime_1670836401704629 : Nat.Prime 1670836401704629 := by
  refine prime_of_check [(5156902474397, 1, 2)] ?_ (by decide +kernel)
  simp only [List.mem_cons, List.not_mem_nil, or_false, forall_eq_or_imp, forall_eq]
  exact prime_5156902474397

theorem prime_21888242871839275222246405745257275088548364400416034343698204186575808495617 : Nat.Prime 21888242871839275222246405745257275088548364400416034343698204186575808495617 := by
  refine prime_of_check [(13, 1, 5), (29, 1, 2), (983, 1, 2), (11003, 1, 2), (237073, 1, 2), (405928799, 1, 2), (1670836401704629, 1, 2)] ?_ (by decide +kernel)
  simp only [List.mem_cons, List.not_mem_nil, or_false, forall_eq_or_imp, forall_eq]
  exact ⟨prime_13, prime_29, prime_983, prime_11003, prime_237073, prime_405928799, prime_1670836401704629⟩

theorem prime_1853641 : Nat.Prime 1853641 := by norm_num

theorem prime_4562087 : Nat.Prime 4562087 := by norm_num

theorem prime_13327 : Nat.Prime 13327 := by norm_num

theorem prime_173171039 : Nat.Prime 173171039 := by
  refine prime_of_check [(13327, 1, 2)] ?_ (by decide +kernel)
  simp only [List.mem_cons, List.not_mem_nil, or_false, forall_eq_or_imp, forall_eq]
  exact prime_13327

theorem prime_13427688667394608761327070753331941386769 : Nat.Prime 13427688667394608761327070753331941386769 := by
  refine prime_of_check [(1853641, 1, 2), (4562087, 1, 2), (173171039, 1, 2)] ?_ (by decide +kernel)
  simp only [List.mem_cons, List.not_mem_nil, or_false, forall_eq_or_imp, forall_eq]
  exact ⟨prime_1853641, prime_4562087, prime_173171039⟩

theorem prime_21888242871839275222246405745257275088696311157297823662689037894645226208583 : Nat.Prime 21888242871839275222246405745257275088696311157297823662689037894645226208583 := by
  refine prime_of_check [(13427688667394608761327070753331941386769, 1, 2)] ?_ (by decide +kernel)
  simp only [List.mem_cons, List.not_mem_nil, or_false, forall_eq_or_imp, forall_eq]
  exact prime_13427688667394608761327070753331941386769

theorem prime_3 : Nat.Prime 3 := by norm_num

theorem prime_53 : Nat.Prime 53 := by norm_num

theorem prime_409 : Nat.Prime 409 := by norm_num

theorem prime_499 : Nat.Prime 499 := by norm_num

theorem prime_2557 : Nat.Prime 2557 := by norm_num

theorem prime_25537 : Nat.Prime 25537 := by norm_num

theorem prime_47521 : Nat.Prime 47521 := by norm_num

theorem prime_6633514200929891813 : Nat.Prime 6633514200929891813 := by
  refine prime_of_check [(19, 1, 2), (25537, 1, 2), (47521, 1, 2)] ?_ (by decide +kernel)
  simp only [List.mem_cons, List.not_mem_nil, or_false, forall_eq_or_imp, forall_eq]
  exact ⟨prime_19, prime_25537, prime_47521⟩

theorem prime_258664426012969094010652733694893533536393512754914660539884262666720468348340822774968888139573360124440321458177 : Nat.Prime 258664426012969094010652733694893533536393512754914660539884262666720468348340822774968888139573360124440321458177 := by
  refine prime_of_checkCube 3389038011428202459292638100742428962189815956 [(2, 46, 5), (3, 1, 2), (7, 1, 2), (13, 1, 2), (53, 1, 2), (409, 1, 2), (499, 1, 2), (2557, 1, 2), (6633514200929891813, 1, 2)] ?_ (by decide +kernel)
  simp only [List.mem_cons, List.not_mem_nil, or_false, forall_eq_or_imp, forall_eq]
  exact ⟨prime_2, prime_3, prime_7, prime_13, prime_53, prime_409, prime_499, prime_2557, prime_6633514200929891813⟩

theorem prime_ed381 : Nat.Prime p_ed381 := prime_52435875175126190479447740508185965837690552500527637822603658699938581184513

theorem prime_ed377 : Nat.Prime p_ed377 := prime_8444461749428370424248824938781546531375899335154063827935233455917409239041

theorem prime_ed254 : Nat.Prime p_ed254 := prime_21888242871839275222246405745257275088548364400416034343698204186575808495617

theorem prime_fq254 : Nat.Prime p_fq254 := prime_21888242871839275222246405745257275088696311157297823662689037894645226208583

theorem prime_fq377 : Nat.Prime p_fq377 := prime_258664426012969094010652733694893533536393512754914660539884262666720468348340822774968888139573360124440321458177

end Verif.Fields
