import Verif.Proof.Primality

/-!
# Primality certificates for the order of the twist and for the discriminant
-/

namespace Zerocaf
namespace Primality

theorem prime_1764313 : Nat.Prime 1764313 := by
  refine pratt 21 1764313 5
    [(2, 3), (3, 1), (11, 1), (41, 1), (163, 1)] (by decide +kernel) ?_
  simp only [List.forall_mem_cons, List.not_mem_nil, false_implies, implies_true, and_true]
  exact ⟨by norm_num, by norm_num, by norm_num, by norm_num, by norm_num⟩

theorem prime_327732120834113 : Nat.Prime 327732120834113 := by
  refine pratt 49 327732120834113 3
    [(2, 6), (61, 1), (47581, 1), (1764313, 1)] (by decide +kernel) ?_
  simp only [List.forall_mem_cons, List.not_mem_nil, false_implies, implies_true, and_true]
  exact ⟨by norm_num, by norm_num, by norm_num, prime_1764313⟩

theorem prime_40071806414386996511 : Nat.Prime 40071806414386996511 := by
  refine pratt 66 40071806414386996511 11
    [(2, 1), (5, 1), (12227, 1), (327732120834113, 1)] (by decide +kernel) ?_
  simp only [List.forall_mem_cons, List.not_mem_nil, false_implies, implies_true, and_true]
  exact ⟨by norm_num, by norm_num, by norm_num, prime_327732120834113⟩

theorem prime_472308131 : Nat.Prime 472308131 := by
  refine pratt 29 472308131 10
    [(2, 1), (5, 1), (7, 1), (43, 1), (156913, 1)] (by decide +kernel) ?_
  simp only [List.forall_mem_cons, List.not_mem_nil, false_implies, implies_true, and_true]
  exact ⟨by norm_num, by norm_num, by norm_num, by norm_num, by norm_num⟩

theorem prime_4967736921859 : Nat.Prime 4967736921859 := by
  refine pratt 43 4967736921859 2
    [(2, 1), (3, 1), (1753, 1), (472308131, 1)] (by decide +kernel) ?_
  simp only [List.forall_mem_cons, List.not_mem_nil, false_implies, implies_true, and_true]
  exact ⟨by norm_num, by norm_num, by norm_num, prime_472308131⟩

theorem prime_99436412879 : Nat.Prime 99436412879 := by
  refine pratt 37 99436412879 11
    [(2, 1), (11, 1), (281, 1), (983, 1), (16363, 1)] (by decide +kernel) ?_
  simp only [List.forall_mem_cons, List.not_mem_nil, false_implies, implies_true, and_true]
  exact ⟨by norm_num, by norm_num, by norm_num, by norm_num, by norm_num⟩

theorem prime_198872825759 : Nat.Prime 198872825759 := by
  refine pratt 38 198872825759 11
    [(2, 1), (99436412879, 1)] (by decide +kernel) ?_
  simp only [List.forall_mem_cons, List.not_mem_nil, false_implies, implies_true, and_true]
  exact ⟨by norm_num, prime_99436412879⟩

theorem prime_144390024159715879 : Nat.Prime 144390024159715879 := by
  refine pratt 58 144390024159715879 3
    [(2, 1), (3, 1), (121007, 1), (198872825759, 1)] (by decide +kernel) ?_
  simp only [List.forall_mem_cons, List.not_mem_nil, false_implies, implies_true, and_true]
  exact ⟨by norm_num, by norm_num, by norm_num, prime_198872825759⟩

theorem prime_741298384035981322787 : Nat.Prime 741298384035981322787 := by
  refine pratt 70 741298384035981322787 2
    [(2, 1), (17, 1), (151, 1), (144390024159715879, 1)] (by decide +kernel) ?_
  simp only [List.forall_mem_cons, List.not_mem_nil, false_implies, implies_true, and_true]
  exact ⟨by norm_num, by norm_num, by norm_num, prime_144390024159715879⟩

theorem prime_7365150704979913443124612950202067 : Nat.Prime 7365150704979913443124612950202067 := by
  refine pratt 113 7365150704979913443124612950202067 2
    [(2, 1), (4967736921859, 1), (741298384035981322787, 1)] (by decide +kernel) ?_
  simp only [List.forall_mem_cons, List.not_mem_nil, false_implies, implies_true, and_true]
  exact ⟨by norm_num, prime_4967736921859, prime_741298384035981322787⟩

theorem prime_7777599144458788595939591275413382753 : Nat.Prime 7777599144458788595939591275413382753 := by
  refine pratt 123 7777599144458788595939591275413382753 5
    [(2, 5), (3, 1), (11, 1), (7365150704979913443124612950202067, 1)] (by decide +kernel) ?_
  simp only [List.forall_mem_cons, List.not_mem_nil, false_implies, implies_true, and_true]
  exact ⟨by norm_num, by norm_num, by norm_num, prime_7365150704979913443124612950202067⟩

theorem prime_1809251394333065553493296640760748560192233568137954612408278327457774000433 : Nat.Prime 1809251394333065553493296640760748560192233568137954612408278327457774000433 := by
  refine pratt 250 1809251394333065553493296640760748560192233568137954612408278327457774000433 3
    [(2, 4), (47, 1), (1153, 1), (2837, 1), (20183, 1), (116929, 1), (40071806414386996511, 1), (7777599144458788595939591275413382753, 1)] (by decide +kernel) ?_
  simp only [List.forall_mem_cons, List.not_mem_nil, false_implies, implies_true, and_true]
  exact ⟨by norm_num, by norm_num, by norm_num, by norm_num, by norm_num, by norm_num, prime_40071806414386996511, prime_7777599144458788595939591275413382753⟩

theorem prime_15846943951 : Nat.Prime 15846943951 := by
  refine pratt 34 15846943951 6
    [(2, 1), (3, 3), (5, 2), (89, 1), (131893, 1)] (by decide +kernel) ?_
  simp only [List.forall_mem_cons, List.not_mem_nil, false_implies, implies_true, and_true]
  exact ⟨by norm_num, by norm_num, by norm_num, by norm_num, by norm_num⟩

theorem prime_1284268031676943 : Nat.Prime 1284268031676943 := by
  refine pratt 51 1284268031676943 5
    [(2, 1), (3, 1), (13, 1), (1039, 1), (15846943951, 1)] (by decide +kernel) ?_
  simp only [List.forall_mem_cons, List.not_mem_nil, false_implies, implies_true, and_true]
  exact ⟨by norm_num, by norm_num, by norm_num, by norm_num, prime_15846943951⟩

theorem prime_9314420119 : Nat.Prime 9314420119 := by
  refine pratt 34 9314420119 3
    [(2, 1), (3, 1), (17093, 1), (90821, 1)] (by decide +kernel) ?_
  simp only [List.forall_mem_cons, List.not_mem_nil, false_implies, implies_true, and_true]
  exact ⟨by norm_num, by norm_num, by norm_num, by norm_num⟩

theorem prime_983030834487880084651 : Nat.Prime 983030834487880084651 := by
  refine pratt 70 983030834487880084651 3
    [(2, 1), (3, 1), (5, 2), (3527, 1), (199487, 1), (9314420119, 1)] (by decide +kernel) ?_
  simp only [List.forall_mem_cons, List.not_mem_nil, false_implies, implies_true, and_true]
  exact ⟨by norm_num, by norm_num, by norm_num, by norm_num, by norm_num, prime_9314420119⟩

theorem prime_1593985074347 : Nat.Prime 1593985074347 := by
  refine pratt 41 1593985074347 2
    [(2, 1), (7, 1), (31, 1), (53, 1), (97, 1), (463, 1), (1543, 1)] (by decide +kernel) ?_
  simp only [List.forall_mem_cons, List.not_mem_nil, false_implies, implies_true, and_true]
  exact ⟨by norm_num, by norm_num, by norm_num, by norm_num, by norm_num, by norm_num, by norm_num⟩

theorem prime_8003089 : Nat.Prime 8003089 := by
  refine pratt 23 8003089 11
    [(2, 4), (3, 2), (149, 1), (373, 1)] (by decide +kernel) ?_
  simp only [List.forall_mem_cons, List.not_mem_nil, false_implies, implies_true, and_true]
  exact ⟨by norm_num, by norm_num, by norm_num, by norm_num⟩

theorem prime_1810634771647000234619 : Nat.Prime 1810634771647000234619 := by
  refine pratt 71 1810634771647000234619 2
    [(2, 1), (59, 1), (6043, 1), (9349, 1), (33937, 1), (8003089, 1)] (by decide +kernel) ?_
  simp only [List.forall_mem_cons, List.not_mem_nil, false_implies, implies_true, and_true]
  exact ⟨by norm_num, by norm_num, by norm_num, by norm_num, by norm_num, prime_8003089⟩

theorem prime_1881753370316552587875387939158653037 : Nat.Prime 1881753370316552587875387939158653037 := by
  refine pratt 121 1881753370316552587875387939158653037 2
    [(2, 2), (163, 1), (1593985074347, 1), (1810634771647000234619, 1)] (by decide +kernel) ?_
  simp only [List.forall_mem_cons, List.not_mem_nil, false_implies, implies_true, and_true]
  exact ⟨by norm_num, by norm_num, prime_1593985074347, prime_1810634771647000234619⟩

end Primality
end Zerocaf
