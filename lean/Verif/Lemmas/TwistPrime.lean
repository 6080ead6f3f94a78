import Verif.Model.Field

/-! The order of the quadratic twist is four times a prime: certificates. -/

namespace Ethsnarks

theorem prime_59741922577 : Nat.Prime 59741922577 :=
  prime_of_cert _ 10 [(2, 4), (3, 1), (7, 1), (439, 1), (593, 1), (683, 1)]
    (by norm_num) (by norm_num) (by decide +kernel)
    (by
      simp only [List.mem_cons, List.not_mem_nil, or_false, forall_eq_or_imp, forall_eq]
      exact ⟨by norm_num, by norm_num, by norm_num, by norm_num, by norm_num, by norm_num⟩)
    (by decide +kernel) (by decide +kernel)

theorem prime_8919343 : Nat.Prime 8919343 :=
  prime_of_cert _ 3 [(2, 1), (3, 3), (165173, 1)]
    (by norm_num) (by norm_num) (by decide +kernel)
    (by
      simp only [List.mem_cons, List.not_mem_nil, or_false, forall_eq_or_imp, forall_eq]
      exact ⟨by norm_num, by norm_num, by norm_num⟩)
    (by decide +kernel) (by decide +kernel)

theorem prime_3816586869701 : Nat.Prime 3816586869701 :=
  prime_of_cert _ 3 [(2, 2), (5, 2), (11, 1), (389, 1), (8919343, 1)]
    (by norm_num) (by norm_num) (by decide +kernel)
    (by
      simp only [List.mem_cons, List.not_mem_nil, or_false, forall_eq_or_imp, forall_eq]
      exact ⟨by norm_num, by norm_num, by norm_num, by norm_num, prime_8919343⟩)
    (by decide +kernel) (by decide +kernel)

theorem prime_14950753 : Nat.Prime 14950753 :=
  prime_of_cert _ 5 [(2, 5), (3, 1), (17, 1), (9161, 1)]
    (by norm_num) (by norm_num) (by decide +kernel)
    (by
      simp only [List.mem_cons, List.not_mem_nil, or_false, forall_eq_or_imp, forall_eq]
      exact ⟨by norm_num, by norm_num, by norm_num, by norm_num⟩)
    (by decide +kernel) (by decide +kernel)

theorem prime_41503290329 : Nat.Prime 41503290329 :=
  prime_of_cert _ 3 [(2, 3), (347, 1), (14950753, 1)]
    (by norm_num) (by norm_num) (by decide +kernel)
    (by
      simp only [List.mem_cons, List.not_mem_nil, or_false, forall_eq_or_imp, forall_eq]
      exact ⟨by norm_num, by norm_num, prime_14950753⟩)
    (by decide +kernel) (by decide +kernel)

theorem prime_1837526927 : Nat.Prime 1837526927 :=
  prime_of_cert _ 5 [(2, 1), (26723, 1), (34381, 1)]
    (by norm_num) (by norm_num) (by decide +kernel)
    (by
      simp only [List.mem_cons, List.not_mem_nil, or_false, forall_eq_or_imp, forall_eq]
      exact ⟨by norm_num, by norm_num, by norm_num⟩)
    (by decide +kernel) (by decide +kernel)

theorem prime_9297886250621 : Nat.Prime 9297886250621 :=
  prime_of_cert _ 2 [(2, 2), (5, 1), (11, 1), (23, 1), (1837526927, 1)]
    (by norm_num) (by norm_num) (by decide +kernel)
    (by
      simp only [List.mem_cons, List.not_mem_nil, or_false, forall_eq_or_imp, forall_eq]
      exact ⟨by norm_num, by norm_num, by norm_num, by norm_num, prime_1837526927⟩)
    (by decide +kernel) (by decide +kernel)

theorem prime_10313309 : Nat.Prime 10313309 :=
  prime_of_cert _ 2 [(2, 2), (1381, 1), (1867, 1)]
    (by norm_num) (by norm_num) (by decide +kernel)
    (by
      simp only [List.mem_cons, List.not_mem_nil, or_false, forall_eq_or_imp, forall_eq]
      exact ⟨by norm_num, by norm_num, by norm_num⟩)
    (by decide +kernel) (by decide +kernel)

theorem prime_12835015267 : Nat.Prime 12835015267 :=
  prime_of_cert _ 2 [(2, 1), (3, 1), (17, 1), (23, 1), (521, 1), (10501, 1)]
    (by norm_num) (by norm_num) (by decide +kernel)
    (by
      simp only [List.mem_cons, List.not_mem_nil, or_false, forall_eq_or_imp, forall_eq]
      exact ⟨by norm_num, by norm_num, by norm_num, by norm_num, by norm_num, by norm_num⟩)
    (by decide +kernel) (by decide +kernel)

theorem prime_7942288708097310181 : Nat.Prime 7942288708097310181 :=
  prime_of_cert _ 7 [(2, 2), (3, 1), (5, 1), (10313309, 1), (12835015267, 1)]
    (by norm_num) (by norm_num) (by decide +kernel)
    (by
      simp only [List.mem_cons, List.not_mem_nil, or_false, forall_eq_or_imp, forall_eq]
      exact ⟨by norm_num, by norm_num, by norm_num, prime_10313309, prime_12835015267⟩)
    (by decide +kernel) (by decide +kernel)

theorem prime_4749488647442191488239 : Nat.Prime 4749488647442191488239 :=
  prime_of_cert _ 17 [(2, 1), (13, 1), (23, 1), (7942288708097310181, 1)]
    (by norm_num) (by norm_num) (by decide +kernel)
    (by
      simp only [List.mem_cons, List.not_mem_nil, or_false, forall_eq_or_imp, forall_eq]
      exact ⟨by norm_num, by norm_num, by norm_num, prime_7942288708097310181⟩)
    (by decide +kernel) (by decide +kernel)

theorem prime_3665587634187844321434179200578974173425763703 : Nat.Prime 3665587634187844321434179200578974173425763703 :=
  prime_of_cert _ 5 [(2, 1), (41503290329, 1), (9297886250621, 1), (4749488647442191488239, 1)]
    (by norm_num) (by norm_num) (by decide +kernel)
    (by
      simp only [List.mem_cons, List.not_mem_nil, or_false, forall_eq_or_imp, forall_eq]
      exact ⟨by norm_num, prime_41503290329, prime_9297886250621, prime_4749488647442191488239⟩)
    (by decide +kernel) (by decide +kernel)

theorem prime_73311752683756886428683584011579483468515274061 : Nat.Prime 73311752683756886428683584011579483468515274061 :=
  prime_of_cert _ 2 [(2, 2), (5, 1), (3665587634187844321434179200578974173425763703, 1)]
    (by norm_num) (by norm_num) (by decide +kernel)
    (by
      simp only [List.mem_cons, List.not_mem_nil, or_false, forall_eq_or_imp, forall_eq]
      exact ⟨by norm_num, by norm_num, prime_3665587634187844321434179200578974173425763703⟩)
    (by decide +kernel) (by decide +kernel)

theorem prime_5472060717959818805561601436314318772120554255890882653448670771391009501727 : Nat.Prime 5472060717959818805561601436314318772120554255890882653448670771391009501727 :=
  prime_of_cert _ 5 [(2, 1), (163679, 1), (59741922577, 1), (3816586869701, 1), (73311752683756886428683584011579483468515274061, 1)]
    (by norm_num) (by norm_num) (by decide +kernel)
    (by
      simp only [List.mem_cons, List.not_mem_nil, or_false, forall_eq_or_imp, forall_eq]
      exact ⟨by norm_num, by norm_num, prime_59741922577, prime_3816586869701, prime_73311752683756886428683584011579483468515274061⟩)
    (by decide +kernel) (by decide +kernel)

end Ethsnarks
