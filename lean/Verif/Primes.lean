import Mathlib.NumberTheory.LucasPrimality
import Mathlib.Tactic.NormNum.Prime
import Mathlib.Algebra.BigOperators.Group.List.Lemmas

/-! # Primality of the moduli the code works with

Lucas certificates for the BN254 scalar field (the native field of the circuits), the BLS12-381 base and scalar fields
and the edwards25519 base field and group order.  The kernel evaluates the modular powers. -/

namespace Verif

/-- Square-and-multiply modulo `n`, at most `f` bits of exponent. -/
def powMod (n : ℕ) : ℕ → ℕ → ℕ → ℕ
  | 0, _, _ => 1 % n
  | f + 1, b, e => if e % 2 = 1 then b * powMod n f (b * b % n) (e / 2) % n else powMod n f (b * b % n) (e / 2)

theorem powMod_cast (n : ℕ) (f : ℕ) : ∀ (b e : ℕ), e < 2 ^ f → ((powMod n f b e : ℕ) : ZMod n) = (b : ZMod n) ^ e := by
  induction f with
  | zero =>
    intro b e he
    have : e = 0 := by simpa using he
    subst this
    simp [powMod]
  | succ f ih =>
    intro b e he
    have h2 : e / 2 < 2 ^ f := by
      rw [pow_succ] at he
      omega
    have key : ((powMod n f (b * b % n) (e / 2) : ℕ) : ZMod n) = (b : ZMod n) ^ (2 * (e / 2)) := by
      rw [ih _ _ h2, ZMod.natCast_mod, Nat.cast_mul, ← pow_two, ← pow_mul]
    unfold powMod
    split
    · rename_i h
      rw [ZMod.natCast_mod, Nat.cast_mul, key, ← pow_succ']
      congr 1
      omega
    · rw [key]
      congr 1
      omega

/-- Lucas' criterion with an explicit factorisation of `n - 1`. -/
theorem lucas_list (n a : ℕ) (L : List (ℕ × ℕ))
    (hprod : 1 < n ∧ n - 1 < 2 ^ 500 ∧ (L.map fun x => x.1 ^ x.2).prod = n - 1)
    (hpr : ∀ x ∈ L, Nat.Prime x.1)
    (hc : powMod n 500 a (n - 1) = 1 ∧ ∀ x ∈ L, powMod n 500 a ((n - 1) / x.1) ≠ 1 ∧
      powMod n 500 a ((n - 1) / x.1) < n) :
    Nat.Prime n := by
  obtain ⟨h1, hb, hp⟩ := hprod
  obtain ⟨hc1, hc2⟩ := hc
  refine lucas_primality n (a : ZMod n) ?_ ?_
  · rw [← powMod_cast n 500 a _ hb, hc1]; simp
  · intro s hs hd
    rw [← hp] at hd
    obtain ⟨y, hy, hsy⟩ := (Prime.dvd_prod_iff hs.prime).1 hd
    obtain ⟨x, hx, rfl⟩ := List.mem_map.1 hy
    have e : s = x.1 := (Nat.prime_dvd_prime_iff_eq hs (hpr x hx)).1 (hs.dvd_of_dvd_pow hsy)
    subst e
    obtain ⟨h2, h3⟩ := hc2 x hx
    rw [← powMod_cast n 500 a _ (lt_of_le_of_lt (Nat.div_le_self _ _) hb)]
    intro hh
    apply h2
    have : ((powMod n 500 a ((n - 1) / x.1) : ℕ) : ZMod n) = ((1 : ℕ) : ZMod n) := by simpa using hh
    rw [ZMod.natCast_eq_natCast_iff'] at this
    rwa [Nat.mod_eq_of_lt h3, Nat.mod_eq_of_lt h1] at this

theorem prime_2 : Nat.Prime 2 := by norm_num

theorem prime_3 : Nat.Prime 3 := by norm_num

theorem prime_11 : Nat.Prime 11 := by norm_num

theorem prime_23 : Nat.Prime 23 := by norm_num

theorem prime_47 : Nat.Prime 47 := by norm_num

theorem prime_10177 : Nat.Prime 10177 := by norm_num

theorem prime_47737 : Nat.Prime 47737 := by norm_num

theorem prime_859267 :
    Nat.Prime 859267 := by
  refine lucas_list 859267 2 [(2, 1), (3, 2), (47737, 1)] (by decide +kernel) ?_ (by decide +kernel)
  simp only [List.forall_mem_cons, List.not_mem_nil, false_imp_iff, implies_true, and_true]
  exact ⟨prime_2, prime_3, prime_47737⟩

theorem prime_43 : Nat.Prime 43 := by norm_num

theorem prime_7 : Nat.Prime 7 := by norm_num

theorem prime_97 : Nat.Prime 97 := by norm_num

theorem prime_449 : Nat.Prime 449 := by norm_num

theorem prime_609743 :
    Nat.Prime 609743 := by
  refine lucas_list 609743 5 [(2, 1), (7, 1), (97, 1), (449, 1)] (by decide +kernel) ?_ (by decide +kernel)
  simp only [List.forall_mem_cons, List.not_mem_nil, false_imp_iff, implies_true, and_true]
  exact ⟨prime_2, prime_7, prime_97, prime_449⟩

theorem prime_52437899 :
    Nat.Prime 52437899 := by
  refine lucas_list 52437899 2 [(2, 1), (43, 1), (609743, 1)] (by decide +kernel) ?_ (by decide +kernel)
  simp only [List.forall_mem_cons, List.not_mem_nil, false_imp_iff, implies_true, and_true]
  exact ⟨prime_2, prime_43, prime_609743⟩

theorem prime_89 : Nat.Prime 89 := by norm_num

theorem prime_941 : Nat.Prime 941 := by norm_num

theorem prime_13 : Nat.Prime 13 := by norm_num

theorem prime_5 : Nat.Prime 5 := by norm_num

theorem prime_7577 : Nat.Prime 7577 := by norm_num

theorem prime_67 : Nat.Prime 67 := by norm_num

theorem prime_4349 : Nat.Prime 4349 := by norm_num

theorem prime_582767 :
    Nat.Prime 582767 := by
  refine lucas_list 582767 5 [(2, 1), (67, 1), (4349, 1)] (by decide +kernel) ?_ (by decide +kernel)
  simp only [List.forall_mem_cons, List.not_mem_nil, false_imp_iff, implies_true, and_true]
  exact ⟨prime_2, prime_67, prime_4349⟩

theorem prime_9272813673901 :
    Nat.Prime 9272813673901 := by
  refine lucas_list 9272813673901 2 [(2, 2), (3, 1), (5, 2), (7, 1), (7577, 1), (582767, 1)] (by decide +kernel) ?_ (by decide +kernel)
  simp only [List.forall_mem_cons, List.not_mem_nil, false_imp_iff, implies_true, and_true]
  exact ⟨prime_2, prime_3, prime_5, prime_7, prime_7577, prime_582767⟩

theorem prime_1928745244171409 :
    Nat.Prime 1928745244171409 := by
  refine lucas_list 1928745244171409 3 [(2, 4), (13, 1), (9272813673901, 1)] (by decide +kernel) ?_ (by decide +kernel)
  simp only [List.forall_mem_cons, List.not_mem_nil, false_imp_iff, implies_true, and_true]
  exact ⟨prime_2, prime_13, prime_9272813673901⟩

theorem prime_7259797099061183477 :
    Nat.Prime 7259797099061183477 := by
  refine lucas_list 7259797099061183477 2 [(2, 2), (941, 1), (1928745244171409, 1)] (by decide +kernel) ?_ (by decide +kernel)
  simp only [List.forall_mem_cons, List.not_mem_nil, false_imp_iff, implies_true, and_true]
  exact ⟨prime_2, prime_941, prime_1928745244171409⟩

theorem prime_2584487767265781317813 :
    Nat.Prime 2584487767265781317813 := by
  refine lucas_list 2584487767265781317813 2 [(2, 2), (89, 1), (7259797099061183477, 1)] (by decide +kernel) ?_ (by decide +kernel)
  simp only [List.forall_mem_cons, List.not_mem_nil, false_imp_iff, implies_true, and_true]
  exact ⟨prime_2, prime_89, prime_7259797099061183477⟩

theorem prime_53 : Nat.Prime 53 := by norm_num

theorem prime_191 : Nat.Prime 191 := by norm_num

theorem prime_1686913 :
    Nat.Prime 1686913 := by
  refine lucas_list 1686913 10 [(2, 7), (3, 1), (23, 1), (191, 1)] (by decide +kernel) ?_ (by decide +kernel)
  simp only [List.forall_mem_cons, List.not_mem_nil, false_imp_iff, implies_true, and_true]
  exact ⟨prime_2, prime_3, prime_23, prime_191⟩

theorem prime_475709467 :
    Nat.Prime 475709467 := by
  refine lucas_list 475709467 2 [(2, 1), (3, 1), (47, 1), (1686913, 1)] (by decide +kernel) ?_ (by decide +kernel)
  simp only [List.forall_mem_cons, List.not_mem_nil, false_imp_iff, implies_true, and_true]
  exact ⟨prime_2, prime_3, prime_47, prime_1686913⟩

theorem prime_31 : Nat.Prime 31 := by norm_num

theorem prime_467 : Nat.Prime 467 := by norm_num

theorem prime_16447 : Nat.Prime 16447 := by norm_num

theorem prime_409 : Nat.Prime 409 := by norm_num

theorem prime_43591 : Nat.Prime 43591 := by norm_num

theorem prime_927093389 :
    Nat.Prime 927093389 := by
  refine lucas_list 927093389 3 [(2, 2), (13, 1), (409, 1), (43591, 1)] (by decide +kernel) ?_ (by decide +kernel)
  simp only [List.forall_mem_cons, List.not_mem_nil, false_imp_iff, implies_true, and_true]
  exact ⟨prime_2, prime_13, prime_409, prime_43591⟩

theorem prime_64881703735777 :
    Nat.Prime 64881703735777 := by
  refine lucas_list 64881703735777 5 [(2, 5), (3, 7), (927093389, 1)] (by decide +kernel) ?_ (by decide +kernel)
  simp only [List.forall_mem_cons, List.not_mem_nil, false_imp_iff, implies_true, and_true]
  exact ⟨prime_2, prime_3, prime_927093389⟩

theorem prime_92691255082156974996979 :
    Nat.Prime 92691255082156974996979 := by
  refine lucas_list 92691255082156974996979 3 [(2, 1), (3, 1), (31, 1), (467, 1), (16447, 1), (64881703735777, 1)] (by decide +kernel) ?_ (by decide +kernel)
  simp only [List.forall_mem_cons, List.not_mem_nil, false_imp_iff, implies_true, and_true]
  exact ⟨prime_2, prime_3, prime_31, prime_467, prime_16447, prime_64881703735777⟩

theorem prime_3373 : Nat.Prime 3373 := by norm_num

theorem prime_17 : Nat.Prime 17 := by norm_num

theorem prime_151 : Nat.Prime 151 := by norm_num

theorem prime_8101 : Nat.Prime 8101 := by norm_num

theorem prime_51376543 :
    Nat.Prime 51376543 := by
  refine lucas_list 51376543 3 [(2, 1), (3, 1), (7, 1), (151, 1), (8101, 1)] (by decide +kernel) ?_ (by decide +kernel)
  simp only [List.forall_mem_cons, List.not_mem_nil, false_imp_iff, implies_true, and_true]
  exact ⟨prime_2, prime_3, prime_7, prime_151, prime_8101⟩

theorem prime_43670061551 :
    Nat.Prime 43670061551 := by
  refine lucas_list 43670061551 7 [(2, 1), (5, 2), (17, 1), (51376543, 1)] (by decide +kernel) ?_ (by decide +kernel)
  simp only [List.forall_mem_cons, List.not_mem_nil, false_imp_iff, implies_true, and_true]
  exact ⟨prime_2, prime_5, prime_17, prime_51376543⟩

theorem prime_19 : Nat.Prime 19 := by norm_num

theorem prime_113 : Nat.Prime 113 := by norm_num

theorem prime_41 : Nat.Prime 41 := by norm_num

theorem prime_1151 : Nat.Prime 1151 := by norm_num

theorem prime_755057 :
    Nat.Prime 755057 := by
  refine lucas_list 755057 3 [(2, 4), (41, 1), (1151, 1)] (by decide +kernel) ?_ (by decide +kernel)
  simp only [List.forall_mem_cons, List.not_mem_nil, false_imp_iff, implies_true, and_true]
  exact ⟨prime_2, prime_41, prime_1151⟩

theorem prime_1327 : Nat.Prime 1327 := by norm_num

theorem prime_421987 :
    Nat.Prime 421987 := by
  refine lucas_list 421987 2 [(2, 1), (3, 1), (53, 1), (1327, 1)] (by decide +kernel) ?_ (by decide +kernel)
  simp only [List.forall_mem_cons, List.not_mem_nil, false_imp_iff, implies_true, and_true]
  exact ⟨prime_2, prime_3, prime_53, prime_1327⟩

theorem prime_13090036741 :
    Nat.Prime 13090036741 := by
  refine lucas_list 13090036741 10 [(2, 2), (3, 1), (5, 1), (11, 1), (47, 1), (421987, 1)] (by decide +kernel) ?_ (by decide +kernel)
  simp only [List.forall_mem_cons, List.not_mem_nil, false_imp_iff, implies_true, and_true]
  exact ⟨prime_2, prime_3, prime_5, prime_11, prime_47, prime_421987⟩

theorem prime_3819663927398918131021 :
    Nat.Prime 3819663927398918131021 := by
  refine lucas_list 3819663927398918131021 6 [(2, 2), (3, 2), (5, 1), (19, 1), (113, 1), (755057, 1), (13090036741, 1)] (by decide +kernel) ?_ (by decide +kernel)
  simp only [List.forall_mem_cons, List.not_mem_nil, false_imp_iff, implies_true, and_true]
  exact ⟨prime_2, prime_3, prime_5, prime_19, prime_113, prime_755057, prime_13090036741⟩

theorem prime_1125266252156850182658904441386709967 :
    Nat.Prime 1125266252156850182658904441386709967 := by
  refine lucas_list 1125266252156850182658904441386709967 5 [(2, 1), (3373, 1), (43670061551, 1), (3819663927398918131021, 1)] (by decide +kernel) ?_ (by decide +kernel)
  simp only [List.forall_mem_cons, List.not_mem_nil, false_imp_iff, implies_true, and_true]
  exact ⟨prime_2, prime_3373, prime_43670061551, prime_3819663927398918131021⟩

theorem prime_15778400344354997994418419698270088123916926905054652752758194827714659 :
    Nat.Prime 15778400344354997994418419698270088123916926905054652752758194827714659 := by
  refine lucas_list 15778400344354997994418419698270088123916926905054652752758194827714659 2 [(2, 1), (3, 1), (53, 1), (475709467, 1), (92691255082156974996979, 1), (1125266252156850182658904441386709967, 1)] (by decide +kernel) ?_ (by decide +kernel)
  simp only [List.forall_mem_cons, List.not_mem_nil, false_imp_iff, implies_true, and_true]
  exact ⟨prime_2, prime_3, prime_53, prime_475709467, prime_92691255082156974996979, prime_1125266252156850182658904441386709967⟩

theorem prime_4002409555221667393417789825735904156556882819939007885332058136124031650490837864442687629129015664037894272559787 :
    Nat.Prime 4002409555221667393417789825735904156556882819939007885332058136124031650490837864442687629129015664037894272559787 := by
  refine lucas_list 4002409555221667393417789825735904156556882819939007885332058136124031650490837864442687629129015664037894272559787 2 [(2, 1), (3, 2), (11, 1), (23, 1), (47, 1), (10177, 1), (859267, 1), (52437899, 1), (2584487767265781317813, 1), (15778400344354997994418419698270088123916926905054652752758194827714659, 1)] (by decide +kernel) ?_ (by decide +kernel)
  simp only [List.forall_mem_cons, List.not_mem_nil, false_imp_iff, implies_true, and_true]
  exact ⟨prime_2, prime_3, prime_11, prime_23, prime_47, prime_10177, prime_859267, prime_52437899, prime_2584487767265781317813, prime_15778400344354997994418419698270088123916926905054652752758194827714659⟩

theorem prime_20921 : Nat.Prime 20921 := by norm_num

theorem prime_125527 :
    Nat.Prime 125527 := by
  refine lucas_list 125527 5 [(2, 1), (3, 1), (20921, 1)] (by decide +kernel) ?_ (by decide +kernel)
  simp only [List.forall_mem_cons, List.not_mem_nil, false_imp_iff, implies_true, and_true]
  exact ⟨prime_2, prime_3, prime_20921⟩

theorem prime_1607 : Nat.Prime 1607 := by norm_num

theorem prime_906349 :
    Nat.Prime 906349 := by
  refine lucas_list 906349 2 [(2, 2), (3, 1), (47, 1), (1607, 1)] (by decide +kernel) ?_ (by decide +kernel)
  simp only [List.forall_mem_cons, List.not_mem_nil, false_imp_iff, implies_true, and_true]
  exact ⟨prime_2, prime_3, prime_47, prime_1607⟩

theorem prime_79 : Nat.Prime 79 := by norm_num

theorem prime_2508409 :
    Nat.Prime 2508409 := by
  refine lucas_list 2508409 11 [(2, 3), (3, 4), (7, 2), (79, 1)] (by decide +kernel) ?_ (by decide +kernel)
  simp only [List.forall_mem_cons, List.not_mem_nil, false_imp_iff, implies_true, and_true]
  exact ⟨prime_2, prime_3, prime_7, prime_79⟩

theorem prime_18329 : Nat.Prime 18329 := by norm_num

theorem prime_2529403 :
    Nat.Prime 2529403 := by
  refine lucas_list 2529403 2 [(2, 1), (3, 1), (23, 1), (18329, 1)] (by decide +kernel) ?_ (by decide +kernel)
  simp only [List.forall_mem_cons, List.not_mem_nil, false_imp_iff, implies_true, and_true]
  exact ⟨prime_2, prime_3, prime_23, prime_18329⟩

theorem prime_359 : Nat.Prime 359 := by norm_num

theorem prime_110573 :
    Nat.Prime 110573 := by
  refine lucas_list 110573 3 [(2, 2), (7, 1), (11, 1), (359, 1)] (by decide +kernel) ?_ (by decide +kernel)
  simp only [List.forall_mem_cons, List.not_mem_nil, false_imp_iff, implies_true, and_true]
  exact ⟨prime_2, prime_7, prime_11, prime_359⟩

theorem prime_2653753 :
    Nat.Prime 2653753 := by
  refine lucas_list 2653753 5 [(2, 3), (3, 1), (110573, 1)] (by decide +kernel) ?_ (by decide +kernel)
  simp only [List.forall_mem_cons, List.not_mem_nil, false_imp_iff, implies_true, and_true]
  exact ⟨prime_2, prime_3, prime_110573⟩

theorem prime_63690073 :
    Nat.Prime 63690073 := by
  refine lucas_list 63690073 7 [(2, 3), (3, 1), (2653753, 1)] (by decide +kernel) ?_ (by decide +kernel)
  simp only [List.forall_mem_cons, List.not_mem_nil, false_imp_iff, implies_true, and_true]
  exact ⟨prime_2, prime_3, prime_2653753⟩

theorem prime_254760293 :
    Nat.Prime 254760293 := by
  refine lucas_list 254760293 2 [(2, 2), (63690073, 1)] (by decide +kernel) ?_ (by decide +kernel)
  simp only [List.forall_mem_cons, List.not_mem_nil, false_imp_iff, implies_true, and_true]
  exact ⟨prime_2, prime_63690073⟩

theorem prime_52435875175126190479447740508185965837690552500527637822603658699938581184513 :
    Nat.Prime 52435875175126190479447740508185965837690552500527637822603658699938581184513 := by
  refine lucas_list 52435875175126190479447740508185965837690552500527637822603658699938581184513 7 [(2, 32), (3, 1), (11, 1), (19, 1), (10177, 1), (125527, 1), (859267, 1), (906349, 2), (2508409, 1), (2529403, 1), (52437899, 1), (254760293, 2)] (by decide +kernel) ?_ (by decide +kernel)
  simp only [List.forall_mem_cons, List.not_mem_nil, false_imp_iff, implies_true, and_true]
  exact ⟨prime_2, prime_3, prime_11, prime_19, prime_10177, prime_125527, prime_859267, prime_906349, prime_2508409, prime_2529403, prime_52437899, prime_254760293⟩

theorem prime_29 : Nat.Prime 29 := by norm_num

theorem prime_983 : Nat.Prime 983 := by norm_num

theorem prime_11003 : Nat.Prime 11003 := by norm_num

theorem prime_237073 :
    Nat.Prime 237073 := by
  refine lucas_list 237073 15 [(2, 4), (3, 1), (11, 1), (449, 1)] (by decide +kernel) ?_ (by decide +kernel)
  simp only [List.forall_mem_cons, List.not_mem_nil, false_imp_iff, implies_true, and_true]
  exact ⟨prime_2, prime_3, prime_11, prime_449⟩

theorem prime_3691 : Nat.Prime 3691 := by norm_num

theorem prime_4999 : Nat.Prime 4999 := by norm_num

theorem prime_405928799 :
    Nat.Prime 405928799 := by
  refine lucas_list 405928799 22 [(2, 1), (11, 1), (3691, 1), (4999, 1)] (by decide +kernel) ?_ (by decide +kernel)
  simp only [List.forall_mem_cons, List.not_mem_nil, false_imp_iff, implies_true, and_true]
  exact ⟨prime_2, prime_11, prime_3691, prime_4999⟩

theorem prime_107 : Nat.Prime 107 := by norm_num

theorem prime_661 : Nat.Prime 661 := by norm_num

theorem prime_93001 : Nat.Prime 93001 := by norm_num

theorem prime_12048837557 :
    Nat.Prime 12048837557 := by
  refine lucas_list 12048837557 2 [(2, 2), (7, 2), (661, 1), (93001, 1)] (by decide +kernel) ?_ (by decide +kernel)
  simp only [List.forall_mem_cons, List.not_mem_nil, false_imp_iff, implies_true, and_true]
  exact ⟨prime_2, prime_7, prime_661, prime_93001⟩

theorem prime_5156902474397 :
    Nat.Prime 5156902474397 := by
  refine lucas_list 5156902474397 2 [(2, 2), (107, 1), (12048837557, 1)] (by decide +kernel) ?_ (by decide +kernel)
  simp only [List.forall_mem_cons, List.not_mem_nil, false_imp_iff, implies_true, and_true]
  exact ⟨prime_2, prime_107, prime_12048837557⟩

theorem prime_1670836401704629 :
    Nat.Prime 1670836401704629 := by
  refine lucas_list 1670836401704629 2 [(2, 2), (3, 4), (5156902474397, 1)] (by decide +kernel) ?_ (by decide +kernel)
  simp only [List.forall_mem_cons, List.not_mem_nil, false_imp_iff, implies_true, and_true]
  exact ⟨prime_2, prime_3, prime_5156902474397⟩

theorem prime_823 : Nat.Prime 823 := by norm_num

theorem prime_41927 : Nat.Prime 41927 := by norm_num

theorem prime_1593227 :
    Nat.Prime 1593227 := by
  refine lucas_list 1593227 2 [(2, 1), (19, 1), (41927, 1)] (by decide +kernel) ?_ (by decide +kernel)
  simp only [List.forall_mem_cons, List.not_mem_nil, false_imp_iff, implies_true, and_true]
  exact ⟨prime_2, prime_19, prime_41927⟩

theorem prime_83 : Nat.Prime 83 := by norm_num

theorem prime_379 : Nat.Prime 379 := by norm_num

theorem prime_1637 : Nat.Prime 1637 := by norm_num

theorem prime_229 : Nat.Prime 229 := by norm_num

theorem prime_853 : Nat.Prime 853 := by norm_num

theorem prime_639533339 :
    Nat.Prime 639533339 := by
  refine lucas_list 639533339 2 [(2, 1), (229, 1), (853, 1), (1637, 1)] (by decide +kernel) ?_ (by decide +kernel)
  simp only [List.forall_mem_cons, List.not_mem_nil, false_imp_iff, implies_true, and_true]
  exact ⟨prime_2, prime_229, prime_853, prime_1637⟩

theorem prime_65865678001877903 :
    Nat.Prime 65865678001877903 := by
  refine lucas_list 65865678001877903 5 [(2, 1), (83, 1), (379, 1), (1637, 1), (639533339, 1)] (by decide +kernel) ?_ (by decide +kernel)
  simp only [List.forall_mem_cons, List.not_mem_nil, false_imp_iff, implies_true, and_true]
  exact ⟨prime_2, prime_83, prime_379, prime_1637, prime_639533339⟩

theorem prime_13818364434197438864469338081 :
    Nat.Prime 13818364434197438864469338081 := by
  refine lucas_list 13818364434197438864469338081 3 [(2, 5), (5, 1), (823, 1), (1593227, 1), (65865678001877903, 1)] (by decide +kernel) ?_ (by decide +kernel)
  simp only [List.forall_mem_cons, List.not_mem_nil, false_imp_iff, implies_true, and_true]
  exact ⟨prime_2, prime_5, prime_823, prime_1593227, prime_65865678001877903⟩

theorem prime_21888242871839275222246405745257275088548364400416034343698204186575808495617 :
    Nat.Prime 21888242871839275222246405745257275088548364400416034343698204186575808495617 := by
  refine lucas_list 21888242871839275222246405745257275088548364400416034343698204186575808495617 5 [(2, 28), (3, 2), (13, 1), (29, 1), (983, 1), (11003, 1), (237073, 1), (405928799, 1), (1670836401704629, 1), (13818364434197438864469338081, 1)] (by decide +kernel) ?_ (by decide +kernel)
  simp only [List.forall_mem_cons, List.not_mem_nil, false_imp_iff, implies_true, and_true]
  exact ⟨prime_2, prime_3, prime_13, prime_29, prime_983, prime_11003, prime_237073, prime_405928799, prime_1670836401704629, prime_13818364434197438864469338081⟩

theorem prime_65147 : Nat.Prime 65147 := by norm_num

theorem prime_353 : Nat.Prime 353 := by norm_num

theorem prime_57467 : Nat.Prime 57467 := by norm_num

theorem prime_131 : Nat.Prime 131 := by norm_num

theorem prime_132049 :
    Nat.Prime 132049 := by
  refine lucas_list 132049 26 [(2, 4), (3, 2), (7, 1), (131, 1)] (by decide +kernel) ?_ (by decide +kernel)
  simp only [List.forall_mem_cons, List.not_mem_nil, false_imp_iff, implies_true, and_true]
  exact ⟨prime_2, prime_3, prime_7, prime_131⟩

theorem prime_3727 : Nat.Prime 3727 := by norm_num

theorem prime_1923133 :
    Nat.Prime 1923133 := by
  refine lucas_list 1923133 2 [(2, 2), (3, 1), (43, 1), (3727, 1)] (by decide +kernel) ?_ (by decide +kernel)
  simp only [List.forall_mem_cons, List.not_mem_nil, false_imp_iff, implies_true, and_true]
  exact ⟨prime_2, prime_3, prime_43, prime_3727⟩

theorem prime_223 : Nat.Prime 223 := by norm_num

theorem prime_4153 : Nat.Prime 4153 := by norm_num

theorem prime_1723 : Nat.Prime 1723 := by norm_num

theorem prime_430751 :
    Nat.Prime 430751 := by
  refine lucas_list 430751 17 [(2, 1), (5, 3), (1723, 1)] (by decide +kernel) ?_ (by decide +kernel)
  simp only [List.forall_mem_cons, List.not_mem_nil, false_imp_iff, implies_true, and_true]
  exact ⟨prime_2, prime_5, prime_1723⟩

theorem prime_31757755568855353 :
    Nat.Prime 31757755568855353 := by
  refine lucas_list 31757755568855353 10 [(2, 3), (3, 1), (31, 1), (107, 1), (223, 1), (4153, 1), (430751, 1)] (by decide +kernel) ?_ (by decide +kernel)
  simp only [List.forall_mem_cons, List.not_mem_nil, false_imp_iff, implies_true, and_true]
  exact ⟨prime_2, prime_3, prime_31, prime_107, prime_223, prime_4153, prime_430751⟩

theorem prime_75707 : Nat.Prime 75707 := by norm_num

theorem prime_2437 : Nat.Prime 2437 := by norm_num

theorem prime_419 : Nat.Prime 419 := by norm_num

theorem prime_569003 :
    Nat.Prime 569003 := by
  refine lucas_list 569003 2 [(2, 1), (7, 1), (97, 1), (419, 1)] (by decide +kernel) ?_ (by decide +kernel)
  simp only [List.forall_mem_cons, List.not_mem_nil, false_imp_iff, implies_true, and_true]
  exact ⟨prime_2, prime_7, prime_97, prime_419⟩

theorem prime_2773320623 :
    Nat.Prime 2773320623 := by
  refine lucas_list 2773320623 5 [(2, 1), (2437, 1), (569003, 1)] (by decide +kernel) ?_ (by decide +kernel)
  simp only [List.forall_mem_cons, List.not_mem_nil, false_imp_iff, implies_true, and_true]
  exact ⟨prime_2, prime_2437, prime_569003⟩

theorem prime_72106336199 :
    Nat.Prime 72106336199 := by
  refine lucas_list 72106336199 7 [(2, 1), (13, 1), (2773320623, 1)] (by decide +kernel) ?_ (by decide +kernel)
  simp only [List.forall_mem_cons, List.not_mem_nil, false_imp_iff, implies_true, and_true]
  exact ⟨prime_2, prime_13, prime_2773320623⟩

theorem prime_127 : Nat.Prime 127 := by norm_num

theorem prime_103 : Nat.Prime 103 := by norm_num

theorem prime_991 : Nat.Prime 991 := by norm_num

theorem prime_8574133 :
    Nat.Prime 8574133 := by
  refine lucas_list 8574133 2 [(2, 2), (3, 1), (7, 1), (103, 1), (991, 1)] (by decide +kernel) ?_ (by decide +kernel)
  simp only [List.forall_mem_cons, List.not_mem_nil, false_imp_iff, implies_true, and_true]
  exact ⟨prime_2, prime_3, prime_7, prime_103, prime_991⟩

theorem prime_1919519569386763 :
    Nat.Prime 1919519569386763 := by
  refine lucas_list 1919519569386763 2 [(2, 1), (3, 1), (7, 1), (19, 1), (47, 2), (127, 1), (8574133, 1)] (by decide +kernel) ?_ (by decide +kernel)
  simp only [List.forall_mem_cons, List.not_mem_nil, false_imp_iff, implies_true, and_true]
  exact ⟨prime_2, prime_3, prime_7, prime_19, prime_47, prime_127, prime_8574133⟩

theorem prime_75445702479781427272750846543864801 :
    Nat.Prime 75445702479781427272750846543864801 := by
  refine lucas_list 75445702479781427272750846543864801 7 [(2, 5), (3, 2), (5, 2), (75707, 1), (72106336199, 1), (1919519569386763, 1)] (by decide +kernel) ?_ (by decide +kernel)
  simp only [List.forall_mem_cons, List.not_mem_nil, false_imp_iff, implies_true, and_true]
  exact ⟨prime_2, prime_3, prime_5, prime_75707, prime_72106336199, prime_1919519569386763⟩

theorem prime_74058212732561358302231226437062788676166966415465897661863160754340907 :
    Nat.Prime 74058212732561358302231226437062788676166966415465897661863160754340907 := by
  refine lucas_list 74058212732561358302231226437062788676166966415465897661863160754340907 2 [(2, 1), (3, 1), (353, 1), (57467, 1), (132049, 1), (1923133, 1), (31757755568855353, 1), (75445702479781427272750846543864801, 1)] (by decide +kernel) ?_ (by decide +kernel)
  simp only [List.forall_mem_cons, List.not_mem_nil, false_imp_iff, implies_true, and_true]
  exact ⟨prime_2, prime_3, prime_353, prime_57467, prime_132049, prime_1923133, prime_31757755568855353, prime_75445702479781427272750846543864801⟩

theorem prime_57896044618658097711785492504343953926634992332820282019728792003956564819949 :
    Nat.Prime 57896044618658097711785492504343953926634992332820282019728792003956564819949 := by
  refine lucas_list 57896044618658097711785492504343953926634992332820282019728792003956564819949 2 [(2, 2), (3, 1), (65147, 1), (74058212732561358302231226437062788676166966415465897661863160754340907, 1)] (by decide +kernel) ?_ (by decide +kernel)
  simp only [List.forall_mem_cons, List.not_mem_nil, false_imp_iff, implies_true, and_true]
  exact ⟨prime_2, prime_3, prime_65147, prime_74058212732561358302231226437062788676166966415465897661863160754340907⟩

theorem prime_34123 : Nat.Prime 34123 := by norm_num

theorem prime_409477 :
    Nat.Prime 409477 := by
  refine lucas_list 409477 2 [(2, 2), (3, 1), (34123, 1)] (by decide +kernel) ?_ (by decide +kernel)
  simp only [List.forall_mem_cons, List.not_mem_nil, false_imp_iff, implies_true, and_true]
  exact ⟨prime_2, prime_3, prime_34123⟩

theorem prime_14741173 :
    Nat.Prime 14741173 := by
  refine lucas_list 14741173 2 [(2, 2), (3, 2), (409477, 1)] (by decide +kernel) ?_ (by decide +kernel)
  simp only [List.forall_mem_cons, List.not_mem_nil, false_imp_iff, implies_true, and_true]
  exact ⟨prime_2, prime_3, prime_409477⟩

theorem prime_58964693 :
    Nat.Prime 58964693 := by
  refine lucas_list 58964693 2 [(2, 2), (14741173, 1)] (by decide +kernel) ?_ (by decide +kernel)
  simp only [List.forall_mem_cons, List.not_mem_nil, false_imp_iff, implies_true, and_true]
  exact ⟨prime_2, prime_14741173⟩

theorem prime_30703 : Nat.Prime 30703 := by norm_num

theorem prime_82163 : Nat.Prime 82163 := by norm_num

theorem prime_22111 : Nat.Prime 22111 := by norm_num

theorem prime_132667 :
    Nat.Prime 132667 := by
  refine lucas_list 132667 5 [(2, 1), (3, 1), (22111, 1)] (by decide +kernel) ?_ (by decide +kernel)
  simp only [List.forall_mem_cons, List.not_mem_nil, false_imp_iff, implies_true, and_true]
  exact ⟨prime_2, prime_3, prime_22111⟩

theorem prime_17231 : Nat.Prime 17231 := by norm_num

theorem prime_137849 :
    Nat.Prime 137849 := by
  refine lucas_list 137849 3 [(2, 3), (17231, 1)] (by decide +kernel) ?_ (by decide +kernel)
  simp only [List.forall_mem_cons, List.not_mem_nil, false_imp_iff, implies_true, and_true]
  exact ⟨prime_2, prime_17231⟩

theorem prime_3044861653679985063343 :
    Nat.Prime 3044861653679985063343 := by
  refine lucas_list 3044861653679985063343 5 [(2, 1), (3, 1), (11, 1), (30703, 1), (82163, 1), (132667, 1), (137849, 1)] (by decide +kernel) ?_ (by decide +kernel)
  simp only [List.forall_mem_cons, List.not_mem_nil, false_imp_iff, implies_true, and_true]
  exact ⟨prime_2, prime_3, prime_11, prime_30703, prime_82163, prime_132667, prime_137849⟩

theorem prime_198211423230930754013084525763697 :
    Nat.Prime 198211423230930754013084525763697 := by
  refine lucas_list 198211423230930754013084525763697 5 [(2, 4), (3, 1), (23, 1), (58964693, 1), (3044861653679985063343, 1)] (by decide +kernel) ?_ (by decide +kernel)
  simp only [List.forall_mem_cons, List.not_mem_nil, false_imp_iff, implies_true, and_true]
  exact ⟨prime_2, prime_3, prime_23, prime_58964693, prime_3044861653679985063343⟩

theorem prime_269 : Nat.Prime 269 := by norm_num

theorem prime_73 : Nat.Prime 73 := by norm_num

theorem prime_307 : Nat.Prime 307 := by norm_num

theorem prime_5879 : Nat.Prime 5879 := by norm_num

theorem prime_292386187 :
    Nat.Prime 292386187 := by
  refine lucas_list 292386187 2 [(2, 1), (3, 4), (307, 1), (5879, 1)] (by decide +kernel) ?_ (by decide +kernel)
  simp only [List.forall_mem_cons, List.not_mem_nil, false_imp_iff, implies_true, and_true]
  exact ⟨prime_2, prime_3, prime_307, prime_5879⟩

theorem prime_213441916511 :
    Nat.Prime 213441916511 := by
  refine lucas_list 213441916511 13 [(2, 1), (5, 1), (73, 1), (292386187, 1)] (by decide +kernel) ?_ (by decide +kernel)
  simp only [List.forall_mem_cons, List.not_mem_nil, false_imp_iff, implies_true, and_true]
  exact ⟨prime_2, prime_5, prime_73, prime_292386187⟩

theorem prime_1361 : Nat.Prime 1361 := by norm_num

theorem prime_2851 : Nat.Prime 2851 := by norm_num

theorem prime_3797 : Nat.Prime 3797 := by norm_num

theorem prime_531581 :
    Nat.Prime 531581 := by
  refine lucas_list 531581 2 [(2, 2), (5, 1), (7, 1), (3797, 1)] (by decide +kernel) ?_ (by decide +kernel)
  simp only [List.forall_mem_cons, List.not_mem_nil, false_imp_iff, implies_true, and_true]
  exact ⟨prime_2, prime_5, prime_7, prime_3797⟩

theorem prime_2551 : Nat.Prime 2551 := by norm_num

theorem prime_1224481 :
    Nat.Prime 1224481 := by
  refine lucas_list 1224481 13 [(2, 5), (3, 1), (5, 1), (2551, 1)] (by decide +kernel) ?_ (by decide +kernel)
  simp only [List.forall_mem_cons, List.not_mem_nil, false_imp_iff, implies_true, and_true]
  exact ⟨prime_2, prime_3, prime_5, prime_2551⟩

theorem prime_1257559732178653 :
    Nat.Prime 1257559732178653 := by
  refine lucas_list 1257559732178653 2 [(2, 2), (3, 1), (7, 1), (23, 1), (531581, 1), (1224481, 1)] (by decide +kernel) ?_ (by decide +kernel)
  simp only [List.forall_mem_cons, List.not_mem_nil, false_imp_iff, implies_true, and_true]
  exact ⟨prime_2, prime_3, prime_7, prime_23, prime_531581, prime_1224481⟩

theorem prime_4434155615661930479 :
    Nat.Prime 4434155615661930479 := by
  refine lucas_list 4434155615661930479 17 [(2, 1), (41, 1), (43, 1), (1257559732178653, 1)] (by decide +kernel) ?_ (by decide +kernel)
  simp only [List.forall_mem_cons, List.not_mem_nil, false_imp_iff, implies_true, and_true]
  exact ⟨prime_2, prime_41, prime_43, prime_1257559732178653⟩

theorem prime_172054593956031949258510691 :
    Nat.Prime 172054593956031949258510691 := by
  refine lucas_list 172054593956031949258510691 2 [(2, 1), (5, 1), (1361, 1), (2851, 1), (4434155615661930479, 1)] (by decide +kernel) ?_ (by decide +kernel)
  simp only [List.forall_mem_cons, List.not_mem_nil, false_imp_iff, implies_true, and_true]
  exact ⟨prime_2, prime_5, prime_1361, prime_2851, prime_4434155615661930479⟩

theorem prime_19757330305831588566944191468367130476339 :
    Nat.Prime 19757330305831588566944191468367130476339 := by
  refine lucas_list 19757330305831588566944191468367130476339 2 [(2, 1), (269, 1), (213441916511, 1), (172054593956031949258510691, 1)] (by decide +kernel) ?_ (by decide +kernel)
  simp only [List.forall_mem_cons, List.not_mem_nil, false_imp_iff, implies_true, and_true]
  exact ⟨prime_2, prime_269, prime_213441916511, prime_172054593956031949258510691⟩

theorem prime_276602624281642239937218680557139826668747 :
    Nat.Prime 276602624281642239937218680557139826668747 := by
  refine lucas_list 276602624281642239937218680557139826668747 2 [(2, 1), (7, 1), (19757330305831588566944191468367130476339, 1)] (by decide +kernel) ?_ (by decide +kernel)
  simp only [List.forall_mem_cons, List.not_mem_nil, false_imp_iff, implies_true, and_true]
  exact ⟨prime_2, prime_7, prime_19757330305831588566944191468367130476339⟩

theorem prime_7237005577332262213973186563042994240857116359379907606001950938285454250989 :
    Nat.Prime 7237005577332262213973186563042994240857116359379907606001950938285454250989 := by
  refine lucas_list 7237005577332262213973186563042994240857116359379907606001950938285454250989 2 [(2, 2), (3, 1), (11, 1), (198211423230930754013084525763697, 1), (276602624281642239937218680557139826668747, 1)] (by decide +kernel) ?_ (by decide +kernel)
  simp only [List.forall_mem_cons, List.not_mem_nil, false_imp_iff, implies_true, and_true]
  exact ⟨prime_2, prime_3, prime_11, prime_198211423230930754013084525763697, prime_276602624281642239937218680557139826668747⟩

/-- The BN254 scalar field modulus. -/
def bn254r : ℕ := 21888242871839275222246405745257275088548364400416034343698204186575808495617

instance fact_bn254r : Fact (Nat.Prime bn254r) :=
  ⟨prime_21888242871839275222246405745257275088548364400416034343698204186575808495617⟩

end Verif
