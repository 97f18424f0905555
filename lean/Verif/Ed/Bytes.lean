import Verif.Ed.Spec

/-! # The byte-level part of the Ed25519 verifier -/

namespace Verif.Ed
open Verif.Ec Api

variable {p : ℕ}

/-- A list of integers as circuit values. -/
def castL (l : List ℕ) : List (F p) := l.map fun b => ((b : ℕ) : F p)

/-- The low `n` bits of `v` as booleans. -/
def bitL (n v : ℕ) : List Bool := (List.range n).map v.testBit

theorem bitL_len (n v : ℕ) : (bitL n v).length = n := by simp [bitL]

theorem bitL_append {a v : ℕ} (b w : ℕ) (h : v < 2 ^ a) : bitL a v ++ bitL b w = bitL (a + b) (v + 2 ^ a * w) := by
  apply List.ext_getElem
  · simp [bitL]
  · intro i h1 h2
    simp only [bitL, List.getElem_map, List.getElem_range]
    by_cases hi : i < a
    · rw [List.getElem_append_left (by simpa using hi)]
      simp only [List.getElem_map, List.getElem_range]
      rw [add_comm, Nat.testBit_two_pow_mul_add _ h, if_pos hi]
    · rw [List.getElem_append_right (by simpa using hi)]
      simp only [List.getElem_map, List.getElem_range, List.length_map, List.length_range]
      rw [add_comm, Nat.testBit_two_pow_mul_add _ h, if_neg hi]

theorem natOfBits_slice (n v k m : ℕ) (hk : k + m ≤ n) : natOfBits (((bitL n v).drop k).take m) = v / 2 ^ k % 2 ^ m := by
  apply Nat.eq_of_testBit_eq
  intro i
  rw [testBit_natOfBits, Nat.testBit_mod_two_pow, Nat.testBit_div_two_pow]
  by_cases hi : i < m
  · have : i < (((bitL n v).drop k).take m).length := by simp [bitL]; omega
    rw [List.getD_eq_getElem _ _ this]
    simp [bitL, hi, add_comm]
  · rw [List.getD_eq_default _ _ (by simp [bitL]; omega)]
    simp [hi]

theorem toBinary_bits (x : F p) (n : ℕ) : toBinary x n = if x.val < 2 ^ n then some ((bitL n x.val).map ofB) else none := by
  unfold toBinary
  split
  · congr 1
    simp [bitL, bit, ofB, Function.comp_def]
  · rfl

theorem mapM_some {α β : Type} (l : List α) (f : α → Option β) (g : α → β) (h : ∀ x ∈ l, f x = some (g x)) : l.mapM f = some (l.map g) := by
  induction l with
  | nil => rfl
  | cons x l ih =>
    rw [List.mapM_cons, h x (by simp), ih fun y hy => h y (by simp [hy])]
    rfl

section
variable [Fact (1 < p)]

theorem byteSlices_eq (n v : ℕ) : byteSlices ((bitL (8 * n) v).map ofB) n = some (castL (leBytes n v) : List (F p)) := by
  unfold byteSlices
  rw [mapM_some _ _ (fun i => ((v / 256 ^ i % 256 : ℕ) : F p))]
  · simp [castL, leBytes, Function.comp_def]
  · intro i hi
    rw [List.mem_range] at hi
    rw [← List.map_drop, ← List.map_take, fromBinary_ofB, natOfBits_slice _ _ _ _ (by omega), mul_comm, pow_mul,
      show 2 ^ 8 = 256 by norm_num]

theorem copy_eq (v : ℕ) : copyFieldElement v = if v < 2 ^ 255 then some (castL (leBytes 32 v) : List (F p)) else none := by
  unfold copyFieldElement
  by_cases hv : v < 2 ^ 255
  · rw [if_neg (by omega), if_pos hv]
    simp only [Option.pure_def, Option.bind_eq_bind, Option.bind_some]
    rw [mapM_some _ _ (fun i => ((v / 256 ^ i % 256 : ℕ) : F p))]
    · simp [castL, leBytes, Function.comp_def]
    · intro i hi
      rw [List.mem_range] at hi
      have hm : ((List.range 255).map fun i => (ofB (v.testBit i) : F p)) = (bitL 255 v).map ofB := by simp [bitL, Function.comp_def]
      rw [hm]
      split
      · rename_i h31
        subst h31
        rw [← List.map_drop, fromBinary_ofB, ← List.take_length (l := (bitL 255 v).drop (31 * 8))]
        rw [natOfBits_slice _ _ _ _ (by simp [bitL])]
        congr 2
        rw [List.length_drop, bitL_len]
        rw [show 2 ^ (31 * 8) = 256 ^ 31 by norm_num, Nat.mod_eq_of_lt, Nat.mod_eq_of_lt]
        · apply Nat.div_lt_of_lt_mul
          exact lt_of_lt_of_le hv (by norm_num)
        · apply Nat.div_lt_of_lt_mul
          exact lt_of_lt_of_le hv (by norm_num)
      · rw [← List.map_drop, ← List.map_take, fromBinary_ofB, natOfBits_slice _ _ _ _ (by omega), mul_comm, pow_mul,
      show 2 ^ 8 = 256 by norm_num]
  · rw [if_pos (by omega), if_neg hv]
    rfl

theorem leBytes_len (n v : ℕ) : (leBytes n v).length = n := by simp [leBytes]

theorem leBytes_get {n v i : ℕ} (h : i < n) : (leBytes n v)[i]'(by rw [leBytes_len]; exact h) = v / 256 ^ i % 256 := by
  simp [leBytes]

theorem castL_getD (n v i : ℕ) (h : i < n) : (castL (leBytes n v) : List (F p)).getD i 0 = ((v / 256 ^ i % 256 : ℕ) : F p) := by
  rw [List.getD_eq_getElem _ _ (by simp [castL, leBytes, h])]
  simp [castL, leBytes]

theorem val_byte (hp : 256 ≤ p) (v : ℕ) : ((v % 256 : ℕ) : F p).val = v % 256 :=
  ZMod.val_natCast_of_lt (lt_of_lt_of_le (Nat.mod_lt _ (by norm_num)) hp)

theorem bytes_eq (hp : 256 ≤ p) (x y : ℕ) :
    bytes x y = if x < 2 ^ 255 ∧ y < 2 ^ 255 then some (castL (encodeXY x y) : List (F p)) else none := by
  unfold bytes
  rw [copy_eq, copy_eq]
  by_cases hx : x < 2 ^ 255
  · by_cases hy : y < 2 ^ 255
    · rw [if_pos hx, if_pos hy, if_pos ⟨hx, hy⟩]
      simp only [Option.pure_def, Option.bind_eq_bind, Option.bind_some]
      rw [castL_getD _ _ _ (by norm_num), castL_getD _ _ _ (by norm_num), toBinary_bits, toBinary_bits, val_byte hp, val_byte hp,
        if_pos (by have := Nat.mod_lt (x / 256 ^ 0) (show 0 < 256 by norm_num); omega),
        if_pos (by have := Nat.mod_lt (y / 256 ^ 31) (show 0 < 256 by norm_num); omega)]
      simp only [Option.bind_some]
      have hy31 : y / 256 ^ 31 % 256 = y / 256 ^ 31 := Nat.mod_eq_of_lt (Nat.div_lt_of_lt_mul (lt_of_lt_of_le hy (by norm_num)))
      have hlt : y / 256 ^ 31 < 128 := Nat.div_lt_of_lt_mul (lt_of_lt_of_le hy (by norm_num))
      rw [hy31]
      generalize hY : y / 256 ^ 31 = Y at *
      have h7 : ((bitL 8 Y).map (ofB (p := p))).getD 7 0 = ofB false := by
        rw [List.getD_eq_getElem _ _ (by simp [bitL])]
        simp [bitL]
        have : Y.testBit 7 = false := Nat.testBit_lt_two_pow hlt
        rw [this]
        rfl
      have h0 : ((bitL 8 (x / 256 ^ 0 % 256)).map (ofB (p := p))).getD 0 0 = ofB (decide (x % 2 = 1)) := by
        rw [List.getD_eq_getElem _ _ (by simp [bitL])]
        simp [bitL, Nat.testBit_zero]
      rw [h7, h0, or_ofB]
      simp only [Option.bind_some, Bool.false_or]
      have hset : ((bitL 8 Y).map (ofB (p := p))).set 7 (ofB (decide (x % 2 = 1)))
          = (bitL 8 (Y + 128 * (x % 2))).map ofB := by
        rw [← List.map_set]
        congr 1
        apply List.ext_getElem
        · simp [bitL]
        · intro i h1 h2
          have hi : i < 8 := by simpa [bitL] using h2
          rw [List.getElem_set]
          simp only [bitL, List.getElem_map, List.getElem_range]
          rw [add_comm Y, show 128 = 2 ^ 7 by norm_num, Nat.testBit_two_pow_mul_add _ hlt]
          by_cases h7' : 7 = i
          · rw [if_pos h7', if_neg (by omega), ← h7', Nat.sub_self, Nat.testBit_zero]
            simp
          · rw [if_neg h7', if_pos (by omega)]
      rw [hset, fromBinary_ofB]
      simp only [Option.bind_some]
      have hle : Y + 128 * (x % 2) < 2 ^ 8 := by omega
      rw [show natOfBits (bitL 8 (Y + 128 * (x % 2))) = Y + 128 * (x % 2) from natOfBits_testBit _ _ hle]
      congr 1
      unfold castL
      rw [← List.map_set]
      congr 1
      apply List.ext_getElem
      · simp [leBytes, encodeXY]
      · intro i h1 h2
        have hi : i < 32 := by simpa [encodeXY, leBytes] using h2
        rw [List.getElem_set]
        simp only [encodeXY, leBytes, List.getElem_map, List.getElem_range]
        by_cases h31 : 31 = i
        · rw [if_pos h31, ← h31, show 2 ^ 255 * (x % 2) = 256 ^ 31 * (128 * (x % 2)) by ring, Nat.add_mul_div_left _ _ (by positivity), hY,
            Nat.mod_eq_of_lt (lt_of_lt_of_eq hle (by norm_num))]
        · rw [if_neg h31, show 2 ^ 255 * (x % 2) = 256 ^ i * (256 * (2 ^ (247 - 8 * i) * (x % 2))) by
              rw [show (256 : ℕ) = 2 ^ 8 by norm_num, ← pow_mul, ← mul_assoc, ← mul_assoc, ← pow_add, ← pow_add]
              congr 2; omega,
            Nat.add_mul_div_left _ _ (by positivity), Nat.add_mul_mod_self_left]
    · rw [if_pos hx, if_neg hy, if_neg (by tauto)]
      simp only [Option.bind_eq_bind, Option.bind_some, Option.bind_none, Option.bind_fun_none]
  · have : ¬ (x < 2 ^ 255 ∧ y < 2 ^ 255) := fun h => hx h.1
    rw [if_neg hx, if_neg this]
    rfl

theorem leBytes_append {m v : ℕ} (n w : ℕ) (h : v < 256 ^ m) : leBytes (m + n) (v + 256 ^ m * w) = leBytes m v ++ leBytes n w := by
  apply List.ext_getElem
  · simp [leBytes]
  · intro i h1 h2
    simp only [leBytes, List.getElem_map, List.getElem_range]
    by_cases hi : i < m
    · rw [List.getElem_append_left (by simpa using hi)]
      simp only [List.getElem_map, List.getElem_range]
      obtain ⟨j, rfl⟩ : ∃ j, m = i + 1 + j := ⟨m - (i + 1), by omega⟩
      rw [show 256 ^ (i + 1 + j) * w = 256 ^ i * (256 * (256 ^ j * w)) by rw [pow_add, pow_succ]; ring,
        Nat.add_mul_div_left _ _ (by positivity), Nat.add_mul_mod_self_left]
    · rw [List.getElem_append_right (by simpa using hi)]
      simp only [List.getElem_map, List.getElem_range, List.length_map, List.length_range]
      obtain ⟨j, rfl⟩ : ∃ j, i = m + j := ⟨i - m, by omega⟩
      rw [Nat.add_sub_cancel_left, pow_add, ← Nat.div_div_eq_div_mul, Nat.add_mul_div_left _ _ (by positivity), Nat.div_eq_of_lt h, zero_add]

/-- The bytes `recomposePbKey` produces. -/
def pkBytes (v0 v1 : ℕ) : List ℕ := beBytes 16 v0 ++ beBytes 16 v1

/-- The bytes `recomposeMsg` produces. -/
def msgBytes (m : Fin 5 → ℕ) : List ℕ := beBytes 25 (m 0) ++ beBytes 25 (m 1) ++ beBytes 25 (m 2) ++ beBytes 25 (m 3) ++ beBytes 22 (m 4)

theorem castL_reverse (l : List ℕ) : (castL l : List (F p)).reverse = castL l.reverse := by simp [castL]

theorem recomposePbKey_eq (v0 v1 : F p) (t : List (F p)) :
    recomposePbKey (v0 :: v1 :: t) = if v0.val < 2 ^ 128 ∧ v1.val < 2 ^ 128 then some (castL (pkBytes v0.val v1.val)) else none := by
  unfold recomposePbKey
  simp only [List.getElem?_cons_succ, List.getElem?_cons_zero, Option.bind_eq_bind, Option.bind_some, toBinary_bits]
  by_cases h1 : v1.val < 2 ^ 128
  · by_cases h0 : v0.val < 2 ^ 128
    · rw [if_pos h1, if_pos h0, if_pos ⟨h0, h1⟩]
      simp only [Option.bind_some]
      rw [← List.map_append, bitL_append _ _ h1, show 128 + 128 = 8 * 32 by norm_num, byteSlices_eq]
      simp only [Option.bind_some, Option.pure_def]
      rw [castL_reverse, show 2 ^ 128 = 256 ^ 16 by norm_num, show 32 = 16 + 16 by norm_num,
        leBytes_append _ _ (lt_of_lt_of_eq h1 (by norm_num)), List.reverse_append]
      rfl
    · rw [if_pos h1, if_neg h0, if_neg (by tauto)]
      rfl
  · have : ¬ (v0.val < 2 ^ 128 ∧ v1.val < 2 ^ 128) := fun h => h1 h.2
    rw [if_neg h1, if_neg this]
    rfl

theorem lt_cat {a b v w : ℕ} (hv : v < 2 ^ a) (hw : w < 2 ^ b) : v + 2 ^ a * w < 2 ^ (a + b) := by
  have h : 2 ^ a * (w + 1) ≤ 2 ^ a * 2 ^ b := Nat.mul_le_mul_left _ hw
  rw [pow_add]
  rw [mul_add, mul_one] at h
  omega

theorem recomposeMsg_eq (msg : Fin 5 → F p) :
    recomposeMsg msg = if (∀ i : Fin 4, (msg i.castSucc).val < 2 ^ 200) ∧ (msg 4).val < 2 ^ 176
      then some (castL (msgBytes fun i => (msg i).val)) else none := by
  have hall : (∀ i : Fin 4, (msg i.castSucc).val < 2 ^ 200)
      ↔ (msg 0).val < 2 ^ 200 ∧ (msg 1).val < 2 ^ 200 ∧ (msg 2).val < 2 ^ 200 ∧ (msg 3).val < 2 ^ 200 := by
    constructor
    · intro h; exact ⟨h 0, h 1, h 2, h 3⟩
    · rintro ⟨a, b, c, d⟩ i
      fin_cases i
      exacts [a, b, c, d]
  suffices h : recomposeMsg msg = if ((msg 0).val < 2 ^ 200 ∧ (msg 1).val < 2 ^ 200 ∧ (msg 2).val < 2 ^ 200 ∧ (msg 3).val < 2 ^ 200)
      ∧ (msg 4).val < 2 ^ 176 then some (castL (msgBytes fun i => (msg i).val)) else none by
    rw [h]
    simp only [hall]
  unfold recomposeMsg
  simp only [toBinary_bits, Option.bind_eq_bind]
  by_cases h4 : (msg 4).val < 2 ^ 176
  swap
  · have : ¬ (((msg 0).val < 2 ^ 200 ∧ (msg 1).val < 2 ^ 200 ∧ (msg 2).val < 2 ^ 200 ∧ (msg 3).val < 2 ^ 200)
      ∧ (msg 4).val < 2 ^ 176) := fun h => h4 h.2
    rw [if_neg h4, if_neg this]; rfl
  by_cases h3 : (msg 3).val < 2 ^ 200
  swap
  · have : ¬ (((msg 0).val < 2 ^ 200 ∧ (msg 1).val < 2 ^ 200 ∧ (msg 2).val < 2 ^ 200 ∧ (msg 3).val < 2 ^ 200)
      ∧ (msg 4).val < 2 ^ 176) := fun h => h3 h.1.2.2.2
    rw [if_pos h4, if_neg h3, if_neg this]; rfl
  by_cases h2 : (msg 2).val < 2 ^ 200
  swap
  · have : ¬ (((msg 0).val < 2 ^ 200 ∧ (msg 1).val < 2 ^ 200 ∧ (msg 2).val < 2 ^ 200 ∧ (msg 3).val < 2 ^ 200)
      ∧ (msg 4).val < 2 ^ 176) := fun h => h2 h.1.2.2.1
    rw [if_pos h4, if_pos h3, if_neg h2, if_neg this]; rfl
  by_cases h1 : (msg 1).val < 2 ^ 200
  swap
  · have : ¬ (((msg 0).val < 2 ^ 200 ∧ (msg 1).val < 2 ^ 200 ∧ (msg 2).val < 2 ^ 200 ∧ (msg 3).val < 2 ^ 200)
      ∧ (msg 4).val < 2 ^ 176) := fun h => h1 h.1.2.1
    rw [if_pos h4, if_pos h3, if_pos h2, if_neg h1, if_neg this]; rfl
  by_cases h0 : (msg 0).val < 2 ^ 200
  swap
  · have : ¬ (((msg 0).val < 2 ^ 200 ∧ (msg 1).val < 2 ^ 200 ∧ (msg 2).val < 2 ^ 200 ∧ (msg 3).val < 2 ^ 200)
      ∧ (msg 4).val < 2 ^ 176) := fun h => h0 h.1.1
    rw [if_pos h4, if_pos h3, if_pos h2, if_pos h1, if_neg h0, if_neg this]; rfl
  rw [if_pos h4, if_pos h3, if_pos h2, if_pos h1, if_pos h0, if_pos ⟨⟨h0, h1, h2, h3⟩, h4⟩]
  simp only [Option.bind_some]
  simp only [msgBytes, beBytes]
  generalize (msg 0).val = m0 at *
  generalize (msg 1).val = m1 at *
  generalize (msg 2).val = m2 at *
  generalize (msg 3).val = m3 at *
  generalize (msg 4).val = m4 at *
  have e3 := lt_cat h4 h3
  have e2 := lt_cat e3 h2
  have e1 := lt_cat e2 h1
  simp only [← List.map_append]
  rw [bitL_append _ _ h4, bitL_append _ _ e3, bitL_append _ _ e2, bitL_append _ _ e1,
    show 176 + 200 + 200 + 200 + 200 = 8 * 122 by norm_num, byteSlices_eq]
  simp only [Option.bind_some, Option.pure_def]
  rw [castL_reverse]
  have p8 : ∀ k, 256 ^ k = 2 ^ (8 * k) := fun k => by rw [pow_mul]; norm_num
  have p1 : 2 ^ 176 = 256 ^ 22 := by rw [p8]
  have p2 : 2 ^ (176 + 200) = 256 ^ (22 + 25) := by rw [p8]
  have p3 : 2 ^ (176 + 200 + 200) = 256 ^ (22 + 25 + 25) := by rw [p8]
  have p4 : 2 ^ (176 + 200 + 200 + 200) = 256 ^ (22 + 25 + 25 + 25) := by rw [p8]
  rw [p4] at e1 ⊢
  rw [p3] at e1 e2 ⊢
  rw [p2] at e1 e2 e3 ⊢
  rw [p1] at e1 e2 e3 h4 ⊢
  rw [show 122 = 22 + 25 + 25 + 25 + 25 by norm_num, leBytes_append _ _ e1, leBytes_append _ _ e2, leBytes_append _ _ e3, leBytes_append _ _ h4]
  simp only [List.reverse_append]
  simp only [List.append_assoc]

end
end Verif.Ed
