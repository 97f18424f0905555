import Verif.Sha.Block

/-! # Buffering and padding of the SHA gadgets -/

namespace Verif.Sha
open Api
open Spec (Vars Alg)
variable {p : ℕ} {P : Prm}

theorem pieces_append {α : Type*} (n : ℕ) (hn : 0 < n) (k : ℕ) (a b : List α) (h : a.length = k * n) :
    Spec.pieces n (a ++ b) = Spec.pieces n a ++ Spec.pieces n b := by
  induction k generalizing a with
  | zero =>
    have : a = [] := List.length_eq_zero_iff.1 (by omega)
    subst this
    simp [pieces_nil n ([] : List α) (by simpa using hn)]
  | succ k ih =>
    rw [Nat.succ_mul] at h
    rw [pieces_cons n hn (a ++ b) (by rw [List.length_append]; omega), pieces_cons n hn a (by omega),
      List.take_append_of_le_length (by omega), List.drop_append_of_le_length (by omega),
      ih (a.drop n) (by rw [List.length_drop]; omega)]
    rfl

theorem absorb_append (A : Alg) (hn : 0 < Spec.blockBytes A) (H : Vars (BitVec A.w)) (a b : List (BitVec 8))
    (h : Spec.blockBytes A ∣ a.length) :
    Spec.absorb A H (a ++ b) = Spec.absorb A (Spec.absorb A H a) b := by
  obtain ⟨k, hk⟩ := h
  unfold Spec.absorb
  rw [pieces_append _ hn k a b (by rw [hk, Nat.mul_comm]), List.foldl_append]

/-- The digest state after absorbing `a ++ t`: `a` is whole chunks, `t` is buffered. -/
structure RepAt (d : Digest p P) (a t : List (BitVec 8)) : Prop where
  dvd : P.chunk ∣ a.length
  lt : t.length < P.chunk
  h : d.h = liftV (Spec.absorb (toAlg P) (Spec.initial (toAlg P)) a)
  nx : d.nx = t.length
  xl : d.x.length = P.chunk
  x : d.x.take t.length = t.map fun b => some (liftW b)

/-- The digest state after absorbing the message `m`. -/
def Rep (d : Digest p P) (m : List (BitVec 8)) : Prop :=
  d.len = m.length % 2 ^ 64 ∧ ∃ a t, m = a ++ t ∧ RepAt d a t

section
variable [Fact (1 < p)]

theorem mapM_id_some {α β : Type*} (l : List α) (f : α → β) :
    (l.map fun b => some (f b)).mapM id = some (l.map f) := by
  rw [List.mapM_map]
  exact mapM_some (fun _ _ => rfl)

theorem writeTop_spec (hG : Good P p) (d : Digest p P) (a t q : List (BitVec 8)) (hd : RepAt d a t) :
    ∃ d' a' t' q', writeTop P d (q.map liftW) = some (d', q'.map liftW) ∧ RepAt d' a' t' ∧
      a ++ t ++ q = a' ++ t' ++ q' ∧ (q' = [] ∨ t' = []) ∧ d'.len = d.len := by
  have hc := chunk_pos hG
  unfold writeTop
  by_cases h0 : 0 < d.nx
  · rw [if_pos h0]
    have hnx := hd.nx
    have hxl := hd.xl
    have hlt := hd.lt
    simp only [goCopy, List.length_map, hxl, hnx]
    set n := min (P.chunk - t.length) q.length with hn
    have hx : d.x.take t.length ++ (List.map some (List.map liftW q)).take n
        = (t ++ q.take n).map fun b => some (liftW (p := p) b) := by
      rw [hd.x, ← List.map_take, ← List.map_take, List.map_map, List.map_append]
      rfl
    rw [hx]
    by_cases hf : t.length + n = P.chunk
    · rw [if_pos hf]
      have hdrop : d.x.drop (t.length + n) = [] := List.drop_eq_nil_of_le (by omega)
      rw [hdrop, List.append_nil, mapM_id_some]
      simp only [Option.bind_eq_bind, Option.bind_some]
      rw [hd.h, blockGeneric_lift hG]
      simp only [Option.bind_some]
      have hnl : (t ++ q.take n).length = P.chunk := by
        rw [List.length_append, List.length_take]; omega
      rw [← List.map_drop]
      refine ⟨_, a ++ (t ++ q.take n), [], q.drop n, rfl, ⟨?_, hc, ?_, rfl, ?_, by simp⟩, ?_, Or.inr rfl, rfl⟩
      · rw [List.length_append, hnl]; exact Nat.dvd_add hd.dvd (dvd_refl _)
      · simp only
        rw [absorb_append (toAlg P) (by rw [blockBytes_eq hG]; exact hc) _ a _ (by rw [blockBytes_eq hG]; exact hd.dvd)]
      · simp only [List.length_map]; exact hnl
      · simp only [List.append_assoc, List.nil_append, List.take_append_drop]
    · rw [if_neg hf]
      have hnq : n = q.length := by omega
      have htq : t.length + q.length < P.chunk := by omega
      have hqt : q.take n = q := List.take_of_length_le (by omega)
      rw [← List.map_drop]
      refine ⟨_, a, t ++ q, q.drop n, rfl, ⟨hd.dvd, ?_, hd.h, ?_, ?_, ?_⟩, ?_, Or.inl ?_, rfl⟩
      · rw [List.length_append]; exact htq
      · simp only [List.length_append]; omega
      · simp only [List.length_append, List.length_map, List.length_drop, hqt]; omega
      · simp only [hqt]
        rw [List.take_append_of_le_length (by simp), List.take_of_length_le (by simp)]
      · rw [List.drop_eq_nil_of_le (by omega)]; simp
      · exact List.drop_eq_nil_of_le (by omega)
  · rw [if_neg h0]
    have : t = [] := List.length_eq_zero_iff.1 (by rw [← hd.nx]; omega)
    exact ⟨d, a, t, q, rfl, hd, rfl, Or.inr this, rfl⟩

theorem writeMid_spec (hG : Good P p) (d : Digest p P) (a t q : List (BitVec 8)) (hd : RepAt d a t)
    (hq : q = [] ∨ t = []) :
    ∃ d' a' q', writeMid P d (q.map liftW) = some (d', q'.map liftW) ∧ RepAt d' a' t ∧
      a ++ t ++ q = a' ++ t ++ q' ∧ (q' = [] ∨ t = []) ∧ q'.length < P.chunk ∧ d'.len = d.len := by
  have hc := chunk_pos hG
  unfold writeMid
  by_cases h : P.chunk ≤ q.length
  · rw [if_pos (by simpa using h)]
    have ht : t = [] := by
      rcases hq with rfl | h'
      · simp only [List.length_nil] at h; omega
      · exact h'
    subst ht
    simp only [List.length_map, ← List.map_take, hd.h, blockGeneric_lift hG, Option.bind_eq_bind, Option.bind_some]
    have hm := Nat.div_add_mod q.length P.chunk
    have hml := Nat.mod_lt q.length hc
    rw [Nat.mul_comm] at hm
    rw [← List.map_drop]
    refine ⟨_, a ++ q.take (q.length / P.chunk * P.chunk), q.drop (q.length / P.chunk * P.chunk),
      rfl, ⟨?_, hc, ?_, hd.nx, hd.xl, hd.x⟩, ?_, Or.inr trivial, ?_, rfl⟩
    · rw [List.length_append, List.length_take, Nat.min_eq_left (by omega)]
      exact Nat.dvd_add hd.dvd (Nat.dvd_mul_left _ _)
    · simp only
      rw [absorb_append (toAlg P) (by rw [blockBytes_eq hG]; exact hc) _ _ _ (by rw [blockBytes_eq hG]; exact hd.dvd)]
    · simp
    · rw [List.length_drop]; omega
  · rw [if_neg (by simpa using h)]
    exact ⟨d, a, q, rfl, hd, rfl, hq, by omega, rfl⟩

theorem writeBytes_spec (hG : Good P p) (d : Digest p P) (m q : List (BitVec 8)) (hd : Rep d m) :
    ∃ d', writeBytes P d (q.map liftW) = some d' ∧ Rep d' (m ++ q) := by
  obtain ⟨hlen, a, t, rfl, hr⟩ := hd
  unfold writeBytes
  have hr0 : RepAt { d with len := (d.len + (q.map (liftW (p := p))).length) % 2 ^ 64 } a t :=
    ⟨hr.dvd, hr.lt, hr.h, hr.nx, hr.xl, hr.x⟩
  obtain ⟨d1, a1, t1, q1, e1, r1, c1, o1, l1⟩ := writeTop_spec hG _ a t q hr0
  obtain ⟨d2, a2, q2, e2, r2, c2, o2, b2, l2⟩ := writeMid_spec hG d1 a1 t1 q1 r1 o1
  simp only
  rw [e1]
  simp only [Option.bind_eq_bind, Option.bind_some]
  rw [e2]
  simp only [Option.bind_some]
  have hL : d2.len = (a ++ t ++ q).length % 2 ^ 64 := by
    rw [l2, l1]
    simp only [hlen, List.length_map, List.length_append]
    omega
  by_cases h : 0 < q2.length
  · have ht : t1 = [] := by
      rcases o2 with rfl | h'
      · simp at h
      · exact h'
    subst ht
    rw [if_pos (by simpa using h)]
    refine ⟨_, rfl, hL, a2, q2, by rw [c1, c2]; simp, ⟨r2.dvd, b2, r2.h, ?_, ?_, ?_⟩⟩
    · simp only [goCopy, List.length_map, r2.xl]; omega
    · simp only [goCopy, List.length_map, r2.xl, List.length_append, List.length_take, List.length_drop]; omega
    · simp only [goCopy, List.length_map, r2.xl]
      rw [show min (P.chunk - 0) q2.length = q2.length by omega, List.take_zero, List.nil_append,
        List.take_append_of_le_length (by simp), List.take_take, Nat.min_self, List.take_of_length_le (by simp),
        List.map_map]
      rfl
  · rw [if_neg (by simpa using h)]
    have : q2 = [] := List.length_eq_zero_iff.1 (by omega)
    subst this
    exact ⟨_, rfl, hL, a2, t1, by rw [c1, c2]; simp, r2⟩

theorem asW_bytes (q : List (F p)) (h : ∀ v ∈ q, v.val < 256) :
    q.mapM (asW 8) = some ((q.map fun v => BitVec.ofNat 8 v.val).map liftW) := by
  rw [List.map_map]
  exact mapM_some (fun v hv => asW_val 8 v (by simpa using h v hv))

theorem write_spec (hG : Good P p) (d : Digest p P) (m : List (BitVec 8)) (q : List (F p)) (hd : Rep d m)
    (h : ∀ v ∈ q, v.val < 256) :
    ∃ d', write P d q = some d' ∧ Rep d' (m ++ q.map fun v => BitVec.ofNat 8 v.val) := by
  unfold write
  rw [asW_bytes q h]
  exact writeBytes_spec hG d m _ hd

theorem write_none (d : Digest p P) (q : List (F p)) (h : ∃ v ∈ q, 256 ≤ v.val) : write P d q = none := by
  obtain ⟨v, hv, h⟩ := h
  unfold write
  rw [mapM_none hv (asW_none 8 v (by simpa using h))]
  rfl

theorem init_list (hG : Good P p) : ∃ a b c d e f g h, P.init = [a, b, c, d, e, f, g, h] := by
  have := hG.init
  match hP : P.init, this with
  | [a, b, c, d, e, f, g, h], _ => exact ⟨a, b, c, d, e, f, g, h, rfl⟩

theorem reset_spec (hG : Good P p) (d : Digest p P) (hx : d.x.length = P.chunk) :
    ∃ d', reset P d = some d' ∧ Rep d' [] := by
  obtain ⟨a, b, c, d', e, f, g, h, hi⟩ := init_list hG
  have hc := chunk_pos hG
  unfold reset
  simp only [hi]
  refine ⟨_, rfl, by simp, [], [], rfl, ⟨by simp, by simpa using hc, ?_, rfl, hx, by simp⟩⟩
  simp only [Spec.absorb]
  rw [pieces_nil _ _ (by rw [blockBytes_eq hG]; simpa using hc)]
  simp [Spec.initial, hi, liftV, mapV, constW_lift]

theorem new_spec (hG : Good P p) : ∃ d : Digest p P, new P = some d ∧ Rep d [] :=
  reset_spec hG _ (by simp)

theorem putBE_lift {W : ℕ} (v : BitVec W) :
    putBE (liftW v : Word p W) = (Spec.beBytes (W / 8) v.toNat).map liftW := by
  unfold putBE Spec.beBytes
  rw [List.map_map]
  apply List.map_congr_left
  intro k _
  simp only [rshiftW_lift, lowByte_lift, Function.comp]
  congr 1
  apply BitVec.eq_of_toNat_eq
  simp only [BitVec.toNat_setWidth, BitVec.toNat_ushiftRight, BitVec.toNat_ofNat, Nat.shiftRight_eq_div_pow,
    Nat.pow_mul]

theorem beBytes_length (n x : ℕ) : (Spec.beBytes n x).length = n := by simp [Spec.beBytes]

theorem beBytes_hi (x : ℕ) (hx : x < 2 ^ 64) : Spec.beBytes 16 x = Spec.beBytes 8 0 ++ Spec.beBytes 8 x := by
  unfold Spec.beBytes
  rw [show List.range 16 = List.range 8 ++ (List.range 8).map (8 + ·) from by decide, List.map_append, List.map_map]
  congr 1
  · apply List.map_congr_left
    intro i hi
    have hi := List.mem_range.1 hi
    congr 1
    rw [Nat.zero_div, Nat.div_eq_of_lt]
    refine lt_of_lt_of_le hx ?_
    rw [show (2 : ℕ) ^ 64 = 256 ^ 8 by norm_num]
    exact Nat.pow_le_pow_right (by decide) (by omega)

theorem lenField_lift (hG : Good P p) (v : ℕ) (hv : v < 2 ^ 64) :
    lenField P v = some ((Spec.beBytes (2 * (P.W / 8)) v).map (liftW (p := p))) := by
  have hval : ((v : ℕ) : F p).val = v := ZMod.val_natCast_of_lt (lt_trans hv hG.p64)
  have h1 : asW 64 ((v : ℕ) : F p) = some (liftW (BitVec.ofNat 64 v)) := by
    rw [asW_val _ _ (by rw [hval]; exact hv), hval]
  have h0 : asW 64 (0 : F p) = some (liftW (BitVec.ofNat 64 0)) := by
    rw [asW_val _ _ (by simp), ZMod.val_zero]
  have ht : (BitVec.ofNat 64 v).toNat = v := by rw [BitVec.toNat_ofNat, Nat.mod_eq_of_lt hv]
  unfold lenField
  rcases hG.fld with h | h
  · rw [if_pos h, h1]
    simp only [Option.bind_eq_bind, Option.bind_some, putBE_lift, ht, h]
    rfl
  · rw [if_neg (by omega), h1, h0]
    simp only [Option.bind_eq_bind, Option.bind_some, putBE_lift, ht, h]
    rw [show 2 * (64 / 8) = 16 by rfl, beBytes_hi v hv, List.map_append]
    rfl

theorem checkSum_spec (hG : Good P p) (d : Digest p P) (m : List (BitVec 8)) (hd : Rep d m)
    (hm : m.length < 2 ^ 61) :
    checkSum P d = some ((Spec.hash (toAlg P) m).map fun b => ((b.toNat : ℕ) : F p)) := by
  have hc := chunk_pos hG
  have hw := hG.wpos
  have hlen : d.len = m.length := by rw [hd.1, Nat.mod_eq_of_lt (by omega)]
  unfold checkSum
  simp only [hlen]
  have hchunk := hG.chunk
  have hlp := hG.lenPos
  set n := P.W / 8 with hn
  set r := m.length % P.chunk with hr
  have hrl : r < P.chunk := Nat.mod_lt _ hc
  -- number of zero bytes
  set z := (P.chunk - (m.length + 1 + 2 * n) % P.chunk) % P.chunk with hz
  have hmod : (m.length + 1 + 2 * n) % P.chunk = (r + 1 + 2 * n) % P.chunk := by
    rw [hr]; simp [Nat.add_mod]
  have hcut : (if r < P.lenPos then P.lenPos - r else P.chunk + P.lenPos - r) = z + 1 ∧ z + 1 ≤ P.chunk := by
    split
    · rename_i h
      by_cases he : r + 1 + 2 * n = P.chunk
      · have : z = 0 := by rw [hz, hmod, he, Nat.mod_self, Nat.sub_zero, Nat.mod_self]
        omega
      · have : z = P.chunk - (r + 1 + 2 * n) := by
          rw [hz, hmod, Nat.mod_eq_of_lt (show r + 1 + 2 * n < P.chunk by omega), Nat.mod_eq_of_lt (by omega)]
        omega
    · rename_i h
      have e : (r + 1 + 2 * n) % P.chunk = r + 1 + 2 * n - P.chunk := by
        rw [Nat.mod_eq_sub_mod (by omega), Nat.mod_eq_of_lt (by omega)]
      have : z = P.chunk - (r + 1 + 2 * n - P.chunk) := by
        rw [hz, hmod, e, Nat.mod_eq_of_lt (by omega)]
      omega
  rw [hcut.1, if_pos (by simp; omega)]
  have htmp : ((constW 8 0x80 :: List.replicate (P.chunk - 1) (constW 8 0) : List (Word p 8)).take (z + 1))
      = ((0x80 : BitVec 8) :: List.replicate z 0).map (liftW (p := p)) := by
    rw [List.take_succ_cons, List.take_replicate, Nat.min_eq_left (by omega)]
    simp only [constW_lift, List.map_cons, List.map_replicate]
    rfl
  rw [htmp]
  obtain ⟨d1, e1, r1⟩ := writeBytes_spec hG d m _ hd
  rw [e1]
  simp only [Option.bind_eq_bind, Option.bind_some]
  rw [Nat.mod_eq_of_lt (show m.length * 8 < 2 ^ 64 by omega), Nat.mul_comm, lenField_lift hG _ (by omega)]
  simp only [Option.bind_some]
  obtain ⟨d2, e2, r2⟩ := writeBytes_spec hG d1 _ (Spec.beBytes (2 * n) (8 * m.length)) r1
  rw [e2]
  simp only [Option.bind_some]
  have hpad : m ++ (0x80 :: List.replicate z 0) ++ Spec.beBytes (2 * n) (8 * m.length) = Spec.pad (toAlg P) m := by
    unfold Spec.pad
    simp only [blockBytes_eq hG]
    simp [Spec.wordBytes, hz, hn]
  rw [hpad] at r2
  have hpl : P.chunk ∣ (Spec.pad (toAlg P) m).length := by
    rw [← hpad]
    simp only [List.length_append, List.length_cons, List.length_replicate, beBytes_length]
    have h1 : m.length = m.length / P.chunk * P.chunk + r := by
      rw [Nat.mul_comm]; exact (Nat.div_add_mod _ _).symm
    have h2 := hcut.1
    split at h2
    · exact ⟨m.length / P.chunk + 1, by rw [Nat.mul_add]; rw [Nat.mul_comm] at h1; omega⟩
    · exact ⟨m.length / P.chunk + 2, by rw [Nat.mul_add]; rw [Nat.mul_comm] at h1; omega⟩
  obtain ⟨_, a, t, hat, hra⟩ := r2
  have ht : t = [] := by
    have hl := congrArg List.length hat
    rw [List.length_append] at hl
    rw [hl] at hpl
    have := (Nat.dvd_add_right hra.dvd).1 hpl
    exact List.length_eq_zero_iff.1 (Nat.eq_zero_of_dvd_of_lt this hra.lt)
  subst ht
  rw [if_neg (by rw [hra.nx]; simp)]
  rw [List.append_nil] at hat
  refine congrArg some ?_
  rw [hra.h, ← hat]
  simp only [Spec.hash, Spec.output, liftV, mapV, List.flatMap_cons, List.flatMap_nil, putBE_lift,
    List.map_append, List.map_map, List.map_nil, Spec.wordBytes]
  have hff : (fromW ∘ liftW (p := p) (W := 8)) = fun b : BitVec 8 => ((b.toNat : ℕ) : F p) := by
    funext b; exact fromW_lift b
  rw [hff]

end
end Verif.Sha
