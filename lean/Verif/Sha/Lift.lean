import Verif.Sha.Model

/-! # Word operations of the SHA gadgets act as bit-vector operations -/

namespace Verif.Sha
open Api
variable {p : ℕ}

/-- The circuit word whose bits are those of `v`. -/
def liftW {W : ℕ} (v : BitVec W) : Word p W := fun i => ofB (v.getLsbD i.val)

theorem ofB_mod_two (n : ℕ) : (((n % 2 : ℕ)) : F p) = ofB (n.testBit 0) := by
  rcases Nat.mod_two_eq_zero_or_one n with h | h <;> simp [ofB, h]

theorem constW_lift (W a : ℕ) : (constW W a : Word p W) = liftW (BitVec.ofNat W a) := by
  funext i
  simp only [constW, liftW, ofB_mod_two, BitVec.getLsbD_ofNat, i.isLt, decide_true, Bool.true_and,
    Nat.testBit_shiftRight, Nat.add_zero]

theorem asW_val (W : ℕ) (x : F p) (h : x.val < 2 ^ W) :
    asW W x = some (liftW (BitVec.ofNat W x.val)) := by
  simp only [asW, toBinary, if_pos h, Option.map_some]
  refine congrArg some ?_
  funext i
  simp only [liftW, BitVec.getLsbD_ofNat, i.isLt, decide_true, Bool.true_and]
  simp [Api.bit, ofB, List.getD_eq_getElem?_getD]

theorem asW_none (W : ℕ) (x : F p) (h : ¬ x.val < 2 ^ W) : asW W x = none := by
  simp [asW, toBinary, if_neg h]

theorem lrotNeg_lift {W : ℕ} (v : BitVec W) (s : ℕ) :
    lrotNeg (liftW v : Word p W) s = liftW (v.rotateRight s) := by
  funext i
  have hi := i.isLt
  have hW : 0 < W := by omega
  simp only [lrotNeg, liftW, BitVec.getLsbD_rotateRight]
  have hs := Nat.mod_lt s hW
  have e : (i.val + s + W) % W = (i.val + s % W) % W := by simp
  rw [e, cond_eq_ite]
  simp only [decide_eq_true_eq]
  split
  · rw [Nat.mod_eq_of_lt (by omega), Nat.add_comm]
  · rename_i h
    rw [Nat.mod_eq_sub_mod (by omega), Nat.mod_eq_of_lt (by omega)]
    simp only [hi, decide_true, Bool.true_and]
    congr 2; omega

theorem rshiftW_lift {W : ℕ} (v : BitVec W) (s : ℕ) :
    rshiftW (liftW v : Word p W) s = liftW (v >>> s) := by
  funext i
  simp only [rshiftW, liftW, BitVec.getLsbD_ushiftRight]
  split
  · rw [Nat.add_comm]
  · rw [BitVec.getLsbD_of_ge _ _ (by omega)]; rfl

theorem lshiftW_lift {W : ℕ} (v : BitVec W) (s : ℕ) :
    lshiftW (liftW v : Word p W) s = liftW (v <<< s) := by
  funext i
  simp only [lshiftW, liftW, BitVec.getLsbD_shiftLeft, i.isLt, decide_true, Bool.true_and]
  split
  · rename_i h
    simp [Nat.not_lt.2 h]
  · rename_i h
    simp [Nat.lt_of_not_le h, ofB]

theorem extW_lift (W : ℕ) (v : BitVec 8) : (extW W (liftW v) : Word p W) = liftW (v.setWidth W) := by
  funext i
  simp only [extW, liftW, BitVec.getLsbD_setWidth, i.isLt, decide_true, Bool.true_and]
  split
  · rfl
  · rw [BitVec.getLsbD_of_ge _ _ (by omega)]; rfl

theorem lowByte_lift {W : ℕ} (v : BitVec W) : (lowByte (liftW v) : Word p 8) = liftW (v.setWidth 8) := by
  funext i
  simp only [lowByte, liftW, BitVec.getLsbD_setWidth, i.isLt, decide_true, Bool.true_and]
  split
  · rfl
  · rw [BitVec.getLsbD_of_ge _ _ (by omega)]; rfl

theorem ofFn_liftW {W : ℕ} (v : BitVec W) :
    List.ofFn (liftW v : Word p W) = ((List.range W).map v.toNat.testBit).map ofB := by
  apply List.ext_getElem
  · simp
  · intro i h1 h2
    simp [liftW, BitVec.getLsbD]

section
variable [Fact (1 < p)]

theorem fromW_lift {W : ℕ} (v : BitVec W) : fromW (liftW v : Word p W) = ((v.toNat : ℕ) : F p) := by
  rw [fromW, ofFn_liftW, packLE_ofB, natOfBits_testBit _ _ v.isLt]

theorem foldlM_ofB {W : ℕ} {f : F p → F p → Option (F p)} {g : Bool → Bool → Bool}
    (hf : ∀ a b, f (ofB a) (ofB b) = some (ofB (g a b))) (l : List (BitVec W)) (i : Fin W) (c : Bool) :
    (l.map (liftW (p := p))).foldlM (fun r v => f r (v i)) (ofB c)
      = some (ofB (l.foldl (fun r v => g r (v.getLsbD i.val)) c)) := by
  induction l generalizing c with
  | nil => rfl
  | cons v l ih =>
    simp only [List.map_cons, List.foldlM_cons, List.foldl_cons]
    rw [show f (ofB c) (liftW v i) = _ from hf c _]
    exact ih _

theorem xorW_lift {W : ℕ} (l : List (BitVec W)) :
    xorW (l.map (liftW (p := p))) = some (liftW (l.foldl (· ^^^ ·) 0)) := by
  refine seqFin_some fun i => ?_
  rw [show (0 : F p) = ofB false from rfl, foldlM_ofB (fun a b => xor_ofB a b)]
  have : ∀ (c : BitVec W), l.foldl (fun r v => r ^^ v.getLsbD i.val) (c.getLsbD i.val)
      = (l.foldl (· ^^^ ·) c).getLsbD i.val := by
    induction l with
    | nil => intro c; rfl
    | cons v l ih => intro c; simp only [List.foldl_cons, ← ih, BitVec.getLsbD_xor]
  have h := this 0
  simp only [BitVec.ofNat_eq_ofNat, BitVec.getLsbD_zero] at h
  rw [h]; rfl

theorem orW_lift {W : ℕ} (l : List (BitVec W)) :
    orW (l.map (liftW (p := p))) = some (liftW (l.foldl (· ||| ·) 0)) := by
  refine seqFin_some fun i => ?_
  rw [show (0 : F p) = ofB false from rfl, foldlM_ofB (fun a b => or_ofB a b)]
  have : ∀ (c : BitVec W), l.foldl (fun r v => r || v.getLsbD i.val) (c.getLsbD i.val)
      = (l.foldl (· ||| ·) c).getLsbD i.val := by
    induction l with
    | nil => intro c; rfl
    | cons v l ih => intro c; simp only [List.foldl_cons, ← ih, BitVec.getLsbD_or]
  have h := this 0
  simp only [BitVec.ofNat_eq_ofNat, BitVec.getLsbD_zero] at h
  rw [h]; rfl

theorem andW_lift {W : ℕ} (a b : BitVec W) :
    andW [(liftW a : Word p W), liftW b] = some (liftW (a &&& b)) := by
  refine seqFin_some fun i => ?_
  have h := foldlM_ofB (p := p) (fun a b => and_ofB a b) [a, b] i true
  simpa [liftW] using h

theorem notW_lift {W : ℕ} (a : BitVec W) : notW (liftW a : Word p W) = some (liftW (~~~a)) := by
  refine seqFin_some fun i => ?_
  rw [show (1 : F p) = ofB true from rfl, liftW, xor_ofB]
  simp [liftW]

theorem xorW3 {W : ℕ} (a b c : BitVec W) :
    xorW [(liftW a : Word p W), liftW b, liftW c] = some (liftW (a ^^^ b ^^^ c)) := by
  have := xorW_lift (p := p) [a, b, c]
  simpa using this

theorem xorW2 {W : ℕ} (a b : BitVec W) :
    xorW [(liftW a : Word p W), liftW b] = some (liftW (a ^^^ b)) := by
  have := xorW_lift (p := p) [a, b]
  simpa using this

/-- Low `W` bits of a decomposed natural number. -/
theorem low_bits {W n x : ℕ} (hx : x < 2 ^ n) (hW : W ≤ n) (hp : 2 ^ n ≤ p) :
    (toBinary ((x : ℕ) : F p) n).map (fun b (i : Fin W) => b.getD i.val 0)
      = some (liftW (BitVec.ofNat W x)) := by
  have hv : ((x : ℕ) : F p).val = x := ZMod.val_natCast_of_lt (by omega)
  simp only [toBinary, hv, if_pos hx, Option.map_some]
  refine congrArg some ?_
  funext i
  have : i.val < n := by omega
  simp only [liftW, BitVec.getLsbD_ofNat, i.isLt, decide_true, Bool.true_and]
  simp [Api.bit, ofB, List.getD_eq_getElem?_getD, this, hv]

theorem addW_lift (P : Prm) (a b : BitVec P.W) (l : List (BitVec P.W))
    (h1 : (2 + l.length) * 2 ^ P.W ≤ 2 ^ P.addDigits l.length) (hW : P.W ≤ P.addDigits l.length)
    (hp : 2 ^ P.addDigits l.length ≤ p) :
    addW P (liftW a : Word p P.W) (liftW b) (l.map liftW) = some (liftW (l.foldl (· + ·) (a + b))) := by
  have hs : ∀ (l : List (BitVec P.W)) (n : ℕ), (l.map (liftW (p := p))).foldl (fun s x => s + fromW x) ((n : ℕ) : F p)
      = ((l.foldl (fun s x => s + x.toNat) n : ℕ) : F p) := by
    intro l
    induction l with
    | nil => intro n; rfl
    | cons v l ih =>
      intro n
      simp only [List.map_cons, List.foldl_cons, fromW_lift, ← Nat.cast_add, ih]
  have hlt : ∀ (l : List (BitVec P.W)) (n m : ℕ), n < m * 2 ^ P.W →
      l.foldl (fun s x => s + x.toNat) n < (m + l.length) * 2 ^ P.W := by
    intro l
    induction l with
    | nil => intro n m h; simpa using h
    | cons v l ih =>
      intro n m h
      have := ih (n + v.toNat) (m + 1) (by have := v.isLt; rw [Nat.add_mul]; omega)
      simp only [List.foldl_cons, List.length_cons]
      rw [show m + (l.length + 1) = m + 1 + l.length by omega]; exact this
  have hbv : ∀ (l : List (BitVec P.W)) (n : ℕ), BitVec.ofNat P.W (l.foldl (fun s x => s + x.toNat) n)
      = l.foldl (· + ·) (BitVec.ofNat P.W n) := by
    intro l
    induction l with
    | nil => intro n; rfl
    | cons v l ih => intro n; simp only [List.foldl_cons, ih, BitVec.ofNat_add, BitVec.ofNat_toNat, BitVec.setWidth_eq]
  simp only [addW, fromW_lift, ← Nat.cast_add, hs, List.length_map]
  have hb := hlt l (a.toNat + b.toNat) 2 (by have := a.isLt; have := b.isLt; omega)
  have := low_bits (p := p) (W := P.W) (n := P.addDigits l.length) (lt_of_lt_of_le hb h1) hW hp
  rw [hbv, BitVec.ofNat_add, BitVec.ofNat_toNat, BitVec.ofNat_toNat, BitVec.setWidth_eq, BitVec.setWidth_eq] at this
  rw [← this]
  cases toBinary (p := p) _ _ <;> rfl

end
end Verif.Sha
