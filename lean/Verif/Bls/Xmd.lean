import Verif.Bls.XmdSpec
import Verif.Bls.H2F
import Verif.Sha.Props
import Verif.Primes

/-! # `ExpandMsgXmd` and `HashToField` compute the functions of RFC 9380 -/

namespace Verif.Bls
open Verif.Api Verif.Sha

variable {p : ℕ}

/-- A byte as a circuit variable. -/
def bF (b : BitVec 8) : F p := ((b.toNat : ℕ) : F p)

variable [Fact (1 < p)]

theorem bF_val (hp : 2 ^ 68 < p) (b : BitVec 8) : (bF b : F p).val = b.toNat := by
  unfold bF
  exact ZMod.val_natCast_of_lt (lt_trans b.isLt (by omega))

theorem byteOf_bF (hp : 2 ^ 68 < p) (b : BitVec 8) : byteOf (bF b : F p) = b := by
  unfold byteOf
  rw [bF_val hp]
  simp

theorem bF_byteOf (hp : 2 ^ 68 < p) (v : F p) (h : v.val < 256) : bF (byteOf v) = v := by
  haveI : NeZero p := ⟨by omega⟩
  unfold bF byteOf
  rw [BitVec.toNat_ofNat, Nat.mod_eq_of_lt (by simpa using h)]
  exact ZMod.natCast_zmod_val v

theorem session_eq (l : List (F p)) : session prm256 [Call.write l, Call.sum] = (sha256Sum l).map fun s => [s] := by
  unfold session sha256Sum
  cases (new prm256 : Option (Digest p prm256)) with
  | none => rfl
  | some d =>
    show run prm256 d [Call.write l, Call.sum] = Option.map _ (Option.bind (write prm256 d l) _)
    simp only [run, call]
    cases write prm256 d l with
    | none => rfl
    | some d' =>
      simp only [Option.map_some, Option.bind_eq_bind, Option.bind_some]
      cases Verif.Sha.sum prm256 d' with
      | none => rfl
      | some r => rfl

theorem sha256Sum_bytes (hp : 2 ^ 68 < p) (l : RFC.Bytes) (hl : l.length < 2 ^ 61) :
    sha256Sum (l.map (bF (p := p))) = some ((RFC.H l).map bF) := by
  have hb : ∀ v ∈ written [Call.write (l.map (bF (p := p))), Call.sum], v.val < 256 := by
    intro v hv
    simp only [written, List.append_nil, List.mem_map] at hv
    obtain ⟨b, _, rfl⟩ := hv
    rw [bF_val hp]
    exact b.isLt
  have h := C24_sha256 hp [Call.write (l.map (bF (p := p))), Call.sum] hb (by simpa [written] using hl)
  rw [session_eq, Option.map_eq_some_iff] at h
  obtain ⟨s, h1, h2⟩ := h
  rw [h1]
  congr 1
  simp only [expected, List.nil_append, List.map_map] at h2
  have e : List.map (byteOf ∘ bF (p := p)) l = l := by
    conv_rhs => rw [← List.map_id l]
    exact List.map_congr_left fun b _ => byteOf_bF hp b
  rw [e] at h2
  exact (List.cons.inj h2).1

theorem H_length (m : RFC.Bytes) : (RFC.H m).length = 32 := by
  show (List.flatMap _ _).length = 32
  simp [Spec.beBytes, Spec.wordBytes, Spec.sha256]

theorem dst_map : (RFC.dst.map (bF (p := p))) = dstBytes.map (fun b => ((b : ℕ) : F p)) := by
  have h : RFC.dst.map BitVec.toNat = dstBytes := by decide +kernel
  rw [← h, List.map_map]
  rfl

theorem dst_length : RFC.dst.length = 43 := by decide +kernel

theorem beBytes_one (x : ℕ) : Spec.beBytes 1 x = [BitVec.ofNat 8 x] := by
  simp [Spec.beBytes]

theorem bF_ofNat (x : ℕ) : (bF (BitVec.ofNat 8 x) : F p) = ((x % 256 : ℕ) : F p) := by
  unfold bF
  rw [BitVec.toNat_ofNat]

theorem dstPrime_map : RFC.dstPrime.map (bF (p := p)) = dstBytes.map (fun b => ((b : ℕ) : F p)) ++ [43] := by
  unfold RFC.dstPrime
  rw [List.map_append, dst_map, beBytes_one, dst_length, List.map_cons, List.map_nil, bF_ofNat]
  norm_num

theorem zero_bytes (n : ℕ) : (Spec.beBytes n 0).map (bF (p := p)) = List.replicate n 0 := by
  unfold Spec.beBytes
  rw [List.map_map]
  have : (bF (p := p) ∘ fun i => BitVec.ofNat 8 (0 / 256 ^ (n - 1 - i))) = fun _ => 0 := by
    funext i
    simp [bF]
  rw [this]
  simp

theorem two_bytes (x : ℕ) : (Spec.beBytes 2 x).map (bF (p := p)) = [((x / 256 % 256 : ℕ) : F p), ((x % 256 : ℕ) : F p)] := by
  have : Spec.beBytes 2 x = [BitVec.ofNat 8 (x / 256), BitVec.ofNat 8 x] := by
    simp [Spec.beBytes, List.range_succ]
  rw [this, List.map_cons, List.map_cons, List.map_nil, bF_ofNat, bF_ofNat]

/-- The bytes of the message. -/
def msgBytes (msg : Fin 32 → F p) : RFC.Bytes := List.ofFn fun i => byteOf (msg i)

theorem msgBytes_map (hp : 2 ^ 68 < p) (msg : Fin 32 → F p) (hm : ∀ i, (msg i).val < 256) :
    (msgBytes msg).map bF = List.ofFn msg := by
  unfold msgBytes
  rw [List.map_ofFn]
  congr 1
  funext i
  exact bF_byteOf hp _ (hm i)

theorem b0_bytes (hp : 2 ^ 68 < p) (msg : Fin 32 → F p) (hm : ∀ i, (msg i).val < 256) (len : ℕ) :
    sha256Sum (b0Preimage msg len) = some ((RFC.b0 (msgBytes msg) len).map bF) := by
  have e : b0Preimage msg len = (Spec.beBytes 64 0 ++ msgBytes msg ++ Spec.beBytes 2 len ++ Spec.beBytes 1 0 ++ RFC.dstPrime).map bF := by
    unfold b0Preimage
    simp only [List.map_append, zero_bytes, two_bytes, dstPrime_map, msgBytes_map hp msg hm]
    simp
  rw [e, sha256Sum_bytes hp]
  · rfl
  · have h1 : RFC.dstPrime.length = 44 := by decide +kernel
    simp only [List.length_append, beBytes_length, h1, msgBytes, List.length_ofFn]
    norm_num

theorem b1_bytes (hp : 2 ^ 68 < p) (head : RFC.Bytes) (hh : head.length = 32) (i : ℕ) :
    sha256Sum (b1Preimage (head.map (bF (p := p))) i) = some ((RFC.H (head ++ Spec.beBytes 1 i ++ RFC.dstPrime)).map bF) := by
  have e : b1Preimage (head.map (bF (p := p))) i = (head ++ Spec.beBytes 1 i ++ RFC.dstPrime).map bF := by
    unfold b1Preimage
    simp only [List.map_append, dstPrime_map, beBytes_one, List.map_cons, List.map_nil, bF_ofNat]
    simp
  rw [e, sha256Sum_bytes hp]
  have h1 : RFC.dstPrime.length = 44 := by decide +kernel
  simp only [List.length_append, beBytes_length, h1, hh]
  norm_num

theorem xor8_bytes (hp : 2 ^ 68 < p) (a b : BitVec 8) : xor8 (bF a : F p) (bF b) = some (bF (a ^^^ b)) := by
  unfold xor8
  rw [asW_val 8 _ (by rw [bF_val hp]; exact a.isLt), asW_val 8 _ (by rw [bF_val hp]; exact b.isLt), bF_val hp, bF_val hp]
  simp only [Option.bind_eq_bind, Option.bind_some, BitVec.ofNat_toNat, BitVec.setWidth_eq, xorW2]
  show some (fromW _) = _
  rw [fromW_lift]
  rfl

theorem b_length (x : RFC.Bytes) (hx : x.length = 32) (i : ℕ) : (RFC.b x i).length = 32 := by
  match i with
  | 0 => exact hx
  | 1 => exact H_length _
  | i + 2 => exact H_length _

theorem head_bytes (hp : 2 ^ 68 < p) (x y : RFC.Bytes) (hx : x.length = 32) (hy : y.length = 32) :
    ((List.range 32).mapM fun j => xor8 ((x.map (bF (p := p))).getD j 0) ((y.map (bF (p := p))).getD j 0))
      = some ((List.zipWith (· ^^^ ·) x y).map bF) := by
  have h : ∀ j ∈ List.range 32, xor8 ((x.map (bF (p := p))).getD j 0) ((y.map (bF (p := p))).getD j 0)
      = some (bF ((x.getD j 0) ^^^ (y.getD j 0))) := by
    intro j hj
    rw [List.mem_range] at hj
    have e : ∀ z : RFC.Bytes, z.length = 32 → (z.map (bF (p := p))).getD j 0 = bF (z.getD j 0) := by
      intro z hz
      simp [List.getD_eq_getElem?_getD, hz, hj]
    rw [e x hx, e y hy, xor8_bytes hp]
  rw [mapM_some h]
  congr 1
  apply List.ext_getElem
  · simp [hx, hy]
  · intro i h1 h2
    simp at h1
    simp [List.getD_eq_getElem?_getD, hx, hy, h1]

theorem step_bytes (hp : 2 ^ 68 < p) (x : RFC.Bytes) (hx : x.length = 32) (ell k : ℕ) (hk : 1 ≤ k) (hkl : k < ell) :
    xmdStep (x.map (bF (p := p))) (32 * ell)
      ((RFC.b x k).map bF, (((List.range k).map fun i => RFC.b x (i + 1)).flatten).map bF ++ List.replicate (32 * ell - 32 * k) 0) (k + 1)
    = some ((RFC.b x (k + 1)).map bF,
        (((List.range (k + 1)).map fun i => RFC.b x (i + 1)).flatten).map bF ++ List.replicate (32 * ell - 32 * (k + 1)) 0) := by
  have hl : ∀ k, (((List.range k).map fun i => RFC.b x (i + 1)).flatten).length = 32 * k := by
    intro k
    induction k with
    | zero => rfl
    | succ k ih =>
      rw [List.range_succ, List.map_append, List.flatten_append, List.length_append, ih]
      simp [b_length x hx]
      ring
  unfold xmdStep
  simp only [head_bytes hp x _ hx (b_length x hx k), Option.bind_eq_bind, Option.bind_some]
  rw [b1_bytes hp _ (by simp [hx, b_length x hx])]
  have eb : RFC.H (List.zipWith (· ^^^ ·) x (RFC.b x k) ++ Spec.beBytes 1 (k + 1) ++ RFC.dstPrime) = RFC.b x (k + 1) := by
    obtain ⟨m, rfl⟩ := Nat.exists_eq_add_of_le' hk
    rfl
  rw [eb]
  show some (_, _) = some (_, _)
  congr 2
  unfold copyAt
  have hlen : ((RFC.b x (k + 1)).map (bF (p := p))).length = 32 := by simp [b_length x hx]
  have e1 : min (32 * (k + 1)) (32 * ell) - 32 * (k + 1 - 1) = 32 := by
    rw [Nat.min_eq_left (by omega)]
    omega
  have e2 : 32 * (k + 1 - 1) = 32 * k := by simp
  rw [e1, e2, hlen, List.take_of_length_le (l := (RFC.b x (k + 1)).map bF) (by rw [hlen])]
  have hl1 : ((((List.range k).map fun i => RFC.b x (i + 1)).flatten).map (bF (p := p))).length = 32 * k := by
    rw [List.length_map, hl]
  rw [List.take_left' hl1, List.drop_append, hl1, List.drop_of_length_le (by rw [hl1]; omega), List.nil_append, List.drop_replicate]
  rw [List.range_succ, List.map_append, List.flatten_append, List.map_append]
  simp only [List.map_cons, List.map_nil, List.flatten_cons, List.flatten_nil, List.append_nil]
  have e3 : 32 * ell - 32 * k - (32 * k + min 32 32 - 32 * k) = 32 * ell - 32 * (k + 1) := by
    rw [Nat.min_self]
    omega
  rw [e3]

theorem loop_bytes (hp : 2 ^ 68 < p) (x : RFC.Bytes) (hx : x.length = 32) (ell : ℕ) (n k : ℕ) (hk : 1 ≤ k) (hkl : k + n = ell) :
    (List.range' (k + 1) n).foldlM (xmdStep (x.map (bF (p := p))) (32 * ell))
      ((RFC.b x k).map bF, (((List.range k).map fun i => RFC.b x (i + 1)).flatten).map bF ++ List.replicate (32 * ell - 32 * k) 0)
    = some ((RFC.b x ell).map bF, (((List.range ell).map fun i => RFC.b x (i + 1)).flatten).map bF) := by
  induction n generalizing k with
  | zero =>
    have : k = ell := by omega
    subst this
    simp
  | succ n ih =>
    rw [List.range'_succ, List.foldlM_cons, step_bytes hp x hx ell k hk (by omega)]
    simp only [Option.bind_eq_bind, Option.bind_some]
    exact ih (k + 1) (by omega) (by omega)

theorem lBytes_eq : lBytes = 64 := rfl

/-- **C59** (message expansion): for every message of 32 bytes and every output length `64 count` the RFC admits. -/
theorem C59_expand (hp : 2 ^ 68 < p) (msg : Fin 32 → F p) (hm : ∀ i, (msg i).val < 256) (count : ℕ) (h0 : 0 < count) :
    expandMsgXmd msg count = some ((RFC.expand (msgBytes msg) (count * 64)).map bF) := by
  unfold expandMsgXmd
  rw [lBytes_eq]
  simp only [b0_bytes hp msg hm, Option.bind_eq_bind, Option.bind_some]
  have hx : (RFC.b0 (msgBytes msg) (count * 64)).length = 32 := H_length _
  rw [List.take_of_length_le (by rw [List.length_map, hx]), b1_bytes hp _ hx]
  simp only [Option.bind_some]
  rw [if_neg (by omega)]
  unfold RFC.expand
  have he : (count * 64 + 32 - 1) / 32 = 2 * count := by omega
  have he' : (count * 64 + 31) / 32 = 2 * count := by omega
  have hl : count * 64 = 32 * (2 * count) := by ring
  rw [he, he']
  generalize RFC.b0 (msgBytes msg) (count * 64) = x at *
  rw [hl]
  have hb : RFC.H (x ++ Spec.beBytes 1 1 ++ RFC.dstPrime) = RFC.b x 1 := rfl
  rw [hb]
  have h1 := loop_bytes (p := p) hp x hx (2 * count) (2 * count - 1) 1 (le_refl _) (by omega)
  rw [List.take_of_length_le (l := (RFC.b x 1).map bF) (by simp [b_length x hx])]
  simp only [List.range_one, List.map_cons, List.map_nil, List.flatten_cons, List.flatten_nil, List.append_nil, zero_add, mul_one] at h1
  rw [h1]
  show some _ = some _
  have hlen : (((List.range (2 * count)).map fun i => RFC.b x (i + 1)).flatten).length = 32 * (2 * count) := by
    generalize 2 * count = k
    induction k with
    | zero => rfl
    | succ k ih =>
      rw [List.range_succ, List.map_append, List.flatten_append, List.length_append, ih]
      simp [b_length x hx]
      ring
  rw [List.take_of_length_le (by rw [hlen])]

/-! ## Hashing to the field -/

theorem beNat_cons (b : BitVec 8) (l : RFC.Bytes) : Spec.beNat (b :: l) = b.toNat * 256 ^ l.length + Spec.beNat l := by
  have gen : ∀ (l : RFC.Bytes) (n : ℕ), l.foldl (fun acc b => acc * 256 + b.toNat) n = n * 256 ^ l.length + l.foldl (fun acc b => acc * 256 + b.toNat) 0 := by
    intro l
    induction l with
    | nil => intro n; simp
    | cons c l ih =>
      intro n
      rw [List.foldl_cons, List.foldl_cons, ih, ih (0 * 256 + c.toNat), List.length_cons]
      ring
  unfold Spec.beNat
  rw [List.foldl_cons, gen]
  simp

theorem beNat_append (a b : RFC.Bytes) : Spec.beNat (a ++ b) = Spec.beNat a * 256 ^ b.length + Spec.beNat b := by
  induction a with
  | nil => simp [Spec.beNat]
  | cons c a ih =>
    rw [List.cons_append, beNat_cons, beNat_cons, ih, List.length_append, pow_add]
    ring

theorem beNat_lt (a : RFC.Bytes) : Spec.beNat a < 256 ^ a.length := by
  induction a with
  | nil => simp [Spec.beNat]
  | cons c a ih =>
    rw [beNat_cons, List.length_cons, pow_succ]
    have := c.isLt
    have h : c.toNat ≤ 255 := by omega
    nlinarith [Nat.pow_pos (n := a.length) (show 0 < 256 by norm_num)]

theorem bytes_bits (hp : 2 ^ 68 < p) (X : RFC.Bytes) :
    get64BitsFrom8Bytes (X.map (bF (p := p))) = some (((X.map fun b => (List.range 8).map (b.toNat).testBit).reverse.flatten).map ofB) := by
  unfold get64BitsFrom8Bytes
  have h : ∀ x ∈ X.map (bF (p := p)), toBinary x 8 = some (((List.range 8).map (x.val).testBit).map ofB) := by
    intro x hx
    obtain ⟨b, _, rfl⟩ := List.mem_map.1 hx
    have h1 := toBinary_cast (p := p) b.toNat 8 (lt_trans b.isLt (by omega))
    rw [if_pos (by exact b.isLt)] at h1
    rw [bF_val hp]
    unfold bF
    rw [h1]
    simp
  rw [mapM_some h]
  show some _ = _
  rw [List.map_map]
  congr 1
  rw [List.map_flatten, List.map_reverse, List.map_map]
  congr 2
  apply List.map_congr_left
  intro b _
  simp only [Function.comp]
  rw [bF_val hp]

theorem bytes_bits_length (X : RFC.Bytes) : ((X.map fun b => (List.range 8).map (b.toNat).testBit).reverse.flatten).length = 8 * X.length := by
  induction X with
  | nil => rfl
  | cons c X ih =>
    rw [List.map_cons, List.reverse_cons, List.flatten_append, List.length_append, ih]
    simp
    ring

theorem bytes_bits_value (X : RFC.Bytes) :
    natOfBits ((X.map fun b => (List.range 8).map (b.toNat).testBit).reverse.flatten) = Spec.beNat X := by
  induction X with
  | nil => simp [natOfBits, Spec.beNat]
  | cons b X ih =>
    rw [List.map_cons, List.reverse_cons, List.flatten_append, natOfBits_append, ih, beNat_cons]
    have h1 : natOfBits [(List.range 8).map (b.toNat).testBit].flatten = b.toNat := by
      simp only [List.flatten_cons, List.flatten_nil, List.append_nil]
      exact natOfBits_testBit 8 b.toNat b.isLt
    rw [h1, bytes_bits_length, pow_mul]
    norm_num
    ring

theorem uint64_bytes (hp : 2 ^ 68 < p) (X : RFC.Bytes) :
    getUint64From8Bytes (X.map (bF (p := p))) = some ((Spec.beNat X : ℕ) : F p) := by
  have e : getUint64From8Bytes (X.map (bF (p := p))) = (get64BitsFrom8Bytes (X.map (bF (p := p)))).map packLE := by
    unfold getUint64From8Bytes get64BitsFrom8Bytes
    cases (X.map (bF (p := p))).mapM fun x => toBinary x 8 <;> rfl
  rw [e, bytes_bits hp, Option.map_some, packLE_ofB, bytes_bits_value]

/-- **C59**: `GetUint64From8Bytes` and `Get64BitsFrom8Bytes` of eight bytes are the big-endian number and its 64 bits, least
significant first. -/
theorem C59_eight_bytes (hp : 2 ^ 68 < p) (X : RFC.Bytes) (hX : X.length = 8) :
    getUint64From8Bytes (X.map (bF (p := p))) = some ((Spec.beNat X : ℕ) : F p) ∧
    get64BitsFrom8Bytes (X.map (bF (p := p))) = some ((List.range 64).map fun i => ((Spec.beNat X / 2 ^ i % 2 : ℕ) : F p)) := by
  refine ⟨uint64_bytes hp X, ?_⟩
  rw [bytes_bits hp]
  congr 1
  have hl := bytes_bits_length X
  have hv := bytes_bits_value X
  generalize (X.map fun b => (List.range 8).map (b.toNat).testBit).reverse.flatten = l at hl hv
  apply List.ext_getElem
  · simp [hl, hX]
  · intro i h1 h2
    have hi : i < l.length := by simpa using h1
    rw [List.getElem_map, List.getElem_map, List.getElem_range, ← hv, ← Nat.toNat_testBit, testBit_natOfBits, List.getD_eq_getElem _ _ hi]
    cases l[i] <;> simp [ofB]

theorem limb_sum (m : ℕ) : ∀ C : RFC.Bytes, C.length = 8 * m →
    (((List.range m).map fun j => Spec.beNat ((C.take (8 * m - 8 * j)).drop (8 * m - 8 * (j + 1)))).foldr (fun l acc => l + 2 ^ 64 * acc) 0)
      = Spec.beNat C := by
  induction m with
  | zero =>
    intro C hC
    have : C = [] := List.eq_nil_of_length_eq_zero (by simpa using hC)
    subst this
    rfl
  | succ m ih =>
    intro C hC
    rw [List.range_succ_eq_map, List.map_cons, List.foldr_cons, List.map_map]
    have h1 := ih (C.take (8 * m)) (by rw [List.length_take, hC]; omega)
    have e : ((fun j => Spec.beNat ((C.take (8 * (m + 1) - 8 * j)).drop (8 * (m + 1) - 8 * (j + 1)))) ∘ Nat.succ)
        = fun j => Spec.beNat (((C.take (8 * m)).take (8 * m - 8 * j)).drop (8 * m - 8 * (j + 1))) := by
      funext j
      simp only [Function.comp, Nat.succ_eq_add_one]
      rw [List.take_take, Nat.min_eq_left (by omega)]
      have e1 : 8 * (m + 1) - 8 * (j + 1) = 8 * m - 8 * j := by omega
      have e2 : 8 * (m + 1) - 8 * (j + 1 + 1) = 8 * m - 8 * (j + 1) := by omega
      rw [e1, e2]
    rw [e, h1]
    conv_rhs => rw [← List.take_append_drop (8 * m) C, beNat_append]
    have e3 : (C.take (8 * (m + 1) - 8 * 0)).drop (8 * (m + 1) - 8 * (0 + 1)) = C.drop (8 * m) := by
      rw [List.take_of_length_le (by rw [hC]; omega)]
      congr 1
    rw [e3, List.length_drop, hC, show 8 * (m + 1) - 8 * m = 8 by omega]
    norm_num
    ring

theorem fieldElem_bytes (hp : 2 ^ 68 < p) (E : RFC.Bytes) (i : ℕ) (h : 64 * (i + 1) ≤ E.length) :
    fieldElem (E.map (bF (p := p))) i = some (RFC.elem E i) := by
  unfold fieldElem
  have hs : ∀ j ∈ List.range 8, getUint64From8Bytes (((E.map (bF (p := p))).take (64 * (i + 1) - 8 * j)).drop (64 * (i + 1) - 8 * (j + 1)))
      = some ((Spec.beNat ((((E.drop (64 * i)).take 64).take (8 * 8 - 8 * j)).drop (8 * 8 - 8 * (j + 1))) : ℕ) : F p) := by
    intro j hj
    rw [List.mem_range] at hj
    rw [← List.map_take, ← List.map_drop, uint64_bytes hp]
    congr 3
    rw [List.take_take, Nat.min_eq_left (by omega)]
    have e1 : E.take (64 * (i + 1) - 8 * j) = E.take (64 * i) ++ (E.drop (64 * i)).take (8 * 8 - 8 * j) := by
      rw [← List.take_add]
      congr 1
      omega
    rw [e1, List.drop_append, List.length_take, Nat.min_eq_left (by omega), List.drop_of_length_le (by rw [List.length_take]; omega), List.nil_append]
    congr 1
    omega
  rw [mapM_some hs]
  show some (getRawLimbs _) = _
  unfold getRawLimbs RFC.elem
  congr 2
  have hC : ((E.drop (64 * i)).take 64).length = 8 * 8 := by
    rw [List.length_take, List.length_drop]
    omega
  rw [← limb_sum 8 _ hC, List.foldr_map, List.foldr_map]
  congr 1
  funext j acc
  congr 1
  apply ZMod.val_natCast_of_lt
  refine lt_of_lt_of_le (beNat_lt _) ?_
  have hl : ((((E.drop (64 * i)).take 64).take (8 * 8 - 8 * j)).drop (8 * 8 - 8 * (j + 1))).length ≤ 8 := by
    rw [List.length_drop, List.length_take]
    omega
  calc 256 ^ _ ≤ 256 ^ 8 := Nat.pow_le_pow_right (by norm_num) hl
    _ ≤ p := by
      have : (256 : ℕ) ^ 8 ≤ 2 ^ 68 := by norm_num
      omega

theorem expand_length (m : RFC.Bytes) (len : ℕ) : (RFC.expand m len).length = len := by
  unfold RFC.expand
  rw [List.length_take]
  have hl : ∀ k, (((List.range k).map fun i => RFC.b (RFC.b0 m len) (i + 1)).flatten).length = 32 * k := by
    intro k
    induction k with
    | zero => rfl
    | succ k ih =>
      rw [List.range_succ, List.map_append, List.flatten_append, List.length_append, ih]
      have h1 : (RFC.b (RFC.b0 m len) (k + 1)).length = 32 := b_length _ (H_length _) _
      simp only [List.map_cons, List.map_nil, List.flatten_cons, List.flatten_nil, List.append_nil, h1]
      ring
  rw [hl]
  omega

/-- **C59** (`hash_to_field`): for every message of 32 bytes and every number `n` of elements. -/
theorem C59_hash_to_field (hp : 2 ^ 68 < p) (msg : Fin 32 → F p) (hm : ∀ i, (msg i).val < 256) (n : ℕ) (h0 : 0 < n) :
    (hashToField msg (2 * n)).map (fun l => l.map E2.val) = some (RFC.hashToField (msgBytes msg) n) := by
  unfold hashToField
  rw [C59_expand hp msg hm (2 * n) (by omega)]
  simp only [Option.bind_eq_bind, Option.bind_some]
  have hlen := expand_length (msgBytes msg) (2 * n * 64)
  have hs : ∀ i ∈ List.range (2 * n), fieldElem ((RFC.expand (msgBytes msg) (2 * n * 64)).map (bF (p := p))) i
      = some (RFC.elem (RFC.expand (msgBytes msg) (2 * n * 64)) i) := by
    intro i hi
    rw [List.mem_range] at hi
    exact fieldElem_bytes hp _ _ (by rw [hlen]; omega)
  rw [mapM_some hs]
  show some _ = some _
  congr 1
  beta_reduce
  rw [List.map_map, show 2 * n / 2 = n by omega]
  unfold RFC.hashToField
  rw [show n * 2 * 64 = 2 * n * 64 by ring]
  apply List.map_congr_left
  intro i hi
  rw [List.mem_range] at hi
  simp only [Function.comp, E2.val]
  have e : ∀ k, k < 2 * n → ((List.range (2 * n)).map (RFC.elem (RFC.expand (msgBytes msg) (2 * n * 64)))).getD k 0
      = RFC.elem (RFC.expand (msgBytes msg) (2 * n * 64)) k := by
    intro k hk
    simp [List.getD_eq_getElem?_getD, hk]
  rw [e _ (by omega), e _ (by omega), show i * 2 = 2 * i by ring]

/-- **C59**: a value outside the byte range makes the circuit unsatisfiable. -/
theorem C59_rejects (msg : Fin 32 → F p) (hm : ∃ i, 256 ≤ (msg i).val) (count : ℕ) : hashToField msg count = none := by
  obtain ⟨i, hi⟩ := hm
  have h : sha256Sum (b0Preimage msg (count * lBytes)) = none := by
    have h1 := C24_sha256_rejects [Call.write (b0Preimage msg (count * lBytes)), Call.sum] ⟨msg i, by
      simp only [written, List.append_nil]
      unfold b0Preimage
      simp only [List.mem_append, List.mem_ofFn]
      exact Or.inl (Or.inl (Or.inl (Or.inr ⟨i, rfl⟩))), hi⟩
    rw [session_eq, Option.map_eq_none_iff] at h1
    exact h1
  unfold hashToField expandMsgXmd
  simp only [h, Option.bind_eq_bind, Option.bind_none]

/-- The hypotheses are met, for instance by the message `00 01 … 1f` over the scalar field of BN254. -/
theorem C59_example : ∃ u0 u1 : E2 Fq, hashToField (p := bn254r) (fun i => ((i.val : ℕ) : F bn254r)) 4 = some [u0, u1] ∧
    [u0.val, u1.val] = RFC.hashToField (List.ofFn fun i : Fin 32 => BitVec.ofNat 8 i.val) 2 := by
  haveI : Fact (1 < bn254r) := ⟨by decide +kernel⟩
  have hp : 2 ^ 68 < bn254r := by decide +kernel
  have hv : ∀ i : Fin 32, ((i.val : ℕ) : F bn254r).val = i.val := fun i =>
    ZMod.val_natCast_of_lt (lt_trans i.isLt (lt_trans (by norm_num) hp))
  have h := C59_hash_to_field hp (fun i => ((i.val : ℕ) : F bn254r)) (fun i => by rw [hv]; omega) 2 (by norm_num)
  obtain ⟨l, h1, h2⟩ := Option.map_eq_some_iff.1 h
  have e : msgBytes (fun i : Fin 32 => ((i.val : ℕ) : F bn254r)) = List.ofFn fun i : Fin 32 => BitVec.ofNat 8 i.val := by
    unfold msgBytes byteOf
    simp only [hv]
  rw [e] at h2
  have hl : l.length = 2 := by
    rw [← List.length_map (f := E2.val), h2]
    simp [RFC.hashToField]
  match l, hl with
  | [u0, u1], _ => exact ⟨u0, u1, h1, h2⟩

end Verif.Bls
