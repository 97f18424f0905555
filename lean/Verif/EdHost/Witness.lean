import Verif.EdHost.PointProps
import Verif.Ed.Props

/-! # C66: the witness built by the host code satisfies the verifier circuit

`main/main.go` and `ed25519_test.go` turn a signature into an assignment for `Verify` with the host library of C62–C65.
SHA-512 of the Go standard library is the specification function. -/

namespace Verif.EdHost
open Verif.Ed Api

/-! ## Model -/

/-- ed25519/point.go:23-31 `PutBigEndian`: the bytes appended from the last to the first. -/
def putBigEndian (p : List ℕ) : List ℕ := (List.range p.length).foldl (fun r i => r ++ [p.getD (p.length - 1 - i) 0]) []

/-- ed25519/point.go:37-39 (and 42-44): the in-place swap loop. -/
def swapLoop (x : List ℕ) : List ℕ :=
  (List.range (x.length / 2)).foldl
    (fun x i => (x.set i (x.getD (x.length - i - 1) 0)).set (x.length - i - 1) (x.getD i 0)) x

/-- `big.Int.SetBytes` (also used by `emulated.ValueOf` and for a `frontend.Variable` given as bytes): big-endian. -/
def bigSetBytes (x : List ℕ) : ℕ := x.foldl (fun v b => 256 * v + b) 0

/-- ed25519/point.go:33-50 `NewEmulatedPoint`: the two coordinates as integers (`emulated.ValueOf` reduces modulo the field). -/
def newEmulatedPoint (v : Point) : ℕ × ℕ :=
  (bigSetBytes (swapLoop (feBytes (fromExtended v).X)) % P, bigSetBytes (swapLoop (feBytes (fromExtended v).Y)) % P)

/-- main/main.go:20-25: the assignment of the circuit. -/
structure Assignment (p : ℕ) where
  Message : Fin 5 → F p
  PublicKey : List (F p)
  ax : ℕ
  ay : ℕ
  rx : ℕ
  ry : ℕ
  S : F p

/-- main/main.go:54-82: the fields of the assignment. -/
def mkAssignment (p : ℕ) (pub msg : List ℕ) (A R : Point) (S : List ℕ) : Assignment p where
  Message := fun i => ((bigSetBytes (if i.val = 4 then msg.drop (i.val * 25) else (msg.drop (i.val * 25)).take 25) : ℕ) : F p)
  PublicKey := [((bigSetBytes (pub.take 16) : ℕ) : F p), ((bigSetBytes (pub.drop 16) : ℕ) : F p)]
  ax := (newEmulatedPoint A).1
  ay := (newEmulatedPoint A).2
  rx := (newEmulatedPoint R).1
  ry := (newEmulatedPoint R).2
  S := ((bigSetBytes (putBigEndian S) : ℕ) : F p)

/-- main/main.go:37-82 (ed25519_test.go:47-101 has the same steps): from the key, the signature and the message to the
assignment, together with the point `R` the host computed.  `none` is a panic: a key that does not decode (`Negate(nil)`), an `S` that
is not canonical (nil scalar), a message shorter than 100 bytes (slice bounds). -/
def assign (p : ℕ) (pub sig msg : List ℕ) : Option (Point × Assignment p) := do
  let A ← ptSetBytes pub
  let nA ← ptNeg A
  let k ← scSetUniform (sha512 (sig.take 32 ++ pub ++ msg))
  let S ← scSetCanonical (sig.drop 32)
  let R ← varTime k nA S
  if msg.length < 100 then none else some (R, mkAssignment p pub msg A R S)

/-- main/main.go:27-31 `Define`: does the circuit accept the assignment? -/
def accepts {p : ℕ} (w : Assignment p) : Prop := verify w.PublicKey w.rx w.ry w.S w.Message w.ax w.ay ()

/-! ## Specification -/

/-- The check of the Go standard library (and of RFC 8032's "sufficient" variant): without cofactor, `S` and the key canonical,
and the encoding of `[S]B - [k]A` compared with the first half of the signature. -/
def GoValid (pub sig msg : List ℕ) : Prop :=
  leVal (sig.drop 32) < L ∧ ∃ A : Pt25519, encode A = pub ∧
    encode (leVal (sig.drop 32) • B - (challenge (sig.take 32) pub msg % L) • A) = sig.take 32

/-- RFC 8032, 5.1.6: the signature made from the secret scalar `s` and the nonce `r`. -/
def rfcSign (s r : ℕ) (msg : List ℕ) : List ℕ :=
  encode (r • B) ++ leBytes 32 ((r + challenge (encode (r • B)) (encode (s • B)) msg * s) % L)

/-! ## Byte strings -/

theorem putBigEndian_eq (x : List ℕ) : putBigEndian x = x.reverse := by
  have h : ∀ n, (List.range n).foldl (fun r i => r ++ [x.getD (x.length - 1 - i) 0]) [] =
      (List.range n).map fun i => x.getD (x.length - 1 - i) 0 := by
    intro n
    induction n with
    | zero => rfl
    | succ n ih => rw [List.range_succ, List.foldl_append, ih, List.map_append]; rfl
  unfold putBigEndian
  rw [h]
  apply List.ext_getElem (by simp)
  intro i h1 h2
  simp only [List.length_map, List.length_range] at h1
  rw [List.getElem_map, List.getElem_range, List.getElem_reverse, List.getD_eq_getElem _ _ (by omega)]

theorem swapLoop_eq (x : List ℕ) : swapLoop x = x.reverse := by
  have h : ∀ n, n ≤ x.length / 2 → ∃ y : List ℕ, (List.range n).foldl
      (fun x i => (x.set i (x.getD (x.length - i - 1) 0)).set (x.length - i - 1) (x.getD i 0)) x = y ∧ y.length = x.length ∧
      ∀ j, j < x.length → y.getD j 0 = if j < n ∨ x.length ≤ j + n then x.getD (x.length - 1 - j) 0 else x.getD j 0 := by
    intro n
    induction n with
    | zero =>
      intro _
      refine ⟨x, rfl, rfl, ?_⟩
      intro j hj
      rw [if_neg (by omega)]
    | succ n ih =>
      intro hn
      obtain ⟨y, e, hl, hy⟩ := ih (by omega)
      rw [List.range_succ, List.foldl_append, e, List.foldl_cons, List.foldl_nil, hl]
      refine ⟨_, rfl, by simp [hl], ?_⟩
      intro j hj
      have a1 := hy n (by omega)
      have a2 := hy (x.length - n - 1) (by omega)
      rw [if_neg (by omega)] at a1 a2
      rw [a1, a2]
      rw [List.getD_eq_getElem _ _ (by rw [List.length_set, List.length_set, hl]; exact hj), List.getElem_set, List.getElem_set]
      by_cases c1 : x.length - n - 1 = j
      · rw [if_pos c1, if_pos (by omega), show x.length - 1 - j = n by omega]
      · rw [if_neg c1]
        by_cases c2 : n = j
        · rw [if_pos c2, if_pos (by omega), show x.length - 1 - j = x.length - n - 1 by omega]
        · rw [if_neg c2, ← List.getD_eq_getElem y 0 (by omega), hy j hj]
          by_cases c3 : j < n ∨ x.length ≤ j + n
          · rw [if_pos c3, if_pos (by omega)]
          · rw [if_neg c3, if_neg (by omega)]
  obtain ⟨y, e, hl, hy⟩ := h (x.length / 2) (le_refl _)
  unfold swapLoop
  rw [e]
  apply List.ext_getElem (by simp [hl])
  intro j h1 h2
  rw [List.getElem_reverse, ← List.getD_eq_getElem y 0 h1, hy j (by omega)]
  by_cases c : j < x.length / 2 ∨ x.length ≤ j + x.length / 2
  · rw [if_pos c, List.getD_eq_getElem _ _ (by omega)]
  · rw [if_neg c, List.getD_eq_getElem _ _ (by omega)]
    congr 1
    omega

theorem bigSetBytes_eq (x : List ℕ) : bigSetBytes x = leVal x.reverse := by
  have h : ∀ (x : List ℕ) (v : ℕ), x.foldl (fun v b => 256 * v + b) v = leVal x.reverse + 256 ^ x.length * v := by
    intro x
    induction x with
    | nil => intro v; simp [leVal]
    | cons b x ih =>
      intro v
      have e : ∀ (l : List ℕ) (c : ℕ), leVal (l ++ [c]) = leVal l + 256 ^ l.length * c := by
        intro l c
        induction l with
        | nil => simp [leVal]
        | cons a l ih => rw [List.cons_append, leVal, ih, leVal, List.length_cons, pow_succ]; ring
      rw [List.foldl_cons, ih, List.reverse_cons, e, List.length_reverse, List.length_cons, pow_succ]
      ring
  unfold bigSetBytes
  rw [h]; ring

theorem beBytes_big {l : List ℕ} (h : ∀ b ∈ l, b < 256) : beBytes l.length (bigSetBytes l) = l ∧ bigSetBytes l < 256 ^ l.length := by
  have hr : ∀ b ∈ l.reverse, b < 256 := fun b hb => h b (List.mem_reverse.1 hb)
  have h1 := leBytes_leVal l.reverse hr
  have h2 := leVal_lt hr
  rw [List.length_reverse] at h1 h2
  rw [bigSetBytes_eq]
  exact ⟨by rw [beBytes, h1, List.reverse_reverse], h2⟩

theorem newEmulatedPoint_eq {v : Point} {Q : Pt25519} (h : MadePt v Q) : newEmulatedPoint v = (Q.x.val, Q.y.val) := by
  obtain ⟨h1, h2⟩ := C63_affine h
  have e : ∀ y : Fp, bigSetBytes (swapLoop (leBytes 32 y.val)) % P = y.val := by
    intro y
    rw [swapLoop_eq, bigSetBytes_eq, List.reverse_reverse, leVal_leBytes _ _ (lt_of_lt_of_le (val_P y) (by norm_num)),
      Nat.mod_eq_of_lt (ZMod.val_lt y)]
  unfold newEmulatedPoint
  rw [h1, h2, e, e]

/-! ## The assignment -/

section
variable {p : ℕ} [hF : EdField p]

theorem word_val {l : List ℕ} (h : ∀ b ∈ l, b < 256) (hl : l.length ≤ 31) : ((bigSetBytes l : ℕ) : F p).val = bigSetBytes l := by
  apply ZMod.val_natCast_of_lt
  refine lt_of_lt_of_le (lt_of_lt_of_le (beBytes_big h).2 (Nat.pow_le_pow_right (by norm_num) hl)) (le_trans ?_ hF.lo)
  norm_num

theorem sha512_len (m : List ℕ) : (sha512 m).length = 64 := by
  rw [sha512, List.length_map, Sha.Spec.hash]
  generalize Sha.Spec.absorb _ _ _ = v
  simp [Sha.Spec.output, Sha.Spec.beBytes, Sha.Spec.wordBytes, Sha.Spec.sha512]

/-- Key, signature and message have the right shape. -/
structure Shape (pub sig msg : List ℕ) : Prop where
  bpub : ∀ b ∈ pub, b < 256
  bsig : ∀ b ∈ sig, b < 256
  bmsg : ∀ b ∈ msg, b < 256
  lpub : pub.length = 32
  lsig : sig.length = 64
  lmsg : msg.length = 122

/-- What the host code does on a key that decodes to `A` and a canonical `S`. -/
theorem assign_some (hL : L ≤ p) {pub sig msg : List ℕ} (h : Shape pub sig msg) {pA : Point} {A : Pt25519} (hA : ptSetBytes pub = some pA)
    (mA : MadePt pA A) (hS : leVal (sig.drop 32) < L) :
    ∃ R w, assign p pub sig msg = some (R, w) ∧
      MadePt R (leVal (sig.drop 32) • B - (challenge (sig.take 32) pub msg % L) • A) ∧
      (∃ v0 v1, w.PublicKey = [v0, v1] ∧ v0.val < 2 ^ 128 ∧ v1.val < 2 ^ 128 ∧ pkBytes v0.val v1.val = pub) ∧
      ((∀ i : Fin 4, (w.Message i.castSucc).val < 2 ^ 200) ∧ (w.Message 4).val < 2 ^ 176) ∧
      msgBytes (fun i => (w.Message i).val) = msg ∧
      w.ax = A.x.val ∧ w.ay = A.y.val ∧
      w.rx = (leVal (sig.drop 32) • B - (challenge (sig.take 32) pub msg % L) • A).x.val ∧
      w.ry = (leVal (sig.drop 32) • B - (challenge (sig.take 32) pub msg % L) • A).y.val ∧
      w.S.val = leVal (sig.drop 32) := by
  obtain ⟨nA, en, mn⟩ := (C63_group mA mA).2.2
  have hd : ∀ b ∈ sig.drop 32, b < 256 := fun b hb => h.bsig b (List.mem_of_mem_drop hb)
  have ld : (sig.drop 32).length = 32 := by rw [List.length_drop, h.lsig]
  have es := (C64_setCanonical hd (sig.drop 32)).2 ⟨ld, hS, rfl⟩
  have ek := (C64_setUniform (sha512_lt (sig.take 32 ++ pub ++ msg)) _).2 ⟨sha512_len _, rfl⟩
  have mk := MadeSc.uniform (sha512_lt _) ek
  have ms := MadeSc.canonical hd es
  obtain ⟨R, er, -⟩ := C65_varTime mk mn ms
  have mR := MadePt.varTime mk mn ms er
  have vS : ((leVal (sig.drop 32) : ℕ) : Zl).val = leVal (sig.drop 32) := ZMod.val_natCast_of_lt hS
  have vk : ((leVal (sha512 (sig.take 32 ++ pub ++ msg)) : ℕ) : Zl).val = challenge (sig.take 32) pub msg % L := ZMod.val_natCast L _
  rw [vS, vk, smul_neg, neg_add_eq_sub] at mR
  have eR := newEmulatedPoint_eq mR
  have eA := newEmulatedPoint_eq mA
  generalize leVal (sig.drop 32) • B - (challenge (sig.take 32) pub msg % L) • A = T at mR eR ⊢
  refine ⟨R, mkAssignment p pub msg pA R (sig.drop 32), ?_, mR, ⟨((bigSetBytes (pub.take 16) : ℕ) : F p), ((bigSetBytes (pub.drop 16) : ℕ) : F p), rfl, ?_⟩, ?_⟩
  · unfold assign
    simp only [hA, en, ek, es, er, Option.bind_eq_bind, Option.bind_some]
    rw [if_neg (by rw [h.lmsg]; norm_num)]
  · have b1 : ∀ b ∈ pub.take 16, b < 256 := fun b hb => h.bpub b (List.mem_of_mem_take hb)
    have b2 : ∀ b ∈ pub.drop 16, b < 256 := fun b hb => h.bpub b (List.mem_of_mem_drop hb)
    have l1 : (pub.take 16).length = 16 := by rw [List.length_take, h.lpub]; rfl
    have l2 : (pub.drop 16).length = 16 := by rw [List.length_drop, h.lpub]
    obtain ⟨e1, u1⟩ := beBytes_big b1
    obtain ⟨e2, u2⟩ := beBytes_big b2
    rw [l1] at e1 u1
    rw [l2] at e2 u2
    rw [word_val b1 (by omega), word_val b2 (by omega)]
    refine ⟨lt_of_lt_of_le u1 (by norm_num), lt_of_lt_of_le u2 (by norm_num), ?_⟩
    rw [pkBytes, e1, e2, List.take_append_drop]
  · have key : ∀ (a n : ℕ), a + n ≤ 122 → n ≤ 31 →
        (((bigSetBytes ((msg.drop a).take n) : ℕ) : F p).val < 256 ^ n ∧
          beBytes n (((bigSetBytes ((msg.drop a).take n) : ℕ) : F p).val) = (msg.drop a).take n) := by
      intro a n han hn
      have b1 : ∀ b ∈ (msg.drop a).take n, b < 256 := fun b hb => h.bmsg b (List.mem_of_mem_drop (List.mem_of_mem_take hb))
      have l1 : ((msg.drop a).take n).length = n := by rw [List.length_take, List.length_drop, h.lmsg]; omega
      obtain ⟨e1, u1⟩ := beBytes_big b1
      rw [l1] at e1 u1
      rw [word_val b1 (by omega)]
      exact ⟨u1, e1⟩
    have e4 : msg.drop (4 * 25) = (msg.drop 100).take 22 := by
      rw [List.take_of_length_le]; rw [List.length_drop, h.lmsg]
    have k0 := key 0 25 (by norm_num) (by norm_num)
    have k1 := key 25 25 (by norm_num) (by norm_num)
    have k2 := key 50 25 (by norm_num) (by norm_num)
    have k3 := key 75 25 (by norm_num) (by norm_num)
    have k4 := key 100 22 (by norm_num) (by norm_num)
    rw [show (256 : ℕ) ^ 25 = 2 ^ 200 by norm_num] at k0 k1 k2 k3
    rw [show (256 : ℕ) ^ 22 = 2 ^ 176 by norm_num] at k4
    have w4 : (if (4 : Fin 5).val = 4 then msg.drop ((4 : Fin 5).val * 25) else (msg.drop ((4 : Fin 5).val * 25)).take 25) =
        (msg.drop 100).take 22 := by
      rw [if_pos (show (4 : Fin 5).val = 4 from rfl)]; exact e4
    refine ⟨⟨?_, ?_⟩, ?_, congrArg Prod.fst eA, congrArg Prod.snd eA, congrArg Prod.fst eR, congrArg Prod.snd eR, ?_⟩
    · intro i
      fin_cases i
      · exact k0.1
      · exact k1.1
      · exact k2.1
      · exact k3.1
    · simp only [mkAssignment, w4]; exact k4.1
    · have j0 : beBytes 25 ((mkAssignment p pub msg pA R (sig.drop 32)).Message 0).val = (msg.drop 0).take 25 := k0.2
      have j1 : beBytes 25 ((mkAssignment p pub msg pA R (sig.drop 32)).Message 1).val = (msg.drop 25).take 25 := k1.2
      have j2 : beBytes 25 ((mkAssignment p pub msg pA R (sig.drop 32)).Message 2).val = (msg.drop 50).take 25 := k2.2
      have j3 : beBytes 25 ((mkAssignment p pub msg pA R (sig.drop 32)).Message 3).val = (msg.drop 75).take 25 := k3.2
      have j4 : beBytes 22 ((mkAssignment p pub msg pA R (sig.drop 32)).Message 4).val = (msg.drop 100).take 22 := by
        simp only [mkAssignment, w4]; exact k4.2
      rw [msgBytes, j0, j1, j2, j3, j4, ← e4, List.drop_zero]
      have st : ∀ a, msg.take a ++ (msg.drop a).take 25 = msg.take (a + 25) := fun a => by rw [List.take_add]
      rw [st 25, st 50, st 75]
      exact List.take_append_drop _ _
    · change (((bigSetBytes (putBigEndian (sig.drop 32)) : ℕ) : F p)).val = _
      rw [putBigEndian_eq, bigSetBytes_eq, List.reverse_reverse]
      exact ZMod.val_natCast_of_lt (lt_of_lt_of_le hS hL)

theorem decode_made {pub : List ℕ} (hb : ∀ b ∈ pub, b < 256) {pA : Point} (h : ptSetBytes pub = some pA) {A : Pt25519} (hA : encode A = pub) :
    MadePt pA A := by
  obtain ⟨Q, hQ, -, -, hu⟩ := C63_setBytes_value hb h
  have e : leVal pub = A.y.val + 2 ^ 255 * (A.x.val % 2) := by rw [← hA]; exact encodeXY_val (val_P _)
  have hlt := val_P A.y
  rw [hu A]
  · exact hQ
  · rw [e, Nat.add_mul_mod_self_left, Nat.mod_eq_of_lt hlt, ZMod.natCast_zmod_val]
  · right
    rw [e, Nat.add_mul_div_left _ _ (by positivity), Nat.div_eq_of_lt hlt, zero_add]

/-- **C66.** The host code panics exactly when the key string decodes to no point or `S` is not canonical. -/
theorem C66_total (hL : L ≤ p) {pub sig msg : List ℕ} (h : Shape pub sig msg) :
    (assign p pub sig msg).isSome ↔ (∃ Q : Pt25519, Q.y = ((leVal pub % 2 ^ 255 : ℕ) : Fp)) ∧ leVal (sig.drop 32) < L := by
  have hd : ∀ b ∈ sig.drop 32, b < 256 := fun b hb => h.bsig b (List.mem_of_mem_drop hb)
  constructor
  · intro hs
    have h1 : (ptSetBytes pub).isSome := by
      cases e : ptSetBytes pub with
      | none => rw [assign, e] at hs; exact absurd hs (by simp)
      | some _ => rfl
    refine ⟨((C63_setBytes_accepts h.bpub).1 h1).2, ?_⟩
    by_contra hn
    have h2 : scSetCanonical (sig.drop 32) = none := by
      cases e : scSetCanonical (sig.drop 32) with
      | none => rfl
      | some s => exact absurd ((C64_setCanonical hd s).1 e).2.1 hn
    rw [assign, h2] at hs
    simp only [Option.bind_eq_bind, Option.bind_none, Option.bind_fun_none, Option.isSome_none] at hs
    exact absurd hs (by simp)
  · rintro ⟨hq, hS⟩
    obtain ⟨pA, hA⟩ := Option.isSome_iff_exists.1 ((C63_setBytes_accepts h.bpub).2 ⟨h.lpub, hq⟩)
    obtain ⟨Q, mQ, -⟩ := C63_setBytes_value h.bpub hA
    obtain ⟨R, w, e, -⟩ := assign_some hL h hA mQ hS
    rw [e]; rfl

/-- **C66.** The circuit accepts the assignment exactly when the key string is the encoding of a point `A` and replacing the first half of
the signature by the encoding of the computed `R` does not change `[8][k]A` — in particular whenever that encoding *is* the first half. -/
theorem C66_accepts_iff (hL : L ≤ p) {pub sig msg : List ℕ} (h : Shape pub sig msg) {R : Point} {w : Assignment p}
    (e : assign p pub sig msg = some (R, w)) :
    accepts w ↔ ∃ A r, encode A = pub ∧ ptBytes R = some r ∧ 8 • challenge r pub msg • A = 8 • challenge (sig.take 32) pub msg • A := by
  obtain ⟨hq, hS⟩ := (C66_total hL h).1 (by rw [e]; rfl)
  obtain ⟨pA, hA⟩ := Option.isSome_iff_exists.1 ((C63_setBytes_accepts h.bpub).2 ⟨h.lpub, hq⟩)
  obtain ⟨Q, mQ, -⟩ := C63_setBytes_value h.bpub hA
  obtain ⟨R', w', e', mR, ⟨v0, v1, hv, u0, u1, hpk⟩, hm, hmsg, hax, hay, hrx, hry, hs⟩ := assign_some hL h hA mQ hS
  rw [e, Option.some.injEq, Prod.mk.injEq] at e'
  obtain ⟨rfl, rfl⟩ := e'
  have hc : ∀ x : Fp, x = ((x.val : ℕ) : Fp) := fun x => (ZMod.natCast_zmod_val x).symm
  have hT : ∀ (S k c : ℕ) (A : Pt25519), GroupEq S c (S • B - (k % L) • A) A ↔ 8 • c • A = 8 • k • A := by
    intro S k c A
    unfold GroupEq
    rw [smul_sub, eight_smul_congr (Nat.mod_modEq k L)]
    generalize 8 • S • B = X
    generalize 8 • c • A = Y
    generalize 8 • k • A = Z
    constructor
    · intro h
      have h' : Y - Z = 0 := by
        have : X - Z + Y - X = 0 := by rw [← h, sub_self]
        rw [← this]; abel
      exact sub_eq_zero.1 h'
    · intro h; rw [h]; abel
  have hb := C63_bytes mR
  have key : accepts w ↔ encode Q = pub ∧
      GroupEq (leVal (sig.drop 32)) (challenge (encode (leVal (sig.drop 32) • B - (challenge (sig.take 32) pub msg % L) • Q)) pub msg)
        (leVal (sig.drop 32) • B - (challenge (sig.take 32) pub msg % L) • Q) Q := by
    generalize leVal (sig.drop 32) • B - (challenge (sig.take 32) pub msg % L) • Q = T at *
    unfold accepts
    rw [hv, hax, hay, hrx, hry, C61_verify_partial v0 v1 _ _ _ _ _ w.Message Q T ⟨hc _, hc _⟩ ⟨hc _, hc _⟩, hs, hpk, hmsg]
    constructor
    · rintro ⟨-, -, -, h4, h5⟩
      exact ⟨h4, h5⟩
    · rintro ⟨h4, h5⟩
      exact ⟨⟨val_P _, val_P _, val_P _, val_P _⟩, ⟨u0, u1⟩, hm, h4, h5⟩
  rw [key, hT]
  constructor
  · rintro ⟨h1, h2⟩
    exact ⟨Q, _, h1, hb, h2⟩
  · rintro ⟨A, r, h1, h2, h3⟩
    have hAQ : A = Q := by
      have m := decode_made h.bpub hA h1
      exact encode_inj (by rw [← Option.some.injEq, ← C63_bytes m, ← C63_bytes mQ])
    subst hAQ
    rw [hb, Option.some.injEq] at h2
    subst h2
    exact ⟨h1, h3⟩

/-- **C66.** The host-side check `bytes.Equal(sig[:32], R.Bytes())` is the verification of the standard library: with a canonical key it
succeeds exactly for valid signatures. -/
theorem C66_check (hL : L ≤ p) {pub sig msg : List ℕ} (h : Shape pub sig msg) {R : Point} {w : Assignment p}
    (e : assign p pub sig msg = some (R, w)) {A : Pt25519} (hA : encode A = pub) :
    ptBytes R = some (sig.take 32) ↔ GoValid pub sig msg := by
  obtain ⟨hq, hS⟩ := (C66_total hL h).1 (by rw [e]; rfl)
  obtain ⟨pA, hpA⟩ := Option.isSome_iff_exists.1 ((C63_setBytes_accepts h.bpub).2 ⟨h.lpub, hq⟩)
  have mA := decode_made h.bpub hpA hA
  obtain ⟨R', w', e', mR, -⟩ := assign_some hL h hpA mA hS
  rw [e, Option.some.injEq, Prod.mk.injEq] at e'
  obtain ⟨rfl, rfl⟩ := e'
  rw [C63_bytes mR, Option.some.injEq]
  constructor
  · intro h1
    exact ⟨hS, A, hA, h1⟩
  · rintro ⟨-, A', hA', h1⟩
    rw [← encode_inj (hA'.trans hA.symm)]
    exact h1

/-- **C66.** For every valid signature the host code produces an assignment, its own check succeeds, and the circuit accepts. -/
theorem C66_valid (hL : L ≤ p) {pub sig msg : List ℕ} (h : Shape pub sig msg) (hv : GoValid pub sig msg) :
    ∃ R w, assign p pub sig msg = some (R, w) ∧ ptBytes R = some (sig.take 32) ∧ accepts w := by
  obtain ⟨hS, A, hA, hR⟩ := id hv
  obtain ⟨pA, hpA, -⟩ := decode_encode A
  rw [hA] at hpA
  obtain ⟨R, w, e, -⟩ := assign_some hL h hpA (decode_made h.bpub hpA hA) hS
  have hc := (C66_check hL h e hA).2 hv
  exact ⟨R, w, e, hc, (C66_accepts_iff hL h e).2 ⟨A, _, hA, hc, rfl⟩⟩

/-- **C66.** A key string that is not the encoding of a point is never accepted, even where the host's `SetBytes` takes it. -/
theorem C66_noncanonical_key (hL : L ≤ p) {pub sig msg : List ℕ} (h : Shape pub sig msg) (hn : ∀ Q : Pt25519, encode Q ≠ pub) {R : Point}
    {w : Assignment p} (e : assign p pub sig msg = some (R, w)) : ¬ accepts w := by
  rw [C66_accepts_iff hL h e]
  rintro ⟨A, -, hA, -⟩
  exact hn A hA

/-- **C66.** From end to end: every signature made by RFC 8032 signing, with any secret scalar, nonce and 122-byte message, becomes an
accepted assignment. -/
theorem C66_signed (hL : L ≤ p) (s r : ℕ) {msg : List ℕ} (hm : ∀ b ∈ msg, b < 256) (hl : msg.length = 122) :
    ∃ R w, assign p (encode (s • B)) (rfcSign s r msg) msg = some (R, w) ∧ accepts w := by
  have l1 : (encode (r • B)).length = 32 := leBytes_len _ _
  set k := challenge (encode (r • B)) (encode (s • B)) msg with hk
  have et : (rfcSign s r msg).take 32 = encode (r • B) := by rw [rfcSign, List.take_left' l1]
  have ed : (rfcSign s r msg).drop 32 = leBytes 32 ((r + k * s) % L) := by rw [rfcSign, List.drop_left' l1]
  have hlt : (r + k * s) % L < L := Nat.mod_lt _ (by decide +kernel)
  have ev : leVal ((rfcSign s r msg).drop 32) = (r + k * s) % L := by
    rw [ed, leVal_leBytes _ _ (lt_trans hlt (by decide +kernel))]
  have hsh : Shape (encode (s • B)) (rfcSign s r msg) msg := by
    refine ⟨encodeXY_lt _ _, ?_, hm, leBytes_len _ _, ?_, hl⟩
    · intro b hb
      rcases List.mem_append.1 hb with h | h
      · exact encodeXY_lt _ _ b h
      · exact leBytes_lt _ _ b h
    · rw [rfcSign, List.length_append, l1, leBytes_len]
  have hv : GoValid (encode (s • B)) (rfcSign s r msg) msg := by
    refine ⟨by rw [ev]; exact hlt, s • B, rfl, ?_⟩
    rw [ev, et, ← hk]
    refine congrArg encode ?_
    have hB : ∀ a b : ℕ, a ≡ b [MOD L] → a • B = b • B := by
      intro a b hab
      rw [nsmul_eq_nsmul_iff_modEq, order_B]
      exact hab
    rw [← mul_smul, hB _ _ (Nat.mod_modEq _ _), hB _ _ ((Nat.mod_modEq k L).mul_right s), add_smul, add_sub_cancel_right]
  obtain ⟨R, w, e, -, ha⟩ := C66_valid hL hsh hv
  exact ⟨R, w, e, ha⟩

/-- The hypotheses are met: the all-zero message over BN254. -/
example : ∃ R w, assign bn254r (encode (7 • B)) (rfcSign 7 9 (List.replicate 122 0)) (List.replicate 122 0) = some (R, w) ∧ accepts w :=
  C66_signed (by decide +kernel) 7 9 (by simp) (by simp)

end
end Verif.EdHost
