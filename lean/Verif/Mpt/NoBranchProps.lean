import Verif.Mpt.NoBranch

/-! # Property theorems C74: `CheckMPTInclusionNoBranchTermination` -/

set_option linter.unusedSectionVars false
set_option linter.unusedVariables false

namespace Verif.Mpt
open Api Rlp Keccak Spec.Keccak Spec.Rlp Spec.Mpt
variable {p : ℕ} [Fact p.Prime]

/-- **C74 (the accepting condition).** Whenever the circuit is satisfied, the flag is 1 exactly when the units that were earned
— one for the root hash, one for the key fragments, and the verdicts of the nodes above the leaf (four when all of a node's
checks pass) — are *one less* than all of them. -/
theorem C74_accept_iff (hp : 2 ^ 128 < p) (D mk : ℕ) (hD2 : 2 ≤ D) (hD : D ≤ 10) (key : List (F p)) (kl : F p)
    (root starts : List (F p)) (hroot : root.length = 64) (hi lo : F p) (rows : List (List (F p)))
    (hrows : ∀ row ∈ rows, row.length % 16 = 0) (ris pls types : List (F p))
    (depth out : F p) (h : checkInclusionNoBranch D mk key kl root starts hi lo rows ris pls types depth = some out) :
    1 ≤ depth.val ∧ depth.val ≤ D ∧
    ∃ (lh : List (F p)) (ls : List (LayerOut p)) (top : LayerOut p) (frag : F p), recompose2 hi lo = some lh ∧
      layers ⟨mk, logCeil mk, mk, key.take 7, key, starts, rows, ris, pls, types, depth, ⟨lh, 64⟩⟩ D = some ls ∧
      ls[0]? = some top ∧ fragmentsValid D kl (fun t => 1 - t) starts types depth = some frag ∧ (frag = 0 ∨ frag = 1) ∧
      out = if (if root = top.hash.output then 1 else 0) + frag + ((List.range (depth.val - 1)).map (verdict types ls)).sum + 1 =
        2 + 4 * (depth - 1) then 1 else 0 := by
  unfold checkInclusionNoBranch at h
  obtain ⟨_, -, h⟩ := Option.bind_eq_some_iff.1 h
  obtain ⟨frag, hfrag, h⟩ := Option.bind_eq_some_iff.1 h
  obtain ⟨_, -, h⟩ := Option.bind_eq_some_iff.1 h
  obtain ⟨_, -, h⟩ := Option.bind_eq_some_iff.1 h
  obtain ⟨lh, hlh, h⟩ := Option.bind_eq_some_iff.1 h
  obtain ⟨kc, hkc, h⟩ := Option.bind_eq_some_iff.1 h
  obtain ⟨ls, hls, hfin⟩ := Option.bind_eq_some_iff.1 h
  obtain ⟨-, -, hd1, hdD, -, hfb, -⟩ := frag_facts hp (by omega) hD _ _ _ _ _ hfrag
  obtain ⟨-, rfl⟩ := mapM_cells hkc
  have hls' := hls
  unfold layers at hls'
  obtain ⟨hlen, -, hst⟩ := layers_some (D - 1) [] ls hls'
  simp only [List.length_nil, Nat.add_zero] at hlen
  obtain ⟨top, ht, hstep⟩ := hst 0 (by omega)
  obtain ⟨s, s', sel, sl, refLen, refs, t, row, pl, e, nib, b, ri, -, -, -, -, -, hrow, -, -, -, -, -, -, -, -, hh, -, -⟩ := layerStep_some hstep
  obtain ⟨-, -, -, hho, -⟩ := hashNode_some hp (hrows row (List.mem_of_getElem? hrow)) hh
  have htl : top.hash.output.length = 64 := by rw [hho, List.length_map, nibblesOf_length, digestBytes_length]
  have hq := finish_eq hp hD (by omega) hroot hd1 hdD ht htl hfin
  refine ⟨hd1, hdD, lh, ls, top, frag, hlh, hls, ht, hfrag, hfb, ?_⟩
  rw [hq]
  congr 1
  apply propext
  constructor
  · intro g
    linear_combination g
  · intro g
    linear_combination g

/-- **C74 (negation, completeness).** A proof of which every single check passes — the root hash is the hash of the first node, the
key fragments are in order, every node check above the leaf has its full verdict — is rejected. -/
theorem C74_all_valid_rejected (hp : 2 ^ 128 < p) (D mk : ℕ) (hD2 : 2 ≤ D) (hD : D ≤ 10) (key : List (F p)) (kl : F p)
    (root starts : List (F p)) (hroot : root.length = 64) (hi lo : F p) (rows : List (List (F p)))
    (hrows : ∀ row ∈ rows, row.length % 16 = 0) (ris pls types : List (F p))
    (depth out : F p) (h : checkInclusionNoBranch D mk key kl root starts hi lo rows ris pls types depth = some out)
    (hfrag : fragmentsValid D kl (fun t => 1 - t) starts types depth = some 1)
    (hall : ∀ lh ls, recompose2 hi lo = some lh →
      layers ⟨mk, logCeil mk, mk, key.take 7, key, starts, rows, ris, pls, types, depth, ⟨lh, 64⟩⟩ D = some ls →
      (∀ top, ls[0]? = some top → root = top.hash.output) ∧ ∀ j < depth.val - 1, verdict types ls j = 4) : out = 0 := by
  obtain ⟨hd1, hdD, lh, ls, top, frag, h1, h2, h3, h4, h5, h6⟩ := C74_accept_iff hp D mk hD2 hD key kl root starts hroot hi lo rows hrows ris
    pls types depth out h
  obtain ⟨g1, g2⟩ := hall lh ls h1 h2
  obtain rfl : frag = 1 := by rw [hfrag] at h4; exact (Option.some.inj h4).symm
  rw [h6, if_pos (g1 top h3), if_neg]
  have hsum : ((List.range (depth.val - 1)).map (verdict types ls)).sum = ((4 * (depth.val - 1) : ℕ) : F p) := by
    rw [List.map_congr_left (g := fun _ => (4 : F p)) (fun j hj => g2 j (List.mem_range.1 hj))]
    simp [List.sum_replicate]
    ring
  have hdm : depth - 1 = ((depth.val - 1 : ℕ) : F p) := by
    rw [Nat.cast_sub hd1, ZMod.natCast_zmod_val]; simp
  rw [hsum, hdm]
  intro g
  have g' : (((2 + 4 * (depth.val - 1) + 1 : ℕ)) : F p) = ((2 + 4 * (depth.val - 1) : ℕ) : F p) := by
    push_cast
    push_cast at g
    linear_combination g
  rw [natCast_inj_of_lt (by omega) (by omega)] at g'
  omega

theorem assertLe_ten (hp : 2 ^ 128 < p) {D : ℕ} (hD : D ≤ 10) : assertLe ((D : ℕ) : F p) 10 = some () := by
  unfold assertLe
  rw [if_pos]
  rw [val_natCast_lt (by omega)]
  have := val_natCast_lt (p := p) (a := 10) (by omega)
  have h' : (10 : F p).val = 10 := by simpa using this
  rw [h']; exact hD

theorem keyRow_nibs (hp : 2 ^ 128 < p) {key : List ℕ} (hkn : ∀ y ∈ key, y < 16) (i : ℕ) :
    ((key.map (Nat.cast : ℕ → F p)).getD i 0).val < 16 := by
  rw [List.getD_eq_getElem?_getD, List.getElem?_map]
  rcases hx : key[i]? with _ | y
  · simp
  · have := hkn y (List.mem_of_getElem? hx)
    simp only [Option.map_some, Option.getD_some]
    rw [val_natCast_lt (by omega)]; exact this

/-- **C74 (negation, soundness).** Every leaf hash is "included" under every key in every trie: for every root hash, every key
of at least seven nibbles, every non-zero key length and every leaf hash, there is an accepted proof (of depth one, with
all-zero node buffers). -/
theorem C74_universal_forgery (hp : 2 ^ 128 < p) (D L : ℕ) (hD2 : 2 ≤ D) (hD : D ≤ 10) (hL16 : L % 16 = 0) (hL1 : 1064 ≤ L) (hL2 : L ≤ 2720)
    (key : List ℕ) (hk : 7 ≤ key.length) (hkn : ∀ y ∈ key, y < 16) (kl : F p) (hkl1 : 1 ≤ kl.val)
    (root : List (F p)) (hroot : root.length = 64) (hi lo : ℕ) (hhi : hi < 2 ^ 128) (hlo : lo < 2 ^ 128) :
    ∃ (starts : List (F p)) (rows : List (List (F p))) (ris pls types : List (F p)),
      (∀ row ∈ rows, row.length = L) ∧
      checkInclusionNoBranch D 6 (key.map Nat.cast) kl root starts ((hi : ℕ) : F p) ((lo : ℕ) : F p) rows ris pls types 1 = some 1 := by
  classical
  obtain ⟨st, hst⟩ : ∃ st : ℕ → ℕ, st = fun j => if j = 0 then 0 else if root = (zeroHash L).map (Nat.cast : ℕ → F p) then 0 else 1 := ⟨_, rfl⟩
  have hst0 : st 0 = 0 := by rw [hst]; simp
  have hst1 : ∀ j, st (j + 1) = if root = (zeroHash L).map (Nat.cast : ℕ → F p) then 0 else 1 := by
    intro j; rw [hst]; simp
  have hle : ∀ j, st j ≤ st (j + 1) ∧ st j ≤ 1 := by
    intro j
    rcases j with _ | j
    · rw [hst0]; omega
    · rw [hst1, hst1]; split <;> omega
  have hsv : ∀ j, ((st j : ℕ) : F p).val = st j := fun j => val_natCast_lt (by have := (hle j).2; omega)
  have h1v : (1 : F p).val = 1 := val_one hp
  have h64' : (64 : F p).val = 64 := by
    have := val_natCast_lt (p := p) (a := 64) (by omega); simpa using this
  obtain ⟨S, hS⟩ : ∃ S : List (F p), S = (List.range D).map fun j => ((st j : ℕ) : F p) := ⟨_, rfl⟩
  obtain ⟨Z, hZ⟩ : ∃ Z : List (F p), Z = List.replicate (D - 1) 0 := ⟨_, rfl⟩
  obtain ⟨R, hR⟩ : ∃ R : List (List (F p)), R = List.replicate (D - 1) (List.replicate L 0) := ⟨_, rfl⟩
  have hSj : ∀ j < D, S[j]? = some ((st j : ℕ) : F p) := by
    intro j hj; rw [hS]; exact getElem?_range_map _ hj
  have hZj : ∀ j < D - 1, Z[j]? = some 0 := by
    intro j hj; rw [hZ, List.getElem?_replicate, if_pos hj]
  have hZl : Z.length = D - 1 := by rw [hZ, List.length_replicate]
  have hRj : ∀ j < D - 1, R[j]? = some (List.replicate L 0) := by
    intro j hj; rw [hR, List.getElem?_replicate, if_pos hj]
  refine ⟨S, R, Z, Z, Z, ?_, ?_⟩
  · intro row hr
    rw [hR] at hr
    rw [List.eq_of_mem_replicate hr, List.length_replicate]
  obtain ⟨v, hv⟩ := frag_some_neg (K := kl) (d := 1) (st := st) (ty := fun _ => 0) hp hD (by omega) le_rfl (by omega) (fun _ _ => by omega) (T := Z) hSj
    (fun j hj => by rw [hZj j hj]; simp)
  rw [Nat.cast_one] at hv
  obtain ⟨-, -, -, -, -, hvb, hviff⟩ := frag_facts hp (by omega) hD _ _ _ _ _ hv
  have hS0 : S.getD 0 0 = 0 := by rw [getElem?_getD (hSj 0 (by omega)), hst0]; simp
  have hS1 : S.getD 1 0 = ((st 1 : ℕ) : F p) := getElem?_getD (hSj 1 (by omega))
  have hlh := recompose2_eq hp hi lo hhi hlo
  obtain ⟨lh, hlhd⟩ : ∃ lh : List (F p), lh = (Compose.beDigits 4 64 (hi * 2 ^ 128 + lo)).map Nat.cast := ⟨_, rfl⟩
  rw [← hlhd] at hlh
  have hll : lh.length = 64 := by rw [hlhd, List.length_map, beDigits_length]
  obtain ⟨a, ha⟩ : ∃ a : LayerArgs p, a = ⟨6, logCeil 6, 6, (key.map Nat.cast).take 7, key.map Nat.cast, S, R, Z, Z, Z, 1, ⟨lh, 64⟩⟩ := ⟨_, rfl⟩
  have hkl : 7 ≤ (key.map (Nat.cast : ℕ → F p)).length := by rw [List.length_map]; exact hk
  have hstep : ∀ j < D - 1, ∀ next : Option (LayerOut p), ((next = none ∧ j + 1 = D - 1) ∨ ∃ o, next = some o ∧ j + 1 < D - 1 ∧
      (o.hash.output = (zeroHash L).map Nat.cast ∧ o.hash.outLen.val ≤ 64)) →
      ∃ o, layerStep a j (next.map LayerOut.hash) = some o ∧ (o.hash.output = (zeroHash L).map Nat.cast ∧ o.hash.outLen.val ≤ 64) := by
    intro j hj next hnx
    have hnext : ∀ h, next.map LayerOut.hash = some h → h.output.length = 64 ∧ h.outLen.val ≤ 64 := by
      rintro h hh
      rcases hnx with ⟨rfl, -⟩ | ⟨o, rfl, -, hg⟩
      · cases hh
      · obtain rfl := Option.some.inj hh
        exact ⟨by rw [hg.1, List.length_map, zeroHash_length], hg.2⟩
    exact zero_layer_run6 (a := a) hp hL16 hL1 hL2 (by rw [ha]) (by rw [ha]; show logCeil 6 = 3; decide) (by rw [ha]) (by rw [ha, List.length_take]; omega)
      (by rw [ha]; show 6 ≤ (key.map (Nat.cast : ℕ → F p)).length; omega) (fun i => by rw [ha]; exact keyRow_nibs hp hkn i) (by omega) (by rw [ha]; exact hSj j (by omega))
      (by rw [ha]; exact hSj (j + 1) (by omega)) (by rw [hsv, hsv]; exact (hle j).1) (by rw [hsv]; have := (hle (j + 1)).2; omega)
      (fun _ => by rw [hsv]; have := (hle j).2; omega) (by rw [ha]; exact hZj j hj) (by rw [ha]; exact hRj j hj) (by rw [ha]; exact hZj j hj)
      (by rw [ha]; exact hZj j hj) (by rw [ha]; exact hll) (by rw [ha]; show (64 : F p).val ≤ 64; rw [h64']) hnext
  obtain ⟨ls, hls, hlen, hgood⟩ := layers_run (a := a) (fun j o => o.hash.output = (zeroHash L).map Nat.cast ∧ o.hash.outLen.val ≤ 64) (D - 1) hstep
  obtain ⟨top, htop, g1, -⟩ := hgood 0 (by omega)
  have htl : top.hash.output.length = 64 := by rw [g1, List.length_map, zeroHash_length]
  obtain ⟨out, hfin⟩ := finish_some (d := 1) (types := Z) hp hD le_rfl (by omega) (by omega) hZl hroot htop htl 4 v 1
  rw [Nat.cast_one] at hfin
  have hq := finish_eq hp hD (by omega) hroot (by rw [h1v]) (by rw [h1v]; omega) htop htl hfin
  have hout : out = 1 := by
    rw [hq, h1v, Nat.sub_self, List.range_zero, List.map_nil, List.sum_nil, g1]
    by_cases hr : root = (zeroHash L).map (Nat.cast : ℕ → F p)
    · rw [if_pos hr]
      have hv0 : v = 0 := by
        rcases hvb with h | h
        · exact h
        · exfalso
          have := ((hviff.1 h).1 0 (by omega) (by rw [h1v]; omega)).2.1
          rw [hS0, hS1, ZMod.val_zero, hsv, hst1, if_pos hr] at this
          omega
      rw [hv0, if_pos (by ring)]
    · rw [if_neg hr]
      have hv1 : v = 1 := by
        refine hviff.2 ⟨?_, fun h => by rw [h1v] at h; omega⟩
        intro j hj hj1
        rw [h1v] at hj1
        obtain rfl : j = 0 := by omega
        have hs1 : st (0 + 1) = 1 := by rw [hst1, if_neg hr]
        refine ⟨Or.inr ?_, ?_, ?_⟩
        · rw [getElem?_getD (hZj 0 hj)]; simp
        · rw [hS0, hS1, ZMod.val_zero, hsv, hs1]; omega
        · rw [hS0, ZMod.val_zero]; omega
      rw [hv1, if_pos (by ring)]
  rw [hout] at hfin
  unfold checkInclusionNoBranch
  refine Option.bind_eq_some_iff.2 ⟨(), assertLe_ten hp hD, Option.bind_eq_some_iff.2 ⟨v, hv, Option.bind_eq_some_iff.2
    ⟨S, ?_, Option.bind_eq_some_iff.2 ⟨_, multiplexer_single _ _ _ (by omega) (by rw [hS]; simp) |>.trans (if_pos (by
      rw [sub_self, ZMod.val_zero]; omega)), Option.bind_eq_some_iff.2 ⟨lh, hlh,
    Option.bind_eq_some_iff.2 ⟨(key.map Nat.cast).take 7, mapM_getElem? _ _ hkl, Option.bind_eq_some_iff.2 ⟨ls, ?_, hfin⟩⟩⟩⟩⟩⟩⟩
  · rw [mapM_getElem? _ _ (by rw [hS]; simp), List.take_of_length_le (by rw [hS]; simp)]
  · unfold layers
    rw [← ha]
    exact hls

/-- **C74 (negation).** The honest proof of depth two is rejected, and the same proof with any *wrong* root hash is accepted: for
every branch `f`, every child `i` of it (with a hashed reference) and every key that starts with `i`, there are witnesses, built
from the branch node itself, such that the claim "the child's hash is included under the key" is rejected against the
branch's own root hash and accepted against every other one. -/
theorem C74_honest_rejected (hp : 2 ^ 128 < p) (D L : ℕ) (hD2 : 2 ≤ D) (hD : D ≤ 10) (hL16 : L % 16 = 0) (hL1 : 1088 ≤ L) (hL2 : L ≤ 2720)
    (f : Fin 16 → Trie) (hf : ∀ i, f i = .empty ∨ 32 ≤ (f i).encode.length) (i : Fin 16) (hi : 32 ≤ (f i).encode.length)
    (rest : List ℕ) (hk : 6 ≤ rest.length) (hkn : ∀ y ∈ rest, y < 16) (kl : F p) (hkl2 : 2 ≤ kl.val) :
    ∃ (starts : List (F p)) (rows : List (List (F p))) (ris pls types : List (F p)),
      rows[0]? = some ((rowNibs L (.branch f)).map Nat.cast) ∧ types[0]? = some 0 ∧ starts[0]? = some 0 ∧ starts[1]? = some 1 ∧
      ∀ root : List (F p), root.length = 64 →
      checkInclusionNoBranch D 6 ((i.val :: rest).map Nat.cast) kl root starts
        ((Spec.Eth.beValue (keccakBytes (f i).encode) / 2 ^ 128 : ℕ) : F p) ((Spec.Eth.beValue (keccakBytes (f i).encode) % 2 ^ 128 : ℕ) : F p)
        rows ris pls types 2 = some (if root = (nibblesOf (Trie.branch f).root).map Nat.cast then 0 else 1) := by
  classical
  have hkn' : ∀ y ∈ i.val :: rest, y < 16 := by
    intro y hy
    rcases List.mem_cons.1 hy with rfl | h
    · exact i.isLt
    · exact hkn y h
  have hbb : ∀ b ∈ (Trie.branch f).encode, b < 256 := by
    rw [branch_encode hf]
    exact encodeList_bytes (branchItems_bytes f) (by have := branchItems_flatten f; omega)
  have hbl := branch_len hf
  have hbfit : padLen (.branch f) ≤ L := by unfold padLen; omega
  obtain ⟨V, hV⟩ : ∃ V, V = Spec.Eth.beValue (keccakBytes (f i).encode) := ⟨_, rfl⟩
  have hVlt : V < 2 ^ 256 := by rw [hV]; exact hash_value_lt _
  have hVd : Compose.beDigits 4 64 V = nibblesOf (keccakBytes (f i).encode) := by rw [hV]; exact hash_digits _
  rw [← hV]
  obtain ⟨st, hst⟩ : ∃ st : ℕ → ℕ, st = fun j => if j = 0 then 0 else if j = 1 then 1 else 2 := ⟨_, rfl⟩
  have hst0 : st 0 = 0 := by rw [hst]; rfl
  have hst1 : st 1 = 1 := by rw [hst]; rfl
  have hst2 : ∀ j, st (j + 2) = 2 := by intro j; rw [hst]; simp
  have hle : ∀ j, st j ≤ st (j + 1) ∧ st j ≤ 2 := by
    intro j
    rcases j with _ | _ | j
    · rw [hst0]; omega
    · rw [hst1, hst2]; omega
    · rw [hst2, show j + 1 + 1 + 1 = (j + 1) + 2 by ring, hst2]; omega
  have hsv : ∀ j, ((st j : ℕ) : F p).val = st j := fun j => val_natCast_lt (by have := (hle j).2; omega)
  have h2v : (2 : F p).val = 2 := by
    have := val_natCast_lt (p := p) (a := 2) (by omega); simpa using this
  have h64' : (64 : F p).val = 64 := by
    have := val_natCast_lt (p := p) (a := 64) (by omega); simpa using this
  obtain ⟨S, hS⟩ : ∃ S : List (F p), S = (List.range D).map fun j => ((st j : ℕ) : F p) := ⟨_, rfl⟩
  obtain ⟨Z, hZ⟩ : ∃ Z : List (F p), Z = List.replicate (D - 1) 0 := ⟨_, rfl⟩
  obtain ⟨RI, hRI⟩ : ∃ RI : List (F p), RI = (List.range (D - 1)).map fun j => if j = 0 then (((Trie.branch f).encode.length / 136 : ℕ) : F p) else 0 := ⟨_, rfl⟩
  obtain ⟨R, hR⟩ : ∃ R : List (List (F p)), R = (List.range (D - 1)).map fun j => if j = 0 then (rowNibs L (.branch f)).map Nat.cast else List.replicate L 0 := ⟨_, rfl⟩
  have hSj : ∀ j < D, S[j]? = some ((st j : ℕ) : F p) := by
    intro j hj; rw [hS]; exact getElem?_range_map _ hj
  have hZj : ∀ j < D - 1, Z[j]? = some 0 := by
    intro j hj; rw [hZ, List.getElem?_replicate, if_pos hj]
  have hZl : Z.length = D - 1 := by rw [hZ, List.length_replicate]
  have hR0 : R[0]? = some ((rowNibs L (.branch f)).map Nat.cast) := by
    rw [hR]; rw [getElem?_range_map _ (by omega)]; simp
  have hRj : ∀ j < D - 1, 0 < j → R[j]? = some (List.replicate L 0) := by
    intro j hj h0; rw [hR, getElem?_range_map _ hj, if_neg (by omega)]
  have hRI0 : RI[0]? = some (((Trie.branch f).encode.length / 136 : ℕ) : F p) := by
    rw [hRI]; rw [getElem?_range_map _ (by omega)]; simp
  have hRIj : ∀ j < D - 1, 0 < j → RI[j]? = some 0 := by
    intro j hj h0; rw [hRI, getElem?_range_map _ hj, if_neg (by omega)]
  have hSG : ∀ j < D, S.getD j 0 = ((st j : ℕ) : F p) := fun j hj => getElem?_getD (hSj j hj)
  obtain ⟨v, hv⟩ := frag_some_neg (K := kl) (d := 2) (st := st) (ty := fun _ => 0) hp hD (by omega) (by omega) (by omega) (fun _ _ => by omega) (T := Z) hSj
    (fun j hj => by rw [hZj j hj]; simp)
  rw [Nat.cast_two] at hv
  obtain ⟨-, -, -, -, -, -, hviff⟩ := frag_facts hp (by omega) hD _ _ _ _ _ hv
  obtain rfl : v = 1 := by
    refine hviff.2 ⟨?_, ?_⟩
    · intro j hj hj1
      rw [h2v] at hj1
      refine ⟨Or.inr ?_, ?_, ?_⟩
      · rw [getElem?_getD (hZj j hj)]; simp
      · rw [hSG j (by omega), hSG (j + 1) (by omega), hsv, hsv]
        rcases (by omega : j = 0 ∨ j = 1) with rfl | rfl
        · rw [hst0, hst1]; omega
        · rw [hst1, hst2]; omega
      · rw [hSG j (by omega), hsv]
        rcases (by omega : j = 0 ∨ j = 1) with rfl | rfl
        · rw [hst0]; omega
        · rw [hst1]; omega
    · intro h
      rw [h2v] at h
      subst h
      rw [hSG 1 (by omega), hsv, hst1]; omega
  have hlh := recompose2_eq hp (V / 2 ^ 128) (V % 2 ^ 128) (by omega) (Nat.mod_lt _ (by norm_num))
  rw [show V / 2 ^ 128 * 2 ^ 128 + V % 2 ^ 128 = V by omega, hVd] at hlh
  obtain ⟨lh, hlhd⟩ : ∃ lh : List (F p), lh = (nibblesOf (keccakBytes (f i).encode)).map Nat.cast := ⟨_, rfl⟩
  rw [← hlhd] at hlh
  have hll : lh.length = 64 := by rw [hlhd, List.length_map, nibblesOf_length, keccakBytes_length]
  obtain ⟨K, hK⟩ : ∃ K : List (F p), K = (i.val :: rest).map Nat.cast := ⟨_, rfl⟩
  have hKl : 7 ≤ K.length := by rw [hK, List.length_map, List.length_cons]; omega
  have hK0 : K.getD 0 0 = ((i.val : ℕ) : F p) := by rw [hK]; rfl
  obtain ⟨a, ha⟩ : ∃ a : LayerArgs p, a = ⟨6, logCeil 6, 6, K.take 7, K, S, R, RI, Z, Z, 2, ⟨lh, 64⟩⟩ := ⟨_, rfl⟩
  have hrt : (nibblesOf (Trie.branch f).root) = nibblesOf (keccakBytes (Trie.branch f).encode) := rfl
  have had : a.depth.val = 2 := by rw [ha]; exact h2v
  have hstep : ∀ j < D - 1, ∀ next : Option (LayerOut p), ((next = none ∧ j + 1 = D - 1) ∨ ∃ o, next = some o ∧ j + 1 < D - 1 ∧
      (o.hash.output.length = 64 ∧ o.hash.outLen.val ≤ 64 ∧
        (j + 1 = 0 → o.hash.output = (nibblesOf (Trie.branch f).root).map Nat.cast ∧ o.branch = 4))) →
      ∃ o, layerStep a j (next.map LayerOut.hash) = some o ∧ (o.hash.output.length = 64 ∧ o.hash.outLen.val ≤ 64 ∧
        (j = 0 → o.hash.output = (nibblesOf (Trie.branch f).root).map Nat.cast ∧ o.branch = 4)) := by
    intro j hj next hnx
    have hnext : ∀ h, next.map LayerOut.hash = some h → h.output.length = 64 ∧ h.outLen.val ≤ 64 := by
      rintro h hh
      rcases hnx with ⟨rfl, -⟩ | ⟨o, rfl, -, hg⟩
      · cases hh
      · obtain rfl := Option.some.inj hh
        exact ⟨hg.1, hg.2.1⟩
    clear hnx
    have hal : a.last.output.length = 64 := by rw [ha]; exact hll
    have hall : a.last.outLen.val ≤ 64 := by rw [ha]; show (64 : F p).val ≤ 64; rw [h64']
    have c1 : a.nSub = 6 := by rw [ha]
    have c2 : a.subBits = 3 := by rw [ha]; show logCeil 6 = 3; decide
    have c3 : a.maxKey = 6 := by rw [ha]
    have c4 : 6 ≤ a.keyCells.length := by rw [ha, List.length_take]; omega
    have c5 : 6 ≤ a.key.length := by rw [ha]; show 6 ≤ K.length; omega
    have c6 : a.starts[j]? = some ((st j : ℕ) : F p) := by rw [ha]; exact hSj j (by omega)
    have c7 : a.starts[j + 1]? = some ((st (j + 1) : ℕ) : F p) := by rw [ha]; exact hSj (j + 1) (by omega)
    have c8 : ((st j : ℕ) : F p).val ≤ ((st (j + 1) : ℕ) : F p).val := by rw [hsv, hsv]; exact (hle j).1
    have c9 : ((st (j + 1) : ℕ) : F p).val ≤ 6 := by rw [hsv]; have := (hle (j + 1)).2; omega
    have c10 : j < a.depth.val → ((st j : ℕ) : F p).val < 6 := fun _ => by rw [hsv]; have := (hle j).2; omega
    have c11 : a.types[j]? = some 0 := by rw [ha]; exact hZj j hj
    have c12 : a.pls[j]? = some 0 := by rw [ha]; exact hZj j hj
    rcases Nat.eq_zero_or_pos j with rfl | h0
    · obtain ⟨refLen, refs, href, hrl, hrlv⟩ := nodeRef_run (a := a) (j := 0) hp (by omega) hal hall hnext
      obtain ⟨r1, r2, -⟩ := nodeRef_some hp href (by omega) a.last (Or.inl ⟨by rw [had], rfl⟩)
      have r1' : refLen = 64 := by rw [r1, ha]
      have r2' : refs = lh := by rw [r2, ha]; show lh.take 64 = lh; rw [List.take_of_length_le hll.le]
      obtain ⟨pad, hpad, hw1, hw2⟩ := row_window (L := L) (W := 1064) hbfit (by omega) (by omega) hbb
      have hrlen : ((rowNibs L (.branch f)).map (Nat.cast : ℕ → F p)).length = L := by
        rw [List.length_map, rowNibs_length hbfit]
      obtain ⟨o, ho1, ho2, -, b, ⟨hb1, hb2⟩, hb3⟩ := layer_run6 (P := fun e => e.total = 2)
        (Q := fun b => b.output = 4 ∧ b.total = ((2 * (Trie.branch f).encode.length : ℕ) : F p)) hp c1 c2 c3 c4 c5 (by omega)
        c6 c7 c8 c9 c10 href c11 (by rw [ha]; exact hR0) (by rw [hrlen]; omega) c12 (by rw [ha]; exact hRI0)
        (by
          intro sel hsel
          rw [map_zero_mul, List.length_take, hrlen, show min 78 L = 78 by omega]
          exact zs_ext6 hp _ sel _ _ 0 hsel hrl (by rw [ZMod.val_zero]; omega))
        (by
          have : (((rowNibs L (.branch f)).map (Nat.cast : ℕ → F p)).take 1064).map (fun x => x - (0 : F p) * x) =
            ((rowNibs L (.branch f)).map (Nat.cast : ℕ → F p)).take 1064 :=
            (List.map_congr_left (fun x _ => by rw [zero_mul, sub_zero]; rfl)).trans (List.map_id _)
          rw [this, if_pos (by rw [had]; omega), hsv, hst0]
          have hak : a.key.getD 0 0 = ((i.val : ℕ) : F p) := by rw [ha]; exact hK0
          rw [hak, r1', r2']
          obtain ⟨o, o1, o2, o3⟩ := C17_branch_complete hp f pad hpad hf hw2 (((rowNibs L (.branch f)).map (Nat.cast : ℕ → F p)).take 1064)
            (by rw [List.take_take, Nat.min_self, ← List.map_take, hw1]) i hi lh hlhd
          exact ⟨o, o1, o2, o3⟩)
        (fun e b hP hQ => by rw [zero_mul, zero_add, hQ.2]; exact hash_row hp hbfit hL16 hL2 hbb _)
      refine ⟨o, ho1, ?_, ?_, fun _ => ⟨?_, by rw [hb3, hb1]⟩⟩
      · rw [ho2, List.length_map, nibblesOf_length, keccakBytes_length]
      · rw [ho2]
        simp only
        split
        · omega
        · rw [h64']
      · rw [ho2, hrt]
    · obtain ⟨o, o1, o2, o3⟩ := zero_layer_run6 (a := a) hp hL16 (by omega) hL2 c1 c2 c3 c4 c5 (fun k => by
          rw [ha, hK]; exact keyRow_nibs hp hkn' k) (by omega) c6 c7 c8 c9 c10 c11 (by rw [ha]; exact hRj j hj h0) c12 (by rw [ha]; exact hRIj j hj h0)
          hal hall hnext
      exact ⟨o, o1, by rw [o2, List.length_map, zeroHash_length], o3, fun h => absurd h h0.ne'⟩
  obtain ⟨ls, hls, hlen, hgood⟩ := layers_run (a := a) (fun j o => o.hash.output.length = 64 ∧ o.hash.outLen.val ≤ 64 ∧
        (j = 0 → o.hash.output = (nibblesOf (Trie.branch f).root).map Nat.cast ∧ o.branch = 4)) (D - 1) hstep
  obtain ⟨top, htop, htl, -, g3⟩ := hgood 0 (by omega)
  obtain ⟨g1, g2⟩ := g3 rfl
  refine ⟨S, R, RI, Z, Z, hR0, hZj 0 (by omega), by rw [hSj 0 (by omega), hst0]; simp, by rw [hSj 1 (by omega), hst1]; simp, ?_⟩
  intro root hroot
  obtain ⟨out, hfin⟩ := finish_some (d := 2) (types := Z) hp hD (by omega) (by omega) (by omega) hZl hroot htop htl 4 1 1
  rw [Nat.cast_two] at hfin
  have hq := finish_eq hp hD (by omega) hroot (by rw [h2v]; omega) (by rw [h2v]; omega) htop htl hfin
  have hver : verdict Z ls 0 = 4 := by
    unfold verdict
    rw [htop, getElem?_getD (hZj 0 (by omega))]
    simp only
    rw [g2]; ring
  have hout : out = if root = (nibblesOf (Trie.branch f).root).map Nat.cast then 0 else 1 := by
    rw [hq, h2v, show 2 - 1 = 1 from rfl, List.range_one, List.map_singleton, List.sum_singleton, hver, g1]
    by_cases hr : root = (nibblesOf (Trie.branch f).root).map (Nat.cast : ℕ → F p)
    · rw [if_pos hr, if_pos hr, if_neg]
      intro h
      have : (1 : F p) = 0 := by linear_combination h
      exact one_ne_zero this
    · rw [if_neg hr, if_neg hr, if_pos (by ring)]
  rw [hout] at hfin
  rw [← hK]
  unfold checkInclusionNoBranch
  refine Option.bind_eq_some_iff.2 ⟨(), assertLe_ten hp hD, Option.bind_eq_some_iff.2 ⟨1, hv, Option.bind_eq_some_iff.2
    ⟨S, ?_, Option.bind_eq_some_iff.2 ⟨_, multiplexer_single _ _ _ (by omega) (by rw [hS]; simp) |>.trans (if_pos ?_), Option.bind_eq_some_iff.2 ⟨lh, hlh,
    Option.bind_eq_some_iff.2 ⟨K.take 7, mapM_getElem? _ _ hKl, Option.bind_eq_some_iff.2 ⟨ls, ?_, hfin⟩⟩⟩⟩⟩⟩⟩
  · rw [mapM_getElem? _ _ (by rw [hS]; simp), List.take_of_length_le (by rw [hS]; simp)]
  · rw [val_sub_of_le (by rw [val_one hp, h2v]; omega), val_one hp, h2v]; omega
  · unfold layers
    rw [← ha]
    exact hls

/-- The hypotheses of `C74_honest_rejected` and of `C74_all_valid_rejected` can be met: the two-leaf trie. -/
example (hp : 2 ^ 128 < p) : ∃ (starts : List (F p)) (rows : List (List (F p))) (ris pls types : List (F p)),
    checkInclusionNoBranch 4 6 ([1, 2, 3, 4, 5, 6, 7].map Nat.cast) 6
      ((nibblesOf (twoLeaves (List.replicate 63 3) [42]).root).map Nat.cast) starts
      ((Spec.Eth.beValue (keccakBytes (Trie.leaf (List.replicate 63 3) [42]).encode) / 2 ^ 128 : ℕ) : F p)
      ((Spec.Eth.beValue (keccakBytes (Trie.leaf (List.replicate 63 3) [42]).encode) % 2 ^ 128 : ℕ) : F p) rows ris pls types 2 = some 0 := by
  have h6 : (6 : F p).val = 6 := by
    have := val_natCast_lt (p := p) (a := 6) (by omega); simpa using this
  obtain ⟨lf, hlf⟩ : ∃ lf, lf = Trie.leaf (List.replicate 63 3) [42] := ⟨_, rfl⟩
  have hge : 32 ≤ lf.encode.length := by rw [hlf]; exact leaf_ge (by simp)
  obtain ⟨f, hf⟩ : ∃ f : Fin 16 → Trie, f = fun i => if i.val ≤ 1 then lf else .empty := ⟨_, rfl⟩
  have htw : twoLeaves (List.replicate 63 3) [42] = .branch f := by rw [hf, hlf]; rfl
  have hf1 : f 1 = lf := by rw [hf]; exact if_pos (by decide)
  rw [htw, ← hlf]
  obtain ⟨s, r, ri, pl, ty, -, -, -, -, h⟩ := C74_honest_rejected hp 4 1088 (by omega) (by omega) (by omega) (by omega) (by omega)
    f (by
      intro i
      rw [hf]
      by_cases h : i.val ≤ 1
      · right; simp only [h, if_true]; exact hge
      · left; simp only [h, if_false]) 1 (by rw [hf1]; exact hge) [2, 3, 4, 5, 6, 7] (by simp) (by decide) 6 (by rw [h6]; omega)
  have h := h ((nibblesOf (Trie.branch f).root).map Nat.cast) (by
    rw [List.length_map, nibblesOf_length]; unfold Trie.root; rw [keccakBytes_length])
  rw [if_pos rfl, hf1] at h
  exact ⟨s, r, ri, pl, ty, h⟩

end Verif.Mpt
