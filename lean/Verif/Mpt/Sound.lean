import Verif.Mpt.Step

/-! # Property theorems C18: inclusion proofs are sound -/

set_option linter.unusedSectionVars false
set_option linter.unusedVariables false

namespace Verif.Mpt
open Api Rlp Keccak Spec.Keccak Spec.Rlp Spec.Mpt
variable {p : ℕ} [Fact p.Prime]

/-- Array sizes of an inclusion proof, as fixed by the callers: 64 key and root nibbles, a value buffer of `mv` cells,
node buffers made of whole 64-bit words. -/
structure Shape (mv : ℕ) (x : InclusionIn p) : Prop where
  key : x.key.length = 64
  value : x.value.length = mv
  root : x.rootHash.length = 64
  rows : ∀ row ∈ x.nodeRlp, row.length % 16 = 0
  last16 : x.lastRlp.length % 16 = 0
  last : 74 + mv ≤ x.lastRlp.length

/-- The supplied node buffers contain a Keccak collision with a node of the trie. -/
def CollidesWith (x : InclusionIn p) (t : Trie) : Prop :=
  ∃ row ∈ x.lastRlp :: x.nodeRlp, ∃ ri < 10, ∃ u, t.Node u ∧
    Collision (supplied (row.map ZMod.val) ri) (pad (bytesToBits u.encode))

theorem node_trans {a b c : Trie} (h : a.Node b) (h' : b.Node c) : a.Node c := by
  induction h with
  | self => exact h'
  | ext _ ih => exact .ext (ih h')
  | branch _ ih => exact .branch (ih h')

theorem keyPart_append (key : List (F p)) {a b c : ℕ} (h1 : a ≤ b) (h2 : b ≤ c) :
    keyPart key a c = keyPart key a b ++ keyPart key b c := by
  unfold keyPart
  rw [show c - a = (b - a) + (c - b) by omega, List.take_add, List.drop_drop, show a + (b - a) = b by omega]

/-- What the last-node part of the checker establishes (without the storage override). -/
theorem last_facts (hp : 2 ^ 128 < p) {D mv : ℕ} (hD : D ≤ 10) (h66 : 66 ≤ mv) (hmv : mv ≤ 300) {x : InclusionIn p}
    (hsh : Shape mv x) (hnib : ∀ y ∈ x.lastRlp.map ZMod.val, y < 16) (hst : D ≤ x.starts.length)
    (hd1 : 1 ≤ x.depth.val) (hdD : x.depth.val ≤ D) {lo vl : F p}
    (h : lastNodeCheck D 64 mv false x = some (lo, vl)) :
    let S := cyc ((x.lastRlp.map ZMod.val).take (74 + mv))
    let s := (x.starts.getD (x.depth.val - 1) 0).val
    s ≤ 64 ∧ (∃ v ≤ 4, lo = ((v : ℕ) : F p)) ∧ vl.val = payLen S (itemOffset S 1) ∧ payLen S (itemOffset S 1) ≤ mv ∧
    (lo = 4 → ListVerdict S 2 ∧ ∃ path : List ℕ, itemNibbles S 0 = hexPrefixNibbles true path ∧
      ((ZeroValue x.value ∧ x.key.drop s ≠ path.map (Nat.cast : ℕ → F p)) ∨
       (path.map (Nat.cast : ℕ → F p) = x.key.drop s ∧
        x.value.take (payLen S (itemOffset S 1)) = (itemNibbles S 1).map (Nat.cast : ℕ → F p)))) := by
  intro S s
  unfold lastNodeCheck at h
  obtain ⟨sr, hsr, h⟩ := Option.bind_eq_some_iff.1 h
  obtain ⟨m, hm, h⟩ := Option.bind_eq_some_iff.1 h
  obtain ⟨ls, hls, h⟩ := Option.bind_eq_some_iff.1 h
  obtain ⟨kc, hkc, h⟩ := Option.bind_eq_some_iff.1 h
  obtain ⟨⟨sel, selLen⟩, hsub, h⟩ := Option.bind_eq_some_iff.1 h
  obtain ⟨lc, hlc, h⟩ := Option.bind_eq_some_iff.1 h
  simp only [Bool.false_eq_true, if_false, Option.bind_eq_bind, Option.bind_some, Option.pure_def, Option.some.injEq,
    Prod.mk.injEq] at h
  obtain ⟨rfl, rfl⟩ := h
  obtain ⟨-, rfl⟩ := mapM_cells hsr
  obtain ⟨-, rfl⟩ := mapM_cells hkc
  have hdv : (x.depth - 1).val = x.depth.val - 1 := by
    rw [val_sub_of_le (by rw [val_one hp]; exact hd1), val_one hp]
  rw [multiplexer_single _ _ _ (by omega) (by rw [List.length_take]; omega), hdv, if_pos (by omega)] at hm
  obtain rfl := Option.some.inj hm
  have hls : (x.starts.take D).getD (x.depth.val - 1) 0 = ls := by simpa using hls
  have hlse : ls = x.starts.getD (x.depth.val - 1) 0 := by
    rw [← hls, List.getD_eq_getElem?_getD, List.getElem?_take, if_pos (by omega), List.getD_eq_getElem?_getD]
  have hs : ls.val = s := by rw [hlse]
  rw [List.take_of_length_le hsh.key.le] at hsub
  have h64 : ((64 : ℕ) : F p).val = 64 := val_natCast_lt (by omega)
  have hC := C05_subArray 64 64 7 x.key ls ((64 : ℕ) : F p) (by rw [hsh.key]) (by omega) (by omega) (by norm_num) le_rfl
    (by omega)
  rw [h64] at hC
  by_cases hcond : ls.val ≤ 64 ∧ 64 ≤ 64 ∧ 64 - ls.val ≤ 64
  swap
  · rw [hC.1 hcond] at hsub; cases hsub
  obtain ⟨out, len, e1, e2, e3, e4, -⟩ := hC.2 hcond
  rw [e1] at hsub
  obtain ⟨rfl, rfl⟩ := Prod.mk.inj (Option.some.inj hsub)
  have hlm : leafMaxRlp 64 mv = 74 + mv := by unfold leafMaxRlp; omega
  have hc : CellsOf (x.lastRlp.take (leafMaxRlp 64 mv)) (leafMaxRlp 64 mv) S := by
    rw [hlm]; exact cells_window hnib hsh.last (by omega)
  obtain ⟨g1, g2, g3, g4, g5⟩ := leaf_facts hp 64 mv (by omega) (by omega) h66 _ _ _ _ _ S hc e3 hsh.value hlc
  have e4' : out.take (64 - s) = x.key.drop s := by
    rw [← hs, e4]
    unfold Spec.window
    rw [List.take_of_length_le hsh.key.le]
  refine ⟨by omega, g4, g1, g2, ?_⟩
  intro h4
  obtain ⟨q1, path, q2, q3, q4, q5⟩ := g5.1 h4
  refine ⟨q1, path, q2, ?_⟩
  rcases q5 with ⟨hz, hne⟩ | ⟨a1, a2, a3⟩
  · left
    refine ⟨hz, fun heq => hne ?_⟩
    have hpl : path.length = 64 - s := by
      have := congrArg List.length heq
      rw [List.length_drop, hsh.key, List.length_map] at this
      omega
    rw [hpl, e4', heq]
  · right
    rw [e2, hs] at a2
    rw [← a2, e4'] at a1
    exact ⟨a1.symm, a3⟩

/-- Everything the checker establishes about the path, for a non-storage or storage proof: the node at the end of the
layers is the last node (or a collision is exhibited). -/
theorem walk (hp : 2 ^ 128 < p) {D : ℕ} {x : InclusionIn p} {ls : List (LayerOut p)} {lh : HashOut p} {t : Trie}
    (hD : D ≤ 10) (hlen : ls.length + 1 = D) (hdD : x.depth.val ≤ D) (hd2 : 2 ≤ x.depth.val)
    (hF : t.Fixed 64) (hR : t.Roomy)
    (hlh : 2 ≤ lh.outLen.val ∧ lh.output.length = 64)
    (hfact : ∀ j < x.depth.val - 1, ∃ o, ls[j]? = some o ∧ ∀ T,
      ((x.depth.val = j + 2 ∧ T = lh) ∨ (x.depth.val ≠ j + 2 ∧ (ls[j + 1]?.map LayerOut.hash) = some T)) →
      LayerFact x ls j o T)
    (hver : ∀ j < x.depth.val - 1, verdict x.types ls j = 4)
    (hfrag : ∀ j < x.depth.val - 1, FragOk (((64 : ℕ) : F p)) (fun t => t) x.starts x.types j)
    {top : LayerOut p} (htop : ls[0]? = some top) (hroot : top.hash.output = (nibblesOf t.root).map Nat.cast) :
    CollidesWith x t ∨ ∃ c, Leads t (keyPart x.key (x.starts.getD 0 0).val (x.starts.getD (x.depth.val - 1) 0).val) c ∧
      (x.starts.getD 0 0).val < (x.starts.getD (x.depth.val - 1) 0).val ∧
      (x.starts.getD (x.depth.val - 1) 0).val - (x.starts.getD 0 0).val ≤ 64 ∧
      c.Fixed (64 - ((x.starts.getD (x.depth.val - 1) 0).val - (x.starts.getD 0 0).val)) ∧
      lh.output = (nibblesOf (keccakBytes c.encode)).map Nat.cast := by
  -- the hash every level must have
  have key : ∀ j, j ≤ x.depth.val - 1 → ∀ H : HashOut p,
      ((j = x.depth.val - 1 ∧ H = lh) ∨ (j < x.depth.val - 1 ∧ ls[j]?.map LayerOut.hash = some H)) →
      CollidesWith x t ∨ ∃ c, Leads t (keyPart x.key (x.starts.getD 0 0).val (x.starts.getD j 0).val) c ∧
        (x.starts.getD 0 0).val + j ≤ (x.starts.getD j 0).val ∧
        (x.starts.getD j 0).val - (x.starts.getD 0 0).val ≤ 64 ∧
        c.Fixed (64 - ((x.starts.getD j 0).val - (x.starts.getD 0 0).val)) ∧
        H.output = (nibblesOf (keccakBytes c.encode)).map Nat.cast := by
    intro j
    induction j with
    | zero =>
      intro _ H hH
      right
      rcases hH with ⟨h, -⟩ | ⟨-, h⟩
      · omega
      · rw [htop] at h
        obtain rfl := Option.some.inj h
        refine ⟨t, ⟨.self t, ?_⟩, by omega, by omega, ?_, hroot⟩
        · intro k
          unfold keyPart
          simp
        · rw [Nat.sub_self]; exact hF
    | succ j ih =>
      intro hj H hH
      obtain ⟨o, ho, hLF⟩ := hfact j (by omega)
      rcases ih (by omega) o.hash (Or.inr ⟨by omega, by rw [ho]; rfl⟩) with hc | ⟨u, ⟨hu1, hu2⟩, hle, hle64, huF, hout⟩
      · exact Or.inl hc
      have hT : (x.depth.val = j + 2 ∧ H = lh) ∨ (x.depth.val ≠ j + 2 ∧ (ls[j + 1]?.map LayerOut.hash) = some H) := by
        rcases hH with ⟨h1, h2⟩ | ⟨h1, h2⟩
        · left; exact ⟨by omega, h2⟩
        · right; exact ⟨by omega, h2⟩
      have hHp : 2 ≤ H.outLen.val ∧ H.output.length = 64 := by
        rcases hH with ⟨h1, rfl⟩ | ⟨h1, h2⟩
        · exact hlh
        · obtain ⟨o', ho', rfl⟩ := Option.map_eq_some_iff.1 h2
          obtain ⟨o'', ho'', hLF'⟩ := hfact (j + 1) h1
          obtain rfl : o' = o'' := by rw [ho'] at ho''; exact Option.some.inj ho''
          rcases Nat.lt_or_ge (j + 2) (x.depth.val - 1) with hlt | hge
          · obtain ⟨o3, ho3, -⟩ := hfact (j + 2) hlt
            exact (hLF' o3.hash (Or.inr ⟨by omega, by rw [ho3]; rfl⟩)).outLen
          · exact (hLF' lh (Or.inl ⟨by omega, rfl⟩)).outLen
      have hRu : ∀ path v, u = .leaf path v → u.encode.length ≤ 400 ∧ u.encode.length % 136 ≤ 121 := by
        rintro path v rfl
        exact hR path v hu1
      obtain ⟨hf1, hf2, hf3⟩ := hfrag j (by omega)
      have hstep := (hLF H hT).step (hver j (by omega)) (hfrag j (by omega)) hHp.1 hHp.2 u _ huF (by omega) hRu hout
      rcases hstep with ⟨row, hrow, ri, hri, hcol⟩ | ⟨c, ⟨hc1, hc2⟩, hn, hcF, hcH⟩
      · exact Or.inl ⟨row, List.mem_cons_of_mem _ hrow, ri, hri, u, hu1, hcol⟩
      · right
        refine ⟨c, ⟨node_trans hu1 hc1, ?_⟩, by omega, by omega, ?_, hcH⟩
        · intro k
          rw [keyPart_append x.key (show (x.starts.getD 0 0).val ≤ (x.starts.getD j 0).val by omega) hf2.le,
            List.append_assoc, hu2, hc2]
        · rw [show 64 - ((x.starts.getD (j + 1) 0).val - (x.starts.getD 0 0).val) =
            64 - ((x.starts.getD j 0).val - (x.starts.getD 0 0).val) -
              ((x.starts.getD (j + 1) 0).val - (x.starts.getD j 0).val) by omega]
          exact hcF
  rcases key (x.depth.val - 1) le_rfl lh (Or.inl ⟨rfl, rfl⟩) with hc | ⟨c, h1, h2, h3, h4, h5⟩
  · exact Or.inl hc
  · exact Or.inr ⟨c, h1, by omega, h3, h4, h5⟩

/-- The parts of an accepting run. -/
theorem accept_parts (hp : 2 ^ 128 < p) {D mv : ℕ} (hD2 : 2 ≤ D) (hD : D ≤ 10) (h66 : 66 ≤ mv) (hmv : mv ≤ 300) {st : Bool}
    {x : InclusionIn p} (hsh : Shape mv x) {r : InclusionOut p} (h : checkInclusionFixed D 64 mv st x = some r)
    (hout : r.output = 1) (hd2 : 2 ≤ x.depth.val) (hlob : ∀ lo vl, lastNodeCheck D 64 mv st x = some (lo, vl) →
      D ≤ x.starts.length → (∀ y ∈ x.lastRlp.map ZMod.val, y < 16) → x.depth.val ≤ D → ∃ v ≤ 4, lo = ((v : ℕ) : F p))
    {t : Trie} (hF : t.Fixed 64) (hR : t.Roomy)
    (hroot : x.rootHash = (nibblesOf t.root).map Nat.cast) :
    ∃ lo, lastNodeCheck D 64 mv st x = some (lo, r.valueLength) ∧ lo = 4 ∧ D ≤ x.starts.length ∧ x.depth.val ≤ D ∧
      (∀ y ∈ x.lastRlp.map ZMod.val, y < 16) ∧
      (CollidesWith x t ∨ ∃ c, Shows (x.lastRlp.map ZMod.val) c ∧
        Leads t (keyPart x.key (x.starts.getD 0 0).val (x.starts.getD (x.depth.val - 1) 0).val) c ∧
        (x.starts.getD 0 0).val < (x.starts.getD (x.depth.val - 1) 0).val ∧
        (x.starts.getD (x.depth.val - 1) 0).val < 64 ∧
        c.Fixed (64 - ((x.starts.getD (x.depth.val - 1) 0).val - (x.starts.getD 0 0).val))) := by
  unfold checkInclusionFixed at h
  obtain ⟨_, -, h⟩ := Option.bind_eq_some_iff.1 h
  obtain ⟨frag, hfrag, h⟩ := Option.bind_eq_some_iff.1 h
  obtain ⟨⟨lo, vl⟩, hlast, h⟩ := Option.bind_eq_some_iff.1 h
  obtain ⟨lh, hlh, h⟩ := Option.bind_eq_some_iff.1 h
  obtain ⟨kc, hkc, h⟩ := Option.bind_eq_some_iff.1 h
  obtain ⟨ls, hls, h⟩ := Option.bind_eq_some_iff.1 h
  obtain ⟨out, hfin, h⟩ := Option.bind_eq_some_iff.1 h
  have h := (Option.some.inj h).symm
  subst h
  have hout : out = 1 := hout
  subst hout
  obtain ⟨-, rfl⟩ := mapM_cells hkc
  rw [List.take_of_length_le hsh.key.le] at hls
  obtain ⟨f1, f2, f3, f4, f5, f6, f7⟩ := frag_facts hp (by omega) hD _ _ _ _ _ hfrag
  obtain ⟨n1, n2, n3, n4, n5⟩ := hashNode_some hp hsh.last16 hlh
  unfold layers at hls
  obtain ⟨l1, -, l3⟩ := layers_some (D - 1) [] ls hls
  simp only [List.length_nil, Nat.add_zero] at l1
  have hll : lh.output.length = 64 := by rw [n4, List.length_map, nibblesOf_length, digestBytes_length]
  have hlen2 : lh.outLen.val = 64 := by
    have hv : (x.lastRlp.length : F p).val = x.lastRlp.length := val_natCast_lt (by omega)
    have := hsh.last
    rw [n5, hv, if_neg (by omega)]
    have := val_natCast_lt (p := p) (a := 64) (by omega); simpa using this
  have hfact : ∀ j < x.depth.val - 1, ∃ o, ls[j]? = some o ∧ ∀ T,
      ((x.depth.val = j + 2 ∧ T = lh) ∨ (x.depth.val ≠ j + 2 ∧ (ls[j + 1]?.map LayerOut.hash) = some T)) →
      LayerFact x ls j o T := by
    intro j hj
    obtain ⟨o, ho, hstep⟩ := l3 j (by omega)
    exact ⟨o, ho, fun T hT => layer_fact hp hsh.key hsh.rows ho hstep (by omega) (by omega) (f5 j (by omega)) T hT⟩
  obtain ⟨top, htop, -⟩ := l3 0 (by omega)
  have hfactT : ∀ j < x.depth.val - 1, ∃ o T, ls[j]? = some o ∧ LayerFact x ls j o T := by
    intro j hj
    obtain ⟨o, ho, hx⟩ := hfact j hj
    rcases Nat.lt_or_ge (j + 1) (x.depth.val - 1) with hlt | hge
    · obtain ⟨o3, ho3, -⟩ := hfact (j + 1) hlt
      exact ⟨o, _, ho, hx o3.hash (Or.inr ⟨by omega, by rw [ho3]; rfl⟩)⟩
    · exact ⟨o, _, ho, hx lh (Or.inl ⟨by omega, rfl⟩)⟩
  have htopl : top.hash.output.length = 64 := by
    obtain ⟨o, T, ho, hL⟩ := hfactT 0 (by omega)
    rw [htop] at ho
    obtain rfl := Option.some.inj ho
    exact hL.outLen.2
  obtain ⟨m1, m2, m3, m4⟩ := finish_max hp hD (by omega) hsh.root f3 f4 htop htopl (hlob lo vl hlast f1 n1 f4) f6
    (fun j hj => by obtain ⟨o, T, -, hL⟩ := hfactT j hj; exact hL.bound) hfin
  have hF1 := f7.1 m3
  have hfragj : ∀ j < x.depth.val - 1, FragOk (((64 : ℕ) : F p)) (fun t => t) x.starts x.types j :=
    fun j hj => hF1.1 j (by omega) (by omega)
  refine ⟨lo, hlast, m2, f1, f4, n1, ?_⟩
  have h64 : ((64 : ℕ) : F p).val = 64 := val_natCast_lt (by omega)
  have hs64 : (x.starts.getD (x.depth.val - 1) 0).val < 64 := by
    rcases Nat.lt_or_ge (x.depth.val) D with hlt | hge
    · have := (hF1.1 (x.depth.val - 1) (by omega) (by omega)).2.2
      rwa [h64] at this
    · have := hF1.2 (by omega)
      rwa [h64, show D - 1 = x.depth.val - 1 by omega] at this
  rcases walk hp hD (by omega) f4 hd2 hF hR ⟨by omega, hll⟩ hfact m4 hfragj htop (by rw [← m1, hroot]) with
    hc | ⟨c, hL, hlt, hle, hcF, hcH⟩
  · exact Or.inl hc
  · have hRc : ∀ path v, c = .leaf path v → c.encode.length ≤ 400 ∧ c.encode.length % 136 ≤ 121 := by
      rintro path v rfl
      exact hR path v hL.1
    rcases supplied_eq_or_collision hp n3 (by rw [List.length_map]; exact n2) c.encode (n4.symm.trans hcH) with hs | hcol
    · right
      exact ⟨c, shows_of_supplied n1 (by rw [List.length_map]; have := hsh.last16; omega)
        (encode_bytes hcF (by omega) hRc) hs, hL, hlt, hs64, hcF⟩
    · exact Or.inl ⟨x.lastRlp, List.mem_cons_self, _, n3, c, hL.1, hcol⟩

/-- A leaf at the end of the path: what the claimed value must be. -/
theorem leaf_end (hp : 2 ^ 128 < p) {D mv : ℕ} (hD : D ≤ 10) (h66 : 66 ≤ mv) (hmv : mv ≤ 300) (hev : mv % 2 = 0)
    {x : InclusionIn p} (hsh : Shape mv x) (hst : D ≤ x.starts.length) (hd2 : 2 ≤ x.depth.val) (hdD : x.depth.val ≤ D)
    (hnib : ∀ y ∈ x.lastRlp.map ZMod.val, y < 16) {vl : F p}
    (hlast : lastNodeCheck D 64 mv false x = some (4, vl)) {t c : Trie} (hR : t.Roomy)
    (hShow : Shows (x.lastRlp.map ZMod.val) c)
    (hL : Leads t (keyPart x.key (x.starts.getD 0 0).val (x.starts.getD (x.depth.val - 1) 0).val) c)
    (hlt : (x.starts.getD 0 0).val < (x.starts.getD (x.depth.val - 1) 0).val)
    (hs64 : (x.starts.getD (x.depth.val - 1) 0).val < 64)
    (hcF : c.Fixed (64 - ((x.starts.getD (x.depth.val - 1) 0).val - (x.starts.getD 0 0).val))) :
    (∃ v, t.get (x.key.map ZMod.val) = some v ∧ vl = ((2 * v.length : ℕ) : F p) ∧
      x.value.take (2 * v.length) = (nibblesOf v).map Nat.cast) ∨
    (ZeroValue x.value ∧ t.get ((x.key.map ZMod.val).drop (x.starts.getD 0 0).val) = none) := by
  obtain ⟨g1, g2, g3, g4, g5⟩ := last_facts hp hD h66 hmv hsh hnib hst (by omega) hdD hlast
  obtain ⟨hLV, path, h0, hor⟩ := g5 rfl
  have hRc : ∀ path v, c = .leaf path v → c.encode.length ≤ 400 ∧ c.encode.length % 136 ≤ 121 := by
    rintro path v rfl
    exact hR path v hL.1
  obtain ⟨v, rfl, hv⟩ := leaf_true hShow hcF (by omega) hRc h66 hmv hev hnib (by rw [List.length_map]; exact hsh.last)
    hLV g4 h0
  obtain ⟨c1, c2, c3⟩ := hcF
  set s0 := (x.starts.getD 0 0).val with hs0
  set s := (x.starts.getD (x.depth.val - 1) 0).val with hs
  have hkeyl : (x.key.map ZMod.val).length = 64 := by rw [List.length_map, hsh.key]
  have hsplit : (x.key.map ZMod.val).drop s0 = keyPart x.key s0 s ++ (x.key.map ZMod.val).drop s := by
    unfold keyPart
    conv_lhs => rw [← List.take_append_drop (s - s0) ((x.key.map ZMod.val).drop s0), List.drop_drop]
    rw [show s0 + (s - s0) = s by omega]
  rcases hor with ⟨hz, hne⟩ | ⟨a1, a2⟩
  · right
    refine ⟨hz, ?_⟩
    rw [hsplit, hL.2, Trie.get, if_neg]
    intro he
    apply hne
    rw [← he, ← List.map_drop, map_val_cast]
  · left
    have hpath := cast_list_inj hp c2 a1
    have hl : path.length = 64 - s := by rw [hpath, List.length_map, List.length_drop, hsh.key]
    have hz0 : s0 = 0 := by omega
    have hvl : payLen (cyc ((x.lastRlp.map ZMod.val).take (74 + mv)))
        (itemOffset (cyc ((x.lastRlp.map ZMod.val).take (74 + mv))) 1) = 2 * v.length := by
      rw [← itemNibbles_length, hv, nibblesOf_length]
    refine ⟨v, ?_, ?_, ?_⟩
    · have hsp : x.key.map ZMod.val = keyPart x.key s0 s ++ (x.key.map ZMod.val).drop s := by
        rw [← hsplit, hz0, List.drop_zero]
      have hg : t.get (x.key.map ZMod.val) = t.get (keyPart x.key s0 s ++ (x.key.map ZMod.val).drop s) :=
        congrArg t.get hsp
      rw [hg, hL.2, Trie.get, if_pos (by rw [hpath, List.map_drop])]
    · rw [← hvl, ← g3, ZMod.natCast_zmod_val]
    · rw [← hvl, a2, hv]

/-- **C18.** Soundness of `CheckMPTInclusionFixedKeyLength` (64-nibble keys, at least one layer above the leaf): if it
accepts a proof against the root hash of a trie, then the claimed value is the value that the trie stores under the
key — the reported length is its length in nibbles and the value buffer starts with its nibbles —, or the claimed
value is the zero value, or one of the supplied node buffers is an explicit Keccak collision with a node of the trie. -/
theorem C18_inclusion_sound (hp : 2 ^ 128 < p) (D mv : ℕ) (hD2 : 2 ≤ D) (hD : D ≤ 10) (h66 : 66 ≤ mv) (hmv : mv ≤ 300)
    (hev : mv % 2 = 0) (x : InclusionIn p) (hsh : Shape mv x) (t : Trie) (hF : t.Fixed 64) (hR : t.Roomy)
    (hroot : x.rootHash = (nibblesOf t.root).map Nat.cast) (r : InclusionOut p)
    (h : checkInclusionFixed D 64 mv false x = some r) (hout : r.output = 1) (hd2 : 2 ≤ x.depth.val) :
    CollidesWith x t ∨
    (∃ v, t.get (x.key.map ZMod.val) = some v ∧ r.valueLength = ((2 * v.length : ℕ) : F p) ∧
      x.value.take (2 * v.length) = (nibblesOf v).map Nat.cast) ∨
    (x.value.take 2 = [8, 0] ∧ (x.value.drop 2).take 64 = List.replicate 64 0) := by
  obtain ⟨lo, hlast, rfl, hst, hdD, hnib, hor⟩ := accept_parts hp hD2 hD h66 hmv hsh h hout hd2
    (fun lo vl hl hst hn hdD => (last_facts hp hD h66 hmv hsh hn hst (by omega) hdD hl).2.1) hF hR hroot
  rcases hor with hc | ⟨c, hShow, hL, hlt, hs64, hcF⟩
  · exact Or.inl hc
  · rcases leaf_end hp hD h66 hmv hev hsh hst hd2 hdD hnib hlast hR hShow hL hlt hs64 hcF with hv | ⟨hz, -⟩
    · exact Or.inr (Or.inl hv)
    · exact Or.inr (Or.inr hz)

/-- **C18.** Soundness of absence (partial): if the claimed value is the zero value *and the first key-fragment start is
0*, an accepted proof shows that the trie has no value under the key (or the value is really there, as claimed). The
code does not enforce the start; see `C18_absence_start_not_enforced`. -/
theorem C18_absence_sound_partial (hp : 2 ^ 128 < p) (D mv : ℕ) (hD2 : 2 ≤ D) (hD : D ≤ 10) (h66 : 66 ≤ mv) (hmv : mv ≤ 300)
    (hev : mv % 2 = 0) (x : InclusionIn p) (hsh : Shape mv x) (t : Trie) (hF : t.Fixed 64) (hR : t.Roomy)
    (hroot : x.rootHash = (nibblesOf t.root).map Nat.cast) (r : InclusionOut p)
    (h : checkInclusionFixed D 64 mv false x = some r) (hout : r.output = 1) (hd2 : 2 ≤ x.depth.val)
    (hstart : x.starts.head? = some 0) :
    CollidesWith x t ∨
    (∃ v, t.get (x.key.map ZMod.val) = some v ∧ r.valueLength = ((2 * v.length : ℕ) : F p) ∧
      x.value.take (2 * v.length) = (nibblesOf v).map Nat.cast) ∨
    t.get (x.key.map ZMod.val) = none := by
  obtain ⟨lo, hlast, rfl, hst, hdD, hnib, hor⟩ := accept_parts hp hD2 hD h66 hmv hsh h hout hd2
    (fun lo vl hl hst hn hdD => (last_facts hp hD h66 hmv hsh hn hst (by omega) hdD hl).2.1) hF hR hroot
  rcases hor with hc | ⟨c, hShow, hL, hlt, hs64, hcF⟩
  · exact Or.inl hc
  · rcases leaf_end hp hD h66 hmv hev hsh hst hd2 hdD hnib hlast hR hShow hL hlt hs64 hcF with hv | ⟨-, hz⟩
    · exact Or.inr (Or.inl hv)
    · have h0 : x.starts.getD 0 0 = 0 := by
        rw [List.head?_eq_getElem?] at hstart
        rw [List.getD_eq_getElem?_getD, hstart]; rfl
      rw [h0, ZMod.val_zero, List.drop_zero] at hz
      exact Or.inr (Or.inr hz)

/-- **C18.** The start is forced when the proof is a proof of presence: an accepted proof for a non-zero value has
consumed the key from its first nibble (the fragment boundaries cannot be shifted). -/
theorem C18_inclusion_start (hp : 2 ^ 128 < p) (D mv : ℕ) (hD2 : 2 ≤ D) (hD : D ≤ 10) (h66 : 66 ≤ mv) (hmv : mv ≤ 300)
    (hev : mv % 2 = 0) (x : InclusionIn p) (hsh : Shape mv x) (t : Trie) (hF : t.Fixed 64) (hR : t.Roomy)
    (hroot : x.rootHash = (nibblesOf t.root).map Nat.cast) (r : InclusionOut p)
    (h : checkInclusionFixed D 64 mv false x = some r) (hout : r.output = 1) (hd2 : 2 ≤ x.depth.val)
    (hnz : ¬ (x.value.take 2 = [8, 0] ∧ (x.value.drop 2).take 64 = List.replicate 64 0)) :
    CollidesWith x t ∨ x.starts.head? = some 0 := by
  obtain ⟨lo, hlast, rfl, hst, hdD, hnib, hor⟩ := accept_parts hp hD2 hD h66 hmv hsh h hout hd2
    (fun lo vl hl hst hn hdD => (last_facts hp hD h66 hmv hsh hn hst (by omega) hdD hl).2.1) hF hR hroot
  rcases hor with hc | ⟨c, hShow, hL, hlt, hs64, hcF⟩
  · exact Or.inl hc
  right
  obtain ⟨g1, g2, g3, g4, g5⟩ := last_facts hp hD h66 hmv hsh hnib hst (by omega) hdD hlast
  obtain ⟨hLV, path, h0, hor⟩ := g5 rfl
  have hRc : ∀ path v, c = .leaf path v → c.encode.length ≤ 400 ∧ c.encode.length % 136 ≤ 121 := by
    rintro path v rfl
    exact hR path v hL.1
  obtain ⟨v, rfl, hv⟩ := leaf_true hShow hcF (by omega) hRc h66 hmv hev hnib (by rw [List.length_map]; exact hsh.last)
    hLV g4 h0
  rcases hor with ⟨hz, -⟩ | ⟨a1, -⟩
  · exact absurd hz hnz
  · have hl := congrArg List.length a1
    rw [List.length_map, List.length_drop, hsh.key] at hl
    have := hcF.1
    have hz : (x.starts.getD 0 0).val = 0 := by omega
    rw [ZMod.val_eq_zero] at hz
    rw [List.head?_eq_getElem?, List.getElem?_eq_getElem (by omega)]
    rw [List.getD_eq_getElem _ _ (by omega)] at hz
    rw [hz]

end Verif.Mpt
