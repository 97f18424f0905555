attribute [local irreducible] q r

/-- The message over the scalar field of BN254. -/
noncomputable def msg (i : Fin 32) : F bn254r := if i.val = 31 then ((124 : ℕ) : F bn254r) else 0

instance : Fact (1 < bn254r) := ⟨by decide +kernel⟩

theorem p_lt : 2 ^ 68 < bn254r := by decide +kernel

theorem msg_val (i : Fin 32) : (msg i).val = if i.val = 31 then 124 else 0 := by
  unfold msg
  split
  · exact ZMod.val_natCast_of_lt (lt_trans (by norm_num) p_lt)
  · exact ZMod.val_zero

theorem msg_lt (i : Fin 32) : (msg i).val < 256 := by
  rw [msg_val]
  split <;> norm_num

theorem msg_bytes : msgBytes msg = msgB := by
  unfold msgBytes Verif.Sha.byteOf
  simp only [msg_val]
  decide

theorem hash_two : ∃ P0 P1, MapTo aU.val P0 ∧ MapTo cU.val P1 ∧ AR hash1 (clearCofactorRFC (P0 + P1)) ∧ AR hash2 (clearCofactorRFC (-P0 + P1)) := by
  obtain ⟨P0, m0, a0⟩ := a_map
  obtain ⟨P1, m1, a1⟩ := c_map
  have s1 := (C55_add _ _ a0 a1).2 _ sum_num.1
  have s2 := (C55_add _ _ (g2Neg_spec a0) a1).2 _ sum_num.2
  exact ⟨P0, P1, m0, m1, vecClear_sound s1 clear_num.1, vecClear_sound s2 clear_num.2.1⟩

theorem u_ne {u : E2 Fq} (h : denN u ≠ E2.zero) : u.val ≠ 0 := fun h0 => den_of h ((C57_exceptional _).2 h0)

theorem aU_ne : aU.val ≠ 0 := u_ne (of_decide_eq_true a_check).1
theorem cU_ne : cU.val ≠ 0 := u_ne (of_decide_eq_true c_check).1
theorem eU_ne : eU.val ≠ 0 := u_ne (of_decide_eq_true e_check).1

end HashVec

open HashVec

attribute [local irreducible] q r

/-- **C60**, a message: the hash of RFC 9380 has the coordinates `hash1` and is accepted by `HashToG2OnJac` and `HashToG2`. -/
theorem C60_hash_example : (∃ P, HashToCurve msgB P ∧ AR hash1 P) ∧ hashToG2OnJac msg hash1 ∧ hashToG2 msg hash1 := by
  obtain ⟨P0, P1, m0, m1, a1, a2⟩ := hash_two
  have hP : HashToCurve (msgBytes msg) (clearCofactorRFC (P0 + P1)) := ⟨_, _, P0, P1, by rw [msg_bytes, field2], m0, m1, rfl⟩
  refine ⟨⟨_, by rwa [msg_bytes] at hP, a1⟩, ?_, ?_⟩
  · obtain ⟨z, hz, hA⟩ := (C60_hash_jac_reach p_lt msg msg_lt _ hP a1.ne_zero).2 (by
      rw [msg_bytes, field2]
      intro u hu
      rcases List.mem_cons.1 hu with rfl | hu
      · exact aU_ne
      · rw [List.mem_singleton.1 hu]
        exact cU_ne)
    rwa [ar_inj hA a1] at hz
  · obtain ⟨P0', m0', b0⟩ := a_map
    obtain ⟨P1', m1', b1⟩ := c_map
    obtain rfl := mapTo_unique m0 m0'
    obtain rfl := mapTo_unique m1 m1'
    have hne : P0 ≠ P1 ∧ P0 ≠ -P1 := by
      have h := (C55_add _ _ b0 b1).1
      rw [sum_num.1] at h
      have h' := fun k => Option.some_ne_none _ (h.2 k)
      exact ⟨fun k => h' (Or.inl k), fun k => h' (Or.inr k)⟩
    obtain ⟨z, hz, hA⟩ := C60_hash_affine_reach p_lt msg msg_lt _ _ P0 P1 (by rw [msg_bytes, field2]) m0 m1 aU_ne cU_ne hne.1 hne.2 a1.ne_zero
    rwa [ar_inj hA a1] at hz

/-- **C60 fails for the code**, without any hypothesis: `HashToG2OnJac` accepts two different points as the hash of one message. -/
theorem C60_two_hashes_fails : hashToG2OnJac msg hash1 ∧ hashToG2OnJac msg hash2 ∧ hash1 ≠ hash2 := by
  obtain ⟨P0, P1, m0, m1, a1, a2⟩ := hash_two
  obtain ⟨⟨z, hz, hA⟩, z', hz', hA'⟩ := C60_hash_fails p_lt msg msg_lt aU.val cU.val P0 P1 (by rw [msg_bytes, field2])
    (fun h => aU_ne ((C57_exceptional _).1 h)) (fun h => cU_ne ((C57_exceptional _).1 h)) m0 m1 small2 a1.ne_zero a2.ne_zero
  rw [ar_inj hA a1] at hz
  rw [ar_inj hA' a2] at hz'
  exact ⟨hz, hz', clear_num.2.2⟩

/-- **C60 fails for the code**, without any hypothesis: `EncodeToG2OnJac` and `EncodeToG2` accept the point `enc1` of RFC 9380 and its opposite. -/
theorem C60_two_encodings_fails : (∃ P, EncodeToCurve msgB P ∧ AR enc1 P) ∧
    (encodeToG2OnJac msg enc1 ∧ encodeToG2OnJac msg (g2Neg enc1)) ∧ (encodeToG2 msg enc1 ∧ encodeToG2 msg (g2Neg enc1)) ∧
    enc1 ≠ g2Neg enc1 := by
  obtain ⟨P0, m0, a0⟩ := e_map
  have a1 := vecClear_sound a0 clear1.1
  have hP : EncodeToCurve (msgBytes msg) (clearCofactorRFC P0) := ⟨_, P0, by rw [msg_bytes, field1], m0, rfl⟩
  obtain ⟨⟨⟨z, hz, h1⟩, z', hz', h2⟩, ⟨y, hy, h3⟩, y', hy', h4⟩ :=
    C60_encode_fails p_lt msg msg_lt eU.val _ (by rw [msg_bytes, field1]) eU_ne small1 hP a1.ne_zero
  have a2 := g2Neg_spec a1
  rw [ar_inj h1 a1] at hz
  rw [ar_inj h2 a2] at hz'
  rw [ar_inj h3 a1] at hy
  rw [ar_inj h4 a2] at hy'
  exact ⟨⟨_, by rwa [msg_bytes] at hP, a1⟩, ⟨hz, hz'⟩, ⟨hy, hy'⟩, clear1.2⟩

end Verif.Bls
