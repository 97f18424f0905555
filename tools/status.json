{
 "C09": {
  "status": "partial",
  "note": "Everything except that the validity flag is 2 (not boolean) on 0xc0; that disagreement is proved."
 },
 "C11": {
  "status": "partial",
  "note": "Sound when no item is 0xc0, announced total within the buffer, fixed-width field lengths compared by the caller. Canonical length headers are not enforced (proved: C11_noncanonical_accepted)."
 },
 "C12": {
  "status": "proved",
  "note": "Completeness over the byte-level RLP encoder; limits of the parameter range proved in C12_max_112_rejects."
 },
 "C13": {
  "status": "partial",
  "note": "The English property is false of the code; the exact acceptance condition and witnesses of the failure are proved."
 },
 "C14": {
  "status": "partial",
  "note": "Exact acceptance condition proved; soundness needs the padding condition; counterexample proved."
 },
 "C18": {
  "status": "partial",
  "note": "Presence proofs of depth at least two are proved sound (the trie stores the claimed value, or an explicit Keccak collision); absence only with first start 0 (_partial). The unrestricted English property is proved false: C18_depth_one_forgery, C18_absence_start_not_enforced."
 },
 "C21": {
  "status": "partial",
  "note": "Exact output of Pad101Bits proved for all inputs; equality with the Keccak padding holds iff byte length is not 135 mod 136 (the English property is false there, proved: C21_pad101Bits_135, C21_padBits101_wrong, C21_getRoundIndex_135)."
 },
 "C22": {
  "status": "proved",
  "note": "Exact behaviour of both bit-level gadgets, of the word-level gadget (external PermuteOld assumed to be the permutation on 64-bit words) and of the packing helpers. The end-to-end composition with Pad101Bits (suffix _partial) excludes lengths 135 mod 136, see C21."
 },
 "C27": {
  "status": "proved",
  "note": "For every field with a square and d not a square, all pairs of curve points; division is the relation gnark enforces, so uniqueness and existence are both proved. Off the curve the result is not determined (C27_off_curve)."
 },
 "C28": {
  "status": "partial",
  "note": "ScalarMul fully proved. DoubleBaseScalarMul proved when the second scalar fits the bit length of the circuit field; otherwise the English property is false: it is cut (C28_double_base_truncates_fails, C28_double_base_cut), and over a field of more than 255 bits the code panics (C28_double_base_wide)."
 },
 "C29": {
  "status": "partial",
  "note": "Merge, Split recomposition and weighted-sum preservation of Resplit for every prover answer; C29_resplit_narrow gives the exact result up to the field bit length (the represented integer modulo the field); integer preservation fails when the total width equals the field bit length (C29_resplit_wraps) and wide Resplit panics when the size does not divide the width."
 },
 "C30": {
  "status": "partial",
  "note": "The English property is false: the limbs are not range checked (C30_split_not_unique). With the shipped hint the output is the canonical one, and it is unique among in-range answers."
 },
 "C31": {
  "status": "partial",
  "note": "Correct with the shipped hint; proved that a malicious prover can make LrotMerge return any field element when the rotation cuts a limb (C31_lrotMerge_any_output)."
 },
 "C34": {
  "status": "partial",
  "note": "Exact behaviour, guards and injectivity proved for the byte conversions and Bits2Uint128s; the English property is false for Bits2Nibbles, which panics on every non-empty input (C34_bits2Nibbles_panics)."
 },
 "C37": {
  "status": "partial",
  "note": "Everything except that BitsToFrBigInt returns the modulus itself instead of 0 (proved: C37_bitsToFrBigInt_modulus) and that ParseBytes32 loses information for split positions above 253 (proved)."
 },
 "C41": {
  "status": "partial",
  "note": "ToElement(s) proved for every prover answer; FromElement only with the shipped hint (C41_fromElement_narrow: exact up to the native field's bit length), and proved not to bind its output (C41_fromElement_any_head)."
 },
 "C46": {
  "status": "partial",
  "note": "Hash and a first Sum are proved correct, the exact result of Sum after any history is proved, and the English property is proved false for a second Sum without Reset (C46_sum_twice)."
 },
 "C49": {
  "status": "partial",
  "note": "The English property is false for GenerateBls12377Hash: 253-bit groups at or above the BLS12-377 scalar field are refused by the hasher and the error is ignored (C49_bls12377_collision, for every hash function). Binding proved when no group reaches the field; the VK hash and padding parts are proved."
 },
 "C50": {
  "status": "partial",
  "note": "Proved for Frobenius, FrobeniusSquare and Conjugate; the English property is proved false for FrobeniusCube, whose body repeats Frobenius (C50_frobeniusCube_fails)."
 },
 "C51": {
  "status": "partial",
  "note": "Powers proved; the exact satisfiability condition is proved, and with it that the English property is false where a decompressed power has a zero w coordinate, e.g. at 1 (C51_expt_one_fails)."
 },
 "C52": {
  "status": "partial",
  "note": "Soundness proved for every returned value and the exact satisfiability condition proved; the English property is false on the subfield Fq6, where the circuit is unsatisfiable (C52_subfield_fails)."
 },
 "C53": {
  "status": "partial",
  "note": "Proved for every list of pairs with Q in the order-r subgroup: whatever Pair returns is the cube of the product of reduced ate pairings (Miller's algorithm with verticals), and it is 1 iff the product is 1; concrete generators meet the hypotheses. The English property is false where FinalExponentiation is unsatisfiable: points at infinity and e(P,Q)e(-P,Q) (C53_infinity_*_fails, C53_opposite_fails)."
 },
 "C54": {
  "status": "partial",
  "note": "Proved for all finite different operands, with the complete list of reachable outcomes in every case, completeness in every case, and scalar multiplication for the neutral element and points whose multiples up to |x| are finite. The English property is false elsewhere: Reduce is not canonical, so the zero and equality flags can be forged (C54_neutral_fails, C54_equal_fails, C54_zero_triple_fails). Which points of the twist have such multiples is settled by C91_exceptional."
 },
 "C55": {
  "status": "proved",
  "note": "Mathlib's group law on the twist; generator of G2 as the concrete case."
 },
 "C56": {
  "status": "partial",
  "note": "psi, phi and conversions proved for every point; ClearCofactor complete for every point, sound for the neutral element and whenever no exceptional case of C54 occurs; G2ClearCofactor sound whenever multiples of P and xP up to |x| are finite. English property false at infinity (C56_infinity_fails) and in the exceptional cases of C54. The points of the twist excluded are exactly described by C91 (C91_clear_jac, C91_clear_affine)."
 },
 "C57": {
  "status": "partial",
  "note": "Complete for every non-exceptional u; for every satisfying assignment the output, if on the curve, is the RFC's point up to sign, and the sign is right when the representatives are unique. The English property is false of the code: the non-square flag can be forged, giving a pair off the curve (C57_map_fails, C57_sqrt_ratio_fails); the sign can be flipped and ignores the second coordinate (C57_sign_fails, C57_sgn0_fails); the exceptional u is u = 0 only (C57_exceptional), and the circuit is satisfiable exactly for u != 0 (C57_satisfiable)."
 },
 "C58": {
  "status": "proved",
  "note": "All rational maps with their Montgomery constants; equivalence on-twist iff on-isogenous-curve."
 },
 "C59": {
  "status": "proved",
  "note": "SHA-256 is the FIPS 180-4 specification of C24; gnark's GetRawLimbsBy8Uint64/reduction is a contract."
 },
 "C60": {
  "status": "partial",
  "note": "The OnJac functions and EncodeToG2 reach a finite RFC result exactly if the field elements are nonzero (C60_hash_jac_reach, C60_encode_reach); complete for every message without exceptional field elements (affine variants: without exceptional additions); every accepted output is clear_cofactor(\u00b1P0\u00b1P1) when the mapped values are on the twist and no exceptional addition occurs. The English property is false: the sign of P0 can be flipped (C60_hash_fails, C60_encode_fails; for a concrete message without hypotheses C60_two_hashes_fails, C60_two_encodings_fails), exceptional elements are rejected (C60_exceptional_fails), mapped values may be off the curve (C57_map_fails), and for a concrete message an accepted encoding and an accepted hash are not points of the twist (C60_encode_off_curve_fails, C60_hash_off_curve_fails). A concrete message meeting all hypotheses: C60_hash_example."
 },
 "C61": {
  "status": "partial",
  "note": "Proved as an equivalence with RFC 8032 for R on the curve, canonical coordinates and S below the group order (the group order 8L of edwards25519 is proved, so the prover's choice of the reduced challenge does not matter). The English property is false: R = (0,0) with any S is accepted for every key and message (C61_forgery_fails, C61_forgery_unsound), S+L is accepted (C61_malleable_fails), non-canonical coordinates are accepted (C61_noncanonical_fails)."
 },
 "C62": {
  "status": "proved",
  "note": "Made is the inductive set of elements reachable through the API with the value each call denotes. The generic Go code is modelled, not the assembly versions. C62_doc_bound_insufficient: the documented bound 2^52 on limbs alone would let Subtract underflow; the bound that is preserved is smaller (the proof's invariant)."
 },
 "C63": {
  "status": "proved",
  "note": "MadePt is the inductive set of points reachable through the API. C63_setBytes_lax shows where SetBytes is deliberately laxer than RFC 8032 (documented in the code)."
 },
 "C64": {
  "status": "proved",
  "note": "MadeSc is the inductive set of scalars reachable through the API."
 },
 "C65": {
  "status": "proved",
  "note": "The lazily initialised tables are values; the constant-time selections are modelled by their mask arithmetic."
 },
 "C66": {
  "status": "proved",
  "note": "crypto/sha512 is the FIPS 180-4 specification function, crypto/ed25519 signing and verification are the RFC 8032 equations."
 },
 "C67": {
  "status": "proved",
  "note": "The instruction list is generated from fe_amd64.s by tools/asm2lean.py. Trusted: the instruction semantics of AsmModel.lean, memory as aligned 8-byte words; an instruction whose carry result is undefined leaves the model stuck at the next ADCQ."
 },
 "C68": {
  "status": "proved",
  "note": "Memory model: one cell per Element, a Point is four consecutive cells, distinct Points disjoint. In scalarmult.go the local tables and temporaries are values; everything in fe.go and the methods listed of edwards25519.go is statement by statement in memory."
 },
 "C69": {
  "status": "partial",
  "note": "Every EIP-1559 transaction with empty access list within the sizes is decoded to its fields (C69_decode_transaction); accepted inputs are lists of two items whose fields are returned in order (C69_decode_sound_partial). False of the code: the type byte and, with the usual empty access list, the announced length are not checked (C69_type_and_length_unchecked); recipients of 21..31 bytes are truncated (C69_overlong_recipient); non-empty access lists and call data 00 are rejected (C69_access_list_rejected, C69_zero_calldata_rejected)."
 },
 "C70": {
  "status": "partial",
  "note": "Proved: at depth at least 2 an accepted proof shows the account the trie stores, or exhibits an explicit Keccak collision, and the absence marker is never accepted (C70_account_sound); every stored account with balance below 2^96 has an accepted proof reporting it (C70_account_complete). False of the code: with the prover-chosen depth 1 any account whatsoever is accepted against any branch-rooted trie (C70_depth_one_forgery)."
 },
 "C71": {
  "status": "partial",
  "note": "Proved: at depth at least 2, an accepted proof shows the stored value and its decoding, or claims the zero value, or exhibits an explicit Keccak collision, or its last node is a branch or an extension (C71_storage_sound_partial); every stored slot has an accepted proof that reports the stored value (C71_storage_complete); the decoder is exact (C71_slot_value, C71_slot_zero). False of the code: whenever the key runs into an extension node (C71_extension_forgery; even for stored keys) or a missing child of an inner branch (C71_branch_forgery) every value whatsoever is accepted; the RLP of the empty string is decoded as the byte that follows it in the buffer (C71_slot_empty_unchecked)."
 },
 "C72": {
  "status": "partial",
  "note": "Proved: the reported hash binds the three roots, number and timestamp (C72_block_hash_binds); genuine bounded headers with 17 fields, or whose RLP length is not 135 modulo 136, are accepted (C72_header_accepted_partial). False of the code: genuine headers with 15 or 16 fields and RLP length 135 modulo 136 are never accepted (C72_header_rejected), because the padding byte 0x81 after the header is counted as the header of an absent field."
 },
 "C73": {
  "status": "partial",
  "note": "Proved: with both proofs of depth at least 2, an output of 1 for the hash of a genuine header implies that the reported number is the header's and the account and slot are those of the state, or an explicit Keccak collision, or one of the storage-proof exceptions of C71 (C73_address_storage_sound_partial); every stored slot of every stored account of every header within the documented sizes has an accepted proof (C73_address_storage_complete). False of the code: by a depth-one account proof every value is accepted for every slot of every address in every block (C73_universal_forgery); headers with an empty number (genesis) or a number above four bytes make the circuit unsatisfiable (C73_number_range)."
 },
 "C74": {
  "status": "partial",
  "note": "Proved: the exact accepting condition of every satisfied run: all units but exactly one (C74_accept_iff). The English property is false of the code in both directions: a proof of which every check passes is rejected (C74_all_valid_rejected; concretely C74_honest_rejected: the honest two-node proof is rejected against the true root and accepted against every other root), and for every root, key and leaf hash there is an accepted proof with all-zero nodes (C74_universal_forgery). The function has no caller in the repository."
 },
 "C75": {
  "status": "partial",
  "note": "Proved for every schedule, crash point and failure pattern: a nil error means the object is stored (C75_nil_error_means_stored); at any stop the file holds the old content or a first part of the new serialization (C75_crash_content), so a later reader gets the old object, an error or the new one (C75_crash_read); calls on other paths do not interfere (C75_frame). False of the code: a failed write destroys the stored object (C75_failed_write_destroys_old), WritePlonkProvingKey reports nothing (C75_plonk_proving_key_silent), two calls on the same path can both return nil and leave a mixture (C75_same_path_mixture)."
 },
 "C76": {
  "status": "partial",
  "note": "Proved: for every EIP-155 legacy and EIP-1559 transaction the address is recovered from the prescribed payload and signature (C76_recovers, C76_signer_returned), the payload binds every signed field (C76_signing_bytes_binding), other types are refused (C76_other_types_refused). False of the code: every legacy transaction without replay protection is refused (C76_unprotected_refused); a malformed v below 35 is accepted as a signature for chain 2^63+(v-35)/2 (C76_malformed_v_accepted)."
 },
 "C77": {
  "status": "partial",
  "note": "Proved: EncodeCalldata gives selector and packed arguments in every history in which callers overwrite only memory outside the selectors (C77_encode), codec calls never change slices handed out (C77_results_stable), decoding undoes packing on the bytes behind the selector (C77_decode). False of the code: overwriting a handed-out selector corrupts all later calldata (C77_overwrite_corrupts), two appends to selectors collide (C77_append_corrupts), DecodeCalldata does not skip the selector (C77_decode_of_calldata_wrong). EncodeReturnData/DecodeReturnData: round trip proved (C77_return_roundtrip); a failing decode has already overwritten references (C77_decode_partial_write)."
 },
 "C78": {
  "status": "partial",
  "note": "Proved: for every present index the path, key and leaf prefix are returned (C78_present); every returned proof starts at the root of the header and ends in a two-item node split at its second item (C78_result_shape); a wrong root is refused (C78_wrong_root); GetReceiptRaw (C78_receipt_raw). False of the code: the index is not checked, so an absent index gives the leaf of another one (C78_absent_not_reported, C78_single_tx_any_index) or an extension node in the role of a leaf (C78_extension_as_leaf); an empty block panics (C78_empty_block_panics)."
 },
 "C79": {
  "status": "partial",
  "note": "Proved: the hash is MiMC of exactly the listed numbers (C79_hash_input), so equal hashes mean equal public-input count, coset shift, KZG points and the eight commitments, or an explicit MiMC collision (C79_binds, C79_binds_254). False of the code: domain size, its inverse, generator, Qcp, commitment positions and lines are not covered (C79_rest_not_bound); a refused block cuts the hash off silently (C79_refused_block)."
 },
 "C80": {
  "status": "partial",
  "note": "Proved: round trip and injectivity for proofs with a commitment and inputs without commas (C80_roundtrip, C80_injective). False of the code: proofs without commitments panic (C80_no_commitment_panics), further commitments are dropped (C80_other_commitments_lost), commas are not escaped (C80_comma_ambiguous), zero is written as 0x (C80_zero)."
 },
 "C81": {
  "status": "proved",
  "note": "C81_leaf_hash (digest for every message and buffer), C81_rejects (round index, nibbles, length), C81_binds (up to an explicit collision). Buffer lengths are multiples of 16 nibbles; C22_nibblesToWords covers the silent truncation otherwise."
 },
 "C82": {
  "status": "partial",
  "note": "Proved for every history: Download/HeadObject (C82_download, C82_upload_then_download), ListObjects is sound (C82_list_sound) and complete up to 1000 objects (C82_list_complete). False of the code: with more than 1000 objects the listing is cut without an error (C82_list_truncated); listing the update prefix also returns assignments (C82_foreign_objects)."
 },
 "C83": {
  "status": "partial",
  "note": "Proved: C83_bigint, C83_int, C83_uint64 (below 2^63), C83_times, C83_tsMilli, C83_start_chunk, C83_contains, C83_partition, C83_convert2_injective. False of the code: uint64 values from 2^63 on are read as 2^63-1 (C83_uint64_upper_half), negative and invalid strings are accepted (C83_uint64_negative, C83_invalid), times outside 1970..2262 wrap (C83_before_1970, C83_after_2262), the start block of chains 97 and 56 is not the first of its chunk (C83_start_aligned), duplicate keys duplicate values (C83_partition_duplicate)."
 },
 "C84": {
  "status": "partial",
  "note": "Proved for every history without copies of hashers and without changes of a number after it was written: C84_sum, C84_write_sum. False of the code otherwise: the pointer is kept (C84_late_change), a struct copy shares the array (C84_copy_shares)."
 },
 "C85": {
  "status": "partial",
  "note": "Proved for all 24 record types and all values: C85_roundtrip (fresh variable, UTF-8 strings, no empty non-nil omitempty slices), C85_readBack (all values, what exactly is read back), C85_overlay (used variables), C85_injective, C85_unknown_ignored. False of the code otherwise: used variables keep old values of empty omitempty fields (C85_reuse), empty slices become nil (C85_empty_becomes_nil), non-UTF-8 strings change (C85_not_utf8), a transaction proof is read as a storage proof (C85_transaction_as_storage). Trees, not JSON texts."
 },
 "C86": {
  "status": "partial",
  "note": "Proved: C86_proof, C86_nil_proof, C86_smt_getters, C86_sig_getters, C86_paths, C86_op_string, C86_op_log_injective, C86_sent_log_injective. False of the code: the proof of knowledge is dropped (C86_pok_dropped), receipt and transaction of one hash have the same path (C86_paths_collide), the event text panics with fewer nonces than requests (C86_op_string)."
 },
 "C87": {
  "status": "proved",
  "note": "Inputs shorter than 2^61 bytes, fields larger than 2^68."
 },
 "C88": {
  "status": "partial",
  "note": "Proved: PairCircuit accepts exactly the cube of the reduced ate pairing when Q is in the subgroup and Pair is satisfiable; MillerLoopCircuit accepts exactly one value, whose power (q^12-1)/r is the pairing; FinalExponentiationCircuit only the power 3(q^12-1)/r; the equality assertion is equality; the hash sample is satisfiable for signingRoot (over every field above 2^68), and its expected point is RFC 9380's, evaluated in the specification by the kernel. False of the code: the point at infinity and the subfield are rejected, P need not be on the curve (C88_pair_off_curve_fails), AssertC0IsEqual ignores half of its argument, and soundness of the hash circuit holds only up to sign and away from exceptional cases (C57, C60)."
 },
 "C90": {
  "status": "partial",
  "note": "Exact satisfiability and value of the gadget for every string and parameter (C90_exact), completeness over every list that fits (C90_complete) under the extra condition that the header is shorter than 2^size(limit) nibbles; without it the claim is false of the code: with limits 2 and 6 the longest announced header is refused (C90_limit)."
 },
 "C91": {
  "status": "proved",
  "note": "Order, exponent, membership, image and h_eff for every point of the twist (C91_order, C91_exponent, C91_member, C91_image, C91_heff); the circuits for every point outside an exactly counted set (C91_exceptional, C91_scalar_mul, C91_clear_jac, C91_clear_affine); the hash functions (C91_hash_*), within the limits of C60 (signs, exceptional cases of the map)."
 },
 "C10": {
  "status": "proved",
  "note": "HexToDecimal for every length up to the maximum; Hex64To2Fr for every length except 63, where the split is at 244 bits instead of 248 (C10_hex64To2Fr_63). Longer lengths: refused, or truncated by HexToDecimal (C10_*_overlong)."
 }
}