{
 "claims": [
  {
   "property": "C01",
   "status": "proved",
   "theorems": [
    "Verif.C01_multiplex_selects",
    "Verif.C01_multiplex_length_guard"
   ],
   "note": ""
  },
  {
   "property": "C02",
   "status": "proved",
   "theorems": [
    "Verif.C02_multiplexer_selects"
   ],
   "note": ""
  },
  {
   "property": "C03",
   "status": "proved",
   "theorems": [
    "Verif.C03_shiftLeft_rotates",
    "Verif.C03_shiftLeft_complete",
    "Verif.C03_shiftLeft_constant",
    "Verif.C03_logCeil"
   ],
   "note": ""
  },
  {
   "property": "C04",
   "status": "proved",
   "theorems": [
    "Verif.C04_shiftRight"
   ],
   "note": ""
  },
  {
   "property": "C05",
   "status": "proved",
   "theorems": [
    "Verif.C05_subArray",
    "Verif.C05_subArray_panics"
   ],
   "note": ""
  },
  {
   "property": "C06",
   "status": "proved",
   "theorems": [
    "Verif.C06_arrayEqual"
   ],
   "note": ""
  },
  {
   "property": "C07",
   "status": "proved",
   "theorems": [
    "Verif.C07_equal",
    "Verif.C07_lessThan"
   ],
   "note": ""
  },
  {
   "property": "C08",
   "status": "proved",
   "theorems": [
    "Verif.Rlp.C08_arrayPrefix"
   ],
   "note": ""
  },
  {
   "property": "C09",
   "status": "partial",
   "theorems": [
    "Verif.Rlp.C09_fieldPrefix_partial",
    "Verif.Rlp.C09_isValid_emptyList"
   ],
   "note": "Everything except that the validity flag is 2 (not boolean) on 0xc0; that disagreement is proved."
  },
  {
   "property": "C10",
   "status": "proved",
   "theorems": [
    "Verif.Rlp.C10_hex64To2Fr_63",
    "Verif.Rlp.C10_hex64To2Fr_overlong",
    "Verif.Rlp.C10_hexToDecimal",
    "Verif.Rlp.C10_hexToDecimal_overlong",
    "Verif.Rlp.C10_hex64To2Fr"
   ],
   "note": "HexToDecimal for every length up to the maximum; Hex64To2Fr for every length except 63, where the split is at 244 bits instead of 248 (C10_hex64To2Fr_63). Longer lengths: refused, or truncated by HexToDecimal (C10_*_overlong)."
  },
  {
   "property": "C11",
   "status": "partial",
   "theorems": [
    "Verif.Rlp.C11_rlpArrayCheck_sound_partial",
    "Verif.Rlp.C11_noncanonical_accepted",
    "Verif.Rlp.C11_rlpNest_sound_partial"
   ],
   "note": "Sound when no item is 0xc0, announced total within the buffer, fixed-width field lengths compared by the caller. Canonical length headers are not enforced (proved: C11_noncanonical_accepted)."
  },
  {
   "property": "C12",
   "status": "proved",
   "theorems": [
    "Verif.Rlp.C12_rlpArrayCheck_complete",
    "Verif.Rlp.C12_max_112_rejects"
   ],
   "note": "Completeness over the byte-level RLP encoder; limits of the parameter range proved in C12_max_112_rejects."
  },
  {
   "property": "C13",
   "status": "partial",
   "theorems": [
    "Verif.Rlp.C13_rlpArrayCheck_exact",
    "Verif.Rlp.C13_one_empty_list",
    "Verif.Rlp.C13_witness_rejected",
    "Verif.Rlp.C13_witness_accepted",
    "Verif.Rlp.C13_witness_nonlist",
    "Verif.Rlp.C13_rlpNest_exact",
    "Verif.Rlp.C13_nest_one_empty_list",
    "Verif.Rlp.C13_nest_zero_byte"
   ],
   "note": "The English property is false of the code; the exact acceptance condition and witnesses of the failure are proved."
  },
  {
   "property": "C14",
   "status": "partial",
   "theorems": [
    "Verif.Rlp.C14_blkHeader_exact",
    "Verif.Rlp.C14_blkHeader_sound_partial",
    "Verif.Rlp.C14_trailing_item_accepted"
   ],
   "note": "Exact acceptance condition proved; soundness needs the padding condition; counterexample proved."
  },
  {
   "property": "C15",
   "status": "proved",
   "theorems": [
    "Verif.Mpt.C15_leaf_complete",
    "Verif.Mpt.C15_leaf_absent",
    "Verif.Mpt.C15_leaf_binds",
    "Verif.Mpt.C15_leaf_exact"
   ],
   "note": ""
  },
  {
   "property": "C16",
   "status": "proved",
   "theorems": [
    "Verif.Mpt.C16_extension_complete",
    "Verif.Mpt.C16_extension_binds",
    "Verif.Mpt.C16_extension_exact"
   ],
   "note": ""
  },
  {
   "property": "C17",
   "status": "proved",
   "theorems": [
    "Verif.Mpt.C17_branch_complete",
    "Verif.Mpt.C17_branch_binds",
    "Verif.Mpt.C17_branch_exact"
   ],
   "note": ""
  },
  {
   "property": "C18",
   "status": "partial",
   "theorems": [
    "Verif.Mpt.C18_absence_start_not_enforced",
    "Verif.Mpt.C18_depth_one_forgery",
    "Verif.Mpt.C18_inclusion_sound",
    "Verif.Mpt.C18_absence_sound_partial",
    "Verif.Mpt.C18_inclusion_start"
   ],
   "note": "Presence proofs of depth at least two are proved sound (the trie stores the claimed value, or an explicit Keccak collision); absence only with first start 0 (_partial). The unrestricted English property is proved false: C18_depth_one_forgery, C18_absence_start_not_enforced."
  },
  {
   "property": "C19",
   "status": "proved",
   "theorems": [
    "Verif.Keccak.C19_permute"
   ],
   "note": ""
  },
  {
   "property": "C20",
   "status": "proved",
   "theorems": [
    "Verif.Keccak.C20_pad101Bytes",
    "Verif.Keccak.C20_pad101Bytes_length",
    "Verif.Keccak.C20_pad101Bytes_injective",
    "Verif.Keccak.C20_roundIndex",
    "Verif.Keccak.C20_bytes2BlockBits"
   ],
   "note": ""
  },
  {
   "property": "C21",
   "status": "partial",
   "theorems": [
    "Verif.Keccak.C21_pad101Bits_exact",
    "Verif.Keccak.C21_pad101Bits_partial",
    "Verif.Keccak.C21_pad101Bits_135",
    "Verif.Keccak.C21_getRoundIndex_partial",
    "Verif.Keccak.C21_getRoundIndex_135",
    "Verif.Keccak.C21_padBits101_partial",
    "Verif.Keccak.C21_padBits101_wrong"
   ],
   "note": "Exact output of Pad101Bits proved for all inputs; equality with the Keccak padding holds iff byte length is not 135 mod 136 (the English property is false there, proved: C21_pad101Bits_135, C21_padBits101_wrong, C21_getRoundIndex_135)."
  },
  {
   "property": "C22",
   "status": "proved",
   "theorems": [
    "Verif.Keccak.C22_pad_then_hash_partial",
    "Verif.Keccak.C22_nibblesToWords",
    "Verif.Keccak.C22_keccak256Bits",
    "Verif.Keccak.C22_keccak256Bits_digest",
    "Verif.Keccak.C22_optimized",
    "Verif.Keccak.C22_vector",
    "Verif.Keccak.C22_keccak256_words"
   ],
   "note": "Exact behaviour of both bit-level gadgets, of the word-level gadget (external PermuteOld assumed to be the permutation on 64-bit words) and of the packing helpers. The end-to-end composition with Pad101Bits (suffix _partial) excludes lengths 135 mod 136, see C21."
  },
  {
   "property": "C23",
   "status": "proved",
   "theorems": [
    "Verif.Keccak.C23_keccakMerkleRoot",
    "Verif.Keccak.C23_count_guard",
    "Verif.Keccak.C23_binding",
    "Verif.Keccak.C23_single_leaf",
    "Verif.Keccak.C23_vector"
   ],
   "note": ""
  },
  {
   "property": "C24",
   "status": "proved",
   "theorems": [
    "Verif.Sha.C24_sha256",
    "Verif.Sha.C24_sha256_rejects",
    "Verif.Sha.C24_sha256_split"
   ],
   "note": ""
  },
  {
   "property": "C25",
   "status": "proved",
   "theorems": [
    "Verif.Sha.C25_sha512",
    "Verif.Sha.C25_sha512_rejects",
    "Verif.Sha.C25_sha512_split"
   ],
   "note": ""
  },
  {
   "property": "C26",
   "status": "proved",
   "theorems": [
    "Verif.Sha.C26_sum_pure_256",
    "Verif.Sha.C26_sum_pure_512"
   ],
   "note": ""
  },
  {
   "property": "C27",
   "status": "proved",
   "theorems": [
    "Verif.Ed.C27_add",
    "Verif.Ed.C27_double",
    "Verif.Ed.C27_neg",
    "Verif.Ed.C27_closed",
    "Verif.Ed.C27_on_curve",
    "Verif.Ed.C27_params",
    "Verif.Ed.C27_off_curve"
   ],
   "note": "For every field with a square and d not a square, all pairs of curve points; division is the relation gnark enforces, so uniqueness and existence are both proved. Off the curve the result is not determined (C27_off_curve)."
  },
  {
   "property": "C28",
   "status": "partial",
   "theorems": [
    "Verif.Ed.C28_scalar_mul",
    "Verif.Ed.C28_scalar_mul_bits",
    "Verif.Ed.C28_double_base_partial",
    "Verif.Ed.C28_double_base_cut",
    "Verif.Ed.C28_double_base_truncates_fails",
    "Verif.Ed.C28_double_base_wide"
   ],
   "note": "ScalarMul fully proved. DoubleBaseScalarMul proved when the second scalar fits the bit length of the circuit field; otherwise the English property is false: it is cut (C28_double_base_truncates_fails, C28_double_base_cut), and over a field of more than 255 bits the code panics (C28_double_base_wide)."
  },
  {
   "property": "C29",
   "status": "partial",
   "theorems": [
    "Verif.Limbs.C29_resplit_narrow",
    "Verif.Limbs.C29_merge",
    "Verif.Limbs.C29_merge_bits",
    "Verif.Limbs.C29_split",
    "Verif.Limbs.C29_resplit_weighted",
    "Verif.Limbs.C29_resplit_single",
    "Verif.Limbs.C29_resplit_partial",
    "Verif.Limbs.C29_resplit_wraps",
    "Verif.Limbs.C29_resplit_wide",
    "Verif.Limbs.C29_resplit_wide_panics"
   ],
   "note": "Merge, Split recomposition and weighted-sum preservation of Resplit for every prover answer; C29_resplit_narrow gives the exact result up to the field bit length (the represented integer modulo the field); integer preservation fails when the total width equals the field bit length (C29_resplit_wraps) and wide Resplit panics when the size does not divide the width."
  },
  {
   "property": "C30",
   "status": "partial",
   "theorems": [
    "Verif.Limbs.C30_split_partial",
    "Verif.Limbs.C30_split_not_unique"
   ],
   "note": "The English property is false: the limbs are not range checked (C30_split_not_unique). With the shipped hint the output is the canonical one, and it is unique among in-range answers."
  },
  {
   "property": "C31",
   "status": "partial",
   "theorems": [
    "Verif.Limbs.C31_lrotMerge_partial",
    "Verif.Limbs.C31_lrotMerge_too_far",
    "Verif.Limbs.C31_lrotMerge_any_output"
   ],
   "note": "Correct with the shipped hint; proved that a malicious prover can make LrotMerge return any field element when the rotation cuts a limb (C31_lrotMerge_any_output)."
  },
  {
   "property": "C32",
   "status": "proved",
   "theorems": [
    "Verif.Mimc.C32_checkSMTInclusion",
    "Verif.Mimc.C32_empty_leaf_tree",
    "Verif.Mimc.C32_sound",
    "Verif.Mimc.C32_leaf_value_binding",
    "Verif.Mimc.C32_complete",
    "Verif.Mimc.C32_extra_indexes_free"
   ],
   "note": ""
  },
  {
   "property": "C33",
   "status": "proved",
   "theorems": [
    "Verif.Mimc.C33_restoreMimcRoot",
    "Verif.Mimc.C33_mimcRoot",
    "Verif.Mimc.C33_mimcRoot_count",
    "Verif.Mimc.C33_mimcRoot_binding",
    "Verif.Mimc.C33_restore_sound",
    "Verif.Mimc.C33_withLeaveHash",
    "Verif.Mimc.C33_basedOnMiMCHash"
   ],
   "note": ""
  },
  {
   "property": "C34",
   "status": "partial",
   "theorems": [
    "Verif.Conv.C34_bits2Bytes",
    "Verif.Conv.C34_bits2Bytes2",
    "Verif.Conv.C34_bits2BytesArray",
    "Verif.Conv.C34_length_guard",
    "Verif.Conv.C34_boolean_guard",
    "Verif.Conv.C34_bits2Bytes_injective",
    "Verif.Conv.C34_bits2Uint128s",
    "Verif.Conv.C34_bits2Nibbles_panics"
   ],
   "note": "Exact behaviour, guards and injectivity proved for the byte conversions and Bits2Uint128s; the English property is false for Bits2Nibbles, which panics on every non-empty input (C34_bits2Nibbles_panics)."
  },
  {
   "property": "C35",
   "status": "proved",
   "theorems": [
    "Verif.Compose.C35_flipByGroups",
    "Verif.Compose.C35_flipByGroups_involutive",
    "Verif.Compose.C35_flipByGroups_zero",
    "Verif.Slices.C35_flip",
    "Verif.Slices.C35_flip_involutive",
    "Verif.Slices.C35_flipSubSlice",
    "Verif.Slices.C35_flipSubSlice_involutive",
    "Verif.Slices.C35_flipKeccakFvBits"
   ],
   "note": ""
  },
  {
   "property": "C36",
   "status": "proved",
   "theorems": [
    "Verif.Hex.C36_roundtrip",
    "Verif.Hex.C36_encode_injective",
    "Verif.Hex.C36_value",
    "Verif.Hex.C36_invalid_truncates",
    "Verif.Hex.C36_fixed_width",
    "Verif.Hex.C36_addr_roundtrip",
    "Verif.Hex.C36_bytes2Hash",
    "Verif.Hex.C36_formatAddrHex",
    "Verif.Hex.C36_padBytes",
    "Verif.Hex.C36_isValidTxHash",
    "Verif.Hex.C36_validTxHash_exact",
    "Verif.Hex.C36_lists",
    "Verif.Hex.C36_encoding",
    "Verif.Hex.C36_address_text",
    "Verif.Hex.C36_reverse"
   ],
   "note": ""
  },
  {
   "property": "C37",
   "status": "partial",
   "theorems": [
    "Verif.Compose.C37_decomposeBits",
    "Verif.Compose.C37_recompose_bits",
    "Verif.Compose.C37_decompose_recompose",
    "Verif.Compose.C37_packBitsToInt",
    "Verif.Compose.C37_packBitsToInt_injective",
    "Verif.Compose.C37_parseBytes32",
    "Verif.Compose.C37_parseBytes32_exact",
    "Verif.Compose.C37_byte32_injective",
    "Verif.Compose.C37_parseBytes32_254_lossy",
    "Verif.Compose.C37_bitsToFrBigInt",
    "Verif.Compose.C37_bitsToFrBigInt_modulus",
    "Verif.Compose.C37_decodeByteToBinary",
    "Verif.Compose.C37_decodeByte_value",
    "Verif.Compose.C37_packBitsToFr",
    "Verif.Compose.C37_pack_agree"
   ],
   "note": "Everything except that BitsToFrBigInt returns the modulus itself instead of 0 (proved: C37_bitsToFrBigInt_modulus) and that ParseBytes32 loses information for split positions above 253 (proved)."
  },
  {
   "property": "C38",
   "status": "proved",
   "theorems": [
    "Verif.QueryId.C38_receipt_defined",
    "Verif.QueryId.C38_storage_defined",
    "Verif.QueryId.C38_tx_defined",
    "Verif.QueryId.C38_receipt_binding",
    "Verif.QueryId.C38_storage_binding",
    "Verif.QueryId.C38_tx_binding",
    "Verif.QueryId.C38_storage_separate",
    "Verif.QueryId.C38_receipt_tx_separate",
    "Verif.QueryId.C38_receipt_tx_confusion",
    "Verif.QueryId.C38_negative_alias"
   ],
   "note": ""
  },
  {
   "property": "C39",
   "status": "proved",
   "theorems": [
    "Verif.Abi.C39_panics",
    "Verif.Abi.C39_layout",
    "Verif.Abi.C39_injective",
    "Verif.Abi.C39_large_block_collision",
    "Verif.Abi.C39_commitment_not_encoded"
   ],
   "note": ""
  },
  {
   "property": "C40",
   "status": "proved",
   "theorems": [
    "Verif.Index.C40_index_rlp",
    "Verif.Index.C40_index_check",
    "Verif.Index.C40_index_injective"
   ],
   "note": ""
  },
  {
   "property": "C41",
   "status": "partial",
   "theorems": [
    "Verif.Emu.C41_fromElement_narrow",
    "Verif.Emu.C41_toElement_wide",
    "Verif.Emu.C41_toElement_narrow",
    "Verif.Emu.C41_toElements",
    "Verif.Emu.C41_fromElement_partial",
    "Verif.Emu.C41_fromElement_any_head"
   ],
   "note": "ToElement(s) proved for every prover answer; FromElement only with the shipped hint (C41_fromElement_narrow: exact up to the native field's bit length), and proved not to bind its output (C41_fromElement_any_head)."
  },
  {
   "property": "C42",
   "status": "proved",
   "theorems": [
    "Verif.Bls.C42_fq2",
    "Verif.Bls.C42_fq6",
    "Verif.Bls.C42_fq12",
    "Verif.Bls.C42_inverse_complete",
    "Verif.Bls.C42_halve_nonresidueInv"
   ],
   "note": ""
  },
  {
   "property": "C43",
   "status": "proved",
   "theorems": [
    "Verif.Fabric.C43_accepts",
    "Verif.Fabric.C43_rows",
    "Verif.Fabric.C43_row_size",
    "Verif.Fabric.C43_long_extra_accepted",
    "Verif.Fabric.C43_row_hash",
    "Verif.Fabric.C43_newHash",
    "Verif.Fabric.C43_newHash_injective",
    "Verif.Fabric.C43_mimcRoot",
    "Verif.Fabric.C43_mimcRoot_guard",
    "Verif.Fabric.C43_mimcRoot_binding",
    "Verif.Fabric.C43_mimcHashBytes32",
    "Verif.Fabric.C43_mimcHashBytes32_binding",
    "Verif.Fabric.C43_chunkIndexFound"
   ],
   "note": ""
  },
  {
   "property": "C44",
   "status": "proved",
   "theorems": [
    "Verif.Client.C44_getSlot_finalized",
    "Verif.Client.C44_getSlot_complete",
    "Verif.Client.C44_getBlock_source",
    "Verif.Client.C44_exact",
    "Verif.Client.C44_exact_representable",
    "Verif.Client.C44_other_chains",
    "Verif.Client.C44_reply_identity_unchecked",
    "Verif.Client.C44_malformed_panics"
   ],
   "note": ""
  },
  {
   "property": "C45",
   "status": "proved",
   "theorems": [
    "Verif.Fabric.C45_objectKey_injective"
   ],
   "note": ""
  },
  {
   "property": "C46",
   "status": "partial",
   "theorems": [
    "Verif.Mimc.C46_hash",
    "Verif.Mimc.C46_new",
    "Verif.Mimc.C46_sum_any_history",
    "Verif.Mimc.C46_sum_partial",
    "Verif.Mimc.C46_sum_twice"
   ],
   "note": "Hash and a first Sum are proved correct, the exact result of Sum after any history is proved, and the English property is proved false for a second Sum without Reset (C46_sum_twice)."
  },
  {
   "property": "C47",
   "status": "proved",
   "theorems": [
    "Verif.Mpt.C47_inclusion_complete",
    "Verif.Mpt.C47_padding_64_rejected",
    "Verif.Mpt.C47_padding_rejected"
   ],
   "note": ""
  },
  {
   "property": "C48",
   "status": "proved",
   "theorems": [
    "Verif.Compose.C48_recompose6Bytes",
    "Verif.Compose.C48_sdkByte32ToNibble",
    "Verif.Compose.C48_byte32ToBits",
    "Verif.Compose.C48_sdkByte32To2Fr",
    "Verif.Compose.C48_recompose32Byte",
    "Verif.Compose.C48_digits_injective"
   ],
   "note": ""
  },
  {
   "property": "C49",
   "status": "partial",
   "theorems": [
    "Verif.Compose.C49_bls12377_exact",
    "Verif.Compose.C49_bls12377_binding_partial",
    "Verif.Compose.C49_bls12377_collision",
    "Verif.Compose.C49_blockPad0",
    "Verif.Compose.C49_blockPad0_value",
    "Verif.Compose.C49_appVkHash"
   ],
   "note": "The English property is false for GenerateBls12377Hash: 253-bit groups at or above the BLS12-377 scalar field are refused by the hasher and the error is ignored (C49_bls12377_collision, for every hash function). Binding proved when no group reaches the field; the VK hash and padding parts are proved."
  },
  {
   "property": "C50",
   "status": "partial",
   "theorems": [
    "Verif.Bls.C50_frobenius",
    "Verif.Bls.C50_frobeniusCube_is_frobenius",
    "Verif.Bls.C50_frobeniusCube_fails"
   ],
   "note": "Proved for Frobenius, FrobeniusSquare and Conjugate; the English property is proved false for FrobeniusCube, whose body repeats Frobenius (C50_frobeniusCube_fails)."
  },
  {
   "property": "C51",
   "status": "partial",
   "theorems": [
    "Verif.Bls.C51_cyclotomic",
    "Verif.Bls.C51_expt",
    "Verif.Bls.C51_example",
    "Verif.Bls.C51_expt_one_fails"
   ],
   "note": "Powers proved; the exact satisfiability condition is proved, and with it that the English property is false where a decompressed power has a zero w coordinate, e.g. at 1 (C51_expt_one_fails)."
  },
  {
   "property": "C52",
   "status": "partial",
   "theorems": [
    "Verif.Bls.C52_negAffine",
    "Verif.Bls.C52_affineToProjective",
    "Verif.Bls.C52_sound",
    "Verif.Bls.C52_satisfiable_iff",
    "Verif.Bls.C52_example",
    "Verif.Bls.C52_subfield_fails",
    "Verif.Bls.C52_one_fails"
   ],
   "note": "Soundness proved for every returned value and the exact satisfiability condition proved; the English property is false on the subfield Fq6, where the circuit is unsatisfiable (C52_subfield_fails)."
  },
  {
   "property": "C53",
   "status": "partial",
   "theorems": [
    "Verif.Bls.C53_example",
    "Verif.Bls.C53_example_check",
    "Verif.Bls.C53_infinity_G2_fails",
    "Verif.Bls.C53_infinity_G1_fails",
    "Verif.Bls.C53_opposite_fails",
    "Verif.Bls.C53_opposite",
    "Verif.Bls.C53_miller",
    "Verif.Bls.C53_pair",
    "Verif.Bls.C53_check"
   ],
   "note": "Proved for every list of pairs with Q in the order-r subgroup: whatever Pair returns is the cube of the product of reduced ate pairings (Miller's algorithm with verticals), and it is 1 iff the product is 1; concrete generators meet the hypotheses. The English property is false where FinalExponentiation is unsatisfiable: points at infinity and e(P,Q)e(-P,Q) (C53_infinity_*_fails, C53_opposite_fails)."
  },
  {
   "property": "C54",
   "status": "partial",
   "theorems": [
    "Verif.Bls.C54_double",
    "Verif.Bls.C54_add_complete",
    "Verif.Bls.C54_add_partial",
    "Verif.Bls.C54_add_outcomes",
    "Verif.Bls.C54_neutral_fails",
    "Verif.Bls.C54_equal_fails",
    "Verif.Bls.C54_zero_triple_fails",
    "Verif.Bls.C54_scalar_mul",
    "Verif.Bls.C54_example",
    "Verif.Bls.C54_equal_example"
   ],
   "note": "Proved for all finite different operands, with the complete list of reachable outcomes in every case, completeness in every case, and scalar multiplication for the neutral element and points whose multiples up to |x| are finite. The English property is false elsewhere: Reduce is not canonical, so the zero and equality flags can be forged (C54_neutral_fails, C54_equal_fails, C54_zero_triple_fails). Which points of the twist have such multiples is settled by C91_exceptional."
  },
  {
   "property": "C55",
   "status": "proved",
   "theorems": [
    "Verif.Bls.C55_add",
    "Verif.Bls.C55_sub",
    "Verif.Bls.C55_double",
    "Verif.Bls.C55_double_and_add",
    "Verif.Bls.C55_neg",
    "Verif.Bls.C55_scalar_mul",
    "Verif.Bls.C55_example",
    "Verif.Bls.C55_signed_complete",
    "Verif.Bls.C55_subgroup",
    "Verif.Bls.C55_subgroup_example"
   ],
   "note": "Mathlib's group law on the twist; generator of G2 as the concrete case."
  },
  {
   "property": "C56",
   "status": "partial",
   "theorems": [
    "Verif.Bls.C56_psi",
    "Verif.Bls.C56_phi_cube",
    "Verif.Bls.C56_convert",
    "Verif.Bls.C56_infinity_fails",
    "Verif.Bls.C56_clear_complete",
    "Verif.Bls.C56_clear_partial",
    "Verif.Bls.C56_clear_affine_partial",
    "Verif.Bls.C56_clear_affine_complete",
    "Verif.Bls.C56_example",
    "Verif.Bls.C56_on_G2"
   ],
   "note": "psi, phi and conversions proved for every point; ClearCofactor complete for every point, sound for the neutral element and whenever no exceptional case of C54 occurs; G2ClearCofactor sound whenever multiples of P and xP up to |x| are finite. English property false at infinity (C56_infinity_fails) and in the exceptional cases of C54. The points of the twist excluded are exactly described by C91 (C91_clear_jac, C91_clear_affine)."
  },
  {
   "property": "C57",
   "status": "partial",
   "theorems": [
    "Verif.Bls.C57_exceptional",
    "Verif.Bls.C57_satisfiable",
    "Verif.Bls.C57_spec_total",
    "Verif.Bls.C57_sign_fails",
    "Verif.Bls.C57_sign_example",
    "Verif.Bls.C57_sqrt_ratio_complete",
    "Verif.Bls.C57_sqrt_ratio_partial",
    "Verif.Bls.C57_sqrt_ratio_fails",
    "Verif.Bls.C57_sgn0_fails",
    "Verif.Bls.C57_sgn0_partial",
    "Verif.Bls.C57_spec_unique",
    "Verif.Bls.C57_map_complete",
    "Verif.Bls.C57_map_sound_partial",
    "Verif.Bls.C57_map_sign_partial",
    "Verif.Bls.C57_map_fails",
    "Verif.Bls.C57_map_exceptional_fails",
    "Verif.Bls.C57_zero_example",
    "Verif.Bls.C57_one_example"
   ],
   "note": "Complete for every non-exceptional u; for every satisfying assignment the output, if on the curve, is the RFC's point up to sign, and the sign is right when the representatives are unique. The English property is false of the code: the non-square flag can be forged, giving a pair off the curve (C57_map_fails, C57_sqrt_ratio_fails); the sign can be flipped and ignores the second coordinate (C57_sign_fails, C57_sgn0_fails); the exceptional u is u = 0 only (C57_exceptional), and the circuit is satisfiable exactly for u != 0 (C57_satisfiable)."
  },
  {
   "property": "C58",
   "status": "proved",
   "theorems": [
    "Verif.Bls.C58_isogeny",
    "Verif.Bls.C58_isogeny_sound",
    "Verif.Bls.C58_example"
   ],
   "note": "All rational maps with their Montgomery constants; equivalence on-twist iff on-isogenous-curve."
  },
  {
   "property": "C59",
   "status": "proved",
   "theorems": [
    "Verif.Bls.C59_expand",
    "Verif.Bls.C59_eight_bytes",
    "Verif.Bls.C59_hash_to_field",
    "Verif.Bls.C59_rejects",
    "Verif.Bls.C59_example"
   ],
   "note": "SHA-256 is the FIPS 180-4 specification of C24; gnark's GetRawLimbsBy8Uint64/reduction is a contract."
  },
  {
   "property": "C60",
   "status": "partial",
   "theorems": [
    "Verif.Bls.C60_encode_off_curve_fails",
    "Verif.Bls.C60_hash_off_curve_fails",
    "Verif.Bls.C60_hash_example",
    "Verif.Bls.C60_two_hashes_fails",
    "Verif.Bls.C60_two_encodings_fails",
    "Verif.Bls.C60_hash_jac_reach",
    "Verif.Bls.C60_encode_reach",
    "Verif.Bls.C60_encode_fails",
    "Verif.Bls.C60_hash_affine_reach",
    "Verif.Bls.C60_spec_unique",
    "Verif.Bls.C60_hash_jac_complete",
    "Verif.Bls.C60_encode_jac_complete",
    "Verif.Bls.C60_hash_affine_complete",
    "Verif.Bls.C60_encode_affine_complete",
    "Verif.Bls.C60_hash_fails",
    "Verif.Bls.C60_hash_jac_partial",
    "Verif.Bls.C60_hash_affine_partial",
    "Verif.Bls.C60_encode_partial",
    "Verif.Bls.C60_exceptional_fails",
    "Verif.Bls.C60_rejects"
   ],
   "note": "The OnJac functions and EncodeToG2 reach a finite RFC result exactly if the field elements are nonzero (C60_hash_jac_reach, C60_encode_reach); complete for every message without exceptional field elements (affine variants: without exceptional additions); every accepted output is clear_cofactor(\u00b1P0\u00b1P1) when the mapped values are on the twist and no exceptional addition occurs. The English property is false: the sign of P0 can be flipped (C60_hash_fails, C60_encode_fails; for a concrete message without hypotheses C60_two_hashes_fails, C60_two_encodings_fails), exceptional elements are rejected (C60_exceptional_fails), mapped values may be off the curve (C57_map_fails), and for a concrete message an accepted encoding and an accepted hash are not points of the twist (C60_encode_off_curve_fails, C60_hash_off_curve_fails). A concrete message meeting all hypotheses: C60_hash_example."
  },
  {
   "property": "C61",
   "status": "partial",
   "theorems": [
    "Verif.Ed.C61_verify_partial",
    "Verif.Ed.C61_rfc_partial",
    "Verif.Ed.C61_honest",
    "Verif.Ed.C61_forgery_fails",
    "Verif.Ed.C61_forged_R_invalid",
    "Verif.Ed.C61_rfc_unique",
    "Verif.Ed.C61_forgery_unsound",
    "Verif.Ed.C61_malleable_fails",
    "Verif.Ed.C61_noncanonical_fails",
    "Verif.Ed.C61_honest_bn254",
    "Verif.Ed.C61_rfc8032_test1",
    "Verif.Ed.C61_rfc8032_test2",
    "Verif.Ed.C61_rfc8032_test3"
   ],
   "note": "Proved as an equivalence with RFC 8032 for R on the curve, canonical coordinates and S below the group order (the group order 8L of edwards25519 is proved, so the prover's choice of the reduced challenge does not matter). The English property is false: R = (0,0) with any S is accepted for every key and message (C61_forgery_fails, C61_forgery_unsound), S+L is accepted (C61_malleable_fails), non-canonical coordinates are accepted (C61_noncanonical_fails)."
  },
  {
   "property": "C62",
   "status": "proved",
   "theorems": [
    "Verif.EdHost.C62_bytes",
    "Verif.EdHost.C62_equal",
    "Verif.EdHost.C62_isNegative",
    "Verif.EdHost.C62_limbs",
    "Verif.EdHost.C62_setBytes",
    "Verif.EdHost.C62_roundtrip",
    "Verif.EdHost.C62_sqrtRatio",
    "Verif.EdHost.C62_doc_bound_insufficient"
   ],
   "note": "Made is the inductive set of elements reachable through the API with the value each call denotes. The generic Go code is modelled, not the assembly versions. C62_doc_bound_insufficient: the documented bound 2^52 on limbs alone would let Subtract underflow; the bound that is preserved is smaller (the proof's invariant)."
  },
  {
   "property": "C63",
   "status": "proved",
   "theorems": [
    "Verif.EdHost.C63_bytes",
    "Verif.EdHost.C63_equal",
    "Verif.EdHost.C63_group",
    "Verif.EdHost.C63_setBytes_accepts",
    "Verif.EdHost.C63_setBytes_value",
    "Verif.EdHost.C63_roundtrip",
    "Verif.EdHost.C63_setBytes_lax",
    "Verif.EdHost.C63_uninitialized",
    "Verif.EdHost.C63_affine"
   ],
   "note": "MadePt is the inductive set of points reachable through the API. C63_setBytes_lax shows where SetBytes is deliberately laxer than RFC 8032 (documented in the code)."
  },
  {
   "property": "C64",
   "status": "proved",
   "theorems": [
    "Verif.EdHost.C64_bytes",
    "Verif.EdHost.C64_equal",
    "Verif.EdHost.C64_setCanonical",
    "Verif.EdHost.C64_setUniform",
    "Verif.EdHost.C64_setClamped",
    "Verif.EdHost.C64_roundtrip"
   ],
   "note": "MadeSc is the inductive set of scalars reachable through the API."
  },
  {
   "property": "C65",
   "status": "proved",
   "theorems": [
    "Verif.EdHost.C65_scalarBaseMult",
    "Verif.EdHost.C65_scalarMult",
    "Verif.EdHost.C65_varTime",
    "Verif.EdHost.C65_agree",
    "Verif.EdHost.C65_high_bit"
   ],
   "note": "The lazily initialised tables are values; the constant-time selections are modelled by their mask arithmetic."
  },
  {
   "property": "C66",
   "status": "proved",
   "theorems": [
    "Verif.EdHost.C66_vector",
    "Verif.EdHost.C66_vector_tampered",
    "Verif.EdHost.C66_total",
    "Verif.EdHost.C66_accepts_iff",
    "Verif.EdHost.C66_check",
    "Verif.EdHost.C66_valid",
    "Verif.EdHost.C66_noncanonical_key",
    "Verif.EdHost.C66_signed"
   ],
   "note": "crypto/sha512 is the FIPS 180-4 specification function, crypto/ed25519 signing and verification are the RFC 8032 equations."
  },
  {
   "property": "C67",
   "status": "proved",
   "theorems": [
    "Verif.EdHost.C67_amd64_feMul",
    "Verif.EdHost.C67_amd64_feSquare",
    "Verif.EdHost.C67_arm64_carryPropagate",
    "Verif.EdHost.C67_amd64_value"
   ],
   "note": "The instruction list is generated from fe_amd64.s by tools/asm2lean.py. Trusted: the instruction semantics of AsmModel.lean, memory as aligned 8-byte words; an instruction whose carry result is undefined leaves the model stuck at the next ADCQ."
  },
  {
   "property": "C68",
   "status": "proved",
   "theorems": [
    "Verif.EdHost.Alias.C68_field",
    "Verif.EdHost.Alias.C68_swap",
    "Verif.EdHost.Alias.C68_field_locals",
    "Verif.EdHost.Alias.C68_field_readers",
    "Verif.EdHost.Alias.C68_field_setBytes",
    "Verif.EdHost.Alias.C68_add_sub",
    "Verif.EdHost.Alias.C68_neg_set",
    "Verif.EdHost.Alias.C68_mult",
    "Verif.EdHost.Alias.C68_readers",
    "Verif.EdHost.Alias.C68_fromExtended",
    "Verif.EdHost.Alias.C68_constants_fromP2",
    "Verif.EdHost.Alias.C68_package_variables",
    "Verif.EdHost.Alias.C68_new_points"
   ],
   "note": "Memory model: one cell per Element, a Point is four consecutive cells, distinct Points disjoint. In scalarmult.go the local tables and temporaries are values; everything in fe.go and the methods listed of edwards25519.go is statement by statement in memory."
  },
  {
   "property": "C69",
   "status": "partial",
   "theorems": [
    "Verif.Rlp.C69_decode_transaction",
    "Verif.Rlp.C69_type_and_length_unchecked",
    "Verif.Rlp.C69_overlong_recipient",
    "Verif.Rlp.C69_access_list_rejected",
    "Verif.Rlp.C69_zero_calldata_rejected",
    "Verif.Rlp.C69_decode_sound_partial"
   ],
   "note": "Every EIP-1559 transaction with empty access list within the sizes is decoded to its fields (C69_decode_transaction); accepted inputs are lists of two items whose fields are returned in order (C69_decode_sound_partial). False of the code: the type byte and, with the usual empty access list, the announced length are not checked (C69_type_and_length_unchecked); recipients of 21..31 bytes are truncated (C69_overlong_recipient); non-empty access lists and call data 00 are rejected (C69_access_list_rejected, C69_zero_calldata_rejected)."
  },
  {
   "property": "C70",
   "status": "partial",
   "theorems": [
    "Verif.Mpt.C70_account_sound",
    "Verif.Mpt.C70_account_complete",
    "Verif.Mpt.C70_depth_one_forgery"
   ],
   "note": "Proved: at depth at least 2 an accepted proof shows the account the trie stores, or exhibits an explicit Keccak collision, and the absence marker is never accepted (C70_account_sound); every stored account with balance below 2^96 has an accepted proof reporting it (C70_account_complete). False of the code: with the prover-chosen depth 1 any account whatsoever is accepted against any branch-rooted trie (C70_depth_one_forgery)."
  },
  {
   "property": "C71",
   "status": "partial",
   "theorems": [
    "Verif.Mpt.C71_slot_value",
    "Verif.Mpt.C71_slot_zero",
    "Verif.Mpt.C71_slot_empty_unchecked",
    "Verif.Mpt.C71_storage_sound_partial",
    "Verif.Mpt.C71_storage_complete",
    "Verif.Mpt.C71_extension_forgery",
    "Verif.Mpt.C71_branch_forgery"
   ],
   "note": "Proved: at depth at least 2, an accepted proof shows the stored value and its decoding, or claims the zero value, or exhibits an explicit Keccak collision, or its last node is a branch or an extension (C71_storage_sound_partial); every stored slot has an accepted proof that reports the stored value (C71_storage_complete); the decoder is exact (C71_slot_value, C71_slot_zero). False of the code: whenever the key runs into an extension node (C71_extension_forgery; even for stored keys) or a missing child of an inner branch (C71_branch_forgery) every value whatsoever is accepted; the RLP of the empty string is decoded as the byte that follows it in the buffer (C71_slot_empty_unchecked)."
  },
  {
   "property": "C72",
   "status": "partial",
   "theorems": [
    "Verif.Mpt.C72_block_hash_binds",
    "Verif.Mpt.C72_header_accepted_partial",
    "Verif.Mpt.C72_header_rejected",
    "Verif.Mpt.C72_mainnet"
   ],
   "note": "Proved: the reported hash binds the three roots, number and timestamp (C72_block_hash_binds); genuine bounded headers with 17 fields, or whose RLP length is not 135 modulo 136, are accepted (C72_header_accepted_partial). False of the code: genuine headers with 15 or 16 fields and RLP length 135 modulo 136 are never accepted (C72_header_rejected), because the padding byte 0x81 after the header is counted as the header of an absent field."
  },
  {
   "property": "C73",
   "status": "partial",
   "theorems": [
    "Verif.Mpt.C73_address_storage_sound_partial",
    "Verif.Mpt.C73_number_range",
    "Verif.Mpt.C73_address_storage_complete",
    "Verif.Mpt.C73_universal_forgery"
   ],
   "note": "Proved: with both proofs of depth at least 2, an output of 1 for the hash of a genuine header implies that the reported number is the header's and the account and slot are those of the state, or an explicit Keccak collision, or one of the storage-proof exceptions of C71 (C73_address_storage_sound_partial); every stored slot of every stored account of every header within the documented sizes has an accepted proof (C73_address_storage_complete). False of the code: by a depth-one account proof every value is accepted for every slot of every address in every block (C73_universal_forgery); headers with an empty number (genesis) or a number above four bytes make the circuit unsatisfiable (C73_number_range)."
  },
  {
   "property": "C74",
   "status": "partial",
   "theorems": [
    "Verif.Mpt.C74_accept_iff",
    "Verif.Mpt.C74_all_valid_rejected",
    "Verif.Mpt.C74_universal_forgery",
    "Verif.Mpt.C74_honest_rejected"
   ],
   "note": "Proved: the exact accepting condition of every satisfied run: all units but exactly one (C74_accept_iff). The English property is false of the code in both directions: a proof of which every check passes is rejected (C74_all_valid_rejected; concretely C74_honest_rejected: the honest two-node proof is rejected against the true root and accepted against every other root), and for every root, key and leaf hash there is an accepted proof with all-zero nodes (C74_universal_forgery). The function has no caller in the repository."
  },
  {
   "property": "C75",
   "status": "partial",
   "theorems": [
    "Verif.Common.KeyFiles.C75_nil_error_means_stored",
    "Verif.Common.KeyFiles.C75_crash_content",
    "Verif.Common.KeyFiles.C75_crash_read",
    "Verif.Common.KeyFiles.C75_frame",
    "Verif.Common.KeyFiles.C75_succeeds",
    "Verif.Common.KeyFiles.C75_failed_write_destroys_old",
    "Verif.Common.KeyFiles.C75_plonk_proving_key_silent",
    "Verif.Common.KeyFiles.C75_same_path_mixture"
   ],
   "note": "Proved for every schedule, crash point and failure pattern: a nil error means the object is stored (C75_nil_error_means_stored); at any stop the file holds the old content or a first part of the new serialization (C75_crash_content), so a later reader gets the old object, an error or the new one (C75_crash_read); calls on other paths do not interfere (C75_frame). False of the code: a failed write destroys the stored object (C75_failed_write_destroys_old), WritePlonkProvingKey reports nothing (C75_plonk_proving_key_silent), two calls on the same path can both return nil and leave a mixture (C75_same_path_mixture)."
  },
  {
   "property": "C76",
   "status": "partial",
   "theorems": [
    "Verif.TxSigner.C76_recovers",
    "Verif.TxSigner.C76_signer_returned",
    "Verif.TxSigner.C76_signing_bytes_binding",
    "Verif.TxSigner.C76_other_types_refused",
    "Verif.TxSigner.C76_unprotected_refused",
    "Verif.TxSigner.C76_malformed_v_accepted"
   ],
   "note": "Proved: for every EIP-155 legacy and EIP-1559 transaction the address is recovered from the prescribed payload and signature (C76_recovers, C76_signer_returned), the payload binds every signed field (C76_signing_bytes_binding), other types are refused (C76_other_types_refused). False of the code: every legacy transaction without replay protection is refused (C76_unprotected_refused); a malformed v below 35 is accepted as a signature for chain 2^63+(v-35)/2 (C76_malformed_v_accepted)."
  },
  {
   "property": "C77",
   "status": "partial",
   "theorems": [
    "Verif.Common.Codec.C77_encode",
    "Verif.Common.Codec.C77_encode_error",
    "Verif.Common.Codec.C77_results_stable",
    "Verif.Common.Codec.C77_decode",
    "Verif.Common.Codec.C77_decode_iff",
    "Verif.Common.Codec.C77_return_roundtrip",
    "Verif.Common.Codec.C77_decode_return_iff",
    "Verif.Common.Codec.C77_decode_partial_write",
    "Verif.Common.Codec.C77_decode_of_calldata_wrong",
    "Verif.Common.Codec.C77_overwrite_corrupts",
    "Verif.Common.Codec.C77_append_corrupts"
   ],
   "note": "Proved: EncodeCalldata gives selector and packed arguments in every history in which callers overwrite only memory outside the selectors (C77_encode), codec calls never change slices handed out (C77_results_stable), decoding undoes packing on the bytes behind the selector (C77_decode). False of the code: overwriting a handed-out selector corrupts all later calldata (C77_overwrite_corrupts), two appends to selectors collide (C77_append_corrupts), DecodeCalldata does not skip the selector (C77_decode_of_calldata_wrong). EncodeReturnData/DecodeReturnData: round trip proved (C77_return_roundtrip); a failing decode has already overwritten references (C77_decode_partial_write)."
  },
  {
   "property": "C78",
   "status": "partial",
   "theorems": [
    "Verif.TxProof.C78_result_shape",
    "Verif.TxProof.C78_present",
    "Verif.TxProof.C78_wrong_root",
    "Verif.TxProof.C78_receipt_raw",
    "Verif.TxProof.C78_empty_block_panics",
    "Verif.TxProof.C78_absent_not_reported",
    "Verif.TxProof.C78_single_tx_any_index",
    "Verif.TxProof.C78_extension_as_leaf"
   ],
   "note": "Proved: for every present index the path, key and leaf prefix are returned (C78_present); every returned proof starts at the root of the header and ends in a two-item node split at its second item (C78_result_shape); a wrong root is refused (C78_wrong_root); GetReceiptRaw (C78_receipt_raw). False of the code: the index is not checked, so an absent index gives the leaf of another one (C78_absent_not_reported, C78_single_tx_any_index) or an extension node in the role of a leaf (C78_extension_as_leaf); an empty block panics (C78_empty_block_panics)."
  },
  {
   "property": "C79",
   "status": "partial",
   "theorems": [
    "Verif.VkHash.C79_hash_input",
    "Verif.VkHash.C79_binds",
    "Verif.VkHash.C79_binds_254",
    "Verif.VkHash.C79_rest_not_bound",
    "Verif.VkHash.C79_refused_block"
   ],
   "note": "Proved: the hash is MiMC of exactly the listed numbers (C79_hash_input), so equal hashes mean equal public-input count, coset shift, KZG points and the eight commitments, or an explicit MiMC collision (C79_binds, C79_binds_254). False of the code: domain size, its inverse, generator, Qcp, commitment positions and lines are not covered (C79_rest_not_bound); a refused block cuts the hash off silently (C79_refused_block)."
  },
  {
   "property": "C80",
   "status": "partial",
   "theorems": [
    "Verif.AggExport.C80_roundtrip",
    "Verif.AggExport.C80_injective",
    "Verif.AggExport.C80_no_commitment_panics",
    "Verif.AggExport.C80_other_commitments_lost",
    "Verif.AggExport.C80_comma_ambiguous",
    "Verif.AggExport.C80_zero"
   ],
   "note": "Proved: round trip and injectivity for proofs with a commitment and inputs without commas (C80_roundtrip, C80_injective). False of the code: proofs without commitments panic (C80_no_commitment_panics), further commitments are dropped (C80_other_commitments_lost), commas are not escaped (C80_comma_ambiguous), zero is written as 0x (C80_zero)."
  },
  {
   "property": "C81",
   "status": "proved",
   "theorems": [
    "Verif.Mpt.C81_leaf_hash",
    "Verif.Mpt.C81_rejects",
    "Verif.Mpt.C81_binds"
   ],
   "note": "C81_leaf_hash (digest for every message and buffer), C81_rejects (round index, nibbles, length), C81_binds (up to an explicit collision). Buffer lengths are multiples of 16 nibbles; C22_nibblesToWords covers the silent truncation otherwise."
  },
  {
   "property": "C82",
   "status": "partial",
   "theorems": [
    "Verif.S3.C82_download",
    "Verif.S3.C82_upload_then_download",
    "Verif.S3.C82_list_sound",
    "Verif.S3.C82_list_complete",
    "Verif.S3.C82_list_truncated",
    "Verif.S3.C82_foreign_objects"
   ],
   "note": "Proved for every history: Download/HeadObject (C82_download, C82_upload_then_download), ListObjects is sound (C82_list_sound) and complete up to 1000 objects (C82_list_complete). False of the code: with more than 1000 objects the listing is cut without an error (C82_list_truncated); listing the update prefix also returns assignments (C82_foreign_objects)."
  },
  {
   "property": "C83",
   "status": "partial",
   "theorems": [
    "Verif.Misc.C83_bigint",
    "Verif.Misc.C83_int",
    "Verif.Misc.C83_uint64",
    "Verif.Misc.C83_uint64_upper_half",
    "Verif.Misc.C83_uint64_negative",
    "Verif.Misc.C83_invalid",
    "Verif.Misc.C83_times",
    "Verif.Misc.C83_tsMilli",
    "Verif.Misc.C83_before_1970",
    "Verif.Misc.C83_after_2262",
    "Verif.Misc.C83_start_chunk",
    "Verif.Misc.C83_start_aligned",
    "Verif.Misc.C83_contains",
    "Verif.Misc.C83_partition",
    "Verif.Misc.C83_partition_duplicate",
    "Verif.Misc.C83_convert2_injective"
   ],
   "note": "Proved: C83_bigint, C83_int, C83_uint64 (below 2^63), C83_times, C83_tsMilli, C83_start_chunk, C83_contains, C83_partition, C83_convert2_injective. False of the code: uint64 values from 2^63 on are read as 2^63-1 (C83_uint64_upper_half), negative and invalid strings are accepted (C83_uint64_negative, C83_invalid), times outside 1970..2262 wrap (C83_before_1970, C83_after_2262), the start block of chains 97 and 56 is not the first of its chunk (C83_start_aligned), duplicate keys duplicate values (C83_partition_duplicate)."
  },
  {
   "property": "C84",
   "status": "partial",
   "theorems": [
    "Verif.Common.Poseidon.C84_sum",
    "Verif.Common.Poseidon.C84_write_sum",
    "Verif.Common.Poseidon.C84_late_change",
    "Verif.Common.Poseidon.C84_copy_shares"
   ],
   "note": "Proved for every history without copies of hashers and without changes of a number after it was written: C84_sum, C84_write_sum. False of the code otherwise: the pointer is kept (C84_late_change), a struct copy shares the array (C84_copy_shares)."
  },
  {
   "property": "C85",
   "status": "partial",
   "theorems": [
    "Verif.Common.Json.C85_roundtrip",
    "Verif.Common.Json.C85_readBack",
    "Verif.Common.Json.C85_injective",
    "Verif.Common.Json.C85_unknown_ignored",
    "Verif.Common.Json.C85_overlay",
    "Verif.Common.Json.C85_reuse",
    "Verif.Common.Json.C85_empty_becomes_nil",
    "Verif.Common.Json.C85_not_utf8",
    "Verif.Common.Json.C85_transaction_as_storage"
   ],
   "note": "Proved for all 24 record types and all values: C85_roundtrip (fresh variable, UTF-8 strings, no empty non-nil omitempty slices), C85_readBack (all values, what exactly is read back), C85_overlay (used variables), C85_injective, C85_unknown_ignored. False of the code otherwise: used variables keep old values of empty omitempty fields (C85_reuse), empty slices become nil (C85_empty_becomes_nil), non-UTF-8 strings change (C85_not_utf8), a transaction proof is read as a storage proof (C85_transaction_as_storage). Trees, not JSON texts."
  },
  {
   "property": "C86",
   "status": "partial",
   "theorems": [
    "Verif.OnChain.C86_proof",
    "Verif.OnChain.C86_nil_proof",
    "Verif.OnChain.C86_pok_dropped",
    "Verif.OnChain.C86_smt_getters",
    "Verif.OnChain.C86_sig_getters",
    "Verif.OnChain.C86_paths",
    "Verif.OnChain.C86_paths_collide",
    "Verif.OnChain.C86_op_string",
    "Verif.OnChain.C86_op_log_injective",
    "Verif.OnChain.C86_sent_log_injective"
   ],
   "note": "Proved: C86_proof, C86_nil_proof, C86_smt_getters, C86_sig_getters, C86_paths, C86_op_string, C86_op_log_injective, C86_sent_log_injective. False of the code: the proof of knowledge is dropped (C86_pok_dropped), receipt and transaction of one hash have the same path (C86_paths_collide), the event text panics with fewer nonces than requests (C86_op_string)."
  },
  {
   "property": "C87",
   "status": "proved",
   "theorems": [
    "Verif.Sha.C87_sha256",
    "Verif.Sha.C87_sha512",
    "Verif.Sha.C87_sha256_binding",
    "Verif.Sha.C87_default_256",
    "Verif.Sha.C87_default_512"
   ],
   "note": "Inputs shorter than 2^61 bytes, fields larger than 2^68."
  },
  {
   "property": "C88",
   "status": "partial",
   "theorems": [
    "Verif.Bls.C88_assert",
    "Verif.Bls.C88_assertC0_fails",
    "Verif.Bls.C88_pair",
    "Verif.Bls.C88_pair_infinity_fails",
    "Verif.Bls.C88_finalExp",
    "Verif.Bls.C88_finalExp_subfield_fails",
    "Verif.Bls.C88_millerLoop",
    "Verif.Bls.C88_pair_example",
    "Verif.Bls.C88_pair_off_curve_fails",
    "Verif.Bls.C88_tests",
    "Verif.Bls.C88_hash",
    "Verif.Bls.C88_hash_example",
    "Verif.Bls.C88_hash_sound_partial"
   ],
   "note": "Proved: PairCircuit accepts exactly the cube of the reduced ate pairing when Q is in the subgroup and Pair is satisfiable; MillerLoopCircuit accepts exactly one value, whose power (q^12-1)/r is the pairing; FinalExponentiationCircuit only the power 3(q^12-1)/r; the equality assertion is equality; the hash sample is satisfiable for signingRoot (over every field above 2^68), and its expected point is RFC 9380's, evaluated in the specification by the kernel. False of the code: the point at infinity and the subfield are rejected, P need not be on the curve (C88_pair_off_curve_fails), AssertC0IsEqual ignores half of its argument, and soundness of the hash circuit holds only up to sign and away from exceptional cases (C57, C60)."
  },
  {
   "property": "C89",
   "status": "proved",
   "theorems": [
    "Verif.Text.C89_update",
    "Verif.Text.C89_smt",
    "Verif.Text.C89_parts",
    "Verif.Text.C89_branches"
   ],
   "note": ""
  },
  {
   "property": "C90",
   "status": "partial",
   "theorems": [
    "Verif.Rlp.C90_exact",
    "Verif.Rlp.C90_complete",
    "Verif.Rlp.C90_limit"
   ],
   "note": "Exact satisfiability and value of the gadget for every string and parameter (C90_exact), completeness over every list that fits (C90_complete) under the extra condition that the header is shorter than 2^size(limit) nibbles; without it the claim is false of the code: with limits 2 and 6 the longest announced header is refused (C90_limit)."
  },
  {
   "property": "C91",
   "status": "proved",
   "theorems": [
    "Verif.Bls.C91_exponent",
    "Verif.Bls.C91_multiples",
    "Verif.Bls.C91_order",
    "Verif.Bls.C91_heff",
    "Verif.Bls.C91_clear",
    "Verif.Bls.C91_member",
    "Verif.Bls.C91_image",
    "Verif.Bls.C91_exceptional",
    "Verif.Bls.C91_scalar_mul",
    "Verif.Bls.C91_clear_jac",
    "Verif.Bls.C91_clear_affine",
    "Verif.Bls.C91_hash_spec",
    "Verif.Bls.C91_hash_jac",
    "Verif.Bls.C91_encode",
    "Verif.Bls.C91_hash_affine_complete",
    "Verif.Bls.C91_encode_affine_complete",
    "Verif.Bls.C91_example",
    "Verif.Bls.C91_exceptional_example"
   ],
   "note": "Order, exponent, membership, image and h_eff for every point of the twist (C91_order, C91_exponent, C91_member, C91_image, C91_heff); the circuits for every point outside an exactly counted set (C91_exceptional, C91_scalar_mul, C91_clear_jac, C91_clear_affine); the hash functions (C91_hash_*), within the limits of C60 (signs, exceptional cases of the map)."
  }
 ]
}