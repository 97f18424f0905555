# Working notes (reading of /repo)

Semantics: gnark API modelled in `Option` over ZMod p; none = unsat or panic.
ToBinary(x,n): fails unless x.val < 2^n. ToBinary(x): full width, canonical. FromBinary/And/Or/Xor/Select assert booleans.
Cmp on canonical reps. selector.Mux: out of range => unsat. Div: unsat on 0 divisor.

Suspected bugs (to prove as negations w/ witnesses):
1. keccak/pad.go Pad101Bits: for byte len = 135 mod 136, rounds=(len*8+8)/1088+1 gives an extra block; not pad10*1 (0x81). GetRoundIndex same. PadBits101 (periphery) same boundary (zeroBitLen<0). Pad101Bytes correct.
2. rlp RlpFieldPrefix: isValid = 2 for byte 0xc0 => RlpArrayCheck: list with a c0 item: correct length rejected / wrong length accepted. RlpNestArrayCheck subtracts isEmptyList(1) from lenSum, so with one c0 item lenCheck must be 0: total length not enforced.
3. mpt CheckMPTInclusionFixedKeyLength with depth=1: root compared with nodeHashes[0], never with leafHash => leaf not linked to root. Arbitrary key/value accepted.
4. isStorageProof: isNotExist overrides output to 4 without checking the claimed value is zero => arbitrary valueRlp with a nonexistence last node. lastNodeKeySelector = key[depth-1], not key[keyFragmentStarts[depth-1]].
5. checkExtensionNodeNonExistence ignores rlpout: branch node whose first child hash begins with nibble 1 passes.
6. CheckMPTInclusionNoBranchTermination: keyFragmentValidBranch = Or(single, 1 - nodeType) inverted (nodeType 1=extension): branch nodes may consume many nibbles; extension must be single.
7. limbs.Split: hint outputs not range checked => non-unique. Resplit len1 returns input unchanged whatever newLimbSize; Resplit panics if totalSize % newLimbSize != 0 in wide case.
8. rlp HexToDecimal: clamp uses maxLen < sel rather than <=; realLen = maxLen+1 => Mux out of range unsat. Hex64To2Fr at realLen=63 gives misaligned value.
9. conv.Bits2Nibbles passes slice as variadic element (panics) .
10. BlkHeaderRlpCheck: check adds fieldPrefixIsValid for all MaxFields (not only FieldsNum); lenSum adds 2-2*isLiteral for idx>=FieldsNum.
11. Go `j + 1<<i` parses as j + (1<<i).
12. SubArray: shifts has 7 columns: nInBits>7 panics.
13. BitsToFrBigInt reduces only if res > modulus (== modulus kept). 
14. CheckEthStorageProof: lenPrefixMaxHexs = (LogCeil(66/8)+1)*2 = (4+1)*2=10.
15. WritePlonkProvingKey: on create error continues with nil file (f nil).
16. CheckMPTInclusionNoBranchTermination: leafSubArrayInput key[6]..; key must have >=7; nothing checks that last fragment matches the leaf key (leaf path not checked; only publicLeafHash).
17. MerkleRoot: AssertIsLessOrEqual(len(branches), len(indexes)).
18. CheckLeaf non existence: isNonExistence = isZeroValue && !keyNibblesMatched, where keyNibblesMatched is prefix comparision.  keyNibblesMatched with shorter path: ArrayEqual only compares path length; a leaf with path = prefix of key impossible for fixed len.
20. CheckMPTInclusionNoBranchTermination compares the sum (at most 4*depth+2) with 4*depth+1: a fully valid proof is rejected and exactly one failing sub-check (e.g. a wrong root) is needed to be accepted.
21. CheckMPTInclusionFixedKeyLength, depth < maxDepth: the fragment at index depth-1 is checked too, so starts[depth] must be starts[depth-1]+1 or nodeTypes[depth-1] must be 1. The padding used in mpt_test.go (starts 64, types 0 after the leaf) gives Output 0 (C47_padding_64_rejected).
22. Depth 1: proved (C18_depth_one_forgery): for every branch-rooted trie, key and value, an accepted proof.
23. starts[0] is not constrained: proved (C18_absence_start_not_enforced): accepted absence proof of a present key.
24. BLS FrobeniusCube repeats Frobenius (C50_frobeniusCube_*). Expt/FinalExponentiation unsatisfiable when a decompressed element has zero w coordinate, in particular 1 (C51, C52).
25. Pair: infinity not filtered; unsatisfiable with a G2 point (0,0), with all G1 points (0,0), and on [P,-P],[Q,Q] (C53_*_fails).
26. BLS G1NotZero/G1NotEqual work on a non-canonical Reduce: the prover can call 0 nonzero (rep q) and, for values below 2^381-q, call equal elements different. So G2JacobianAddAssign(O,Q) can be O, G2JacobianAddAssign(P,P) can be O, (0,0,0) as second operand can give 2P (C54_*_fails); GetG2JacFromG2Affine(0,0) can give (0,0,1) (C56_infinity_fails).
27. BLS MapElementToCurve2: E2NotOne can be forged to 1 (C57_sqrt_ratio_fails) -> point off the iso curve, isogeny keeps it off the twist (C58_isogeny_sound), no on-curve check afterwards.
28. G2Sgn0: zeroI is overwritten, a1 ignored; parity of a non-canonical representative: both signs provable for 23% of u (C57_sign_fails), hash not unique (C60_hash_fails). Concrete message 00..007c: two different hashes accepted, and an encoding and its opposite (C60_two_hashes_fails, C60_two_encodings_fails). EncodeToG2OnJac and HashToG2OnJac even accept outputs off the twist for that message (C60_encode_off_curve_fails, C60_hash_off_curve_fails).
29. CMOV for the exceptional case of SSWU dropped: Inverse(0) unsatisfiable (C57_map_exceptional_fails, C60_exceptional_fails).
30. Ed25519 Verify: universal forgery with R=(0,0) (C61_forgery_fails); S malleable; non-canonical coordinates; DoubleBaseScalarMul cuts s2 (C28).
31. EdHost: doc bound 2^52 insufficient for Subtract (underflow), unreachable through the API (C62_doc_bound_insufficient). Point.SetBytes laxer than RFC 8032 (C63_setBytes_lax). VarTimeDoubleScalarBaseMult's search loop for the top nonzero digit breaks at once (dead code).
32. DecodeTxLeafRlp: type byte skipped, never compared with 02; with the usual empty access list (0xc0) the inner length is not checked (one empty list => verdict 1 whatever the header announces); lengths bounded only by powers of two (21..31-byte recipient truncated to 20); non-empty access list and call data 00 unsatisfiable/rejected (C69).
33. CheckEthBlockHash: genuine 15/16-field headers with RLP length = 135 mod 136 are never accepted: the padding byte is 0x81, and BlkHeaderRlpCheck counts it as header of the absent field 16/17 (C72_header_rejected).
34. CheckEthAccountProof at depth 1: any account accepted against any branch-rooted state trie (C70_depth_one_forgery).
35. CheckEthStorageProof: checkExtensionNodeNonExistence compares the length of the whole remaining key with the extension's path length, so every extension is "absent"; the override sets the verdict to 4 without looking at the claimed value: any value for any slot through an extension (C71_extension_forgery), any value for a slot absent at a branch (C71_branch_forgery). The branch test uses key[depth-1] instead of key[keyFragmentStarts[depth-1]]. RLP 0x80 is decoded as the next byte of the buffer (C71_slot_empty_unchecked).
36. CheckEthAddressStorageProof: universal forgery through a depth-one account proof (C73_universal_forgery); empty or >4-byte block number unsatisfiable (C73_number_range).
37. CheckMPTInclusionNoBranchTermination: bound off by one (C74_all_valid_rejected, C74_honest_rejected), universal forgery (C74_universal_forgery), inverted fragment rule. Unused in the repository.
38. pk-vk-utils: no temporary file and rename; WritePlonkProvingKey swallows errors; same-path writers mix (C75_*).
39. RecoverTransactionSignerAddress: uint64 wrap for v=27/28 -> 72-byte signature -> always an error; v<35 accepted (C76_*).
40. ContractCodec.Selector returns the ABI's own slice with capacity 32 (C77_overwrite_corrupts, C77_append_corrupts); DecodeCalldata does not skip 4 bytes.
41. tx_merkel_proof: index not checked (proof of another leaf or of an extension returned), panic on empty block (C78_*).
42. CalculateAppVkHashFor761: Size, SizeInv, Generator, Qcp, CommitmentConstraintIndexes not hashed (C79_rest_not_bound); Write's error ignored (C79_refused_block).
43. ExportProof: Commitments[0] panics without commitments; GenerateBatchProofAndPublicInputs: unescaped commas, "0x" for zero (C80_*).
44. s3api ListObjects: IsTruncated ignored (C82_list_truncated); S3_UPDATE_PREFIX is a prefix of S3_ASSIGNMENT_PREFIX (C82_foreign_objects). Delete logs "downloading"; HeadObject is requested twice.
45. Str2Uint64 >= 2^63 -> 2^63-1; SMTUpdateProof JSON tags are those of ReceiptProof; GetStartBlockInfo 97/56 not multiples of 128 (C83_*).
46. PoseidonBn254Hasher.Write keeps the pointer (C84_late_change); struct copy shares the array (C84_copy_shares).
47. types.go JSON tags: TransactionProof.TransactionHash is "address_proof_key", SMTUpdateProof has ReceiptProof's names; omitempty + used variable keeps old values (C85_*).
48. OnChainProof drops CommitmentPok; GetSubProofS3Path: receipt and transaction of one hash collide; OpRequestsFulfilled.String panics if len(Nonces) < len(ProofIds) (C86_*).
49. Sample PairCircuit: InG1 = (1,1), not on the curve, is accepted; AssertC0IsEqual accepts elements differing in C1 (C88_*).
50. LeftShiftRlpArrayPrefix: arrayPrefixMaxHexLen 2 or 6 refuses the longest list header it announces (C90_limit).
51. Hex64To2Fr on 63 nibbles splits at 244 bits, so the pair stands for another number than on all other lengths (C10_hex64To2Fr_63).
