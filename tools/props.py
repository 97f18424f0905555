#!/usr/bin/env python3
"""Source of /verif/properties.jsonl (run to regenerate)."""
import json,os
P=[]
def p(id,title,statement,quantifier,why,anchors):
    P.append(dict(id=id,title=title,statement=statement,quantifier=quantifier,why_tests_cant=why,anchors=anchors))
G="circuits/gadgets/"
p("C01","mux.Multiplex selects exactly the addressed entry",
 "Multiplex(selector, inputs) is satisfiable iff selector (as an integer) is smaller than the number of inputs, and then its only possible output is inputs[selector].",
 "every prime field larger than the number of inputs, every selector field element, every number and value of inputs",
 "Tests try a few selectors; soundness is about every field element, including ones far outside the range.",
 [G+"mux/multiplexer.go: Multiplex, dotProduct, decode"])
p("C02","rlp.Multiplexer selects row by row and rejects out-of-range selectors",
 "Multiplexer(selector, width, n, rows) is satisfiable iff selector < n, and the output is column-wise the selected row.",
 "every field, selector, width, number of rows and contents",
 "Out-of-range selectors and all field elements cannot be enumerated.",
 [G+"rlp/util.go: Multiplexer, Decoder, EscalarProduct"])
p("C03","ShiftLeft is a cyclic left rotation by the selector",
 "ShiftLeft(n,min,max,in,shift), when satisfiable, returns the n inputs rotated left by shift; it is satisfiable for every shift in [min,max) and rejects every shift whose offset from min does not fit in LogCeil(max-min) bits.",
 "every array, every min<=max, every shift field element",
 "The barrel shifter is a product over all bits of the shift; only finitely many widths can be tested.",
 [G+"rlp/util.go: ShiftLeft, LogCeil"])
p("C04","ShiftRight shifts right with zero fill",
 "ShiftRight(n,nBits,in,shift) is satisfiable iff shift < 2^nBits, and out[i] = in[i-shift] for i >= shift and 0 otherwise.",
 "every array, bit width and shift field element","as C03",[G+"rlp/util.go: ShiftRight"])
p("C05","SubArray extracts exactly the requested window",
 "SubArray(maxLen,nInBits,in,start,end) with start<=end<=maxLen returns in[start..end) in its first end-start cells together with the length end-start, and rejects end<start or a length above maxLen.",
 "every array, start, end field elements","The statement covers every window of every array, and rejection of every malformed window.",[G+"rlp/util.go: SubArray"])
p("C06","ArrayEqual compares exactly the prefix",
 "ArrayEqual(a,b,maxLen,len) returns 1 iff a and b agree on the first len cells and returns 0 otherwise, for len <= maxLen.",
 "every pair of arrays and every length","Exact comparison over all field vectors.",[G+"rlp/util.go: ArrayEqual"])
p("C07","Equal and LessThan are exact and boolean",
 "Equal(a,b) is 1 iff a=b else 0; LessThan(a,b) is 1 iff a<b as canonical integers else 0; both always satisfiable.",
 "every pair of field elements","All field elements.",[G+"rlp/util.go: Equal, LessThan"])
p("C08","RlpArrayPrefix classifies list headers as the RLP specification",
 "For any two nibbles the list-prefix gadget reports validity, short/long form and payload or length-of-length exactly as RLP defines for byte 16*hi+lo.",
 "all 256 prefix bytes given as nibbles, and every field element input for determinism","Exhaustive finite table lifted to all field inputs in range.",[G+"rlp/rlp.go: RlpArrayPrefix"])
p("C09","RlpFieldPrefix classifies string headers as the RLP specification",
 "For any two nibbles the field-prefix gadget reports literal / short / long / empty list and the payload length exactly as RLP defines for byte 16*hi+lo, and its validity flag is boolean.",
 "all 256 prefix bytes","as C08; the code violates the boolean-validity part at byte 0xc0",[G+"rlp/rlp.go: RlpFieldPrefix"])
p("C10","HexToDecimal decodes a big-endian nibble string of the given length",
 "HexToDecimal(hex, realLen, maxLen) returns the big-endian value of the first realLen nibbles for realLen<=maxLen.",
 "every nibble string and length","All lengths and contents.",[G+"rlp/rlp.go: HexToDecimal, Hex64To2Fr"])
p("C11","RlpArrayCheck accepts only well-formed RLP lists and returns their fields",
 "If RlpArrayCheck reports success on a nibble string, then the string starts with a canonical-form list header whose payload is the concatenation of numFields RLP items, and the returned lengths/contents are those of the items.",
 "every nibble array, every number of fields and size bounds","Soundness against every adversarial input.",[G+"rlp/rlp.go: ArrayCheck.RlpArrayCheck"])
p("C12","RlpArrayCheck accepts every encodable list within its bounds",
 "For every list of byte strings within the configured size bounds, RlpArrayCheck applied to the RLP encoding reports success and returns the fields.",
 "every list of strings within bounds","Completeness over all lists.",[G+"rlp/rlp.go: ArrayCheck.RlpArrayCheck"])
p("C13","Length accounting in the RLP gadgets is exact when an item is the empty list",
 "A list containing an empty-list item (0xc0) is accepted by RlpArrayCheck/RlpNestArrayCheck only if the header length equals the total item length.",
 "every list with a 0xc0 item","The violating inputs are a measure-zero family.",[G+"rlp/rlp.go: RlpArrayCheck, RlpNestArrayCheck"])
p("C14","BlkHeaderRlpCheck accepts exactly headers with the declared number of fields",
 "BlkHeaderRlpCheck reports success only if the header is a list of FieldsNum items that fill the declared payload.",
 "every header nibble array and field count","adversarial inputs",[G+"rlp/rlp.go: BlkHeaderRlpCheck"])
p("C15","MPT leaf check binds key suffix and value",
 "When CheckLeaf reports success in existence mode, the leaf node's compact path decodes to exactly the remaining key nibbles and its value field equals the claimed value.",
 "every node, key and claimed value","adversarial inputs",[G+"mpt/mpt_util.go: CheckLeaf"])
p("C16","MPT extension check binds the path fragment and child hash",
 "When the extension check reports success the node's path equals the key fragment and its child reference is the returned hash.",
 "every node and key","adversarial inputs",[G+"mpt/mpt_util.go: checkExtension"])
p("C17","MPT branch check binds the addressed child",
 "When the branch check reports success, the child at the key nibble is the returned hash.",
 "every node and nibble","adversarial inputs",[G+"mpt/mpt_util.go: checkBranch, checkEmptyBranch"])
p("C18","MPT inclusion proofs are sound: root determines the value of a key",
 "If CheckMPTInclusionFixedKeyLength accepts (root, key, value), then either the trie with that root stores value under key, or a Keccak collision is exhibited.",
 "every proof, depth, key and value","A soundness statement against every adversarial witness.",[G+"mpt/mpt.go: CheckMPTInclusionFixedKeyLength"])
p("C19","Keccak permutation gadget equals Keccak-f[1600] of FIPS 202",
 "The in-circuit permutation computes Keccak-f[1600] on every 1600-bit state.",
 "every state","2^1600 states.",[G+"keccak/keccakf/keccakf.go: Permute", G+"keccak/keccakf/uint64api.go"])
p("C20","Pad101Bytes is the Keccak pad10*1 rule",
 "Pad101Bytes(data) is data followed by 0x01 ... 0x80 (or the single byte 0x81) and has length a positive multiple of 136, strictly larger than the data, at most one block more.",
 "every byte string","every length residue",[G+"keccak/pad.go: Pad101Bytes"])
p("C21","Pad101Bits and GetRoundIndex agree with Pad101Bytes on every length",
 "For every byte-aligned message the bit padding equals the bit expansion of the byte padding and the round index is the index of the last block.",
 "every message length","Fails for exactly one residue class modulo 136.",[G+"keccak/pad.go: Pad101Bits", G+"keccak/periphery.go: GetRoundIndex, PadBits101"])
p("C22","The Keccak gadgets compute Keccak-256 of the padded message, and the variants agree",
 "Keccak256Bits / Keccak256BitsOptimized applied to padded blocks with the correct round index return the Keccak-256 digest bits of the message, whatever follows the padding in the buffer; the word-level Keccak256 (with Pad101/Uint64s2Blocks/NibblesToU64Array) returns the digest words; non-bit inputs and out-of-range round indices are rejected.",
 "every message, every maximum number of rounds and every round index","All messages and all block counts.",[G+"keccak/keccak256_bits.go", G+"keccak/keccak256_bits_optimized.go", G+"keccak/keccak256.go"])
p("C23","KeccakMerkleRoot recomputes the Merkle root",
 "KeccakMerkleRoot returns the root of the complete binary tree over the given leaves (inner node = Keccak-256 of the two concatenated children), rejects leaf counts that are not powers of two, and two different leaf vectors of the same size with the same root have, at some common place of the two trees, different pairs of children with the same Keccak-256.",
 "every number and content of leaves","every depth and adversarial leaf vector",[G+"merkle/keccak_root.go"])
p("C24","SHA-256 gadget computes SHA-256",
 "For any message and any way of splitting it into Write calls, Sum returns the FIPS 180-4 SHA-256 digest of the concatenation.",
 "every message and every split into writes","All messages and all write schedules.",[G+"sha256/sha256.go", G+"sha256/sha256block.go", G+"sha256/uint32api.go"])
p("C25","SHA-512 gadget computes SHA-512","as C24 for SHA-512","every message and every split into writes","All messages and write schedules.",
 [G+"sha512/sha512.go", G+"sha512/sha512block.go"])
p("C26","Sum does not disturb an ongoing hash",
 "Calling Sum in the middle of a sequence of Writes never changes later digests.",
 "every interleaving of Write and Sum calls","All histories.",[G+"sha256/sha256.go: Sum", G+"sha512/sha512.go: Sum"])
p("C27","Ed25519 point gadgets implement the twisted Edwards group operations",
 "add, double and neg return the twisted Edwards sum, double and inverse for all points on the curve and stay on the curve.",
 "every pair of curve points over every field where a is a square and d is not","All curve points incl. exceptional ones (identity, small order).",[G+"ed25519/point.go"])
p("C28","Scalar multiplication gadgets compute the scalar multiple",
 "scalarMul and doubleBaseScalarMul return s*P (resp. s1*P1+s2*P2) for every scalar bit string.",
 "every scalar and point","all scalars",[G+"ed25519/point.go: scalarMul, doubleBaseScalarMul"])
p("C29","limbs.Merge/Split/Resplit preserve the represented value",
 "Merge is the little-endian weighted sum of its limbs; Split's accepted outputs recompose to the input; Resplit preserves the represented integer.",
 "every limb list, sizes and every adversarial hint output","The prover chooses the hint outputs.",[G+"limbs/limbapi.go"])
p("C30","limbs.Split determines its output",
 "For every input in range Split accepts exactly one list of output limbs, the canonical one.",
 "every hint output","Adversarial hint; the code has no range check on limbs.",[G+"limbs/limbapi.go: Split"])
p("C31","Lrot/LrotMerge rotate the represented bit string left",
 "LrotMerge(limbs, n) is the left rotation by n of the concatenated bit string.",
 "every limb list and rotation amount","all rotations",[G+"limbs/limbapi.go: Lrot, LrotMerge"])
p("C32","Sparse Merkle inclusion recomputes the root bit by bit",
 "CheckSMTInclusion accepts iff the iterated hash of (leaf, siblings) ordered by key bits equals the root; the root and key determine the leaf, unless a step of the path hashes another pair than the tree at that place to the same value.",
 "every depth, key, siblings","every adversarial witness",[G+"smt/smt.go"])
p("C33","MiMC Merkle root gadgets recompute the root and bind every leaf",
 "The MiMC Merkle root is the binary tree hash of the leaves, and two leaf vectors with the same root are equal or their trees have, at some common place, different pairs of children with the same hash.",
 "every number of leaves (power of two)","all sizes",[G+"merkle/mimc_root.go", G+"merkle/emulated_mimc_root.go"])
p("C34","Bit/byte/nibble conversions preserve value",
 "conv.Bits2Bytes, Bits2BytesArray and Bits2Uint128s recompose the bits with the documented endianness, are injective on booleans, and never panic on nonempty multiples of the group size; Bits2Nibbles likewise.",
 "every bit list","every length; Bits2Nibbles panics",[G+"conv/bits.go"])
p("C35","Slice flips are involutions",
 "Flip, FlipSubSlice and FlipByGroups reverse the documented unit, applying them twice is the identity, and they do not alias their input.",
 "every slice and group size","all lengths",[G+"utils/slice.go","common/utils/binary.go"])
p("C36","Hex encode/decode helpers round trip",
 "Bytes2Hex writes two lower-case digits per byte with the value of the byte string, and Hex2Bytes(Bytes2Hex(b)) = b for every byte string, with and without 0x prefix; odd-length strings are padded on the left; fixed-width hashes and addresses are left padded or truncated from the left.",
 "every byte string and hex string","all strings",["common/utils/hex.go"])
p("C37","Bit decomposition and recomposition are inverse",
 "DecomposeBits / recompose / PackBitsToInt / ParseBytes32 / Byte32ToFrBits round trip for every value that fits, panic exactly when it does not, BitsToFrBigInt reduces modulo the given modulus, and PackBitsToFr in the circuit agrees with PackBitsToInt on the host.",
 "every integer and width","all values",["common/utils/binary.go","common/utils/compose.go"])
p("C38","Query identifiers bind the query",
 "A receipt, storage or transaction query identifier exists exactly when the query's strings parse to values that fit their widths, and it is then the hash of these values laid out in fixed widths and cut into elements of 253 bits; two queries of one kind with non-negative numbers and the same identifier stand for the same values unless their two packed inputs, which then differ, have the same hash; a storage identifier never equals one of another kind, and a receipt identifier equals a transaction identifier only if the receipt's block time is 0.",
 "every pair of queries, every hash function","unbounded lists of logs, all field values and every hash",["common/proof/query_id.go: MiMCHashReceiptCustomInputs, MiMCHashStorageCustomInputs, MiMCHashTxCustomInputs, GetPaddedSlotBytes"])
p("C39","ChunkProof ABI encoding is fixed-width and injective",
 "EncodeABI panics exactly when a coordinate of A, B or C exceeds 32 bytes; otherwise it returns 18 big-endian 32-byte words (A, B, C, zero commitment, three hashes as 128-bit halves, block numbers), and for block numbers below 2^63 two chunk proofs with the same encoding agree in all of these.",
 "every chunk proof","all strings and block numbers",["common/proof/types.go: ChunkProof.EncodeABI, Groth16Proof.AsBigInts"])
p("C40","Transaction index RLP gadget equals RLP of the index",
 "CalTxOrReceiptIndexRlp is satisfiable exactly for indices below 65536 and then returns the RLP encoding nibbles of the index (0 encodes as 0x80), zero padded on the right to seven; different indices give different outputs, and IndexCheckCircuit accepts only that string.",
 "every index","65536 indices with field-level reasoning",[G+"index-proof/core/circuit_index_mpt.go"])
p("C41","Emulated element conversions preserve the value",
 "FromElement/ToElement(s) map between native and emulated representation preserving the integer value.",
 "every field element and parameter","all values",[G+"emulated/element.go"])
p("C42","BLS12-381 tower arithmetic is the field tower",
 "E2/E6/E12 mul, square, inverse, sparse mul, conjugate agree with polynomial multiplication modulo the tower relations.",
 "every element over every commutative ring/field","all field elements",[G+"pairing_bls12381/tower.go"])
p("C43","Fabric header rows and MiMC helpers",
 "EncodeHeaders succeeds exactly when every header is within the documented byte limits; each row is the Keccak-padded header RLP in bits, zero-extended to five blocks when the extra data has at most 32 bytes, and hashing it at its index gives the header hash; NewHash splits 32 bytes into exact 128-bit halves; MimcRoot is the root of the complete binary tree and binds its leaves; MimcHashBytes32 binds its 32 bytes.",
 "every list of headers, leaves and byte strings","all field values and unbounded lists",["circuits/fabric/smt/utils.go","common/circuits/keccak.go","common/circuits/smt.go"])
p("C44","Block and slot lookups report only what a successful reply says",
 "GetSlot reports a finalized slot only on mainnet or Goerli and only if the server answered the request for that block with status 200 and a body carrying that slot and finality; GetBlock returns a non-zero number only if it is the slot itself on BSC or the number in a status-200 reply; numbers up to 2^53 are exact; other chains report failure.",
 "every chain id, request and reply","all replies, including malformed ones",["common/eth/client.go: GetSlot, GetBlock"])
p("C45","S3 object keys are injective","ObjectKey(prefix, slot) determines prefix and slot, whatever characters the prefix contains.",
 "every pair of prefixes and slots","all strings",["common/s3api/utils.go: ObjectKey"])
p("C46","The emulated MiMC hasher hashes what was written since the last Reset",
 "For every history of Reset, Write and Sum calls, Sum (and Hash) returns the Miyaguchi-Preneel MiMC hash, with the curve's exponent and round constants, of the data written since the last Reset.",
 "every history of calls and every data","unbounded call histories",[G+"emulated/mimc/mimc.go",G+"emulated/mimc/encrypt.go"])
p("C47","Every stored key has an accepted inclusion proof",
 "For every trie with 64-nibble keys in which nodes are referenced by hash, every stored key whose path has between 2 and maxDepth nodes and every value that fits the value buffer, there are prover inputs (node buffers, fragment starts, node kinds, lengths) for which CheckMPTInclusionFixedKeyLength, called with the key, the trie's root hash and a buffer starting with the stored value, returns Output 1 and the value's nibble length.",
 "every trie, key, value and buffer size","all tries and keys",[G+"mpt/mpt.go",G+"mpt/mpt_util.go"])
p("C48","Recomposition gadgets return the big-endian digits of the value",
 "Recompose32ByteToNibbles, RecomposeSDKByte32ToNibble, RecomposeSDKByte32To2Fr and Recompose6BytesToNibbles are satisfiable exactly when every limb fits its width and return the digits (nibbles, 128-bit halves) of the concatenated value, most significant first.",
 "every number of limbs and every limb value","all field elements",["common/utils/utils.go"])
p("C49","Host-side hash helpers commit to their whole input",
 "Two byte strings of the same length with equal GenerateBls12377Hash are equal unless their different group values have the same MiMC hash; CalculateAppVkHashFrom761To254 binds all 48 bytes; MiMCBlockPad0 keeps the value modulo the block size.",
 "every byte string and every hash function","all inputs",["common/utils/utils.go","common/utils/plonk_util.go"])
p("C50","Frobenius maps of the BLS12-381 target field are powers",
 "Frobenius, FrobeniusSquare, FrobeniusCube and Conjugate return the powers q, q^2, q^3 and q^6 of their argument in Fq12.",
 "every element of the target field","q^12 elements, 381-bit exponents",[G+"pairing_bls12381/tower.go: Frobenius, FrobeniusSquare, FrobeniusCube, Conjugate"])
p("C51","Cyclotomic squaring, compression and Expt are powers",
 "On every element of the cyclotomic subgroup CyclotomicSquare is the square, compressed squarings followed by DecompressKarabina give the same power, and ExptHalf/Expt are satisfiable and return the power by (half) the curve parameter.",
 "every element of the cyclotomic subgroup","a subgroup of about 2^1524 elements",[G+"pairing_bls12381/tower.go: CyclotomicSquare, CyclotomicSquareCompressed, DecompressKarabina, nSquare, ExptHalf, Expt"])
p("C52","FinalExponentiation maps Miller values to r-th roots of unity",
 "FinalExponentiation is satisfiable for every nonzero value, returns its power 3(q^12-1)/r, and the result is 1 exactly when the reduced pairing value is 1.",
 "every element of the target field","q^12 elements",[G+"pairing_bls12381/pairing.go: FinalExponentiation"])
p("C53","Pair computes the product of reduced ate pairings",
 "For equally long, nonempty lists of points of G1 and points of the order-r subgroup of the twist, Pair returns the (cube of the) product of the reduced ate pairings defined by Miller's algorithm along |x| = 0xd201000000010000 and the exponent (q^12-1)/r; it returns 1 exactly when that product is 1; a point at infinity contributes the factor 1.",
 "every list of points, every field element as G1 coordinate","the group orders are about 2^255",[G+"pairing_bls12381/pairing.go: DoubleStep, AddStep, MillerLoop, Pair"])
p("C54","G2 Jacobian arithmetic is the group law",
 "For every pair of points of the twist in Jacobian coordinates, G2JacobianDouble, G2JacobianNeg, G2JacobianAddAssign and G2JacobianSubAssign accept exactly representations of the double, opposite, sum and difference, including neutral and equal operands; G2JacobianConstScalarMul gives the multiple by |x|.",
 "every pair of points, every Jacobian representation, every choice of hint values by the prover","the group has about 2^762 points, and the zero tests depend on which representative the prover commits to",[G+"pairing_bls12381/g2.go: G2JacobianAddAssign, G2JacobianSubAssign, G2JacobianNeg, G2JacobianDouble, G2JacobianConstScalarMul",G+"pairing_bls12381/hash2curve.go: G1NotZero, E2NotZero, G1NotEqual, E2NotEqual"])
p("C55","G2 affine arithmetic is the group law away from its exceptional cases, where it is unsatisfiable",
 "For finite points P, Q of the twist: G2AddAssign/G2SubAssign return P+Q/P-Q and are unsatisfiable exactly if P = Q or P = -Q; G2Double returns 2P and is unsatisfiable exactly if 2P = 0; DoubleAndAdd returns 2P+Q and is unsatisfiable exactly if P = Q, P = -Q or 2P+Q = 0; whatever G2ConstScalarMul and G2ConstScalarMulV2 return is the multiple by |x|, and both accept every finite point of the subgroup of order r.",
 "every pair of finite points","the group has about 2^762 points",[G+"pairing_bls12381/g2.go: G2AddAssign, G2SubAssign, G2Double, DoubleAndAdd, G2Neg, G2ConstScalarMul, G2ConstScalarMulV2, G2Phi"])
p("C56","Clearing the cofactor is the map of RFC 9380",
 "G2Psi and G2JacobianPsi are the endomorphism psi of RFC 9380 G.3; ClearCofactor and G2ClearCofactor return clear_cofactor_bls12381_g2(P) for every point of the twist; the conversions between affine and Jacobian coordinates keep the point, including the one at infinity.",
 "every point of the twist and every choice of hint values by the prover","the group has about 2^762 points",[G+"pairing_bls12381/g2.go: G2JacobianPsi, G2Psi, G2JacobianPhi, G2ClearCofactor",G+"pairing_bls12381/hash2curve.go: ClearCofactor, GetG2JacFromG2Affine, GetG2AffineFromG2Jac, G2AffineNotInfinity"])
p("C57","The map to the isogenous curve is RFC 9380's simplified SWU",
 "For every u in Fq2, MapElementToCurve2(u) is satisfiable and returns exactly map_to_curve_simple_swu(u) of RFC 9380 for the suite BLS12381G2 (A' = 240 I, B' = 1012(1+I), Z = -(2+I)); G2SqrtRatio reports whether u/v is a square and returns a root of u/v or Z u/v; G2Sgn0 is sgn0.",
 "every u and every choice of hint values by the prover","q^2 elements, and the square test and the sign depend on representatives the prover commits to",[G+"pairing_bls12381/hash2curve.go: MapElementToCurve2, G2SqrtRatio, G2Sgn0, E2NotOne, G1NotEqualOne"])
p("C58","G2Isogeny is the 3-isogeny of RFC 9380 and lands on the twist",
 "On every point of the isogenous curve G2Isogeny is satisfiable and returns the point given by the rational maps of RFC 9380 E.3, which lies on y^2 = x^3 + 4(1+I); whatever it accepts, the output is on the twist exactly when the input is on the isogenous curve.",
 "every pair of coordinates","q^2 points, 13 constants in Montgomery form",[G+"pairing_bls12381/hash2curve.go: G2Isogeny, G2IsogenyXNumerator, G2IsogenyXDenominator, G2IsogenyYNumerator, G2IsogenyYDenominator, G2EvalPolynomial"])
p("C59","ExpandMsgXmd and HashToField are those of RFC 9380",
 "For every 32-byte message and every count, ExpandMsgXmd returns expand_message_xmd with SHA-256 and the tag BLS_SIG_BLS12381G2_XMD:SHA-256_SSWU_RO_POP_, and HashToField returns hash_to_field; a message entry that is not a byte makes the circuit unsatisfiable.",
 "every message, every count","2^256 messages, hash chaining over any number of blocks",[G+"pairing_bls12381/hash2curve.go: ExpandMsgXmd, GetUint64From8Bytes, HashToField"])
p("C60","HashToG2 and EncodeToG2 determine the point of RFC 9380",
 "For every 32-byte message HashToG2 and HashToG2OnJac accept exactly hash_to_curve(msg), EncodeToG2 and EncodeToG2OnJac exactly encode_to_curve(msg) (with the tag of the code).",
 "every message and every choice of hint values by the prover","2^256 messages; the prover chooses representatives",[G+"pairing_bls12381/hash2curve.go: ClearCofactor, HashToG2, HashToG2OnJac, EncodeToG2, EncodeToG2OnJac"])
p("C61","Ed25519.Verify accepts exactly the valid Ed25519 signatures",
 "Verify(originPubs, (R,S), msg, A) is satisfiable exactly when the signature (R,S) on the 122-byte message (five big-endian words of 25,25,25,25,22 bytes) is valid under the key string given by the two 128-bit words, in the sense of RFC 8032 section 5.1.7 (cofactored equation, SHA-512 challenge, canonical S and point encodings).",
 "every key, message, signature and every choice of hint values by the prover","All messages and points; the prover chooses coordinates, quotients and representatives.",[G+"ed25519/ed25519.go: Verify, bytes, copyFieldElement, recomposeMsg, recomposePbKey",G+"ed25519/point.go"])
p("C62","The host field element type computes in GF(2^255-19)",
 "For every element obtained from the field package by any sequence of calls, Bytes is the 32-byte little-endian canonical representative of the value the sequence denotes (Add, Subtract, Negate, Multiply, Square, Mult32, Invert, Pow22523, Absolute, Select, Swap, SetBytes), Equal answers equality of values, IsNegative its parity, SqrtRatio the non-negative root and whether u/v is a square; the limbs stay below 2^52, as the type documents; SetBytes accepts exactly 32 bytes and drops the top bit; Bytes then SetBytes is the identity.",
 "every sequence of calls, every input string","five 51-bit limbs with delayed carries: overflow and reduction errors hit a fraction of the 2^255 values too small to meet by chance",[G+"ed25519/test/field/fe.go: Element, Add, Subtract, Negate, Invert, Pow22523, SqrtRatio, SetBytes, Bytes, Equal, IsNegative, Absolute",G+"ed25519/test/field/fe_generic.go: feMulGeneric, feSquareGeneric, carryPropagateGeneric"])
p("C63","The host point type is the group of edwards25519 with the encoding of RFC 8032",
 "For every point obtained from the package by any sequence of calls, Add, Subtract and Negate do not panic and are the group operations, Equal answers equality of group elements, Bytes is the encoding of RFC 8032; SetBytes accepts exactly 32-byte strings whose low 255 bits are the y coordinate of a curve point and returns that point with the given sign; Bytes then SetBytes gives an equal point; a zero-valued Point panics; the affine coordinates handed to the circuit are those of the point.",
 "every sequence of calls, every input string","2^255 points and projective representations, exceptional cases of the addition law",[G+"ed25519/test/edwards25519.go: Point, SetBytes, Bytes, Add, Subtract, Negate, Equal, FromP1xP1, FromP2",G+"ed25519/point.go: NewEmulatedPoint"])
p("C64","The host scalar type computes modulo the group order L",
 "For every scalar obtained from the package by any sequence of calls, the bytes are the canonical 32-byte little-endian representative below L of the value the sequence denotes (Add, Subtract, Negate, Multiply, MultiplyAdd, the three setters); SetUniformBytes accepts exactly 64 bytes and reduces modulo L; SetCanonicalBytes accepts exactly the 32-byte strings below L; SetBytesWithClamping accepts 32 bytes and clamps then reduces.",
 "every sequence of calls, every input string","512-bit inputs, signed 21-bit limbs with delayed carries",[G+"ed25519/test/scalar.go: scMulAdd, scReduce, isReduced, SetUniformBytes, SetCanonicalBytes, SetBytesWithClamping, Add, Subtract, Negate, Multiply, MultiplyAdd, Equal"])
p("C65","The host scalar multiplications compute multiples",
 "ScalarBaseMult(x) = xB, ScalarMult(x,Q) = xQ and VarTimeDoubleScalarBaseMult(a,A,b) = aA+bB for every scalar and every point made by the API, including points of small order, without panicking; the three agree with each other; a scalar string with its top bit set panics.",
 "every scalar, every point","2^252 scalars; signed digits and look-up tables",[G+"ed25519/test/scalarmult.go: ScalarBaseMult, ScalarMult, VarTimeDoubleScalarBaseMult",G+"ed25519/test/tables.go: FromP3, SelectInto",G+"ed25519/test/scalar.go: signedRadix16, nonAdjacentForm"])
p("C66","The witness the host code builds from a signature satisfies the verifier circuit",
 "For every 32-byte key, 64-byte signature and 122-byte message: the host code of main.go/ed25519_test.go panics exactly when the key does not decode or S is not canonical; its byte comparison is the verification of the Go standard library; for every valid signature the assignment it builds is accepted by the circuit of C61, in particular for every signature made by RFC 8032 signing; a key string that is not an encoding of a point is never accepted.",
 "every key, signature and message","2^256 keys, all messages; two implementations of the curve and of byte orders have to agree",[G+"ed25519/main/main.go: main",G+"ed25519/ed25519_test.go: TestVerify",G+"ed25519/point.go: NewEmulatedPoint, PutBigEndian",G+"ed25519/ed25519.go: Verify"])
p("C67","The assembly routines compute exactly the limbs of the portable code",
 "For every machine state feMul and feSquare of fe_amd64.s run to their end, store at the result pointer exactly the limbs the portable routines compute from the limbs at the argument pointers, and write no other memory, also when the pointers coincide or overlap; carryPropagate of fe_arm64.s likewise.",
 "every machine state: register contents, memory, argument pointers","2^640 operand limbs; a dropped carry or a clobbered register shows on a vanishing fraction of them, and only on one architecture",[G+"ed25519/test/field/fe_amd64.s: feMul, feSquare",G+"ed25519/test/field/fe_arm64.s: carryPropagate",G+"ed25519/test/field/fe_generic.go: feMulGeneric, feSquareGeneric, carryPropagateGeneric"])
p("C68","Receivers and arguments of the host field and point methods may alias",
 "For every memory and all pointers, equal or not, every method of the field and point packages leaves in the receiver the result of the operation on the values the arguments had before the call, changes no other allocated object (in particular no argument and no package variable), and the methods that only look change nothing.",
 "every memory contents, every choice of receiver and argument pointers","fe_alias_test.go samples values and some pointer patterns; the claim ranges over all memories, all patterns and all methods",[G+"ed25519/test/field/fe.go: Add, Subtract, Negate, Invert, Set, SetBytes, Bytes, Equal, Select, Swap, IsNegative, Absolute, Multiply, Square, Mult32, Pow22523, SqrtRatio",G+"ed25519/test/edwards25519.go: Set, Bytes, SetBytes, Add, Subtract, Negate, Equal, FromExtended",G+"ed25519/test/scalarmult.go: ScalarBaseMult, ScalarMult, VarTimeDoubleScalarBaseMult"])
p("C69","Decoding a transaction leaf returns the transaction, and accepts only transaction leaves",
 "DecodeTxLeafRlp is satisfied exactly by the leaves of a transaction trie holding a type-2 (EIP-1559) signed transaction within the documented sizes, and returns its chain id, nonce, fees, gas limit, recipient, value (left-aligned nibbles with their lengths) and V, R, S as numbers, together with the envelope bytes.",
 "every transaction, path and padding; every 4352-cell input","transactions have twelve variable-length fields; wrong lengths, types or shapes show only on inputs nobody samples",[G+"rlp/rlp.go: DecodeTxLeafRlp, RlpNestArrayCheck, HexToDecimal, Hex64To2Fr"])
p("C70","An accepted account proof shows the account that the state trie stores",
 "CheckEthAccountProof accepts, for a state root and an address hash, exactly the accounts that the state trie stores under that hash, and returns the stored account's nonce, balance (with their lengths), storage root and code hash; an address the trie does not contain is never accepted as an account.",
 "every state trie, every address hash, every proof witness (node buffers, fragment starts, kinds, round indices, depth)","the witness is chosen by the prover: soundness is a statement about all witnesses, and tests only run honest proofs of a few accounts",[G+"mpt/eth_proof.go: CheckEthAccountProof",G+"mpt/mpt.go: CheckMPTInclusionFixedKeyLength",G+"rlp/rlp.go: RlpArrayCheck"])
p("C71","An accepted storage proof shows the slot value that the storage trie holds",
 "CheckEthStorageProof accepts, for a storage root and a slot hash, exactly the value that the storage trie stores under that hash (zero for an absent slot), and returns it split into its low 248 bits and its top byte.",
 "every storage trie, every slot hash, every claimed value, every proof witness (node buffers, fragment starts, kinds, round indices, depth)","the witness is chosen by the prover, and the absence rules for branches and extensions only go wrong on witnesses that an honest test never builds",[G+"mpt/eth_proof.go: CheckEthStorageProof",G+"mpt/mpt.go: CheckMPTInclusionFixedKeyLength",G+"mpt/mpt_util.go: CheckBranchForNonExistence, checkExtensionNodeNonExistence"])
p("C72","A block hash determines the reported header fields, and genuine headers are accepted",
 "CheckEthBlockHash reports the block hash of the given header and, whenever the reported hash is that of a genuine header, reports that header's state, transactions and receipts roots, number and timestamp; every genuine header within the documented field sizes is accepted.",
 "every header of 15 to 17 fields, every buffer, announced field count and round index","header lengths vary with every field, and acceptance depends on the length modulo the Keccak rate; a handful of fixture blocks cannot cover the residues",[G+"mpt/eth_proof.go: CheckEthBlockHash",G+"rlp/rlp.go: BlkHeaderRlpCheck",G+"keccak/keccak.go: Keccak256AsNibbles"])
p("C73","A storage proof against a block hash reports the slot value and number of that block",
 "CheckEthAddressStorageProof outputs 1 for a block hash, an account key and a slot key only if the account stored under the account key in the state of the block with this hash has, in its storage, the returned value under the slot key, and the returned number is the number of that block; for every stored slot of every genuine block such a proof exists.",
 "every block header, every state and storage trie, every account and slot key, every proof witness","three independently witnessed proofs are chained through roots; a forged link only shows on witnesses no honest test constructs",[G+"mpt/eth_proof.go: CheckEthAddressStorageProof, CheckEthBlockHash, CheckEthAccountProof, CheckEthStorageProof"])
p("C74","Inclusion of a leaf hash is accepted exactly for the hashes stored in the trie",
 "CheckMPTInclusionNoBranchTermination outputs 1 for a root hash, a key and a leaf hash only if the trie with that root refers to this leaf hash under the key, and outputs 1 for the honest proof of every such reference.",
 "every trie, key, leaf hash, depth and proof witness","the verdict is a sum of many flags compared with a bound; a wrong bound or flag polarity is only visible over all combinations of passing and failing checks",[G+"mpt/mpt.go: CheckMPTInclusionNoBranchTermination"])
p("C75","A stored key, witness or proof file is what was written, or the caller is told",
 "When a Write* function (proving key, verifying key, constraint system, witness, proof, public inputs, Solidity verifier) returns without error, reading the file gives back exactly the written object; whatever the moment of a crash or the failing system call, the file afterwards holds the old object, an error for the reader, or the new object; an object already stored is not lost by a failed write; concurrent calls do not disturb one another.",
 "every object and serialization, every number of concurrent calls, every schedule of their system calls, every crash point, every pattern of failing system calls","interleavings, crash points and disk failures are not under the control of a unit test",["common/utils/pk-vk-utils.go: WritePlonkProvingKey, WriteProvingKey, WriteVerifyingKey, WriteWitness, WriteCcs, WritePublicInputs, ReadProvingKey and the other Read*/Write* functions"])
p("C76","The recovered transaction sender is the signer of exactly this transaction",
 "For every legacy and EIP-1559 transaction, RecoverTransactionSignerAddress returns the address of the key that signed the payload prescribed by the EIPs, and PrepareUnsignedTransactionRlp produces that payload; two transactions that differ in any signed field have different payloads; transactions with a malformed recovery value, or of another type, are refused.",
 "every transaction (all field values, recipients, access lists, call data), chain id and signature","payload encoding and recovery-id arithmetic must be right for all field sizes and chain ids; collisions between payloads cannot be searched for",["common/proof/util.go: PrepareUnsignedTransactionRlp, RecoverTransactionSignerAddress"])
p("C77","Calldata is the selector followed by the packed arguments, and decoding undoes encoding",
 "In every history of calls, EncodeCalldata returns the four selector bytes of the method followed by the ABI-packed arguments; slices handed out earlier are not changed by later calls, and what callers do with them does not change later results; DecodeCalldata of a calldata returns the arguments it was built from.",
 "every ABI, every sequence of codec calls and of appends and overwrites by callers, every capacity chosen by the runtime","results share memory with the codec, so a corruption appears only in particular histories and with particular capacities",["common/utils/contract_codec.go: NewContractCodec, Selector, EncodeCalldata, DecodeCalldata"])
p("C78","The Merkle proof of a transaction or receipt is its path in the trie of the block",
 "GetTransactionProof and GetReceiptProof return, for every index present in the block, the nodes from the root to the leaf of that index, the trie key, and the part of the leaf in front of the value; for an index that is not in the block, or a list that does not match the root in the header, they report an error. GetReceiptRaw returns the encoding of the receipt.",
 "every block, every transaction or receipt trie, every index including negative and too large ones","the shape of the trie depends on all transactions of the block; absent indexes end anywhere in the trie",["common/proof/tx_merkel_proof.go: GetTransactionProof, GetReceiptProof, GetReceiptRaw"])
p("C79","The hash of an application's verifying key identifies the key",
 "CalculateAppVkHashFor761 (and its BN254 form) gives different hashes to different verifying keys, unless their different encodings have the same MiMC hash: every part of the key that the recursive verifier uses is covered, in an unambiguous encoding.",
 "every verifying key: all numbers of public inputs, coset shifts, KZG points, commitments, domain parameters and custom gates","an uncovered field or an ambiguous encoding only shows for pairs of keys no test constructs",["common/utils/plonk_util.go: CalculateAppVkHashFor761, CalculateAppVkHashFrom761To254"])
p("C80","The exported batch proof can be read back",
 "Splitting the string of GenerateBatchProofAndPublicInputs at the commas and reading the numbers gives the coordinates of the proof in the order of the verifier contract and the public inputs; different proofs or inputs have different exports; every valid proof can be exported.",
 "every Groth16 proof (any coordinates, any number of commitments) and all public input strings","coordinates with leading zero bytes, zero coordinates and separators inside inputs are not in fixtures",["common/proof/agg_exports.go: GenerateBatchProofAndPublicInputs","common/utils/groth16_util.go: ExportProof","common/utils/hex.go: Hex2BigInt"])
p("C81","Hashing a transaction leaf gives its Keccak-256 digest",
 "NibblesToU64ArrayFor{Normal,Max}TransactionLeafValue followed by Keccak256For{Normal,Max}TransactionAsNibbles returns the nibbles of the Keccak-256 digest of the message whose padding fills the blocks up to the round index, whatever lies behind; other round indexes, cells that are not nibbles and longer buffers are rejected; equal digests come from equal messages up to a collision.",
 "every message, every buffer and every round index","the buffer holds up to 13 blocks with arbitrary garbage behind the message; the selection by the round index must be right for all of them",[G+"keccak/periphery.go: NibblesToU64ArrayForNormalTransactionLeafValue, NibblesToU64ArrayForMaxTransactionLeafValue",G+"keccak/keccak256.go: Keccak256ForNormalTransaction, Keccak256ForMaxTransaction",G+"rlp/util.go: Keccak256ForNormalTransactionAsNibbles, Keccak256ForMaxTransactionAsNibbles"])
p("C82","The object store client returns what was stored, and lists everything stored",
 "After every history of requests, Download returns the last body uploaded under the key and an error when there is none; HeadObject tells which; ListObjects returns every stored key of the given kind and no other.",
 "every history of uploads and deletions by any number of clients, with any failing requests, any number of objects","a listing is paged by the service; the number of objects, foreign prefixes and lost responses depend on the history of the bucket",["common/s3api/client.go: Upload, Download, Delete, HeadObject, ListObjects","common/s3api/utils.go: ObjectKey","common/proof/types.go: S3_UPDATE_PREFIX, S3_ASSIGNMENT_SMT_PREFIX"])
p("C83","Conversions of numbers, times and lists lose nothing",
 "Str2BigInt, Str2Int and Str2Uint64 read every number of their result type back from its decimal form and do not accept anything else; TsMilli, TsMilliToTime and TsSecToTime denote the given moment; the initial chunk of GetStartBlockInfo begins at the start block; Contains tells membership, Partition gives each key the selected values in order, Convert2DimensionalByteArrayToString is injective.",
 "every string, integer, moment, chain, list, key set and predicate","overflow, sign and separator cases occur on all values outside the tested ranges",["common/utils/string.go: Str2BigInt, Str2Int, Str2Uint64","common/utils/time.go: TsMilli, TsMilliToTime, TsSecToTime","common/utils/const.go: GetStartBlockInfo","common/utils/utils.go: Contains, Partition, Convert2DimensionalByteArrayToString"])
p("C84","A Poseidon hasher returns the hash of the numbers written since its last Reset",
 "In every history of calls on any number of hashers, Sum returns the Poseidon hash of the values handed to Write on that hasher since it was made or last Reset, in order; other hashers, copies of a hasher and later changes of the caller's numbers do not matter.",
 "every history of New, Write, Reset, Sum, copies and changes of the caller's numbers, every hash function, every growth of the backing arrays","hashers hold pointers in slices that may share arrays; interference depends on the whole history and on the runtime's growth policy",["common/utils/poseidon_bn254.go: NewPoseidonBn254, Write, Reset, Sum"])
p("C85","The JSON records are read back as they were written",
 "Every record of common/proof/types.go that is marshalled to JSON and unmarshalled into a variable of its type comes back unchanged; different records have different JSON; members unknown to the reader are ignored.",
 "every value of each of the 24 record types, every earlier content of the variable, every set of additional members","records nest lists, pointers and optional fields; an omitted or misnamed field shows only for particular values and histories of the variable",["common/proof/types.go: ChunkUpdate, UpdateProof, ChunkProof, StorageProof, TransactionProof, ReceiptProof, SMTUpdateProof, SMTUpdateAssignmentData, SDKQueryProvingInfo, SubProveRequest and the other records"])
p("C86","Accessors hand over what the record holds; event texts determine the event",
 "OnChainProof, BeaconProof and GetProof hand the contract the record's proof; the hash accessors return the stored hash; GetSubProofS3Path names each sub-proof; the texts and log lines of request events exist for every event and determine chain, requests and nonces.",
 "every record, hash, list of sub-queries and event","all values and list lengths; swapped fields and collisions show only for particular values",["common/proof/types.go: OnChainProof, BeaconProof, GetProof, GetCommitment, GetPoseidonRoot, GetOldSmtRoot, GetNewSmtRoot, GetEndBlockHash, GetNextChunkMerkleRoot, GetCommitmentPub, GetSubProofS3Path","common/eth/evstr.go"])
p("C87","The sample SHA circuits prove knowledge of a preimage",
 "The sha256 and sha512 sample circuits accept a private input and a public result exactly when the input consists of bytes and the result is their digest; two different inputs accepted with one result are a collision.",
 "every private input, public result and sufficiently large field","all inputs of all lengths and all field values",[G+"sha256/main/main.go: sha256Circuit.Define",G+"sha512/main/main.go: sha512Circuit.Define"])
p("C88","The sample circuits around the pairing and the hash to the curve accept exactly the right values",
 "PairCircuit (main/main.go, pairing_test.go) accepts (P, Q, res) exactly if P is on the curve, Q in the subgroup and res is the value of the pairing; MillerLoopCircuit and FinalExponentiationCircuit likewise for their parts; the equality assertions of the target field hold exactly for equal elements; Bls12381Hash2CurveCircuit of main/main.go is satisfiable for the bytes of signingRoot, the point it compares with is encode_to_curve(signingRoot) of RFC 9380, and it rejects messages that are not bytes or encode to another point; the test circuits relate a message to EncodeToG2 and HashToG2.",
 "every G1 coordinate pair, every point of the subgroup, every result, every message and every choice of hint values by the prover","random points are tried; soundness concerns all of them and all assignments of a prover",[G+"pairing_bls12381/main/main.go: PairCircuit, Bls12381Hash2CurveCircuit, signingRoot",G+"pairing_bls12381/pairing_test.go: MillerLoopCircuit, FinalExponentiationCircuit, PairCircuit",G+"pairing_bls12381/hash2curve_test.go",G+"pairing_bls12381/tower.go: AssertIsEqual, AssertC0IsEqual"])
p("C89","The printed text of an update determines the update",
 "Two light-client updates, two tree updates, or two of their parts (header, execution payload, leaf with branch, proof, sync aggregate) that print the same text with String are equal in every field, including nil pointers, negative numbers and the lengths of all branches.",
 "every pair of updates, all branch lengths, all numbers and nil pointers","texts are built from unbounded lists and numbers without lengths; an ambiguity or a field left out shows only for particular pairs",["common/eth/string.go: String methods, b2s"])

p("C90","LeftShiftRlpArrayPrefix removes exactly the header of an RLP list",
 "LeftShiftRlpArrayPrefix is satisfiable exactly on nibble strings that begin with a list header within the announced limits; it then returns the payload moved to the front (the rest of the string follows, cyclically) and the announced payload length in nibbles. For every list of items whose encoding fits the buffer and whose header fits the limits, the circuit is satisfiable and the result begins with the concatenated items.",
 "every nibble array, every buffer size and header limit, every list of items and padding","The outcome must hold for every adversarial string and every parameter choice; a test fixes both.",[G+"rlp/rlp.go: LeftShiftRlpArrayPrefix"])

p("C91","Clearing the cofactor lands in the group of order r, and the points for which the circuits may fail are exactly known",
 "The twist has h2*r points over Fq2. Clearing the cofactor (RFC 9380 G.3, the formula the code follows) is, on every point, the multiplication by h_eff of RFC 9380 8.8.2; its image is exactly the group of order r, which is also the set of points on which psi is the multiplication by x; in particular both hash functions end there. For every point but the 13^2*23^2*2713*11953*262069 ones annihilated by the product of the small primes of the cofactor, both affine multiplications by |x| are satisfiable, whatever a prover can reach with the multiplications or with ClearCofactor/G2ClearCofactor is the right multiple, and G2ClearCofactor is unsatisfiable exactly where the result is the point at infinity.",
 "every point of the twist (about 2^762 of them), every representation and every prover","Membership of every cleared point in the prime-order subgroup needs the order of the curve; no sample of points decides it.",
 [G+"pairing_bls12381/g2.go: G2ClearCofactor, G2ConstScalarMul, G2ConstScalarMulV2, G2JacobianConstScalarMul",G+"pairing_bls12381/hash2curve.go: ClearCofactor, HashToG2, HashToG2OnJac, EncodeToG2, EncodeToG2OnJac"])

if __name__=="__main__":
    with open(os.path.join(os.path.dirname(__file__),"..","properties.jsonl"),"w") as f:
        for x in P: f.write(json.dumps(x,ensure_ascii=False)+"\n")
    print(len(P))
