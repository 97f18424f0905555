# Formal model of brevis-network/zk-utils in Lean 4

## 1. What is trusted

* Lean 4.33.0's kernel. Every property theorem may depend only on the axioms
  `propext`, `Classical.choice`, `Quot.sound` (Lean/Mathlib standard). No axioms are added,
  no compiled evaluation is used.
* The faithfulness of the hand translation from Go to Lean. Every definition cites file and lines.
* The contract of the external gnark API, written out in `Verif/Api.lean`:
  values of circuit variables are elements of `ZMod p`; `Add/Sub/Mul` are the ring operations;
  `IsZero`, `Cmp`, `AssertIsLessOrEqual` act on canonical representatives; `ToBinary(x,n)` is
  satisfiable iff `x < 2^n` and then has exactly one solution, the little-endian bits (for
  `n` = the field's bit length, gnark adds the canonicity check); `FromBinary`, `And`, `Or`, `Xor`,
  `Select` assert that their selector/bit arguments are boolean; `selector.Mux` is unsatisfiable for an
  out-of-range selector; `Lookup2` as documented. A hint (`NewHint`) is NOT trusted:
  its outputs are an explicit argument of the model chosen by the adversary.
* External hash permutations/primitives (native MiMC, Poseidon) are parameters: theorems hold for every function,
  and binding theorems name the two colliding inputs (nodes at a stated place of the two trees, or the hash inputs
  of the two calls): an unnamed collision exists for every hash into a smaller set and would say nothing. The gnark fork's `keccakf.PermuteOld` is assumed to be
  Keccak-f[1600] on 64-bit words (C22 word-level only; the repo's own bit-level permutation is modelled and proved).
* Other external contracts, each written where it is used:
  `ToBinary(x, n)` for `n` up to the field's bit length; `emulated.Field` operations are exact in `ZMod q` and
  `NewElement` range-checks its limbs (`Verif/Emu`, `Verif/Mimc`); gnark-crypto's `mimc.Write` refuses non-canonical
  32-byte blocks (`Verif/Common/Compose.lean`, `Verif/Fabric/Model.lean`); `encoding/hex`, `hexutil.Decode`,
  `BytesToHash`/`BytesToAddress`, `big.Int` methods, `%d` formatting (`Verif/Common/*`); go-ethereum's RLP encoder on
  headers = the RLP specification (`Verif/Fabric/Model.lean`); emulated `Reduce` returns some 381-bit representative chosen by
  the prover (`Verif/Bls/G2.lean`), and the fork's `GetRawLimbsBy8Uint64` the value of eight 64-bit limbs (`Verif/Bls/H2F.lean`); emulated `Div(a,b)` is a hint `e` with the constraint `e·b = a`, a witness element is range-checked to
  the bit length of its modulus but not below it, and the fork's `FromBitsOverflow` followed by `Reduce` gives some representative of bit length 253 (`Verif/Ed/Model.lean`); `encoding/json` and `float64` rounding as arguments
  (`Verif/Common/Client.lean`); Go 64-bit integers wrap (`toInt64`).
* Slices have value semantics: aliasing through `append` into spare capacity is not modelled.

## 2. How circuits and Go functions are modelled

* A circuit gadget is a function into `Option`: `none` means the constraints are
  unsatisfiable *or* the Go code panics while defining the circuit; `some out` means that
  the constraints have a witness and that `out` is the only possible value of the outputs
  (all gnark operations used are functional; the one gadget with a free hint,
  `limbs.Split`, takes the hint's output as an argument).
* Thus `gadget in = some out` speaks both of soundness and completeness.
* Field: `ZMod p`, `p` any prime; numeric bounds (e.g. `2^64 < p`) are explicit hypotheses.
* Slices are lists; out-of-range indexing is `none`.
* Model files: `Verif/<Area>/Model.lean`; small independent specifications: `Verif/<Area>/Spec.lean`
  (or a section at the top of the property file); property theorems: `Verif/<Area>/Props.lean`; helper lemmas: `Lemmas.lean`.

## 3. Properties, and how each is proved

| id | modelled | proof idea |
|----|----------|-----------|
| C01, C02 | `mux.Multiplex`, `rlp.Multiplexer` | induction on the number of rows; a sum of indicator functions |
| C03–C05 | barrel shifters | induction on the number of bits: after `k` stages rotated by `shift mod 2^k` |
| C06, C07 | comparisons | prefix-sum of matches equals length iff all match; needs `maxLen < p` |
| C08, C09 | RLP prefix gadgets | finite table over 256 prefixes lifted to field values by case split |
| C10 | `HexToDecimal`, `Hex64To2Fr` | fold invariant; lengths 63 and above 64 in Rlp/HexFr |
| C11–C14 | RLP list gadgets | loop invariant relating the shifted array to the rest of the input; spec is a nibble-level RLP parser |
| C15–C18 | MPT gadgets | per-node spec over the decoded RLP; inclusion by induction on depth; hash as parameter, collisions exhibited |
| C47 | honest MPT proofs | an honest prover `proofOf` built from the path; every layer, padding layer and the last node run to verdict 4 |
| C19 | Keccak-f gadget | step-by-step refinement to the FIPS 202 lane formulas |
| C20–C22 | padding, sponge | list arithmetic; fold over blocks |
| C23, C32, C33 | Merkle gadgets | induction on the path; collision extraction |
| C24–C26 | SHA-2 | refinement of the streaming state machine to the one-shot FIPS 180-4 function; induction over the operation history |
| C27, C28 | Edwards curve (`Ec/Edwards`, group law of complete twisted Edwards curves) | polynomial identities, completeness of the addition law; double-and-add and window invariants |
| C29–C31 | limbs | weighted sums; for Split non-uniqueness a concrete witness |
| C34, C35 | bit/byte/nibble conversions, group flips | list arithmetic |
| C36 | hex.go | character table, round trips by induction on the string; `Pad*Bytes` |
| C37 | compose.go, binary.go | little-endian sums; packing is injective per length |
| C38 | query_id.go | bit string of a query as concatenation of fixed-width fields; widths are recovered from the number of chunks; collision extracted otherwise |
| C39 | ChunkProof.EncodeABI | 18 words of 32 bytes, values recovered word by word |
| C48 | recomposition gadgets in utils.go | regrouping of bit strings, `ToBinary` satisfiable iff in range |
| C49 | GenerateBls12377Hash, MiMCBlockPad0, CalculateAppVkHashFrom761To254 | per-group canonicity; collision witness for the ignored error |
| C40 | index RLP gadget | case split on the size of the index, agreement with RLP spec |
| C41 | emulated elements | limb recomposition |
| C42 | tower arithmetic | polynomial identities by `ring` over an arbitrary commutative ring |
| C43 | fabric/smt/utils.go | length bounds of the RLP specification; Keccak row theorem; Merkle collision extraction |
| C44 | eth client | case analysis over all replies |
| C45 | ObjectKey | unique last slash, decimal digits injective |
| C46 | emulated MiMC hasher | invariant over the history of calls |
| C50 | Frobenius maps of Fq12 | the ring homomorphism `x ↦ x^q` in characteristic `q`; the constants of the table are powers of `ξ`, checked by the kernel |
| C51 | cyclotomic arithmetic, Expt | coordinate equations of `x^(q⁴-q²+1)=1`, Karabina formulas by `ring`, induction on the number of squarings |
| C52 | FinalExponentiation | bookkeeping of exponents in the unit group; `q¹²-1` divisible by `r`; Lucas certificates that `q`, `r` are prime |
| C53 | DoubleStep, AddStep, MillerLoop, Pair | loop invariant: the projective points are m·Q in Mathlib's point group of the twist and the accumulator is Miller's function up to factors fixed (up to sign) by the power q⁶, which the final exponentiation kills; vertical lines are such factors because ξ is neither a square nor a cube |
| C54 | G2 Jacobian add, double, neg, const scalar mul; the zero/equality flags | flags as relations over the 381-bit representatives a prover may commit to; add = relation, all outcomes enumerated against Mathlib's group law; loop invariant for |x| |
| C55 | G2 affine add, sub, double, double-and-add, both const scalar muls | slopes as quotients, `none` iff the divisor vanishes; loop invariants (signed digits: the φ part stays 1 and is removed at the end) |
| C56 | ψ, φ, ClearCofactor (Jacobian and affine), coordinate conversions | ψ = Frobenius twisted by 1/ξ^((q-1)/3), 1/ξ^((q-1)/2), additive (Ec/Endo); RFC 9380 G.3 steps written out as the specification |
| C57 | G2SqrtRatio, G2Sgn0, MapElementToCurve2 | flags as relations over representatives; exponentiation chain evaluated to one exponent; eighth roots of unity; RFC written out as specification, proved total and single-valued; Z is no square (5 is none in the base field), so the only exceptional u is 0 (PropsExc) |
| C58 | G2Isogeny and its four polynomials | constants converted from Montgomery form by the kernel; curve identity by `field_simp`/`ring`; kernel and 2-torsion irrational by kernel-checked powers |
| C59 | ExpandMsgXmd, GetUint64From8Bytes, HashToField | C24 for every SHA-256 call; loop invariant over the output prefix; induction on limbs |
| C60 | HashToG2(OnJac), EncodeToG2(OnJac) | composition of C54–C59; reachability as an iff in PropsExc; Bls/HashVec: a concrete message evaluated in the specification by the kernel, which meets the hypotheses and has two accepted hashes; Bls/Forge: outcomes of the circuits computed by functions, with one forged test, evaluated by the kernel to an accepted output off the curve |
| C61 | Ed25519 `Verify` with its byte conversions; SHA-512 of C25 | byte-string lemmas, C25, C28; order of the curve from a bound by encodings and points of order L and 8 |
| C62 | host field arithmetic, limb by limb with 64/128-bit wrap-around | limb invariant below 2^51 + 2^13·19 kept by every operation, so nothing wraps; value modulo p by `omega`/`ring` |
| C63 | host points (extended, P2, P1xP1, cached), SetBytes, Bytes | coordinates represent a point of the complete Edwards curve of C27; square roots by the (p-5)/8 power |
| C64 | host scalars: scMulAdd, scReduce with signed 21-bit limbs | a limb invariant per carry stage; integer value congruent modulo L and finally below L |
| C65 | host scalar multiplications, radix 16 and NAF digits, tables | digit expansions proved to have the right value; loop invariants in the group |
| C66 | main.go / ed25519_test.go from key, signature and message to the assignment | composition of C61–C65, byte order lemmas |
| C67 | machine model of the amd64 and arm64 instructions used, programs generated from the .s files (`tools/asm2lean.py`) | symbolic execution instruction by instruction, result compared with the portable limbs |
| C68 | heap of elements, every Go assignment a write in source order, fresh cells for locals | each method equals one update of the heap; frames of locals tracked as lists, updates composed |
| C69 | both layers of `DecodeTxLeafRlp` over the nested list checker, leaves built by the RLP encoder | `nest_run` (satisfiability, verdict and outputs on header ++ items with any announced length), then composition of the two layers |
| C70 | `CheckEthAccountProof` = list checker on the value buffer times the inclusion verdict; accounts by `Spec.Eth.Account` | local form of the list checker (only the header cells need be nibbles), `C18_inclusion_sound`, `C47_inclusion_complete`, `C18_depth_one_forgery` |
| C71 | `CheckEthStorageProof` = inclusion verdict with the storage override, and the slot decoder on the value buffer | complete description of the override, `Sound` walk; forgeries by running the checker on real branch and extension rows |
| C72 | `CheckEthBlockHash` = header list checker plus Keccak of the same buffer; headers by `Spec.Eth.IsHeader` | injectivity of padding up to an explicit collision, reading of the 17 fields; exact verdict on honest buffers |
| C73 | `CheckEthAddressStorageProof` = block hash, account and storage gadgets chained; block number recomposed from 8 nibbles | decomposition into the three gadgets, then C70/C71/C72; the forgery is a real run of the model on a constructed account |
| C74 | `CheckMPTInclusionNoBranchTermination` over the same layer loop (keys of six nibbles, inverted fragment rule, bound 4·depth+1) | `finish_eq`, general fragment lemma; real runs on zero rows and on an honest branch row |
| C75 | a disk (path to content) and processes that make one system call at a time (`os.Create`, then one `Write` per serializer chunk), each of which may fail; a crash is the end of a schedule. Serializers of gnark are parameters with a round-trip hypothesis | invariant of one process under arbitrary steps of the others, by induction on the schedule |
| C76 | `PrepareUnsignedTransactionRlp` and `RecoverTransactionSignerAddress` over go-ethereum's transaction getters; Keccak, `Ecrecover` and the address map are parameters | payload equals the RLP of the EIPs; injectivity of RLP on item trees (`Rlp/Inject.lean`) |
| C77 | `ContractCodec` over a heap of byte arrays with Go's `append`; callers may append to and overwrite slices they were given; `Pack`/`Unpack` are parameters | ownership invariant (array i+1 begins with the selector of method i) by induction on the history |
| C78 | `GetTransactionProof`, `GetReceiptProof`, `GetReceiptRaw` over `Spec.Mpt.Trie`; `trie.Prove` and `rlp.DecodeBytes` by their documentation | induction on the trie, `Rlp/Inject.lean` for the decoder |
| C79 | `CalculateAppVkHashFor761`: 48-byte blocks, gnark-crypto's `Write` cutting at the first refused block; MiMC is a parameter | chunking lemma, list injectivity; with C49 for the BN254 form |
| C80 | `ExportProof`, `GenerateBatchProofAndPublicInputs` on byte strings | splitting lemma for comma-terminated fields, hex round trip of C36 |
| C81 | the transaction-leaf hash gadgets as the general gadget with 13 rounds | generalisation of the node-hash lemma of the MPT to any number of rounds |
| C82 | the S3 client over a bucket with atomic requests that may fail before or after being carried out | induction on the history; counting for the truncated listing |
| C83 | string, time, start-block and list helpers of common/utils | arithmetic, induction |
| C84 | the Poseidon hasher over a heap of arrays and numbers | invariant: hashers own their arrays, refinement to lists of values |
| C85 | the record types of common/proof/types.go with their JSON tags, encoding/json on trees | induction over record types |
| C86 | accessors of common/proof/types.go, event texts of common/eth/evstr.go | hex lemmas of C36, unique parsing |
| C87 | Define of the sha256 and sha512 sample circuits | corollary of C24, C25 |
| C88 | sample circuits of pairing_bls12381 (main/main.go, *_test.go), AssertIsEqual | corollaries of C52, C53, C60; the test vector evaluated in the specification by the kernel |
| C89 | String methods of common/eth/string.go | unique parsing: each part is recognised by its length or by the first character behind it |
| C90 | `LeftShiftRlpArrayPrefix` (rlp/rlp.go) | exact satisfiability and value from C17/C16 lemmas for shifter and header, then completeness over the RLP encoder; disagreement at limits 2 and 6 |
| C91 | order of the twist, clearing the cofactor (pairing_bls12381/g2.go, hash2curve.go) | points of each prime order dividing h2 (found outside, checked by the kernel with the verified double-and-add), Pratt certificate of the 448-bit factor of h2, at most two points per x, no point of order two: the order is h2·r; homomorphisms that agree on these points agree everywhere; exceptional hypotheses of C54-C56 and C60 reduced to one multiple |

Known answers (`Keccak/Vectors`, `Sha/Vectors`, `Ed/Vectors`, `EdHost/Vectors`, `Mpt/Mainnet`, `Bls/Sample`): the specifications the claims refer to are
evaluated by the kernel on published vectors (Keccak-256 of the project's test data, FIPS 180-4, RFC 8032 7.1, a mainnet block header, RFC 9380), so a wrong
specification would be noticed. They are tests of the specifications, not proofs of claims.

## 4. Modules

`Api, Bits, Util` (gnark API, bit strings); `Mux*`, `Slices*` (C01–C07); `Rlp/*` (C08–C14); `Mpt/*` (C15–C18, C47); `Mpt/Eth*` (C70–C73);
`Keccak/*` (C19–C23); `Sha/*` (C24–C26); `Limbs/*` (C29–C31); `Mimc/*` (C32, C33, C46); `Conv/*` (C34); `Emu/*` (C41);
`Rlp/{NestComplete,TxLeaf*}` (C69); `Index/*` (C40); `Primes` (Lucas certificates); `Ec/Short` (group law of y² = x³ + b in affine, Jacobian and homogeneous coordinates, from Mathlib's `WeierstrassCurve.Affine.Point`); `Ec/Endo` (curve endomorphisms); `Bls/Cof*, Bls/PropsCof*` (order of the twist, C91); `Bls/NegAffine`; `Rlp/LeftShift` (C90); `Bls/*` (C42, C50–C60); `Ed/*` (C27, C28, C61); `EdHost/*` (C62–C68); `Common/{Hex,Compose,Recomp,Hash,QueryId,Abi,Client}*` (C35–C39, C44, C48, C49); `Fabric/*` (C43, C45).
Each `Model` file contains only definitions citing /repo; `Spec` files (or a "Specification" section) are independent of
the model; theorems named `Cnn_*` are the claims.

## 5. Not modelled

Generated ABI bindings (`common/eth/bindings.go`, `common/bsc/bindings.go`), network I/O except the object store client (C82) and the RPC replies of C44, disk I/O except the key files (C75), mock objects, benchmarks and `main` programs (except the witness construction of ed25519/main, C66),
test vectors, gnark internals, performance.

The host library `ed25519/test`: the assembly versions `fe_amd64.s`, `fe_arm64.s` are modelled as programs of a small machine (C67); the freedom of aliasing receiver and arguments, which the value models presuppose, is C68; `sync.Once` tables are values; `subtle.*` by its specification.

## 6. Disagreements between code and property, all proved as theorems

1. `Pad101Bits`, `PadBits101`, `GetRoundIndex`: wrong padding for byte lengths 135 mod 136 (C21).
2. RLP gadgets: an item 0xc0 breaks the length check (C09, C13, C14); non-canonical headers accepted (C11); buffer sizes
   112..127 rejected (C12); trailing items (C14); `HexToDecimal` clamp and `Hex64To2Fr` at 63 (C10).
3. `KeccakMerkleRoot` of one leaf is the leaf (C23).
4. MPT: depth-one proofs are forgeable; absence proofs do not bind the first fragment start (C18); the padding used in
   the tests is rejected (C47).
5. `limbs.Split`/`LrotMerge` are not constrained (C30, C31); `Resplit` wraps (C29).
6. `Bits2Nibbles` panics on every non-empty input (C34).
7. `FromElement` does not bind its output (C41); emulated MiMC `Sum` twice (C46).
8. `BitsToFrBigInt` keeps a value equal to the modulus; `ParseBytes32` loses bits when split above 253; `DecomposeBits`
   accepts negative numbers as two's complement (C37), so a query with fee −k has the identifier of 2^128−k (C38).
9. A receipt query with block time 0 can share its identifier with a transaction query (C38).
10. `EncodeABI` encodes block numbers from 2^63 on as their complement and drops the commitments (C39).
11. `GenerateBls12377Hash` ignores refused groups: collisions for every hash (C49).
12. `EncodeHeaders` does not bound the extra data: rows longer than five blocks are returned (C43).
13. `GetSlot`/`GetBlock` panic on replies without `data` and never compare the reply with the request (C44).
14. `Hex2Bytes` silently truncates at the first invalid pair (C36).
15. `FrobeniusCube` repeats `Frobenius` (C50); `Expt` and `FinalExponentiation` are unsatisfiable when a decompressed power has a
    zero `w` coordinate, in particular on 1 and on the subfield Fq6 (C51, C52); hence `Pair` is unsatisfiable on a point at infinity and on
    the trivially true product e(P,Q)·e(-P,Q) (C53).
16. Zero and equality flags of BLS12-381 work on non-canonical representatives, so `G2JacobianAddAssign` can return the neutral element for
    O+Q and P+P (C54), and `GetG2JacFromG2Affine(0,0)` a triple off the curve (C56).
17. `G2SqrtRatio`: the square flag can be forged, so `MapElementToCurve2` can return a pair off the curve, and nothing later checks it;
    `G2Sgn0` ignores the second coordinate and its answer can be flipped, so hashes are not unique; `u = 0` is rejected (C57, C60).
18. Ed25519 `Verify` does not check that `R` is on the curve: `R = (0,0)` with any `S` is accepted for every key and message, because the
    doubling of `(0,0)` divides zero by zero; `S` and `S + L` are both accepted; coordinates need not be canonical (C61).
    `DoubleBaseScalarMul` cuts the second scalar to the bit length of the circuit field (C28).
19. The documented limb bound 2^52 of the host field type does not suffice for `Subtract`; the API keeps a smaller one (C62). Host `SetBytes` is laxer
    than RFC 8032 (C63).
20. `DecodeTxLeafRlp` never looks at the type byte and, for the usual empty access list, not at the announced length; recipients of 21 to 31
    bytes are truncated; transactions with a non-empty access list or with call data `00` cannot be decoded (C69).
21. Genuine block headers with 15 or 16 fields whose RLP length is 135 modulo 136 are rejected by `CheckEthBlockHash`, because the Keccak
    padding byte 0x81 is taken for the header of an absent field (C72_header_rejected).
22. A depth-one proof shows any account at all (C70_depth_one_forgery, consequence of C18_depth_one_forgery).
23. `CheckEthStorageProof` accepts every value for every slot whose key runs into an extension node (the absence test compares the rest of the
    whole key with the extension's path) or into a missing child of an inner branch: in these cases the claimed value is not required to be
    zero (C71_extension_forgery, C71_branch_forgery).
24. `CheckEthAddressStorageProof`: with a depth-one account proof every value can be shown for every slot of every address in every block
    whose state trie has a branch as its root (C73_universal_forgery); genesis-like headers with an empty number and numbers above four
    bytes are unsatisfiable (C73_number_range).
25. `CheckMPTInclusionNoBranchTermination` compares a sum whose maximum is 4·depth+2 with 4·depth+1: complete proofs are rejected, and every
    claim has an accepted proof with all-zero nodes (C74); the fragment rule is also inverted with respect to the kinds. Not called.
26. Key files are truncated before they are written, so a failed write loses the stored key; `WritePlonkProvingKey` has no result and goes on
    after a failing `os.Create`; two writers of one path can leave a mixture (C75).
27. `RecoverTransactionSignerAddress` refuses every unprotected legacy transaction (v = 27, 28) and accepts malformed v below 35 (C76).
28. `Selector` (and `EncodeCalldata` of a method without arguments) hands out the codec's own memory; `DecodeCalldata` expects bytes without the
    selector although it is named the inverse of `EncodeCalldata` (C77).
29. `GetTransactionProof`/`GetReceiptProof` do not check that the index is in the block (C78).
30. The application key hash does not cover domain size, generator and custom-gate commitments of the verifying key (C79_rest_not_bound).
31. `ExportProof` needs a commitment and drops all but the first; the export does not escape commas (C80).
32. `ListObjects` ignores `IsTruncated`: at most 1000 keys; prefixes without a closing slash match foreign kinds (C82).
33. `Str2Uint64` reads the upper half of the range as 2^63-1 and accepts negative and invalid strings; time stamps wrap (C83).
34. The Poseidon hasher keeps the caller's pointers; struct copies share the array (C84).
35. JSON records: `omitempty` fields keep old values in used variables; `TransactionProof` uses `StorageProof`'s member name (C85).
36. On-chain proofs drop the proof of knowledge; sub-proof paths of a receipt and a transaction coincide; event text panics without nonces (C86).
37. PairCircuit accepts a first point that is not on the curve and rejects points at infinity; AssertC0IsEqual ignores the second half (C88).
38. `LeftShiftRlpArrayPrefix` shifts by the whole header (up to 2 + limit nibbles) with a shifter whose bits are those of the limit: with limits 2 and 6 the
    longest headers are refused (C90_limit).
39. `Hex64To2Fr` on 63 nibbles splits the number at 244 bits instead of 248 (C10).
