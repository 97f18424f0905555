import Verif.Rlp.Spec
import Verif.Keccak.Spec

/-! # Independent specification: Merkle-Patricia tries (Yellow Paper, appendices C and D)

Nothing here refers to the Go code. Keys are lists of nibbles, values are byte strings. -/

namespace Verif.Spec.Mpt
open Verif.Spec.Rlp Verif.Spec.Keccak

/-- Little-endian value of a bit string. -/
def leNum : List Bool → ℕ
  | [] => 0
  | b :: bs => b.toNat + 2 * leNum bs

/-- The 256 squeezed bits after absorbing all the 1088-bit blocks of `m` (no padding applied). -/
def squeeze (m : List Bool) : List Bool :=
  (List.range 256).map fun i => if h : i < 1600 then sponge m (m.length / 1088) ⟨i, h⟩ else false

/-- A digest as 32 bytes. -/
def digestBytes (d : List Bool) : List ℕ := (List.range 32).map fun k => leNum ((d.drop (8 * k)).take 8)

/-- Keccak-256 on bytes. -/
def keccakBytes (bs : List ℕ) : List ℕ := digestBytes (keccak256 (bytesToBits bs))

/-- Two nibbles per byte. -/
def packNibbles : List ℕ → List ℕ
  | a :: b :: t => (16 * a + b) :: packNibbles t
  | _ => []

/-- The bits absorbed for a row of nibbles `ns` at round index `r`: the first `r+1` blocks of the row extended by
zeros to ten blocks. -/
def supplied (ns : List ℕ) (r : ℕ) : List Bool :=
  (bytesToBits (packNibbles ns ++ List.replicate (1360 - ns.length / 2) 0)).take ((r + 1) * 1088)

/-- Two different block-aligned inputs that squeeze to the same 256 bits. -/
structure Collision (x y : List Bool) : Prop where
  lenx : x.length % 1088 = 0
  leny : y.length % 1088 = 0
  ne : x ≠ y
  eq : squeeze x = squeeze y

/-- Nibbles of the hex-prefix encoding, appendix C. -/
def hexPrefixNibbles (isLeaf : Bool) (path : List ℕ) : List ℕ :=
  let flag := if isLeaf then 2 else 0
  if path.length % 2 = 1 then (flag + 1) :: path else flag :: 0 :: path

/-- Hex-prefix encoding, appendix C. -/
def hexPrefix (isLeaf : Bool) (path : List ℕ) : List ℕ := packNibbles (hexPrefixNibbles isLeaf path)

/-- Payload nibbles of the `i`-th item of the list at the start of the stream. -/
def itemNibbles (S : ℕ → ℕ) (i : ℕ) : List ℕ :=
  (List.range (payLen S (itemOffset S i))).map fun j =>
    S (itemOffset S i + hdrLen (byteAt S (itemOffset S i)) + j)

/-- Tries without branch values (all keys have the same length in the Ethereum state and storage tries). -/
inductive Trie where
  | empty
  | leaf (path : List ℕ) (value : List ℕ)
  | ext (path : List ℕ) (child : Trie)
  | branch (children : Fin 16 → Trie)

/-- Reference to a node with the given encoding: inlined when shorter than 32 bytes, else its hash. -/
def refOf (enc : List ℕ) : List ℕ := if enc.length < 32 then enc else encodeString (keccakBytes enc)

/-- Node encoding, appendix D. -/
def Trie.encode : Trie → List ℕ
  | .empty => encodeString []
  | .leaf path v => encodeList [encodeString (hexPrefix true path), encodeString v]
  | .ext path c => encodeList [encodeString (hexPrefix false path), refOf c.encode]
  | .branch f => encodeList ((List.finRange 16).map (fun i => refOf (f i).encode) ++ [encodeString []])

/-- Root hash. -/
def Trie.root (t : Trie) : List ℕ := keccakBytes t.encode

/-- The value stored under a key. -/
def Trie.get : Trie → List ℕ → Option (List ℕ)
  | .empty, _ => none
  | .leaf path v, k => if k = path then some v else none
  | .ext path c, k => if k.take path.length = path then c.get (k.drop path.length) else none
  | .branch f, k => match k with
    | [] => none
    | n :: k' => if h : n < 16 then (f ⟨n, h⟩).get k' else none

/-- `u` is a node of `t`. -/
inductive Trie.Node : Trie → Trie → Prop
  | self (t : Trie) : Node t t
  | ext {path c u} : Node c u → Node (.ext path c) u
  | branch {f i u} : Node (f i) u → Node (.branch f) u

/-- A trie all of whose keys have exactly `n` nibbles, in which every reference is a hash (no node shorter than 32
bytes except possibly the root) and below an extension there is still a nibble to read (in Ethereum tries an
extension leads to a branch). -/
def Trie.Fixed : Trie → ℕ → Prop
  | .empty, _ => True
  | .leaf path v, n => path.length = n ∧ (∀ x ∈ path, x < 16) ∧ ∀ b ∈ v, b < 256
  | .ext path c, n => path.length < n ∧ (∀ x ∈ path, x < 16) ∧ c.Fixed (n - path.length) ∧ 32 ≤ c.encode.length
  | .branch f, n => 0 < n ∧ ∀ i, (f i).Fixed (n - 1) ∧ (f i = .empty ∨ 32 ≤ (f i).encode.length)

/-- Every leaf encoding is at most 400 bytes and leaves at least 15 bytes of Keccak padding in its last block. -/
def Trie.Roomy (t : Trie) : Prop :=
  ∀ path v, t.Node (.leaf path v) → (Trie.leaf path v).encode.length ≤ 400 ∧
    (Trie.leaf path v).encode.length % 136 ≤ 121

end Verif.Spec.Mpt
