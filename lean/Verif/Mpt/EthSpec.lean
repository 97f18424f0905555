import Verif.Mpt.Spec

/-! # Independent specification: Ethereum block headers and accounts (Yellow Paper, section 4)

Nothing here refers to the Go code. All byte strings are lists of numbers below 256. -/

namespace Verif.Spec.Eth
open Verif.Spec.Rlp Verif.Spec.Mpt

/-- A block header as the list of its fields, each a byte string, in the order of the Yellow Paper (4.3): parent hash,
ommers hash, beneficiary, state root, transactions root, receipts root, logs bloom, difficulty, number, gas limit, gas
used, timestamp, extra data, mix hash, nonce, and whatever later forks appended. -/
structure IsHeader (hd : List (List ℕ)) : Prop where
  count : 15 ≤ hd.length
  bytes : ∀ f ∈ hd, ∀ b ∈ f, b < 256
  widths : (hd.take 7).map List.length = [32, 32, 20, 32, 32, 32, 256]
  size : (hd.map encodeString).flatten.length < 2 ^ 64

/-- RLP of a block header. -/
def encodeHeader (hd : List (List ℕ)) : List ℕ := encodeList (hd.map encodeString)

/-- The block hash. -/
def blockHash (hd : List (List ℕ)) : List ℕ := keccakBytes (encodeHeader hd)

def stateRoot (hd : List (List ℕ)) : List ℕ := hd.getD 3 []
def transactionsRoot (hd : List (List ℕ)) : List ℕ := hd.getD 4 []
def receiptsRoot (hd : List (List ℕ)) : List ℕ := hd.getD 5 []
def number (hd : List (List ℕ)) : List ℕ := hd.getD 8 []
def timestamp (hd : List (List ℕ)) : List ℕ := hd.getD 11 []

/-- Least and greatest length in bytes of the 17 header fields, up to the Shanghai fork, as the checkers allow them. -/
def headerBounds : List (ℕ × ℕ) :=
  [(32, 32), (32, 32), (20, 20), (32, 32), (32, 32), (32, 32), (256, 256), (0, 7), (0, 8), (0, 4), (0, 4), (0, 4),
    (0, 1000), (32, 32), (8, 9), (0, 8), (32, 32)]

/-- Every field is within its bounds. -/
def Bounded (hd : List (List ℕ)) : Prop :=
  ∀ i < hd.length, (headerBounds.getD i (0, 0)).1 ≤ (hd.getD i []).length ∧
    (hd.getD i []).length ≤ (headerBounds.getD i (0, 0)).2

/-- Big-endian value of a byte string. -/
def beValue (bs : List ℕ) : ℕ := Nat.ofDigits 256 bs.reverse

/-- An account of the state trie (4.1): nonce and balance are big-endian byte strings. -/
structure Account where
  nonce : List ℕ
  balance : List ℕ
  storageRoot : List ℕ
  codeHash : List ℕ

/-- Field widths of an account: at most 256-bit nonce and balance, 32-byte hashes. -/
structure Account.Ok (a : Account) : Prop where
  nonce : a.nonce.length ≤ 32
  balance : a.balance.length ≤ 32
  storageRoot : a.storageRoot.length = 32
  codeHash : a.codeHash.length = 32
  bytes : ∀ f ∈ [a.nonce, a.balance, a.storageRoot, a.codeHash], ∀ b ∈ f, b < 256

/-- RLP of an account. -/
def Account.encode (a : Account) : List ℕ :=
  encodeList [encodeString a.nonce, encodeString a.balance, encodeString a.storageRoot, encodeString a.codeHash]

end Verif.Spec.Eth
