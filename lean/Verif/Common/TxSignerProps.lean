import Verif.Common.TxSigner
import Verif.Common.QueryIdProps
import Verif.Rlp.Inject

/-! # Property theorem C76: the signer of a transaction

Specification: the signing payloads of EIP-155 (legacy transactions) and EIP-1559 (dynamic fee transactions). -/

namespace Verif.TxSigner
open Spec.Rlp QueryId

/-! ## Specification -/

/-- The fields that a signature covers. -/
inductive Unsigned where
  /-- EIP-155: `rlp([nonce, gasprice, startgas, to, value, data, chainid, 0, 0])`. -/
  | legacy (nonce gasPrice gas : ℕ) (dest : Option (List ℕ)) (value : ℕ) (data : List ℕ) (chainId : ℕ)
  /-- EIP-1559: `0x02 || rlp([chain_id, nonce, max_priority_fee_per_gas, max_fee_per_gas, gas_limit, destination, amount,
  data, access_list])`. -/
  | dynamicFee (chainId nonce tip feeCap gas : ℕ) (dest : Option (List ℕ)) (value : ℕ) (data : List ℕ)
      (accessList : List (List ℕ × List (List ℕ)))

/-- A number as an RLP string: big-endian without leading zeros. -/
def num (n : ℕ) : Item := .str (Nat.digits 256 n).reverse

/-- The RLP list that is signed. -/
def Unsigned.item : Unsigned → Item
  | .legacy nonce gasPrice gas dest value data c =>
    .list [num nonce, num gasPrice, num gas, .str (dest.getD []), num value, .str data, num c, num 0, num 0]
  | .dynamicFee c nonce tip feeCap gas dest value data al =>
    .list [num c, num nonce, num tip, num feeCap, num gas, .str (dest.getD []), num value, .str data,
      .list (al.map fun e => .list [.str e.1, .list (e.2.map .str)])]

/-- The bytes whose Keccak hash is signed. -/
def Unsigned.signingBytes : Unsigned → List ℕ
  | u@(.legacy ..) => u.item.encode
  | u@(.dynamicFee ..) => 2 :: u.item.encode

def Unsigned.dest : Unsigned → Option (List ℕ)
  | .legacy _ _ _ dest _ _ _ => dest
  | .dynamicFee _ _ _ _ _ dest _ _ _ => dest

/-- Byte strings consist of bytes, no payload reaches 2^64 bytes, an address has 20 bytes. -/
def Unsigned.Ok (u : Unsigned) : Prop := u.item.Ok ∧ ∀ a, u.dest = some a → a.length = 20

/-- A signed transaction with parity bit `y` and signature values `r`, `s` as it stands on chain: EIP-155 puts
`35 + 2·chainid + y` into `v`, EIP-1559 the bit itself. -/
def onChain (u : Unsigned) (r s y : ℕ) : Tx :=
  match u with
  | .legacy nonce gasPrice gas dest value data c =>
    { type := 0, nonce, gasPrice, gasTipCap := gasPrice, gasFeeCap := gasPrice, gas, dest, value, data, accessList := [],
      chainId := 0, v := 35 + 2 * c + y, r, s }
  | .dynamicFee c nonce tip feeCap gas dest value data al =>
    { type := 2, nonce, gasPrice := feeCap, gasTipCap := tip, gasFeeCap := feeCap, gas, dest, value, data, accessList := al,
      chainId := c, v := y, r, s }

/-- 32 bytes, big-endian. -/
def be32 (x : ℕ) : List ℕ := (List.range 32).map fun i => x / 256 ^ (31 - i) % 256

/-! ## Lemmas -/

theorem fill32_eq (x : ℕ) (h : x < 2 ^ 256) : fill32 x = some (be32 x) := by
  have hl : (natBytes x).length ≤ 32 := (natBytes_length x).2 h
  unfold fill32
  simp only [hl, if_true, Option.some.injEq]
  apply List.ext_getElem?
  intro i
  have hd : ∀ k, (Nat.digits 256 x).getD k 0 = x / 256 ^ k % 256 := fun k => by
    rw [Nat.getD_digits _ _ (by norm_num)]
  have hlen : (natBytes x).length = (Nat.digits 256 x).length := by simp [natBytes]
  by_cases hi : i < 32
  · rw [be32, List.getElem?_map, List.getElem?_range hi]
    simp only [Option.map_some]
    rcases Nat.lt_or_ge i (32 - (natBytes x).length) with h1 | h1
    · rw [List.getElem?_append_left (by simpa using h1), List.getElem?_replicate, if_pos h1, ← hd,
        List.getD_eq_getElem?_getD, List.getElem?_eq_none (by omega)]
      rfl
    · rw [List.getElem?_append_right (by simpa using h1), List.length_replicate]
      have h2 : i - (32 - (natBytes x).length) < (Nat.digits 256 x).length := by omega
      rw [hlen] at h2 ⊢
      rw [natBytes, List.getElem?_reverse h2, ← hd, List.getD_eq_getElem?_getD,
        show (Nat.digits 256 x).length - 1 - (i - (32 - (Nat.digits 256 x).length)) = 31 - i by omega,
        List.getElem?_eq_getElem (by omega)]
      rfl
  · rw [List.getElem?_eq_none (by simp; omega), List.getElem?_eq_none (by simp [be32]; omega)]

theorem be32_length (x : ℕ) : (be32 x).length = 32 := by simp [be32]

theorem derive_eip155 (c y : ℕ) (hy : y < 2) : deriveChainId (35 + 2 * c + y) = c := by
  unfold deriveChainId
  split
  · rw [if_neg (by omega), show 2 ^ 64 + (35 + 2 * c + y) - 35 = 2 * c + y + 2 ^ 64 by omega, Nat.add_mod_right]
    omega
  · omega

theorem encAccess_eq (al : List (List ℕ × List (List ℕ))) :
    encAccess al = (Item.list (al.map fun e => .list [.str e.1, .list (e.2.map .str)])).encode := by
  rw [encAccess, Item.encode_list, List.map_map]
  congr 1
  apply List.map_congr_left
  intro e _
  simp [Item.encode_list, Item.encode, Function.comp_def]

theorem num_encode (n : ℕ) : (num n).encode = encNum n := by rw [num, Item.encode]; rfl

theorem signing_eq (u : Unsigned) (r s y : ℕ) (hy : y < 2) :
    (prepareUnsigned (onChain u r s y)).map
      (fun e => (if (onChain u r s y).type = 0 then [] else [(onChain u r s y).type]) ++ e) = some u.signingBytes := by
  cases u with
  | legacy nonce gasPrice gas dest value data c =>
    simp [onChain, prepareUnsigned, Tx.chainID, derive_eip155 c y hy, Unsigned.signingBytes, Unsigned.item,
      Item.encode_list, num_encode, Item.encode, encTo]
  | dynamicFee c nonce tip feeCap gas dest value data al =>
    simp [onChain, prepareUnsigned, Tx.chainID, Unsigned.signingBytes, Unsigned.item,
      Item.encode_list, num_encode, Item.encode, encTo, encAccess_eq]

theorem recovery_eq (u : Unsigned) (r s y : ℕ) (hy : y < 2) : recoveryValue (onChain u r s y) = y := by
  cases u with
  | legacy nonce gasPrice gas dest value data c =>
    simp only [onChain, recoveryValue, Tx.chainID, if_true, derive_eip155 c y hy]
    omega
  | dynamicFee => simp [onChain, recoveryValue]

theorem onChain_rs (u : Unsigned) (r s y : ℕ) : (onChain u r s y).r = r ∧ (onChain u r s y).s = s := by
  cases u <;> exact ⟨rfl, rfl⟩

/-! ## The property -/

/-- C76. For every EIP-155 legacy and every EIP-1559 transaction, every chain id and every signature: the address is the one
recovered from the hash of the payload that the EIP prescribes and the 65-byte signature `r ‖ s ‖ y`. -/
theorem C76_recovers (keccak : List ℕ → List ℕ) (ecrecover : List ℕ → List ℕ → Option (List ℕ))
    (toAddr : List ℕ → Option (List ℕ)) (u : Unsigned) (r s y : ℕ) (hy : y < 2) (hr : r < 2 ^ 256) (hs : s < 2 ^ 256) :
    recoverSigner keccak ecrecover toAddr (onChain u r s y) =
      (ecrecover (keccak u.signingBytes) (be32 r ++ be32 s ++ [y])).bind toAddr := by
  obtain ⟨hr', hs'⟩ := onChain_rs u r s y
  have h1 := signing_eq u r s y hy
  have hsig : sigBytes (onChain u r s y) = some (be32 r ++ be32 s ++ [y]) := by
    have : (if y % 2 ^ 64 = 0 then [0] else natBytes y) = [y] := by
      rcases (show y = 0 ∨ y = 1 by omega) with rfl | rfl
      · rfl
      · norm_num [natBytes]
    simp only [sigBytes, hr', hs', fill32_eq r hr, fill32_eq s hs, recovery_eq u r s y hy, this, Option.bind_eq_bind,
      Option.bind_some, Option.pure_def]
  cases hp : prepareUnsigned (onChain u r s y) with
  | none => simp [hp] at h1
  | some e =>
    rw [hp, Option.map_some, Option.some.injEq] at h1
    simp only [recoverSigner, hp, hsig, Option.bind_eq_bind, Option.bind_some, h1]

/-- C76. So whoever signed is returned: `sign` is the signer's signing function, `pk` their public key, and recovering from one
of their signatures gives `pk`. -/
theorem C76_signer_returned (keccak : List ℕ → List ℕ) (ecrecover : List ℕ → List ℕ → Option (List ℕ))
    (toAddr : List ℕ → Option (List ℕ)) (sign : List ℕ → ℕ × ℕ × ℕ) (pk addr : List ℕ)
    (hsign : ∀ h, (sign h).1 < 2 ^ 256 ∧ (sign h).2.1 < 2 ^ 256 ∧ (sign h).2.2 < 2 ∧
      ecrecover h (be32 (sign h).1 ++ be32 (sign h).2.1 ++ [(sign h).2.2]) = some pk)
    (haddr : toAddr pk = some addr) (u : Unsigned) :
    let g := sign (keccak u.signingBytes)
    recoverSigner keccak ecrecover toAddr (onChain u g.1 g.2.1 g.2.2) = some addr := by
  intro g
  obtain ⟨h1, h2, h3, h4⟩ := hsign (keccak u.signingBytes)
  rw [C76_recovers _ _ _ _ _ _ _ h3 h1 h2, h4, Option.bind_some, haddr]

theorem num_inj {a b : ℕ} (h : num a = num b) : a = b := by
  simp only [num, Item.str.injEq, List.reverse_inj] at h
  exact Nat.digits_inj_iff.1 h

theorem to_inj {a b : Option (List ℕ)} (ha : ∀ x, a = some x → x.length = 20) (hb : ∀ x, b = some x → x.length = 20)
    (h : a.getD [] = b.getD []) : a = b := by
  cases a with
  | none =>
    cases b with
    | none => rfl
    | some y => have := hb y rfl; simp at h; subst h; simp at this
  | some x =>
    cases b with
    | none => have := ha x rfl; simp at h; subst h; simp at this
    | some y => simp at h; rw [h]

theorem str_inj : Function.Injective Item.str := fun a b h => by simpa using h

theorem access_inj {a b : List (List ℕ × List (List ℕ))}
    (h : a.map (fun e => Item.list [.str e.1, .list (e.2.map .str)]) =
      b.map (fun e => Item.list [.str e.1, .list (e.2.map .str)])) : a = b := by
  refine List.map_injective_iff.2 ?_ h
  rintro ⟨x, xs⟩ ⟨y, ys⟩ e
  simp only [Item.list.injEq, List.cons.injEq, Item.str.injEq, and_true] at e
  rw [e.1, List.map_injective_iff.2 str_inj e.2]

/-- C76. The signed bytes determine every signed field and the kind of transaction: no signature can be carried over to a
transaction that differs in any of them. -/
theorem C76_signing_bytes_binding (u u' : Unsigned) (hu : u.Ok) (hu' : u'.Ok)
    (h : u.signingBytes = u'.signingBytes) : u = u' := by
  cases u with
  | legacy a1 a2 a3 a4 a5 a6 a7 =>
    cases u' with
    | legacy b1 b2 b3 b4 b5 b6 b7 =>
      have hi := Item.encode_injective hu.1 hu'.1 h
      simp only [Unsigned.item, Item.list.injEq, List.cons.injEq, Item.str.injEq, and_true] at hi
      obtain ⟨h1, h2, h3, h4, h5, h6, h7⟩ := hi
      rw [num_inj h1, num_inj h2, num_inj h3, (to_inj hu.2 hu'.2 h4 : a4 = b4), num_inj h5, h6, num_inj h7]
    | dynamicFee b1 b2 b3 b4 b5 b6 b7 b8 b9 =>
      have ho := hu.1
      simp only [Unsigned.signingBytes, Unsigned.item] at h ho
      rw [Item.encode_list] at h
      obtain ⟨b, t, e1, e2⟩ := encodeList_head ((Item.ok_list _).1 ho).2 []
      rw [List.append_nil, h] at e1
      simp at e1; omega
  | dynamicFee a1 a2 a3 a4 a5 a6 a7 a8 a9 =>
    cases u' with
    | legacy b1 b2 b3 b4 b5 b6 b7 =>
      have ho := hu'.1
      simp only [Unsigned.signingBytes, Unsigned.item] at h ho
      rw [Item.encode_list (items := [num b1, _, _, _, _, _, _, _, _])] at h
      obtain ⟨b, t, e1, e2⟩ := encodeList_head ((Item.ok_list _).1 ho).2 []
      rw [List.append_nil, ← h] at e1
      simp at e1; omega
    | dynamicFee b1 b2 b3 b4 b5 b6 b7 b8 b9 =>
      simp only [Unsigned.signingBytes, List.cons.injEq, true_and] at h
      have hi := Item.encode_injective hu.1 hu'.1 h
      simp only [Unsigned.item, Item.list.injEq, List.cons.injEq, Item.str.injEq, and_true] at hi
      obtain ⟨h1, h2, h3, h4, h5, h6, h7, h8, h9⟩ := hi
      rw [num_inj h1, num_inj h2, num_inj h3, num_inj h4, num_inj h5, (to_inj hu.2 hu'.2 h6 : a6 = b6), num_inj h7, h8,
        access_inj h9]

/-- C76. Transactions of any other type are refused. -/
theorem C76_other_types_refused (keccak : List ℕ → List ℕ) (ecrecover : List ℕ → List ℕ → Option (List ℕ))
    (toAddr : List ℕ → Option (List ℕ)) (tx : Tx) (h0 : tx.type ≠ 0) (h2 : tx.type ≠ 2) :
    recoverSigner keccak ecrecover toAddr tx = none := by
  simp [recoverSigner, prepareUnsigned, h0, h2]

/-! ## Where the expected property fails -/

/-- C76, disagreement. Every legacy transaction without replay protection (`v` 27 or 28, valid on every Ethereum chain) is
refused, whatever its signature: the recovery id wraps around to a number of 8 bytes and `Ecrecover` gets 72 bytes. -/
theorem C76_unprotected_refused (keccak : List ℕ → List ℕ) (ecrecover : List ℕ → List ℕ → Option (List ℕ))
    (hlen : ∀ h sig, sig.length ≠ 65 → ecrecover h sig = none) (toAddr : List ℕ → Option (List ℕ)) (tx : Tx)
    (h0 : tx.type = 0) (hv : tx.v = 27 ∨ tx.v = 28) : recoverSigner keccak ecrecover toAddr tx = none := by
  have hrv : recoveryValue tx = 2 ^ 64 - 8 ∨ recoveryValue tx = 2 ^ 64 - 7 := by
    rcases hv with h | h <;> simp [recoveryValue, Tx.chainID, deriveChainId, h0, h]
  have hb : ∀ n, (n = 2 ^ 64 - 8 ∨ n = 2 ^ 64 - 7) → n % 2 ^ 64 ≠ 0 ∧ (natBytes n).length = 8 := by
    rintro n (rfl | rfl) <;> norm_num [natBytes]
  obtain ⟨hb1, hb2⟩ := hb _ hrv
  have hl : ∀ x y, fill32 x = some y → y.length = 32 := by
    intro x y h
    unfold fill32 at h
    dsimp only at h
    split at h
    · rename_i hx
      cases h; simp at hx ⊢; omega
    · cases h
  unfold recoverSigner
  cases hp : prepareUnsigned tx with
  | none => rfl
  | some e =>
    cases hr : fill32 tx.r with
    | none => simp [sigBytes, hr]
    | some a =>
      cases hs : fill32 tx.s with
      | none => simp [sigBytes, hr, hs]
      | some b =>
        have := hl _ _ hr
        have := hl _ _ hs
        simp only [sigBytes, hr, hs, Option.bind_eq_bind, Option.bind_some, Option.pure_def, if_neg hb1]
        rw [hlen _ _ (by simp only [List.length_append, hb2]; omega)]
        rfl

/-- C76, disagreement. A legacy transaction with a malformed `v` below 35 (not 27, 28) is not refused: it is treated as a
transaction for the chain `2^63 + (v - 35)/2`, with the parity bit read from `v`. -/
theorem C76_malformed_v_accepted (keccak : List ℕ → List ℕ) (ecrecover : List ℕ → List ℕ → Option (List ℕ))
    (toAddr : List ℕ → Option (List ℕ)) (nonce gasPrice gas : ℕ) (dest : Option (List ℕ)) (value : ℕ) (data : List ℕ)
    (r s v : ℕ) (hr : r < 2 ^ 256) (hs : s < 2 ^ 256) (hv : v < 35) (h27 : v ≠ 27) (h28 : v ≠ 28) :
    recoverSigner keccak ecrecover toAddr { onChain (.legacy nonce gasPrice gas dest value data 0) r s 0 with v := v } =
      (ecrecover (keccak (Unsigned.legacy nonce gasPrice gas dest value data ((2 ^ 64 + v - 35) / 2)).signingBytes)
        (be32 r ++ be32 s ++ [(v + 1) % 2])).bind toAddr := by
  have hd : deriveChainId v = (2 ^ 64 + v - 35) / 2 := by
    unfold deriveChainId
    rw [if_pos (by omega), if_neg (by omega)]
    omega
  have hrv : ∀ c, c = (2 ^ 64 + v - 35) / 2 →
      (v % 2 ^ 64 + 2 * 2 ^ 64 - 35 - (c % 2 ^ 64 * 2) % 2 ^ 64) % 2 ^ 64 = (v + 1) % 2 := by
    intro c hc; omega
  have hy : (if (v + 1) % 2 % 2 ^ 64 = 0 then [0] else natBytes ((v + 1) % 2)) = [(v + 1) % 2] := by
    rcases (show (v + 1) % 2 = 0 ∨ (v + 1) % 2 = 1 by omega) with h | h <;> rw [h]
    · rfl
    · norm_num [natBytes]
  generalize hc : (2 ^ 64 + v - 35) / 2 = c at *
  have hrv' := hrv c rfl
  simp only [recoverSigner, onChain, prepareUnsigned, if_true, Tx.chainID, hd, sigBytes, recoveryValue, fill32_eq r hr,
    fill32_eq s hs, Option.bind_eq_bind, Option.bind_some, Option.pure_def, hrv', hy, List.nil_append]
  simp [Unsigned.signingBytes, Unsigned.item, Item.encode_list, num_encode, Item.encode, encTo]

/-! ## Non-vacuity -/

/-- Mainnet transfer of the EIP-155 example; chain id 1. -/
def demo : Unsigned :=
  .legacy 9 (20 * 10 ^ 9) 21000 (some (List.replicate 20 0x35)) (10 ^ 18) [] 1

example : (onChain demo 5 6 0).v = 37 := rfl

example : demo.Ok := by
  refine ⟨?_, ?_⟩
  · simp only [demo, Unsigned.item, Item.ok_list]
    refine ⟨?_, ?_⟩
    · intro x hx
      simp only [List.mem_cons, List.not_mem_nil, or_false] at hx
      rcases hx with rfl | rfl | rfl | rfl | rfl | rfl | rfl | rfl | rfl <;>
        norm_num [num, Item.ok_str, List.replicate]
    · norm_num [num, Item.encode, encodeString, lenHeader, List.replicate]
  · rintro a h
    simp [demo, Unsigned.dest] at h
    rw [← h]; simp

/-- The EIP-155 example: the signing data of EIP-155. -/
example : demo.signingBytes = [0xec, 0x09, 0x85, 0x04, 0xa8, 0x17, 0xc8, 0x00, 0x82, 0x52, 0x08, 0x94, 0x35, 0x35, 0x35, 0x35,
    0x35, 0x35, 0x35, 0x35, 0x35, 0x35, 0x35, 0x35, 0x35, 0x35, 0x35, 0x35, 0x35, 0x35, 0x35, 0x35, 0x88, 0x0d, 0xe0,
    0xb6, 0xb3, 0xa7, 0x64, 0x00, 0x00, 0x80, 0x01, 0x80, 0x80] := by
  norm_num [demo, Unsigned.signingBytes, Unsigned.item, Item.encode_list, Item.encode, num, encodeList, encodeString,
    lenHeader, List.replicate]

end Verif.TxSigner
