import Verif.Ed.Props

/-! # RFC 8032, section 7.1: the specification `RfcValid` accepts the published signatures

Known answers for the specification of Ed25519 that C61 and C66 are stated against, evaluated by the kernel. -/

namespace Verif.Ed
open Verif.Ec

theorem rep_eq {t u : ℕ × ℕ × ℕ} {Q R : Pt25519} (ht : Rep t Q) (hu : Rep u R)
    (hx : t.1 * u.2.2 % P = u.1 * t.2.2 % P) (hy : t.2.1 * u.2.2 % P = u.2.1 * t.2.2 % P) : Q = R := by
  obtain ⟨hz, htx, hty⟩ := ht
  obtain ⟨hw, hux, huy⟩ := hu
  have a := cast_mod_eq hx
  have b := cast_mod_eq hy
  push_cast at a b
  rw [htx, hux] at a
  rw [hty, huy] at b
  have hn := mul_ne_zero hz hw
  apply EdPt.ext
  · apply mul_right_cancel₀ hn
    linear_combination a
  · apply mul_right_cancel₀ hn
    linear_combination b

theorem rep_ne {t u : ℕ × ℕ × ℕ} {Q R : Pt25519} (ht : Rep t Q) (hu : Rep u R)
    (hy : t.2.1 * u.2.2 % P ≠ u.2.1 * t.2.2 % P) : Q ≠ R := by
  rintro rfl
  apply hy
  rw [← ZMod.natCast_eq_natCast_iff' _ _ P]
  push_cast
  rw [ht.2.2, hu.2.2]
  ring

/-- `[S]B = R + [k]A`, computed in projective coordinates. -/
theorem groupEq_of_rep {S k : ℕ} {r a : ℕ × ℕ × ℕ} {R A : Pt25519} (hr : Rep r R) (ha : Rep a A) (hS : S < 2 ^ 256) (hk : k < 2 ^ 512)
    (hx : (pmul (bxN, byN, 1) 256 S).1 * (padd r (pmul a 512 k)).2.2 % P = (padd r (pmul a 512 k)).1 * (pmul (bxN, byN, 1) 256 S).2.2 % P)
    (hy : (pmul (bxN, byN, 1) 256 S).2.1 * (padd r (pmul a 512 k)).2.2 % P
      = (padd r (pmul a 512 k)).2.1 * (pmul (bxN, byN, 1) 256 S).2.2 % P) : GroupEq S k R A := by
  have h : S • B = R + k • A := rep_eq (pmul_rep rep_B 256 S hS) (padd_rep hr (pmul_rep ha 512 k hk)) hx hy
  rw [GroupEq, h, smul_add]

theorem encode_of_nat {x y : ℕ} (h) (hx : x < P) (hy : y < P) : encode ⟨((x : ℕ) : Fp), ((y : ℕ) : Fp), h⟩ = encodeXY x y := by
  unfold encode
  rw [ZMod.val_natCast_of_lt hx, ZMod.val_natCast_of_lt hy]

/-- The `n` bytes of a number written in hexadecimal. -/
def hexB (n v : ℕ) : List ℕ := (List.range n).map fun i => v / 256 ^ (n - 1 - i) % 256

/-- The public key of TEST 1, decoded. -/
def A1 : Pt25519 := ⟨(38815646466658113194383306759739515082307681141926459231621296960732224964046 : ℕ), (11903303657706407974989296177215005343713679411332034699907763981919547054807 : ℕ),
  on_of_nat (by decide +kernel)⟩

/-- The first half of the signature of TEST 1, decoded. -/
def R1 : Pt25519 := ⟨(44370630452101398467924320556439323233869374150616132215183787387252341590058 : ℕ), (38448863731492799660668882834560725606410712239157980760146247592118262650597 : ℕ),
  on_of_nat (by decide +kernel)⟩

theorem encode_A1 : encode A1 = hexB 32 0xd75a980182b10ab7d54bfed3c964073a0ee172f3daa62325af021a68f707511a :=
  (encode_of_nat _ (by decide +kernel) (by decide +kernel)).trans (by decide +kernel)

theorem encode_R1 : encode R1 = hexB 32 0xe5564300c360ac729086e2cc806e828a84877f1eb8e5d974d873e06522490155 :=
  (encode_of_nat _ (by decide +kernel) (by decide +kernel)).trans (by decide +kernel)

/-- RFC 8032, 7.1, TEST 1: public key, message and signature. -/
theorem C61_rfc8032_test1 :
    RfcValid (hexB 32 0xd75a980182b10ab7d54bfed3c964073a0ee172f3daa62325af021a68f707511a) [] R1
      (leVal (hexB 32 0x5fb8821590a33bacc61e39701cf9b46bd25bf5f0595bbe24655141438e7a100b)) := by
  refine ⟨by decide +kernel, A1, encode_A1, ?_⟩
  rw [encode_R1]
  refine groupEq_of_rep (r := (44370630452101398467924320556439323233869374150616132215183787387252341590058, 38448863731492799660668882834560725606410712239157980760146247592118262650597, 1))
    (a := (38815646466658113194383306759739515082307681141926459231621296960732224964046, 11903303657706407974989296177215005343713679411332034699907763981919547054807, 1)) ?_ ?_ (by decide +kernel) (by decide +kernel)
    (by decide +kernel) (by decide +kernel)
  · simp [Rep, R1]
  · simp [Rep, A1]

/-- The public key of TEST 2, decoded. -/
def A2 : Pt25519 := ⟨(52774231920053734232574595727734981596546427020284349182563870143297718469550 : ℕ), (5609657767448528674903586191599477543993232845525898641911799861560072421437 : ℕ),
  on_of_nat (by decide +kernel)⟩

/-- The first half of the signature of TEST 2, decoded. -/
def R2 : Pt25519 := ⟨(9723755734215906320098229349078520107637843343703680356978966424352572363457 : ℕ), (40895193136033226965014799556713247533209654337761990128738905002094921097362 : ℕ),
  on_of_nat (by decide +kernel)⟩

theorem encode_A2 : encode A2 = hexB 32 0x3d4017c3e843895a92b70aa74d1b7ebc9c982ccf2ec4968cc0cd55f12af4660c :=
  (encode_of_nat _ (by decide +kernel) (by decide +kernel)).trans (by decide +kernel)

theorem encode_R2 : encode R2 = hexB 32 0x92a009a9f0d4cab8720e820b5f642540a2b27b5416503f8fb3762223ebdb69da :=
  (encode_of_nat _ (by decide +kernel) (by decide +kernel)).trans (by decide +kernel)

/-- RFC 8032, 7.1, TEST 2: public key, message and signature. -/
theorem C61_rfc8032_test2 :
    RfcValid (hexB 32 0x3d4017c3e843895a92b70aa74d1b7ebc9c982ccf2ec4968cc0cd55f12af4660c) (hexB 1 0x72) R2
      (leVal (hexB 32 0x085ac1e43e15996e458f3613d0f11d8c387b2eaeb4302aeeb00d291612bb0c00)) := by
  refine ⟨by decide +kernel, A2, encode_A2, ?_⟩
  rw [encode_R2]
  refine groupEq_of_rep (r := (9723755734215906320098229349078520107637843343703680356978966424352572363457, 40895193136033226965014799556713247533209654337761990128738905002094921097362, 1))
    (a := (52774231920053734232574595727734981596546427020284349182563870143297718469550, 5609657767448528674903586191599477543993232845525898641911799861560072421437, 1)) ?_ ?_ (by decide +kernel) (by decide +kernel)
    (by decide +kernel) (by decide +kernel)
  · simp [Rep, R2]
  · simp [Rep, A2]

/-- The public key of TEST 3, decoded. -/
def A3 : Pt25519 := ⟨(43933056957747458452560886832567536073542840507013052263144963060608791330050 : ℕ), (16962727616734173323702303146057009569815335830970791807500022961899349823996 : ℕ),
  on_of_nat (by decide +kernel)⟩

/-- The first half of the signature of TEST 3, decoded. -/
def R3 : Pt25519 := ⟨(26073464383897998325899031212762184271676052677226679463708862316754828477519 : ℕ), (20246927599389923510374971105736264637524117420538179767629249587300902801762 : ℕ),
  on_of_nat (by decide +kernel)⟩

theorem encode_A3 : encode A3 = hexB 32 0xfc51cd8e6218a1a38da47ed00230f0580816ed13ba3303ac5deb911548908025 :=
  (encode_of_nat _ (by decide +kernel) (by decide +kernel)).trans (by decide +kernel)

theorem encode_R3 : encode R3 = hexB 32 0x6291d657deec24024827e69c3abe01a30ce548a284743a445e3680d7db5ac3ac :=
  (encode_of_nat _ (by decide +kernel) (by decide +kernel)).trans (by decide +kernel)

/-- RFC 8032, 7.1, TEST 3: public key, message and signature. -/
theorem C61_rfc8032_test3 :
    RfcValid (hexB 32 0xfc51cd8e6218a1a38da47ed00230f0580816ed13ba3303ac5deb911548908025) (hexB 2 0xaf82) R3
      (leVal (hexB 32 0x18ff9b538d16f290ae67f760984dc6594a7c15e9716ed28dc027beceea1ec40a)) := by
  refine ⟨by decide +kernel, A3, encode_A3, ?_⟩
  rw [encode_R3]
  refine groupEq_of_rep (r := (26073464383897998325899031212762184271676052677226679463708862316754828477519, 20246927599389923510374971105736264637524117420538179767629249587300902801762, 1))
    (a := (43933056957747458452560886832567536073542840507013052263144963060608791330050, 16962727616734173323702303146057009569815335830970791807500022961899349823996, 1)) ?_ ?_ (by decide +kernel) (by decide +kernel)
    (by decide +kernel) (by decide +kernel)
  · simp [Rep, R3]
  · simp [Rep, A3]

end Verif.Ed
