import Verif.Sha.SampleProps

/-! # The SHA specifications on published vectors, and the default run of the sample circuits

The kernel evaluates the FIPS 180-4 specification on the example messages of the standard (one block, and two blocks), and
on the input the sample programs use by default, 64 zero bytes (sha256/main/main.go:39,54-64, sha512/main/main.go:39,54-64);
the digest of the latter was computed with an independent implementation. -/

namespace Verif.Sha
open Api
variable {p : ℕ} [Fact (1 < p)]

/-- SHA-256 of the empty message. -/
theorem sha256_empty : Spec.hash Spec.sha256 [] =
  [0xe3, 0xb0, 0xc4, 0x42, 0x98, 0xfc, 0x1c, 0x14, 0x9a, 0xfb, 0xf4, 0xc8, 0x99, 0x6f, 0xb9, 0x24,
   0x27, 0xae, 0x41, 0xe4, 0x64, 0x9b, 0x93, 0x4c, 0xa4, 0x95, 0x99, 0x1b, 0x78, 0x52, 0xb8, 0x55] := by decide +kernel

/-- SHA-256 of "abc", FIPS 180. -/
theorem sha256_abc : Spec.hash Spec.sha256 [0x61, 0x62, 0x63] =
  [0xba, 0x78, 0x16, 0xbf, 0x8f, 0x01, 0xcf, 0xea, 0x41, 0x41, 0x40, 0xde, 0x5d, 0xae, 0x22, 0x23,
   0xb0, 0x03, 0x61, 0xa3, 0x96, 0x17, 0x7a, 0x9c, 0xb4, 0x10, 0xff, 0x61, 0xf2, 0x00, 0x15, 0xad] := by decide +kernel

/-- SHA-256 of the two-block message of FIPS 180. -/
theorem sha256_two : Spec.hash Spec.sha256 [0x61, 0x62, 0x63, 0x64, 0x62, 0x63, 0x64, 0x65, 0x63, 0x64, 0x65, 0x66, 0x64, 0x65, 0x66, 0x67,
   0x65, 0x66, 0x67, 0x68, 0x66, 0x67, 0x68, 0x69, 0x67, 0x68, 0x69, 0x6a, 0x68, 0x69, 0x6a, 0x6b,
   0x69, 0x6a, 0x6b, 0x6c, 0x6a, 0x6b, 0x6c, 0x6d, 0x6b, 0x6c, 0x6d, 0x6e, 0x6c, 0x6d, 0x6e, 0x6f,
   0x6d, 0x6e, 0x6f, 0x70, 0x6e, 0x6f, 0x70, 0x71] =
  [0x24, 0x8d, 0x6a, 0x61, 0xd2, 0x06, 0x38, 0xb8, 0xe5, 0xc0, 0x26, 0x93, 0x0c, 0x3e, 0x60, 0x39,
   0xa3, 0x3c, 0xe4, 0x59, 0x64, 0xff, 0x21, 0x67, 0xf6, 0xec, 0xed, 0xd4, 0x19, 0xdb, 0x06, 0xc1] := by decide +kernel

/-- SHA-256 of 64 zero bytes. -/
theorem sha256_zeros : Spec.hash Spec.sha256 (List.replicate 64 0) =
  [0xf5, 0xa5, 0xfd, 0x42, 0xd1, 0x6a, 0x20, 0x30, 0x27, 0x98, 0xef, 0x6e, 0xd3, 0x09, 0x97, 0x9b,
   0x43, 0x00, 0x3d, 0x23, 0x20, 0xd9, 0xf0, 0xe8, 0xea, 0x98, 0x31, 0xa9, 0x27, 0x59, 0xfb, 0x4b] := by decide +kernel

/-- SHA-512 of the empty message. -/
theorem sha512_empty : Spec.hash Spec.sha512 [] =
  [0xcf, 0x83, 0xe1, 0x35, 0x7e, 0xef, 0xb8, 0xbd, 0xf1, 0x54, 0x28, 0x50, 0xd6, 0x6d, 0x80, 0x07,
   0xd6, 0x20, 0xe4, 0x05, 0x0b, 0x57, 0x15, 0xdc, 0x83, 0xf4, 0xa9, 0x21, 0xd3, 0x6c, 0xe9, 0xce,
   0x47, 0xd0, 0xd1, 0x3c, 0x5d, 0x85, 0xf2, 0xb0, 0xff, 0x83, 0x18, 0xd2, 0x87, 0x7e, 0xec, 0x2f,
   0x63, 0xb9, 0x31, 0xbd, 0x47, 0x41, 0x7a, 0x81, 0xa5, 0x38, 0x32, 0x7a, 0xf9, 0x27, 0xda, 0x3e] := by decide +kernel

/-- SHA-512 of "abc", FIPS 180. -/
theorem sha512_abc : Spec.hash Spec.sha512 [0x61, 0x62, 0x63] =
  [0xdd, 0xaf, 0x35, 0xa1, 0x93, 0x61, 0x7a, 0xba, 0xcc, 0x41, 0x73, 0x49, 0xae, 0x20, 0x41, 0x31,
   0x12, 0xe6, 0xfa, 0x4e, 0x89, 0xa9, 0x7e, 0xa2, 0x0a, 0x9e, 0xee, 0xe6, 0x4b, 0x55, 0xd3, 0x9a,
   0x21, 0x92, 0x99, 0x2a, 0x27, 0x4f, 0xc1, 0xa8, 0x36, 0xba, 0x3c, 0x23, 0xa3, 0xfe, 0xeb, 0xbd,
   0x45, 0x4d, 0x44, 0x23, 0x64, 0x3c, 0xe8, 0x0e, 0x2a, 0x9a, 0xc9, 0x4f, 0xa5, 0x4c, 0xa4, 0x9f] := by decide +kernel

/-- SHA-512 of the two-block message of FIPS 180. -/
theorem sha512_two : Spec.hash Spec.sha512 [0x61, 0x62, 0x63, 0x64, 0x65, 0x66, 0x67, 0x68, 0x62, 0x63, 0x64, 0x65, 0x66, 0x67, 0x68, 0x69,
   0x63, 0x64, 0x65, 0x66, 0x67, 0x68, 0x69, 0x6a, 0x64, 0x65, 0x66, 0x67, 0x68, 0x69, 0x6a, 0x6b,
   0x65, 0x66, 0x67, 0x68, 0x69, 0x6a, 0x6b, 0x6c, 0x66, 0x67, 0x68, 0x69, 0x6a, 0x6b, 0x6c, 0x6d,
   0x67, 0x68, 0x69, 0x6a, 0x6b, 0x6c, 0x6d, 0x6e, 0x68, 0x69, 0x6a, 0x6b, 0x6c, 0x6d, 0x6e, 0x6f,
   0x69, 0x6a, 0x6b, 0x6c, 0x6d, 0x6e, 0x6f, 0x70, 0x6a, 0x6b, 0x6c, 0x6d, 0x6e, 0x6f, 0x70, 0x71,
   0x6b, 0x6c, 0x6d, 0x6e, 0x6f, 0x70, 0x71, 0x72, 0x6c, 0x6d, 0x6e, 0x6f, 0x70, 0x71, 0x72, 0x73,
   0x6d, 0x6e, 0x6f, 0x70, 0x71, 0x72, 0x73, 0x74, 0x6e, 0x6f, 0x70, 0x71, 0x72, 0x73, 0x74, 0x75] =
  [0x8e, 0x95, 0x9b, 0x75, 0xda, 0xe3, 0x13, 0xda, 0x8c, 0xf4, 0xf7, 0x28, 0x14, 0xfc, 0x14, 0x3f,
   0x8f, 0x77, 0x79, 0xc6, 0xeb, 0x9f, 0x7f, 0xa1, 0x72, 0x99, 0xae, 0xad, 0xb6, 0x88, 0x90, 0x18,
   0x50, 0x1d, 0x28, 0x9e, 0x49, 0x00, 0xf7, 0xe4, 0x33, 0x1b, 0x99, 0xde, 0xc4, 0xb5, 0x43, 0x3a,
   0xc7, 0xd3, 0x29, 0xee, 0xb6, 0xdd, 0x26, 0x54, 0x5e, 0x96, 0xe5, 0x5b, 0x87, 0x4b, 0xe9, 0x09] := by decide +kernel

/-- SHA-512 of 64 zero bytes. -/
theorem sha512_zeros : Spec.hash Spec.sha512 (List.replicate 64 0) =
  [0x7b, 0xe9, 0xfd, 0xa4, 0x8f, 0x41, 0x79, 0xe6, 0x11, 0xc6, 0x98, 0xa7, 0x3c, 0xff, 0x09, 0xfa,
   0xf7, 0x28, 0x69, 0x43, 0x1e, 0xfe, 0xe6, 0xea, 0xad, 0x14, 0xde, 0x0c, 0xb4, 0x4b, 0xbf, 0x66,
   0x50, 0x3f, 0x75, 0x2b, 0x7a, 0x8e, 0xb1, 0x70, 0x83, 0x35, 0x5f, 0x3c, 0xe6, 0xeb, 0x7d, 0x28,
   0x06, 0xf2, 0x36, 0xb2, 0x5a, 0xf9, 0x6a, 0x24, 0xe2, 0x2b, 0x88, 0x74, 0x05, 0xc2, 0x00, 0x81] := by decide +kernel

/-- **C87, default run.** The SHA-256 sample circuit, on the 64 zero bytes the program feeds it, accepts this public result and no
other, over every field of more than 68 bits. -/
theorem C87_default_256 (hp : 2 ^ 68 < p) (expectedResult : List (F p)) (he : expectedResult.length = 32) :
    sampleDefine prm256 expectedResult (List.replicate 64 0) = some () ↔
      expectedResult = ([0xf5, 0xa5, 0xfd, 0x42, 0xd1, 0x6a, 0x20, 0x30, 0x27, 0x98, 0xef, 0x6e, 0xd3, 0x09, 0x97, 0x9b,
     0x43, 0x00, 0x3d, 0x23, 0x20, 0xd9, 0xf0, 0xe8, 0xea, 0x98, 0x31, 0xa9, 0x27, 0x59, 0xfb, 0x4b] : List ℕ).map Nat.cast := by
  rw [C87_sha256 hp _ _ (by norm_num) he]
  have h0 : (List.replicate 64 (0 : F p)).map byteOf = List.replicate 64 0 := by
    rw [List.map_replicate]
    congr 1
    unfold byteOf
    rw [ZMod.val_zero]
    rfl
  rw [h0, sha256_zeros]
  constructor
  · rintro ⟨-, h⟩
    exact h
  · intro h
    refine ⟨fun v hv => ?_, h⟩
    rw [(List.mem_replicate.1 hv).2, ZMod.val_zero]
    decide

/-- **C87, default run.** The SHA-512 sample circuit, on the 64 zero bytes the program feeds it, accepts this public result and no
other, over every field of more than 68 bits. -/
theorem C87_default_512 (hp : 2 ^ 68 < p) (expectedResult : List (F p)) (he : expectedResult.length = 64) :
    sampleDefine prm512 expectedResult (List.replicate 64 0) = some () ↔
      expectedResult = ([0x7b, 0xe9, 0xfd, 0xa4, 0x8f, 0x41, 0x79, 0xe6, 0x11, 0xc6, 0x98, 0xa7, 0x3c, 0xff, 0x09, 0xfa,
     0xf7, 0x28, 0x69, 0x43, 0x1e, 0xfe, 0xe6, 0xea, 0xad, 0x14, 0xde, 0x0c, 0xb4, 0x4b, 0xbf, 0x66,
     0x50, 0x3f, 0x75, 0x2b, 0x7a, 0x8e, 0xb1, 0x70, 0x83, 0x35, 0x5f, 0x3c, 0xe6, 0xeb, 0x7d, 0x28,
     0x06, 0xf2, 0x36, 0xb2, 0x5a, 0xf9, 0x6a, 0x24, 0xe2, 0x2b, 0x88, 0x74, 0x05, 0xc2, 0x00, 0x81] : List ℕ).map Nat.cast := by
  rw [C87_sha512 hp _ _ (by norm_num) he]
  have h0 : (List.replicate 64 (0 : F p)).map byteOf = List.replicate 64 0 := by
    rw [List.map_replicate]
    congr 1
    unfold byteOf
    rw [ZMod.val_zero]
    rfl
  rw [h0, sha512_zeros]
  constructor
  · rintro ⟨-, h⟩
    exact h
  · intro h
    refine ⟨fun v hv => ?_, h⟩
    rw [(List.mem_replicate.1 hv).2, ZMod.val_zero]
    decide

end Verif.Sha
