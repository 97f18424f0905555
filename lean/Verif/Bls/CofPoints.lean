import Verif.Bls.PropsG2Ex
import Verif.Bls.CofPrime

/-! # Points of the twist of every prime order that divides the cofactor

The points are found outside Lean; that they are on the twist, what annihilates them and how ψ acts on them is evaluated by the
kernel, with the verified double-and-add of `PairExample.lean`. -/

namespace Verif.Bls
open Verif.Ec QuadraticAlgebra

attribute [local irreducible] E2.mulByNonResidueAt

/-- The binary digits of `n` below the leading one. -/
def bitsOf (n : ℕ) : List Bool := n.bits.reverse.tail

/-- Double-and-add from `a` along `bits` ends in `b`. -/
def mulCheck (a b : G2Affine Fq) (bits : List Bool) : Bool :=
  match smulC a bits (affineToProjective a) with
  | none => false
  | some T => decide (T.x = E2.mul b.x T.z) && decide (T.y = E2.mul b.y T.z)

/-- `a` is on the twist. -/
def twistCheck (a : G2Affine Fq) : Bool := decide (E2.square a.y = E2.add (E2.mul (E2.square a.x) a.x) ⟨4, 4⟩)

/-- `a` is on the twist, `l` annihilates it and ψ multiplies it by `k`. -/
def eigenCheck (a : G2Affine Fq) (l k : ℕ) : Bool :=
  twistCheck a && orderCheck a (bitsOf (l - 1)) && decide ((bitsOf (l - 1)).foldl (fun m b => 2 * m + b.toNat) 1 + 1 = l) &&
    mulCheck a (g2Psi a) (bitsOf k) && decide ((bitsOf k).foldl (fun m b => 2 * m + b.toNat) 1 = k)

/-- A point of order `13`. -/
def cof13a : G2Affine Fq :=
  ⟨⟨((0x132fd2a503aad25a2c12cfba968208420e4a749b71dcb48b6515af61a89d5dcdc1daa58556d93de6425b5dc0351589dc : ℕ) : Fq),
    ((0xff113772534c26a8378a6bb6158bf58832f3ae67c3859016b02f7c1102f63c37e2822ad624249273048e65941967f4a : ℕ) : Fq)⟩,
   ⟨((0x978b9d0052b314f7bb6728f5cdc90cbf423dc475b438ce7c2641d77d6789e6776977c21998601cabd8107b09df94de6 : ℕ) : Fq),
    ((0xf0eead2eb956009d867800ae975d1e0d41d978b05c9bbfcfd6e2cb9bb1ae0573acb5f63f7a624c6eb27f0ef18fea21d : ℕ) : Fq)⟩⟩

/-- A point of order `13`. -/
def cof13b : G2Affine Fq :=
  ⟨⟨((0xa454b3c77915893e1587bbe574093ed37e920de160153b2f2a42316522f35e5e0429452c155b46547de7652a7fc45a8 : ℕ) : Fq),
    ((0x14d1785672e08c0c6e0f0b7501a368a1342c9c83b30d83e66d6e5843244477cada68d698b5ebfafe0881211fdc49c7aa : ℕ) : Fq)⟩,
   ⟨((0x3dc669a70e29eb89e0800495730e7130ec8ec5c0805bf8a4115a1652c1a7c80588ba70fccd5c33692b33c25fa0bdadf : ℕ) : Fq),
    ((0x108d60842a9c8c6648d3df7ac795d22805946aba80e653ebd726967372b3cad322a3861a88e6d4742bd490b5dea8adeb : ℕ) : Fq)⟩⟩

/-- A point of order `2713`. -/
def cof2713 : G2Affine Fq :=
  ⟨⟨((0x17632fafa3003867ab7b2f65fe1f11736723f56bb6040434310a0cea05ffc3a2f8e62aad9b3212664db8906f624b87ac : ℕ) : Fq),
    ((0x25fc5fa0ce9e01edf1c73fb4591aeac81cd02fcd97fdcb3689825a1da21b6a097a2a274cf6fc6ac397c9549614807b5 : ℕ) : Fq)⟩,
   ⟨((0x76b3fba5d44e2bac708f193d50d59f74c993e1059872da970626b057cae493dcf14f83c4e3663a78536576a92334475 : ℕ) : Fq),
    ((0xe5a87c6ef7b626a06ea9f1847ff82c8bfdc7cd72f3293dac6c3edb718872af48903ee627361b7ccd535541c57c13d75 : ℕ) : Fq)⟩⟩

/-- A point of order `11953`. -/
def cof11953 : G2Affine Fq :=
  ⟨⟨((0x7956a2ec34a221757f28ece01675f0e427e852903b8e31776f029c324612f51002c1a3cadf62fc84594b6bd9144c9ae : ℕ) : Fq),
    ((0xda50ceb1d8cf72f5eaf788c497c4273eb155218ca991f6bb7d3ce1c2a4ff08a3ad776e9a6a96f75db6886051e3a1c50 : ℕ) : Fq)⟩,
   ⟨((0x170e1a9679afd096ac6794abbb8f043eb651cc82f78d3060eddb52778c5f214aef963340917b3996c13112a1dabd6c26 : ℕ) : Fq),
    ((0x2b32c0a4071cfde5a1835e7157c21cf22444f677d5c752f3f740dda4347f1d368ab8797c73f3e52fd52370034d6a395 : ℕ) : Fq)⟩⟩

/-- A point of order `262069`. -/
def cof262069 : G2Affine Fq :=
  ⟨⟨((0x803e7431feb47c1b4c6837949d0274c5d9989b45d4949cb5ff597023f62d02311c3d8ca2a22f9992aedbf6def23c1d7 : ℕ) : Fq),
    ((0xf60de06820c39233e4328e91b1fe0a7343104d0928d37500c9f9ce6ab834c13af5a7fbb02b3baa4259bbb6d96febd1e : ℕ) : Fq)⟩,
   ⟨((0x76d7d61fc5472de110945eb2c63626abac330da11cb831578f2c3845569099c7c9ff756cfe4d3368c4fba8f9ff09d87 : ℕ) : Fq),
    ((0x1230393683d2dbd9f2dc1b21e3fd571832d5f2ed0d9a39b661662b188f3ae174216b89efb65242fd7f9da41646594a9f : ℕ) : Fq)⟩⟩

/-- A point of order `cofPrime`. -/
def cofLarge : G2Affine Fq :=
  ⟨⟨((0x13d1f9bb7d71383797032bfbae57afa07525601dde021d68b94c653c6f1311cdc83b1d904ff52d096eeca5915b5a573a : ℕ) : Fq),
    ((0x1657d6200f6f52da70ade84bab72f31fad6e46ccab3fd3a56fe49365a617daab4e7c660ea5af5118816419e6c5fef48d : ℕ) : Fq)⟩,
   ⟨((0x4bc27143b8589c290f42baa114be5b5acc94e472a6bd8dca50b1b32088e9c7b9f6afddd00a57f916b5029a72e3f22bd : ℕ) : Fq),
    ((0x168bed5e1bd2cc15dec51796565413af51e0b7875d1442a9df3d2d4c9daa3715ad74f0a48a11a4a849ac014d0ab8ac22 : ℕ) : Fq)⟩⟩

/-- The factor of ψ on `cofLarge`. -/
def cofLambda : ℕ :=
  4253797026575674604611499517168930088276112489475691392429977298260147811040741003835580278071866870177886590453580732384786071995556

/-- A point of order `23`. -/
def cof23 : G2Affine Fq :=
  ⟨⟨((0xda680bd2c1df499e375a94769b7e4fb617b2d15832d2794d7c9ee519832c8773b0b6b4ea057f0bc511c22810b09f143 : ℕ) : Fq),
    ((0x18f3cf1d93a635034c28cd5b8af1b3f81211ed62d990ca8c26413f7988ab74f1223daebb624823f05e0b0db14cdbfaa4 : ℕ) : Fq)⟩,
   ⟨((0x18b5d2e6c06ec63c18d02b2f076a9a853bc06fe5ff6f1b5561554ff46bbcb1a7966205a5c39552aedc92b53847834106 : ℕ) : Fq),
    ((0x11b848fc313b9de7461308cfbfb98122a539ba20e28af3faeb836a7e58dca7453d46102628b6e20f448b5505f8302bc3 : ℕ) : Fq)⟩⟩

/-- Its multiple by 22. -/
def cof23By22 : G2Affine Fq :=
  ⟨⟨((0xda680bd2c1df499e375a94769b7e4fb617b2d15832d2794d7c9ee519832c8773b0b6b4ea057f0bc511c22810b09f143 : ℕ) : Fq),
    ((0x18f3cf1d93a635034c28cd5b8af1b3f81211ed62d990ca8c26413f7988ab74f1223daebb624823f05e0b0db14cdbfaa4 : ℕ) : Fq)⟩,
   ⟨((0x14b3f037911205e324b7c873be1125228b6db9ef415f76a05db82ac8af4447c8849fa58edbead50dd6c4ac7b87c69a5 : ℕ) : Fq),
    ((0x848c8ee084448b305089ee683922bb4bf3d916410fa1ec47bad68229dd44edee165efd8889d1df07573aafa07cf7ee8 : ℕ) : Fq)⟩⟩

/-- The multiple of its image under ψ by 16. -/
def cof23Psi16 : G2Affine Fq :=
  ⟨⟨((0xb0b63507a91cdc3ecf193f309518cdb258f5e1b6b6ee209b26e8e0976cae83b4b140b9a52dbd04d8d88a2a20003c8a7 : ℕ) : Fq),
    ((0xfd9a9ea4ab6087ae2b738a794c5a9180be11eb7eb4cac8ac484c08c15c87c093ea0cb02b6863d50edda49660f5f51b7 : ℕ) : Fq)⟩,
   ⟨((0x16793331682dbd22f7ae6397c7ebd0fb9828820531f9b73db9ebe05a542a0b44f5fb60d4e0253f11f6ae92fa73ba3f7b : ℕ) : Fq),
    ((0xc6720a70c8526c5e6675ea8220029ca6f808723b489a2092d6c63840598da6705105344c022b3461a122aed8a5ac270 : ℕ) : Fq)⟩⟩

theorem cof13a_check : eigenCheck cof13a 13 7 = true := by decide +kernel

theorem cof13b_check : eigenCheck cof13b 13 11 = true := by decide +kernel

theorem cof2713_check : eigenCheck cof2713 2713 2017 = true := by decide +kernel

theorem cof11953_check : eigenCheck cof11953 11953 3605 = true := by decide +kernel

theorem cof262069_check : eigenCheck cof262069 262069 88066 = true := by decide +kernel

theorem cofLarge_check : eigenCheck cofLarge cofPrime cofLambda = true := by decide +kernel

theorem cof23_check : (twistCheck cof23 && orderCheck cof23 (bitsOf 22) && mulCheck cof23 cof23By22 (bitsOf 22) &&
    mulCheck (g2Psi cof23) cof23Psi16 (bitsOf 16) && decide (g2Add cof23Psi16 cof23By22 = some (g2Psi (g2Psi cof23))) && decide
      ((bitsOf 22).foldl (fun m b => 2 * m + b.toNat) 1 + 1 = 23) && decide ((bitsOf 22).foldl (fun m b => 2 * m + b.toNat) 1 = 22) &&
      decide ((bitsOf 16).foldl (fun m b => 2 * m + b.toNat) 1 = 16)) = true := by
  decide +kernel

attribute [local irreducible] q r

theorem mulCheck_spec {a b : G2Affine Fq} {Q : (curve (bTw Fq)).Point} (ha : AR a Q) {bits : List Bool}
    (h : mulCheck a b bits = true) : AR b (bits.foldl (fun m b => 2 * m + b.toNat) 1 • Q) := by
  unfold mulCheck at h
  split at h
  · simp at h
  rename_i T hs
  rw [Bool.and_eq_true, decide_eq_true_eq, decide_eq_true_eq] at h
  obtain ⟨hx, hy⟩ := h
  have h0 : Rep (affineToProjective a) (1 • Q) := affine_rep ⟨g1, a, Q⟩ ha
  obtain ⟨hz, hp⟩ := smulC_spec a Q ha bits _ T 1 h0 hs
  refine hp.congr ?_ ?_
  · rw [hx, E2.val_mul, mul_div_cancel_right₀ _ hz]
  · rw [hy, E2.val_mul, mul_div_cancel_right₀ _ hz]

theorem eigenCheck_spec {a : G2Affine Fq} {l k : ℕ} (h : eigenCheck a l k = true) :
    ∃ Q : (curve (bTw Fq)).Point, Q ≠ 0 ∧ (l : ℤ) • Q = 0 ∧ psi Q = (k : ℤ) • Q := by
  unfold eigenCheck twistCheck at h
  simp only [Bool.and_eq_true, decide_eq_true_eq] at h
  obtain ⟨⟨⟨⟨h1, h2⟩, h3⟩, h4⟩, h5⟩ := h
  obtain ⟨Q, hQ⟩ := onTwist a h1
  have ha : AR a Q := hQ
  have h6 := orderCheck_spec a Q hQ _ h2
  have h7 := mulCheck_spec ha h4
  rw [h3] at h6
  rw [h5] at h7
  refine ⟨Q, ha.ne_zero, ?_, ?_⟩
  · rw [natCast_zsmul]; exact h6
  · rw [natCast_zsmul]; exact (psi_spec ha).unique h7

theorem cof23_spec : ∃ Q : (curve (bTw Fq)).Point, Q ≠ 0 ∧ (23 : ℤ) • Q = 0 ∧ psi (psi Q) = (16 : ℤ) • psi Q + (22 : ℤ) • Q := by
  have h := cof23_check
  unfold twistCheck at h
  simp only [Bool.and_eq_true, decide_eq_true_eq] at h
  obtain ⟨⟨⟨⟨⟨⟨⟨h1, h2⟩, h3⟩, h4⟩, h5⟩, h6⟩, h7⟩, h8⟩ := h
  obtain ⟨Q, hQ⟩ := onTwist cof23 h1
  have ha : AR cof23 Q := hQ
  have k2 := orderCheck_spec cof23 Q hQ _ h2
  have k3 := mulCheck_spec ha h3
  have k4 := mulCheck_spec (psi_spec ha) h4
  rw [h6] at k2
  rw [h7] at k3
  rw [h8] at k4
  have k5 := (g2Add_sound k4 k3 h5).1
  refine ⟨Q, ha.ne_zero, ?_, ?_⟩
  · rw [← k2, ← natCast_zsmul]; rfl
  · rw [(psi_spec (psi_spec ha)).unique k5, ← natCast_zsmul, ← natCast_zsmul]; rfl

end Verif.Bls
