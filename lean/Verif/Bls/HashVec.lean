import Verif.Bls.SampleVec
import Verif.Bls.PropsExc

/-! # C60: a message evaluated in the specification, with two field elements and with one

Generated by tools/hashvec/gen.py (numbers only; every number is checked by the kernel against the specification).  The message meets the
hypotheses of the theorems of C60, and has more than one accepted hash. -/

namespace Verif.Bls
open RFC Verif.Ec Verif.Api QuadraticAlgebra

namespace HashVec

/-- The message: `00 … 00 7c`. -/
def msgB : RFC.Bytes := List.replicate 31 0 ++ [124]

/-! ## The map to the curve -/

/-- The value of `den`. -/
def denN (u : E2 Fq) : E2 Fq := E2.add (E2.mul (E2.square cZ) (E2.square (E2.square u))) (E2.mul cZ (E2.square u))

def gN (x : E2 Fq) : E2 Fq := E2.add (E2.add (E2.mul (E2.square x) x) (E2.mul cA x)) cB

/-- What is checked if the first candidate `w` is taken. -/
def check (u w x y : E2 Fq) (R : G2Affine Fq) : Bool :=
  decide (denN u ≠ E2.zero ∧ E2.mul w (E2.mul cA (denN u)) = E2.neg (E2.mul cB (E2.add (denN u) E2.one)) ∧ x = w ∧
    E2.square y = gN x ∧ sgn0 y.val = sgn0 u.val ∧ g2Isogeny ⟨x, y⟩ = some R)

/-- What is checked if the second candidate is taken. -/
def checkN (u w x y : E2 Fq) (R : G2Affine Fq) : Bool :=
  decide (denN u ≠ E2.zero ∧ E2.mul w (E2.mul cA (denN u)) = E2.neg (E2.mul cB (E2.add (denN u) E2.one)) ∧
    x = E2.mul (E2.mul cZ (E2.square u)) w ∧
    E2.square y = gN x ∧ sgn0 y.val = sgn0 u.val ∧ g2Isogeny ⟨x, y⟩ = some R)

section
attribute [local irreducible] q r

theorem denN_val (u : E2 Fq) : (denN u).val = den u.val := by
  unfold denN den
  rw [E2.val_add, E2.val_mul, E2.val_mul, E2.val_square, E2.val_square, E2.val_square, cZ_val]
  ring

theorem gN_val (x : E2 Fq) : (gN x).val = g x.val := by
  unfold gN g
  rw [E2.val_add, E2.val_add, E2.val_mul, E2.val_mul, E2.val_square, cA_val, cB_val]
  ring

theorem cand {u w : E2 Fq} (hd : den u.val ≠ 0)
    (h : E2.mul w (E2.mul cA (denN u)) = E2.neg (E2.mul cB (E2.add (denN u) E2.one))) : x1 u.val = w.val := by
  have hA := A_ne
  have h := congrArg E2.val h
  rw [E2.val_mul, E2.val_mul, E2.val_neg, E2.val_mul, E2.val_add, E2.val_one, denN_val, cA_val, cB_val] at h
  unfold x1
  rw [if_neg hd]
  field_simp
  linear_combination -h

theorem den_of {u : E2 Fq} (h : denN u ≠ E2.zero) : den u.val ≠ 0 := by
  rw [← denN_val]
  intro h0
  exact h (E2.val_inj.1 (h0.trans E2.val_zero.symm))

theorem map_of {u x y : E2 Fq} {R : G2Affine Fq} (hs : SSWU u.val x.val y.val) (hi : g2Isogeny ⟨x, y⟩ = some R) :
    ∃ P, MapTo u.val P ∧ AR R P := by
  obtain ⟨p', h, hx, hy, -, P, hP⟩ := C58_isogeny ⟨x, y⟩ hs.2.1
  rw [hi] at h
  obtain rfl := Option.some.inj h
  exact ⟨P, ⟨_, _, hs, IsPt.congr hP hx.symm hy.symm⟩, hP⟩

theorem ar_inj {a b : G2Affine Fq} {P : (curve (bTw Fq)).Point} (h : AR a P) (h' : AR b P) : a = b := by
  obtain ⟨e1, e2⟩ := IsPt.inj h h'
  rw [G2Affine.ext_iff]
  exact ⟨E2.val_inj.1 e1, E2.val_inj.1 e2⟩

theorem check_map {u w x y : E2 Fq} {R : G2Affine Fq} (h : check u w x y R = true) : ∃ P, MapTo u.val P ∧ AR R P := by
  obtain ⟨h1, h2, rfl, h4, h5, h6⟩ := of_decide_eq_true h
  have hy : y.val ^ 2 = g x.val := by
    have h := congrArg E2.val h4
    rw [E2.val_square, gN_val] at h
    rw [← h]; ring
  refine map_of ⟨?_, hy, h5⟩ h6
  unfold sswuX
  rw [cand (den_of h1) h2, if_pos ⟨y.val, by rw [← hy]; ring⟩]

theorem checkN_map {u w x y : E2 Fq} {R : G2Affine Fq} (h : checkN u w x y R = true) : ∃ P, MapTo u.val P ∧ AR R P := by
  obtain ⟨h1, h2, h3, h4, h5, h6⟩ := of_decide_eq_true h
  have hd := den_of h1
  have hw := cand hd h2
  have hy : y.val ^ 2 = g x.val := by
    have h := congrArg E2.val h4
    rw [E2.val_square, gN_val] at h
    rw [← h]; ring
  have hx : x.val = x2 u.val := by
    rw [h3, E2.val_mul, E2.val_mul, E2.val_square, cZ_val]
    unfold x2
    rw [hw]; ring
  refine map_of ⟨?_, hy, h5⟩ h6
  have hns : ¬ IsSquare (g (x1 u.val)) := by
    rintro ⟨s, hs⟩
    have hs0 : s ≠ 0 := by
      rintro rfl
      exact g_ne _ (hs.trans (mul_zero 0))
    have hu0 : u.val ≠ 0 := fun h0 => hd ((C57_exceptional _).2 h0)
    have hZ : (Z : Fq2 Fq) ≠ 0 := fun h0 => Z_not_square 0 (by rw [h0, zero_mul])
    have hg : g (x2 u.val) = (Z * u.val ^ 2) ^ 3 * g (x1 u.val) := g_x2 hd
    rw [← hx, ← hy, hs] at hg
    have k0 : Z * u.val ^ 3 * s ≠ 0 := mul_ne_zero (mul_ne_zero hZ (pow_ne_zero _ hu0)) hs0
    refine Z_not_square (y.val / (Z * u.val ^ 3 * s)) ?_
    rw [div_mul_div_comm, div_eq_iff (mul_ne_zero k0 k0)]
    linear_combination hg
  unfold sswuX
  rw [if_neg hns, hx]
end

/-! ## Two field elements -/

def s0 : RFC.Bytes :=
  ([2, 215, 188, 32, 141, 150, 254, 184, 236, 181, 191, 41, 89, 78, 91, 95, 202, 223, 24, 133, 84, 154, 53, 54, 168, 182, 158, 185, 27, 214, 243, 207] : List ℕ).map fun k => BitVec.ofNat 8 k
def s1 : RFC.Bytes :=
  ([239, 76, 184, 240, 75, 107, 134, 14, 195, 50, 139, 31, 36, 122, 24, 177, 25, 206, 195, 123, 2, 196, 246, 195, 158, 246, 246, 240, 119, 172, 97, 195] : List ℕ).map fun k => BitVec.ofNat 8 k
def s2 : RFC.Bytes :=
  ([12, 187, 100, 192, 23, 232, 11, 91, 184, 230, 247, 29, 198, 50, 150, 149, 136, 242, 30, 176, 120, 107, 167, 135, 237, 163, 154, 112, 200, 73, 205, 114] : List ℕ).map fun k => BitVec.ofNat 8 k
def s3 : RFC.Bytes :=
  ([161, 8, 3, 210, 19, 69, 224, 82, 104, 100, 157, 217, 184, 173, 95, 221, 8, 27, 255, 23, 242, 104, 181, 97, 88, 170, 12, 33, 74, 143, 109, 64] : List ℕ).map fun k => BitVec.ofNat 8 k
def s4 : RFC.Bytes :=
  ([171, 38, 186, 255, 234, 142, 190, 106, 185, 62, 63, 13, 173, 35, 16, 252, 196, 74, 194, 249, 47, 154, 10, 192, 32, 113, 118, 250, 62, 87, 141, 22] : List ℕ).map fun k => BitVec.ofNat 8 k
def s5 : RFC.Bytes :=
  ([77, 222, 46, 193, 185, 251, 72, 187, 191, 116, 131, 215, 116, 81, 77, 79, 243, 134, 144, 191, 102, 55, 243, 17, 49, 45, 114, 1, 125, 105, 120, 193] : List ℕ).map fun k => BitVec.ofNat 8 k
def s6 : RFC.Bytes :=
  ([178, 173, 204, 57, 62, 230, 173, 71, 91, 134, 210, 17, 101, 39, 62, 61, 191, 187, 36, 230, 162, 197, 172, 104, 224, 206, 46, 23, 240, 34, 210, 71] : List ℕ).map fun k => BitVec.ofNat 8 k
def s7 : RFC.Bytes :=
  ([84, 177, 163, 169, 125, 136, 65, 200, 97, 94, 22, 228, 218, 250, 151, 127, 92, 189, 28, 107, 2, 22, 118, 248, 185, 138, 229, 113, 135, 21, 161, 91] : List ℕ).map fun k => BitVec.ofNat 8 k
def s8 : RFC.Bytes :=
  ([246, 244, 155, 212, 114, 33, 247, 197, 167, 248, 47, 209, 175, 215, 229, 230, 25, 225, 218, 149, 153, 213, 218, 248, 103, 96, 2, 131, 14, 106, 75, 221] : List ℕ).map fun k => BitVec.ofNat 8 k

theorem s0_eq : RFC.b0 msgB 256 = s0 := by decide +kernel
theorem s1_eq : RFC.b s0 1 = s1 := by decide +kernel
theorem s2_eq : RFC.H (List.zipWith (· ^^^ ·) s0 s1 ++ Sha.Spec.beBytes 1 2 ++ dstPrime) = s2 := by decide +kernel
theorem s3_eq : RFC.H (List.zipWith (· ^^^ ·) s0 s2 ++ Sha.Spec.beBytes 1 3 ++ dstPrime) = s3 := by decide +kernel
theorem s4_eq : RFC.H (List.zipWith (· ^^^ ·) s0 s3 ++ Sha.Spec.beBytes 1 4 ++ dstPrime) = s4 := by decide +kernel
theorem s5_eq : RFC.H (List.zipWith (· ^^^ ·) s0 s4 ++ Sha.Spec.beBytes 1 5 ++ dstPrime) = s5 := by decide +kernel
theorem s6_eq : RFC.H (List.zipWith (· ^^^ ·) s0 s5 ++ Sha.Spec.beBytes 1 6 ++ dstPrime) = s6 := by decide +kernel
theorem s7_eq : RFC.H (List.zipWith (· ^^^ ·) s0 s6 ++ Sha.Spec.beBytes 1 7 ++ dstPrime) = s7 := by decide +kernel
theorem s8_eq : RFC.H (List.zipWith (· ^^^ ·) s0 s7 ++ Sha.Spec.beBytes 1 8 ++ dstPrime) = s8 := by decide +kernel

theorem s_expand : RFC.expand msgB 256 = s1 ++ s2 ++ s3 ++ s4 ++ s5 ++ s6 ++ s7 ++ s8 := by
  have e2 : RFC.b s0 2 = s2 := by rw [← s2_eq, ← s1_eq]; rfl
  have e3 : RFC.b s0 3 = s3 := by rw [← s3_eq, ← e2]; rfl
  have e4 : RFC.b s0 4 = s4 := by rw [← s4_eq, ← e3]; rfl
  have e5 : RFC.b s0 5 = s5 := by rw [← s5_eq, ← e4]; rfl
  have e6 : RFC.b s0 6 = s6 := by rw [← s6_eq, ← e5]; rfl
  have e7 : RFC.b s0 7 = s7 := by rw [← s7_eq, ← e6]; rfl
  have e8 : RFC.b s0 8 = s8 := by rw [← s8_eq, ← e7]; rfl
  have hr : List.range ((256 + 31) / 32) = [0, 1, 2, 3, 4, 5, 6, 7] := by decide
  unfold RFC.expand
  rw [s0_eq, hr]
  simp only [List.map_cons, List.map_nil, Nat.zero_add, Nat.reduceAdd]
  rw [s1_eq, e2, e3, e4, e5, e6, e7, e8]
  decide +kernel

def aU : E2 Fq :=
  ⟨((199107274131073130651900871523812355243917187974835109983596012359120803349112205065529124927709426394946375488730 : ℕ) : Fq),
   ((3280224135223043238114925167766091812354451501368759766730151302673776274144319509941268147187496002556106112465549 : ℕ) : Fq)⟩
/-- The first candidate of the map. -/
def aW : E2 Fq :=
  ⟨((3788403306827200321327921784996827768385142527707997861520708952841069393304943247097925694783468551005172960814153 : ℕ) : Fq),
   ((1455599652738299457836692755393034274566344345203898984256351473418645711278904368819259938211569177866257457871629 : ℕ) : Fq)⟩
def aX : E2 Fq :=
  ⟨((3788403306827200321327921784996827768385142527707997861520708952841069393304943247097925694783468551005172960814153 : ℕ) : Fq),
   ((1455599652738299457836692755393034274566344345203898984256351473418645711278904368819259938211569177866257457871629 : ℕ) : Fq)⟩
def aY : E2 Fq :=
  ⟨((3376312430638764540795285906232336772303223245146236586717809933341038346037048304127620509807048194685546463910984 : ℕ) : Fq),
   ((919584802673856135593562050271270344986761242267905921563872699102744549582845787793923087336886175134457513084549 : ℕ) : Fq)⟩
/-- The point of the twist. -/
def aR : G2Affine Fq :=
  ⟨⟨((1243575900002416517870643681426659226075540887804349165193575921812456866606673526076113348345456822264379912370168 : ℕ) : Fq),
   ((2573419225441469926405866078844711804721321413726187074933074348410426361702828648468043494096190701198305322547312 : ℕ) : Fq)⟩,
  ⟨((1020284018524167460130351402989416563387236982756438362684578952342023939275435845705718405912689647928277396976251 : ℕ) : Fq),
   ((3499273043555808966570295178209310093502766150570155587089003540940619766943348539142272840810952396642802043660073 : ℕ) : Fq)⟩⟩
theorem a_check : check aU aW aX aY aR = true := by decide +kernel
theorem a_map : ∃ P, MapTo aU.val P ∧ AR aR P := check_map a_check

def cU : E2 Fq :=
  ⟨((2415909253431995309435431695315261116163661253762892191857648991085044025892653838250050138743937809505540427374043 : ℕ) : Fq),
   ((3752965167740903849732305764129348400593213911539182177709956752359194440537289621895616898003851714056760435373548 : ℕ) : Fq)⟩
/-- The first candidate of the map. -/
def cW : E2 Fq :=
  ⟨((2448563343115698955026524662934563166046956055298881941281914437053194282375468655029390166920593854298736569309782 : ℕ) : Fq),
   ((1326269044765056923891011728188055173289855204326279283985111156104668635105126119478776687800346496568081026586738 : ℕ) : Fq)⟩
def cX : E2 Fq :=
  ⟨((3157278377011347552232246715404380251052499259868648551009735914853567231883220763114663654325267362727855055859103 : ℕ) : Fq),
   ((3523333497428960455407737672239503616650151500462736218218805891255195275963316126179884373093806315544014919199908 : ℕ) : Fq)⟩
def cY : E2 Fq :=
  ⟨((1334255599727466701115537466438585208339843653425007137753880037723263161107146644031236525703080239820521370006367 : ℕ) : Fq),
   ((1285506683359196864619592946654684046956933061603207721566061660681568598975672525375390458067242647087506511102455 : ℕ) : Fq)⟩
/-- The point of the twist. -/
def cR : G2Affine Fq :=
  ⟨⟨((2139411945504761523243585704241426634538974780544612989928715730288197553379754435804064538473389062319901823230166 : ℕ) : Fq),
   ((1269955343541811713981156831130960935293107173752081262470709497791844978824170471184713498368418580511270580637907 : ℕ) : Fq)⟩,
  ⟨((3861561960776217908004117398425085188192490685226331393656348028808810382315599972200676027297823329903203002428610 : ℕ) : Fq),
   ((1560724373868761956314624528809197585122501589006170569595469029580935367014260938289186882995852886629747077842958 : ℕ) : Fq)⟩⟩
theorem c_check : checkN cU cW cX cY cR = true := by decide +kernel
theorem c_map : ∃ P, MapTo cU.val P ∧ AR cR P := checkN_map c_check

theorem field2 : RFC.hashToField msgB 2 = [aU.val, cU.val] := by
  have hr : List.range 2 = [0, 1] := by decide
  unfold RFC.hashToField
  rw [hr, List.map_cons, List.map_cons, List.map_nil, show 2 * 2 * 64 = 256 by norm_num, s_expand]
  have e0 : RFC.elem (s1 ++ s2 ++ s3 ++ s4 ++ s5 ++ s6 ++ s7 ++ s8) (2 * 0) = aU.a0 := by decide +kernel
  have e1 : RFC.elem (s1 ++ s2 ++ s3 ++ s4 ++ s5 ++ s6 ++ s7 ++ s8) (2 * 0 + 1) = aU.a1 := by decide +kernel
  have e2 : RFC.elem (s1 ++ s2 ++ s3 ++ s4 ++ s5 ++ s6 ++ s7 ++ s8) (2 * 1) = cU.a0 := by decide +kernel
  have e3 : RFC.elem (s1 ++ s2 ++ s3 ++ s4 ++ s5 ++ s6 ++ s7 ++ s8) (2 * 1 + 1) = cU.a1 := by decide +kernel
  rw [e0, e1, e2, e3]
  rfl

/-- The sum. -/
def sumR : G2Affine Fq :=
  ⟨⟨((3372007407029442270842167367504105767480693093733954519500391300255651065010070898864165470018686077380646694581401 : ℕ) : Fq),
   ((3773041130667725635778372557648021434531480978592482920583147422594302342311281610080931181944925731175600700766672 : ℕ) : Fq)⟩,
  ⟨((2509412855371003107269335545578989377776255386156776997337026067929881634337957647645532486891078834124975253443393 : ℕ) : Fq),
   ((1340626001434713155425618777993279447005429028195118904890259238297309414396636331697510937685559454738211366921115 : ℕ) : Fq)⟩⟩
/-- The sum with the sign of the first point flipped. -/
def diffR : G2Affine Fq :=
  ⟨⟨((3545519402133035805386568315838442422341728716893730093419531217792661287801929318341748565101691970222380676601392 : ℕ) : Fq),
   ((656917046521797536732436563234276546618394003462225933715412538754463984047862583649249916155965733436073521238924 : ℕ) : Fq)⟩,
  ⟨((3133508702295325578986254777022809463561479794009233749020474388330316502498935764817706986851760473284849283992350 : ℕ) : Fq),
   ((1698839985995492477257010622402865034424758039286407527441677598120548356414372105258218133027930476154282362447621 : ℕ) : Fq)⟩⟩
/-- The hash of RFC 9380. -/
def hash1 : G2Affine Fq :=
  ⟨⟨((1559942569493730767644375098898112880216298282910918566614882228813166777569383482063683215407093444389513843237380 : ℕ) : Fq),
   ((991192806595434158067933495550328163222264428829093176493618795869273835548393319733438130539908555565950940099586 : ℕ) : Fq)⟩,
  ⟨((3808680396332468270421953769303665834883079003546457653293590902233353179515714320062835463627071371289149818848719 : ℕ) : Fq),
   ((3402661012638206811400955811183407264109645709348439435052080849324380191295576076126004403174739687926699560848669 : ℕ) : Fq)⟩⟩
/-- Another accepted hash. -/
def hash2 : G2Affine Fq :=
  ⟨⟨((954429267097304875789925657808792108746122894307180027591630846406015103409137934393449101254491610074169802212930 : ℕ) : Fq),
   ((409459156805876193155424252924517746108788562547475648361493621218985471049273418373955844502738039226159927368708 : ℕ) : Fq)⟩,
  ⟨((3840381004759126538027027979101828560097264121378347822997082287512867452091382521839526692761274041559878704220985 : ℕ) : Fq),
   ((3859313649245544628567099496462127424114204419366026737305623583793462551707638298161707489958733948370587098115307 : ℕ) : Fq)⟩⟩
theorem sum_num : g2Add aR cR = some sumR ∧ g2Add (g2Neg aR) cR = some diffR := by decide +kernel
theorem clear_num : vecClear sumR = some hash1 ∧ vecClear diffR = some hash2 ∧ hash1 ≠ hash2 := by decide +kernel
theorem small2 : canon aU.a0 < 2 ^ 381 - q := by decide +kernel

/-! ## One field element -/

def t0 : RFC.Bytes :=
  ([121, 29, 144, 196, 139, 99, 42, 180, 82, 174, 127, 167, 172, 114, 180, 6, 48, 121, 70, 39, 250, 205, 218, 201, 158, 165, 255, 91, 109, 3, 255, 68] : List ℕ).map fun k => BitVec.ofNat 8 k
def t1 : RFC.Bytes :=
  ([226, 65, 232, 84, 44, 199, 114, 9, 143, 62, 23, 153, 65, 100, 238, 176, 120, 23, 98, 204, 5, 77, 19, 189, 111, 64, 120, 29, 23, 82, 227, 237] : List ℕ).map fun k => BitVec.ofNat 8 k
def t2 : RFC.Bytes :=
  ([154, 57, 35, 248, 242, 41, 54, 164, 252, 30, 176, 190, 26, 29, 4, 110, 155, 70, 134, 247, 231, 205, 165, 156, 9, 99, 109, 254, 219, 243, 234, 227] : List ℕ).map fun k => BitVec.ofNat 8 k
def t3 : RFC.Bytes :=
  ([230, 178, 54, 125, 255, 229, 32, 44, 100, 224, 74, 113, 6, 33, 96, 117, 253, 51, 22, 34, 253, 63, 55, 237, 31, 103, 82, 132, 131, 60, 166, 59] : List ℕ).map fun k => BitVec.ofNat 8 k
def t4 : RFC.Bytes :=
  ([240, 6, 217, 115, 6, 65, 202, 187, 145, 79, 34, 250, 62, 42, 168, 181, 139, 205, 137, 133, 195, 174, 21, 36, 157, 124, 198, 100, 77, 227, 226, 195] : List ℕ).map fun k => BitVec.ofNat 8 k

theorem t0_eq : RFC.b0 msgB 128 = t0 := by decide +kernel
theorem t1_eq : RFC.b t0 1 = t1 := by decide +kernel
theorem t2_eq : RFC.H (List.zipWith (· ^^^ ·) t0 t1 ++ Sha.Spec.beBytes 1 2 ++ dstPrime) = t2 := by decide +kernel
theorem t3_eq : RFC.H (List.zipWith (· ^^^ ·) t0 t2 ++ Sha.Spec.beBytes 1 3 ++ dstPrime) = t3 := by decide +kernel
theorem t4_eq : RFC.H (List.zipWith (· ^^^ ·) t0 t3 ++ Sha.Spec.beBytes 1 4 ++ dstPrime) = t4 := by decide +kernel

theorem t_expand : RFC.expand msgB 128 = t1 ++ t2 ++ t3 ++ t4 := by
  have e2 : RFC.b t0 2 = t2 := by rw [← t2_eq, ← t1_eq]; rfl
  have e3 : RFC.b t0 3 = t3 := by rw [← t3_eq, ← e2]; rfl
  have e4 : RFC.b t0 4 = t4 := by rw [← t4_eq, ← e3]; rfl
  have hr : List.range ((128 + 31) / 32) = [0, 1, 2, 3] := by decide
  unfold RFC.expand
  rw [t0_eq, hr]
  simp only [List.map_cons, List.map_nil, Nat.zero_add, Nat.reduceAdd]
  rw [t1_eq, e2, e3, e4]
  decide +kernel

def eU : E2 Fq :=
  ⟨((605539225884730785189333886551247488752523927001415833133862362097431246501892643189359997701668139730387535811823 : ℕ) : Fq),
   ((704746185130913510281112289273782181764251519306580953280925341837306610027604180033406154598381064705608930649595 : ℕ) : Fq)⟩
/-- The first candidate of the map. -/
def eW : E2 Fq :=
  ⟨((3855112097849630876449785504722058349467517261023147116659329406052016003000445276031588281029941967689401400399492 : ℕ) : Fq),
   ((357851687949429409219988839641049356644532411076506474259525687508031361481983462312458118859294488149900519185335 : ℕ) : Fq)⟩
def eX : E2 Fq :=
  ⟨((3855112097849630876449785504722058349467517261023147116659329406052016003000445276031588281029941967689401400399492 : ℕ) : Fq),
   ((357851687949429409219988839641049356644532411076506474259525687508031361481983462312458118859294488149900519185335 : ℕ) : Fq)⟩
def eY : E2 Fq :=
  ⟨((980016672039981592595546052016248158813593928679708604067547878721283533801203136254806222544251100890709146381407 : ℕ) : Fq),
   ((2929315229637295531349218375240376850243492722376559554360911688541668452117817341647989397496120066303263165630809 : ℕ) : Fq)⟩
/-- The point of the twist. -/
def eR : G2Affine Fq :=
  ⟨⟨((3759833730446451133956538837111468369167872094569553256581307938426207338760923953073827856682919835096683276934618 : ℕ) : Fq),
   ((901626415030447496167913528078699078966268180732955558154655604913249681495819442176772533772876764330041754626236 : ℕ) : Fq)⟩,
  ⟨((985241049612399966486943555477832593539163505752770800324233927223263434902289304033969247956974499104401295794363 : ℕ) : Fq),
   ((115323720628259234170948751835175782891261677976697990982799259008099552895366893323228193221355600158382404723280 : ℕ) : Fq)⟩⟩
theorem e_check : check eU eW eX eY eR = true := by decide +kernel
theorem e_map : ∃ P, MapTo eU.val P ∧ AR eR P := check_map e_check

theorem field1 : RFC.hashToField msgB 1 = [eU.val] := by
  have hr : List.range 1 = [0] := by decide
  unfold RFC.hashToField
  rw [hr, List.map_cons, List.map_nil, show 1 * 2 * 64 = 128 by norm_num, t_expand]
  have e0 : RFC.elem (t1 ++ t2 ++ t3 ++ t4) (2 * 0) = eU.a0 := by decide +kernel
  have e1 : RFC.elem (t1 ++ t2 ++ t3 ++ t4) (2 * 0 + 1) = eU.a1 := by decide +kernel
  rw [e0, e1]
  rfl

/-- The encoding of RFC 9380. -/
def enc1 : G2Affine Fq :=
  ⟨⟨((1054466059848545625843910623118405489475710437284774498521724485341090069707750513899911950332269969943785731165782 : ℕ) : Fq),
   ((1490668750306479608622903550287896189235948364920107030191558819405405079829123459589118421128591340486839215500848 : ℕ) : Fq)⟩,
  ⟨((2233184234840999459702312244405756651568563161300246335375811392620759448681842646034186603841601618399256401137740 : ℕ) : Fq),
   ((66321991358993385356701654449910678328426408187515994277882202701410557181023884574806126713071522633394885496696 : ℕ) : Fq)⟩⟩
theorem clear1 : vecClear eR = some enc1 ∧ enc1 ≠ g2Neg enc1 := by decide +kernel
theorem small1 : canon eU.a0 < 2 ^ 381 - q := by decide +kernel

attribute [local irreducible] q r

/-- The message over the scalar field of BN254. -/
noncomputable def msg (i : Fin 32) : F bn254r := if i.val = 31 then ((124 : ℕ) : F bn254r) else 0

instance : Fact (1 < bn254r) := ⟨by decide +kernel⟩

theorem p_lt : 2 ^ 68 < bn254r := by decide +kernel

theorem msg_val (i : Fin 32) : (msg i).val = if i.val = 31 then 124 else 0 := by
  unfold msg
  split
  · exact ZMod.val_natCast_of_lt (lt_trans (by norm_num) p_lt)
  · exact ZMod.val_zero

theorem msg_lt (i : Fin 32) : (msg i).val < 256 := by
  rw [msg_val]
  split <;> norm_num

theorem msg_bytes : msgBytes msg = msgB := by
  unfold msgBytes Verif.Sha.byteOf
  simp only [msg_val]
  decide

theorem hash_two : ∃ P0 P1, MapTo aU.val P0 ∧ MapTo cU.val P1 ∧ AR hash1 (clearCofactorRFC (P0 + P1)) ∧ AR hash2 (clearCofactorRFC (-P0 + P1)) := by
  obtain ⟨P0, m0, a0⟩ := a_map
  obtain ⟨P1, m1, a1⟩ := c_map
  have s1 := (C55_add _ _ a0 a1).2 _ sum_num.1
  have s2 := (C55_add _ _ (g2Neg_spec a0) a1).2 _ sum_num.2
  exact ⟨P0, P1, m0, m1, vecClear_sound s1 clear_num.1, vecClear_sound s2 clear_num.2.1⟩

theorem u_ne {u : E2 Fq} (h : denN u ≠ E2.zero) : u.val ≠ 0 := fun h0 => den_of h ((C57_exceptional _).2 h0)

theorem aU_ne : aU.val ≠ 0 := u_ne (of_decide_eq_true a_check).1
theorem cU_ne : cU.val ≠ 0 := u_ne (of_decide_eq_true c_check).1
theorem eU_ne : eU.val ≠ 0 := u_ne (of_decide_eq_true e_check).1

end HashVec

open HashVec

attribute [local irreducible] q r

/-- **C60**, a message: the hash of RFC 9380 has the coordinates `hash1` and is accepted by `HashToG2OnJac` and `HashToG2`. -/
theorem C60_hash_example : (∃ P, HashToCurve msgB P ∧ AR hash1 P) ∧ hashToG2OnJac msg hash1 ∧ hashToG2 msg hash1 := by
  obtain ⟨P0, P1, m0, m1, a1, a2⟩ := hash_two
  have hP : HashToCurve (msgBytes msg) (clearCofactorRFC (P0 + P1)) := ⟨_, _, P0, P1, by rw [msg_bytes, field2], m0, m1, rfl⟩
  refine ⟨⟨_, by rwa [msg_bytes] at hP, a1⟩, ?_, ?_⟩
  · obtain ⟨z, hz, hA⟩ := (C60_hash_jac_reach p_lt msg msg_lt _ hP a1.ne_zero).2 (by
      rw [msg_bytes, field2]
      intro u hu
      rcases List.mem_cons.1 hu with rfl | hu
      · exact aU_ne
      · rw [List.mem_singleton.1 hu]
        exact cU_ne)
    rwa [ar_inj hA a1] at hz
  · obtain ⟨P0', m0', b0⟩ := a_map
    obtain ⟨P1', m1', b1⟩ := c_map
    obtain rfl := mapTo_unique m0 m0'
    obtain rfl := mapTo_unique m1 m1'
    have hne : P0 ≠ P1 ∧ P0 ≠ -P1 := by
      have h := (C55_add _ _ b0 b1).1
      rw [sum_num.1] at h
      have h' := fun k => Option.some_ne_none _ (h.2 k)
      exact ⟨fun k => h' (Or.inl k), fun k => h' (Or.inr k)⟩
    obtain ⟨z, hz, hA⟩ := C60_hash_affine_reach p_lt msg msg_lt _ _ P0 P1 (by rw [msg_bytes, field2]) m0 m1 aU_ne cU_ne hne.1 hne.2 a1.ne_zero
    rwa [ar_inj hA a1] at hz

/-- **C60 fails for the code**, without any hypothesis: `HashToG2OnJac` accepts two different points as the hash of one message. -/
theorem C60_two_hashes_fails : hashToG2OnJac msg hash1 ∧ hashToG2OnJac msg hash2 ∧ hash1 ≠ hash2 := by
  obtain ⟨P0, P1, m0, m1, a1, a2⟩ := hash_two
  obtain ⟨⟨z, hz, hA⟩, z', hz', hA'⟩ := C60_hash_fails p_lt msg msg_lt aU.val cU.val P0 P1 (by rw [msg_bytes, field2])
    (fun h => aU_ne ((C57_exceptional _).1 h)) (fun h => cU_ne ((C57_exceptional _).1 h)) m0 m1 small2 a1.ne_zero a2.ne_zero
  rw [ar_inj hA a1] at hz
  rw [ar_inj hA' a2] at hz'
  exact ⟨hz, hz', clear_num.2.2⟩

/-- **C60 fails for the code**, without any hypothesis: `EncodeToG2OnJac` and `EncodeToG2` accept the point `enc1` of RFC 9380 and its opposite. -/
theorem C60_two_encodings_fails : (∃ P, EncodeToCurve msgB P ∧ AR enc1 P) ∧
    (encodeToG2OnJac msg enc1 ∧ encodeToG2OnJac msg (g2Neg enc1)) ∧ (encodeToG2 msg enc1 ∧ encodeToG2 msg (g2Neg enc1)) ∧
    enc1 ≠ g2Neg enc1 := by
  obtain ⟨P0, m0, a0⟩ := e_map
  have a1 := vecClear_sound a0 clear1.1
  have hP : EncodeToCurve (msgBytes msg) (clearCofactorRFC P0) := ⟨_, P0, by rw [msg_bytes, field1], m0, rfl⟩
  obtain ⟨⟨⟨z, hz, h1⟩, z', hz', h2⟩, ⟨y, hy, h3⟩, y', hy', h4⟩ :=
    C60_encode_fails p_lt msg msg_lt eU.val _ (by rw [msg_bytes, field1]) eU_ne small1 hP a1.ne_zero
  have a2 := g2Neg_spec a1
  rw [ar_inj h1 a1] at hz
  rw [ar_inj h2 a2] at hz'
  rw [ar_inj h3 a1] at hy
  rw [ar_inj h4 a2] at hy'
  exact ⟨⟨_, by rwa [msg_bytes] at hP, a1⟩, ⟨hz, hz'⟩, ⟨hy, hy'⟩, clear1.2⟩

end Verif.Bls
