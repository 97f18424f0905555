import Verif.Primes

/-! # Primality of the factors of the cofactor of G2

The cofactor of G2 (RFC 9380, 8.8.2) is `13² · 23² · 2713 · 11953 · 262069 · p` with a prime `p` of 448 bits.  Lucas certificates, as in
`Verif/Primes.lean`. -/

namespace Verif

theorem prime_2713 : Nat.Prime 2713 := by norm_num

theorem prime_11953 : Nat.Prime 11953 := by norm_num

theorem prime_21839 : Nat.Prime 21839 := by norm_num

theorem prime_262069 :
    Nat.Prime 262069 := by
  refine lucas_list 262069 6
    [(2, 2), (3, 1), (21839, 1)]
    (by decide +kernel) ?_ (by decide +kernel)
  simp only [List.forall_mem_cons, List.not_mem_nil, false_imp_iff, implies_true, and_true]
  exact ⟨prime_2, prime_3, prime_21839⟩

theorem prime_631 : Nat.Prime 631 := by norm_num

theorem prime_1373 : Nat.Prime 1373 := by norm_num

theorem prime_4920833 :
    Nat.Prime 4920833 := by
  refine lucas_list 4920833 3
    [(2, 9), (7, 1), (1373, 1)]
    (by decide +kernel) ?_ (by decide +kernel)
  simp only [List.forall_mem_cons, List.not_mem_nil, false_imp_iff, implies_true, and_true]
  exact ⟨prime_2, prime_7, prime_1373⟩

theorem prime_3539 : Nat.Prime 3539 := by norm_num

theorem prime_52872661 :
    Nat.Prime 52872661 := by
  refine lucas_list 52872661 2
    [(2, 2), (3, 2), (5, 1), (83, 1), (3539, 1)]
    (by decide +kernel) ?_ (by decide +kernel)
  simp only [List.forall_mem_cons, List.not_mem_nil, false_imp_iff, implies_true, and_true]
  exact ⟨prime_2, prime_3, prime_5, prime_83, prime_3539⟩

theorem prime_373 : Nat.Prime 373 := by norm_num

theorem prime_8329 : Nat.Prime 8329 := by norm_num

theorem prime_37501 : Nat.Prime 37501 := by norm_num

theorem prime_13789 : Nat.Prime 13789 := by norm_num

theorem prime_661873 :
    Nat.Prime 661873 := by
  refine lucas_list 661873 5
    [(2, 4), (3, 1), (13789, 1)]
    (by decide +kernel) ?_ (by decide +kernel)
  simp only [List.forall_mem_cons, List.not_mem_nil, false_imp_iff, implies_true, and_true]
  exact ⟨prime_2, prime_3, prime_13789⟩

theorem prime_19759 : Nat.Prime 19759 := by norm_num

theorem prime_12211063 :
    Nat.Prime 12211063 := by
  refine lucas_list 12211063 5
    [(2, 1), (3, 1), (103, 1), (19759, 1)]
    (by decide +kernel) ?_ (by decide +kernel)
  simp only [List.forall_mem_cons, List.not_mem_nil, false_imp_iff, implies_true, and_true]
  exact ⟨prime_2, prime_3, prime_103, prime_19759⟩

theorem prime_1307 : Nat.Prime 1307 := by norm_num

theorem prime_3833 : Nat.Prime 3833 := by norm_num

theorem prime_1402724681 :
    Nat.Prime 1402724681 := by
  refine lucas_list 1402724681 3
    [(2, 3), (5, 1), (7, 1), (1307, 1), (3833, 1)]
    (by decide +kernel) ?_ (by decide +kernel)
  simp only [List.forall_mem_cons, List.not_mem_nil, false_imp_iff, implies_true, and_true]
  exact ⟨prime_2, prime_5, prime_7, prime_1307, prime_3833⟩

theorem prime_68059 : Nat.Prime 68059 := by norm_num

theorem prime_10267 : Nat.Prime 10267 := by norm_num

theorem prime_349079 :
    Nat.Prime 349079 := by
  refine lucas_list 349079 11
    [(2, 1), (17, 1), (10267, 1)]
    (by decide +kernel) ?_ (by decide +kernel)
  simp only [List.forall_mem_cons, List.not_mem_nil, false_imp_iff, implies_true, and_true]
  exact ⟨prime_2, prime_17, prime_10267⟩

theorem prime_16297965815447 :
    Nat.Prime 16297965815447 := by
  refine lucas_list 16297965815447 5
    [(2, 1), (7, 3), (68059, 1), (349079, 1)]
    (by decide +kernel) ?_ (by decide +kernel)
  simp only [List.forall_mem_cons, List.not_mem_nil, false_imp_iff, implies_true, and_true]
  exact ⟨prime_2, prime_7, prime_68059, prime_349079⟩

theorem prime_37 : Nat.Prime 37 := by norm_num

theorem prime_225493 :
    Nat.Prime 225493 := by
  refine lucas_list 225493 2
    [(2, 2), (3, 1), (19, 1), (23, 1), (43, 1)]
    (by decide +kernel) ?_ (by decide +kernel)
  simp only [List.forall_mem_cons, List.not_mem_nil, false_imp_iff, implies_true, and_true]
  exact ⟨prime_2, prime_3, prime_19, prime_23, prime_43⟩

theorem prime_2011 : Nat.Prime 2011 := by norm_num

theorem prime_810774871 :
    Nat.Prime 810774871 := by
  refine lucas_list 810774871 11
    [(2, 1), (3, 1), (5, 1), (89, 1), (151, 1), (2011, 1)]
    (by decide +kernel) ?_ (by decide +kernel)
  simp only [List.forall_mem_cons, List.not_mem_nil, false_imp_iff, implies_true, and_true]
  exact ⟨prime_2, prime_3, prime_5, prime_89, prime_151, prime_2011⟩

theorem prime_63240439939 :
    Nat.Prime 63240439939 := by
  refine lucas_list 63240439939 3
    [(2, 1), (3, 1), (13, 1), (810774871, 1)]
    (by decide +kernel) ?_ (by decide +kernel)
  simp only [List.forall_mem_cons, List.not_mem_nil, false_imp_iff, implies_true, and_true]
  exact ⟨prime_2, prime_3, prime_13, prime_810774871⟩

theorem prime_1770732318293 :
    Nat.Prime 1770732318293 := by
  refine lucas_list 1770732318293 2
    [(2, 2), (7, 1), (63240439939, 1)]
    (by decide +kernel) ?_ (by decide +kernel)
  simp only [List.forall_mem_cons, List.not_mem_nil, false_imp_iff, implies_true, and_true]
  exact ⟨prime_2, prime_7, prime_63240439939⟩

theorem prime_21561538103037546247 :
    Nat.Prime 21561538103037546247 := by
  refine lucas_list 21561538103037546247 5
    [(2, 1), (3, 3), (225493, 1), (1770732318293, 1)]
    (by decide +kernel) ?_ (by decide +kernel)
  simp only [List.forall_mem_cons, List.not_mem_nil, false_imp_iff, implies_true, and_true]
  exact ⟨prime_2, prime_3, prime_225493, prime_1770732318293⟩

theorem prime_86246152412150184989 :
    Nat.Prime 86246152412150184989 := by
  refine lucas_list 86246152412150184989 2
    [(2, 2), (21561538103037546247, 1)]
    (by decide +kernel) ?_ (by decide +kernel)
  simp only [List.forall_mem_cons, List.not_mem_nil, false_imp_iff, implies_true, and_true]
  exact ⟨prime_2, prime_21561538103037546247⟩

theorem prime_2731 : Nat.Prime 2731 := by norm_num

theorem prime_57697 : Nat.Prime 57697 := by norm_num

theorem prime_2969 : Nat.Prime 2969 := by norm_num

theorem prime_197539 :
    Nat.Prime 197539 := by
  refine lucas_list 197539 2
    [(2, 1), (3, 1), (11, 1), (41, 1), (73, 1)]
    (by decide +kernel) ?_ (by decide +kernel)
  simp only [List.forall_mem_cons, List.not_mem_nil, false_imp_iff, implies_true, and_true]
  exact ⟨prime_2, prime_3, prime_11, prime_41, prime_73⟩

theorem prime_6716327 :
    Nat.Prime 6716327 := by
  refine lucas_list 6716327 5
    [(2, 1), (17, 1), (197539, 1)]
    (by decide +kernel) ?_ (by decide +kernel)
  simp only [List.forall_mem_cons, List.not_mem_nil, false_imp_iff, implies_true, and_true]
  exact ⟨prime_2, prime_17, prime_197539⟩

theorem prime_40297963 :
    Nat.Prime 40297963 := by
  refine lucas_list 40297963 2
    [(2, 1), (3, 1), (6716327, 1)]
    (by decide +kernel) ?_ (by decide +kernel)
  simp only [List.forall_mem_cons, List.not_mem_nil, false_imp_iff, implies_true, and_true]
  exact ⟨prime_2, prime_3, prime_6716327⟩

theorem prime_241787779 :
    Nat.Prime 241787779 := by
  refine lucas_list 241787779 2
    [(2, 1), (3, 1), (40297963, 1)]
    (by decide +kernel) ?_ (by decide +kernel)
  simp only [List.forall_mem_cons, List.not_mem_nil, false_imp_iff, implies_true, and_true]
  exact ⟨prime_2, prime_3, prime_40297963⟩

theorem prime_1435735831703 :
    Nat.Prime 1435735831703 := by
  refine lucas_list 1435735831703 5
    [(2, 1), (2969, 1), (241787779, 1)]
    (by decide +kernel) ?_ (by decide +kernel)
  simp only [List.forall_mem_cons, List.not_mem_nil, false_imp_iff, implies_true, and_true]
  exact ⟨prime_2, prime_2969, prime_241787779⟩

theorem prime_149 : Nat.Prime 149 := by norm_num

theorem prime_907 : Nat.Prime 907 := by norm_num

theorem prime_541 : Nat.Prime 541 := by norm_num

theorem prime_233 : Nat.Prime 233 := by norm_num

theorem prime_587 : Nat.Prime 587 := by norm_num

theorem prime_1367711 :
    Nat.Prime 1367711 := by
  refine lucas_list 1367711 7
    [(2, 1), (5, 1), (233, 1), (587, 1)]
    (by decide +kernel) ?_ (by decide +kernel)
  simp only [List.forall_mem_cons, List.not_mem_nil, false_imp_iff, implies_true, and_true]
  exact ⟨prime_2, prime_5, prime_233, prime_587⟩

theorem prime_12192593745179 :
    Nat.Prime 12192593745179 := by
  refine lucas_list 12192593745179 2
    [(2, 1), (7, 1), (11, 1), (107, 1), (541, 1), (1367711, 1)]
    (by decide +kernel) ?_ (by decide +kernel)
  simp only [List.forall_mem_cons, List.not_mem_nil, false_imp_iff, implies_true, and_true]
  exact ⟨prime_2, prime_7, prime_11, prime_107, prime_541, prime_1367711⟩

theorem prime_512088937297519 :
    Nat.Prime 512088937297519 := by
  refine lucas_list 512088937297519 6
    [(2, 1), (3, 1), (7, 1), (12192593745179, 1)]
    (by decide +kernel) ?_ (by decide +kernel)
  simp only [List.forall_mem_cons, List.not_mem_nil, false_imp_iff, implies_true, and_true]
  exact ⟨prime_2, prime_3, prime_7, prime_12192593745179⟩

theorem prime_1857858664515398933 :
    Nat.Prime 1857858664515398933 := by
  refine lucas_list 1857858664515398933 2
    [(2, 2), (907, 1), (512088937297519, 1)]
    (by decide +kernel) ?_ (by decide +kernel)
  simp only [List.forall_mem_cons, List.not_mem_nil, false_imp_iff, implies_true, and_true]
  exact ⟨prime_2, prime_907, prime_512088937297519⟩

theorem prime_22294303974184787197 :
    Nat.Prime 22294303974184787197 := by
  refine lucas_list 22294303974184787197 14
    [(2, 2), (3, 1), (1857858664515398933, 1)]
    (by decide +kernel) ?_ (by decide +kernel)
  simp only [List.forall_mem_cons, List.not_mem_nil, false_imp_iff, implies_true, and_true]
  exact ⟨prime_2, prime_3, prime_1857858664515398933⟩

theorem prime_19931107752921199754119 :
    Nat.Prime 19931107752921199754119 := by
  refine lucas_list 19931107752921199754119 3
    [(2, 1), (3, 1), (149, 1), (22294303974184787197, 1)]
    (by decide +kernel) ?_ (by decide +kernel)
  simp only [List.forall_mem_cons, List.not_mem_nil, false_imp_iff, implies_true, and_true]
  exact ⟨prime_2, prime_3, prime_149, prime_22294303974184787197⟩

theorem prime_81162125843606155545104998607900118769099783 :
    Nat.Prime 81162125843606155545104998607900118769099783 := by
  refine lucas_list 81162125843606155545104998607900118769099783 5
    [(2, 1), (3, 2), (2731, 1), (57697, 1), (1435735831703, 1), (19931107752921199754119, 1)]
    (by decide +kernel) ?_ (by decide +kernel)
  simp only [List.forall_mem_cons, List.not_mem_nil, false_imp_iff, implies_true, and_true]
  exact ⟨prime_2, prime_3, prime_2731, prime_57697, prime_1435735831703, prime_19931107752921199754119⟩

theorem prime_26935696298915610574513298451669528361624243820491956655650666425177 :
    Nat.Prime 26935696298915610574513298451669528361624243820491956655650666425177 := by
  refine lucas_list 26935696298915610574513298451669528361624243820491956655650666425177 3
    [(2, 3), (13, 1), (37, 1), (86246152412150184989, 1), (81162125843606155545104998607900118769099783, 1)]
    (by decide +kernel) ?_ (by decide +kernel)
  simp only [List.forall_mem_cons, List.not_mem_nil, false_imp_iff, implies_true, and_true]
  exact ⟨prime_2, prime_13, prime_37, prime_86246152412150184989, prime_81162125843606155545104998607900118769099783⟩

theorem prime_4638704574076146691498289350639807119782054683906549022985642612861209609656189848749536921852444848596916990932297 :
    Nat.Prime 4638704574076146691498289350639807119782054683906549022985642612861209609656189848749536921852444848596916990932297 := by
  refine lucas_list 4638704574076146691498289350639807119782054683906549022985642612861209609656189848749536921852444848596916990932297 3
    [(2, 3), (373, 1), (8329, 1), (37501, 1), (661873, 1), (12211063, 1), (1402724681, 1), (16297965815447, 1), (26935696298915610574513298451669528361624243820491956655650666425177, 1)]
    (by decide +kernel) ?_ (by decide +kernel)
  simp only [List.forall_mem_cons, List.not_mem_nil, false_imp_iff, implies_true, and_true]
  exact ⟨prime_2, prime_373, prime_8329, prime_37501, prime_661873, prime_12211063, prime_1402724681, prime_16297965815447, prime_26935696298915610574513298451669528361624243820491956655650666425177⟩

theorem prime_402096035359507321594726366720466575392706800671181159425656785868777272553337714697862511267018014931937703598282857976535744623203249 :
    Nat.Prime 402096035359507321594726366720466575392706800671181159425656785868777272553337714697862511267018014931937703598282857976535744623203249 := by
  refine lucas_list 402096035359507321594726366720466575392706800671181159425656785868777272553337714697862511267018014931937703598282857976535744623203249 13
    [(2, 4), (3, 1), (11, 1), (631, 1), (4920833, 1), (52872661, 1), (4638704574076146691498289350639807119782054683906549022985642612861209609656189848749536921852444848596916990932297, 1)]
    (by decide +kernel) ?_ (by decide +kernel)
  simp only [List.forall_mem_cons, List.not_mem_nil, false_imp_iff, implies_true, and_true]
  exact ⟨prime_2, prime_3, prime_11, prime_631, prime_4920833, prime_52872661, prime_4638704574076146691498289350639807119782054683906549022985642612861209609656189848749536921852444848596916990932297⟩

/-- The large prime factor of the cofactor. -/
def cofPrime : ℕ :=
  402096035359507321594726366720466575392706800671181159425656785868777272553337714697862511267018014931937703598282857976535744623203249

theorem cofPrime_prime : Nat.Prime cofPrime := prime_402096035359507321594726366720466575392706800671181159425656785868777272553337714697862511267018014931937703598282857976535744623203249

/-- The factorisation of `h2` (RFC 9380, 8.8.2, written in hexadecimal there). -/
theorem cof_factors :
    0x5d543a95414e7f1091d50792876a202cd91de4547085abaa68a205b2e5a7ddfa628f1cb4d9e82ef21537e293a6691ae1616ec6e786f0c70cf1c38e31c7238e5
      = 13 ^ 2 * 23 ^ 2 * 2713 * 11953 * 262069 * cofPrime := by decide +kernel

end Verif
