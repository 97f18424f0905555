import Verif.Emu.Props
import Verif.Limbs.Narrow

/-! # C41: `FromElement` up to the bit length of the native field, exactly -/

namespace Verif.Emu
open Api Limbs Spec
variable {p : ℕ}

/-- **C41 (part), `FromElement` of an element no wider than the native field.**  With the shipped hint and an output
width that divides the element's width, the outputs write the element's integer modulo the native field, most significant
first.  The total width equal to the bit length of the native field, which `C41_fromElement_partial` leaves out, is included:
there the result is the element's integer exactly when that integer is below the modulus. -/
theorem C41_fromElement_narrow [NeZero p] (P : FieldPrm) (inp : List (F p)) (out : ℕ) (hn : 2 ≤ P.nbLimbs)
    (hlen : inp.length = P.nbLimbs) (hb : 0 < P.bitsPerLimb) (hr : ∀ x ∈ inp, x.val < 2 ^ P.bitsPerLimb)
    (ho : 0 < out) (hd : out ∣ P.nbLimbs * P.bitsPerLimb)
    (hne : P.nbLimbs * P.bitsPerLimb ≤ p.size) :
    ∃ r, fromElement (fun _ => splitHint) P inp out = some r ∧ (∀ x ∈ r, x.val < 2 ^ out) ∧
      r.length * out = P.nbLimbs * P.bitsPerLimb ∧ inputNum out r = elemVal P.bitsPerLimb inp % p := by
  have hflip : Slices.flipSubSlice (newLimbs inp P.bitsPerLimb) P.nbLimbs = some (newLimbs inp.reverse P.bitsPerLimb) := by
    rw [Slices.flipSubSlice_eq, if_pos ⟨by omega, by simp [newLimbs, hlen]⟩]
    have : (newLimbs inp P.bitsPerLimb).length = P.nbLimbs := by simp [newLimbs, hlen]
    simp only [flipChunks, this, Nat.div_self (by omega : 0 < P.nbLimbs), chunks, List.map_cons, List.map_nil,
      List.flatten_cons, List.flatten_nil, List.append_nil]
    rw [List.take_of_length_le (by omega)]
    simp [newLimbs]
  set ws := newLimbs inp.reverse P.bitsPerLimb with hws
  have hwl : ws.length = P.nbLimbs := by simp [hws, newLimbs, hlen]
  have hIR : InRange ws := (inRange_newLimbs _ _).2 (by simpa using hr)
  have htot : (sizes ws).sum = P.nbLimbs * P.bitsPerLimb := by
    rw [show (sizes ws).sum = tot ws from rfl, tot_replicate (sizes_newLimbs _ _), List.length_reverse, hlen]
  have hres : ∃ r, resplit (fun _ => splitHint) ws out = some r ∧ InRange r ∧
      numBE (bitStr r) = numBE (bitStr ws) % p ∧ sizes r = List.replicate ((sizes ws).sum / out) out := by
    obtain ⟨r, h1, h2, h3, h4, _⟩ := C29_resplit_narrow ws (by omega) hIR out ho
      (by rw [htot]; exact Nat.le_of_dvd (Nat.mul_pos (by omega) hb) hd) (by omega)
    refine ⟨r, h1, h2, h4, ?_⟩
    rw [h3]
    unfold splitSizes
    rw [htot, Nat.div_mul_cancel hd]
    simp
  obtain ⟨r, h1, h2, h3, h4⟩ := hres
  have hrn : newLimbs (values r) out = r := by
    have : ∀ l ∈ r, l.size = out := by
      intro l hl
      have : l.size ∈ sizes r := List.mem_map.2 ⟨l, hl, rfl⟩
      rw [h4] at this
      exact (List.mem_replicate.1 this).2
    unfold newLimbs values
    rw [List.map_map]
    conv_rhs => rw [← List.map_id r]
    apply List.map_congr_left
    intro l hl
    have := this l hl
    obtain ⟨a, b⟩ := l
    simp only at this
    simp [this]
  refine ⟨values r, ?_, ?_, ?_, ?_⟩
  · unfold fromElement
    simp only [Option.bind_eq_bind]
    rw [hflip]
    simp only [Option.bind_some]
    rw [h1]; rfl
  · intro x hx
    have := (inRange_newLimbs (values r) out).1 (by rw [hrn]; exact h2)
    exact this x hx
  · have : r.length = (sizes ws).sum / out := by
      have := congrArg List.length h4
      simpa [sizes] using this
    simp only [values, List.length_map, this, htot]
    exact Nat.div_mul_cancel hd
  · unfold inputNum
    rw [hrn, h3, elemVal_eq _ _ hr]
    rfl

/-- A two-limb element over a native field of the same bit length, holding an integer at least the modulus. -/
example [NeZero p] (hp : p.size = 254) :
    ∃ inp : List (F p), inp.length = 2 ∧ (∀ x ∈ inp, x.val < 2 ^ 127) ∧ 2 * 127 ≤ p.size ∧
      p ≤ elemVal 127 inp := by
  have hlow : 2 ^ 253 ≤ p := Nat.lt_size.1 (by omega)
  have hup : p < 2 ^ 254 := by rw [← hp]; exact Nat.lt_size_self p
  have h : ((2 ^ 127 - 1 : ℕ) : F p).val = 2 ^ 127 - 1 := ZMod.val_cast_of_lt (by omega)
  refine ⟨[((2 ^ 127 - 1 : ℕ) : F p), ((2 ^ 127 - 1 : ℕ) : F p)], rfl, ?_, by omega, ?_⟩
  · intro x hx
    simp only [List.mem_cons, List.not_mem_nil, or_false, or_self] at hx
    rw [hx, h]; norm_num
  · simp only [elemVal, h]
    norm_num
    omega

end Verif.Emu
