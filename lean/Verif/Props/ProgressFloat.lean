import Verif.Model.ProgressFloat
import Verif.Props.Progress
import Verif.Props.Float
/-! C44: progress bars whose part is any `f32`. -/
namespace Verif
open Spec

theorem ratTrunc_intCast (n : Int) : ratTrunc (n : Rat) = n := by
  unfold ratTrunc
  by_cases h : (n : Rat) < 0
  · rw [if_pos h]
    have : -(n : Rat) = ((-n : Int) : Rat) := by push_cast; rfl
    rw [this, Rat.floor_intCast]; omega
  · rw [if_neg h, Rat.floor_intCast]

theorem Flt.remain_fin (x : Rat) : (Flt.fin x).fract.times8.round.toUsize = intToUsize (ratRound (ratFract x * 8)) := by
  simp only [Flt.fract, Flt.times8, Flt.round, Flt.toUsize, ratTrunc_intCast]

theorem Flt.remain_le (y : Flt) : y.fract.times8.round.toUsize ≤ 8 := by
  cases y with
  | fin x => rw [Flt.remain_fin]; exact Verif.remain_le x
  | nan => exact Nat.zero_le _
  | inf => exact Nat.zero_le _
  | negInf => exact Nat.zero_le _

theorem emod_le_of_nonneg (a b : Int) (ha : 0 ≤ a) (hb : 0 < b) : a % b ≤ a := by
  have h1 := Int.mul_ediv_add_emod a b
  have h2 := Int.mul_nonneg (Int.le_of_lt hb) (Int.ediv_nonneg ha (Int.le_of_lt hb))
  omega

namespace Props

/-- C44: whatever the part, even NaN or infinite, the length and the rounding, displaying a bar doesn't panic, and gives full cells and maybe a
last one which is not empty. -/
theorem C44_any_float (rnd : Rat → Flt) (p : ProgressBarF) :
    ∃ n last, p.render rnd = some (List.replicate n '█' ++ last) ∧ (last = [] ∨ ∃ c, last = [c] ∧ 1 ≤ charEighths c) := by
  unfold ProgressBarF.render
  simp only
  have hr := Flt.remain_le (Flt.mul rnd (rnd p.charsLen) p.part)
  generalize (Flt.mul rnd (rnd p.charsLen) p.part).fract.times8.round.toUsize = remain at hr
  by_cases h : remain > 0
  · obtain ⟨c, e1, e2⟩ := progressChars_eighths remain h hr
    exact ⟨_, [c], by simp only [h, e1, if_true]; rfl, Or.inr ⟨c, rfl, by omega⟩⟩
  · exact ⟨_, [], by simp only [h, if_false, List.append_nil]; rfl, Or.inl rfl⟩

/-- C44: a part which isn't a number, or is the negative infinite, gives an empty bar. -/
theorem C44_nan (rnd : Rat → Flt) (len : Nat) (h : ∃ x, 0 ≤ x ∧ rnd (len : Rat) = .fin x) :
    (ProgressBarF.mk .nan len).render rnd = some [] ∧ (ProgressBarF.mk .negInf len).render rnd = some [] := by
  obtain ⟨x, hx, e⟩ := h
  unfold ProgressBarF.render
  simp only [e, Flt.mul]
  by_cases h0 : x = 0
  · simp [h0, Flt.fract, Flt.times8, Flt.round, Flt.toUsize]
  · have : 0 < x := by grind
    simp [h0, this, Flt.fract, Flt.times8, Flt.round, Flt.toUsize]

/-- C44: with an infinite part (or a finite one whose product by the length is infinite), a bar which has a length has all the cells a
usize can count: the memory doesn't suffice. -/
theorem C44_infinite_counterexample (rnd : Rat → Flt) (len : Nat) (x : Rat) (hx : 0 < x) (e : rnd (len : Rat) = .fin x) :
    (ProgressBarF.mk .inf len).render rnd = some (List.replicate usizeMax '█') ∧
    ∀ a, rnd (x * a) = .inf → (ProgressBarF.mk (.fin a) len).render rnd = some (List.replicate usizeMax '█') := by
  have h0 : x ≠ 0 := by grind
  constructor
  · unfold ProgressBarF.render
    simp only [e, Flt.mul, if_neg h0, if_pos hx, Flt.fract, Flt.times8, Flt.round, Flt.toUsize, Nat.lt_irrefl, gt_iff_lt, if_false]
  · intro a ha
    unfold ProgressBarF.render
    simp only [e, Flt.mul, ha, Flt.fract, Flt.times8, Flt.round, Flt.toUsize, Nat.lt_irrefl, gt_iff_lt, if_false]

/-- C44: for a finite part whose product isn't infinite, the bar is the one of the other theorems. -/
theorem C44_finite (rnd : Rat → Flt) (rnd' : Rat → Rat) (part : Rat) (len : Nat) (h1 : rnd (len : Rat) = .fin (rnd' len))
    (h2 : rnd (rnd' len * part) = .fin (rnd' (rnd' len * part))) :
    (ProgressBarF.mk (.fin part) len).render rnd = (ProgressBar.mk part len).render rnd' := by
  unfold ProgressBarF.render ProgressBar.render ProgressBar.mp
  simp only [h1, Flt.mul, h2, Flt.remain_fin]
  rfl

/-- NaN, an infinite times 0 and a usual part. -/
example : (ProgressBarF.mk .nan 5).render .fin = some [] ∧ (ProgressBarF.mk .inf 0).render .fin = some [] ∧
    (ProgressBarF.mk (.fin (1/2)) 5).render .fin = some ['█', '█', '▌'] := by decide +kernel

/-- C44: the rounding of `f32` is monotonic and doesn't change the integers up to 2^24, so that the theorems on any such rounding are true of it. -/
theorem C44_f32_rounding : F32Rounding f32.nearest := by
  refine ⟨fun x y h => (C44_nearest f32 (by decide) x).mono (C44_nearest f32 (by decide) y) h, fun n hn => ?_⟩
  apply (C44_nearest f32 (by decide) n).exact
  by_cases h : n < 2 ^ 24
  · exact ⟨n, 0, by simpa [f32] using h, by decide, by rw [Rat.zpow_zero, Rat.mul_one]; rfl⟩
  · have : n = 2 ^ 24 := by omega
    subst this
    exact ⟨1, 24, by decide, by decide, by decide +kernel⟩

/-- C44: with the arithmetic of `f32`, a bar of at most 2^24 cells whose part is between 0 and 1 is the bar of the theorems on a rational part. -/
theorem C44_f32_render (len : Nat) (hlen : len ≤ 2 ^ 24) (x : Rat) (h0 : 0 ≤ x) (h1 : x ≤ 1) :
    (ProgressBarF.mk (.fin x) len).render f32.round = (ProgressBar.mk x len).render f32.nearest := by
  have hr := C44_f32_rounding
  obtain ⟨b0, b1⟩ := ProgressBar.mp_bounds hr (ProgressBar.mk x len) hlen h0 h1
  have hl : (len : Rat) ≤ 2 ^ 24 := by exact_mod_cast hlen
  have hpos : (0 : Rat) ≤ (len : Rat) := by exact_mod_cast Nat.zero_le _
  have hbig : (2 : Rat) ^ 24 < (2 : Rat) ^ f32.limit := by decide +kernel
  have key : ∀ y : Rat, 0 ≤ f32.nearest y → f32.nearest y ≤ len → f32.round y = .fin (f32.nearest y) := by
    intro y hy0 hy1
    unfold FloatFormat.round
    generalize (2 : Rat) ^ f32.limit = L at hbig
    rw [if_neg (by grind), if_neg (by grind)]
  apply C44_finite
  · rw [key] <;> rw [hr.exact _ hlen]
    · exact hpos
    · exact Rat.le_refl
  · exact key _ b0 b1

/-- C44: with the arithmetic of `f32`, a bar of at most 2^24 cells whose part is between 0 and 1 has at most its length, and its number of eighths of cells is the nearest of
the asked part, but for the error of the product, which is at most one part in 2^24. -/
theorem C44_f32 (len : Nat) (hlen : len ≤ 2 ^ 24) (x : Rat) (h0 : 0 ≤ x) (h1 : x ≤ 1) :
    ∃ s, (ProgressBarF.mk (.fin x) len).render f32.round = some s ∧ s.length ≤ len ∧
      dist (eighths s) (8 * (len * x)) ≤ 1/2 + 8 * ((len * x) / 2 ^ 24 + 1 / 2 ^ 150) := by
  have hr := C44_f32_rounding
  obtain ⟨s, e1, e2⟩ := C44_length hr (ProgressBar.mk x len) hlen h0 h1
  obtain ⟨s', e3, e4, e5⟩ := C44_precision hr (ProgressBar.mk x len) hlen h0 h1
  rw [e1] at e3
  cases e3
  refine ⟨s, by rw [C44_f32_render len hlen x h0 h1, e1], e2, ?_⟩
  have hpos : (0 : Rat) ≤ (len : Rat) := by exact_mod_cast Nat.zero_le _
  obtain ⟨n1, n2⟩ := nearest_error f32 (by decide) (Rat.mul_nonneg hpos h0)
  simp only at e4 e5
  rw [show (2 : Rat) ^ f32.bits = 2 ^ 24 from rfl, show (2 : Rat) ^ (f32.least - 1) = 1 / 2 ^ 150 by decide +kernel] at n1 n2
  generalize f32.nearest ((len : Rat) * x) = y at *
  generalize (len : Rat) * x / 2 ^ 24 = a at *
  generalize (1 : Rat) / 2 ^ 150 = b at *
  unfold dist
  split <;> grind

/-- C44: with the arithmetic of `f32`, the bar is empty at 0, full at 1, and a greater part doesn't give a shorter bar. -/
theorem C44_f32_grows (len : Nat) (hlen : len ≤ 2 ^ 24) :
    (ProgressBarF.mk (.fin 0) len).render f32.round = some [] ∧
    (ProgressBarF.mk (.fin 1) len).render f32.round = some (List.replicate len '█') ∧
    ∀ a b : Rat, 0 ≤ a → a ≤ b → b ≤ 1 → ∃ s t, (ProgressBarF.mk (.fin a) len).render f32.round = some s ∧
      (ProgressBarF.mk (.fin b) len).render f32.round = some t ∧ eighths s ≤ eighths t ∧ s.length ≤ t.length := by
  have h := C44_ends C44_f32_rounding len hlen
  refine ⟨?_, ?_, fun a b h0 hab h1 => ?_⟩
  · rw [C44_f32_render len hlen 0 (by decide) (by decide)]; exact h.1
  · rw [C44_f32_render len hlen 1 (by decide) (by decide)]; exact h.2
  · rw [C44_f32_render len hlen a h0 (Rat.le_trans hab h1), C44_f32_render len hlen b (Rat.le_trans h0 hab) h1]
    exact C44_monotone C44_f32_rounding len hlen a b h0 hab h1

/-- C44: the fractional part of a `f32` and its product by 8 are exact: their rounding doesn't change them. -/
theorem C44_fraction_exact (f : FloatFormat) (x : Rat) (h : Representable f x) :
    Representable f (ratFract x) ∧ Representable f (ratFract x * 8) := by
  suffices h : Representable f (ratFract x) by
    refine ⟨h, ?_⟩
    obtain ⟨m, e, h1, h2, h3⟩ := h
    refine ⟨m, e + 3, h1, by omega, ?_⟩
    rw [h3, two_add, Rat.mul_assoc]
    congr 2
  obtain ⟨m, e, h1, h2, rfl⟩ := h
  have hz : Representable f 0 := ⟨0, e, by simp [Nat.two_pow_pos], h2, by simp⟩
  by_cases he : 0 ≤ e
  · have : ratFract ((m : Rat) * 2 ^ e) = 0 := by
      obtain ⟨k, rfl⟩ := Int.eq_ofNat_of_zero_le he
      have : (m : Rat) * 2 ^ (k : Int) = ((m * 2 ^ k : Int) : Rat) := by push_cast; rw [Rat.zpow_natCast]
      rw [this, ratFract, ratTrunc_intCast]
      grind
    rw [this]
    exact hz
  · obtain ⟨k, hk⟩ := Int.eq_ofNat_of_zero_le (show 0 ≤ -e by omega)
    have hp : (2 : Rat) ^ e * ((2 ^ k : Nat) : Rat) = 1 := by
      have := two_add e k
      rw [show e + (k : Int) = 0 by omega, Rat.zpow_zero, Rat.zpow_natCast] at this
      push_cast
      exact this.symm
    have hpos := two_pos e
    have hP : (0 : Int) < ((2 ^ k : Nat) : Int) := by exact_mod_cast Nat.two_pow_pos k
    have main : ∀ m : Int, 0 ≤ m → ((m : Rat) * 2 ^ e).floor = m / ((2 ^ k : Nat) : Int) := by
      intro m _
      apply Int.le_antisymm
      · rw [Int.le_ediv_iff_mul_le hP]
        have := Rat.mul_le_mul_of_nonneg_right (Rat.floor_le ((m : Rat) * 2 ^ e)) (c := ((2 ^ k : Nat) : Rat)) (by exact_mod_cast Nat.zero_le _)
        rw [Rat.mul_assoc, hp, Rat.mul_one] at this
        exact_mod_cast this
      · apply Rat.le_floor_iff.2
        have := Int.ediv_mul_le m (show ((2 ^ k : Nat) : Int) ≠ 0 by omega)
        have : ((m / ((2 ^ k : Nat) : Int) * ((2 ^ k : Nat) : Int) : Int) : Rat) ≤ (m : Rat) := Rat.intCast_le_intCast.2 this
        have := Rat.mul_le_mul_of_nonneg_right this (Rat.le_of_lt hpos)
        rw [Rat.intCast_mul, Rat.mul_assoc, Rat.mul_comm _ ((2 : Rat) ^ e)] at this
        rw [show ((((2 ^ k : Nat) : Int)) : Rat) = ((2 ^ k : Nat) : Rat) from rfl, hp, Rat.mul_one] at this
        exact this
    have frac : ∀ m : Int, 0 ≤ m → (m : Rat) * 2 ^ e - (((m : Rat) * 2 ^ e).floor : Rat) = ((m % ((2 ^ k : Nat) : Int) : Int) : Rat) * 2 ^ e := by
      intro m hm
      rw [main m hm]
      have := Int.mul_ediv_add_emod m ((2 ^ k : Nat) : Int)
      have h' : (m : Rat) = ((2 ^ k : Nat) : Rat) * ((m / ((2 ^ k : Nat) : Int) : Int) : Rat) + ((m % ((2 ^ k : Nat) : Int) : Int) : Rat) := by
        exact_mod_cast this.symm
      generalize ((m / ((2 ^ k : Nat) : Int) : Int) : Rat) = q at *
      generalize ((m % ((2 ^ k : Nat) : Int) : Int) : Rat) = r at *
      generalize ((2 ^ k : Nat) : Rat) = P at *
      rw [h']
      grind
    unfold ratFract ratTrunc
    by_cases hm : m < 0
    · have hneg : (m : Rat) * 2 ^ e < 0 := by
        have : (m : Rat) < 0 := by exact_mod_cast hm
        have := Rat.mul_lt_mul_of_pos_right this hpos
        rw [Rat.zero_mul] at this
        exact this
      rw [if_pos hneg]
      have e1 : -((m : Rat) * 2 ^ e) = ((-m : Int) : Rat) * 2 ^ e := by push_cast; grind
      have e2 := frac (-m) (by omega)
      rw [← e1] at e2
      refine ⟨-(-m % ((2 ^ k : Nat) : Int)), e, ?_, h2, ?_⟩
      · have a := Int.emod_nonneg (-m) (show ((2 ^ k : Nat) : Int) ≠ 0 by omega)
        have b := emod_le_of_nonneg (-m) ((2 ^ k : Nat) : Int) (by omega) hP
        omega
      · push_cast at e2 ⊢
        grind
    · rw [if_neg (by
        have : (0 : Rat) ≤ (m : Rat) := by exact_mod_cast (show 0 ≤ m by omega)
        have := Rat.mul_nonneg this (Rat.le_of_lt hpos)
        grind)]
      refine ⟨m % ((2 ^ k : Nat) : Int), e, ?_, h2, frac m (by omega)⟩
      have a := Int.emod_nonneg m (show ((2 ^ k : Nat) : Int) ≠ 0 by omega)
      have b := emod_le_of_nonneg m ((2 ^ k : Nat) : Int) (by omega) hP
      omega

/-- For greater lengths the bar may be too long, as the length itself is rounded. -/
theorem C44_long_counterexample : ∃ s, (ProgressBar.mk 1 16777219).render f32.nearest = some s ∧ 16777219 < s.length := by
  obtain ⟨last, e1, _, _, _⟩ := (ProgressBar.mk 1 16777219).render_form f32.nearest
  refine ⟨_, e1, ?_⟩
  have : intToUsize (ratTrunc ((ProgressBar.mk 1 16777219).mp f32.nearest)) = 16777220 := by decide +kernel
  rw [this]
  simp only [List.length_append, List.length_replicate]
  omega

/-- The numbers written 0.1 and 0.7 in a program, whose products by 10 are rounded to 1 and 7. -/
example : f32.round (1/10) = .fin (13421773 / 2 ^ 27) ∧ (ProgressBarF.mk (f32.round (1/10)) 10).render f32.round = some ['█'] ∧
    (ProgressBarF.mk (f32.round (7/10)) 10).render f32.round = some (List.replicate 7 '█') ∧
    f32.round (2 ^ 128) = .inf ∧ f32.round (1 / 2 ^ 150) = .fin 0 ∧ f32.round (3 / 2 ^ 151) = .fin (1 / 2 ^ 149) := by decide +kernel

end Props
end Verif
