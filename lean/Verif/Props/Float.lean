import Verif.Spec.Float
namespace Verif
open Spec

theorem roundEven_near (q : Rat) : q - 1/2 ≤ (roundEven q : Rat) ∧ (roundEven q : Rat) ≤ q + 1/2 ∧
    (((roundEven q : Rat) = q - 1/2 ∨ (roundEven q : Rat) = q + 1/2) → roundEven q % 2 = 0) := by
  have h1 := Rat.floor_le (q + 1/2)
  have h2 := Rat.lt_floor_add_one (q + 1/2)
  unfold roundEven
  simp only
  generalize (q + 1/2).floor = k at *
  by_cases h : (k : Rat) = q + 1/2 ∧ k % 2 = 1
  · rw [if_pos h]
    push_cast at *
    refine ⟨by grind, by grind, fun _ => by omega⟩
  · rw [if_neg h]
    push_cast at *
    refine ⟨by grind, by grind, ?_⟩
    rintro (h3 | h3)
    · grind
    · have : ¬ k % 2 = 1 := fun h4 => h ⟨h3, h4⟩
      omega

theorem rat_le_of_eq {a b : Rat} (h : a = b) : a ≤ b := h ▸ Rat.le_refl

theorem rat_lt_of_le_of_lt {a b c : Rat} (h : a ≤ b) (h2 : b < c) : a < c := by grind

theorem two_pos (e : Int) : (0 : Rat) < (2 : Rat) ^ e := Rat.zpow_pos (by decide)

theorem two_add (a b : Int) : (2 : Rat) ^ (a + b) = (2 : Rat) ^ a * (2 : Rat) ^ b := Rat.zpow_add (by decide) a b

theorem two_one_le (n : Nat) : (1 : Rat) ≤ (2 : Rat) ^ n := by
  induction n with
  | zero => rw [Rat.pow_zero]; exact Rat.le_refl
  | succ n ih => rw [Rat.pow_succ]; grind

theorem two_mono {a b : Int} (h : a ≤ b) : (2 : Rat) ^ a ≤ (2 : Rat) ^ b := by
  obtain ⟨n, rfl⟩ : ∃ n : Nat, b = a + n := ⟨(b - a).toNat, by omega⟩
  rw [two_add, Rat.zpow_natCast]
  have := Rat.mul_le_mul_of_nonneg_left (two_one_le n) (Rat.le_of_lt (two_pos a))
  rwa [Rat.mul_one] at this

/-- The exponent of a positive number. -/
theorem binaryExponent_spec {x : Rat} (hx : 0 < x) : (2 : Rat) ^ binaryExponent x ≤ x ∧ x < (2 : Rat) ^ (binaryExponent x + 1) := by
  have hn : 0 < x.num := by
    have h1 : 0 ≤ x.num := Rat.num_nonneg.2 (Rat.le_of_lt hx)
    have h2 : x.num ≠ 0 := fun h => by rw [Rat.num_eq_zero] at h; grind
    omega
  have hd : (x.den : Nat) ≠ 0 := x.den_nz
  have hn' : x.num.natAbs ≠ 0 := by omega
  have e : x * (x.den : Rat) = (x.num.natAbs : Rat) := by
    have h1 : x = (x.num : Rat) / (x.den : Rat) := by rw [← Rat.mkRat_eq_div, Rat.mkRat_self]
    have h2 : ((x.num.natAbs : Nat) : Rat) = (x.num : Rat) := by
      have : ((x.num.natAbs : Nat) : Int) = x.num := by omega
      exact_mod_cast this
    rw [h2]
    have hd' : (x.den : Rat) ≠ 0 := by exact_mod_cast hd
    have h3 : (x.num : Rat) / (x.den : Rat) * (x.den : Rat) = (x.num : Rat) := Rat.div_mul_cancel hd'
    rwa [← h1] at h3
  have a1 : ((2 : Rat) ^ (x.num.natAbs.log2)) ≤ (x.num.natAbs : Rat) := by exact_mod_cast Nat.log2_self_le hn'
  have a2 : (x.num.natAbs : Rat) < ((2 : Rat) ^ (x.num.natAbs.log2 + 1)) := by exact_mod_cast (Nat.lt_log2_self (n := x.num.natAbs))
  have b1 : ((2 : Rat) ^ (x.den.log2)) ≤ (x.den : Rat) := by exact_mod_cast Nat.log2_self_le hd
  have b2 : (x.den : Rat) < ((2 : Rat) ^ (x.den.log2 + 1)) := by exact_mod_cast (Nat.lt_log2_self (n := x.den))
  unfold binaryExponent
  simp only
  generalize x.num.natAbs.log2 = a at *
  generalize x.den.log2 = b at *
  rw [← e] at a1 a2
  have c1 : x < (2 : Rat) ^ ((a : Int) - b + 1) := by
    have h1 : x * (2 : Rat) ^ b ≤ x * (x.den : Rat) := Rat.mul_le_mul_of_nonneg_left b1 (Rat.le_of_lt hx)
    have h2 : x * (2 : Rat) ^ b < (2 : Rat) ^ (a + 1) := by grind
    have h3 : (2 : Rat) ^ (a + 1) = (2 : Rat) ^ ((a : Int) - b + 1) * (2 : Rat) ^ b := by
      rw [← Rat.zpow_natCast, ← Rat.zpow_natCast, ← two_add]
      congr 1; push_cast; omega
    rw [h3, Rat.mul_comm x, Rat.mul_comm _ ((2 : Rat) ^ b)] at h2
    exact Rat.lt_of_mul_lt_mul_left h2 (Rat.le_of_lt (Rat.pow_pos (by decide)))
  have c2 : (2 : Rat) ^ ((a : Int) - b - 1) ≤ x := by
    have h1 : x * (x.den : Rat) ≤ x * (2 : Rat) ^ (b + 1) := Rat.mul_le_mul_of_nonneg_left (Rat.le_of_lt b2) (Rat.le_of_lt hx)
    have h2 : (2 : Rat) ^ a ≤ x * (2 : Rat) ^ (b + 1) := by grind
    have h3 : (2 : Rat) ^ a = (2 : Rat) ^ ((a : Int) - b - 1) * (2 : Rat) ^ (b + 1) := by
      rw [← Rat.zpow_natCast, ← Rat.zpow_natCast, ← two_add]
      congr 1; push_cast; omega
    rw [h3] at h2
    exact Rat.le_of_mul_le_mul_right h2 (Rat.pow_pos (by decide))
  by_cases h : (2 : Rat) ^ ((a : Int) - b) ≤ x
  · rw [if_pos h]; exact ⟨h, c1⟩
  · rw [if_neg h]
    refine ⟨c2, ?_⟩
    rw [show (a : Int) - b - 1 + 1 = (a : Int) - b by omega]
    grind

/-- What is needed of the unit in the last place. -/
theorem unit_spec (f : FloatFormat) (hb : 1 ≤ f.bits) {x : Rat} (hx : x ≠ 0) :
    f.least ≤ f.unit x ∧ -((2 : Rat) ^ f.bits * (2 : Rat) ^ f.unit x) < x ∧ x < (2 : Rat) ^ f.bits * (2 : Rat) ^ f.unit x ∧
      (f.unit x = f.least ∨ (2 : Rat) ^ (f.bits - 1) * (2 : Rat) ^ f.unit x ≤ x ∨ x ≤ -((2 : Rat) ^ (f.bits - 1) * (2 : Rat) ^ f.unit x)) := by
  have hpos : 0 < (if x < 0 then -x else x) := by split <;> grind
  obtain ⟨h1, h2⟩ := binaryExponent_spec hpos
  have habs : (x < 0 ∧ (if x < 0 then -x else x) = -x) ∨ (0 < x ∧ (if x < 0 then -x else x) = x) := by
    by_cases h : x < 0
    · exact .inl ⟨h, if_pos h⟩
    · exact .inr ⟨by grind, if_neg h⟩
  unfold FloatFormat.unit
  generalize (if x < 0 then -x else x) = a at *
  generalize binaryExponent a = k at *
  have hm : k + 1 - f.bits ≤ max (k + 1 - f.bits) f.least := Int.le_max_left _ _
  have hl : f.least ≤ max (k + 1 - f.bits) f.least := Int.le_max_right _ _
  have hc : max (k + 1 - f.bits) f.least = f.least ∨ max (k + 1 - f.bits) f.least = k + 1 - f.bits := by omega
  generalize max (k + 1 - f.bits) f.least = e at *
  have e1 : (2 : Rat) ^ (k + 1) ≤ (2 : Rat) ^ f.bits * (2 : Rat) ^ e := by
    rw [← Rat.zpow_natCast, ← two_add]
    exact two_mono (by omega)
  have e3 : -((2 : Rat) ^ f.bits * (2 : Rat) ^ e) < x ∧ x < (2 : Rat) ^ f.bits * (2 : Rat) ^ e := by
    generalize (2 : Rat) ^ f.bits * (2 : Rat) ^ e = b at e1
    generalize (2 : Rat) ^ (k + 1) = c at e1 h2
    clear h1
    rcases habs with ⟨h0, h⟩ | ⟨h0, h⟩
    · rw [h] at h2; constructor <;> grind
    · rw [h] at h2; constructor <;> grind
  refine ⟨hl, e3.1, e3.2, ?_⟩
  rcases hc with hc | hc
  · exact .inl hc
  · right
    have e2 : (2 : Rat) ^ (f.bits - 1) * (2 : Rat) ^ e = (2 : Rat) ^ k := by
      rw [← Rat.zpow_natCast, ← two_add]
      congr 1
      omega
    rw [e2]
    rcases habs with ⟨_, h⟩ | ⟨_, h⟩
    · right
      rw [h] at h1
      generalize (2 : Rat) ^ k = b at h1
      grind
    · left
      rwa [h] at h1

/-- An integer which is at a half at most is the nearest. -/
theorem int_near {q : Rat} {r j : Int} (h1 : q - 1/2 ≤ (r : Rat)) (h2 : (r : Rat) ≤ q + 1/2) (hj : j ≠ r) :
    1/2 ≤ dist q j ∧ dist q r ≤ 1/2 ∧ (dist q j = 1/2 → (r : Rat) = q - 1/2 ∨ (r : Rat) = q + 1/2) ∧ (dist q j = 1/2 → dist r j = 1) := by
  have hlt : (j : Rat) + 1 ≤ r ∨ (r : Rat) + 1 ≤ j := by
    have : j + 1 ≤ r ∨ r + 1 ≤ j := by omega
    rcases this with h | h
    · left; exact_mod_cast h
    · right; exact_mod_cast h
  unfold dist
  refine ⟨?_, ?_, ?_, ?_⟩
  · split <;> grind
  · split <;> grind
  · split <;> grind
  · intro h
    apply Rat.le_antisymm
    · have h := rat_le_of_eq h
      revert h; split <;> split <;> grind
    · split <;> grind

theorem dist_scale {u : Rat} (hu : 0 < u) (a b : Rat) : dist (a * u) (b * u) = dist a b * u := by
  have h : a * u ≤ b * u ↔ a ≤ b := ⟨fun h => Rat.le_of_mul_le_mul_right h hu, fun h => Rat.mul_le_mul_of_nonneg_right h (Rat.le_of_lt hu)⟩
  unfold dist
  by_cases hab : a ≤ b
  · rw [if_pos (h.2 hab), if_pos hab]; grind
  · rw [if_neg (fun k => hab (h.1 k)), if_neg hab]; grind

theorem near_scaled {x u : Rat} (hu : 0 < u) (j : Int) : dist x ((roundEven (x / u) : Rat) * u) ≤ dist x ((j : Rat) * u) ∧
    ((j : Rat) * u ≠ (roundEven (x / u) : Rat) * u → dist x ((j : Rat) * u) = dist x ((roundEven (x / u) : Rat) * u) →
      dist ((roundEven (x / u) : Rat) * u) ((j : Rat) * u) = u ∧ roundEven (x / u) % 2 = 0) := by
  obtain ⟨h1, h2, h3⟩ := roundEven_near (x / u)
  have hx : x / u * u = x := Rat.div_mul_cancel (by grind)
  generalize x / u = q at *
  subst hx
  generalize roundEven q = r at *
  rw [dist_scale hu, dist_scale hu, dist_scale hu]
  by_cases hj : j = r
  · subst hj
    exact ⟨Rat.le_refl, fun h => absurd rfl h⟩
  · obtain ⟨n1, n2, n3, n4⟩ := int_near h1 h2 hj
    refine ⟨Rat.mul_le_mul_of_nonneg_right (Rat.le_trans n2 n1) (Rat.le_of_lt hu), ?_⟩
    intro _ h
    have h : dist q j = dist q r := by
      have h5 := Rat.le_of_mul_le_mul_right (rat_le_of_eq h) hu
      have h6 := Rat.le_of_mul_le_mul_right (rat_le_of_eq h.symm) hu
      exact Rat.le_antisymm h5 h6
    have h : dist q j = 1/2 := Rat.le_antisymm (by rw [h]; exact n2) n1
    rw [n4 h, Rat.one_mul]
    exact ⟨rfl, h3 (n3 h)⟩

theorem Spec.IsNearest.mono {f : FloatFormat} {x x' y y' : Rat} (h : IsNearest f x y) (h' : IsNearest f x' y') (hx : x ≤ x') : y ≤ y' := by
  by_cases he : x = x'
  · subst he
    apply Rat.not_lt.1
    intro hlt
    have d : dist x y' = dist x y := Rat.le_antisymm (h'.nearest y h.representable) (h.nearest y' h'.representable)
    obtain ⟨k, hk⟩ := h.even y' h'.representable (by grind) d
    obtain ⟨k', hk'⟩ := h'.even y h.representable (by grind) d.symm
    have d1 : dist y y' = y - y' := by unfold dist; rw [if_neg (by grind)]
    have d2 : dist y' y = y - y' := by unfold dist; rw [if_pos (by grind)]
    rw [d1] at hk
    rw [d2] at hk'
    have hpos : 0 < y - y' := by grind
    have e : (y - y') * (((2 * k - 2 * k' : Int)) : Rat) = (y - y') * ((1 : Int) : Rat) := by push_cast; grind
    have e1 := Rat.le_of_mul_le_mul_left (rat_le_of_eq e) hpos
    have e2 := Rat.le_of_mul_le_mul_left (rat_le_of_eq e.symm) hpos
    have e3 : (2 * k - 2 * k' : Int) = 1 := by
      have i1 : (2 * k - 2 * k' : Int) ≤ 1 := by exact_mod_cast e1
      have i2 : (1 : Int) ≤ 2 * k - 2 * k' := by exact_mod_cast e2
      omega
    omega
  · have h1 := h.nearest y' h'.representable
    have h2 := h'.nearest y h.representable
    revert h1 h2
    unfold dist
    split <;> split <;> split <;> split <;> grind

theorem Spec.IsNearest.exact {f : FloatFormat} {x y : Rat} (h : IsNearest f x y) (hx : Representable f x) : y = x := by
  have h1 := h.nearest x hx
  revert h1
  unfold dist
  rw [if_pos (Rat.le_refl (a := x))]
  intro h1
  apply Rat.le_antisymm
  · revert h1; split <;> grind
  · revert h1; split <;> grind

/-- The error of the rounding of a positive number. -/
theorem nearest_error (f : FloatFormat) (hb : 1 ≤ f.bits) {x : Rat} (h0 : 0 ≤ x) :
    x - (x / (2 : Rat) ^ f.bits + (2 : Rat) ^ (f.least - 1)) ≤ f.nearest x ∧ f.nearest x ≤ x + (x / (2 : Rat) ^ f.bits + (2 : Rat) ^ (f.least - 1)) := by
  have hl := two_pos (f.least - 1)
  have hB : (0 : Rat) < (2 : Rat) ^ f.bits := Rat.pow_pos (by decide)
  have hd : x / (2 : Rat) ^ f.bits * (2 : Rat) ^ f.bits = x := Rat.div_mul_cancel (by grind)
  have hd0 : 0 ≤ x / (2 : Rat) ^ f.bits := by
    apply Rat.le_of_mul_le_mul_right (c := (2 : Rat) ^ f.bits) _ hB
    rw [hd]; grind
  by_cases hx : x = 0
  · have e : f.nearest x = 0 := by rw [FloatFormat.nearest, if_pos hx]
    rw [e]
    constructor <;> grind
  have e : f.nearest x = (roundEven (x / (2 : Rat) ^ (f.unit x)) : Rat) * (2 : Rat) ^ (f.unit x) := by rw [FloatFormat.nearest, if_neg hx]
  obtain ⟨u1, u2, u3, u4⟩ := unit_spec f hb hx
  have hu := two_pos (f.unit x)
  have hq : x / (2 : Rat) ^ f.unit x * (2 : Rat) ^ f.unit x = x := Rat.div_mul_cancel (by grind)
  obtain ⟨r1, r2, _⟩ := roundEven_near (x / (2 : Rat) ^ f.unit x)
  have m1 := Rat.mul_le_mul_of_nonneg_right r1 (Rat.le_of_lt hu)
  have m2 := Rat.mul_le_mul_of_nonneg_right r2 (Rat.le_of_lt hu)
  rw [← e] at m1 m2
  have small : (2 : Rat) ^ f.unit x * (1/2) ≤ x / (2 : Rat) ^ f.bits + (2 : Rat) ^ (f.least - 1) := by
    rcases u4 with u4 | u4 | u4
    · have : (2 : Rat) ^ (f.unit x) = (2 : Rat) ^ (f.least - 1) * 2 := by
        have h := two_add (f.least - 1) 1
        rw [show f.least - 1 + 1 = f.least by omega] at h
        rw [u4]
        rw [h, Rat.zpow_one]
      rw [this]; grind
    · have hp : (2 : Rat) ^ f.bits = (2 : Rat) ^ (f.bits - 1) * 2 := by rw [← Rat.pow_succ]; congr 1; omega
      have : (2 : Rat) ^ f.unit x * (1/2) ≤ x / (2 : Rat) ^ f.bits := by
        apply Rat.le_of_mul_le_mul_right (c := (2 : Rat) ^ f.bits) _ hB
        rw [hd, hp]
        grind
      grind
    · have := Rat.mul_nonneg (a := (2 : Rat) ^ (f.bits - 1)) (b := (2 : Rat) ^ f.unit x) (Rat.le_of_lt (Rat.pow_pos (by decide))) (Rat.le_of_lt hu)
      grind
  generalize (2 : Rat) ^ f.unit x = u at *
  generalize x / (2 : Rat) ^ f.bits = a at *
  constructor <;> grind

theorem dist_neg (x y : Rat) : dist (-x) (-y) = dist x y := by
  unfold dist
  split <;> split
  · have e : x = y := by grind
    subst e; grind
  · grind
  · grind
  · grind

theorem Spec.Representable.neg {f : FloatFormat} {x : Rat} (h : Representable f x) : Representable f (-x) := by
  obtain ⟨m, e, h1, h2, rfl⟩ := h
  exact ⟨-m, e, by omega, h2, by push_cast; grind⟩

theorem Spec.IsNearest.neg {f : FloatFormat} {x y : Rat} (h : IsNearest f x y) : IsNearest f (-x) (-y) := by
  refine ⟨h.representable.neg, fun z hz => ?_, fun z hz hne ht => ?_⟩
  · have := h.nearest (-z) hz.neg
    rw [← dist_neg x (-z), Rat.neg_neg] at this
    rw [dist_neg]
    exact this
  · obtain ⟨k, hk⟩ := h.even (-z) hz.neg (by intro h'; apply hne; rw [← h', Rat.neg_neg])
      (by rw [← dist_neg x (-z), Rat.neg_neg, ht, dist_neg])
    refine ⟨-k, ?_⟩
    rw [← dist_neg y (-z), Rat.neg_neg] at hk
    generalize dist (-y) z = d at *
    push_cast
    grind

theorem nearest_neg (f : FloatFormat) (hn : ∀ x, IsNearest f x (f.nearest x)) (x : Rat) : f.nearest (-x) = -f.nearest x :=
  Rat.le_antisymm ((hn (-x)).mono (hn x).neg Rat.le_refl) ((hn x).neg.mono (hn (-x)) Rat.le_refl)

namespace Props

/-- The rounding of a format gives the nearest number, and the even one when there are two of them. -/
theorem C44_nearest (f : FloatFormat) (hb : 1 ≤ f.bits) (x : Rat) : IsNearest f x (f.nearest x) := by
  by_cases hx : x = 0
  · subst hx
    have e : f.nearest 0 = 0 := by simp [FloatFormat.nearest]
    have hz : ∀ z : Rat, dist 0 z = 0 → z = 0 := by
      intro z h
      apply Rat.le_antisymm
      · have h := rat_le_of_eq h; revert h; unfold dist; split <;> grind
      · have h := rat_le_of_eq h; revert h; unfold dist; split <;> grind
    have hd : dist 0 0 = 0 := by decide +kernel
    rw [e]
    refine ⟨⟨0, f.least, by simp [Nat.pow_pos], Int.le_refl _, by simp⟩, fun z _ => ?_, fun z _ hn h => ?_⟩
    · rw [hd]; unfold dist; split <;> grind
    · rw [hd] at h
      exact absurd (hz z h) hn
  have e : f.nearest x = (roundEven (x / (2 : Rat) ^ (f.unit x)) : Rat) * (2 : Rat) ^ (f.unit x) := by rw [FloatFormat.nearest, if_neg hx]
  obtain ⟨u1, u2, u3, u4⟩ := unit_spec f hb hx
  rw [e]
  clear e
  have hu := two_pos (f.unit x)
  generalize hE : f.unit x = E at *
  obtain ⟨r1, r2, r3⟩ := roundEven_near (x / (2 : Rat) ^ E)
  have hq : x / (2 : Rat) ^ E * (2 : Rat) ^ E = x := Rat.div_mul_cancel (by grind)
  have near := fun j => near_scaled (x := x) hu j
  -- the multiples of the unit
  have multiple : ∀ (m e' : Int), E ≤ e' → ∃ j : Int, (m : Rat) * (2 : Rat) ^ e' = (j : Rat) * (2 : Rat) ^ E := by
    intro m e' he
    refine ⟨m * 2 ^ (e' - E).toNat, ?_⟩
    obtain ⟨n, rfl⟩ : ∃ n : Nat, e' = E + n := ⟨(e' - E).toNat, by omega⟩
    rw [show (E + n - E).toNat = n by omega, two_add, Rat.zpow_natCast]
    push_cast
    rw [Rat.mul_comm ((2 : Rat) ^ E), Rat.mul_assoc]
  generalize hr : roundEven (x / (2 : Rat) ^ E) = r at *
  -- the numbers with a smaller unit are smaller, in absolute value
  have smaller : ∀ (m e' : Int), m.natAbs < 2 ^ f.bits → f.least ≤ e' → e' < E →
      dist x ((r : Rat) * (2 : Rat) ^ E) < dist x ((m : Rat) * (2 : Rat) ^ e') := by
    intro m e' hm he hlt
    have hB : (2 : Rat) ^ f.bits * (2 : Rat) ^ e' ≤ (2 : Rat) ^ (f.bits - 1) * (2 : Rat) ^ E := by
      rw [← Rat.zpow_natCast, ← two_add, ← Rat.zpow_natCast, ← two_add]
      exact two_mono (by omega)
    have hp := two_pos e'
    have hm2 : (m : Rat) < (2 : Rat) ^ f.bits ∧ -((2 : Rat) ^ f.bits) < (m : Rat) := by
      have h1 : m < ((2 ^ f.bits : Nat) : Int) := by omega
      have h2 : -((2 ^ f.bits : Nat) : Int) < m := by omega
      have h3 : ((-((2 ^ f.bits : Nat) : Int) : Int) : Rat) < (m : Rat) := by exact_mod_cast h2
      push_cast at h3
      exact ⟨by exact_mod_cast h1, h3⟩
    have hz : (m : Rat) * (2 : Rat) ^ e' < (2 : Rat) ^ f.bits * (2 : Rat) ^ e' ∧ -((2 : Rat) ^ f.bits * (2 : Rat) ^ e') < (m : Rat) * (2 : Rat) ^ e' := by
      have h1 := (Rat.mul_lt_mul_left hp).2 hm2.1
      have h2 := (Rat.mul_lt_mul_left hp).2 hm2.2
      constructor <;> grind
    have n1 := (near (2 ^ (f.bits - 1))).1
    have n2 := (near (-2 ^ (f.bits - 1))).1
    push_cast at n1 n2
    rcases u4 with u4 | u4 | u4
    · omega
    · refine rat_lt_of_le_of_lt n1 ?_
      generalize (2 : Rat) ^ (f.bits - 1) * (2 : Rat) ^ E = B at *
      clear n1 n2
      unfold dist
      split <;> split <;> grind
    · refine rat_lt_of_le_of_lt n2 ?_
      rw [show -(2 : Rat) ^ (f.bits - 1) * (2 : Rat) ^ E = -((2 : Rat) ^ (f.bits - 1) * (2 : Rat) ^ E) by grind]
      generalize (2 : Rat) ^ (f.bits - 1) * (2 : Rat) ^ E = B at *
      clear n1 n2
      unfold dist
      split <;> split <;> grind
  refine ⟨?_, ?_, ?_⟩
  · have hq1 : x / (2 : Rat) ^ E < (2 : Rat) ^ f.bits := by
      rw [← hq, Rat.mul_comm, Rat.mul_comm _ ((2 : Rat) ^ E)] at u3
      exact (Rat.mul_lt_mul_left hu).1 u3
    have hq2 : -((2 : Rat) ^ f.bits) < x / (2 : Rat) ^ E := by
      rw [← hq] at u2
      refine (Rat.mul_lt_mul_left hu).1 ?_
      grind
    have a1 : r < ((2 ^ f.bits : Nat) : Int) + 1 := by
      have : (r : Rat) < (((2 ^ f.bits : Nat) : Int) + 1 : Int) := by push_cast; grind
      exact_mod_cast this
    have a2 : -(((2 ^ f.bits : Nat) : Int) + 1) < r := by
      have : ((-(((2 ^ f.bits : Nat) : Int) + 1) : Int) : Rat) < (r : Rat) := by push_cast; grind
      exact_mod_cast this
    by_cases hlt : r.natAbs < 2 ^ f.bits
    · exact ⟨r, E, hlt, u1, rfl⟩
    · have hp : (2 : Nat) ^ f.bits = 2 ^ (f.bits - 1) * 2 := by rw [← Nat.pow_succ]; congr 1; omega
      have hpos : 0 < (2 : Nat) ^ (f.bits - 1) := Nat.pow_pos (by decide)
      have hs : r = ((2 ^ (f.bits - 1) : Nat) : Int) * 2 ∨ r = -((2 ^ (f.bits - 1) : Nat) : Int) * 2 := by omega
      rcases hs with hs | hs
      · refine ⟨((2 ^ (f.bits - 1) : Nat) : Int), E + 1, by omega, by omega, ?_⟩
        rw [two_add, Rat.zpow_one, hs]
        push_cast
        grind
      · refine ⟨-((2 ^ (f.bits - 1) : Nat) : Int), E + 1, by omega, by omega, ?_⟩
        rw [two_add, Rat.zpow_one, hs]
        push_cast
        grind
  · rintro z ⟨m, e', h1, h2, rfl⟩
    by_cases he : E ≤ e'
    · obtain ⟨j, hj⟩ := multiple m e' he
      rw [hj]
      exact (near j).1
    · exact Rat.le_of_lt (smaller m e' h1 h2 (by omega))
  · rintro z ⟨m, e', h1, h2, rfl⟩ hne htie
    by_cases he : E ≤ e'
    · obtain ⟨j, hj⟩ := multiple m e' he
      rw [hj] at hne htie ⊢
      obtain ⟨k1, k2⟩ := (near j).2 hne htie
      refine ⟨r / 2, ?_⟩
      rw [k1]
      have : r = 2 * (r / 2) := by omega
      have : (r : Rat) = 2 * ((r / 2 : Int) : Rat) := by exact_mod_cast this
      rw [← this]
    · have := smaller m e' h1 h2 (by omega)
      rw [htie] at this
      exact absurd this (Rat.lt_irrefl)

/-- 2^24 + 1 isn't a `f32`: it's between two of them, and the even one is 2^24. -/
example : IsNearest f32 (2 ^ 24 + 1) (2 ^ 24) ∧ IsNearest f32 (2 ^ 24 + 3) (2 ^ 24 + 4) := by
  have h1 := C44_nearest f32 (by decide) (2 ^ 24 + 1)
  have h2 := C44_nearest f32 (by decide) (2 ^ 24 + 3)
  rw [show f32.nearest (2 ^ 24 + 1) = 2 ^ 24 by decide +kernel] at h1
  rw [show f32.nearest (2 ^ 24 + 3) = 2 ^ 24 + 4 by decide +kernel] at h2
  exact ⟨h1, h2⟩

end Props
end Verif
