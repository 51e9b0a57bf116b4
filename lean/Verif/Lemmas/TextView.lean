import Verif.Spec.TextView
/-! Lemmas on text views. -/
namespace Verif
open TextView

theorem clampTo_le (m : Nat) (n : Int) : clampTo m n ≤ m := by
  unfold clampTo; split
  · omega
  · split <;> omega

theorem setScroll_ok (v : TextView) (n : Nat) : v.setScroll n = { v with scroll := clampTo v.maxScroll n } := by
  unfold setScroll clampTo maxScroll contentHeight
  congr 1
  split
  · rw [if_neg (by omega)]; split <;> omega
  · rw [if_neg (by omega)]; split <;> omega

theorem scrollLines_ok (v : TextView) (hs : v.scroll ≤ v.maxScroll) (n : Int) (h : n ≠ i32Min) :
    v.tryScrollLines n = some { v with scroll := clampTo v.maxScroll (v.scroll + n) } := by
  unfold tryScrollLines
  by_cases c : n < 0
  · rw [if_pos c, if_neg h]
    congr 2
    unfold clampTo
    obtain ⟨m, rfl⟩ : ∃ m : Nat, n = -m := ⟨n.natAbs, by omega⟩
    rw [Int.neg_neg, Int.toNat_natCast]
    by_cases c2 : m ≥ v.scroll
    · rw [if_pos c2]
      by_cases c3 : (v.scroll : Int) + -m < 0
      · rw [if_pos c3]
      · rw [if_neg c3, if_pos (by omega)]; omega
    · rw [if_neg c2, if_neg (by omega), if_pos (by omega)]; omega
  · rw [if_neg c, setScroll_ok]
    congr 3
    omega

theorem lineUp_ok (v : TextView) (hs : v.scroll ≤ v.maxScroll) :
    v.lineUp = ({ v with scroll := clampTo v.maxScroll (v.scroll - 1) }, decide (clampTo v.maxScroll (v.scroll - 1) ≠ v.scroll)) := by
  have e : clampTo v.maxScroll (v.scroll - 1) = v.scroll - 1 := by
    unfold clampTo; split
    · omega
    · split <;> omega
  rw [e]
  unfold lineUp
  split
  · simp; omega
  · have : v.scroll - 1 = v.scroll := by omega
    rw [this]; simp

theorem lineDown_ok (v : TextView) (hs : v.scroll ≤ v.maxScroll) :
    v.lineDown = ({ v with scroll := clampTo v.maxScroll (v.scroll + 1) }, decide (clampTo v.maxScroll (v.scroll + 1) ≠ v.scroll)) := by
  have e : clampTo v.maxScroll (v.scroll + 1) = min (v.scroll + 1) v.maxScroll := by
    unfold clampTo; rw [if_neg (by omega)]; split <;> omega
  rw [e]
  unfold lineDown contentHeight
  unfold maxScroll at *
  split
  · have : min (v.scroll + 1) (v.lines.length - v.area.height) = v.scroll + 1 := by omega
    rw [this]; simp
  · have : min (v.scroll + 1) (v.lines.length - v.area.height) = v.scroll := by omega
    rw [this]; simp

theorem pageUp_ok (v : TextView) (hs : v.scroll ≤ v.maxScroll) :
    v.pageUp = ({ v with scroll := clampTo v.maxScroll (v.scroll - v.area.height) }, v.pageUp.2) ∧
      (1 ≤ v.area.height → (v.pageUp.2 = true ↔ v.pageUp.1.scroll ≠ v.scroll)) := by
  have e : clampTo v.maxScroll (v.scroll - v.area.height) = v.scroll - v.area.height := by
    unfold clampTo; split
    · omega
    · split <;> omega
  rw [e]
  unfold pageUp
  split
  · exact ⟨rfl, by simp; omega⟩
  · split
    · have : v.scroll - v.area.height = 0 := by omega
      rw [this]; exact ⟨rfl, by simp; omega⟩
    · have : v.scroll - v.area.height = v.scroll := by omega
      rw [this]; simp

theorem pageDown_ok (v : TextView) (hs : v.scroll ≤ v.maxScroll) :
    v.pageDown = ({ v with scroll := clampTo v.maxScroll (v.scroll + v.area.height) }, v.pageDown.2) ∧
      (1 ≤ v.area.height → (v.pageDown.2 = true ↔ v.pageDown.1.scroll ≠ v.scroll)) := by
  have e : clampTo v.maxScroll (v.scroll + v.area.height) = min (v.scroll + v.area.height) v.maxScroll := by
    unfold clampTo; rw [if_neg (by omega)]; split <;> omega
  rw [e]
  unfold pageDown contentHeight
  unfold maxScroll at *
  split
  · have : min (v.scroll + v.area.height) (v.lines.length - v.area.height) = v.scroll + v.area.height := by omega
    rw [this]; exact ⟨rfl, by simp; omega⟩
  · split
    · have : min (v.scroll + v.area.height) (v.lines.length - v.area.height) = v.lines.length - v.area.height := by omega
      rw [this]; exact ⟨rfl, by simp; omega⟩
    · have : min (v.scroll + v.area.height) (v.lines.length - v.area.height) = v.scroll := by omega
      rw [this]; simp

theorem roundedAway_ok (x : Rat) (n : Int) : RoundedAway x n ↔ n = if x < 0 then x.floor else x.ceil := by
  unfold RoundedAway
  by_cases h : x < 0
  · rw [if_pos h]
    have a := Rat.floor_le x
    have b := Rat.lt_floor_add_one x
    constructor
    · intro h'
      have h' := h'.2 h
      have h1 : n ≤ x.floor := Rat.le_floor_iff.2 h'.1
      have h2 : x.floor < n + 1 := Rat.floor_lt_iff.2 (by push_cast; grind)
      omega
    · rintro rfl
      push_cast at b
      exact ⟨fun h' => by grind, fun _ => ⟨a, by grind⟩⟩
  · rw [if_neg h]
    have a := Rat.le_ceil (x := x)
    have b := Rat.ceil_lt (x := x)
    constructor
    · intro h'
      have h' := h'.1 (by grind)
      have h1 : x.ceil ≤ n := Rat.ceil_le_iff.2 h'.1
      have h2 : n - 1 < x.ceil := Rat.lt_ceil_iff.2 (by push_cast; grind)
      omega
    · rintro rfl
      exact ⟨fun _ => ⟨a, b⟩, fun h' => absurd h' h⟩

end Verif
