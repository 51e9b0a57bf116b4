import Verif.Spec.Rect
import Verif.Props.Fit
/-! C43: a rectangle is drawn inside its area. -/
namespace Verif
open Spec

/-- Printing a text changes its cells, and moves the cursor after it. -/
theorem Term.put_eq (s : CompoundStyle) (txt : Text) : ∀ (t : Term),
    (t.put s txt).x = t.x + txt.length ∧ (t.put s txt).y = t.y ∧
    ∀ x y, (t.put s txt).screen x y =
      if h : y = t.y ∧ t.x ≤ x ∧ x - t.x < txt.length then (s, txt[x - t.x]) else t.screen x y := by
  induction txt with
  | nil => intro t; simp [Term.put]
  | cons c cs ih =>
    intro t
    obtain ⟨h1, h2, h3⟩ := ih ⟨fun x y => if x = t.x ∧ y = t.y then (s, c) else t.screen x y, t.x + 1, t.y⟩
    refine ⟨by rw [Term.put, h1]; simp; omega, by rw [Term.put, h2], ?_⟩
    intro x y
    rw [Term.put, h3]
    by_cases hy : y = t.y
    · by_cases hx : x = t.x
      · subst hx
        simp [hy]
        intro h; omega
      · by_cases hlt : t.x + 1 ≤ x
        · have e : x - t.x = (x - (t.x + 1)) + 1 := by omega
          by_cases hl : x - (t.x + 1) < cs.length
          · have : t.x ≤ x := by omega
            simp [hy, hlt, hl, this, e]
          · have h' : ¬ x - t.x < (c :: cs).length := by simp; omega
            simp [hy, hl, hx]
            simp at h'; omega
        · simp [hy, hlt, hx]
          intro h; omega
    · simp [hy]

theorem Term.play_append (t : Term) (a b : List Cmd) : t.play (a ++ b) = (t.play a).play b := by
  simp [Term.play]

theorem Term.put_append (s : CompoundStyle) (a b : Text) : ∀ t : Term, t.put s (a ++ b) = (t.put s a).put s b := by
  induction a with
  | nil => intro t; rfl
  | cons c cs ih => intro t; simp only [List.cons_append, Term.put]; exact ih _

/-- Printing texts one after the other is printing them joined. -/
theorem Term.play_prints (s : CompoundStyle) (texts : List Text) : ∀ t : Term,
    t.play (texts.map (.print s)) = t.put s texts.flatten := by
  induction texts with
  | nil => intro t; rfl
  | cons a as ih =>
    intro t
    simp only [List.map_cons, List.flatten_cons, Term.put_append, ← ih]
    rfl

/-- A row of `first`, then `n` times `middle`, then `last`. -/
theorem Term.put_row (s : CompoundStyle) (first middle last : Char) (n : Nat) (t : Term) (x y : Nat) :
    (t.put s (first :: (List.replicate n middle ++ [last]))).screen x y =
      if y = t.y ∧ t.x ≤ x ∧ x ≤ t.x + n + 1 then
        (s, if x = t.x then first else if x = t.x + n + 1 then last else middle)
      else t.screen x y := by
  rw [(Term.put_eq s _ t).2.2]
  by_cases h : y = t.y ∧ t.x ≤ x ∧ x ≤ t.x + n + 1
  · have h' : y = t.y ∧ t.x ≤ x ∧ x - t.x < (first :: (List.replicate n middle ++ [last])).length := by
      refine ⟨h.1, h.2.1, ?_⟩; simp; omega
    rw [dif_pos h', if_pos h]
    congr 1
    by_cases hx : x = t.x
    · simp [hx]
    · rw [if_neg hx]
      obtain ⟨k, hk⟩ : ∃ k, x - t.x = k + 1 := ⟨x - t.x - 1, by omega⟩
      simp only [hk, List.getElem_cons_succ]
      by_cases hl : x = t.x + n + 1
      · rw [if_pos hl, List.getElem_append_right (by simp; omega)]
        simp
      · rw [if_neg hl, List.getElem_append_left (by simp; omega)]
        simp
  · have h' : ¬ (y = t.y ∧ t.x ≤ x ∧ x - t.x < (first :: (List.replicate n middle ++ [last])).length) := by
      intro hh; apply h; refine ⟨hh.1, hh.2.1, ?_⟩; have := hh.2.2; simp at this; omega
    rw [dif_neg h', if_neg h]

namespace Rect

/-- Drawing a horizontal border. -/
theorem border_screen (r : Rect) (hw : 2 ≤ r.area.width) (row : Nat) (first middle last : Char) (t : Term) (x y : Nat) :
    (t.play (r.border row first middle last)).screen x y =
      if y = row ∧ r.area.left ≤ x ∧ x ≤ r.area.left + r.area.width - 1 then
        (r.colors, if x = r.area.left then first else if x = r.area.left + r.area.width - 1 then last else middle)
      else t.screen x y := by
  have e : r.border row first middle last = .moveTo r.area.left row ::
      ([first] :: (List.replicate (r.area.width - 2) [middle] ++ [[last]])).map (.print r.colors) := by
    unfold border
    by_cases h : r.area.width > 2
    · simp [h]
    · have : r.area.width - 2 = 0 := by omega
      simp [h, this]
  have f : ([first] :: (List.replicate (r.area.width - 2) [middle] ++ [[last]])).flatten =
      first :: (List.replicate (r.area.width - 2) middle ++ [last]) := by
    simp [List.flatten_replicate_singleton]
  have g : ∀ (c : Cmd) cs, t.play (c :: cs) = (t.exec c).play cs := fun _ _ => rfl
  rw [e, g, Term.play_prints, f, Term.put_row]
  have : r.area.left + (r.area.width - 2) + 1 = r.area.left + r.area.width - 1 := by omega
  simp only [Term.exec, this]

/-- A row between the borders. -/
theorem side_screen (r : Rect) (hw : 2 ≤ r.area.width) (hon : OnScreen r.area) (row : Nat) :
    ∃ mid, r.inside row = some mid ∧ ∀ (t : Term) (x y : Nat),
      (t.play ([.moveTo r.area.left row, .print r.colors [r.borderStyle.left]] ++ mid ++ [.print r.colors [r.borderStyle.right]])).screen x y =
        if y = row ∧ r.area.left ≤ x ∧ x ≤ r.area.left + r.area.width - 1 then
          (if x = r.area.left then (r.colors, r.borderStyle.left)
          else if x = r.area.left + r.area.width - 1 then (r.colors, r.borderStyle.right)
          else if r.fill then (r.colors, ' ') else t.screen x y)
        else t.screen x y := by
  have hl : r.area.left + (r.area.width - 2) + 1 = r.area.left + r.area.width - 1 := by omega
  by_cases hf : r.fill = true
  · obtain ⟨chunks, e1, e2⟩ : ∃ chunks : List Text,
        (if r.area.width > 2 then (do
          let chunks ← (Filling.fromChar ' ').queue (r.area.width - 2)
          some (chunks.map (Cmd.print r.colors))) else some []) = some (chunks.map (Cmd.print r.colors)) ∧
        chunks.flatten = List.replicate (r.area.width - 2) ' ' := by
      by_cases h : r.area.width > 2
      · obtain ⟨chunks, e1, e2⟩ := filling_queue ' ' (r.area.width - 2)
        exact ⟨chunks, by simp [h, e1], e2⟩
      · have : r.area.width - 2 = 0 := by omega
        exact ⟨[], by simp [h], by simp [this]⟩
    refine ⟨chunks.map (.print r.colors), by unfold inside; rw [if_pos hf]; exact e1, ?_⟩
    intro t x y
    have e : [Cmd.moveTo r.area.left row, .print r.colors [r.borderStyle.left]] ++ chunks.map (.print r.colors) ++ [.print r.colors [r.borderStyle.right]]
        = .moveTo r.area.left row :: ([r.borderStyle.left] :: (chunks ++ [[r.borderStyle.right]])).map (.print r.colors) := by simp
    have f : ([r.borderStyle.left] :: (chunks ++ [[r.borderStyle.right]])).flatten =
        r.borderStyle.left :: (List.replicate (r.area.width - 2) ' ' ++ [r.borderStyle.right]) := by simp [e2]
    have g : ∀ (c : Cmd) cs, t.play (c :: cs) = (t.exec c).play cs := fun _ _ => rfl
    rw [e, g, Term.play_prints, f, Term.put_row]
    simp only [Term.exec, hl, hf, if_true]
    split
    · split
      · rfl
      · split <;> rfl
    · rfl
  · refine ⟨[.moveTo (r.area.left + r.area.width - 1) row], ?_, ?_⟩
    · unfold inside
      rw [if_neg hf]
      have h1 : u16Add r.area.left r.area.width = some (r.area.left + r.area.width) := by
        unfold u16Add; exact if_pos hon.1
      have h2 : csub (r.area.left + r.area.width) 1 = some (r.area.left + r.area.width - 1) := by
        unfold csub; rw [if_pos (by omega)]
      simp [h1, h2]
    · intro t x y
      simp only [Term.play, List.cons_append, List.nil_append, List.foldl_cons, List.foldl_nil, Term.exec, Term.put, hf]
      by_cases hy : y = row
      · by_cases hx : x = r.area.left
        · have : ¬ r.area.left = r.area.left + r.area.width - 1 := by omega
          have h' : r.area.left ≤ r.area.left + r.area.width - 1 := by omega
          simp [hy, hx, this, h']
        · by_cases hx' : x = r.area.left + r.area.width - 1
          · have h' : r.area.left ≤ r.area.left + r.area.width - 1 := by omega
            have h'' : ¬ r.area.left + r.area.width - 1 = r.area.left := by omega
            simp [hy, hx', h', h'']
          · simp [hy, hx, hx']
      · simp [hy]

/-- The rows between the borders. -/
theorem sides_screen (r : Rect) (hw : 2 ≤ r.area.width) (hon : OnScreen r.area) (stop : Nat) (hstop : stop < 65535) :
    ∀ n from_, stop - from_ = n → ∃ rows, r.sidesLoop stop n from_ = some rows ∧ ∀ (t : Term) (x y : Nat),
      (t.play rows).screen x y =
        if (from_ ≤ y ∧ y < stop) ∧ r.area.left ≤ x ∧ x ≤ r.area.left + r.area.width - 1 then
          (if x = r.area.left then (r.colors, r.borderStyle.left)
          else if x = r.area.left + r.area.width - 1 then (r.colors, r.borderStyle.right)
          else if r.fill then (r.colors, ' ') else t.screen x y)
        else t.screen x y := by
  intro n
  induction n with
  | zero =>
    intro k hk
    refine ⟨[], by rw [sidesLoop, if_neg (by omega)], ?_⟩
    intro t x y
    rw [if_neg (by omega)]; rfl
  | succ n ih =>
    intro k hk
    obtain ⟨rest, e1, e2⟩ := ih (k + 1) (by omega)
    obtain ⟨mid, e3, e4⟩ := r.side_screen hw hon k
    have e5 : u16Add k 1 = some (k + 1) := by unfold u16Add; exact if_pos (by simp only [u16Size]; omega)
    refine ⟨[.moveTo r.area.left k, .print r.colors [r.borderStyle.left]] ++ mid ++ [.print r.colors [r.borderStyle.right]] ++ rest, ?_, ?_⟩
    · rw [sidesLoop, if_pos (by omega)]
      simp [e1, e3, e5]
    · intro t x y
      rw [Term.play_append, e2, e4]
      by_cases hx : r.area.left ≤ x ∧ x ≤ r.area.left + r.area.width - 1
      · by_cases hy : y = k
        · have h1 : ¬ (k + 1 ≤ y ∧ y < stop) := by omega
          have h2 : k ≤ y ∧ y < stop := by omega
          have a1 : y = k ∧ r.area.left ≤ x ∧ x ≤ r.area.left + r.area.width - 1 := ⟨hy, hx⟩
          have a2 : ¬ ((k + 1 ≤ y ∧ y < stop) ∧ r.area.left ≤ x ∧ x ≤ r.area.left + r.area.width - 1) := fun h => h1 h.1
          have a3 : (k ≤ y ∧ y < stop) ∧ r.area.left ≤ x ∧ x ≤ r.area.left + r.area.width - 1 := ⟨h2, hx⟩
          rw [if_neg a2, if_pos a1, if_pos a3]
        · by_cases h2 : k ≤ y ∧ y < stop
          · have h1 : k + 1 ≤ y ∧ y < stop := by omega
            simp [hx, hy, h1, h2]
          · have h1 : ¬ (k + 1 ≤ y ∧ y < stop) := by omega
            simp only [h1, h2, false_and, if_false, hy]
      · simp only [hx, and_false, if_false]

end Rect

namespace Props

/-- Drawing a rectangle of at least 2 columns and 2 rows works, whatever is on the terminal and wherever the cursor is: the cells of
the rectangle have its characters, in its style, and all the other ones are unchanged. -/
theorem C43_draw (r : Rect) (hw : 2 ≤ r.area.width) (hh : 2 ≤ r.area.height) (hon : OnScreen r.area) :
    ∃ cmds, r.draw = some cmds ∧ ∀ (t : Term) (x y : Nat), (t.play cmds).screen x y =
      match rectCell r x y with
      | some c => (r.colors, c)
      | none => t.screen x y := by
  have hb := hon.2
  have e1 : u16Add r.area.top 1 = some (r.area.top + 1) := by unfold u16Add; exact if_pos (by simp only [u16Size]; omega)
  have e2 : u16Add r.area.top r.area.height = some (r.area.top + r.area.height) := by
    unfold u16Add; exact if_pos (by simp only [u16Size]; omega)
  have e3 : csub (r.area.top + r.area.height) 1 = some (r.area.top + r.area.height - 1) := by unfold csub; rw [if_pos (by omega)]
  obtain ⟨rows, e4, e5⟩ := r.sides_screen hw hon (r.area.top + r.area.height - 1) (by omega) _ (r.area.top + 1) rfl
  have e6 : r.area.bottom = some (r.area.top + r.area.height) := by unfold Area.bottom; exact e2
  refine ⟨_, by simp only [Rect.draw, Rect.sides, e1, e2, e3, e4, e6, Option.bind_eq_bind, Option.bind_some]; rfl, ?_⟩
  intro t x y
  rw [Term.play_append, Term.play_append, r.border_screen hw, e5, r.border_screen hw]
  unfold rectCell
  simp only
  by_cases hx : r.area.left ≤ x ∧ x ≤ r.area.left + r.area.width - 1
  · have hx' : ¬ x < r.area.left ∧ ¬ r.area.left + r.area.width - 1 < x := by omega
    by_cases h1 : y = r.area.top
    · have a : ¬ r.area.top = r.area.top + r.area.height - 1 := by omega
      have b : ¬ (r.area.top + 1 ≤ r.area.top ∧ r.area.top < r.area.top + r.area.height - 1) := by omega
      have c : ¬ r.area.top + r.area.height - 1 < r.area.top := by omega
      subst h1
      simp only [a, b, hx, hx', c, Nat.lt_irrefl, false_and, or_self, if_false, and_self, if_true]
      split
      · rfl
      · split <;> rfl
    · by_cases h2 : y = r.area.top + r.area.height - 1
      · have c : ¬ r.area.top + r.area.height - 1 < r.area.top := by omega
        rw [h2] at h1 ⊢
        simp only [h1, hx, hx', c, Nat.lt_irrefl, or_self, if_false, and_self, if_true]
        split
        · rfl
        · split <;> rfl
      · by_cases h3 : r.area.top + 1 ≤ y ∧ y < r.area.top + r.area.height - 1
        · have c : ¬ y < r.area.top := by omega
          have d : ¬ r.area.top + r.area.height - 1 < y := by omega
          simp only [h1, h2, h3, hx, hx', c, d, or_self, if_false, false_and, and_self, if_true]
          split
          · rfl
          · split
            · rfl
            · split <;> rfl
        · have : y < r.area.top ∨ r.area.top + r.area.height - 1 < y := by omega
          simp only [h1, h2, h3, this, or_true, if_true, if_false, false_and]
  · have : x < r.area.left ∨ r.area.left + r.area.width - 1 < x ∨ y < r.area.top ∨ r.area.top + r.area.height - 1 < y := by omega
    simp only [hx, this, and_false, if_false, if_true]

/-- A rectangle is in its area, and with fill it's all of its area. -/
theorem C43_cells (r : Rect) (hw : 2 ≤ r.area.width) (hh : 2 ≤ r.area.height) (x y : Nat) :
    ((rectCell r x y).isSome → InArea r.area x y) ∧ (r.fill = true → InArea r.area x y → (rectCell r x y).isSome) := by
  constructor
  · intro h
    by_cases ho : x < r.area.left ∨ r.area.left + r.area.width - 1 < x ∨ y < r.area.top ∨ r.area.top + r.area.height - 1 < y
    · unfold rectCell at h; simp only [ho, if_true] at h; cases h
    · exact ⟨x - r.area.left, y - r.area.top, by omega, by omega, by omega, by omega⟩
  · rintro hf ⟨i, j, hi, hj, rfl, rfl⟩
    unfold rectCell
    have ho : ¬ (r.area.left + i < r.area.left ∨ r.area.left + r.area.width - 1 < r.area.left + i ∨ r.area.top + j < r.area.top ∨
      r.area.top + r.area.height - 1 < r.area.top + j) := by omega
    simp only [ho, if_false, hf, if_true]
    repeat' split
    all_goals rfl

/-- A rectangle of 4 × 3 over a screen of dots, with its neighbouring cells. -/
example : let r : Rect := ⟨⟨2, 1, 4, 3⟩, {}, false, .middleRoundLine⟩
    r.draw.map (fun cmds => (List.range 5).map fun y => (List.range 8).map fun x =>
      (((⟨fun _ _ => ({}, '.'), 7, 7⟩ : Term).play cmds).screen x y).2) =
    some (["........", "..╭──╮..", "..│..│..", "..╰──╯..", "........"].map String.toList) := by decide

/-- The same one, filled. -/
example : let r : Rect := ⟨⟨2, 1, 4, 3⟩, {}, true, .middleRoundLine⟩
    (2 ≤ r.area.width ∧ 2 ≤ r.area.height ∧ OnScreen r.area) ∧
    ((List.range 5).map fun y => (List.range 8).map fun x => (rectCell r x y).getD '.') =
      ["........", "..╭──╮..", "..│  │..", "..╰──╯..", "........"].map String.toList := by
  unfold OnScreen; decide

private theorem inside_none (r : Rect) (y : Nat) : r.inside y = none ↔
    r.fill = false ∧ (65536 ≤ r.area.left + r.area.width ∨ r.area.left + r.area.width = 0) := by
  unfold Rect.inside
  cases hf : r.fill with
  | true =>
    obtain ⟨chunks, e, _⟩ := filling_queue ' ' (r.area.width - 2)
    by_cases h : r.area.width > 2 <;> simp [h, e]
  | false =>
    unfold u16Add csub
    by_cases h : r.area.left + r.area.width < u16Size
    · by_cases h' : 1 ≤ r.area.left + r.area.width
      · simp only [u16Size] at h
        simp [u16Size, h, h']
        omega
      · simp only [u16Size] at h
        simp [u16Size, h, h']
        omega
    · simp only [u16Size] at h
      simp [u16Size, h]
      omega

private theorem sides_none (r : Rect) (stop : Nat) (hstop : stop < 65536) : ∀ n y, stop - y = n →
    (r.sidesLoop stop n y = none ↔ y < stop ∧ r.fill = false ∧ (65536 ≤ r.area.left + r.area.width ∨ r.area.left + r.area.width = 0)) := by
  intro n
  induction n with
  | zero =>
    intro y hy
    rw [Rect.sidesLoop, if_neg (by omega)]
    simp; omega
  | succ n ih =>
    intro y hy
    have e5 : u16Add y 1 = some (y + 1) := by unfold u16Add; exact if_pos (by simp only [u16Size]; omega)
    rw [Rect.sidesLoop, if_pos (by omega)]
    have h1 := inside_none r y
    have h2 := ih (y + 1) (by omega)
    have hy' : y < stop := by omega
    cases hm : r.inside y with
    | none =>
      have := h1.1 hm
      simp only [Option.bind_eq_bind, Option.bind_none, true_iff]
      exact ⟨hy', this⟩
    | some mid =>
      have hno : ¬ (r.fill = false ∧ (65536 ≤ r.area.left + r.area.width ∨ r.area.left + r.area.width = 0)) := fun h => by
        rw [h1.2 h] at hm; cases hm
      cases hl : r.sidesLoop stop n (y + 1) with
      | none => exact absurd (h2.1 hl).2 hno
      | some rest =>
        simp only [e5, hl, Option.bind_eq_bind, Option.bind_some, reduceCtorEq, false_iff]
        exact fun h => hno h.2

/-- C43: the exact cases in which drawing a rectangle panics: a row isn't a `u16` (the one under it is computed too), it has no row and is at the
top of the screen or, without fill, it has more than 2 rows and its right column isn't a `u16`. -/
theorem C43_panics (r : Rect) : r.draw = none ↔ 65536 ≤ r.area.top + max 1 r.area.height ∨
    r.area.top + r.area.height = 0 ∨
    2 < r.area.height ∧ r.fill = false ∧ (65536 ≤ r.area.left + r.area.width ∨ r.area.left + r.area.width = 0) := by
  by_cases c1 : 65536 ≤ r.area.top + 1
  · have : u16Add r.area.top 1 = none := by unfold u16Add; rw [if_neg (by simp only [u16Size]; omega)]
    simp only [Rect.draw, this, Option.bind_eq_bind, Option.bind_none, true_iff]
    omega
  have e1 : u16Add r.area.top 1 = some (r.area.top + 1) := by unfold u16Add; rw [if_pos (by simp only [u16Size]; omega)]
  by_cases c2 : 65536 ≤ r.area.top + r.area.height
  · have : u16Add r.area.top r.area.height = none := by unfold u16Add; rw [if_neg (by simp only [u16Size]; omega)]
    simp only [Rect.draw, e1, this, Option.bind_eq_bind, Option.bind_none, Option.bind_some, true_iff]
    omega
  have e2 : u16Add r.area.top r.area.height = some (r.area.top + r.area.height) := by
    unfold u16Add; rw [if_pos (by simp only [u16Size]; omega)]
  by_cases c3 : r.area.top + r.area.height = 0
  · have : csub (r.area.top + r.area.height) 1 = none := by unfold csub; rw [if_neg (by omega)]
    simp only [Rect.draw, e1, e2, this, Option.bind_eq_bind, Option.bind_none, Option.bind_some, true_iff]
    omega
  have e3 : csub (r.area.top + r.area.height) 1 = some (r.area.top + r.area.height - 1) := by unfold csub; rw [if_pos (by omega)]
  have h := sides_none r (r.area.top + r.area.height - 1) (by omega) _ (r.area.top + 1) rfl
  have hd : r.draw = none ↔ r.sides (r.area.top + r.area.height - 1) (r.area.top + 1) = none := by
    simp only [Rect.draw, e1, e2, e3, Area.bottom, Option.bind_eq_bind, Option.bind_some]
    cases r.sides (r.area.top + r.area.height - 1) (r.area.top + 1) <;> simp
  rw [hd]
  unfold Rect.sides
  rw [h]
  constructor
  · rintro ⟨a, b⟩; exact .inr (.inr ⟨by omega, b⟩)
  · rintro (a | a | ⟨a, b⟩)
    · omega
    · omega
    · exact ⟨by omega, b⟩

/-- C43: the last row of the screen can't be used. -/
example : (⟨⟨0, 65533, 4, 3⟩, {}, true, .bland⟩ : Rect).draw = none ∧
    ((⟨⟨0, 65533, 4, 2⟩, {}, true, .bland⟩ : Rect).draw).isSome = true := by decide

/-- A rectangle of only one column is drawn out of its area. -/
theorem C43_narrow_counterexample : ∃ (r : Rect) (cmds : List Cmd), r.area.width = 1 ∧ r.area.height = 2 ∧ OnScreen r.area ∧ r.draw = some cmds ∧
    ∃ (t : Term) (x y : Nat), ¬ InArea r.area x y ∧ (t.play cmds).screen x y ≠ t.screen x y := by
  refine ⟨⟨⟨0, 0, 1, 2⟩, {}, false, .middleSquareLine⟩, _, rfl, rfl, by unfold OnScreen; decide, rfl, ⟨fun _ _ => ({}, '.'), 0, 0⟩, 1, 0, ?_, by decide⟩
  rintro ⟨i, j, hi, _, hx, _⟩
  simp at hi hx; omega

/-- A rectangle without row at the top of the screen makes drawing fail. -/
theorem C43_empty_counterexample : ∃ r : Rect, r.area.height = 0 ∧ OnScreen r.area ∧ r.draw = none :=
  ⟨⟨⟨0, 0, 4, 0⟩, {}, false, .bland⟩, rfl, by unfold OnScreen; decide, by decide⟩

/-- In a rectangle of only one row, the top border isn't displayed. -/
theorem C43_flat_counterexample : ∃ (r : Rect) (cmds : List Cmd), r.area.height = 1 ∧ r.draw = some cmds ∧
    ((⟨fun _ _ => ({}, '.'), 0, 0⟩ : Term).play cmds).screen r.area.left r.area.top ≠ (r.colors, r.borderStyle.topLeft) :=
  ⟨⟨⟨0, 0, 4, 1⟩, {}, false, .middleSquareLine⟩, _, rfl, rfl, by decide⟩

end Props
end Verif
