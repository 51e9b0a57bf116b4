import Verif.Spec.ReleaseRect
import Verif.Props.Rect
import Verif.Props.ReleaseField
/-! C111: rectangles in release builds. -/
namespace Verif.Props
open Verif Verif.Spec

theorem subU16_same {a b w : Nat} (h : csub a b = some w) (ha : a < 65536) : Release.subU16 a b = w := by
  unfold csub at h
  unfold Release.subU16
  split at h
  · cases h; omega
  · cases h

theorem u16Add_lt {a b w : Nat} (h : u16Add a b = some w) : w < 65536 := by
  unfold u16Add u16Size at h
  split at h
  · cases h; assumption
  · cases h

theorem rectInside_same (r : Rect) (y : Nat) : Same (r.inside y) (Release.rectInside r y) := by
  unfold Rect.inside Release.rectInside
  refine .ite (.refl _) ?_
  intro cmds h
  simp only [Option.bind_eq_bind, Option.bind_eq_some_iff] at h
  obtain ⟨x, hx, x', hx', e⟩ := h
  rw [addU16_same hx, subU16_same hx' (u16Add_lt hx)]
  exact e

theorem rectSides_same (r : Rect) (stop : Nat) : ∀ (n y : Nat), Same (r.sidesLoop stop n y) (Release.rectSidesLoop r stop n y)
  | 0, _ => .refl _
  | n + 1, y => by
    rw [Rect.sidesLoop, Release.rectSidesLoop]
    refine .ite ((rectInside_same r y).bind fun mid => ?_) (.refl _)
    intro cmds h
    simp only [Option.bind_eq_bind, Option.bind_eq_some_iff] at h ⊢
    obtain ⟨next, hn, rest, hr, e⟩ := h
    rw [addU16_same hn]
    exact ⟨rest, rectSides_same r stop n next _ hr, e⟩

/-- C111: a drawing which doesn't panic in a debug build is the same in a release build. -/
theorem C111_same (r : Rect) (cmds : List Cmd) (h : r.draw = some cmds) : Release.rectDraw r = some cmds := by
  simp only [Rect.draw, Release.rectDraw, Rect.sides, Area.bottom, Release.bottom, Option.bind_eq_bind, Option.bind_eq_some_iff] at h ⊢
  obtain ⟨y, h1, bottom, h2, stop, h3, rows, h4, bottom', h5, last, h6, e⟩ := h
  rw [addU16_same h1, addU16_same h2, subU16_same h3 (u16Add_lt h2)]
  rw [h2] at h5
  cases h5
  rw [h3] at h6
  cases h6
  exact ⟨rows, rectSides_same r stop _ _ _ h4, e⟩

theorem visitedRows_append (a b : List Cmd) : visitedRows (a ++ b) = visitedRows a ++ visitedRows b := by
  induction a with
  | nil => rfl
  | cons c cs ih => cases c <;> simp [visitedRows, ih]

theorem visitedRows_prints (s : CompoundStyle) (ts : List Text) : visitedRows (ts.map (.print s)) = [] := by
  induction ts with
  | nil => rfl
  | cons t ts ih => exact ih

theorem visitedRows_border (r : Rect) (y : Nat) (a b c : Char) : visitedRows (r.border y a b c) = [y] := by
  unfold Rect.border
  have : ∀ n, visitedRows (List.replicate n (Cmd.print r.colors [b])) = [] := by
    intro n
    induction n with
    | zero => rfl
    | succ n ih => exact ih
  split <;> simp [visitedRows_append, visitedRows, this]

theorem rectInside_rows (r : Rect) (y : Nat) : ∃ mid, Release.rectInside r y = some mid ∧ ∀ z ∈ visitedRows mid, z = y := by
  unfold Release.rectInside
  split
  · split
    · obtain ⟨chunks, h, _⟩ := filling_queue ' ' (r.area.width - 2)
      refine ⟨chunks.map (.print r.colors), by rw [h]; rfl, by simp [visitedRows_prints]⟩
    · exact ⟨[], rfl, by simp [visitedRows]⟩
  · exact ⟨_, rfl, by simp [visitedRows]⟩

theorem rectSides_rows (r : Rect) (stop : Nat) (hs : stop < 65536) : ∀ (n y : Nat), stop - y = n →
    ∃ cmds, Release.rectSidesLoop r stop n y = some cmds ∧ ∀ z, z ∈ visitedRows cmds ↔ y ≤ z ∧ z < stop
  | 0, y, h => by
    refine ⟨[], by rw [Release.rectSidesLoop, if_neg (by omega)], fun z => ?_⟩
    simp [visitedRows]
    omega
  | n + 1, y, h => by
    obtain ⟨mid, h1, h2⟩ := rectInside_rows r y
    have e : Release.addU16 y 1 = y + 1 := by unfold Release.addU16; omega
    obtain ⟨rest, h3, h4⟩ := rectSides_rows r stop hs n (y + 1) (by omega)
    refine ⟨_, by rw [Release.rectSidesLoop, if_pos (by omega), h1, e]; simp only [Option.bind_eq_bind, Option.bind_some, h3]; rfl, fun z => ?_⟩
    simp only [visitedRows_append, visitedRows, List.mem_append, List.mem_cons, List.not_mem_nil, or_false, h4]
    constructor
    · rintro ((rfl | hm) | hm)
      · omega
      · have := h2 z hm; omega
      · omega
    · intro hz
      by_cases c : z = y
      · exact .inl (.inl c)
      · exact .inr (by omega)

/-- The rows, whatever the area. -/
theorem rectDraw_rows (r : Rect) : ∃ cmds, Release.rectDraw r = some cmds ∧ ∀ y, y ∈ visitedRows cmds ↔
    y = r.area.top ∨ ((r.area.top + 1) % 65536 ≤ y ∧ y < ((r.area.top + r.area.height) % 65536 + 65535) % 65536) ∨
      y = ((r.area.top + r.area.height) % 65536 + 65535) % 65536 := by
  have e : Release.subU16 (Release.addU16 r.area.top r.area.height) 1 = ((r.area.top + r.area.height) % 65536 + 65535) % 65536 := by
    unfold Release.subU16 Release.addU16; omega
  obtain ⟨rows, h1, h2⟩ := rectSides_rows r (Release.subU16 (Release.addU16 r.area.top r.area.height) 1) (by rw [e]; omega) _ (Release.addU16 r.area.top 1) rfl
  refine ⟨_, by simp only [Release.rectDraw, h1, Option.bind_eq_bind, Option.bind_some]; rfl, fun y => ?_⟩
  simp only [visitedRows_append, visitedRows_border, List.mem_append, List.mem_cons, List.not_mem_nil, or_false, h2, Release.bottom, or_assoc]
  rw [e]
  rfl

/-- C111: in a release build the drawing of a rectangle always ends, and doesn't panic. -/
theorem C111_total (r : Rect) : ∃ cmds, Release.rectDraw r = some cmds := by
  obtain ⟨cmds, h, _⟩ := rectDraw_rows r
  exact ⟨cmds, h⟩

/-- C111: the rows of an area having at least one of them are the only ones where something is written, and something is written in all of them, even when the
area ends at the last row a `u16` can tell (which panics in a debug build). -/
theorem C111_rows (r : Rect) (h1 : 1 ≤ r.area.height) (h2 : r.area.top + r.area.height ≤ 65536) (h3 : r.area.top < 65535) (cmds : List Cmd)
    (h : Release.rectDraw r = some cmds) (y : Nat) : y ∈ visitedRows cmds ↔ r.area.top ≤ y ∧ y < r.area.top + r.area.height := by
  obtain ⟨cmds', k1, k2⟩ := rectDraw_rows r
  rw [h] at k1
  cases k1
  rw [k2]
  omega

/-- A row between the borders. -/
theorem rectSide_screen (r : Rect) (hw : 2 ≤ r.area.width) (hon : r.area.left + r.area.width ≤ 65536) (row : Nat) :
    ∃ mid, Release.rectInside r row = some mid ∧ ∀ (t : Term) (x y : Nat),
      (t.play ([.moveTo r.area.left row, .print r.colors [r.borderStyle.left]] ++ mid ++ [.print r.colors [r.borderStyle.right]])).screen x y =
        if y = row ∧ r.area.left ≤ x ∧ x ≤ r.area.left + r.area.width - 1 then
          (if x = r.area.left then (r.colors, r.borderStyle.left)
          else if x = r.area.left + r.area.width - 1 then (r.colors, r.borderStyle.right)
          else if r.fill then (r.colors, ' ') else t.screen x y)
        else t.screen x y := by
  have hl : r.area.left + (r.area.width - 2) + 1 = r.area.left + r.area.width - 1 := by omega
  by_cases hf : r.fill = true
  · obtain ⟨chunks, e1, e2⟩ : ∃ chunks : List Text,
        (if r.area.width > 2 then (do
          let chunks ← (Filling.fromChar ' ').queue (r.area.width - 2)
          some (chunks.map (Cmd.print r.colors))) else some []) = some (chunks.map (Cmd.print r.colors)) ∧
        chunks.flatten = List.replicate (r.area.width - 2) ' ' := by
      by_cases h : r.area.width > 2
      · obtain ⟨chunks, e1, e2⟩ := filling_queue ' ' (r.area.width - 2)
        exact ⟨chunks, by simp [h, e1], e2⟩
      · have : r.area.width - 2 = 0 := by omega
        exact ⟨[], by simp [h], by simp [this]⟩
    refine ⟨chunks.map (.print r.colors), by unfold Release.rectInside; rw [if_pos hf]; exact e1, ?_⟩
    intro t x y
    have e : [Cmd.moveTo r.area.left row, .print r.colors [r.borderStyle.left]] ++ chunks.map (.print r.colors) ++ [.print r.colors [r.borderStyle.right]]
        = .moveTo r.area.left row :: ([r.borderStyle.left] :: (chunks ++ [[r.borderStyle.right]])).map (.print r.colors) := by simp
    have f : ([r.borderStyle.left] :: (chunks ++ [[r.borderStyle.right]])).flatten =
        r.borderStyle.left :: (List.replicate (r.area.width - 2) ' ' ++ [r.borderStyle.right]) := by simp [e2]
    have g : ∀ (c : Cmd) cs, t.play (c :: cs) = (t.exec c).play cs := fun _ _ => rfl
    rw [e, g, Term.play_prints, f, Term.put_row]
    simp only [Term.exec, hl, hf, if_true]
    split
    · split
      · rfl
      · split <;> rfl
    · rfl
  · refine ⟨[.moveTo (r.area.left + r.area.width - 1) row], ?_, ?_⟩
    · unfold Release.rectInside
      rw [if_neg hf]
      have h1 : Release.subU16 (Release.addU16 r.area.left r.area.width) 1 = r.area.left + r.area.width - 1 := by
        unfold Release.subU16 Release.addU16; omega
      rw [h1]
    · intro t x y
      simp only [Term.play, List.cons_append, List.nil_append, List.foldl_cons, List.foldl_nil, Term.exec, Term.put, hf]
      by_cases hy : y = row
      · by_cases hx : x = r.area.left
        · have : ¬ r.area.left = r.area.left + r.area.width - 1 := by omega
          have h' : r.area.left ≤ r.area.left + r.area.width - 1 := by omega
          simp [hy, hx, this, h']
        · by_cases hx' : x = r.area.left + r.area.width - 1
          · have h' : r.area.left ≤ r.area.left + r.area.width - 1 := by omega
            have h'' : ¬ r.area.left + r.area.width - 1 = r.area.left := by omega
            simp [hy, hx', h', h'']
          · simp [hy, hx, hx']
      · simp [hy]

/-- The rows between the borders. -/
theorem rectSides_screen (r : Rect) (hw : 2 ≤ r.area.width) (hon : r.area.left + r.area.width ≤ 65536) (stop : Nat) (hstop : stop ≤ 65535) :
    ∀ n from_, stop - from_ = n → ∃ rows, Release.rectSidesLoop r stop n from_ = some rows ∧ ∀ (t : Term) (x y : Nat),
      (t.play rows).screen x y =
        if (from_ ≤ y ∧ y < stop) ∧ r.area.left ≤ x ∧ x ≤ r.area.left + r.area.width - 1 then
          (if x = r.area.left then (r.colors, r.borderStyle.left)
          else if x = r.area.left + r.area.width - 1 then (r.colors, r.borderStyle.right)
          else if r.fill then (r.colors, ' ') else t.screen x y)
        else t.screen x y := by
  intro n
  induction n with
  | zero =>
    intro k hk
    refine ⟨[], by rw [Release.rectSidesLoop, if_neg (by omega)], ?_⟩
    intro t x y
    rw [if_neg (by omega)]; rfl
  | succ n ih =>
    intro k hk
    obtain ⟨rest, e1, e2⟩ := ih (k + 1) (by omega)
    obtain ⟨mid, e3, e4⟩ := rectSide_screen r hw hon k
    have e5 : Release.addU16 k 1 = k + 1 := by unfold Release.addU16; omega
    refine ⟨[.moveTo r.area.left k, .print r.colors [r.borderStyle.left]] ++ mid ++ [.print r.colors [r.borderStyle.right]] ++ rest, ?_, ?_⟩
    · rw [Release.rectSidesLoop, if_pos (by omega)]
      simp [e1, e3, e5]
    · intro t x y
      rw [Term.play_append, e2, e4]
      by_cases hx : r.area.left ≤ x ∧ x ≤ r.area.left + r.area.width - 1
      · by_cases hy : y = k
        · have h1 : ¬ (k + 1 ≤ y ∧ y < stop) := by omega
          have h2 : k ≤ y ∧ y < stop := by omega
          have a1 : y = k ∧ r.area.left ≤ x ∧ x ≤ r.area.left + r.area.width - 1 := ⟨hy, hx⟩
          have a2 : ¬ ((k + 1 ≤ y ∧ y < stop) ∧ r.area.left ≤ x ∧ x ≤ r.area.left + r.area.width - 1) := fun h => h1 h.1
          have a3 : (k ≤ y ∧ y < stop) ∧ r.area.left ≤ x ∧ x ≤ r.area.left + r.area.width - 1 := ⟨h2, hx⟩
          rw [if_neg a2, if_pos a1, if_pos a3]
        · by_cases h2 : k ≤ y ∧ y < stop
          · have h1 : k + 1 ≤ y ∧ y < stop := by omega
            simp [hx, hy, h1, h2]
          · have h1 : ¬ (k + 1 ≤ y ∧ y < stop) := by omega
            simp only [h1, h2, false_and, if_false, hy]
      · simp only [hx, and_false, if_false]

/-- C111: a rectangle of at least 2 columns and 2 rows in the 65536 columns and rows which can be told is drawn as in C43, even when it ends at the last column
or row (which panics in a debug build). -/
theorem C111_draw (r : Rect) (hw : 2 ≤ r.area.width) (hh : 2 ≤ r.area.height) (hr : r.area.left + r.area.width ≤ 65536)
    (hb : r.area.top + r.area.height ≤ 65536) : ∃ cmds, Release.rectDraw r = some cmds ∧ ∀ (t : Term) (x y : Nat), (t.play cmds).screen x y =
      match rectCell r x y with
      | some c => (r.colors, c)
      | none => t.screen x y := by
  have e1 : Release.addU16 r.area.top 1 = r.area.top + 1 := by unfold Release.addU16; omega
  have e3 : Release.subU16 (Release.addU16 r.area.top r.area.height) 1 = r.area.top + r.area.height - 1 := by
    unfold Release.subU16 Release.addU16; omega
  obtain ⟨rows, e4, e5⟩ := rectSides_screen r hw hr (r.area.top + r.area.height - 1) (by omega) _ (r.area.top + 1) rfl
  refine ⟨_, by simp only [Release.rectDraw, Release.bottom, e1, e3, e4, Option.bind_eq_bind, Option.bind_some]; rfl, ?_⟩
  intro t x y
  rw [Term.play_append, Term.play_append, r.border_screen hw, e5, r.border_screen hw]
  unfold rectCell
  simp only
  by_cases hx : r.area.left ≤ x ∧ x ≤ r.area.left + r.area.width - 1
  · have hx' : ¬ x < r.area.left ∧ ¬ r.area.left + r.area.width - 1 < x := by omega
    by_cases h1 : y = r.area.top
    · have a : ¬ r.area.top = r.area.top + r.area.height - 1 := by omega
      have b : ¬ (r.area.top + 1 ≤ r.area.top ∧ r.area.top < r.area.top + r.area.height - 1) := by omega
      have c : ¬ r.area.top + r.area.height - 1 < r.area.top := by omega
      subst h1
      simp only [a, b, hx, hx', c, Nat.lt_irrefl, false_and, or_self, if_false, and_self, if_true]
      split
      · rfl
      · split <;> rfl
    · by_cases h2 : y = r.area.top + r.area.height - 1
      · have c : ¬ r.area.top + r.area.height - 1 < r.area.top := by omega
        rw [h2] at h1 ⊢
        simp only [h1, hx, hx', c, Nat.lt_irrefl, or_self, if_false, and_self, if_true]
        split
        · rfl
        · split <;> rfl
      · by_cases h3 : r.area.top + 1 ≤ y ∧ y < r.area.top + r.area.height - 1
        · have c : ¬ y < r.area.top := by omega
          have d : ¬ r.area.top + r.area.height - 1 < y := by omega
          simp only [h1, h2, h3, hx, hx', c, d, or_self, if_false, false_and, and_self, if_true]
          split
          · rfl
          · split
            · rfl
            · split <;> rfl
        · have : y < r.area.top ∨ r.area.top + r.area.height - 1 < y := by omega
          simp only [h1, h2, h3, this, or_true, if_true, if_false, false_and]
  · have : x < r.area.left ∨ r.area.left + r.area.width - 1 < x ∨ y < r.area.top ∨ r.area.top + r.area.height - 1 < y := by omega
    simp only [hx, this, and_false, if_false, if_true]

/-- C111: with an area without row at the top of the screen, which makes a debug build panic, all the rows a `u16` can tell are written. -/
theorem C111_no_row (r : Rect) (h1 : r.area.height = 0) (h2 : r.area.top = 0) :
    r.draw = none ∧ ∃ cmds, Release.rectDraw r = some cmds ∧ ∀ y, y ∈ visitedRows cmds ↔ y < 65536 := by
  constructor
  · simp [Rect.draw, h1, h2, csub, u16Add, u16Size]
  · obtain ⟨cmds, k1, k2⟩ := rectDraw_rows r
    refine ⟨cmds, k1, fun y => ?_⟩
    rw [k2]
    omega

/-- C111: with an area without row which isn't at the top of the screen, two rows are written: the one of its top and the one above. -/
theorem C111_flat (r : Rect) (h1 : r.area.height = 0) (h2 : 1 ≤ r.area.top) (h3 : r.area.top < 65535) (cmds : List Cmd)
    (h : Release.rectDraw r = some cmds) (y : Nat) : y ∈ visitedRows cmds ↔ y = r.area.top ∨ y + 1 = r.area.top := by
  obtain ⟨cmds', k1, k2⟩ := rectDraw_rows r
  rw [h] at k1
  cases k1
  rw [k2]
  omega

/-- C111: with an area which goes further than the last row a `u16` can tell, which makes a debug build panic, two rows are written, the second one above the
area. -/
theorem C111_below (r : Rect) (hw : r.area.WF) (h1 : 65536 < r.area.top + r.area.height) (h2 : r.area.top < 65535) :
    r.draw = none ∧ ∃ cmds last, Release.rectDraw r = some cmds ∧ last < r.area.top ∧ ∀ y, y ∈ visitedRows cmds ↔ y = r.area.top ∨ y = last := by
  have hh := hw.2.2.2
  simp only [u16Size] at hh
  constructor
  · have : u16Add r.area.top r.area.height = none := by unfold u16Add u16Size; rw [if_neg (by omega)]
    simp [Rect.draw, this]
  · obtain ⟨cmds, k1, k2⟩ := rectDraw_rows r
    refine ⟨cmds, r.area.top + r.area.height - 65537, k1, by omega, fun y => ?_⟩
    rw [k2]
    omega

/-- C111: with an area whose top is the last row a `u16` can tell, which makes a debug build panic, all the rows are written if it has no row or one, and otherwise
the last one and as many first rows as the area has after its first one. -/
theorem C111_last_top (r : Rect) (hw : r.area.WF) (h1 : r.area.top = 65535) :
    r.draw = none ∧ ∃ cmds, Release.rectDraw r = some cmds ∧
      (r.area.height ≤ 1 → ∀ y, y ∈ visitedRows cmds ↔ y < 65536) ∧
      (2 ≤ r.area.height → ∀ y, y ∈ visitedRows cmds ↔ y = 65535 ∨ y < r.area.height - 1) := by
  have hh := hw.2.2.2
  simp only [u16Size] at hh
  constructor
  · have : u16Add r.area.top 1 = none := by unfold u16Add u16Size; rw [if_neg (by omega)]
    simp [Rect.draw, this]
  · obtain ⟨cmds, k1, k2⟩ := rectDraw_rows r
    refine ⟨cmds, k1, fun _ y => ?_, fun _ y => ?_⟩ <;> rw [k2] <;> omega

/-- Rectangles starting at the last row. -/
example : (∃ r : Rect, r.area.WF ∧ r.area.top = 65535 ∧ r.area.height ≤ 1) ∧
    (Release.rectDraw ⟨⟨2, 65535, 4, 4⟩, {}, true, .middleSquareLine⟩).map visitedRows = some [65535, 0, 1, 2] :=
  ⟨⟨⟨⟨0, 65535, 10, 1⟩, {}, true, .bland⟩, by simp [Area.WF, u16Size]⟩, by decide +kernel⟩

/-- Areas as those of these theorems. -/
example : (∃ r : Rect, r.area.WF ∧ 1 ≤ r.area.height ∧ r.area.top + r.area.height = 65536 ∧ r.area.top < 65535) ∧
    (∃ r : Rect, r.area.WF ∧ r.area.height = 0 ∧ 1 ≤ r.area.top ∧ r.area.top < 65535) ∧
    ∃ r : Rect, r.area.WF ∧ 65536 < r.area.top + r.area.height ∧ r.area.top < 65535 :=
  ⟨⟨⟨⟨0, 65000, 10, 536⟩, {}, true, .bland⟩, by simp [Area.WF, u16Size]⟩, ⟨⟨⟨0, 5, 10, 0⟩, {}, true, .bland⟩, by simp [Area.WF, u16Size]⟩,
    ⟨⟨⟨0, 65000, 10, 600⟩, {}, true, .bland⟩, by simp [Area.WF, u16Size]⟩⟩

/-- The last four columns and three rows of the largest terminal, drawn in a release build. -/
example : (Release.rectDraw ⟨⟨65532, 65533, 4, 3⟩, {}, false, .middleSquareLine⟩).map (fun cmds => (List.range 3).map fun y => (List.range 4).map fun x =>
      (((⟨fun _ _ => ({}, '.'), 7, 7⟩ : Term).play cmds).screen (65532 + x) (65533 + y)).2) =
    some (["┌──┐", "│..│", "└──┘"].map String.toList) := by decide +kernel

/-- A rectangle without row under the fifth one. -/
example : (Release.rectDraw ⟨⟨2, 5, 4, 0⟩, {}, false, .middleSquareLine⟩).map visitedRows = some [5, 4] := by decide

end Verif.Props
