import Verif.Props.InputField
/-! Property C27: the exact cases in which displaying an input field panics. -/
namespace Verif.Props
open Verif InputField Spec

private theorem cursorCell_some {f : InputField} {d j : Nat} (hl : f.area.left + d < 65536) (ht : f.area.top + j < 65536) :
    ∃ p, f.cursorCell d j = some p := by
  have h1 : asU16 d ≤ d := Nat.mod_le _ _
  have e1 : u16Add f.area.left (asU16 d) = some (f.area.left + asU16 d) := by unfold u16Add u16Size; rw [if_pos (by omega)]
  have e2 : u16Add f.area.top j = some (f.area.top + j) := by unfold u16Add u16Size; rw [if_pos (by omega)]
  exact ⟨_, by simp only [cursorCell, e1, e2, Option.bind_eq_bind, Option.bind_some]; rfl⟩

private theorem drawCell_some {f : InputField} (sel : Bool) (ch : Char) {d j : Nat} (hl : f.focused = false ∨ f.area.left + d < 65536) (ht : f.area.top + j < 65536) :
    ∃ p, f.drawCell sel ch d j = some p := by
  unfold drawCell
  by_cases c : (f.focused && sel) = true
  · obtain ⟨p, hp⟩ := cursorCell_some (f := f) (d := d) (j := j) (by simp_all) ht
    exact ⟨_, by rw [if_pos c, hp]; rfl⟩
  · exact ⟨_, by rw [if_neg c]⟩

private theorem drawChars_some (cw : Char → Nat) {f : InputField} (sel : Range) (y j skip w : Nat) (hl : f.focused = false ∨ f.area.left + w < 65536)
    (ht : f.area.top + j < 65536) : ∀ (chars : Text) (i skipped d : Nat) (cur : Option (Nat × Nat)), d ≤ w →
    ∃ r, f.drawChars cw sel y j skip w i chars skipped d cur = some r
  | [], _, _, _, _, _ => ⟨_, rfl⟩
  | c :: rest, i, skipped, d, cur, hd => by
    simp only [drawChars]
    generalize (if f.passwordMode = true then '*' else c) = c
    by_cases c1 : skipped < skip
    · rw [if_pos c1]
      exact drawChars_some cw sel y j skip w hl ht rest _ _ _ _ hd
    · rw [if_neg c1]
      split
      · obtain ⟨p, hp⟩ := drawCell_some (f := f) (sel.contains i y) '…' (d := d) (j := j) (hl.imp id (fun h => by omega)) ht
        exact ⟨_, by simp only [hp, Option.bind_eq_bind, Option.bind_some]; rfl⟩
      · obtain ⟨p, hp⟩ := drawCell_some (f := f) (sel.contains i y) c (d := d) (j := j) (hl.imp id (fun h => by omega)) ht
        simp only [hp, Option.bind_eq_bind, Option.bind_some]
        split
        · exact ⟨_, rfl⟩
        · obtain ⟨r, hr⟩ := drawChars_some cw sel y j skip w hl ht rest (i + 1) skipped
            (d + inputCharWidth cw c) (p.2.or cur) (by omega)
          exact ⟨_, by rw [hr]; rfl⟩

private theorem drawEnd_some {f : InputField} (e : Bool) {w j : Nat} (d : Drawn) (hl : e = false ∨ f.area.left + w < 65536) (ht : f.area.top + j < 65536) :
    ∃ r, f.drawEnd e w j d = some r := by
  unfold drawEnd
  by_cases c : d.width < w ∧ e = true
  · obtain ⟨p, hp⟩ := cursorCell_some (f := f) (d := d.width) (j := j)
      (hl.elim (fun h => by rw [h] at c; cases c.2) (fun h => by omega)) ht
    rw [if_pos c, hp]
    exact ⟨_, rfl⟩
  · rw [if_neg c]; exact ⟨_, rfl⟩

private theorem drawRow_some (cw : Char → Nat) {f : InputField} {w j : Nat} (cur : Option (Nat × Nat)) (hl : f.focused = false ∨ f.area.left + w < 65536)
    (ht : f.area.top + j < 65536) : ∃ r, f.drawRow cw w j cur = some r := by
  unfold drawRow
  cases f.content.lines[f.scroll.y + j]? with
  | none =>
    obtain ⟨ch, e, _⟩ := filling_queue ' ' w
    exact ⟨_, by simp only [drawEmpty, e, Option.bind_eq_bind, Option.bind_some]; rfl⟩
  | some chars =>
    simp only [drawLine]
    by_cases c : f.scroll.x > 0 ∧ w > 4
    · rw [if_pos c]
      obtain ⟨d, hd⟩ := drawChars_some cw (f := f) f.content.selection (f.scroll.y + j) j (f.scroll.x + 1) (w - 1) (hl.imp id (fun h => by omega)) ht chars 0 0 0 cur
        (Nat.zero_le _)
      obtain ⟨r, hr⟩ := drawEnd_some (f := f) (f.focused && (f.scroll.y + j == f.content.pos.y) && (f.content.pos.x == chars.length)) (w := w - 1) (j := j) d
        (hl.imp (fun h => by simp [h]) (fun h => by omega)) ht
      exact ⟨_, by simp only [hd, hr, Option.bind_eq_bind, Option.bind_some]; rfl⟩
    · rw [if_neg c]
      obtain ⟨d, hd⟩ := drawChars_some cw (f := f) f.content.selection (f.scroll.y + j) j f.scroll.x w hl ht chars 0 0 0 cur (Nat.zero_le _)
      obtain ⟨r, hr⟩ := drawEnd_some (f := f) (f.focused && (f.scroll.y + j == f.content.pos.y) && (f.content.pos.x == chars.length)) (w := w) (j := j) d
        (hl.imp (fun h => by simp [h]) id) ht
      exact ⟨_, by simp only [hd, Option.bind_eq_bind, Option.bind_some]; exact hr⟩

private theorem drawRows_none_iff (cw : Char → Nat) (bar : Char × Char) {f : InputField} {w : Nat} (sb : Option (Nat × Nat))
    (hl : f.focused = false ∨ f.area.left + w < 65536) :
    ∀ (n j : Nat) (cur : Option (Nat × Nat)), f.drawRows cw bar w sb n j cur = none ↔ 0 < n ∧ 65536 < f.area.top + j + n
  | 0, _, _ => by simp [drawRows]
  | n + 1, j, cur => by
    by_cases h : j + f.area.top < 65536
    · have hu : u16Add j f.area.top = some (j + f.area.top) := by unfold u16Add u16Size; rw [if_pos h]
      obtain ⟨d, hd⟩ := drawRow_some cw (f := f) (w := w) (j := j) cur hl (by omega)
      have ih := drawRows_none_iff cw bar sb hl n (j + 1) d.cursor
      cases hr : f.drawRows cw bar w sb n (j + 1) d.cursor with
      | none =>
        have := ih.1 hr
        simp only [drawRows, hu, hd, hr, Option.bind_eq_bind, Option.bind_some, Option.bind_none, true_iff]
        omega
      | some r =>
        have : ¬ (0 < n ∧ 65536 < f.area.top + (j + 1) + n) := fun hh => by rw [ih.2 hh] at hr; cases hr
        simp only [drawRows, hu, hd, hr, Option.bind_eq_bind, Option.bind_some, reduceCtorEq, false_iff]
        omega
    · have hu : u16Add j f.area.top = none := by unfold u16Add u16Size; rw [if_neg h]
      simp only [drawRows, hu, Option.bind_eq_bind, Option.bind_none, true_iff]
      omega

/-- C27: the exact cases in which displaying a field panics, whatever its content (valid or not), its scroll and the widths of characters, if the field isn't
focused or if its columns are on the screen: a row is out of the screen, or there's a scrollbar (the number of lines, truncated to a `u16`, is more than
the height) and no column for it, or the scrollbar can't be computed (see `C19_panics`). -/
theorem C27_rows_panics (cw : Char → Nat) (bar : Char × Char) (f : InputField) (hf : f.focused = false ∨ f.area.left + f.area.width < 65536) :
    f.displayOn cw bar = none ↔ (0 < f.area.height ∧ 65536 < f.area.top + f.area.height) ∨ (f.area.height < f.content.lines.length % 65536 ∧
      (f.area.width = 0 ∨ computeScrollbar (f.scroll.y % 65536) (f.content.lines.length % 65536) f.area.height f.area.top = none)) := by
  have hb : f.area.scrollbar (asU16 f.scroll.y) (asU16 f.content.lines.length) =
      computeScrollbar (f.scroll.y % 65536) (f.content.lines.length % 65536) f.area.height f.area.top := rfl
  unfold displayOn
  rw [hb]
  by_cases hc : f.content.lines.length % 65536 ≤ f.area.height
  · rw [(C19_none_iff _ _ _ _).2 hc]
    simp only [drawWidth, Option.bind_eq_bind, Option.bind_some, drawRows_none_iff cw bar none hf, Nat.add_zero]
    omega
  · cases hs : computeScrollbar (f.scroll.y % 65536) (f.content.lines.length % 65536) f.area.height f.area.top with
    | none => simp only [Option.bind_eq_bind, Option.bind_none, true_iff]; exact .inr ⟨by omega, .inr trivial⟩
    | some sb =>
      cases sb with
      | none => exact absurd ((C19_none_iff _ _ _ _).1 hs) hc
      | some tb =>
        simp only [drawWidth, Option.bind_eq_bind, Option.bind_some, reduceCtorEq, or_false]
        by_cases hw : f.area.width = 0
        · have : csub f.area.width 1 = none := by unfold csub; rw [if_neg (by omega)]
          simp only [this, Option.bind_none, true_iff]
          exact .inr ⟨by omega, hw⟩
        · have : csub f.area.width 1 = some (f.area.width - 1) := by unfold csub; rw [if_pos (by omega)]
          simp only [this, Option.bind_some, drawRows_none_iff cw bar (some tb) (hf.imp id (fun h => (by omega : f.area.left + (f.area.width - 1) < 65536))),
            Nat.add_zero]
          omega

/-- C27: the exact cases in which displaying a field panics, whatever its content (valid or not), its scroll and the widths of characters, in an area on the
screen: there's a scrollbar (the number of lines, truncated to a `u16`, is more than the height) and no column for it, or it can't be computed
(see `C19_panics`). -/
theorem C27_panics (cw : Char → Nat) (bar : Char × Char) (f : InputField) (ho : OnScreen f.area) :
    f.displayOn cw bar = none ↔ f.area.height < f.content.lines.length % 65536 ∧
      (f.area.width = 0 ∨ computeScrollbar (f.scroll.y % 65536) (f.content.lines.length % 65536) f.area.height f.area.top = none) := by
  have h2 : f.area.top + f.area.height < 65536 := ho.2
  rw [C27_rows_panics cw bar f (.inr ho.1)]
  exact ⟨fun h => h.elim (fun h => by omega) id, .inr⟩

/-- C27: a field of 3 lines without column can be displayed in 3 rows, but not in 2. -/
example : let f := fun h => ({ area := ⟨3, 2, 0, h⟩, content := ⟨⟨0, 0⟩, none, [['a'], [], ['b', 'c']]⟩, focused := true } : InputField)
    OnScreen (f 2).area ∧ (f 2).displayOn (fun _ => 1) ('#', '|') = none ∧ ((f 3).displayOn (fun _ => 1) ('#', '|')).isSome = true := by
  unfold OnScreen; decide

/-- C27: a row under the last possible one makes a field panic; columns out of the screen are no problem for a field without focus, but are one for the
cursor. -/
example : let f := fun b l t => ({ area := ⟨l, t, 9, 2⟩, content := ⟨⟨0, 1⟩, none, [['a']]⟩, focused := b } : InputField)
    (f false 65535 65535).displayOn (fun _ => 1) ('#', '|') = none ∧ (f false 65535 65534).displayOn (fun _ => 1) ('#', '|') ≠ none ∧
    (f true 65535 65534).displayOn (fun _ => 1) ('#', '|') = none ∧ (f true 65526 65534).displayOn (fun _ => 1) ('#', '|') ≠ none := by
  decide +kernel

end Verif.Props
