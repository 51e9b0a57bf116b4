import Verif.Props.InputField
import Verif.Props.Rect
import Verif.Props.ListViewDisplay
/-! What setters and builders change, seen in what is displayed. -/
namespace Verif.Props
open Verif Spec

/-- C26: giving a focus or an area to a valid field never fails, and changes nothing but this focus or this area, and the scroll. -/
theorem C26_setters (cw : Char → Nat) {f : InputField} (hv : f.content.Valid) (hw : 1 ≤ f.area.width) :
    (∀ b, ∃ s, f.setFocus cw b = some { f with focused := b, scroll := s }) ∧
    (∀ area : Area, 1 ≤ area.width → ∃ s, f.setArea cw area = some { f with area, scroll := s }) ∧
    (∀ x y w, 1 ≤ w → ∃ s, f.changeArea cw x y w = some { f with area := ⟨x, y, w, f.area.height⟩, scroll := s }) := by
  refine ⟨?_, ?_, ?_⟩
  · intro b
    unfold InputField.setFocus
    by_cases h : f.focused = b
    · rw [if_pos h]; exact ⟨f.scroll, by rw [← h]⟩
    · rw [if_neg h]
      cases b with
      | false => exact ⟨f.scroll, rfl⟩
      | true =>
        obtain ⟨f', h1, ⟨s, rfl⟩, _⟩ := fixScroll_ok cw (f := { f with focused := true }) hv hw
        exact ⟨s, h1⟩
  · intro area ha
    unfold InputField.setArea
    by_cases h : f.area ≠ area
    · rw [if_pos h]
      obtain ⟨f', h1, ⟨s, rfl⟩, _⟩ := fixScroll_ok cw (f := { f with area }) hv ha
      exact ⟨s, h1⟩
    · rw [if_neg h]
      exact ⟨f.scroll, by rw [← Decidable.not_not.1 h]⟩
  · intro x y w ha
    unfold InputField.changeArea
    by_cases h : f.area.left ≠ x ∨ f.area.top ≠ y ∨ f.area.width ≠ w
    · rw [if_pos h]
      obtain ⟨f', h1, ⟨s, rfl⟩, _⟩ := fixScroll_ok cw (f := { f with area := ⟨x, y, w, f.area.height⟩ }) hv ha
      exact ⟨s, h1⟩
    · rw [if_neg h]
      simp only [ne_eq, not_or, Decidable.not_not] at h
      obtain ⟨rfl, rfl, rfl⟩ := h
      exact ⟨f.scroll, rfl⟩

/-- C26: a valid field. -/
example : ({ area := ⟨1, 1, 8, 1⟩, content := ⟨⟨0, 7⟩, none, ["abcdefghi".toList]⟩ } : InputField).content.Valid :=
  ⟨by decide, ⟨_, rfl, by decide⟩, by simp, by simp [NotStored]⟩

/-- C43: a rectangle built with an area, colors, a border style, and with or without fill, is drawn so: its corners and sides are those of
the border style, in these colors, and its inside is blanked with these colors only with fill. -/
theorem C43_built (area : Area) (colors : CompoundStyle) (style : RectBorderStyle) (fill : Bool) (hw : 2 ≤ area.width) (hh : 2 ≤ area.height)
    (hon : OnScreen area) :
    ∃ cmds, (((Rect.new area colors).setBorderStyle style).setFill fill).draw = some cmds ∧ ∀ (t : Term),
      let cell := fun i j => (t.play cmds).screen (area.left + i) (area.top + j)
      let w := area.width - 1
      let h := area.height - 1
      cell 0 0 = (colors, style.topLeft) ∧ cell w 0 = (colors, style.topRight) ∧
      cell 0 h = (colors, style.bottomLeft) ∧ cell w h = (colors, style.bottomRight) ∧
      (∀ i, 0 < i → i < w → cell i 0 = (colors, style.top) ∧ cell i h = (colors, style.bottom)) ∧
      (∀ j, 0 < j → j < h → cell 0 j = (colors, style.left) ∧ cell w j = (colors, style.right)) ∧
      (∀ i j, 0 < i → i < w → 0 < j → j < h →
        cell i j = if fill then (colors, ' ') else t.screen (area.left + i) (area.top + j)) := by
  obtain ⟨cmds, h1, h2⟩ := C43_draw (((Rect.new area colors).setBorderStyle style).setFill fill) hw hh hon
  refine ⟨cmds, h1, ?_⟩
  intro t
  have h3 : ∀ i j, (t.play cmds).screen (area.left + i) (area.top + j) = _ := fun i j => h2 t (area.left + i) (area.top + j)
  simp only [h3]
  have hr : ∀ i j, rectCell (((Rect.new area colors).setBorderStyle style).setFill fill) (area.left + i) (area.top + j) =
      if area.width ≤ i ∨ area.height ≤ j then none
      else if j = 0 then (if i = 0 then some style.topLeft else if i = area.width - 1 then some style.topRight else some style.top)
      else if j = area.height - 1 then
        (if i = 0 then some style.bottomLeft else if i = area.width - 1 then some style.bottomRight else some style.bottom)
      else if i = 0 then some style.left
      else if i = area.width - 1 then some style.right
      else if fill then some ' ' else none := by
    intro i j
    unfold rectCell
    simp only [Rect.new, Rect.setBorderStyle, Rect.setFill]
    have e1 : (area.left + i < area.left ∨ area.left + area.width - 1 < area.left + i ∨ area.top + j < area.top ∨
      area.top + area.height - 1 < area.top + j) ↔ (area.width ≤ i ∨ area.height ≤ j) := by omega
    have e2 : area.top + j = area.top ↔ j = 0 := by omega
    have e3 : area.left + i = area.left ↔ i = 0 := by omega
    have e4 : area.left + i = area.left + area.width - 1 ↔ i = area.width - 1 := by omega
    have e5 : area.top + j = area.top + area.height - 1 ↔ j = area.height - 1 := by omega
    simp only [e1, e2, e3, e4, e5]
    congr
  have hc : (((Rect.new area colors).setBorderStyle style).setFill fill).colors = colors := rfl
  refine ⟨?_, ?_, ?_, ?_, ?_, ?_, ?_⟩
  · rw [hr, if_neg (by omega)]; rfl
  · rw [hr, if_neg (by omega), if_pos rfl, if_neg (by omega), if_pos rfl]; rfl
  · rw [hr, if_neg (by omega), if_neg (by omega), if_pos rfl]; rfl
  · rw [hr, if_neg (by omega), if_neg (by omega), if_pos rfl, if_neg (by omega), if_pos rfl]; rfl
  · intro i hi hi'
    constructor
    · rw [hr, if_neg (by omega), if_pos rfl, if_neg (by omega), if_neg (by omega)]; rfl
    · rw [hr, if_neg (by omega), if_neg (by omega), if_pos rfl, if_neg (by omega), if_neg (by omega)]; rfl
  · intro j hj hj'
    constructor
    · rw [hr, if_neg (by omega), if_neg (by omega), if_neg (by omega), if_pos rfl]; rfl
    · rw [hr, if_neg (by omega), if_neg (by omega), if_neg (by omega), if_neg (by omega), if_pos rfl]; rfl
  · intro i j hi hi' hj hj'
    rw [hr, if_neg (by omega), if_neg (by omega), if_neg (by omega), if_neg (by omega), if_neg (by omega)]
    cases fill <;> rfl

/-- C43: with neither border style nor fill given, the border of a rectangle is blanked in its colors, and its inside is unchanged. -/
theorem C43_default (area : Area) (colors : CompoundStyle) (hw : 2 ≤ area.width) (hh : 2 ≤ area.height) (hon : OnScreen area) :
    ∃ cmds, (Rect.new area colors).draw = some cmds ∧ ∀ (t : Term) (i j : Nat), i < area.width → j < area.height →
      (t.play cmds).screen (area.left + i) (area.top + j) =
        if i = 0 ∨ i = area.width - 1 ∨ j = 0 ∨ j = area.height - 1 then (colors, ' ') else t.screen (area.left + i) (area.top + j) := by
  obtain ⟨cmds, h1, h2⟩ := C43_built area colors .bland false hw hh hon
  refine ⟨cmds, h1, ?_⟩
  intro t i j hi hj
  obtain ⟨c1, c2, c3, c4, c5, c6, c7⟩ := h2 t
  by_cases hi0 : i = 0
  · subst hi0
    rw [if_pos (Or.inl rfl)]
    by_cases hj0 : j = 0
    · subst hj0; exact c1
    · by_cases hj1 : j = area.height - 1
      · subst hj1; exact c3
      · exact (c6 j (by omega) (by omega)).1
  · by_cases hi1 : i = area.width - 1
    · subst hi1
      rw [if_pos (Or.inr (Or.inl rfl))]
      by_cases hj0 : j = 0
      · subst hj0; exact c2
      · by_cases hj1 : j = area.height - 1
        · subst hj1; exact c4
        · exact (c6 j (by omega) (by omega)).2
    · by_cases hj0 : j = 0
      · subst hj0
        rw [if_pos (Or.inr (Or.inr (Or.inl rfl)))]
        exact (c5 i (by omega) (by omega)).1
      · by_cases hj1 : j = area.height - 1
        · subst hj1
          rw [if_pos (Or.inr (Or.inr (Or.inr rfl)))]
          exact (c5 i (by omega) (by omega)).2
        · rw [if_neg (by omega)]
          have := c7 i j (by omega) (by omega) (by omega) (by omega)
          simpa using this

/-- C43: a filled rectangle of 4 by 3 cells. -/
example : 2 ≤ (Area.mk 1 1 4 3).width ∧ 2 ≤ (Area.mk 1 1 4 3).height ∧ OnScreen ⟨1, 1, 4, 3⟩ := by
  refine ⟨by decide, by decide, ?_⟩
  constructor <;> decide

/-- What is given to make a column. -/
structure _root_.Verif.Spec.ColumnDef (T : Type) where
  title : Text
  minWidth : Nat
  maxWidth : Nat
  extract : T → ListCell
  align : Option Alignment

/-- The call of the functions making this column. -/
def _root_.Verif.Spec.ColumnDef.build {T : Type} (d : ColumnDef T) : ListColumn T :=
  match d.align with
  | some a => (ListColumn.new d.title d.minWidth d.maxWidth d.extract).withAlign a
  | none => ListColumn.new d.title d.minWidth d.maxWidth d.extract

/-- C47: whatever was done with a list since it was created, the columns are the ones it was created with, but for their widths: in all rows,
the cell of a column built with an alignment is what was extracted by this column, with this alignment, in a width. Columns are centered when no
alignment was given. -/
theorem C47_columns {T : Type} (ok : ListOp T → Prop) (area : Area) (defs : List (ColumnDef T))
    (v : ListView T) (h : ListHistory T) (hr : ReachableList ok area (defs.map (·.build)) v h)
    (skin : Skin) (w : ListView.Written) (hw : v.writeOn skin = some w) (hs : v.scroll ≤ v.rows.length)
    (ht : v.area.top + v.area.height < 65536) :
    ∃ widths : List Nat, widths.length = defs.length ∧ v.columns.map (·.width) = widths ∧
      v.columns.map (·.title) = defs.map (·.title) ∧
      ∀ row ∈ w.body, ∀ i ps, row.content = some (i, ps) → ∃ r, v.rows[i]? = some r ∧
        piecesText ps = weave (List.zipWith (fun d width => (Spacing.mk width (d.align.getD .center)).writeStr (d.extract r.data).con) defs widths)
          (List.replicate (defs.length - 1) '│') := by
  have hc := columns_of_reachable hr
  have hlen : v.columns.length = defs.length := by simpa using congrArg List.length hc
  have hmap : v.columns.map (fun c => (c.title, c.align, c.extract)) = defs.map (fun d => (d.title, d.align.getD .center, d.extract)) := by
    have := congrArg (List.map fun c : ListColumn T => (c.title, c.align, c.extract)) hc
    rw [List.map_map, List.map_map, List.map_map] at this
    refine this.trans (List.map_congr_left fun d _ => ?_)
    obtain ⟨title, min, max, extract, align⟩ := d
    cases align <;> rfl
  refine ⟨_, ?_, rfl, ?_, ?_⟩
  · rw [List.length_map, hlen]
  · have := congrArg (List.map (·.1)) hmap
    simpa [Function.comp_def] using this
  · intro row hrow i ps hps
    obtain ⟨j, hj⟩ := List.mem_iff_getElem?.1 hrow
    obtain ⟨_, b2⟩ := C47_rows v skin w hw hs ht
    obtain ⟨_, _, _, hrows⟩ := b2 j row hj
    obtain ⟨r, hr1, _, hr2⟩ := hrows i ps hps
    refine ⟨r, hr1, ?_⟩
    rw [hr2, hlen]
    congr 1
    apply List.ext_getElem
    · simp [hlen]
    · intro k h1 h2
      have hk1 : k < v.columns.length := by simpa using h1
      have hk2 : k < defs.length := by omega
      have := congrArg (fun l => l[k]?) hmap
      simp only [List.getElem?_map, List.getElem?_eq_getElem hk1, List.getElem?_eq_getElem hk2, Option.map_some, Option.some.injEq,
        Prod.mk.injEq] at this
      simp only [List.getElem_map, List.getElem_zipWith]
      rw [this.2.1, this.2.2]

/-- C47: such a list, with two columns, the first one aligned on the left. -/
example : ∃ v : ListView Nat, ReachableList (fun _ => True) ⟨0, 0, 12, 5⟩
    ([ColumnDef.mk "key".toList 4 4 (fun n => ⟨['k', Char.ofNat (48 + n)], {}⟩) (some .left), ⟨"v".toList, 4, 4, fun _ => ⟨['a', 'b'], {}⟩, none⟩].map
      (·.build)) v { added := [0, 1] } ∧
    (v.writeOn {}).map (fun w => w.body.map (fun r => r.content.map (fun c => (c.1, piecesText c.2)))) =
      some [some (0, "k0  │ ab ".toList), some (1, "k1  │ ab ".toList), none] :=
  ⟨_, listOf_reachable _ (fun _ => trivial) _ _ _, by decide⟩

end Verif.Props
