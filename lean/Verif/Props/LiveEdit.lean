import Verif.Spec.LiveEdit
import Verif.Props.FormLate
import Verif.Props.Panics
/-! C81: an editor of markdown with the rendering of what is typed. -/
namespace Verif.Props
open Verif Verif.Spec Verif.Form Verif.LiveEdit InputField

/-- The state of the editor, for a size of the terminal. -/
structure LiveOk (s : Nat × Nat) (v : Editor) : Prop where
  area : v.area = ⟨0, 0, s.1, s.2⟩
  drawable : v.drawable = largeEnough s.1 s.2
  ok : FieldOk v.input
  focused : v.input.focused = true
  keys : v.input.newLineKeys = [keyEnter]
  hidden : v.input.passwordMode = false
  placed : largeEnough s.1 s.2 = true → v.input.area = fieldHalf s.1 s.2 ∧ v.renderArea = renderHalf s.1 s.2
  small : SmallSize s.1 s.2

section
variable {cw : Char → Nat} {alnum : Char → Bool}

/-- The keys have the effect they would have on the focused field of a form. -/
theorem live_key {v : Editor} (hk : v.input.newLineKeys = [keyEnter]) (clip : Clipboard) (k : KeyComb) :
    v.applyKey cw clip k = (inputKey cw clip v.input k).map fun r => ({ v with input := r.1 }, r.2) := by
  have hctrl := ctrl_ignored cw (f := v.input) (fun ch => by rw [hk]; simp [keyEnter])
  unfold Editor.applyKey inputKey
  by_cases c1 : k = ⟨.char 'c', [], modCtrl⟩
  · rw [if_pos c1, c1, hctrl]; rfl
  rw [if_neg c1]
  by_cases c2 : k = ⟨.char 'x', [], modCtrl⟩
  · rw [if_pos c2, c2, hctrl]; rfl
  rw [if_neg c2]
  by_cases c3 : k = ⟨.char 'v', [], modCtrl⟩
  · rw [if_pos c3, c3, hctrl]; rfl
  rw [if_neg c3]
  simp only [if_neg c1, if_neg c2, if_neg c3]
  cases v.input.applyKeyCombination cw k with
  | none => rfl
  | some p =>
    obtain ⟨f, b⟩ := p
    cases b <;> rfl

theorem fieldHalf_ok {w h : Nat} (hl : largeEnough w h = true) (hs : SmallSize w h) : 1 ≤ (fieldHalf w h).width ∧ OnScreen (fieldHalf w h) := by
  unfold largeEnough at hl
  rw [decide_eq_true_iff] at hl
  unfold SmallSize at hs
  simp only [fieldHalf, OnScreen]
  omega

/-- The new size. -/
theorem live_resize_large {v : Editor} {w h : Nat} (hne : v.area ≠ ⟨0, 0, w, h⟩) (hok : FieldOk v.input) (hl : largeEnough w h = true) (hs : SmallSize w h) :
    ∃ f, v.input.setArea cw (fieldHalf w h) = some f ∧
      v.resize cw ⟨0, 0, w, h⟩ = some (⟨⟨0, 0, w, h⟩, true, f, renderHalf w h⟩, true) := by
  have hin := fieldHalf_ok hl hs
  obtain ⟨s, hset⟩ := (C26_setters cw hok.1 hok.2.1).2.1 _ hin.1
  refine ⟨_, hset, ?_⟩
  unfold largeEnough at hl
  rw [decide_eq_true_iff] at hl
  unfold SmallSize at hs
  have a1 : csub h 2 = some (h - 2) := by unfold csub; rw [if_pos (by omega)]
  have a2 : csub w 2 = some (w - 2) := by unfold csub; rw [if_pos (by omega)]
  have a3 : u16Add ((h - 2) / 2) 2 = some ((h - 2) / 2 + 2) := by unfold u16Add u16Size; rw [if_pos (by omega)]
  have a4 : csub h ((h - 2) / 2) = some (h - (h - 2) / 2) := by unfold csub; rw [if_pos (by omega)]
  have a5 : csub (h - (h - 2) / 2) 2 = some (h - (h - 2) / 2 - 2) := by unfold csub; rw [if_pos (by omega)]
  simp only [fieldHalf] at hset
  simp only [Editor.resize, if_neg hne, ge_iff_le, if_pos hl, a1, a2, a3, a4, a5, hset, Option.bind_eq_bind, Option.bind_some, renderHalf, fieldHalf]

/-- A change of size. -/
theorem live_resize {s : Nat × Nat} {v : Editor} (hv : LiveOk s v) {w h : Nat} (hs : SmallSize w h) :
    ∃ v' b, v.resize cw ⟨0, 0, w, h⟩ = some (v', b) ∧ LiveOk (w, h) v' ∧ alone cw alnum v.input (liveGives (.resize w h)) = some v'.input := by
  by_cases hsame : v.area = ⟨0, 0, w, h⟩
  · have he := hsame
    rw [hv.area] at he
    simp only [Area.mk.injEq, true_and] at he
    obtain ⟨s1, s2⟩ := s
    simp only at he
    obtain ⟨rfl, rfl⟩ := he
    refine ⟨v, false, by unfold Editor.resize; rw [if_pos hsame], hv, ?_⟩
    simp only [liveGives]
    by_cases hl : largeEnough s1 s2 = true
    · rw [if_pos hl]
      apply alone_setArea
      unfold setArea
      rw [(hv.placed hl).1]
      simp
    · rw [if_neg hl]; rfl
  · by_cases hl : largeEnough w h = true
    · obtain ⟨f, h1, h2⟩ := live_resize_large (cw := cw) hsame hv.ok hl hs
      have hin := fieldHalf_ok hl hs
      obtain ⟨b1, b2, b3, b4, b5, _⟩ := setArea_field hv.ok hin.1 hin.2 h1
      refine ⟨_, _, h2, ⟨rfl, hl.symm, b1, by rw [b3]; exact hv.focused, by rw [b4]; exact hv.keys, by rw [b5]; exact hv.hidden, fun _ => ⟨b2, rfl⟩, hs⟩, ?_⟩
      simp only [liveGives, if_pos hl]
      exact alone_setArea h1
    · have hl' : ¬ ((Area.mk 0 0 w h).width ≥ 20 ∧ (Area.mk 0 0 w h).height ≥ 15) := by
        unfold largeEnough at hl; rw [decide_eq_true_iff] at hl; exact hl
      refine ⟨{ v with drawable := false, area := ⟨0, 0, w, h⟩ }, true, by unfold Editor.resize; rw [if_neg hsame, if_neg hl'], ⟨rfl, by simpa using hl, hv.ok, hv.focused, hv.keys, hv.hidden, fun h => absurd h hl, hs⟩, ?_⟩
      simp only [liveGives, if_neg hl]; rfl

/-- An event. -/
theorem live_step {s : Nat × Nat} {v : Editor} (hv : LiveOk s v) (e : View.Event) (hs : ∀ w h, e = .resize w h → SmallSize w h) :
    ∃ v' b given, v.apply cw alnum e = some (v', b, given) ∧ LiveOk (lastSize s [e]) v' ∧ alone cw alnum v.input (liveGives e) = some v'.input := by
  cases e with
  | key k clip =>
    obtain ⟨f', b, given, h1, h2, h3, c', s', h4⟩ := inputKey_ok (cw := cw) (alnum := alnum) hv.ok (fun ch => by rw [hv.keys]; simp [keyEnter]) clip k
    refine ⟨{ v with input := f' }, b, given, ?_, ?_, h2⟩
    · simp only [Editor.apply, live_key hv.keys, h1, Option.map_some]
    · refine ⟨hv.area, hv.drawable, h3, ?_, ?_, ?_, ?_, hv.small⟩
      · show f'.focused = true
        rw [h4]; exact hv.focused
      · show f'.newLineKeys = _
        rw [h4]; exact hv.keys
      · show f'.passwordMode = _
        rw [h4]; exact hv.hidden
      · show _ → f'.area = _ ∧ _
        rw [h4]; exact hv.placed
  | mouse e =>
    obtain ⟨f', h1, h2, h3, h4, h5, h6⟩ := mouse_field (cw := cw) (alnum := alnum) hv.ok e
    have hk := C45_kept cw alnum hv.ok.2.2 (.mouse e.kind e.x e.y e.mods e.double) h1
    refine ⟨{ v with input := f' }, covers v.input.area e.x e.y, none, by simp only [Editor.apply, h1, Option.map_some],
      ⟨hv.area, hv.drawable, h2, ?_, ?_, ?_, ?_, hv.small⟩, alone_one (op := .mouse e.kind e.x e.y e.mods e.double) h1⟩
    · show f'.focused = true
      rcases hk.2.2.2 (by simp) with h | h
      · rw [h]; exact hv.focused
      · exact h.1
    · show f'.newLineKeys = _
      rw [h4]; exact hv.keys
    · show f'.passwordMode = _
      rw [h5]; exact hv.hidden
    · show _ → f'.area = _ ∧ _
      rw [h3]; exact hv.placed
  | resize w h =>
    obtain ⟨v', b, h1, h2, h3⟩ := live_resize (cw := cw) (alnum := alnum) hv (hs w h rfl)
    exact ⟨v', b, none, by simp only [Editor.apply, h1, Option.map_some], h2, h3⟩
  | other => exact ⟨v, false, none, rfl, hv, rfl⟩

theorem lastSize_cons (s : Nat × Nat) (e : View.Event) (es : List View.Event) : lastSize s (e :: es) = lastSize (lastSize s [e]) es := by
  cases e <;> rfl

/-- Events. -/
theorem live_run : ∀ (es : List View.Event) (s : Nat × Nat) (v : Editor), LiveOk s v → SmallSizes es →
    ∃ v', runLive cw alnum v es = some v' ∧ LiveOk (lastSize s es) v' ∧ alone cw alnum v.input (es.flatMap liveGives) = some v'.input := by
  intro es
  induction es with
  | nil => intro s v hv _; exact ⟨v, rfl, hv, rfl⟩
  | cons e es ih =>
    intro s v hv hs
    obtain ⟨v1, b, given, h1, h2, h3⟩ := live_step (cw := cw) (alnum := alnum) hv e (fun w h he => hs w h (by rw [he]; simp))
    obtain ⟨v', k1, k2, k3⟩ := ih _ v1 h2 (fun w h he => hs w h (List.mem_cons_of_mem _ he))
    refine ⟨v', by simp only [runLive, h1, Option.bind_eq_bind, Option.bind_some, k1], by rw [lastSize_cons]; exact k2, ?_⟩
    rw [List.flatMap_cons, alone_append, h3, Option.bind_some, k3]

/-- The new editor. -/
theorem live_new (text : Text) {w h : Nat} (hs : SmallSize w h) :
    ∃ v, Editor.new cw text ⟨0, 0, w, h⟩ = some v ∧ LiveOk (w, h) v ∧ alone cw alnum InputField.default (liveFirst text w h) = some v.input := by
  have hok0 : FieldOk { InputField.default with newLineKeys := [keyEnter] } :=
    ⟨Content.default_valid, by show 1 ≤ 5; decide, by show 0 + 5 < 65536 ∧ 0 + 1 < 65536; decide⟩
  obtain ⟨f, b, hset, hok, _⟩ := fieldOp_ok cw alnum hok0 (.setStr text) trivial
  have hk := C45_kept cw alnum hok0.2.2 _ hset
  have hset' := hset
  simp only [FieldOp.exec, Option.map_eq_some_iff, Prod.mk.injEq] at hset'
  obtain ⟨g, hg, rfl, _⟩ := hset'
  have hfoc : g.focused = true := by
    rcases hk.2.2.2 (by simp) with h | h
    · exact h
    · exact h.1
  have hdef : Editor.default cw text = some { input := g } := by
    have : Editor.default cw text = (({ InputField.default with newLineKeys := [keyEnter] } : InputField).setStr cw text).bind fun f => some { input := f } := rfl
    rw [this, hg, Option.bind_some]
  have hfirst : alone cw alnum InputField.default [.newLineOn keyEnter, .setStr text] = some g := by
    show (FieldOp.exec cw alnum { InputField.default with newLineKeys := [keyEnter] } (.setStr text)).bind (fun r => some r.1) = _
    rw [hset]; rfl
  have hkeys : g.newLineKeys = [keyEnter] := hk.2.2.1 (by simp) (by simp)
  have hhid : g.passwordMode = false := hk.2.1 (by simp)
  simp only [Editor.new, hdef, Option.bind_eq_bind, Option.bind_some]
  unfold liveFirst
  rw [alone_append, hfirst, Option.bind_some]
  by_cases hl : largeEnough w h = true
  · have hne : (Editor.mk noArea false g noArea).area ≠ ⟨0, 0, w, h⟩ := by
      intro he
      simp only [noArea, Area.mk.injEq, true_and] at he
      unfold largeEnough at hl
      rw [decide_eq_true_iff] at hl
      omega
    obtain ⟨f, h1, h2⟩ := live_resize_large (cw := cw) hne hok hl hs
    have hin := fieldHalf_ok hl hs
    obtain ⟨b1, b2, b3, b4, b5, _⟩ := setArea_field hok hin.1 hin.2 h1
    refine ⟨⟨⟨0, 0, w, h⟩, true, f, renderHalf w h⟩, by rw [h2]; rfl,
      ⟨rfl, hl.symm, b1, by rw [b3]; exact hfoc, by rw [b4]; exact hkeys, by rw [b5]; exact hhid, fun _ => ⟨b2, rfl⟩, hs⟩, ?_⟩
    rw [if_pos hl]
    exact alone_setArea h1
  · have hl' : ¬ ((Area.mk 0 0 w h).width ≥ 20 ∧ (Area.mk 0 0 w h).height ≥ 15) := by
      unfold largeEnough at hl; rw [decide_eq_true_iff] at hl; exact hl
    rw [if_neg hl]
    by_cases hsame : (Editor.mk noArea false g noArea).area = ⟨0, 0, w, h⟩
    · exact ⟨⟨noArea, false, g, noArea⟩, by unfold Editor.resize; rw [if_pos hsame]; rfl,
        ⟨hsame, by simpa using hl, hok, hfoc, hkeys, hhid, fun h => absurd h hl, hs⟩, rfl⟩
    · exact ⟨⟨⟨0, 0, w, h⟩, false, g, noArea⟩, by unfold Editor.resize; rw [if_neg hsame, if_neg hl']; rfl,
        ⟨rfl, by simpa using hl, hok, hfoc, hkeys, hhid, fun h => absurd h hl, hs⟩, rfl⟩

end

/-- The editors which are obtained from a new one by events. -/
def LiveAfter (cw : Char → Nat) (alnum : Char → Bool) (text : Text) (w h : Nat) (es : List View.Event) (v : Editor) : Prop :=
  ∃ v0, Editor.new cw text ⟨0, 0, w, h⟩ = some v0 ∧ runLive cw alnum v0 es = some v

theorem liveAfter_ok {cw : Char → Nat} {alnum : Char → Bool} {text : Text} {w h : Nat} (hs : SmallSize w h) {es : List View.Event} (hes : SmallSizes es)
    {v : Editor} (hv : LiveAfter cw alnum text w h es v) : LiveOk (lastSize (w, h) es) v := by
  obtain ⟨v0, h1, h2⟩ := hv
  obtain ⟨v0', k1, k2, _⟩ := live_new (cw := cw) (alnum := alnum) text hs
  rw [h1] at k1
  cases k1
  obtain ⟨v', e1, e2, _⟩ := live_run (cw := cw) (alnum := alnum) es _ v0 k2 hes
  rw [h2] at e1
  cases e1
  exact e2

/-- C81: no event makes the editor panic, and its field is as one which would be alone and would receive all the keys (those of the clipboard copying, cutting
and pasting), all the events of the mouse, and a place for the sizes of the terminal which are large enough. It always has the focus. -/
theorem C81_field (cw : Char → Nat) (alnum : Char → Bool) (text : Text) {w h : Nat} (hs : SmallSize w h) (es : List View.Event) (hes : SmallSizes es) :
    ∃ v, LiveAfter cw alnum text w h es v ∧ v.input.focused = true ∧ v.input.passwordMode = false ∧
      alone cw alnum InputField.default (liveFirst text w h ++ es.flatMap liveGives) = some v.input := by
  obtain ⟨v0, k1, k2, k3⟩ := live_new (cw := cw) (alnum := alnum) text hs
  obtain ⟨v, e1, e2, e3⟩ := live_run (cw := cw) (alnum := alnum) es _ v0 k2 hes
  exact ⟨v, ⟨v0, k1, e1⟩, e2.focused, e2.hidden, by rw [alone_append, k3, Option.bind_some, e3]⟩

/-- C81: in a terminal of at least 20 columns and 15 rows, the field and the rendering are on the screen, one above the other with a blank row between them,
each of them on about half of the screen. -/
theorem C81_layout (w h : Nat) (hw : 20 ≤ w) (hh : 15 ≤ h) :
    (∀ x y, InArea (fieldHalf w h) x y → 0 < x ∧ x < w - 1 ∧ 0 < y ∧ y < h ∧ ∀ x' y', InArea (renderHalf w h) x' y' → y + 1 < y') ∧
    (∀ x y, InArea (renderHalf w h) x y → 0 < x ∧ x < w - 1 ∧ y < h) ∧
    (fieldHalf w h).height ≤ (renderHalf w h).height ∧ (renderHalf w h).height ≤ (fieldHalf w h).height + 1 ∧ 6 ≤ (fieldHalf w h).height := by
  refine ⟨?_, ?_, ?_⟩
  · rintro x y ⟨i, j, h1, h2, rfl, rfl⟩
    simp only [fieldHalf] at *
    refine ⟨by omega, by omega, by omega, by omega, ?_⟩
    rintro x' y' ⟨i', j', h3, h4, rfl, rfl⟩
    simp only [renderHalf] at *
    omega
  · rintro x y ⟨i, j, h1, h2, rfl, rfl⟩
    simp only [renderHalf] at *
    omega
  · simp only [fieldHalf, renderHalf]
    omega

/-- C81: a drawing on a terminal which is large enough shows the field in its place, the rendering of exactly what the field contains in the other place, as
it would be by a view of a fixed text, and nothing elsewhere, whatever was shown before. -/
theorem C81_screen (cw : Char → Nat) (ws alnum : Char → Bool) (c : Setup) (hs : cw ' ' = 1) (he : cw '…' = 1) (hb : cw '▐' = 1)
    (hc : FormSkin cw c.skin) (ops : List FieldStyleOp) (hops : c.styles = styledBy ops)
    (hst : Tidy c.styles.focused ∧ Tidy c.styles.unfocused ∧ Tidy c.styles.cursor) (text : Text)
    {w h : Nat} (hsz : SmallSize w h) (es : List View.Event) (hes : SmallSizes es) {v : Editor} (hv : LiveAfter cw alnum text w h es v)
    (hin : ShownInput v.input) {width height : Nat} (hlast : lastSize (w, h) es = (width, height)) (hl : largeEnough width height = true)
    (hfit : FittingText cw c.skin (width - 3) (c.parse v.input.content.toText))
    (hcount : ∀ t, FmtText.fromText cw ws c.skin (c.parse v.input.content.toText) (some (width - 3)) = some t → t.lines.length < 65536) :
    ∃ cmds, v.queueOn cw ws c = some cmds ∧ ∀ t : Tty, t.pen = {} →
      let t' := t.playApp cw cmds
      t'.pen = {} ∧
      (∃ rows cur, c.styles.displayOn cw v.input = some (rows, cur) ∧
        ∀ x y, InArea (fieldHalf width height) x y → t'.cells x y = printSeen cw rows blankCells x y) ∧
      (∃ rows, ({ mlines := c.parse v.input.content.toText, area := renderHalf width height, skin := c.skin } : MadView).writeOn cw ws = some rows ∧
        ∀ x y, InArea (renderHalf width height) x y → t'.cells x y = printSeen cw (viewRows rows) blankCells x y) ∧
      ∀ x y, ¬ InArea (fieldHalf width height) x y → ¬ InArea (renderHalf width height) x y → t'.cells x y = blankCells x y := by
  have hm := liveAfter_ok hsz hes hv
  rw [hlast] at hm
  obtain ⟨hplace, hrender⟩ := hm.placed hl
  have hsmall := hm.small
  simp only [SmallSize] at hsmall
  have hl' := hl
  unfold largeEnough at hl'
  rw [decide_eq_true_iff] at hl'
  obtain ⟨L1, L2, _⟩ := C81_layout width height hl'.1 hl'.2
  obtain ⟨f1, fr, cur, z1, z2, z3⟩ : ∃ cmds rows cur, c.styles.cmds cw v.input = some cmds ∧ c.styles.displayOn cw v.input = some (rows, cur) ∧
      Draws cw (cmds.map .view) (fieldHalf width height) rows := by
    rw [hops] at hst ⊢
    have := field_draws hs he hb ops hst (f := v.input) hm.ok.2.2 (by rw [hplace]; simp only [fieldHalf]; omega) hin
    rw [hplace] at this
    exact this
  have hw3 : (renderHalf width height).width - 1 = width - 3 := by simp only [renderHalf]; omega
  obtain ⟨out, e1, _⟩ := fromText_final (ws := ws) (w := width - 3) (by omega) hfit
  have hlen : out.length < 65536 := hcount _ e1
  obtain ⟨bar, hbar, hbn⟩ : ∃ bar, ({ area := renderHalf width height, lines := out } : TextView).scrollbar = some bar ∧
      (bar = none ↔ out.length ≤ (renderHalf width height).height) := by
    have e1 : asU16 0 = 0 := by decide
    have e2 : asU16 out.length = out.length := by unfold asU16 u16Size; omega
    simp only [TextView.scrollbar, TextView.contentHeight, if_true, e1, e2, Area.scrollbar]
    obtain ⟨r, hr⟩ := C19_total 0 out.length (renderHalf width height).height (renderHalf width height).top (by simp only [renderHalf]; omega)
    refine ⟨r, hr, ?_⟩
    rw [← C19_none_iff 0 out.length (renderHalf width height).height (renderHalf width height).top, hr]
    simp
  obtain ⟨cmds, rows, r1, r2, r3⟩ := view_draws (ws := ws) hc (v := { area := renderHalf width height, lines := out }) bar hbar (by rw [hbn]; simp)
    (by simp only [renderHalf]; omega) (by simp only [renderHalf, OnScreen]; omega) (by rw [hw3]; exact hfit) (by rw [hw3]; exact ⟨_, e1⟩)
  simp only at r3
  let ds : List (List AppCmd × Area × List (Nat × Nat × List Piece)) :=
    [(f1.map .view, fieldHalf width height, fr), (cmds.map .view, renderHalf width height, viewRows rows)]
  have hpair : ds.Pairwise (fun a b => Spec.Disjoint a.2.1 b.2.1) := by
    simp only [ds, List.pairwise_cons, List.mem_cons, List.not_mem_nil, or_false, forall_eq, List.Pairwise.nil, and_true, false_implies, implies_true]
    rintro x y ⟨h1, h2⟩
    have := (L1 x y h1).2.2.2.2 x y h2
    omega
  have hall : ∀ e ∈ ds, Draws cw e.1 e.2.1 e.2.2 := by
    simp only [ds, List.mem_cons, List.not_mem_nil, or_false, forall_eq_or_imp, forall_eq]
    exact ⟨z3, r3⟩
  have hcsub : csub (renderHalf width height).width 1 = some (width - 3) := by
    unfold csub
    rw [if_pos (by simp only [renderHalf]; omega), hw3]
  refine ⟨.clearAll :: ds.flatMap (·.1), ?_, ?_⟩
  · have hd : v.drawable = true := by rw [hm.drawable, hl]
    simp only [Editor.queueOn, if_pos hd, z1, hrender, hcsub, e1, r1, Option.bind_eq_bind, Option.bind_some, ds, List.flatMap_cons, List.flatMap_nil,
      List.append_nil, List.cons_append]
  · intro t ht
    have hplay : t.playApp cw (.clearAll :: ds.flatMap (·.1)) = ({ t with cells := blankCells } : Tty).playApp cw (ds.flatMap (·.1)) := by
      show (t.execApp cw .clearAll).playApp cw _ = _
      simp only [Tty.execApp, ht]
      rfl
    obtain ⟨p1, p2, p3⟩ := draws_all cw ds hall hpair { t with cells := blankCells } ht
    simp only [hplay]
    refine ⟨p1, ⟨fr, cur, z2, fun x y hx => p2 (f1.map .view, fieldHalf width height, fr) (by simp [ds]) x y hx⟩,
      ⟨rows, ?_, fun x y hx => p2 (cmds.map .view, renderHalf width height, viewRows rows) (by simp [ds]) x y hx⟩, ?_⟩
    · simp only [MadView.writeOn, MadView.view, Skin.areaText, hcsub, e1, Option.bind_eq_bind, Option.bind_some, r2]
    · intro x y h1 h2
      apply p3
      simp only [ds, List.mem_cons, List.not_mem_nil, or_false, forall_eq_or_imp, forall_eq]
      exact ⟨h1, h2⟩

/-- C81: on smaller terminals nothing is shown. -/
theorem C81_small_screen (cw : Char → Nat) (ws alnum : Char → Bool) (c : Setup) (text : Text)
    {w h : Nat} (hsz : SmallSize w h) (es : List View.Event) (hes : SmallSizes es) {v : Editor} (hv : LiveAfter cw alnum text w h es v)
    (hl : largeEnough (lastSize (w, h) es).1 (lastSize (w, h) es).2 = false) :
    ∃ cmds, v.queueOn cw ws c = some cmds ∧ ∀ t : Tty, t.pen = {} → (t.playApp cw cmds).pen = {} ∧ (t.playApp cw cmds).cells = blankCells := by
  have hm := liveAfter_ok hsz hes hv
  have hd : v.drawable = false := by rw [hm.drawable, hl]
  refine ⟨[.clearAll], by unfold Editor.queueOn; rw [if_neg (by rw [hd]; decide)], ?_⟩
  intro t ht
  show (t.execApp cw .clearAll).pen = {} ∧ (t.execApp cw .clearAll).cells = blankCells
  simp only [Tty.execApp, ht]
  exact ⟨trivial, rfl⟩

/-- The lines of a formatted text are written by a view. -/
theorem writeRows_total {skin : Skin} {v : TextView} (hl : ∀ l ∈ v.lines, LineOk skin l) (width : Nat) (bar : Option (Nat × Nat)) :
    ∀ n j, v.area.top + j + n < 65536 → ∃ rows, v.writeRows skin width bar n j = some rows := by
  intro n
  induction n with
  | zero => intro j _; exact ⟨[], rfl⟩
  | succ n ih =>
    intro j hj
    obtain ⟨rest, hr⟩ := ih (j + 1) (by omega)
    have hu : u16Add v.area.top j = some (v.area.top + j) := by unfold u16Add u16Size; rw [if_pos (by omega)]
    obtain ⟨ps, hp⟩ : ∃ ps, v.writeText skin width j = some ps := by
      unfold TextView.writeText
      split
      · next line hline => exact writeFmtLine_total (hl line (List.mem_of_getElem? hline)) _ _
      · obtain ⟨chunks, hc, _⟩ := filling_queue ' ' width
        exact ⟨_, by simp only [hc, Option.bind_eq_bind, Option.bind_some]; rfl⟩
    exact ⟨_, by simp only [TextView.writeRows, hu, hp, hr, Option.bind_eq_bind, Option.bind_some]; rfl⟩

/-- C81: when a displayable text has been typed in a terminal which is large enough, the drawing panics in exactly two cases: the text has a table with too many
columns for the width and a row having cells for only some of the kept ones, one of them needing several lines, or it has a too deep list item. -/
theorem C81_panics (cw : Char → Nat) (ws alnum : Char → Bool) (c : Setup) (hs : cw ' ' = 1) (he : cw '…' = 1) (hb : cw '▐' = 1)
    (ops : List FieldStyleOp) (hops : c.styles = styledBy ops)
    (hst : Tidy c.styles.focused ∧ Tidy c.styles.unfocused ∧ Tidy c.styles.cursor) (text : Text)
    {w h : Nat} (hsz : SmallSize w h) (es : List View.Event) (hes : SmallSizes es) {v : Editor} (hv : LiveAfter cw alnum text w h es v)
    (hin : ShownInput v.input) {width height : Nat} (hlast : lastSize (w, h) es = (width, height)) (hl : largeEnough width height = true)
    (hread : Readable c.skin (c.parse v.input.content.toText)) :
    v.queueOn cw ws c = none ↔
      (∃ tbl, IsTableOf ((c.parse v.input.content.toText).map (FmtLine.ofMLine c.skin cw)) tbl ∧ Ragged cw ws c.skin (width - 3) tbl) ∨
      TooDeep c.skin (c.parse v.input.content.toText) (width - 3) := by
  have hm := liveAfter_ok hsz hes hv
  rw [hlast] at hm
  obtain ⟨hplace, hrender⟩ := hm.placed hl
  have hsmall := hm.small
  simp only [SmallSize] at hsmall
  have hl' := hl
  unfold largeEnough at hl'
  rw [decide_eq_true_iff] at hl'
  obtain ⟨f1, _, _, z1, _⟩ : ∃ cmds rows cur, c.styles.cmds cw v.input = some cmds ∧ c.styles.displayOn cw v.input = some (rows, cur) ∧
      Draws cw (cmds.map .view) v.input.area rows := by
    rw [hops] at hst ⊢
    exact field_draws hs he hb ops hst (f := v.input) hm.ok.2.2 (by rw [hplace]; simp only [fieldHalf]; omega) hin
  have hcsub : csub (renderHalf width height).width 1 = some (width - 3) := by
    unfold csub
    rw [if_pos (by simp only [renderHalf]; omega)]
    simp only [renderHalf, Option.some.injEq]
    omega
  have hfmt := C71_format cw ws c.skin (c.parse v.input.content.toText) (some (width - 3)) hread
  simp only [Option.getD_some, Option.some.injEq] at hfmt
  have hdeep : (∃ w, width - 3 = w ∧ 3 ≤ w ∧ TooDeep c.skin (c.parse v.input.content.toText) w) ↔ TooDeep c.skin (c.parse v.input.content.toText) (width - 3) := by
    constructor
    · rintro ⟨_, rfl, _, h⟩; exact h
    · exact fun h => ⟨_, rfl, by omega, h⟩
  rw [hdeep] at hfmt
  rw [← hfmt]
  have hd : v.drawable = true := by rw [hm.drawable, hl]
  simp only [Editor.queueOn, if_pos hd, z1, hrender, hcsub, Option.bind_eq_bind, Option.bind_some]
  cases ht : FmtText.fromText cw ws c.skin (c.parse v.input.content.toText) (some (width - 3)) with
  | none => simp
  | some t =>
    have hok := formatted_ok cw ws c.skin _ _ hread t ht
    obtain ⟨bar, hbar⟩ : ∃ bar, ({ area := renderHalf width height, lines := t.lines } : TextView).scrollbar = some bar := by
      have e1 : asU16 0 = 0 := by decide
      simp only [TextView.scrollbar, TextView.contentHeight, if_true, e1, Area.scrollbar]
      exact C19_total 0 _ _ _ (by simp only [renderHalf]; omega)
    obtain ⟨tw, htw⟩ : ∃ tw, ({ area := renderHalf width height, lines := t.lines } : TextView).textWidth bar = some tw := by
      cases bar with
      | none => exact ⟨_, rfl⟩
      | some b => exact ⟨_, hcsub⟩
    obtain ⟨rows, hrows⟩ := writeRows_total (v := { area := renderHalf width height, lines := t.lines }) hok tw bar (renderHalf width height).height 0
      (by simp only [renderHalf]; omega)
    simp [TextView.cmds, TextView.writeOn, hbar, htw, hrows]

/-- C81: the editor is redrawn only after the events for which true is returned, and it's enough: after the other ones the same would be drawn, unless there was
a selection or the clipboard refused what was cut. -/
theorem C81_not_late (cw : Char → Nat) (ws alnum : Char → Bool) (c : Setup) (text : Text)
    {w h : Nat} (hs : SmallSize w h) (es : List View.Event) (hes : SmallSizes es) {v : Editor} (hv : LiveAfter cw alnum text w h es v) (e : View.Event)
    {v' : Editor} {given : Option Text} (ha : v.apply cw alnum e = some (v', false, given))
    (hsel : v.input.content.hasWideSelection = false) (hcut : ∀ clip, e = .key keyCut clip → clip.accepts = true) :
    v'.queueOn cw ws c = v.queueOn cw ws c ∧ v'.input.content.lines = v.input.content.lines ∧ v'.input.content.pos = v.input.content.pos := by
  have hm := liveAfter_ok hs hes hv
  have field : ∀ (f' : InputField) (op : FieldOp), op.exec cw alnum v.input = some (f', false) →
      ({ v with input := f' } : Editor).queueOn cw ws c = v.queueOn cw ws c ∧ f'.content.lines = v.input.content.lines ∧ f'.content.pos = v.input.content.pos := by
    intro f' op hk
    have h1 := (C79_same_display cw alnum op hk hsel).2 c.styles
    have h2 : f'.content.lines = v.input.content.lines ∧ f'.content.pos = v.input.content.pos := by
      rcases C79_unused cw alnum op hk with rfl | ⟨_, rfl⟩ | ⟨_, rfl⟩ <;> exact ⟨rfl, rfl⟩
    refine ⟨?_, h2⟩
    have h3 : f'.content.toText = v.input.content.toText := by unfold Content.toText; rw [h2.1]
    simp only [Editor.queueOn, h1, h3]
  cases e with
  | mouse e =>
    simp only [Editor.apply, Option.map_eq_some_iff, Prod.mk.injEq] at ha
    obtain ⟨⟨f', b⟩, h1, rfl, h2, _⟩ := ha
    simp only at h2
    rw [h2] at h1
    exact field f' (.mouse e.kind e.x e.y e.mods e.double) h1
  | other => simp only [Editor.apply, Option.some.injEq, Prod.mk.injEq] at ha; rw [ha.1]; exact ⟨rfl, rfl, rfl⟩
  | resize w h =>
    simp only [Editor.apply, Option.map_eq_some_iff, Prod.mk.injEq] at ha
    obtain ⟨⟨r, b⟩, h1, rfl, h2, _⟩ := ha
    simp only at h2
    rw [h2] at h1
    unfold Editor.resize at h1
    split at h1
    · simp only [Option.some.injEq, Prod.mk.injEq, and_true] at h1
      rw [h1]; exact ⟨rfl, rfl, rfl⟩
    split at h1
    · simp only [Option.bind_eq_bind, Option.bind_eq_some_iff, Option.some.injEq, Prod.mk.injEq, Bool.true_eq_false, and_false, exists_false] at h1
    · simp at h1
  | key k clip =>
    simp only [Editor.apply, live_key hm.keys, Option.map_eq_some_iff, Prod.mk.injEq] at ha
    obtain ⟨⟨f', b, g⟩, h1, rfl, rfl, rfl⟩ := ha
    exact field f' (.key k) (inputKey_unused h1 (fun hk => hcut clip (by rw [hk])))

/-! Examples. -/

/-- The parts of a text between some characters. -/
def cutAt (c : Char) : Text → List Text
  | [] => [[]]
  | d :: ds => if d = c then [] :: cutAt c ds else
    match cutAt c ds with
    | [] => [[d]]
    | l :: ls => (d :: l) :: ls

/-- A small parser: the lines starting with a bar are rows of tables. -/
def exParse (t : Text) : List MLine :=
  (cutAt '\n' t).map fun l =>
    if l.head? = some '|' then .tableRow ((cutAt '|' l.tail).map fun cell => (.paragraph, [⟨cell, {}⟩])) else .normal .paragraph [⟨l, {}⟩]

def exSetup : Setup := ⟨exParse, {}, styledBy []⟩

/-- Typing characters, with no clipboard. -/
def typing (t : Text) : List View.Event := t.map fun c => if c = '\n' then .key keyEnter ⟨false, none⟩ else .key ⟨.char c, [], .none⟩ ⟨false, none⟩

/-- C81: typing a table makes the application panic, in a terminal of 20 columns, at the first letter of its second row for which the cell takes several lines. -/
theorem C81_panic_counterexample :
    (((Editor.new renderCw [] ⟨0, 0, 20, 15⟩).bind fun v => runLive renderCw (fun _ => true) v (typing "|a|b|c|d|e\n|abc".toList)).map fun v =>
      (v.input.content.toText, (v.queueOn renderCw (· == ' ') exSetup).isSome)) = some ("|a|b|c|d|e\n|abc".toList, true) ∧
    (((Editor.new renderCw [] ⟨0, 0, 20, 15⟩).bind fun v => runLive renderCw (fun _ => true) v (typing "|a|b|c|d|e\n|abcd".toList)).map fun v =>
      (v.input.content.toText, (v.queueOn renderCw (· == ' ') exSetup).isSome)) = some ("|a|b|c|d|e\n|abcd".toList, false) := by decide +kernel

theorem exParse_readable (t : Text) : Readable {} (exParse t) := by
  have hp : DepthOk .paragraph := by intro d hd; rcases hd with hd | hd <;> cases hd
  constructor
  · intro kind cs h
    obtain ⟨l, _, hl⟩ := List.mem_map.1 h
    split at hl
    · cases hl
    · cases hl; exact ⟨hp, by simp [styleOf]⟩
  · intro cells h c hc
    obtain ⟨l, _, hl⟩ := List.mem_map.1 h
    split at hl
    · simp only [MLine.tableRow.injEq] at hl
      rw [← hl] at hc
      obtain ⟨cell, _, rfl⟩ := List.mem_map.1 hc
      exact ⟨hp, by simp [styleOf], Nat.zero_le _⟩
    · cases hl

/-- C81: the hypotheses of the characterisation of the panics are met: here the text has a ragged table. -/
example : ∃ tbl, IsTableOf ((exParse "|a|b|c|d|e\n|abcd".toList).map (FmtLine.ofMLine {} renderCw)) tbl ∧ Ragged renderCw (· == ' ') {} 17 tbl := by
  have hs : SmallSizes (typing "|a|b|c|d|e\n|abcd".toList) := by
    intro w h hh
    obtain ⟨c, _, hc⟩ := List.mem_map.1 hh
    split at hc <;> cases hc
  obtain ⟨v, hv, _⟩ := C81_field renderCw (fun _ => true) [] (w := 20) (h := 15) exSize _ hs
  have hfacts : (((Editor.new renderCw [] ⟨0, 0, 20, 15⟩).bind fun v => runLive renderCw (fun _ => true) v (typing "|a|b|c|d|e\n|abcd".toList)).map fun v =>
      (v.input.content.lines, decide (v.input.area.top + v.input.area.height + v.input.scroll.y + 1 < 65536), (v.queueOn renderCw (· == ' ') exSetup).isSome)) = some (["|a|b|c|d|e".toList, "|abcd".toList], true, false) := by
    decide +kernel
  obtain ⟨v0, hv0, hv1⟩ := id hv
  rw [hv0] at hfacts
  simp only [Option.bind_some, hv1, Option.map_some, Option.some.injEq, Prod.mk.injEq] at hfacts
  obtain ⟨a1, a2, a3⟩ := hfacts
  have htext : v.input.content.toText = "|a|b|c|d|e\n|abcd".toList := by unfold Content.toText; rw [a1]; decide
  have hin : ShownInput v.input := ⟨.inr (by rw [a1]; decide), by rw [a1]; decide, of_decide_eq_true a2⟩
  have key := C81_panics renderCw (· == ' ') (fun _ => true) exSetup (by decide) (by decide) (by decide) [] rfl ⟨.inl rfl, .inl rfl, .inl rfl⟩ _ exSize _ hs hv hin
    (width := 20) (height := 15) (by decide) (by decide) (exParse_readable _)
  have hnone : v.queueOn renderCw (· == ' ') exSetup = none := by
    cases h : v.queueOn renderCw (· == ' ') exSetup with
    | none => rfl
    | some c => rw [h] at a3; cases a3
  rw [htext] at key
  rcases key.1 hnone with h | ⟨k, cs, ls, h, _⟩
  · exact h
  · have : ∀ l ∈ exParse "|a|b|c|d|e\n|abcd".toList, ∃ cells, l = .tableRow cells := by
      intro l hl
      obtain ⟨t, ht, rfl⟩ := List.mem_map.1 hl
      have : t.head? = some '|' := by
        have : ∀ t ∈ cutAt '\n' "|a|b|c|d|e\n|abcd".toList, t.head? = some '|' := by decide
        exact this t ht
      rw [if_pos this]
      exact ⟨_, rfl⟩
    obtain ⟨cells, hc⟩ := this _ h
    cases hc

/-- Events of the example: typing, a change of size, and pasting. -/
def exLive : List View.Event := typing "xy".toList ++ [.resize 30 18, .key keyPaste ⟨true, some " pasted".toList⟩]

theorem exLive_small : SmallSizes exLive := by
  intro w h hh
  simp only [exLive, typing, List.mem_append, List.mem_map, List.mem_cons, View.Event.resize.injEq, reduceCtorEq, List.not_mem_nil, or_false] at hh
  rcases hh with ⟨c, _, hc⟩ | hh
  · split at hc <;> cases hc
  · unfold SmallSize; omega

/-- C81: the hypotheses are met by an editor in which something was typed and pasted. -/
example : ∃ v cmds rows, LiveAfter renderCw (fun _ => true) "A text: ".toList 20 15 exLive v ∧ v.queueOn renderCw (· == ' ') exSetup = some cmds ∧
    ({ mlines := [.normal .paragraph [⟨"A text: xy pasted".toList, {}⟩]], area := ⟨1, 10, 28, 8⟩, skin := {} } : MadView).writeOn renderCw (· == ' ') = some rows ∧
    ∀ t : Tty, t.pen = {} → ∀ x y, InArea ⟨1, 10, 28, 8⟩ x y → (t.playApp renderCw cmds).cells x y = printSeen renderCw (viewRows rows) blankCells x y := by
  obtain ⟨v, hv, _⟩ := C81_field renderCw (fun _ => true) "A text: ".toList (w := 20) (h := 15) exSize exLive exLive_small
  have hfacts : ((Editor.new renderCw "A text: ".toList ⟨0, 0, 20, 15⟩).bind fun v => (runLive renderCw (fun _ => true) v exLive).map
      fun v => (v.input.content.lines, decide (v.input.area.top + v.input.area.height + v.input.scroll.y + 1 < 65536))) = some (["A text: xy pasted".toList], true) := by decide +kernel
  obtain ⟨v0, hv0, hv1⟩ := id hv
  rw [hv0] at hfacts
  simp only [Option.bind_some, hv1, Option.map_some, Option.some.injEq, Prod.mk.injEq] at hfacts
  obtain ⟨a1, a2⟩ := hfacts
  have hp : exSetup.parse v.input.content.toText = [.normal .paragraph [⟨"A text: xy pasted".toList, {}⟩]] := by
    have : v.input.content.toText = "A text: xy pasted".toList := by unfold Content.toText; rw [a1]; decide
    rw [this]; decide
  have hin : ShownInput v.input := ⟨.inr (by rw [a1]; decide), by rw [a1]; decide, of_decide_eq_true a2⟩
  obtain ⟨cmds, h1, h2⟩ := C81_screen renderCw (· == ' ') (fun _ => true) exSetup (by decide) (by decide) (by decide) plainSkin [] rfl
    ⟨.inl rfl, .inl rfl, .inl rfl⟩ _ exSize exLive exLive_small hv hin (width := 30) (height := 18) (by decide) (by decide)
    (by rw [hp]; exact paragraph_fits ⟨rfl, rfl⟩ _ _ (by decide)) (by
      intro t ht
      rw [hp] at ht
      have e : (FmtText.fromText renderCw (· == ' ') exSetup.skin [.normal .paragraph [⟨"A text: xy pasted".toList, {}⟩]] (some (30 - 3))).map (·.lines.length) = some 1 := by decide +kernel
      rw [ht] at e
      have : t.lines.length = 1 := Option.some.inj e
      omega)
  rw [hp] at h2
  obtain ⟨rows, k1, _⟩ := (h2 ⟨blankCells, 0, 0, {}⟩ rfl).2.2.1
  refine ⟨v, cmds, rows, hv, h1, k1, ?_⟩
  intro t ht x y hx
  obtain ⟨rows', k2, k3⟩ := (h2 t ht).2.2.1
  have : some rows = some rows' := k1.symm.trans k2
  cases this
  exact k3 x y hx

/-- C81: an editor in a terminal which is too small. -/
example : ∃ v cmds, LiveAfter renderCw (fun _ => true) [] 20 15 [.resize 20 14] v ∧ v.queueOn renderCw (· == ' ') exSetup = some cmds := by
  have hs : SmallSizes [.resize 20 14] := by
    intro w h hh
    simp only [List.mem_cons, View.Event.resize.injEq, List.not_mem_nil, or_false] at hh
    unfold SmallSize
    omega
  obtain ⟨v, hv, _⟩ := C81_field renderCw (fun _ => true) [] (w := 20) (h := 15) exSize _ hs
  obtain ⟨cmds, h, _⟩ := C81_small_screen renderCw (· == ' ') (fun _ => true) exSetup [] exSize _ hs hv (by decide)
  exact ⟨v, cmds, hv, h⟩

/-- C81: a key which does nothing. -/
example : (Editor.new renderCw "abc".toList ⟨0, 0, 20, 15⟩).bind (fun v => (v.apply renderCw (fun _ => true) (.key keyEsc ⟨true, none⟩)).map
    fun r => (v.input.content.hasWideSelection, r.2)) = some (false, false, none) := by decide +kernel

/-- C81: after a cut refused by the clipboard the rendering on the screen isn't the one of the text any more. -/
theorem C81_late_counterexample : (Editor.new renderCw [] ⟨0, 0, 20, 15⟩).bind (fun v => (runLive renderCw (fun _ => true) v
      (typing "x".toList ++ [.key ⟨.home, [], .none⟩ ⟨true, none⟩])).bind fun v =>
      (v.apply renderCw (fun _ => true) (.key keyCut ⟨false, none⟩)).map fun r =>
        (r.2.1, v.input.content.hasWideSelection, v.input.content.lines, r.1.input.content.lines)) =
    some (false, false, ["x".toList], [[]]) := by decide +kernel

end Verif.Props
