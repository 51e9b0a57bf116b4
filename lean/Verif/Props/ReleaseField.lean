import Verif.Lemmas.ReleaseField
import Verif.Props.FieldSession
/-! C110: input fields in release builds. -/
namespace Verif.Props
open Verif.Spec InputField

/-- C110: what doesn't panic in a debug build is the same in a release build. -/
theorem C110_same (cw : Char → Nat) (alnum : Char → Bool) (f : InputField) (h : f.area.WF) (op : FieldOp) (r : InputField × Bool)
    (he : op.exec cw alnum f = some r) : op.releaseExec cw alnum f = some r := releaseExec_same cw alnum f h op r he

theorem release_outside (a : Area) (h : a.WF) {x y : Nat} (ho : ¬ (OnScreen a ∧ InArea a x y)) : Release.contains a x y = false := by
  cases hc : Release.contains a x y with
  | false => rfl
  | true => exact absurd ((C107_contains a h x y).1 hc) ho

theorem releaseMouse_none (cw : Char → Nat) (alnum : Char → Bool) {f : InputField} (h : f.area.WF) {x y : Nat}
    (ho : ¬ (OnScreen f.area ∧ InArea f.area x y)) (kind : MouseKind) (mods : KeyMods) (double : Bool) :
    Release.fieldMouse cw alnum f kind x y mods double = some (f, false) ∧ Release.fieldClick cw f x y = some (f, false) := by
  unfold Release.fieldMouse Release.fieldClick
  rw [release_outside f.area h ho]
  exact ⟨rfl, rfl⟩

theorem onScreen_wf {a : Area} (h : OnScreen a) : a.WF := by
  obtain ⟨h1, h2⟩ := h
  simp only [Area.WF, u16Size]
  omega

theorem releaseMouse_ok (cw : Char → Nat) (alnum : Char → Bool) {f : InputField} (hv : f.content.Valid) (h : f.area.WF) (x y : Nat) (op : FieldOp)
    (hop : op = .click x y ∨ (∃ kind mods double, op = .mouse kind x y mods double) ∨ ∃ kind mods double, op = .event (.mouse kind x y mods) double) :
    ∃ f' b, op.releaseExec cw alnum f = some (f', b) ∧ f'.content.Valid ∧ f'.area.WF := by
  by_cases ho : OnScreen f.area ∧ InArea f.area x y
  · have hw : 1 ≤ f.area.width := by
      obtain ⟨_, i, j, h1, _⟩ := ho
      omega
    have ha : op.Allowed f := by rcases hop with rfl | ⟨_, _, _, rfl⟩ | ⟨_, _, _, rfl⟩ <;> trivial
    obtain ⟨f', b, h1, h2, _⟩ := fieldOp_ok cw alnum (f := f) ⟨hv, hw, ho.1⟩ op ha
    exact ⟨f', b, C110_same cw alnum f h op _ h1, h2.1, onScreen_wf h2.2.2⟩
  · refine ⟨f, false, ?_, hv, h⟩
    rcases hop with rfl | ⟨kind, mods, double, rfl⟩ | ⟨kind, mods, double, rfl⟩
    · exact (releaseMouse_none cw alnum h ho .downLeft .none false).2
    · exact (releaseMouse_none cw alnum h ho kind mods double).1
    · exact (releaseMouse_none cw alnum h ho kind mods double).1

theorem alike_withWidth (f : InputField) (w : Nat) : Alike f (f.withWidth w) := ⟨f.area, f.scroll, rfl, rfl⟩

/-- C110: in a release build, no operation on an input field panics, whatever its area, with or without column, in the screen or not. -/
theorem C110_total (cw : Char → Nat) (alnum : Char → Bool) {f : InputField} (hv : f.content.Valid) (h : f.area.WF) (op : FieldOp) (hu : op.U16) :
    ∃ f' b, op.releaseExec cw alnum f = some (f', b) ∧ f'.content.Valid ∧ f'.area.WF := by
  have tx : op.Textual → ∃ f' b, op.releaseExec cw alnum f = some (f', b) ∧ f'.content.Valid ∧ f'.area.WF := by
    intro ht
    obtain ⟨f', g', b, h1, _, ⟨a, s, _, rfl⟩, h4, _, h6⟩ := Sim.textual cw alnum (alike_withWidth f 1) hv (Nat.le_refl 1) op ht
    exact ⟨_, b, h1, h4, by rw [h6]; exact h⟩
  have area : ∀ a : Area, a.WF → ∃ f', Release.fieldFixScroll cw { f with area := a } = some f' ∧ f'.content.Valid ∧ f'.area.WF := by
    intro a ha
    obtain ⟨s, h1⟩ := fieldFixScroll_ok cw (f := { f with area := a }) hv
    exact ⟨_, h1, hv, ha⟩
  cases op with
  | changeArea x y w =>
    obtain ⟨f', h1, h2, h3⟩ := area { f.area with left := x, top := y, width := w } ⟨hu.1, hu.2.1, hu.2.2, h.2.2.2⟩
    simp only [FieldOp.releaseExec, Release.fieldChangeArea]
    split
    · exact ⟨f', true, by rw [h1]; rfl, h2, h3⟩
    · exact ⟨f, true, rfl, hv, h⟩
  | setArea a =>
    obtain ⟨f', h1, h2, h3⟩ := area a hu
    simp only [FieldOp.releaseExec, Release.fieldSetArea]
    split
    · exact ⟨f', true, by rw [h1]; rfl, h2, h3⟩
    · exact ⟨f, true, rfl, hv, h⟩
  | click x y => exact releaseMouse_ok cw alnum hv h x y _ (.inl rfl)
  | mouse kind x y mods double => exact releaseMouse_ok cw alnum hv h x y _ (.inr (.inl ⟨_, _, _, rfl⟩))
  | event e double =>
    cases e with
    | mouse kind x y mods => exact releaseMouse_ok cw alnum hv h x y _ (.inr (.inr ⟨_, _, _, rfl⟩))
    | key code mods => exact tx trivial
    | other => exact tx trivial
  | scrollUp =>
    refine ⟨f.scrollUp.1, f.scrollUp.2, rfl, ?_⟩
    unfold scrollUp
    split <;> exact ⟨hv, h⟩
  | scrollDown =>
    refine ⟨f.scrollDown.1, f.scrollDown.2, rfl, ?_⟩
    unfold scrollDown
    split <;> exact ⟨hv, h⟩
  | _ => exact tx trivial

/-- C110: whatever is done with the API from a new field, nothing panics in a release build. -/
theorem C110_reachable (cw : Char → Nat) (alnum : Char → Bool) {f : InputField} (h : ReachableReleaseField cw alnum f) :
    f.content.Valid ∧ f.area.WF ∧ ∀ op : FieldOp, op.U16 → ∃ f' b, op.releaseExec cw alnum f = some (f', b) := by
  have key : f.content.Valid ∧ f.area.WF := by
    induction h with
    | init area ha => exact ⟨Content.default_valid, ha⟩
    | step op _ hu he ih =>
      obtain ⟨f', b, h1, h2⟩ := C110_total cw alnum ih.1 ih.2 op hu
      rw [he] at h1
      cases h1
      exact h2
  refine ⟨key.1, key.2, fun op hu => ?_⟩
  obtain ⟨f', b, h1, _⟩ := C110_total cw alnum key.1 key.2 op hu
  exact ⟨f', b, h1⟩

/-- A field without column, and out of the screen, which gets a second line, can be reached. -/
example : ∃ f b, FieldOp.releaseExec (fun _ => 1) (fun _ => true) (InputField.new ⟨65535, 65535, 0, 1⟩) .insertNewLine = some (f, b) ∧
    ReachableReleaseField (fun _ => 1) (fun _ => true) f ∧ f.content.lines = [[], []] := by
  refine ⟨_, _, rfl, .step .insertNewLine (.init ⟨65535, 65535, 0, 1⟩ (by simp [Area.WF, u16Size])) trivial rfl, by decide⟩

/-- C110: in a release build, what an operation does to the text, the cursor, the selection and the focus of a field, and what it returns, don't depend on the
width of the area: they're what they are in a debug build with an area of any number of columns. -/
theorem C110_content (cw : Char → Nat) (alnum : Char → Bool) {f : InputField} (hv : f.content.Valid) (w : Nat) (hw : 1 ≤ w) (op : FieldOp) (ho : op.Textual) :
    ∃ f' g' b, op.releaseExec cw alnum f = some (f', b) ∧ op.exec cw alnum (f.withWidth w) = some (g', b) ∧ f'.content = g'.content ∧
      f'.focused = g'.focused ∧ f'.passwordMode = g'.passwordMode ∧ f'.newLineKeys = g'.newLineKeys ∧ f'.area = f.area := by
  obtain ⟨f', g', b, h1, h2, ⟨a, s, _, rfl⟩, _, _, h6⟩ := Sim.textual cw alnum (alike_withWidth f w) hv hw op ho
  exact ⟨_, g', b, h1, h2, rfl, rfl, rfl, rfl, h6⟩

/-! ### Sessions -/

/-- The places of the text where the mouse is for each event, in the field as it's then, in a release build. -/
def ReleaseCellsOf (cw : Char → Nat) (alnum : Char → Bool) : InputField → List (SessionEvent × Pos) → Prop
  | _, [] => True
  | f, (e, p) :: es =>
    (∀ x y, (e = .click x y ∨ ∃ m : MouseInput, e = .mouse m ∧ m.x = x ∧ m.y = y) → InArea f.area x y → CellAt cw f x y p) ∧
      ∀ f' t, giveReleaseEvent cw alnum f e = some (f', t) → ReleaseCellsOf cw alnum f' es

theorem giveRelease_same (cw : Char → Nat) (alnum : Char → Bool) (f : InputField) (h : f.area.WF) (e : SessionEvent) :
    Same (giveEvent cw alnum f e) (giveReleaseEvent cw alnum f e) := by
  have fix := fieldFixScroll_same cw
  cases e with
  | cmd c =>
    cases c with
    | key k => exact (fieldKey_same cw f k).bind fun _ => .refl _
    | cut => exact (Same.refl _).bind fun _ => (Same.refl _).bind fun _ => (fix _).bind fun _ => .refl _
    | paste s => exact ((Same.refl _).bind fun _ => (Same.refl _).bind fun _ => fix _).bind fun _ => .refl _
  | mouse m => exact (fieldMouse_same cw alnum f h _ _ _ _ _).bind fun _ => .refl _
  | click x y => exact (fieldClick_same cw f h x y).bind fun _ => .refl _
  | focus b => exact (Same.ite (.refl _) (Same.ite (fix _) (.refl _))).bind fun _ => .refl _
  | area a => exact (Same.ite (fix _) (.refl _)).bind fun _ => .refl _

/-- A command. -/
theorem giveReleaseCmd_sim (cw : Char → Nat) {f g : InputField} (h : Alike f g) (hv : g.content.Valid) (hw : 1 ≤ g.area.width) (c : EditCmd) :
    Sim f.area g.area.width (giveReleaseCmd cw f c) (giveCmd cw g c) := by
  cases c with
  | key k =>
    obtain ⟨f', g', b, h1, h2, h3⟩ := Sim.key cw h hv hw k
    exact ⟨f', g', [], by simp [giveReleaseCmd, h1], by simp [giveCmd, h2], h3⟩
  | cut => exact Sim.cut cw h hv hw
  | paste s =>
    have := Sim.replace cw h hv hw s ([] : Text)
    simp only [giveReleaseCmd, giveCmd, bind_pair]
    exact this

/-- One event. -/
theorem releaseEvent_ok (cw : Char → Nat) (alnum : Char → Bool) {f : InputField} (hv : f.content.Valid) (ho : OnScreen f.area) (e : SessionEvent)
    (ha : OnScreenEvent e) (p : Pos)
    (hp : ∀ x y, (e = .click x y ∨ ∃ m : MouseInput, e = .mouse m ∧ m.x = x ∧ m.y = y) → InArea f.area x y → CellAt cw f x y p) :
    ∃ f' t, giveReleaseEvent cw alnum f e = some (f', t) ∧ f'.content.Valid ∧ OnScreen f'.area ∧ f'.newLineKeys = f.newLineKeys ∧
      (fieldDocOf f', t) = (fieldDocOf f).play cw alnum f.newLineKeys e p := by
  have wf := onScreen_wf ho
  by_cases hw : 1 ≤ f.area.width ∧ AllowedEvent e
  · obtain ⟨f', t, h1, h2, _, h4, h5, h6⟩ := sessionEvent_ok cw alnum hv hw.1 ho e hw.2 p hp
    exact ⟨f', t, giveRelease_same cw alnum f wf e _ h1, h2, h4, h5, h6⟩
  · cases e with
    | area a =>
      obtain ⟨s, h1⟩ := fieldFixScroll_ok cw (f := { f with area := a }) hv
      simp only [giveReleaseEvent, Release.fieldSetArea]
      split
      · exact ⟨{ f with area := a, scroll := s }, [], by rw [h1]; rfl, hv, ha, rfl, rfl⟩
      · rename_i h
        have h := Classical.not_not.1 h
        exact ⟨f, [], rfl, hv, ho, rfl, by simp [fieldDocOf, FieldDoc.play, h]⟩
    | mouse m =>
      have h0 : f.area.width = 0 := by simp [AllowedEvent] at hw; exact hw
      have hi : ¬ (OnScreen f.area ∧ InArea f.area m.x m.y) := by
        rintro ⟨_, i, j, h1, _⟩
        omega
      refine ⟨f, [], by simp [giveReleaseEvent, (releaseMouse_none cw alnum wf hi m.kind m.mods m.double).1], hv, ho, rfl, ?_⟩
      have : (fieldDocOf f).has m.x m.y = false := by simp [FieldDoc.has, fieldDocOf, h0]; omega
      simp [FieldDoc.play, this]
    | click x y =>
      have h0 : f.area.width = 0 := by simp [AllowedEvent] at hw; exact hw
      have hi : ¬ (OnScreen f.area ∧ InArea f.area x y) := by
        rintro ⟨_, i, j, h1, _⟩
        omega
      refine ⟨f, [], by simp [giveReleaseEvent, (releaseMouse_none cw alnum wf hi .downLeft .none false).2], hv, ho, rfl, ?_⟩
      have : (fieldDocOf f).has x y = false := by simp [FieldDoc.has, fieldDocOf, h0]; omega
      simp [FieldDoc.play, this]
    | focus b =>
      obtain ⟨s, h1⟩ := fieldFixScroll_ok cw (f := { f with focused := b }) hv
      simp only [giveReleaseEvent, Release.fieldSetFocus, FieldDoc.play]
      split
      · rename_i h
        exact ⟨f, [], rfl, hv, ho, rfl, by simp [fieldDocOf, h]⟩
      · split
        · exact ⟨{ f with focused := b, scroll := s }, [], by rw [h1]; rfl, hv, ho, rfl, rfl⟩
        · exact ⟨{ f with focused := b }, [], rfl, hv, ho, rfl, rfl⟩
    | cmd c =>
      obtain ⟨f', g', t, h1, h2, ⟨a, s, _, rfl⟩, h4, _, h6⟩ := giveReleaseCmd_sim cw (alike_withWidth f 1) hv (Nat.le_refl 1) c
      dsimp only at h6
      subst h6
      by_cases hk : ∀ k, c = .key k → f.focused = true
      · obtain ⟨g2, t2, k1, k2, k3, k4⟩ := selCmd_ok cw (f := f.withWidth 1) hv (Nat.le_refl 1) c hk
        rw [h2] at k1
        cases k1
        have e1 := congrArg Prod.fst k3
        have e2 := congrArg Prod.snd k3
        obtain ⟨_, s2, s3⟩ := k4
        refine ⟨_, t, h1, h4, ho, s3, ?_⟩
        have d : fieldDocOf { g' with area := f.area, scroll := s } =
            { fieldDocOf f with sel := ((selDocOf f.content).edit cw f.newLineKeys f.area.height c).1 } := by
          rw [show ((selDocOf f.content).edit cw f.newLineKeys f.area.height c).1 = selDocOf g'.content from e1.symm]
          simp only [fieldDocOf, selDocOf, s2]
          rfl
        rw [d]
        cases c with
        | key k =>
          simp only [FieldDoc.play]
          rw [if_pos (show (fieldDocOf f).focused = true from hk k rfl)]
          exact congrArg _ e2
        | cut => exact congrArg _ e2
        | paste s => exact congrArg _ e2
      · cases c with
        | key k =>
          have hf : f.focused = false := by
            cases hb : f.focused with
            | false => rfl
            | true => exact absurd (fun _ _ => hb) hk
          refine ⟨f, [], by simp [giveReleaseEvent, giveReleaseCmd, Release.fieldKey, hf], hv, ho, rfl, ?_⟩
          simp only [FieldDoc.play]
          rw [if_neg (by simp [fieldDocOf, hf])]
        | cut => exact absurd (fun k h => by cases h) hk
        | paste s => exact absurd (fun k h => by cases h) hk

/-- C110: in a release build too, and even if the area of the field sometimes has no column, whatever the keys, cuts, pastes, mouse events, clicks, changes of
focus and of area given one after the other to a field, it has the text, the cursor, the selection, the focus and the area of the reference, and the cut texts are
the same. -/
theorem C110_session (cw : Char → Nat) (alnum : Char → Bool) : ∀ (es : List (SessionEvent × Pos)) {f : InputField}, f.content.Valid →
    OnScreen f.area → (∀ e ∈ es, OnScreenEvent e.1) → ReleaseCellsOf cw alnum f es →
    ∃ f' cuts, giveReleaseEvents cw alnum f (es.map Prod.fst) = some (f', cuts) ∧ f'.content.toText = f'.content.before ++ f'.content.after ∧
      (fieldDocOf f', cuts) = (fieldDocOf f).plays cw alnum f.newLineKeys es
  | [], f, hv, _, _, _ => ⟨f, [], rfl, (C22_parts hv).symm, rfl⟩
  | (e, p) :: es, f, hv, ho, ha, hc => by
    obtain ⟨f1, t, h1, h2, h4, h5, h6⟩ := releaseEvent_ok cw alnum hv ho e (ha (e, p) (by simp)) p hc.1
    obtain ⟨f2, cuts, k1, k2, k3⟩ := C110_session cw alnum es h2 h4 (fun x hm => ha x (by simp [hm])) (hc.2 f1 t h1)
    refine ⟨f2, t :: cuts, by simp [giveReleaseEvents, h1, k1], k2, ?_⟩
    simp only [FieldDoc.plays]
    rw [← h6, ← h5, ← k3]

/-- The place of the text where the mouse is for an event, as the code computes it. -/
def releasePlace (cw : Char → Nat) (f : InputField) : SessionEvent → Pos
  | .click x y => (f.posOfCell cw x y).getD ⟨0, 0⟩
  | .mouse m => (f.posOfCell cw m.x m.y).getD ⟨0, 0⟩
  | _ => ⟨0, 0⟩

/-- The places of the text where the mouse is, as the code computes them. -/
def releasePlaces (cw : Char → Nat) (alnum : Char → Bool) : InputField → List SessionEvent → List Pos
  | _, [] => []
  | f, e :: es => releasePlace cw f e :: releasePlaces cw alnum (((giveReleaseEvent cw alnum f e).map Prod.fst).getD f) es

theorem releasePlaces_length (cw : Char → Nat) (alnum : Char → Bool) : ∀ (es : List SessionEvent) (f : InputField),
    (releasePlaces cw alnum f es).length = es.length
  | [], _ => rfl
  | e :: es, f => by simp [releasePlaces, releasePlaces_length cw alnum es]

theorem releasePlaces_ok (cw : Char → Nat) (alnum : Char → Bool) : ∀ (es : List SessionEvent) {f : InputField}, f.content.Valid → OnScreen f.area →
    (∀ e ∈ es, OnScreenEvent e) → ReleaseCellsOf cw alnum f (es.zip (releasePlaces cw alnum f es))
  | [], _, _, _, _ => trivial
  | e :: es, f, hv, ho, ha => by
    have cell : ∀ x y, InArea f.area x y → CellAt cw f x y ((f.posOfCell cw x y).getD ⟨0, 0⟩) := by
      intro x y hi
      have hw : 1 ≤ f.area.width := by obtain ⟨i, j, h1, _⟩ := hi; omega
      obtain ⟨p, h1, h2, _⟩ := posOfCell_at cw ⟨hv, hw, ho⟩ hi
      rw [h1]
      exact h2
    have first : ∀ x y, (e = .click x y ∨ ∃ m : MouseInput, e = .mouse m ∧ m.x = x ∧ m.y = y) → InArea f.area x y →
        CellAt cw f x y (releasePlace cw f e) := by
      rintro x y (rfl | ⟨m, rfl, rfl, rfl⟩) hi
      · exact cell _ _ hi
      · exact cell _ _ hi
    refine ⟨first, fun f' t hg => ?_⟩
    obtain ⟨f1, t1, h1, h2, h3, _⟩ := releaseEvent_ok cw alnum hv ho e (ha e (by simp)) _ first
    rw [h1] at hg
    cases hg
    rw [h1]
    exact releasePlaces_ok cw alnum es h2 h3 fun x hm => ha x (by simp [hm])

/-- C110: the mouse always is at a place of the text: for every session there are places as wanted by `C110_session`. -/
theorem C110_places (cw : Char → Nat) (alnum : Char → Bool) (es : List SessionEvent) {f : InputField} (hv : f.content.Valid) (ho : OnScreen f.area)
    (ha : ∀ e ∈ es, OnScreenEvent e) : ∃ ps : List Pos, ps.length = es.length ∧ ReleaseCellsOf cw alnum f (es.zip ps) :=
  ⟨_, releasePlaces_length cw alnum es f, releasePlaces_ok cw alnum es hv ho ha⟩

/-- C110: a whole session which doesn't panic in a debug build gives the same in a release build, whatever the areas in the screen: so it follows the reference editor even
if its area sometimes has no column. -/
theorem C110_debug_session (cw : Char → Nat) (alnum : Char → Bool) (es : List (SessionEvent × Pos)) {f : InputField} (hv : f.content.Valid)
    (ho : OnScreen f.area) (ha : ∀ e ∈ es, OnScreenEvent e.1) (hc : ReleaseCellsOf cw alnum f es) {f' : InputField} {cuts : List Text}
    (h : giveEvents cw alnum f (es.map Prod.fst) = some (f', cuts)) :
    giveReleaseEvents cw alnum f (es.map Prod.fst) = some (f', cuts) ∧ f'.content.toText = f'.content.before ++ f'.content.after ∧
      (fieldDocOf f', cuts) = (fieldDocOf f).plays cw alnum f.newLineKeys es := by
  suffices key : giveReleaseEvents cw alnum f (es.map Prod.fst) = some (f', cuts) by
    obtain ⟨g, cuts', h1, h2, h3⟩ := C110_session cw alnum es hv ho ha hc
    rw [key] at h1
    cases h1
    exact ⟨key, h2, h3⟩
  clear hc
  induction es generalizing f f' cuts with
  | nil => exact h
  | cons ep es ih =>
    obtain ⟨e, p⟩ := ep
    simp only [List.map_cons, giveEvents, Option.bind_eq_bind, Option.bind_eq_some_iff, Option.some.injEq] at h
    obtain ⟨⟨f1, t⟩, h1, ⟨f2, ts⟩, h2, h3⟩ := h
    have h4 := giveRelease_same cw alnum f (onScreen_wf ho) e _ h1
    obtain ⟨ps, hl, hps⟩ := C110_places cw alnum [e] hv ho (fun x hx => by rw [List.mem_singleton.1 hx]; exact ha (e, p) (by simp))
    obtain ⟨q, rfl⟩ : ∃ q, ps = [q] := by
      cases ps with
      | nil => cases hl
      | cons q qs =>
        cases qs with
        | nil => exact ⟨q, rfl⟩
        | cons _ _ => simp at hl
    obtain ⟨g1, t1, k1, k2, k4, _⟩ := releaseEvent_ok cw alnum hv ho e (ha (e, p) (by simp)) q hps.1
    rw [h4] at k1
    cases k1
    have := ih k2 k4 (fun x hm => ha x (by simp [hm])) h2
    simp only [List.map_cons, giveReleaseEvents, Option.bind_eq_bind, h4, Option.bind_some, this]
    rw [← h3]

/-- A session in which the area of the field gets no column, then some again: a text of three lines is pasted in an area of two rows. -/
private def narrowSession : List SessionEvent :=
  [.area ⟨2, 1, 0, 2⟩, .cmd (.paste "one\ntwo\nlast".toList), .cmd (.key { code := .backspace }), .mouse ⟨.downLeft, 2, 1, .none, false⟩,
    .cmd (.key { code := .up }), .cmd (.key { code := .char 'x' }), .area ⟨2, 1, 9, 2⟩, .mouse ⟨.downLeft, 3, 1, .none, false⟩, .cmd (.key { code := .char 'y' })]

private def narrowField : InputField := { area := ⟨2, 1, 12, 5⟩, focused := true }

set_option maxRecDepth 8000 in
/-- What it gives in a release build, and in a debug build. -/
example : (giveReleaseEvents (fun _ => 1) (fun c => c.isAlphanum) narrowField narrowSession).map (fun r => r.1.content.toText) =
      some "one\ntywox\nlas".toList ∧
    giveEvents (fun _ => 1) (fun c => c.isAlphanum) narrowField narrowSession = none := by decide +kernel

/-- The hypotheses of C110_session hold for this session. -/
example : narrowField.content.Valid ∧ OnScreen narrowField.area ∧ (∀ e ∈ narrowSession, OnScreenEvent e) ∧
    ∃ ps : List Pos, ps.length = narrowSession.length ∧ ReleaseCellsOf (fun _ => 1) (fun c => c.isAlphanum) narrowField (narrowSession.zip ps) := by
  have hv : narrowField.content.Valid := Content.default_valid
  have ho : OnScreen narrowField.area := by simp [OnScreen, narrowField]
  have ha : ∀ e ∈ narrowSession, OnScreenEvent e := by simp [narrowSession, OnScreenEvent, OnScreen]
  exact ⟨hv, ho, ha, C110_places _ _ _ hv ho ha⟩

/-- A session without panic in a debug build although the area has no column: the text has no more lines than rows. -/
private def thinSession : List SessionEvent :=
  [.area ⟨2, 1, 0, 3⟩, .cmd (.paste "one\ntwo\nlast".toList), .cmd (.key { code := .up }), .cmd (.key { code := .char 'x' }), .area ⟨2, 1, 9, 2⟩]

set_option maxRecDepth 8000 in
/-- The hypotheses of C110_debug_session hold for this session. -/
example : (giveEvents (fun _ => 1) (fun c => c.isAlphanum) narrowField thinSession).map (fun r => r.1.content.toText) = some "one\ntwox\nlast".toList ∧
    (∀ e ∈ thinSession, OnScreenEvent e) ∧
    ∃ ps : List Pos, ps.length = thinSession.length ∧ ReleaseCellsOf (fun _ => 1) (fun c => c.isAlphanum) narrowField (thinSession.zip ps) := by
  have hv : narrowField.content.Valid := Content.default_valid
  have ho : OnScreen narrowField.area := by simp [OnScreen, narrowField]
  have ha : ∀ e ∈ thinSession, OnScreenEvent e := by simp [thinSession, OnScreenEvent, OnScreen]
  exact ⟨by decide +kernel, ha, C110_places _ _ _ hv ho ha⟩

/-- C110: in a debug build, adding a line to a field whose area has no column and no other row panics. -/
theorem C110_debug_counterexample :
    FieldOp.exec (fun _ => 1) (fun _ => true) { area := ⟨2, 1, 0, 1⟩, focused := true } .insertNewLine = none ∧
      ∃ f b, FieldOp.releaseExec (fun _ => 1) (fun _ => true) { area := ⟨2, 1, 0, 1⟩, focused := true } .insertNewLine = some (f, b) ∧
        f.content.lines = [[], []] := by
  refine ⟨by decide, _, _, rfl, by decide⟩

/-! ### Display -/

theorem fieldDrawCell_same (f : InputField) (sel : Bool) (ch : Char) (displayed j : Nat) (r : CellPiece × Option (Nat × Nat))
    (h : f.drawCell sel ch displayed j = some r) : Release.fieldDrawCell f sel ch displayed j = r := by
  unfold drawCell at h
  unfold Release.fieldDrawCell
  split at h
  · rename_i c
    rw [if_pos c]
    simp only [cursorCell, Option.bind_eq_bind, Option.bind_eq_some_iff] at h
    obtain ⟨_, ⟨x, hx, y, hy, e⟩, h⟩ := h
    cases e
    cases h
    rw [Release.fieldCursor, addU16_same hx, addU16_same hy]
  · rename_i c
    rw [if_neg c]
    exact Option.some.inj h

theorem fieldDrawChars_same (cw : Char → Nat) (f : InputField) (sel : Range) (y j skip width : Nat) : ∀ (chars : Text) (i skipped displayed : Nat)
    (cur : Option (Nat × Nat)) (r : Drawn), f.drawChars cw sel y j skip width i chars skipped displayed cur = some r →
      Release.fieldDrawChars cw f sel y j skip width i chars skipped displayed cur = r
  | [], _, _, _, _, _, h => Option.some.inj h
  | c :: rest, i, skipped, displayed, cur, r, h => by
    rw [drawChars] at h
    rw [Release.fieldDrawChars]
    dsimp only at h ⊢
    generalize (if f.passwordMode = true then '*' else c) = c at h ⊢
    split at h
    · rename_i k
      rw [if_pos k]
      exact fieldDrawChars_same cw f sel y j skip width rest _ _ _ _ _ h
    · rename_i k
      rw [if_neg k]
      split at h
      · rename_i k2
        rw [if_pos k2]
        simp only [Option.bind_eq_bind, Option.bind_eq_some_iff] at h
        obtain ⟨p, hp, h⟩ := h
        rw [fieldDrawCell_same f _ _ _ _ _ hp]
        exact Option.some.inj h
      · rename_i k2
        rw [if_neg k2]
        simp only [Option.bind_eq_bind, Option.bind_eq_some_iff] at h
        obtain ⟨p, hp, h⟩ := h
        rw [fieldDrawCell_same f _ _ _ _ _ hp]
        split at h
        · rename_i k3
          rw [if_pos k3]
          exact Option.some.inj h
        · rename_i k3
          rw [if_neg k3]
          simp only [Option.bind_eq_some_iff] at h
          obtain ⟨d, hd, h⟩ := h
          rw [fieldDrawChars_same cw f sel y j skip width rest _ _ _ _ _ hd]
          exact Option.some.inj h

theorem fieldDrawEnd_same (f : InputField) (b : Bool) (width j : Nat) (d r : Drawn) (h : f.drawEnd b width j d = some r) :
    Release.fieldDrawEnd f b width j d = r := by
  unfold drawEnd at h
  unfold Release.fieldDrawEnd
  split at h
  · rename_i c
    rw [if_pos c]
    simp only [cursorCell, Option.bind_eq_bind, Option.bind_eq_some_iff] at h
    obtain ⟨_, ⟨x, hx, y, hy, e⟩, h⟩ := h
    cases e
    cases h
    rw [Release.fieldCursor, addU16_same hx, addU16_same hy]
  · rename_i c
    rw [if_neg c]
    exact Option.some.inj h

theorem fieldDrawRow_same (cw : Char → Nat) (f : InputField) (width j : Nat) (cur : Option (Nat × Nat)) (r : Drawn) (h : f.drawRow cw width j cur = some r) :
    Release.fieldDrawRow cw f width j cur = some r := by
  unfold drawRow at h
  unfold Release.fieldDrawRow
  cases hl : f.content.lines[f.scroll.y + j]? with
  | none => rw [hl] at h; exact h
  | some chars =>
    rw [hl] at h
    dsimp only at h ⊢
    unfold drawLine at h
    unfold Release.fieldDrawLine
    dsimp only at h ⊢
    split at h
    · rename_i c
      rw [if_pos c]
      simp only [Option.bind_eq_bind, Option.bind_eq_some_iff] at h
      obtain ⟨d, h1, d', h2, h3⟩ := h
      rw [fieldDrawChars_same cw f _ _ _ _ _ _ _ _ _ _ _ h1, fieldDrawEnd_same f _ _ _ _ _ h2]
      exact h3
    · rename_i c
      rw [if_neg c]
      simp only [Option.bind_eq_bind, Option.bind_eq_some_iff] at h
      obtain ⟨d, h1, h2⟩ := h
      rw [fieldDrawChars_same cw f _ _ _ _ _ _ _ _ _ _ _ h1, fieldDrawEnd_same f _ _ _ _ _ h2]

theorem fieldDrawRows_same (cw : Char → Nat) (bar : Char × Char) (f : InputField) (width : Nat) (sb : Option (Nat × Nat)) : ∀ (n j : Nat)
    (cur : Option (Nat × Nat)) (r : List Row × Option (Nat × Nat)), f.drawRows cw bar width sb n j cur = some r →
      Release.fieldDrawRows cw bar f width sb n j cur = some r
  | 0, _, _, _, h => h
  | n + 1, j, cur, r, h => by
    simp only [drawRows, Release.fieldDrawRows, Option.bind_eq_bind, Option.bind_eq_some_iff] at h ⊢
    obtain ⟨y, hy, d, hd, rest, hrest, e⟩ := h
    refine ⟨d, fieldDrawRow_same cw f width j cur d hd, rest, fieldDrawRows_same cw bar f width sb n (j + 1) _ _ hrest, ?_⟩
    rw [addU16_same hy]
    exact e

/-- C110: a display which doesn't panic in a debug build is the same in a release build. -/
theorem C110_display_same (cw : Char → Nat) (bar : Char × Char) (f : InputField) (r : List Row × Option (Nat × Nat)) (h : f.displayOn cw bar = some r) :
    Release.fieldDisplay cw bar f = some r := by
  simp only [displayOn, Release.fieldDisplay, Option.bind_eq_bind, Option.bind_eq_some_iff] at h ⊢
  obtain ⟨sb, h1, w, h2, h3⟩ := h
  refine ⟨sb, h1, ?_⟩
  have : Release.fieldDrawWidth f sb = w := by
    cases sb with
    | none => exact Option.some.inj h2
    | some b => exact wsub_same h2
  rw [this]
  exact fieldDrawRows_same cw bar f w sb _ _ _ _ h3

theorem fieldDrawChars_width (cw : Char → Nat) (he : cw '…' = 1) (f : InputField) (sel : Range) (y j skip width : Nat) : ∀ (chars : Text)
    (i skipped displayed : Nat) (cur : Option (Nat × Nat)) (r : Drawn),
      Release.fieldDrawChars cw f sel y j skip width i chars skipped displayed cur = r → r.width = displayed + inputCols cw (cellsText r.pieces)
  | [], _, _, _, _, _, h => by subst h; rfl
  | c :: rest, i, skipped, displayed, cur, r, h => by
    have cell : ∀ sel ch, (Release.fieldDrawCell f sel ch displayed j).1.2 = [ch] := by
      intro sel ch
      unfold Release.fieldDrawCell
      split <;> rfl
    have one : ∀ p : CellPiece, ∀ ch, p.2 = [ch] → inputCols cw (cellsText [p]) = inputCharWidth cw ch := by
      intro p ch h
      simp [cellsText, h, inputCols, inputCharWidth]
    rw [Release.fieldDrawChars] at h
    dsimp only at h
    generalize (if f.passwordMode = true then '*' else c) = c at h
    split at h
    · exact fieldDrawChars_width cw he f sel y j skip width rest _ _ _ _ _ h
    · split at h
      · subst h
        dsimp only
        rw [one _ _ (cell _ _)]
        simp [inputCharWidth, he]
      · split at h
        · subst h
          dsimp only
          rw [one _ _ (cell _ _)]
        · subst h
          dsimp only
          rw [fieldDrawChars_width cw he f sel y j skip width rest _ _ _ _ _ rfl, cellsText_cons, inputCols_append, cell]
          simp only [inputCols, inputCharWidth, List.map_cons, List.map_nil, List.sum_cons, List.sum_nil]
          omega

theorem fieldDrawEnd_width (cw : Char → Nat) (hs : cw ' ' = 1) (f : InputField) (b : Bool) (width j : Nat) (d : Drawn)
    (h : d.width = inputCols cw (cellsText d.pieces)) : width ≤ inputCols cw (cellsText (Release.fieldDrawEnd f b width j d).pieces) := by
  have he : inputCharWidth cw ' ' = 1 := by simp [inputCharWidth, hs]
  unfold Release.fieldDrawEnd
  split
  · simp only [cellsText_append, cellsText_cons, cellsText_spaces, inputCols_append, inputCols_cons, List.singleton_append, he, inputCols_replicate cw hs]
    omega
  · simp only [cellsText_append, cellsText_spaces, inputCols_append, inputCols_replicate cw hs]
    omega

theorem fieldDrawRow_width (cw : Char → Nat) (hs : cw ' ' = 1) (he : cw '…' = 1) (f : InputField) (width j : Nat) (cur : Option (Nat × Nat)) :
    ∃ r, Release.fieldDrawRow cw f width j cur = some r ∧ width ≤ inputCols cw (cellsText r.pieces) := by
  unfold Release.fieldDrawRow
  split
  · rename_i chars _
    refine ⟨_, rfl, ?_⟩
    unfold Release.fieldDrawLine
    dsimp only
    split
    · have h1 := fieldDrawChars_width cw he f f.content.selection (f.scroll.y + j) j (f.scroll.x + 1) (width - 1) chars 0 0 0 cur _ rfl
      have h2 := fieldDrawEnd_width cw hs f
        (f.focused && (f.scroll.y + j == f.content.pos.y) && (f.content.pos.x == chars.length)) (width - 1) j _ (by simpa using h1)
      dsimp only
      rw [cellsText_cons, inputCols_append]
      refine Nat.le_trans ?_ (Nat.add_le_add_left h2 _)
      simp only [inputCols, List.map_cons, List.map_nil, List.sum_cons, List.sum_nil]
      have : (if '…' = '\t' then 2 else cw '…') = 1 := by simp [he]
      omega
    · have h1 := fieldDrawChars_width cw he f f.content.selection (f.scroll.y + j) j f.scroll.x width chars 0 0 0 cur _ rfl
      exact fieldDrawEnd_width cw hs f _ width j _ (by simpa using h1)
  · obtain ⟨r, h1, h2, _⟩ := drawEmpty_ok width cur
    exact ⟨r, h1, by rw [h2, inputCols_replicate cw hs]; omega⟩

theorem fieldDrawRows_width (cw : Char → Nat) (hs : cw ' ' = 1) (he : cw '…' = 1) (bar : Char × Char) (f : InputField) (width : Nat)
    (sb : Option (Nat × Nat)) : ∀ (n j : Nat) (cur : Option (Nat × Nat)), ∃ rows cur', Release.fieldDrawRows cw bar f width sb n j cur = some (rows, cur') ∧
      rows.length = n ∧ ∀ row ∈ rows, width ≤ inputCols cw (cellsText row.pieces)
  | 0, _, cur => ⟨[], cur, rfl, rfl, by simp⟩
  | n + 1, j, cur => by
    obtain ⟨r, h1, h2⟩ := fieldDrawRow_width cw hs he f width j cur
    obtain ⟨rows, cur', k1, k2, k3⟩ := fieldDrawRows_width cw hs he bar f width sb n (j + 1) r.cursor
    refine ⟨_, cur', by simp only [Release.fieldDrawRows, h1, k1, Option.bind_eq_bind, Option.bind_some]; rfl, by simp [k2], ?_⟩
    intro row hm
    rcases List.mem_cons.1 hm with rfl | hm
    · dsimp only
      rw [cellsText_append, inputCols_append]
      omega
    · exact k3 row hm

/-- C110: in an area without column, the display of a field with more lines than rows, which makes a debug build panic, doesn't end writing its first row in a
release build: each row has `2^64 - 1` columns or more. -/
theorem C110_no_column (cw : Char → Nat) (hs : cw ' ' = 1) (he : cw '…' = 1) (bar : Char × Char) (f : InputField) (hw : f.area.width = 0)
    (hh : 1 ≤ f.area.height) (hl : f.area.height < f.content.lines.length) (hn : f.content.lines.length < 65536)
    (hy : f.area.top + f.area.height + f.scroll.y + 1 < 65536) :
    f.displayOn cw bar = none ∧
    ∃ rows cur, Release.fieldDisplay cw bar f = some (rows, cur) ∧ rows.length = f.area.height ∧ rows ≠ [] ∧
      ∀ row ∈ rows, 2 ^ 64 - 1 ≤ inputCols cw (cellsText row.pieces) := by
  have a1 : asU16 f.scroll.y = f.scroll.y := by unfold asU16 u16Size; omega
  have a2 : asU16 f.content.lines.length = f.content.lines.length := by unfold asU16 u16Size; omega
  obtain ⟨x, y, h⟩ := (scrollbar_ok f.scroll.y f.content.lines.length f.area.height f.area.top hy).2 (by omega)
  constructor
  · unfold displayOn Area.scrollbar
    rw [a1, a2, h]
    simp [drawWidth, hw, csub]
  · obtain ⟨rows, cur, k1, k2, k3⟩ := fieldDrawRows_width cw hs he bar f (2 ^ 64 - 1) (some (x, y)) f.area.height 0 none
    refine ⟨rows, cur, ?_, k2, ?_, k3⟩
    · unfold Release.fieldDisplay Area.scrollbar
      rw [a1, a2, h]
      have : Release.fieldDrawWidth f (some (x, y)) = 2 ^ 64 - 1 := by simp [Release.fieldDrawWidth, hw, Release.wsub]
      simp only [Option.bind_eq_bind, Option.bind_some, this]
      exact k1
    · intro h; rw [h] at k2; simp at k2; omega

/-- There are such fields: one with two lines in an area of one row without column. -/
example : ∃ f b, FieldOp.releaseExec (fun _ => 1) (fun _ => true) { area := ⟨2, 1, 0, 1⟩, focused := true } .insertNewLine = some (f, b) ∧
    f.area.width = 0 ∧ 1 ≤ f.area.height ∧ f.area.height < f.content.lines.length ∧ f.content.lines.length < 65536 ∧
    f.area.top + f.area.height + f.scroll.y + 1 < 65536 := ⟨_, _, rfl, by decide, by decide, by decide, by decide, by decide⟩

end Verif.Props
