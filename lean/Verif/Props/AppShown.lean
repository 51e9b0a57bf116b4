import Verif.Props.AppMain
import Verif.Props.LiveEdit
import Verif.Props.FormLate
/-! C82: the screens of the applications of the examples, at all times. -/
namespace Verif.Props
open Verif Verif.Spec Verif.AppMain Verif.Form Verif.LiveEdit InputField

/-- Commands which leave the pen as it was. -/
def KeepsPen (cw : Char → Nat) (cmds : List AppCmd) : Prop := ∀ t : Tty, t.pen = {} → (t.playApp cw cmds).pen = {}

section
variable {cw : Char → Nat} {ws alnum : Char → Bool}

theorem keeps_append {a b : List AppCmd} (ha : KeepsPen cw a) (hb : KeepsPen cw b) : KeepsPen cw (a ++ b) := by
  intro t ht
  rw [playApp_append]
  exact hb _ (ha t ht)

theorem keeps_clear : KeepsPen cw [.clearAll] := fun _ ht => ht

theorem keeps_view {v : TextView} {skin : Skin} (hs : TidySkin skin) {cmds : List TtyCmd} (h : v.cmds skin = some cmds) : KeepsPen cw (cmds.map .view) := by
  intro t ht
  cases hw : v.writeOn skin with
  | none => simp [TextView.cmds, hw] at h
  | some rows =>
    obtain ⟨cmds', h1, h2, _⟩ := C65_text_view cw v hs hw t ht
    rw [h] at h1
    cases h1
    rw [playApp_view]
    exact h2

theorem keeps_field {s : FieldStyles} (hs : Tidy s.focused ∧ Tidy s.unfocused ∧ Tidy s.cursor) {f : InputField} {cmds : List TtyCmd} (h : s.cmds cw f = some cmds) :
    KeepsPen cw (cmds.map .view) := by
  intro t ht
  cases hw : s.displayOn cw f with
  | none => simp [FieldStyles.cmds, hw] at h
  | some r =>
    obtain ⟨rows, cur⟩ := r
    obtain ⟨cmds', h1, h2, _⟩ := C65_input_field cw s f hw hs t none ht
    rw [h] at h1
    cases h1
    rw [playApp_view]
    exact h2

theorem keeps_area {skin : Skin} (hs : TidySkin skin) {mlines : List MLine} {a : Area} {cmds : List AppCmd} (h : View.areaCmds cw ws skin mlines a = some cmds) :
    KeepsPen cw cmds := by
  simp only [View.areaCmds, Option.bind_eq_bind, Option.bind_eq_some_iff, Option.some.injEq] at h
  obtain ⟨t, _, cs, h, rfl⟩ := h
  exact keeps_view hs h

theorem keeps_live (c : Setup) (hs : TidySkin c.skin) (hst : Tidy c.styles.focused ∧ Tidy c.styles.unfocused ∧ Tidy c.styles.cursor) (v : Editor)
    {cmds : List AppCmd} (h : v.queueOn cw ws c = some cmds) : KeepsPen cw cmds := by
  unfold Editor.queueOn at h
  split at h
  · simp only [Option.bind_eq_bind, Option.bind_eq_some_iff, Option.some.injEq] at h
    obtain ⟨a, ha, w, _, t, _, b, hb, rfl⟩ := h
    exact keeps_append (keeps_append (a := [AppCmd.clearAll]) keeps_clear (keeps_field hst ha)) (keeps_view hs hb)
  · cases h
    exact keeps_clear

theorem keeps_form (c : Config) (hs : TidySkin c.skin) (hl : TidySkin c.labelSkin) (hst : Tidy c.styles.focused ∧ Tidy c.styles.unfocused ∧ Tidy c.styles.cursor)
    (v : View) (hv : v.introduction.skin = c.skin) {cmds : List AppCmd} (h : v.queueOn cw ws c = some cmds) : KeepsPen cw cmds := by
  unfold View.queueOn at h
  split at h
  · simp only [Option.bind_eq_bind, Option.bind_eq_some_iff, Option.some.injEq, Pager.draw] at h
    obtain ⟨a, ⟨tv, _, tc, ha, rfl⟩, b, hb, d, hd, e, he, f, hf, g, hg, i, hi, rfl⟩ := h
    rw [hv] at ha
    exact keeps_append (keeps_append (keeps_append (keeps_append (keeps_append (keeps_append (keeps_append (a := [AppCmd.clearAll]) keeps_clear (keeps_view hs ha))
      (keeps_area hl hb)) (keeps_field hst hd)) (keeps_area hl he)) (keeps_field hst hf)) (keeps_area hl hg)) (keeps_field hst hi)
  · simp only [Option.bind_eq_bind, Option.bind_eq_some_iff, Option.some.injEq] at h
    obtain ⟨a, ha, rfl⟩ := h
    rw [hv] at ha
    exact keeps_append (a := [AppCmd.clearAll]) keeps_clear (keeps_area hs ha)

theorem live_state {α : Type} (c : Setup) (text : Text) (w h : Nat) (torn : Editor → List AppCmd) : ∀ (es : List (View.Event × α)) (s : Run Editor),
    stateAfter (liveProgram cw ws alnum c text w h torn) s es = s.bind fun v => runLive cw alnum v (es.map (·.1)) := by
  intro es
  induction es with
  | nil => intro s; cases s <;> rfl
  | cons e es ih =>
    intro s
    simp only [stateAfter, ih, List.map_cons, runLive, Option.bind_eq_bind]
    cases s with
    | none => rfl
    | some v =>
      simp only [Option.bind_some, liveProgram, Option.map_map]
      cases v.apply cw alnum e.1 <;> rfl

theorem live_state_after {α : Type} (c : Setup) (text : Text) (w h : Nat) (torn : Editor → List AppCmd) (es : List (View.Event × α)) (v : Editor) :
    stateAfter (liveProgram cw ws alnum c text w h torn) (liveProgram (α := α) cw ws alnum c text w h torn).start es = some v ↔
      LiveAfter cw alnum text w h (es.map (·.1)) v := by
  rw [live_state, Option.bind_eq_some_iff]
  rfl

theorem form_state {α : Type} (c : Config) (text : Text) (w h : Nat) (torn : View → List AppCmd) : ∀ (es : List (View.Event × α)) (s : Run View),
    stateAfter (formProgram cw ws alnum c text w h torn) s es = s.bind fun v => runForm cw ws alnum v (es.map (·.1)) := by
  intro es
  induction es with
  | nil => intro s; cases s <;> rfl
  | cons e es ih =>
    intro s
    simp only [stateAfter, ih, List.map_cons, runForm, Option.bind_eq_bind]
    cases s with
    | none => rfl
    | some v =>
      simp only [Option.bind_some, formProgram, Option.map_map]
      cases v.apply cw ws alnum e.1 <;> rfl

theorem form_state_after {α : Type} (c : Config) (text : Text) (w h : Nat) (torn : View → List AppCmd) (es : List (View.Event × α)) (v : View) :
    stateAfter (formProgram cw ws alnum c text w h torn) (formProgram (α := α) cw ws alnum c text w h torn).start es = some v ↔
      FormAfter cw ws alnum c text w h (es.map (·.1)) v := by
  rw [form_state, Option.bind_eq_some_iff]
  rfl

theorem smallSizes_prefix {a b : List View.Event} (h : SmallSizes (a ++ b)) : SmallSizes a := fun w h' hm => h w h' (by simp [hm])

/-- A drawing which is the same after each unused event is the same after all of them. -/
theorem unused_same {σ : Type} (prog : Program σ (Happening View.Event)) {es : List (Happening View.Event)} (hstep : ∀ pre e rest s s',
      es = pre ++ e :: rest → stateAfter prog prog.start pre = some s → prog.apply s e = some (s', false) → prog.draw s' = prog.draw s ∧ e.2 = none) :
    ∀ (us pre : List (Happening View.Event)) (s s' : σ), es = pre ++ us → stateAfter prog prog.start pre = some s → Unused prog s us →
      stateAfter prog (some s) us = some s' → prog.draw s' = prog.draw s ∧ ∀ e ∈ us, e.2 = none := by
  intro us
  induction us with
  | nil => intro pre s s' _ _ _ h; cases h; exact ⟨rfl, by simp⟩
  | cons e us ih =>
    rintro pre s s' hcat hs ⟨s1, h1, h2⟩ h3
    have hs1 : stateAfter prog prog.start (pre ++ [e]) = some s1 := by
      rw [stateAfter_append, hs]
      simp only [stateAfter, Option.bind_some, h1, Option.map_some]
    have h3' : stateAfter prog (some s1) us = some s' := by
      simpa only [stateAfter, Option.bind_some, h1, Option.map_some] using h3
    obtain ⟨i1, i2⟩ := ih (pre ++ [e]) s1 s' (by simp [hcat]) hs1 h2 h3'
    obtain ⟨k1, k2⟩ := hstep pre e us s s1 hcat hs h1
    exact ⟨i1.trans k1, by simpa [k2] using i2⟩

/-- The current state is shown when all the events which change it ask for a redraw. -/
theorem shown_now {σ : Type} (prog : Program σ (Happening View.Event)) {es : List (Happening View.Event)} (hstep : ∀ pre e rest s s',
      es = pre ++ e :: rest → stateAfter prog prog.start pre = some s → prog.apply s e = some (s', false) → prog.draw s' = prog.draw s ∧ e.2 = none)
    {t : Tty} (h : ShowsLast cw prog es t) {s : σ} (hs : stateAfter prog prog.start es = some s) :
    ∃ (cmds : List AppCmd) (before : Tty), prog.draw s = some cmds ∧ before.pen = {} ∧ t = before.playApp cw cmds := by
  obtain ⟨pre, post, sd, cmds, before, rfl, q2, q3, q4, q5, q6⟩ := h
  rw [stateAfter_append, q2] at hs
  obtain ⟨k1, k2⟩ := unused_same prog hstep post pre sd s rfl q2 q4 hs
  exact ⟨cmds, before, by rw [k1, q3], q5, q6 k2⟩

theorem live_shown {c : Setup} (hc : TidySkin c.skin) (hst : Tidy c.styles.focused ∧ Tidy c.styles.unfocused ∧ Tidy c.styles.cursor) {text : Text} {w h : Nat}
    (hsz : SmallSize w h) {torn : Editor → List AppCmd} {io : Answers} {closed : Bool} {t : Terminal} (ht : AtRest t) {es : List (Happening View.Event)}
    (hes : SmallSizes (es.map (·.1))) {p : Proc (Happening View.Event)} {v : Editor}
    (hrun : main (liveProgram cw ws alnum c text w h torn) io es closed = (p, .waiting v))
    (hatt : Attentive (liveProgram cw ws alnum c text w h torn) (fun v => v.input.content.hasWideSelection) es) :
    LiveAfter cw alnum text w h (es.map (·.1)) v ∧ ∃ (cmds : List AppCmd) (before : Tty), v.queueOn cw ws c = some cmds ∧ before.pen = {} ∧
      (t.after cw p.trace).app = before.playApp cw cmds := by
  obtain ⟨_, _, _, hv, _, _, _, hl⟩ := C82_waiting cw _ io closed ht es hrun (fun pre _ s _ cmds hd => keeps_live c hc hst s hd)
  refine ⟨(live_state_after c text w h torn _ _).1 hv, shown_now (liveProgram cw ws alnum c text w h torn) ?_ hl hv⟩
  intro a e rest s s' hcat h1 h2
  obtain ⟨k1, k2, k3⟩ := hatt a e rest s s' hcat h1 h2
  refine ⟨?_, k3⟩
  rw [live_state_after] at h1
  simp only [liveProgram, Option.map_eq_some_iff, Prod.mk.injEq] at h2
  obtain ⟨⟨s1, b, g⟩, h2, rfl, rfl⟩ := h2
  have hsm : SmallSizes (a.map (·.1)) := by
    rw [hcat, List.map_append] at hes
    exact smallSizes_prefix hes
  exact (C81_not_late cw ws alnum c text hsz _ hsm h1 e.1 h2 k1 k2).1

theorem form_shown {c : Config} (hc : FormTexts cw c) (hst : Tidy c.styles.focused ∧ Tidy c.styles.unfocused ∧ Tidy c.styles.cursor) {text : Text} {w h : Nat}
    (hsz : SmallSize w h) {torn : View → List AppCmd} {io : Answers} {closed : Bool} {t : Terminal} (ht : AtRest t) {es : List (Happening View.Event)}
    (hes : SmallSizes (es.map (·.1))) {p : Proc (Happening View.Event)} {v : View}
    (hrun : main (formProgram cw ws alnum c text w h torn) io es closed = (p, .waiting v))
    (hatt : Attentive (formProgram cw ws alnum c text w h torn) formSelected es) :
    FormAfter cw ws alnum c text w h (es.map (·.1)) v ∧ ∃ (cmds : List AppCmd) (before : Tty), v.queueOn cw ws c = some cmds ∧ before.pen = {} ∧
      (t.after cw p.trace).app = before.playApp cw cmds := by
  obtain ⟨_, _, _, hv, _, _, _, hl⟩ := C82_waiting cw _ io closed ht es hrun (by
    rintro pre ⟨post, rfl⟩ s hs cmds hd
    rw [form_state_after] at hs
    rw [List.map_append] at hes
    exact keeps_form c hc.skin.tidy hc.labelSkin.tidy hst s (formAfter_matches hc.introduction hsz (smallSizes_prefix hes) hs).skin hd)
  refine ⟨(form_state_after c text w h torn _ _).1 hv, shown_now (formProgram cw ws alnum c text w h torn) ?_ hl hv⟩
  intro a e rest s s' hcat h1 h2
  obtain ⟨k1, k2, k3⟩ := hatt a e rest s s' hcat h1 h2
  refine ⟨?_, k3⟩
  rw [form_state_after] at h1
  simp only [formProgram, Option.map_eq_some_iff, Prod.mk.injEq] at h2
  obtain ⟨⟨s1, b, g⟩, h2, rfl, rfl⟩ := h2
  have hsm : SmallSizes (a.map (·.1)) := by
    rw [hcat, List.map_append] at hes
    exact smallSizes_prefix hes
  refine (C80_not_late cw ws alnum c hc.introduction text hsz _ hsm h1 e.1 h2 ?_ k2).1
  intro n hn
  unfold formSelected at k1
  rw [hn] at k1
  cases n <;> exact k1

end

/-- C82: `ctrl-q` is the only event which quits the two applications, whatever their state. -/
theorem C82_quit {α : Type} (cw : Char → Nat) (ws alnum : Char → Bool) (cf : Config) (cl : Setup) (text : Text) (w h : Nat) (tf : View → List AppCmd)
    (tl : Editor → List AppCmd) (e : View.Event × α) :
    ((formProgram cw ws alnum cf text w h tf).quits e = true ↔ ∃ clip, e.1 = .key ⟨.char 'q', [], modCtrl⟩ clip) ∧
    ((liveProgram cw ws alnum cl text w h tl).quits e = true ↔ ∃ clip, e.1 = .key ⟨.char 'q', [], modCtrl⟩ clip) := by
  have : isQuit e.1 = true ↔ ∃ clip, e.1 = .key ⟨.char 'q', [], modCtrl⟩ clip := by
    cases e.1 with
    | key k c =>
      constructor
      · intro h
        exact ⟨c, by rw [of_decide_eq_true h]; rfl⟩
      · rintro ⟨clip, h⟩
        cases h
        exact decide_eq_true (p := keyQuit = keyQuit) rfl
    | _ => simp [isQuit]
  exact ⟨this, this⟩

/-- C82: whenever the editor of markdown waits for an event in a terminal which is large enough, its field, with the text resulting from all the events, and the rendering of
exactly this text, are on the screen, and nothing else, the events without redraw being as said. -/
theorem C82_live (cw : Char → Nat) (ws alnum : Char → Bool) (c : Setup) (hs : cw ' ' = 1) (he : cw '…' = 1) (hb : cw '▐' = 1)
    (hc : FormSkin cw c.skin) (ops : List FieldStyleOp) (hops : c.styles = styledBy ops)
    (hst : Tidy c.styles.focused ∧ Tidy c.styles.unfocused ∧ Tidy c.styles.cursor) (text : Text) {w h : Nat} (hsz : SmallSize w h) (torn : Editor → List AppCmd)
    (io : Answers) (closed : Bool) {t : Terminal} (ht : AtRest t) (es : List (Happening View.Event)) (hes : SmallSizes (es.map (·.1)))
    {p : Proc (Happening View.Event)} {v : Editor} (hrun : main (liveProgram cw ws alnum c text w h torn) io es closed = (p, .waiting v))
    (hatt : Attentive (liveProgram cw ws alnum c text w h torn) (fun v => v.input.content.hasWideSelection) es)
    (hin : ShownInput v.input) {width height : Nat} (hlast : lastSize (w, h) (es.map (·.1)) = (width, height)) (hl : largeEnough width height = true)
    (hfit : FittingText cw c.skin (width - 3) (c.parse v.input.content.toText))
    (hcount : ∀ t, FmtText.fromText cw ws c.skin (c.parse v.input.content.toText) (some (width - 3)) = some t → t.lines.length < 65536) :
    alone cw alnum InputField.default (liveFirst text w h ++ (es.map (·.1)).flatMap liveGives) = some v.input ∧
      let cells := (t.after cw p.trace).app.cells
      (∃ rows cur, c.styles.displayOn cw v.input = some (rows, cur) ∧
        ∀ x y, InArea (fieldHalf width height) x y → cells x y = printSeen cw rows blankCells x y) ∧
      (∃ rows, ({ mlines := c.parse v.input.content.toText, area := renderHalf width height, skin := c.skin } : MadView).writeOn cw ws = some rows ∧
        ∀ x y, InArea (renderHalf width height) x y → cells x y = printSeen cw (viewRows rows) blankCells x y) ∧
      ∀ x y, ¬ InArea (fieldHalf width height) x y → ¬ InArea (renderHalf width height) x y → cells x y = blankCells x y := by
  obtain ⟨hv', cmds, before, q1, q2, q3⟩ := live_shown hc.tidy hst hsz ht hes hrun hatt
  obtain ⟨v1, l1, _, _, l4⟩ := C81_field cw alnum text hsz _ hes
  have : v1 = v := by
    obtain ⟨x, x1, x2⟩ := l1
    obtain ⟨y, y1, y2⟩ := hv'
    rw [x1] at y1
    cases y1
    rw [x2] at y2
    exact Option.some.inj y2
  subst this
  refine ⟨l4, ?_⟩
  obtain ⟨cmds', z1, z2⟩ := C81_screen cw ws alnum c hs he hb hc ops hops hst text hsz _ hes hv' hin hlast hl hfit hcount
  rw [q1] at z1
  cases z1
  rw [q3]
  exact (z2 before q2).2

/-- C82: on a smaller terminal, its screen is empty. -/
theorem C82_live_small (cw : Char → Nat) (ws alnum : Char → Bool) (c : Setup) (hc : TidySkin c.skin)
    (hst : Tidy c.styles.focused ∧ Tidy c.styles.unfocused ∧ Tidy c.styles.cursor) (text : Text) {w h : Nat} (hsz : SmallSize w h) (torn : Editor → List AppCmd)
    (io : Answers) (closed : Bool) {t : Terminal} (ht : AtRest t) (es : List (Happening View.Event)) (hes : SmallSizes (es.map (·.1)))
    {p : Proc (Happening View.Event)} {v : Editor} (hrun : main (liveProgram cw ws alnum c text w h torn) io es closed = (p, .waiting v))
    (hatt : Attentive (liveProgram cw ws alnum c text w h torn) (fun v => v.input.content.hasWideSelection) es)
    (hl : largeEnough (lastSize (w, h) (es.map (·.1))).1 (lastSize (w, h) (es.map (·.1))).2 = false) : (t.after cw p.trace).app.cells = blankCells := by
  obtain ⟨hv, cmds, before, q1, q2, q3⟩ := live_shown hc hst hsz ht hes hrun hatt
  obtain ⟨cmds', z1, z2⟩ := C81_small_screen cw ws alnum c text hsz _ hes hv hl
  rw [q1] at z1
  cases z1
  rw [q3]
  exact (z2 before q2).2

/-- C82: whenever the form waits for an event in a terminal which is large enough, its introduction, its labels and its fields, with the texts and the focus resulting from all
the events, are on the screen, and nothing else, the events without redraw being as said. -/
theorem C82_form (cw : Char → Nat) (ws alnum : Char → Bool) (c : Config) (hs : cw ' ' = 1) (he : cw '…' = 1) (hb : cw '▐' = 1)
    (hc : FormTexts cw c) (ops : List FieldStyleOp) (hops : c.styles = styledBy ops)
    (hst : Tidy c.styles.focused ∧ Tidy c.styles.unfocused ∧ Tidy c.styles.cursor) (text : Text) {w h : Nat} (hsz : SmallSize w h) (torn : View → List AppCmd)
    (io : Answers) (closed : Bool) {t : Terminal} (ht : AtRest t) (es : List (Happening View.Event)) (hes : SmallSizes (es.map (·.1)))
    {p : Proc (Happening View.Event)} {v : View} (hrun : main (formProgram cw ws alnum c text w h torn) io es closed = (p, .waiting v))
    (hatt : Attentive (formProgram cw ws alnum c text w h torn) formSelected es)
    (hin : ∀ n, ShownInput (input v n)) :
    let d : Desk := (es.map (·.1)).foldl Desk.next (.start w h)
    largeEnough d.width d.height = true → (∀ n, v.introduction.HasLines cw ws n → n < 65536) → d.height + v.introduction.scroll < 65536 →
      let cells := (t.after cw p.trace).app.cells
      (∀ n, alone cw alnum InputField.default (firstOps text w h n ++ (Desk.start w h).givesAll n (es.map (·.1))) = some (input v n) ∧
        (input v n).focused = decide (d.focus = n.focus)) ∧
      (∃ rows, v.introduction.writeOn cw ws = some rows ∧
        ∀ x y, InArea (introIn d.width d.height) x y → cells x y = printSeen cw (viewRows rows) blankCells x y) ∧
      (∀ n, ∃ rows, c.labelSkin.writeInArea cw ws (labelText c n) (labelIn d.width d.height n) = some rows ∧
        ∀ x y, InArea (labelIn d.width d.height n) x y → cells x y = printSeen cw (viewRows rows) blankCells x y) ∧
      (∀ n, ∃ rows cur, c.styles.displayOn cw (input v n) = some (rows, cur) ∧
        ∀ x y, InArea (inputIn d.width d.height n) x y → cells x y = printSeen cw rows blankCells x y) ∧
      ∀ x y, ¬ InArea (introIn d.width d.height) x y → (∀ n, ¬ InArea (labelIn d.width d.height n) x y ∧ ¬ InArea (inputIn d.width d.height n) x y) →
        cells x y = blankCells x y := by
  intro d hl hcount hroom
  obtain ⟨hv, cmds, before, q1, q2, q3⟩ := form_shown hc hst hsz ht hes hrun hatt
  obtain ⟨v1, l1, _, l3, _⟩ := C80_inputs cw ws alnum c hc.introduction text hsz _ hes
  have : v1 = v := by
    obtain ⟨x, x1, x2⟩ := l1
    obtain ⟨y, y1, y2⟩ := hv
    rw [x1] at y1
    cases y1
    rw [x2] at y2
    exact Option.some.inj y2
  subst this
  refine ⟨fun n => ⟨l3 n, (formAfter_matches hc.introduction hsz hes hv).focused n⟩, ?_⟩
  obtain ⟨cmds', z1, z2⟩ := C80_screen cw ws alnum c hs he hb hc ops hops hst text hsz _ hes hv hin hl hcount hroom
  rw [q1] at z1
  cases z1
  rw [q3]
  exact (z2 before q2).2

/-- C82: on a smaller terminal, its screen shows only that it's too small. -/
theorem C82_form_small (cw : Char → Nat) (ws alnum : Char → Bool) (c : Config) (hc : FormTexts cw c)
    (hst : Tidy c.styles.focused ∧ Tidy c.styles.unfocused ∧ Tidy c.styles.cursor) (text : Text) {w h : Nat} (hsz : SmallSize w h) (torn : View → List AppCmd)
    (io : Answers) (closed : Bool) {t : Terminal} (ht : AtRest t) (es : List (Happening View.Event)) (hes : SmallSizes (es.map (·.1)))
    {p : Proc (Happening View.Event)} {v : View} (hrun : main (formProgram cw ws alnum c text w h torn) io es closed = (p, .waiting v))
    (hatt : Attentive (formProgram cw ws alnum c text w h torn) formSelected es) :
    let d : Desk := (es.map (·.1)).foldl Desk.next (.start w h)
    largeEnough d.width d.height = false → 4 ≤ d.width → ∃ rows, c.skin.writeInArea cw ws c.tooSmall ⟨0, 0, d.width, d.height⟩ = some rows ∧
      (t.after cw p.trace).app.cells = printSeen cw (viewRows rows) blankCells := by
  intro d hl h4
  obtain ⟨hv, cmds, before, q1, q2, q3⟩ := form_shown hc hst hsz ht hes hrun hatt
  obtain ⟨cmds', rows, z1, z2, z3⟩ := C80_small_screen cw ws alnum c hc text hsz _ hes hv hl h4
  rw [q1] at z1
  cases z1
  refine ⟨rows, z2, ?_⟩
  rw [q3]
  exact (z3 before q2).2.1

/-! Examples. -/

/-- A terminal on which there's only the prompt of a shell. -/
def exTerminal : Terminal := { user := ⟨fun x y => if x = 0 ∧ y = 0 then ({}, '$', 0) else blankCells x y, 1, 0, {}⟩, app := ⟨blankCells, 0, 0, {}⟩ }

theorem exTerminal_rest : AtRest exTerminal := ⟨rfl, rfl, rfl, rfl, rfl⟩

/-- Nothing fails, and from time to time commands are sent before being flushed. -/
def exIo : Answers := ⟨fun k => .ok (if k % 7 = 0 then 3 else 0), fun _ => true⟩

theorem exIo_ok : NoFailure exIo := ⟨fun _ => ⟨_, rfl⟩, fun _ => rfl⟩

/-- How an application stops. -/
def Stop.name {σ : Type} : Stop σ → Nat
  | .waiting _ => 0
  | .left => 1
  | .failed => 2
  | .panicked => 3

/-- The modes of a terminal: alternate screen, raw, mouse, cursor. -/
def modes (t : Terminal) : List Bool := [t.alternate, t.raw, t.mouse, t.cursor]

/-- The end of an application, what it received, the modes of the terminal, and the characters which are at the start of a row of the alternate screen. -/
def report {σ : Type} (r : Proc (Happening View.Event) × Stop σ) (y : Nat) : Nat × Nat × List Bool × List Char :=
  (Stop.name r.2, (received r.1.trace).length, modes (exTerminal.after renderCw r.1.trace),
    (List.range 4).map fun x => ((exTerminal.after renderCw r.1.trace).app.cells x y).2.1)

/-- The editor of markdown of the example, in a terminal of 20 columns and 15 rows. -/
def exEditor : Program Editor (Happening View.Event) := liveProgram renderCw (· == ' ') (fun _ => true) exSetup [] 20 15 (fun _ => [])

/-- Events during which nothing else writes on the screen. -/
def calm (es : List View.Event) : List (Happening View.Event) := es.map fun e => (e, none)

/-- C82: the editor waiting for an event, with what was typed in its field and in its rendering, then ended by ctrl-q. -/
example : report (main exEditor exIo (calm (typing "xy".toList)) false) 1 = (0, 2, [true, true, true, false], " xy ".toList) ∧
    report (main exEditor exIo (calm (typing "xy".toList)) false) 8 = (0, 2, [true, true, true, false], " xy ".toList) ∧
    report (main exEditor exIo (calm (typing "xy".toList ++ [.key keyQuit ⟨true, none⟩, .other])) false) 1 = (1, 3, [false, false, false, true], " xy ".toList) := by
  decide +kernel

/-- Events of the editor: a typed character, and a key which does nothing. -/
def exCalm : List (Happening View.Event) := calm (typing "x".toList ++ [.key keyEsc ⟨true, none⟩])

theorem exCalm_attentive : Attentive exEditor (fun v => v.input.content.hasWideSelection) exCalm := by
  intro pre e post s s' hcat hs _
  have hlen := congrArg List.length hcat
  simp only [exCalm, calm, typing, List.map_append, List.length_append, List.length_map, List.length_cons, List.length_nil] at hlen
  have hmem : e ∈ exCalm := by rw [hcat]; simp
  have hkeys : ∀ e ∈ exCalm, (∀ clip, e.1 = .key ⟨.char 'x', [], modCtrl⟩ clip → clip.accepts = true) ∧ e.2 = none := by
    intro e he
    simp only [exCalm, calm, typing, List.map_append, List.mem_append, List.mem_map, List.mem_cons, List.not_mem_nil, or_false] at he
    rcases he with ⟨a, ⟨b, hb, rfl⟩, rfl⟩ | ⟨a, rfl, rfl⟩
    · refine ⟨?_, rfl⟩
      have : b = 'x' := by simpa using hb
      subst this
      intro clip h
      simp at h
      exact absurd h.1 (by decide)
    · refine ⟨?_, rfl⟩
      intro clip h
      simp at h
      exact absurd h.1 (by decide)
  refine ⟨?_, hkeys e hmem⟩
  have hpre : pre = exCalm.take pre.length := by rw [hcat]; simp
  have hfact : ∀ n, n < 2 → (stateAfter exEditor exEditor.start (exCalm.take n)).map (fun v => v.input.content.hasWideSelection) = some false := by decide +kernel
  have := hfact pre.length (by simp at hlen; omega)
  rw [← hpre, hs] at this
  exact Option.some.inj this

/-- C82: the hypotheses are met: the rendering shows the character. -/
example : ∃ p v rows, main exEditor exIo exCalm false = (p, .waiting v) ∧
    ({ mlines := [.normal .paragraph [⟨['x'], {}⟩]], area := ⟨1, 8, 18, 7⟩, skin := {} } : MadView).writeOn renderCw (· == ' ') = some rows ∧
    ∀ x y, InArea ⟨1, 8, 18, 7⟩ x y → (exTerminal.after renderCw p.trace).app.cells x y = printSeen renderCw (viewRows rows) blankCells x y := by
  have hname : Stop.name (main exEditor exIo exCalm false).2 = 0 := by decide +kernel
  generalize hrun : main exEditor exIo exCalm false = r at hname
  obtain ⟨p, st⟩ := r
  cases st with
  | waiting v =>
    have hfacts : (match (main exEditor exIo exCalm false).2 with
        | .waiting v => some (v.input.content.lines, decide (v.input.area.top + v.input.area.height + v.input.scroll.y + 1 < 65536))
        | _ => none) = some (["x".toList], true) := by decide +kernel
    rw [hrun] at hfacts
    simp only [Option.some.injEq, Prod.mk.injEq] at hfacts
    obtain ⟨a1, a2⟩ := hfacts
    have hp : exSetup.parse v.input.content.toText = [.normal .paragraph [⟨['x'], {}⟩]] := by
      have : v.input.content.toText = "x".toList := by unfold Content.toText; rw [a1]; decide
      rw [this]; decide
    have hin : ShownInput v.input := ⟨.inr (by rw [a1]; decide), by rw [a1]; decide, of_decide_eq_true a2⟩
    have hsm : SmallSizes (exCalm.map (·.1)) := by
      intro w h hh
      simp [exCalm, calm, typing] at hh
    obtain ⟨_, _, ⟨rows, k1, k2⟩, _⟩ := C82_live renderCw (· == ' ') (fun _ => true) exSetup (by decide) (by decide) (by decide) plainSkin [] rfl
      ⟨.inl rfl, .inl rfl, .inl rfl⟩ [] exSize (fun _ => []) exIo false exTerminal_rest exCalm hsm hrun exCalm_attentive hin (width := 20) (height := 15) (by decide) (by decide)
      (by rw [hp]; exact paragraph_fits ⟨rfl, rfl⟩ _ _ (by decide)) (by
        intro t ht
        rw [hp] at ht
        have e : (FmtText.fromText renderCw (· == ' ') exSetup.skin [.normal .paragraph [⟨['x'], {}⟩]] (some (20 - 3))).map (·.lines.length) = some 1 := by decide +kernel
        rw [ht] at e
        have : t.lines.length = 1 := Option.some.inj e
        omega)
    rw [hp] at k1
    exact ⟨p, v, rows, rfl, k1, k2⟩
  | left => cases hname
  | failed => cases hname
  | panicked => cases hname

/-- The form of the example, in a terminal of the same size. -/
def exFormProgram : Program View (Happening View.Event) := formProgram renderCw (· == ' ') (fun _ => true) exForm [] 20 15 (fun _ => [])

/-- C82: the form waiting for an event after a character was typed in its login, which is in the right half, then in a terminal which is too small, then ended. -/
example : ((exTerminal.after renderCw (main exFormProgram exIo (calm (typing "x".toList)) false).1.trace).app.cells 10 7).2.1 = 'x' ∧
    (report (main exFormProgram exIo (calm (typing "x".toList ++ [.resize 20 14])) false) 0).1 = 0 ∧
    report (main exFormProgram exIo (calm (typing "x".toList ++ [.key keyQuit ⟨true, none⟩])) true) 30 = (1, 2, [false, false, false, true], "    ".toList) := by
  decide +kernel

/-- C82: a write which fails while the application is running. -/
example : report (main exEditor ⟨fun k => if k = 20 then .fail 5 else .ok 0, fun _ => true⟩ (calm (typing "xy".toList)) false) 1 =
    (2, 0, [false, false, false, true], "    ".toList) := by decide +kernel

/-- C82: when the raw mode can't be enabled at the start, the terminal is left on the alternate screen; when there's an error at the end it's left there too. -/
theorem C82_error_counterexample :
    report (main exEditor ⟨fun _ => .ok 0, fun _ => false⟩ [] false) 0 = (2, 0, [true, false, false, true], "    ".toList) ∧
    ∃ k, report (main exEditor ⟨fun n => if n = k then .fail 0 else .ok 0, fun _ => true⟩ (calm [.key keyQuit ⟨true, none⟩]) false) 0 =
      (2, 1, [true, false, true, false], "    ".toList) := by
  refine ⟨by decide +kernel, (main exEditor ⟨fun _ => .ok 0, fun _ => true⟩ (calm [.key keyQuit ⟨true, none⟩]) false).1.writes - 4, by decide +kernel⟩

/-- C82: typing a table in the editor of markdown makes it panic, and the terminal isn't restored. -/
theorem C82_panic_counterexample : report (main exEditor exIo (calm (typing "|a|b|c|d|e\n|abcd".toList)) false) 0 =
    (3, 16, [true, false, true, false], "    ".toList) := by decide +kernel

/-- C82: when the terminal changes its screen but has its former size again when the event is received, there's no redraw. -/
theorem C82_same_size_counterexample : report (main exEditor exIo (calm (typing "xy".toList) ++ [(.resize 20 15, some fun _ _ => (({} : CompoundStyle), '#', 0))]) false) 1 =
    (0, 3, [true, true, true, false], "####".toList) := by decide +kernel

end Verif.Props
