import Verif.Spec.AppEditor
import Verif.Props.FieldSession
import Verif.Props.LiveClip
/-! C101: the texts edited in applications, with the clipboard, are those of a reference editor. -/
namespace Verif.Props
open Verif Verif.Spec Verif.Form Verif.LiveEdit InputField

/-- The places of the text where the mouse is for each event, in the editor as it's then. -/
def LiveCells (cw : Char → Nat) (alnum : Char → Bool) : Editor → List (View.Event × Pos) → Prop
  | _, [] => True
  | v, (e, p) :: es =>
    (∀ m : MouseInput, e = .mouse m → InArea v.input.area m.x m.y → CellAt cw v.input m.x m.y p) ∧
      ∀ r, v.apply cw alnum e = some r → LiveCells cw alnum r.1 es

section
variable {cw : Char → Nat} {alnum : Char → Bool}

/-- An event of a live editor. -/
private theorem liveNext_ok {s : Nat × Nat} {v : Editor} (hv : LiveOk s v) (e : View.Event) (hs : ∀ w h, e = .resize w h → SmallSize w h) (p : Pos)
    (hp : ∀ m : MouseInput, e = .mouse m → InArea v.input.area m.x m.y → CellAt cw v.input m.x m.y p) :
    ∃ v' b given, v.apply cw alnum e = some (v', b, given) ∧ LiveOk (lastSize s [e]) v' ∧
      (fieldDocOf v'.input, given) = liveNext cw alnum (fieldDocOf v.input) e p := by
  obtain ⟨v', b, given, h1, h2, h3⟩ := live_step (cw := cw) (alnum := alnum) hv e hs
  refine ⟨v', b, given, h1, h2, ?_⟩
  have cmd : ∀ c : EditCmd, ∃ f' t, giveCmd cw v.input c = some (f', t) ∧ (fieldDocOf f', t) = (fieldDocOf v.input).play cw alnum [keyEnter] (.cmd c) p := by
    intro c
    obtain ⟨f', t, k1, _, _, _, _, k2⟩ := sessionEvent_ok cw alnum hv.ok.1 hv.ok.2.1 hv.ok.2.2 (.cmd c) trivial p (by simp)
    rw [hv.keys] at k2
    exact ⟨f', t, k1, k2⟩
  cases e with
  | key k clip =>
    have h1 : v.applyKey cw clip k = some (v', b, given) := h1
    unfold Editor.applyKey at h1
    simp only [liveNext]
    by_cases c1 : k = ⟨.char 'c', [], modCtrl⟩
    · rw [if_pos c1] at h1
      rw [if_pos c1]
      have hsel := (selected_eq hv.ok.1).1
      simp only [copyFromInput, copySelection, hsel, Option.bind_eq_bind, Option.bind_some, Option.map_some, Option.some.injEq, Prod.mk.injEq] at h1
      obtain ⟨rfl, _, rfl⟩ := h1
      rfl
    rw [if_neg c1] at h1
    rw [if_neg c1]
    by_cases c2 : k = ⟨.char 'x', [], modCtrl⟩
    · rw [if_pos c2] at h1
      rw [if_pos c2]
      obtain ⟨f', t, k1, k2⟩ := cmd .cut
      have k1 : v.input.cutSelection cw = some (f', t) := k1
      simp only [cutFromInput, k1, Option.bind_eq_bind, Option.bind_some, Option.map_some, Option.some.injEq, Prod.mk.injEq] at h1
      obtain ⟨rfl, _, rfl⟩ := h1
      rw [← k2]
    rw [if_neg c2] at h1
    rw [if_neg c2]
    by_cases c3 : k = ⟨.char 'v', [], modCtrl⟩
    · rw [if_pos c3] at h1
      rw [if_pos c3]
      unfold pasteIntoInput at h1
      cases hg : clip.gives with
      | none =>
        rw [hg] at h1
        simp only [Option.map_some, Option.some.injEq, Prod.mk.injEq] at h1
        obtain ⟨rfl, _, rfl⟩ := h1
        rfl
      | some text =>
        rw [hg] at h1
        obtain ⟨f', t, k1, k2⟩ := cmd (.paste text)
        simp only [giveCmd, Option.bind_eq_bind, Option.bind_eq_some_iff, Option.some.injEq, Prod.mk.injEq] at k1
        obtain ⟨f1, k1, rfl, _⟩ := k1
        simp only [k1, Option.map_some, Option.some.injEq, Prod.mk.injEq] at h1
        obtain ⟨rfl, _, rfl⟩ := h1
        simp only
        rw [← k2]
    · rw [if_neg c3] at h1
      rw [if_neg c3]
      obtain ⟨f', t, k1, k2⟩ := cmd (.key k)
      simp only [giveCmd, Option.bind_eq_bind, Option.bind_eq_some_iff, Option.some.injEq, Prod.mk.injEq] at k1
      obtain ⟨r, k1, rfl, _⟩ := k1
      simp only [k1, Option.map_some, Option.some.injEq, Prod.mk.injEq] at h1
      obtain ⟨rfl, _, rfl⟩ := h1
      rw [← k2]
  | mouse m =>
    obtain ⟨f', t, k1, _, _, _, _, k2⟩ := sessionEvent_ok cw alnum hv.ok.1 hv.ok.2.1 hv.ok.2.2 (.mouse m) trivial p (by
      rintro x y (h | ⟨m', h, rfl, rfl⟩)
      · cases h
      · cases h; exact hp m rfl)
    rw [hv.keys] at k2
    simp only [giveEvent, Option.bind_eq_bind, Option.bind_eq_some_iff, Option.some.injEq, Prod.mk.injEq] at k1
    obtain ⟨r, k1, rfl, _⟩ := k1
    simp only [Editor.apply, k1, Option.map_some, Option.some.injEq, Prod.mk.injEq] at h1
    obtain ⟨rfl, _, rfl⟩ := h1
    simp only [liveNext]
    rw [← k2]
  | resize w h =>
    have hg : given = none := by
      simp only [Editor.apply, Option.map_eq_some_iff, Prod.mk.injEq] at h1
      obtain ⟨_, _, _, _, rfl⟩ := h1
      rfl
    subst hg
    simp only [liveNext, liveGives] at h3 ⊢
    by_cases hl : largeEnough w h = true
    · rw [if_pos hl] at h3 ⊢
      have hin := fieldHalf_ok hl (hs w h rfl)
      simp only [alone, FieldOp.exec, Option.bind_eq_bind, Option.bind_eq_some_iff, Option.map_eq_some_iff] at h3
      obtain ⟨_, ⟨f, h3, rfl⟩, h4⟩ := h3
      obtain ⟨_, b2, b3, _, _, b6⟩ := setArea_field hv.ok hin.1 hin.2 h3
      cases h4
      simp only [fieldDocOf, b2, b3, b6]
    · rw [if_neg hl] at h3 ⊢
      simp only [alone, Option.some.injEq] at h3
      rw [h3]
  | other =>
    simp only [Editor.apply, Option.some.injEq, Prod.mk.injEq] at h1
    obtain ⟨rfl, _, rfl⟩ := h1
    rfl

private theorem liveNexts_ok : ∀ (es : List (View.Event × Pos)) (s : Nat × Nat) (v : Editor), LiveOk s v → SmallSizes (es.map Prod.fst) →
    LiveCells cw alnum v es →
    ∃ v' clips, runLiveClips cw alnum v (es.map Prod.fst) = some (v', clips) ∧ LiveOk (lastSize s (es.map Prod.fst)) v' ∧
      (fieldDocOf v'.input, clips) = liveNexts cw alnum (fieldDocOf v.input) es := by
  intro es
  induction es with
  | nil => intro s v hv _ _; exact ⟨v, [], rfl, hv, rfl⟩
  | cons e es ih =>
    obtain ⟨e, p⟩ := e
    intro s v hv hs hc
    obtain ⟨v1, b, given, h1, h2, h3⟩ := liveNext_ok (cw := cw) (alnum := alnum) hv e (fun w h he => hs w h (by rw [he]; simp)) p hc.1
    obtain ⟨v', clips, k1, k2, k3⟩ := ih _ v1 h2 (fun w h he => hs w h (by rw [List.map_cons]; exact List.mem_cons_of_mem _ he)) (hc.2 _ h1)
    refine ⟨v', given.toList ++ clips, ?_, by rw [List.map_cons, lastSize_cons]; exact k2, ?_⟩
    · simp only [List.map_cons, runLiveClips, h1, Option.bind_eq_bind, Option.bind_some, k1]
    · simp only [liveNexts]
      rw [← h3, ← k3]

/-- The text of a new content. -/
private theorem setStr_first {f g : InputField} (hc : f.content = {}) (hw : 1 ≤ f.area.width) {text : Text} (h : f.setStr cw text = some g) :
    selDocOf g.content = ⟨⟨keptText text, []⟩, none⟩ := by
  have hv : f.content.Valid := by rw [hc]; exact Content.default_valid
  obtain ⟨c', k1, k2, k3, k4, k5⟩ := C21_set hv text
  obtain ⟨f', g1, ⟨s, g2⟩, _⟩ := fixScroll_ok cw (f := { f with content := c' }) k2 hw
  have : f.setStr cw text = some f' := by simp [InputField.setStr, k1, g1]
  rw [h] at this
  cases this
  have e : g.content = c' := by rw [g2]
  rw [e]
  have hp := C22_parts k2
  by_cases ht : f.content.toText = text
  · rw [k4 ht] at k3 ⊢
    rw [← k3, hc]
    rfl
  · obtain ⟨k6, k7⟩ := k5 ht
    rw [k6, List.append_nil, k3] at hp
    simp only [selDocOf, k6, k7, hp]

private theorem live_start (alnum : Char → Bool) {text : Text} {w h : Nat} (hs : SmallSize w h) {v : Editor} (hn : Editor.new cw text ⟨0, 0, w, h⟩ = some v) :
    LiveOk (w, h) v ∧ fieldDocOf v.input = liveStart text w h := by
  obtain ⟨v', k1, k2, k3⟩ := live_new (cw := cw) (alnum := alnum) text hs
  rw [hn] at k1
  cases k1
  refine ⟨k2, ?_⟩
  have hok0 : FieldOk { InputField.default with newLineKeys := [keyEnter] } :=
    ⟨Content.default_valid, by show 1 ≤ 5; decide, by show 0 + 5 < 65536 ∧ 0 + 1 < 65536; decide⟩
  obtain ⟨g, b, hset, hok, _⟩ := fieldOp_ok cw alnum hok0 (.setStr text) trivial
  have hk := C45_kept cw alnum hok0.2.2 _ hset
  have hset' := hset
  simp only [FieldOp.exec, Option.map_eq_some_iff, Prod.mk.injEq] at hset'
  obtain ⟨g', hg, rfl, _⟩ := hset'
  have hdoc := setStr_first (cw := cw) rfl (by show 1 ≤ 5; decide) hg
  have hfirst : alone cw alnum InputField.default [.newLineOn keyEnter, .setStr text] = some g' := by
    show (FieldOp.exec cw alnum { InputField.default with newLineKeys := [keyEnter] } (.setStr text)).bind (fun r => some r.1) = _
    rw [hset]; rfl
  unfold liveFirst at k3
  rw [alone_append, hfirst, Option.bind_some] at k3
  have harea : g'.area = unplaced := hk.1 (by simp) (by simp)
  by_cases hl : largeEnough w h = true
  · rw [if_pos hl] at k3
    have hin := fieldHalf_ok hl hs
    simp only [alone, FieldOp.exec, Option.bind_eq_bind, Option.bind_eq_some_iff, Option.map_eq_some_iff] at k3
    obtain ⟨_, ⟨f, h3, rfl⟩, h4⟩ := k3
    obtain ⟨_, b2, _, _, _, b6⟩ := setArea_field hok hin.1 hin.2 h3
    cases h4
    show (⟨selDocOf v.input.content, v.input.focused, v.input.area⟩ : FieldDoc) = _
    rw [k2.focused, b2, b6, hdoc, liveStart, if_pos hl]
  · rw [if_neg hl] at k3
    simp only [alone, Option.some.injEq] at k3
    show (⟨selDocOf v.input.content, v.input.focused, v.input.area⟩ : FieldDoc) = _
    rw [k2.focused, ← k3, hdoc, harea, liveStart, if_neg hl]

/-- C101: whatever the keys (those of the clipboard included), the events of the mouse and the sizes of the terminal, a live editor never panics, and it has the
text, the cursor, the selection and the area of the reference; the texts put in the clipboard are the same. -/
theorem C101_live (text : Text) {w h : Nat} (hs : SmallSize w h) {v0 : Editor} (hn : Editor.new cw text ⟨0, 0, w, h⟩ = some v0)
    (es : List (View.Event × Pos)) (hes : SmallSizes (es.map Prod.fst)) (hc : LiveCells cw alnum v0 es) :
    ∃ v clips, runLiveClips cw alnum v0 (es.map Prod.fst) = some (v, clips) ∧ LiveAfter cw alnum text w h (es.map Prod.fst) v ∧
      (fieldDocOf v.input, clips) = liveNexts cw alnum (liveStart text w h) es ∧
      v.input.content.toText = (liveNexts cw alnum (liveStart text w h) es).1.sel.text := by
  obtain ⟨h0, hd⟩ := live_start (cw := cw) alnum hs hn
  obtain ⟨v, clips, h1, h2, h3⟩ := liveNexts_ok (cw := cw) (alnum := alnum) es _ v0 h0 hes hc
  rw [hd] at h3
  refine ⟨v, clips, h1, ⟨v0, hn, ?_⟩, h3, ?_⟩
  · have run : ∀ (es : List View.Event) (u : Editor) (c : List Text), runLiveClips cw alnum u es = some (v, c) → runLive cw alnum u es = some v := by
      intro es
      induction es with
      | nil => intro u c hu; cases hu; rfl
      | cons e es ih =>
        intro u c hu
        simp only [runLiveClips, Option.bind_eq_bind, Option.bind_eq_some_iff, Option.some.injEq, Prod.mk.injEq] at hu
        obtain ⟨r, hr, q, hq, hv, _⟩ := hu
        obtain ⟨q1, q2⟩ := q
        simp only at hv
        subst hv
        simp only [runLive, hr, Option.bind_eq_bind, Option.bind_some]
        exact ih _ _ hq
    exact run _ _ _ h1
  · rw [← h3]
    exact (C22_parts h2.ok.1).symm

/-- C101: the mouse always is at a place of the text: for all events there are places as wanted by `C101_live`. -/
theorem C101_live_places (text : Text) {w h : Nat} (hs : SmallSize w h) {v0 : Editor} (hn : Editor.new cw text ⟨0, 0, w, h⟩ = some v0)
    (es : List View.Event) (hes : SmallSizes es) : ∃ ps : List Pos, ps.length = es.length ∧ LiveCells cw alnum v0 (es.zip ps) := by
  have h0 := (live_start (cw := cw) alnum hs hn).1
  clear hn
  revert h0
  generalize (w, h) = s
  intro h0
  induction es generalizing s v0 with
  | nil => exact ⟨[], rfl, trivial⟩
  | cons e es ih =>
    obtain ⟨v1, b, given, h1, h2, _⟩ := live_step (cw := cw) (alnum := alnum) h0 e (fun w h he => hes w h (by rw [he]; simp))
    obtain ⟨ps, k1, k2⟩ := ih (fun w h he => hes w h (List.mem_cons_of_mem _ he)) _ h2
    have cell : ∃ p, ∀ m : MouseInput, e = .mouse m → InArea v0.input.area m.x m.y → CellAt cw v0.input m.x m.y p := by
      cases e with
      | mouse m =>
        by_cases hi : InArea v0.input.area m.x m.y
        · obtain ⟨p, _, hp, _⟩ := posOfCell_at cw h0.ok hi
          exact ⟨p, fun m' he _ => by cases he; exact hp⟩
        · exact ⟨⟨0, 0⟩, fun m' he hi' => by cases he; exact absurd hi' hi⟩
      | key k clip => exact ⟨⟨0, 0⟩, fun _ he => by cases he⟩
      | resize w h => exact ⟨⟨0, 0⟩, fun _ he => by cases he⟩
      | other => exact ⟨⟨0, 0⟩, fun _ he => by cases he⟩
    obtain ⟨p, hp⟩ := cell
    refine ⟨p :: ps, by simp [k1], hp, ?_⟩
    intro r hr
    rw [h1] at hr
    cases hr
    exact k2

/-- Operations of a session given to a field. -/
private theorem session_ops : ∀ (ops : List FieldOp) (f : InputField),
    (∀ op ∈ ops, sessionOf [op] ≠ []) → alone cw alnum f ops = (giveEvents cw alnum f (sessionOf ops)).map Prod.fst := by
  intro ops
  induction ops with
  | nil => intro f _; rfl
  | cons op ops ih =>
    intro f h
    have hr : ∀ g, alone cw alnum g ops = (giveEvents cw alnum g (sessionOf ops)).map Prod.fst := fun g => ih g fun op hm => h op (by simp [hm])
    have h0 := h op (by simp)
    have one : ∀ (e : SessionEvent), sessionOf (op :: ops) = e :: sessionOf ops →
        (op.exec cw alnum f).map Prod.fst = (giveEvent cw alnum f e).map Prod.fst →
        alone cw alnum f (op :: ops) = (giveEvents cw alnum f (sessionOf (op :: ops))).map Prod.fst := by
      intro e he hx
      rw [he]
      simp only [alone, giveEvents, Option.bind_eq_bind]
      cases h1 : op.exec cw alnum f with
      | none =>
        rw [h1] at hx
        cases h2 : giveEvent cw alnum f e with
        | none => rfl
        | some r => rw [h2] at hx; cases hx
      | some q =>
        rw [h1] at hx
        cases h2 : giveEvent cw alnum f e with
        | none => rw [h2] at hx; cases hx
        | some r =>
          rw [h2] at hx
          simp only [Option.map_some, Option.some.injEq] at hx
          simp only [Option.bind_some, hx, hr]
          cases giveEvents cw alnum r.1 (sessionOf ops) <;> rfl
    have one' : ∀ {α : Type} (x : Run α) (g : α → InputField) (b : α → Bool) (t : α → Text),
        (x.map fun a => (g a, b a)).map Prod.fst = (do let a ← x; some (g a, t a)).map Prod.fst := by
      intro α x g b t
      cases x <;> rfl
    cases op with
    | key k =>
      refine one _ rfl ?_
      show (f.applyKeyCombination cw k).map Prod.fst = (do let r ← f.applyKeyCombination cw k; some (r.1, ([] : Text))).map Prod.fst
      cases f.applyKeyCombination cw k <;> rfl
    | cutSelection =>
      refine one _ rfl ?_
      show ((f.cutSelection cw).map fun p => (p.1, true)).map Prod.fst = (f.cutSelection cw).map Prod.fst
      cases f.cutSelection cw <;> rfl
    | replaceSelection s => exact one _ rfl (one' (f.replaceSelection cw s) id (fun _ => true) fun _ => [])
    | mouse kind x y mods double =>
      refine one _ rfl ?_
      show (f.applyMouseEvent cw alnum kind x y mods double).map Prod.fst =
        (do let r ← f.applyMouseEvent cw alnum kind x y mods double; some (r.1, ([] : Text))).map Prod.fst
      cases f.applyMouseEvent cw alnum kind x y mods double <;> rfl
    | setFocus b => exact one _ rfl (one' (f.setFocus cw b) id (fun _ => true) fun _ => [])
    | setArea a => exact one _ rfl (one' (f.setArea cw a) id (fun _ => true) fun _ => [])
    | _ => exact absurd rfl h0

private theorem keyOps_session (k : KeyComb) (clip : Clipboard) : ∀ op ∈ keyOps k clip, ∃ c, sessionOf [op] = [.cmd c] := by
  intro op h
  unfold keyOps at h
  split at h
  · simp at h
  split at h
  · simp only [List.mem_singleton] at h; subst h; exact ⟨_, rfl⟩
  split at h
  · cases hg : clip.gives with
    | none => rw [hg] at h; simp at h
    | some s => rw [hg] at h; simp at h; subst h; exact ⟨_, rfl⟩
  · simp only [List.mem_singleton] at h; subst h; exact ⟨_, rfl⟩

private theorem gives_session (d : Desk) (n : InputName) (e : View.Event) (hs : ∀ w h, e = .resize w h → SmallSize w h) :
    ∀ op ∈ d.gives n e, ∃ x, sessionOf [op] = [x] ∧ AllowedEvent x := by
  intro op h
  cases e with
  | key k clip =>
    simp only [Desk.gives] at h
    split at h
    · simp only [List.mem_singleton] at h; subst h; exact ⟨_, rfl, trivial⟩
    split at h
    · obtain ⟨c, hc⟩ := keyOps_session k clip op h
      exact ⟨_, hc, trivial⟩
    · simp at h
  | mouse m =>
    simp only [Desk.gives, List.mem_append, List.mem_singleton] at h
    rcases h with h | h
    · split at h
      · simp only [List.mem_singleton] at h; subst h; exact ⟨_, rfl, trivial⟩
      · simp at h
    · subst h; exact ⟨_, rfl, trivial⟩
  | resize w h' =>
    simp only [Desk.gives] at h
    split at h
    · next hl =>
      simp only [List.mem_singleton] at h
      subst h
      refine ⟨_, rfl, ?_⟩
      have := hs w h' rfl
      unfold largeEnough at hl
      rw [decide_eq_true_iff] at hl
      unfold SmallSize at this
      cases n <;> simp only [AllowedEvent, inputIn, OnScreen] <;> omega
    · simp at h
  | other => simp [Desk.gives] at h

private theorem givesAll_session (n : InputName) : ∀ (es : List View.Event) (d : Desk), SmallSizes es →
    ∀ op ∈ d.givesAll n es, ∃ x, sessionOf [op] = [x] ∧ AllowedEvent x := by
  intro es
  induction es with
  | nil => intro d _ op h; simp [Desk.givesAll] at h
  | cons e es ih =>
    intro d hs op h
    simp only [Desk.givesAll, List.mem_append] at h
    rcases h with h | h
    · exact gives_session d n e (fun w h he => hs w h (by rw [he]; simp)) op h
    · exact ih _ (fun w h he => hs w h (List.mem_cons_of_mem _ he)) op h

private theorem sessionOf_cons (op : FieldOp) (ops : List FieldOp) : sessionOf (op :: ops) = sessionOf [op] ++ sessionOf ops := by
  cases op <;> rfl

private theorem sessionOf_allowed : ∀ (ops : List FieldOp), (∀ op ∈ ops, ∃ x, sessionOf [op] = [x] ∧ AllowedEvent x) → ∀ e ∈ sessionOf ops, AllowedEvent e := by
  intro ops
  induction ops with
  | nil => intro _ e h; simp [sessionOf] at h
  | cons op ops ih =>
    intro ho e h
    obtain ⟨x, h1, h2⟩ := ho op (by simp)
    rw [sessionOf_cons, h1, List.mem_append, List.mem_singleton] at h
    rcases h with rfl | h
    · exact h2
    · exact ih (fun op hm => ho op (by simp [hm])) e h

private theorem form_start {c : Config} {text : Text} {w h : Nat} (ws alnum : Char → Bool) (hs : SmallSize w h) {v : View}
    (hn : View.new cw c text ⟨0, 0, w, h⟩ = some v) (n : InputName) : fieldDocOf (input v n) = formStart text w h n := by
  obtain ⟨v', k1, k2, k3, _⟩ := form_new (cw := cw) (ws := ws) (alnum := alnum) (c := c) text hs
  rw [hn] at k1
  cases k1
  have hfoc : (input v n).focused = decide (n = .login) := by
    rw [k2.focused n]
    cases n <;> rfl
  have harea : (input v n).area = (Desk.start w h).inputArea n := k2.inputs n
  show (⟨selDocOf (input v n).content, (input v n).focused, (input v n).area⟩ : FieldDoc) = _
  rw [hfoc, harea, formStart]
  congr 1
  have hok0 : ∀ b p k, FieldOk { InputField.default with focused := b, passwordMode := p, newLineKeys := k } :=
    fun b p k => ⟨Content.default_valid, by show 1 ≤ 5; decide, by show 0 + 5 < 65536 ∧ 0 + 1 < 65536; decide⟩
  have place : ∀ {f : InputField}, FieldOk f → alone cw alnum f (if largeEnough w h then [.setArea (inputIn w h n)] else []) = some (input v n) →
      (input v n).content = f.content := by
    intro f hf ha
    by_cases hl : largeEnough w h = true
    · rw [if_pos hl] at ha
      have hin : 1 ≤ (inputIn w h n).width ∧ OnScreen (inputIn w h n) := by
        unfold largeEnough at hl
        rw [decide_eq_true_iff] at hl
        unfold SmallSize at hs
        cases n <;> simp only [inputIn, OnScreen] <;> omega
      simp only [alone, FieldOp.exec, Option.bind_eq_bind, Option.bind_eq_some_iff, Option.map_eq_some_iff] at ha
      obtain ⟨_, ⟨g, h3, rfl⟩, h4⟩ := ha
      obtain ⟨_, _, _, _, _, b6⟩ := setArea_field hf hin.1 hin.2 h3
      cases h4
      exact b6
    · rw [if_neg hl] at ha
      simp only [alone, Option.some.injEq] at ha
      rw [ha]
  have hk := k3 n
  unfold firstOps at hk
  rw [alone_append] at hk
  cases n with
  | login =>
    have := place (hok0 true false []) hk
    rw [this]
    rfl
  | password =>
    have := place (hok0 false true []) hk
    rw [this]
    rfl
  | comments =>
    rw [if_pos rfl]
    have e : alone cw alnum InputField.default [.setFocus false, .newLineOn keyEnter, .setStr text] =
        (({ InputField.default with focused := false, newLineKeys := [keyEnter] } : InputField).setStr cw text) := by
      show (FieldOp.exec cw alnum { InputField.default with focused := false, newLineKeys := [keyEnter] } (.setStr text)).bind (fun r => some r.1) = _
      simp only [FieldOp.exec]
      cases ({ InputField.default with focused := false, newLineKeys := [keyEnter] } : InputField).setStr cw text <;> rfl
    simp only [e, Option.bind_eq_some_iff] at hk
    obtain ⟨g, hg, hk⟩ := hk
    obtain ⟨g', b, hset, hok, _⟩ := fieldOp_ok cw alnum (hok0 false false [keyEnter]) (.setStr text) trivial
    simp only [FieldOp.exec, Option.map_eq_some_iff, Prod.mk.injEq] at hset
    obtain ⟨g'', hg', rfl, _⟩ := hset
    cases (hg.symm.trans hg' : some g = some g'')
    rw [place hok hk]
    exact setStr_first (cw := cw) rfl (by show 1 ≤ 5; decide) hg

/-- C101: whatever the events, each field of a form has the text, the cursor, the selection, the focus and the area of a reference editor which would receive
only the events for this field. -/
theorem C101_form {ws : Char → Bool} {c : Config} (hfit : ∀ w, 3 ≤ w → FittingText cw c.skin w c.introduction) (text : Text) {w h : Nat} (hs : SmallSize w h)
    {v0 : View} (hn : View.new cw c text ⟨0, 0, w, h⟩ = some v0) (es : List View.Event) (hes : SmallSizes es) :
    ∃ v, runForm cw ws alnum v0 es = some v ∧ ∀ n,
      let session := sessionOf ((Desk.start w h).givesAll n es)
      (∃ ps : List Pos, ps.length = session.length ∧ CellsOf cw alnum (input v0 n) (session.zip ps)) ∧
      ∀ ps : List Pos, ps.length = session.length → CellsOf cw alnum (input v0 n) (session.zip ps) →
        fieldDocOf (input v n) = ((formStart text w h n).plays cw alnum (if n = .comments then [keyEnter] else []) (session.zip ps)).1 := by
  obtain ⟨v', k1, k2, _⟩ := form_new (cw := cw) (ws := ws) (alnum := alnum) (c := c) text hs
  rw [hn] at k1
  cases k1
  obtain ⟨v, h1, h2, h3, _⟩ := form_run (cw := cw) (ws := ws) (alnum := alnum) hfit es _ v0 k2 hes
  refine ⟨v, h1, fun n => ?_⟩
  have hok := k2.ok n
  have hops := givesAll_session n es (Desk.start w h) hes
  have hall := sessionOf_allowed _ hops
  refine ⟨C88_places cw alnum _ hok.1 hok.2.1 hok.2.2 hall, ?_⟩
  intro ps hl hc
  have hmap : ((sessionOf ((Desk.start w h).givesAll n es)).zip ps).map Prod.fst = sessionOf ((Desk.start w h).givesAll n es) := by
    rw [List.map_fst_zip]
    omega
  obtain ⟨f', cuts, e1, _, e2⟩ := C88_session cw alnum _ hok.1 hok.2.1 hok.2.2
    (fun e he => hall _ (by rw [← hmap]; exact List.mem_map_of_mem he)) hc
  rw [hmap] at e1
  have := h3 n
  rw [session_ops _ _ (fun op hm => by obtain ⟨x, hx, _⟩ := hops op hm; rw [hx]; simp), e1] at this
  simp only [Option.map_some, Option.some.injEq] at this
  rw [← this]
  rw [form_start ws alnum hs hn n, k2.keys n] at e2
  rw [← e2]

end

/-- A session of the live editor: two lines are selected from the end and cut, some text is typed, what was cut is pasted, the size changes. -/
private def liveEvents : List View.Event :=
  [.key ⟨.char 'e', [], .none⟩ ⟨true, none⟩, .key keyEnter ⟨true, none⟩, .key ⟨.char 'f', [], .none⟩ ⟨true, none⟩,
   .key ⟨.up, [], .shift⟩ ⟨true, none⟩, .key keyCopy ⟨true, none⟩, .key keyCut ⟨true, none⟩, .key ⟨.home, [], .none⟩ ⟨true, none⟩,
   .resize 30 10, .key keyPaste ⟨true, some "x\ny".toList⟩, .key keyPaste ⟨true, none⟩, .other]

set_option maxRecDepth 8000 in
/-- C101: the text edited in this session and the texts put in the clipboard, in the editor and in the reference. -/
example : ((Editor.new renderCw "ab\ncd".toList ⟨0, 0, 20, 15⟩).bind fun v => (runLiveClips renderCw (fun _ => true) v liveEvents).map fun r =>
      (r.1.input.content.toText, r.2)) = some ("ab\nx\nyc\nf".toList, ["de\nf".toList, "de\nf".toList]) ∧
    (let r := liveNexts renderCw (fun _ => true) (liveStart "ab\ncd".toList 20 15) (liveEvents.map fun e => (e, ⟨0, 0⟩))
     (r.1.sel.text, r.2)) = ("ab\nx\nyc\nf".toList, ["de\nf".toList, "de\nf".toList]) := by decide +kernel

/-- C101: the hypotheses hold for this session. -/
example : SmallSize 20 15 ∧ SmallSizes liveEvents ∧ ∃ v0, Editor.new renderCw "ab\ncd".toList ⟨0, 0, 20, 15⟩ = some v0 ∧
    ∃ ps : List Pos, ps.length = liveEvents.length ∧ LiveCells renderCw (fun _ => true) v0 (liveEvents.zip ps) := by
  have h1 : SmallSize 20 15 := by unfold SmallSize; omega
  have h2 : SmallSizes liveEvents := by intro w h hm; simp [liveEvents] at hm; obtain ⟨rfl, rfl⟩ := hm; unfold SmallSize; omega
  have h3 : (Editor.new renderCw "ab\ncd".toList ⟨0, 0, 20, 15⟩).isSome = true := by decide +kernel
  obtain ⟨v0, h4⟩ := Option.isSome_iff_exists.mp h3
  exact ⟨h1, h2, v0, h4, C101_live_places _ h1 h4 _ h2⟩

set_option maxRecDepth 8000 in
/-- C101: the fields of a form after some keys, a click and a paste, and what the references of these fields are. -/
example :
    let es : List View.Event := [.key ⟨.char 'x', [], .none⟩ ⟨true, none⟩, .key keyTab ⟨true, none⟩, .key ⟨.char 'y', [], .none⟩ ⟨true, none⟩,
      .key ⟨.home, [], .shift⟩ ⟨true, none⟩, .key keyPaste ⟨true, some "pw".toList⟩, .key keyTab ⟨true, none⟩, .key keyEnter ⟨true, none⟩,
      .key ⟨.char 'z', [], .none⟩ ⟨true, none⟩]
    ((View.new renderCw exForm "a\nb".toList ⟨0, 0, 20, 15⟩).bind fun v => (runForm renderCw (· == ' ') (fun _ => true) v es).map fun v =>
      [InputName.login, .password, .comments].map fun n => (input v n).content.toText) = some ["x".toList, "pw".toList, "a\nb\nz".toList] ∧
    ([InputName.login, .password, .comments].map fun n =>
      ((formStart "a\nb".toList 20 15 n).plays renderCw (fun _ => true) (if n = .comments then [keyEnter] else [])
        ((sessionOf ((Desk.start 20 15).givesAll n es)).map fun e => (e, ⟨0, 0⟩))).1.sel.text) = ["x".toList, "pw".toList, "a\nb\nz".toList] := by
  decide +kernel

end Verif.Props
