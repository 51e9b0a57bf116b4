import Verif.Spec.Form
import Verif.Props.FieldKept
import Verif.Props.Setters
import Verif.Props.Used
import Verif.Props.Pager
/-! C80: the widgets of a form. -/
namespace Verif.Props
open Verif Verif.Spec Verif.Form InputField

theorem alone_append (cw : Char → Nat) (alnum : Char → Bool) : ∀ (a b : List FieldOp) (f : InputField),
    alone cw alnum f (a ++ b) = (alone cw alnum f a).bind fun f => alone cw alnum f b := by
  intro a
  induction a with
  | nil => intro b f; rfl
  | cons op a ih =>
    intro b f
    simp only [List.cons_append, alone, Option.bind_eq_bind]
    cases op.exec cw alnum f with
    | none => rfl
    | some r => exact ih b r.1

theorem aloneMad_append (cw : Char → Nat) (ws : Char → Bool) : ∀ (a b : List MadOp) (m : MadView),
    aloneMad cw ws m (a ++ b) = (aloneMad cw ws m a).bind fun m => aloneMad cw ws m b := by
  intro a
  induction a with
  | nil => intro b m; rfl
  | cons op a ih =>
    intro b m
    simp only [List.cons_append, aloneMad, Option.bind_eq_bind]
    cases op.exec cw ws m with
    | none => rfl
    | some r => exact ih b r

theorem covers_iff (a : Area) (x y : Nat) : covers a x y = true ↔ InArea a x y := by
  unfold covers InArea
  rw [decide_eq_true_iff]
  constructor
  · rintro ⟨h1, h2, h3, h4⟩
    exact ⟨x - a.left, y - a.top, by omega, by omega, by omega, by omega⟩
  · rintro ⟨i, j, h1, h2, rfl, rfl⟩
    omega

theorem contains_covers {a : Area} (h : OnScreen a) (x y : Nat) : a.contains x y = some (covers a x y) := by
  obtain ⟨b, h1, h2⟩ := C18_contains a h x y
  rw [h1]
  congr 1
  rw [← covers_iff] at h2
  cases b <;> cases hc : covers a x y <;> simp_all

/-- The view is as the specification says. -/
structure Matches (c : Config) (d : Desk) (v : View) : Prop where
  focus : v.focus = d.focus
  area : v.area = ⟨0, 0, d.width, d.height⟩
  drawable : v.drawable = largeEnough d.width d.height
  ok : ∀ n, FieldOk (input v n)
  focused : ∀ n, (input v n).focused = decide (d.focus = n.focus)
  inputs : ∀ n, (input v n).area = d.inputArea n
  keys : ∀ n, (input v n).newLineKeys = if n = .comments then [keyEnter] else []
  hidden : ∀ n, (input v n).passwordMode = decide (n = .password)
  label1 : v.loginLabelArea = d.labelArea .login
  label2 : v.passwordLabelArea = d.labelArea .password
  label3 : v.commentsLabelArea = d.labelArea .comments
  intro : v.introduction.area = d.intro
  text : v.introduction.mlines = c.introduction
  skin : v.introduction.skin = c.skin
  placed : largeEnough d.width d.height = true → d.placed = some (d.width, d.height)
  sizes : ∀ w h, d.placed = some (w, h) → largeEnough w h = true ∧ SmallSize w h

section
variable {cw : Char → Nat} {ws alnum : Char → Bool} {c : Config}

theorem setFocus_field {f : InputField} (h : FieldOk f) (b : Bool) : ∃ f', f.setFocus cw b = some f' ∧ FieldOk f' ∧ f'.focused = b ∧
    f'.area = f.area ∧ f'.newLineKeys = f.newLineKeys ∧ f'.passwordMode = f.passwordMode := by
  obtain ⟨s, hs⟩ := (C26_setters cw h.1 h.2.1).1 b
  exact ⟨_, hs, h, rfl, rfl, rfl, rfl⟩

/-- Giving the focus. -/
theorem setFocus_view (v : View) (hok : ∀ n, FieldOk (input v n)) (foc : Focus) :
    ∃ v', v.setFocus cw foc = some v' ∧
      (∀ n, (input v n).setFocus cw (decide (foc = n.focus)) = some (input v' n)) ∧
      v' = { v with focus := foc, login := v'.login, password := v'.password, comments := v'.comments } := by
  obtain ⟨f1, h1, _⟩ := setFocus_field (cw := cw) (hok .login) (foc == .login)
  obtain ⟨f2, h2, _⟩ := setFocus_field (cw := cw) (hok .password) (foc == .password)
  obtain ⟨f3, h3, _⟩ := setFocus_field (cw := cw) (hok .comments) (foc == .comments)
  refine ⟨{ v with focus := foc, login := f1, password := f2, comments := f3 }, ?_, ?_, rfl⟩
  · simp only [input] at h1 h2 h3
    simp only [View.setFocus, h1, h2, h3, Option.bind_eq_bind, Option.bind_some]
  · intro n
    cases n with
    | login => exact h1
    | password => exact h2
    | comments => exact h3

/-- The view after a change of focus of one which is as specified, but for the flags of the fields. -/
theorem setFocus_matches {d : Desk} {v0 v : View} (hm : Matches c d v0) (foc : Focus) (hok : ∀ n, FieldOk (input v n))
    (hsame : ∀ n, (input v n).area = (input v0 n).area ∧ (input v n).newLineKeys = (input v0 n).newLineKeys ∧
      (input v n).passwordMode = (input v0 n).passwordMode)
    (hv : v = { v0 with login := v.login, password := v.password, comments := v.comments }) :
    ∃ v', v.setFocus cw foc = some v' ∧ Matches c { d with focus := foc } v' ∧
      (∀ n, (input v n).setFocus cw (decide (foc = n.focus)) = some (input v' n)) ∧ v'.introduction = v0.introduction := by
  obtain ⟨v', h1, h2, h3⟩ := setFocus_view (cw := cw) v hok foc
  have key : ∀ n, FieldOk (input v' n) ∧ (input v' n).focused = decide (foc = n.focus) ∧ (input v' n).area = (input v n).area ∧
      (input v' n).newLineKeys = (input v n).newLineKeys ∧ (input v' n).passwordMode = (input v n).passwordMode := by
    intro n
    obtain ⟨f', k1, k2, k3, k4, k5, k6⟩ := setFocus_field (cw := cw) (hok n) (decide (foc = n.focus))
    rw [h2 n] at k1
    cases k1
    exact ⟨k2, k3, k4, k5, k6⟩
  refine ⟨v', h1, ?_, h2, by rw [h3, hv]⟩
  constructor
  · rw [h3]
  · rw [h3, hv]; exact hm.area
  · rw [h3, hv]; exact hm.drawable
  · exact fun n => (key n).1
  · exact fun n => (key n).2.1
  · intro n; rw [(key n).2.2.1, (hsame n).1]; exact hm.inputs n
  · intro n; rw [(key n).2.2.2.1, (hsame n).2.1]; exact hm.keys n
  · intro n; rw [(key n).2.2.2.2, (hsame n).2.2]; exact hm.hidden n
  · rw [h3, hv]; exact hm.label1
  · rw [h3, hv]; exact hm.label2
  · rw [h3, hv]; exact hm.label3
  · rw [h3, hv]; exact hm.intro
  · rw [h3, hv]; exact hm.text
  · rw [h3, hv]; exact hm.skin
  · exact hm.placed
  · exact hm.sizes

theorem alone_setFocus {f f' : InputField} {b : Bool} (h : f.setFocus cw b = some f') : alone cw alnum f [.setFocus b] = some f' := by
  simp [alone, FieldOp.exec, h]

theorem alone_one {f f' : InputField} {b : Bool} {op : FieldOp} (h : op.exec cw alnum f = some (f', b)) : alone cw alnum f [op] = some f' := by
  simp [alone, h]

/-- A key on a field. -/
theorem inputKey_ok {f : InputField} (h : FieldOk f) (hn : ∀ ch, (⟨.char ch, [], modCtrl⟩ : KeyComb) ∉ f.newLineKeys) (clip : Clipboard) (k : KeyComb) :
    ∃ f' b given, inputKey cw clip f k = some (f', b, given) ∧ alone cw alnum f (keyOps k clip) = some f' ∧ FieldOk f' ∧ SameFrame f f' := by
  obtain ⟨f1, b, h1, h2, _⟩ := fieldOp_ok cw alnum h (.key k) trivial
  have h1' : f.applyKeyCombination cw k = some (f1, b) := h1
  have hctrl : ∀ ch, k = ⟨.char ch, [], modCtrl⟩ → f1 = f ∧ b = false := by
    rintro ch rfl
    unfold applyKeyCombination at h1'
    rw [List.contains_eq_mem, decide_eq_false (hn ch), if_neg (c := false = true) (by decide)] at h1'
    split at h1' <;> simp [applyMods, modCtrl] at h1' <;> exact ⟨h1'.1.symm, h1'.2⟩
  unfold inputKey keyOps
  simp only [h1', Option.bind_eq_bind, Option.bind_some]
  by_cases c1 : k = ⟨.char 'c', [], modCtrl⟩
  · obtain ⟨rfl, rfl⟩ := hctrl 'c' c1
    rw [if_neg (by decide), if_pos c1, if_pos c1]
    obtain ⟨s, hs, _⟩ := Content.selectionString_ok h.1
    exact ⟨f1, clip.accepts, if clip.accepts then some s else none, by simp only [copyFromInput, copySelection, hs, Option.bind_eq_bind, Option.bind_some], rfl, h,
      .refl _⟩
  rw [if_neg c1, if_neg c1]
  by_cases c2 : k = ⟨.char 'x', [], modCtrl⟩
  · obtain ⟨rfl, rfl⟩ := hctrl 'x' c2
    rw [if_neg (by decide), if_pos c2, if_pos c2]
    obtain ⟨f2, b2, e1, e2, _⟩ := fieldOp_ok cw alnum h .cutSelection trivial
    have e1' := e1
    simp only [FieldOp.exec, Option.map_eq_some_iff, Prod.mk.injEq] at e1'
    obtain ⟨p, hp, rfl, _⟩ := e1'
    refine ⟨p.1, clip.accepts, if clip.accepts then some p.2 else none, by simp only [cutFromInput, hp, Option.bind_eq_bind, Option.bind_some], alone_one e1, e2, ?_⟩
    simp only [cutSelection, Option.bind_eq_bind, Option.bind_eq_some_iff, Option.some.injEq] at hp
    obtain ⟨_, _, q, _, g, hg, rfl⟩ := hp
    exact (SameFrame.content f1 _).trans (fixScroll_frame hg)
  rw [if_neg c2, if_neg c2]
  by_cases c3 : k = ⟨.char 'v', [], modCtrl⟩
  · obtain ⟨rfl, rfl⟩ := hctrl 'v' c3
    rw [if_neg (by decide), if_pos c3, if_pos c3]
    unfold pasteIntoInput
    cases clip.gives with
    | none => exact ⟨f1, _, _, rfl, rfl, h, .refl _⟩
    | some s =>
      obtain ⟨f2, b2, e1, e2, _⟩ := fieldOp_ok cw alnum h (.replaceSelection s) trivial
      have e1' := e1
      simp only [FieldOp.exec, Option.map_eq_some_iff, Prod.mk.injEq] at e1'
      obtain ⟨g, hg, rfl, _⟩ := e1'
      refine ⟨g, true, none, by simp only [hg, Option.map_some], alone_one e1, e2, ?_⟩
      have hk := C45_kept cw alnum h.2.2 (.replaceSelection s) e1
      simp only [replaceSelection, Option.bind_eq_bind, Option.bind_eq_some_iff] at hg
      obtain ⟨g', hg', c, _, hg⟩ := hg
      have hs : SameFrame f1 g' := by
        unfold delWide at hg'
        split at hg'
        · simp only [Option.bind_eq_bind, Option.bind_eq_some_iff, Option.some.injEq] at hg'
          obtain ⟨_, _, rfl⟩ := hg'
          exact .content f1 _
        · simp only [Option.some.injEq] at hg'; rw [← hg']; exact .refl _
      exact (hs.trans (.content g' _)).trans (fixScroll_frame hg)
  rw [if_neg c3, if_neg c3]
  cases b with
  | true => exact ⟨f1, true, none, by rw [if_pos rfl], alone_one h1, h2, key_frame h1'⟩
  | false => exact ⟨f1, false, none, by rw [if_neg (by decide)], alone_one h1, h2, key_frame h1'⟩

theorem aloneMad_one {m m' : MadView} {op : MadOp} (h : op.exec cw ws m = some m') : aloneMad cw ws m [op] = some m' := by
  simp [aloneMad, h]

/-- The places of the fields are on the screen. -/
theorem inputArea_ok {d : Desk} {v : View} (hm : Matches c d v) (n : InputName) : 1 ≤ (d.inputArea n).width ∧ OnScreen (d.inputArea n) := by
  have := hm.ok n
  rw [← hm.inputs n]
  exact ⟨this.2.1, this.2.2⟩

theorem inputIn_ok {w h : Nat} (hl : largeEnough w h = true) (hs : SmallSize w h) (n : InputName) :
    1 ≤ (inputIn w h n).width ∧ OnScreen (inputIn w h n) := by
  unfold largeEnough at hl
  rw [decide_eq_true_iff] at hl
  unfold SmallSize at hs
  cases n <;> simp only [inputIn, OnScreen] <;> omega

/-- A key. -/
theorem key_step (hfit : ∀ w, 3 ≤ w → FittingText cw c.skin w c.introduction) {d : Desk} {v : View} (hm : Matches c d v) (k : KeyComb) (clip : Clipboard) :
    ∃ v' b given, v.applyKey cw ws clip k = some (v', b, given) ∧ Matches c (d.next (.key k clip)) v' ∧
      (∀ n, alone cw alnum (input v n) (d.gives n (.key k clip)) = some (input v' n)) ∧
      aloneMad cw ws v.introduction (d.toIntro (.key k clip)) = some v'.introduction := by
  have hfoc : ∀ foc, k = keyEsc ∨ k = keyTab → (d.next (.key k clip)).focus = foc →
      v.applyKey cw ws clip k = (v.setFocus cw foc).map (fun v => (v, true, none)) →
      ∃ v' b given, v.applyKey cw ws clip k = some (v', b, given) ∧ Matches c (d.next (.key k clip)) v' ∧
      (∀ n, alone cw alnum (input v n) (d.gives n (.key k clip)) = some (input v' n)) ∧
      aloneMad cw ws v.introduction (d.toIntro (.key k clip)) = some v'.introduction := by
    intro foc hk hd ha
    obtain ⟨v', h1, h2, h3, h4⟩ := setFocus_matches (cw := cw) hm foc hm.ok (fun _ => ⟨rfl, rfl, rfl⟩) rfl
    refine ⟨v', true, none, by rw [ha, h1]; rfl, ?_, ?_, ?_⟩
    · have : d.next (.key k clip) = { d with focus := foc } := by rw [← hd]; rfl
      rw [this]; exact h2
    · intro n
      simp only [Desk.gives, if_pos hk, hd]
      exact alone_setFocus (h3 n)
    · simp only [Desk.toIntro, if_pos hk, h4, aloneMad]
  by_cases c1 : k = keyEsc
  · apply hfoc .introduction (.inl c1)
    · simp [Desk.next, c1]
    · simp only [View.applyKey, if_pos c1]
  by_cases c2 : k = keyTab
  · apply hfoc (afterTab d.focus) (.inr c2)
    · simp only [Desk.next, if_neg c1, if_pos c2]
    · have : d.focus.next = afterTab d.focus := by cases d.focus <;> rfl
      simp only [View.applyKey, if_neg c1, if_pos c2, hm.focus, this]
  have hno : ¬ (k = keyEsc ∨ k = keyTab) := by simp [c1, c2]
  have hnext : d.next (.key k clip) = d := by simp only [Desk.next, if_neg c1, if_neg c2]
  have hkeys : ∀ n ch, (⟨.char ch, [], modCtrl⟩ : KeyComb) ∉ (input v n).newLineKeys := by
    intro n ch
    rw [hm.keys n]
    split <;> simp [keyEnter]
  have hin : ∀ m : InputName, d.focus = m.focus → ∀ put : InputField → View, (∀ f n, input (put f) n = if n = m then f else input v n) →
      (∀ f, put f = { v with login := (put f).login, password := (put f).password, comments := (put f).comments }) →
      v.applyKey cw ws clip k = ((inputKey cw clip (input v m) k).map fun r => (put r.1, r.2)) →
      ∃ v' b given, v.applyKey cw ws clip k = some (v', b, given) ∧ Matches c (d.next (.key k clip)) v' ∧
      (∀ n, alone cw alnum (input v n) (d.gives n (.key k clip)) = some (input v' n)) ∧
      aloneMad cw ws v.introduction (d.toIntro (.key k clip)) = some v'.introduction := by
    intro m hd put hput hv ha
    obtain ⟨f', b, given, h1, h2, h3, c', s', h4⟩ := inputKey_ok (cw := cw) (alnum := alnum) (hm.ok m) (hkeys m) clip k
    have hfocus : ∀ n : InputName, d.focus = n.focus ↔ n = m := by
      intro n; rw [hd]; cases n <;> cases m <;> simp [InputName.focus]
    refine ⟨put f', b, given, by rw [ha, h1]; rfl, ?_, ?_, ?_⟩
    · rw [hnext]
      have keep : ∀ n, FieldOk (input (put f') n) ∧ (input (put f') n).focused = (input v n).focused ∧ (input (put f') n).area = (input v n).area ∧
          (input (put f') n).newLineKeys = (input v n).newLineKeys ∧ (input (put f') n).passwordMode = (input v n).passwordMode := by
        intro n
        rw [hput]
        split
        · next hn => subst hn; exact ⟨h3, by rw [h4], by rw [h4], by rw [h4], by rw [h4]⟩
        · exact ⟨hm.ok n, rfl, rfl, rfl, rfl⟩
      constructor
      · rw [hv]; exact hm.focus
      · rw [hv]; exact hm.area
      · rw [hv]; exact hm.drawable
      · exact fun n => (keep n).1
      · intro n; rw [(keep n).2.1]; exact hm.focused n
      · intro n; rw [(keep n).2.2.1]; exact hm.inputs n
      · intro n; rw [(keep n).2.2.2.1]; exact hm.keys n
      · intro n; rw [(keep n).2.2.2.2]; exact hm.hidden n
      · rw [hv]; exact hm.label1
      · rw [hv]; exact hm.label2
      · rw [hv]; exact hm.label3
      · rw [hv]; exact hm.intro
      · rw [hv]; exact hm.text
      · rw [hv]; exact hm.skin
      · exact hm.placed
      · exact hm.sizes
    · intro n
      simp only [Desk.gives, if_neg hno, hfocus, hput]
      by_cases hn : n = m
      · rw [if_pos hn, if_pos hn, hn]; exact h2
      · rw [if_neg hn, if_neg hn]; rfl
    · have : d.focus ≠ .introduction := by rw [hd]; cases m <;> simp [InputName.focus]
      simp only [Desk.toIntro, if_neg hno, if_neg this, aloneMad]
      rw [hv]
  cases hf : d.focus with
  | login =>
    refine hin .login hf (fun f => { v with login := f }) ?_ (fun f => rfl) ?_
    · intro f n; cases n <;> rfl
    · simp only [View.applyKey, if_neg c1, if_neg c2, hm.focus, hf, input]
  | password =>
    refine hin .password hf (fun f => { v with password := f }) ?_ (fun f => rfl) ?_
    · intro f n; cases n <;> rfl
    · simp only [View.applyKey, if_neg c1, if_neg c2, hm.focus, hf, input]
  | comments =>
    refine hin .comments hf (fun f => { v with comments := f }) ?_ (fun f => rfl) ?_
    · intro f n; cases n <;> rfl
    · simp only [View.applyKey, if_neg c1, if_neg c2, hm.focus, hf, input]
  | introduction =>
    have hw : 4 ≤ v.introduction.area.width := by
      rw [hm.intro]
      unfold Desk.intro
      split
      · next w h hp =>
        have := (hm.sizes w h hp).1
        unfold largeEnough at this
        rw [decide_eq_true_iff] at this
        simp only [introIn]; omega
      · decide
    obtain ⟨out, ht, _⟩ := fromText_final (ws := ws) (w := v.introduction.area.width - 1) (by omega) (hfit _ (by omega))
    rw [← hm.text, ← hm.skin] at ht
    have hk := (C29_delegates cw ws v.introduction _ (by omega) ht).2 k
    generalize hq : (({ area := v.introduction.area, lines := out, scroll := v.introduction.scroll } : TextView).applyKeyCombination k) = q at hk
    refine ⟨{ v with introduction := { v.introduction with scroll := q.1.scroll } }, q.2, none, ?_, ?_, ?_, ?_⟩
    · simp only [View.applyKey, if_neg c1, if_neg c2, hm.focus, hf, hk, Option.map_some]
    · rw [hnext]
      exact ⟨hm.focus, hm.area, hm.drawable, hm.ok, hm.focused, hm.inputs, hm.keys, hm.hidden, hm.label1, hm.label2, hm.label3, hm.intro, hm.text, hm.skin,
        hm.placed, hm.sizes⟩
    · intro n
      have : d.focus ≠ n.focus := by rw [hf]; cases n <;> simp [InputName.focus]
      simp only [Desk.gives, if_neg hno, if_neg this]
      cases n <;> rfl
    · simp only [Desk.toIntro, if_neg hno, if_pos hf]
      exact aloneMad_one (by simp only [MadOp.exec, hk, Option.map_some])

theorem mouse_field {f : InputField} (h : FieldOk f) (e : MouseInput) :
    ∃ f', f.applyMouseEvent cw alnum e.kind e.x e.y e.mods e.double = some (f', covers f.area e.x e.y) ∧ FieldOk f' ∧ f'.area = f.area ∧
      f'.newLineKeys = f.newLineKeys ∧ f'.passwordMode = f.passwordMode ∧ (covers f.area e.x e.y = false → f' = f) := by
  obtain ⟨f', b, h1, h2, _⟩ := fieldOp_ok cw alnum h (.mouse e.kind e.x e.y e.mods e.double) trivial
  have h1' : f.applyMouseEvent cw alnum e.kind e.x e.y e.mods e.double = some (f', b) := h1
  have hc := contains_covers h.2.2 e.x e.y
  have hb : b = covers f.area e.x e.y ∧ (covers f.area e.x e.y = false → f' = f) := by
    have h3 := h1'
    simp only [applyMouseEvent, hc, Option.bind_eq_bind, Option.bind_some] at h3
    split at h3
    · next hb =>
      rw [hb]
      refine ⟨?_, by simp⟩
      split at h3
      · simp only [Option.bind_eq_some_iff, Option.some.injEq, Prod.mk.injEq] at h3
        obtain ⟨_, _, _, _, _, h3⟩ := h3
        exact h3.symm
      · simp only [Option.some.injEq, Prod.mk.injEq] at h3
        exact h3.2.symm
    · next hb =>
      simp only [Option.some.injEq, Prod.mk.injEq] at h3
      exact ⟨by rw [← h3.2]; simpa using hb, fun _ => h3.1.symm⟩
  have hk := C45_kept cw alnum h.2.2 _ h1
  refine ⟨f', by rw [h1', hb.1], h2, hk.1 (by simp) (by simp), hk.2.2.1 (by simp) (by simp), hk.2.1 (by simp), hb.2⟩

/-- The mouse. -/
theorem mouse_step {d : Desk} {v : View} (hm : Matches c d v) (e : MouseInput) :
    ∃ v', v.applyMouse cw alnum e = some v' ∧ Matches c (d.next (.mouse e)) v' ∧
      (∀ n, alone cw alnum (input v n) (d.gives n (.mouse e)) = some (input v' n)) ∧ v'.introduction = v.introduction := by
  obtain ⟨f1, a1, b1, c1, d1, e1, g1⟩ := mouse_field (cw := cw) (alnum := alnum) (hm.ok .login) e
  obtain ⟨f2, a2, b2, c2, d2, e2, g2⟩ := mouse_field (cw := cw) (alnum := alnum) (hm.ok .password) e
  obtain ⟨f3, a3, b3, c3, d3, e3, g3⟩ := mouse_field (cw := cw) (alnum := alnum) (hm.ok .comments) e
  rw [hm.inputs] at a1 a2 a3 g1 g2 g3
  simp only [input] at a1 a2 a3
  -- the general case: a view whose fields have received the event or not
  have main : ∀ (u : View) (foc : Focus), d.pointed e.x e.y = foc → v.applyMouse cw alnum e = u.setFocus cw foc →
      u = { v with login := u.login, password := u.password, comments := u.comments } →
      (∀ n, FieldOk (input u n) ∧ (input u n).area = (input v n).area ∧ (input u n).newLineKeys = (input v n).newLineKeys ∧
        (input u n).passwordMode = (input v n).passwordMode) →
      (∀ n, alone cw alnum (input v n) (if foc = n.focus then [.mouse e.kind e.x e.y e.mods e.double] else []) = some (input u n)) →
      ∃ v', v.applyMouse cw alnum e = some v' ∧ Matches c (d.next (.mouse e)) v' ∧
      (∀ n, alone cw alnum (input v n) (d.gives n (.mouse e)) = some (input v' n)) ∧ v'.introduction = v.introduction := by
    intro u foc hp ha hu hf hal
    obtain ⟨v', h1, h2, h3, h4⟩ := setFocus_matches (cw := cw) hm foc (fun n => (hf n).1) (fun n => (hf n).2) hu
    refine ⟨v', by rw [ha, h1], ?_, ?_, h4⟩
    · simp only [Desk.next, hp]; exact h2
    · intro n
      simp only [Desk.gives, hp]
      rw [alone_append, hal n, Option.bind_some]
      exact alone_setFocus (h3 n)
  by_cases k1 : covers (d.inputArea .login) e.x e.y = true
  · refine main { v with login := f1 } .login ?_ ?_ rfl ?_ ?_
    · simp only [Desk.pointed, if_pos k1]
    · simp only [View.applyMouse, a1, k1, if_true, Option.bind_eq_bind, Option.bind_some]
    · intro n
      cases n with
      | login => exact ⟨b1, c1, d1, e1⟩
      | password => exact ⟨hm.ok .password, rfl, rfl, rfl⟩
      | comments => exact ⟨hm.ok .comments, rfl, rfl, rfl⟩
    · intro n
      cases n with
      | login => exact alone_one (op := .mouse e.kind e.x e.y e.mods e.double) a1
      | password => rfl
      | comments => rfl
  have k1' : covers (d.inputArea .login) e.x e.y = false := by simpa using k1
  cases g1 k1'
  by_cases k2 : covers (d.inputArea .password) e.x e.y = true
  · refine main { v with password := f2 } .password ?_ ?_ rfl ?_ ?_
    · simp only [Desk.pointed, if_neg k1, if_pos k2]
    · simp only [View.applyMouse, a1, a2, k1', k2, if_true, Bool.false_eq_true, if_false, Option.bind_eq_bind, Option.bind_some, input]
    · intro n
      cases n with
      | login => exact ⟨hm.ok .login, rfl, rfl, rfl⟩
      | password => exact ⟨b2, c2, d2, e2⟩
      | comments => exact ⟨hm.ok .comments, rfl, rfl, rfl⟩
    · intro n
      cases n with
      | login => rfl
      | password => exact alone_one (op := .mouse e.kind e.x e.y e.mods e.double) a2
      | comments => rfl
  have k2' : covers (d.inputArea .password) e.x e.y = false := by simpa using k2
  cases g2 k2'
  by_cases k3 : covers (d.inputArea .comments) e.x e.y = true
  · refine main { v with comments := f3 } .comments ?_ ?_ rfl ?_ ?_
    · simp only [Desk.pointed, if_neg k1, if_neg k2, if_pos k3]
    · simp only [View.applyMouse, a1, a2, a3, k1', k2', k3, if_true, Bool.false_eq_true, if_false, Option.bind_eq_bind, Option.bind_some, input]
    · intro n
      cases n with
      | login => exact ⟨hm.ok .login, rfl, rfl, rfl⟩
      | password => exact ⟨hm.ok .password, rfl, rfl, rfl⟩
      | comments => exact ⟨b3, c3, d3, e3⟩
    · intro n
      cases n with
      | login => rfl
      | password => rfl
      | comments => exact alone_one (op := .mouse e.kind e.x e.y e.mods e.double) a3
  have k3' : covers (d.inputArea .comments) e.x e.y = false := by simpa using k3
  cases g3 k3'
  refine main v .introduction ?_ ?_ rfl ?_ ?_
  · simp only [Desk.pointed, if_neg k1, if_neg k2, if_neg k3]
  · simp only [View.applyMouse, a1, a2, a3, k1', k2', k3', Bool.false_eq_true, if_false, Option.bind_eq_bind, Option.bind_some, input]
  · intro n; exact ⟨hm.ok n, rfl, rfl, rfl⟩
  · intro n; cases n <;> rfl

theorem changeArea_set (f : InputField) (x y w : Nat) : f.changeArea cw x y w = f.setArea cw ⟨x, y, w, f.area.height⟩ := by
  unfold changeArea setArea
  have : (f.area ≠ ⟨x, y, w, f.area.height⟩) ↔ (f.area.left ≠ x ∨ f.area.top ≠ y ∨ f.area.width ≠ w) := by
    obtain ⟨l, t, w', h'⟩ := f.area
    simp only [ne_eq, Area.mk.injEq, and_true]
    omega
  by_cases hc : f.area.left ≠ x ∨ f.area.top ≠ y ∨ f.area.width ≠ w
  · rw [if_pos hc, if_pos (this.2 hc)]
  · rw [if_neg hc, if_neg (fun h => hc (this.1 h))]

theorem alone_setArea {f f' : InputField} {a : Area} (h : f.setArea cw a = some f') : alone cw alnum f [.setArea a] = some f' := by
  simp [alone, FieldOp.exec, h]

/-- The widgets are placed as specified, from views with fields of one row. -/
theorem place_ok {v : View} (hok : ∀ n, FieldOk (input v n)) (h1 : v.login.area.height = 1) (h2 : v.password.area.height = 1) {w h : Nat}
    (hl : largeEnough w h = true) (hs : SmallSize w h) :
    ∃ v', v.place cw ⟨0, 0, w, h⟩ = some v' ∧ (∀ n, (input v n).setArea cw (inputIn w h n) = some (input v' n)) ∧
      v' = { v with
        introduction := v.introduction.resize (introIn w h), loginLabelArea := labelIn w h .login, login := v'.login
        passwordLabelArea := labelIn w h .password, password := v'.password, commentsLabelArea := labelIn w h .comments, comments := v'.comments } := by
  have hin := inputIn_ok hl hs
  unfold largeEnough at hl
  rw [decide_eq_true_iff] at hl
  unfold SmallSize at hs
  have hset : ∀ n, ∃ s, (input v n).setArea cw (inputIn w h n) = some { input v n with area := inputIn w h n, scroll := s } :=
    fun n => (C26_setters cw (hok n).1 (hok n).2.1).2.1 (inputIn w h n) (hin n).1
  obtain ⟨s1, e1⟩ := hset .login
  obtain ⟨s2, e2⟩ := hset .password
  obtain ⟨s3, e3⟩ := hset .comments
  refine ⟨{ v with
        introduction := v.introduction.resize (introIn w h), loginLabelArea := labelIn w h .login, login := { v.login with area := inputIn w h .login, scroll := s1 }
        passwordLabelArea := labelIn w h .password, password := { v.password with area := inputIn w h .password, scroll := s2 }
        commentsLabelArea := labelIn w h .comments, comments := { v.comments with area := inputIn w h .comments, scroll := s3 } }, ?_, ?_, rfl⟩
  · have a1 : csub h 15 = some (h - 15) := by unfold csub; rw [if_pos (by omega)]
    have a2 : csub w 3 = some (w - 3) := by unfold csub; rw [if_pos (by omega)]
    have a3 : u16Add 1 (4 + (h - 15) / 2) = some (1 + (4 + (h - 15) / 2)) := by unfold u16Add u16Size; rw [if_pos (by omega)]
    have a4 : u16Add (1 + (4 + (h - 15) / 2)) 2 = some (4 + (h - 15) / 2 + 3) := by
      unfold u16Add u16Size; rw [if_pos (by omega), Option.some.injEq]; omega
    have a5 : u16Add ((w - 3) / 2) 2 = some ((w - 3) / 2 + 2) := by unfold u16Add u16Size; rw [if_pos (by omega)]
    have a6 : u16Add (4 + (h - 15) / 2 + 3) 2 = some (4 + (h - 15) / 2 + 5) := by unfold u16Add u16Size; rw [if_pos (by omega)]
    have a7 : u16Add (4 + (h - 15) / 2 + 5) 2 = some (4 + (h - 15) / 2 + 7) := by unfold u16Add u16Size; rw [if_pos (by omega)]
    have a8 : csub h 1 = some (h - 1) := by unfold csub; rw [if_pos (by omega)]
    have a9 : csub (h - 1) (4 + (h - 15) / 2) = some (h - 1 - (4 + (h - 15) / 2)) := by unfold csub; rw [if_pos (by omega)]
    have a10 : csub h (4 + (h - 15) / 2 + 7) = some (h - (4 + (h - 15) / 2 + 7)) := by unfold csub; rw [if_pos (by omega)]
    have a11 : csub (h - (4 + (h - 15) / 2 + 7)) 1 = some (h - (4 + (h - 15) / 2) - 8) := by
      unfold csub; rw [if_pos (by omega), Option.some.injEq]; omega
    simp only [input, inputIn] at e1 e2 e3
    simp only [View.place, a1, a2, a3, a4, a5, a6, a7, a8, a9, a10, a11, changeArea_set, h1, h2, e1, e2, e3, Option.bind_eq_bind, Option.bind_some,
      introIn, labelIn, inputIn]
  · intro n
    cases n with
    | login => exact e1
    | password => exact e2
    | comments => exact e3

theorem setArea_field {f : InputField} (h : FieldOk f) {a : Area} (hw : 1 ≤ a.width) (ho : OnScreen a) {f' : InputField} (he : f.setArea cw a = some f') :
    FieldOk f' ∧ f'.area = a ∧ f'.focused = f.focused ∧ f'.newLineKeys = f.newLineKeys ∧ f'.passwordMode = f.passwordMode ∧ f'.content = f.content := by
  obtain ⟨s, hs⟩ := (C26_setters cw h.1 h.2.1).2.1 a hw
  rw [hs] at he
  cases he
  exact ⟨⟨h.1, hw, ho⟩, rfl, rfl, rfl, rfl, rfl⟩

theorem resize_text (m : MadView) (a : Area) : (m.resize a).mlines = m.mlines ∧ (m.resize a).skin = m.skin ∧ (m.resize a).area = a := by
  unfold MadView.resize
  split
  · next h => exact ⟨rfl, rfl, h.symm⟩
  · exact ⟨rfl, rfl, rfl⟩

/-- The view whose widgets are placed. -/
theorem place_matches {d : Desk} {v : View} (hfocus : v.focus = d.focus) (hok : ∀ n, FieldOk (input v n))
    (hfocused : ∀ n, (input v n).focused = decide (d.focus = n.focus)) (hkeys : ∀ n, (input v n).newLineKeys = if n = .comments then [keyEnter] else [])
    (hhidden : ∀ n, (input v n).passwordMode = decide (n = .password)) (htext : v.introduction.mlines = c.introduction) (hskin : v.introduction.skin = c.skin)
    (h1 : v.login.area.height = 1) (h2 : v.password.area.height = 1) {w h : Nat} (hl : largeEnough w h = true) (hs : SmallSize w h) :
    ∃ v', v.place cw ⟨0, 0, w, h⟩ = some v' ∧ (∀ n, (input v n).setArea cw (inputIn w h n) = some (input v' n)) ∧
      v'.introduction = v.introduction.resize (introIn w h) ∧
      Matches c ⟨d.focus, w, h, some (w, h)⟩ { v' with drawable := true, area := ⟨0, 0, w, h⟩ } := by
  obtain ⟨v', p1, p2, p3⟩ := place_ok (cw := cw) hok h1 h2 hl hs
  have hin := inputIn_ok hl hs
  have key := fun n => setArea_field (hok n) (hin n).1 (hin n).2 (p2 n)
  have hi : v'.introduction = v.introduction.resize (introIn w h) := by rw [p3]
  have same : ∀ n, input { v' with drawable := true, area := ⟨0, 0, w, h⟩ } n = input v' n := by intro n; cases n <;> rfl
  refine ⟨v', p1, p2, hi, ?_⟩
  constructor
  · rw [p3]; exact hfocus
  · rfl
  · exact hl.symm
  · intro n; rw [same]; exact (key n).1
  · intro n; rw [same, (key n).2.2.1]; exact hfocused n
  · intro n; rw [same, (key n).2.1]; rfl
  · intro n; rw [same, (key n).2.2.2.1]; exact hkeys n
  · intro n; rw [same, (key n).2.2.2.2.1]; exact hhidden n
  · rw [p3]; rfl
  · rw [p3]; rfl
  · rw [p3]; rfl
  · show v'.introduction.area = introIn w h
    rw [hi]; exact (resize_text _ _).2.2
  · show v'.introduction.mlines = _
    rw [hi, (resize_text _ _).1]; exact htext
  · show v'.introduction.skin = _
    rw [hi, (resize_text _ _).2.1]; exact hskin
  · intro _; rfl
  · intro w' h' he
    simp only [Option.some.injEq, Prod.mk.injEq] at he
    rw [← he.1, ← he.2]
    exact ⟨hl, hs⟩

theorem oneRow {d : Desk} {v : View} (hm : Matches c d v) : v.login.area.height = 1 ∧ v.password.area.height = 1 := by
  have h1 := hm.inputs .login
  have h2 := hm.inputs .password
  simp only [input] at h1 h2
  rw [h1, h2]
  unfold Desk.inputArea
  split <;> exact ⟨rfl, rfl⟩

/-- A change of size. -/
theorem resize_step {d : Desk} {v : View} (hm : Matches c d v) {w h : Nat} (hs : SmallSize w h) :
    ∃ v' b, v.resize cw ⟨0, 0, w, h⟩ = some (v', b) ∧ Matches c (d.next (.resize w h)) v' ∧
      (∀ n, alone cw alnum (input v n) (d.gives n (.resize w h)) = some (input v' n)) ∧
      aloneMad cw ws v.introduction (d.toIntro (.resize w h)) = some v'.introduction := by
  unfold View.resize
  by_cases hsame : v.area = ⟨0, 0, w, h⟩
  · rw [if_pos hsame]
    rw [hm.area] at hsame
    simp only [Area.mk.injEq, true_and] at hsame
    obtain ⟨rfl, rfl⟩ := hsame
    have hd : d.next (.resize d.width d.height) = d := by
      by_cases hl : largeEnough d.width d.height = true
      · simp only [Desk.next, if_pos hl, ← hm.placed hl]
      · simp only [Desk.next, if_neg hl]
    refine ⟨v, false, rfl, by rw [hd]; exact hm, ?_, ?_⟩
    · intro n
      simp only [Desk.gives]
      by_cases hl : largeEnough d.width d.height = true
      · rw [if_pos hl]
        apply alone_setArea
        have := hm.inputs n
        rw [Desk.inputArea, hm.placed hl] at this
        unfold setArea
        rw [this]
        simp
      · rw [if_neg hl]; rfl
    · simp only [Desk.toIntro]
      by_cases hl : largeEnough d.width d.height = true
      · rw [if_pos hl]
        apply aloneMad_one
        have := hm.intro
        rw [Desk.intro, hm.placed hl] at this
        simp only [MadOp.exec, MadView.resize]
        rw [if_pos this.symm]
      · rw [if_neg hl]; rfl
  · rw [if_neg hsame]
    by_cases hl : largeEnough w h = true
    · have hl' : (Area.mk 0 0 w h).width ≥ 20 ∧ (Area.mk 0 0 w h).height ≥ 15 := by
        unfold largeEnough at hl; rw [decide_eq_true_iff] at hl; exact hl
      rw [if_pos hl']
      obtain ⟨v', p1, p2, p3, p4⟩ := place_matches (cw := cw) hm.focus hm.ok hm.focused hm.keys hm.hidden hm.text hm.skin (oneRow hm).1 (oneRow hm).2 hl hs
      refine ⟨{ v' with drawable := true, area := ⟨0, 0, w, h⟩ }, true, by simp only [p1, Option.bind_eq_bind, Option.bind_some], ?_, ?_, ?_⟩
      · simp only [Desk.next, if_pos hl]; exact p4
      · intro n
        simp only [Desk.gives, if_pos hl]
        rw [alone_setArea (p2 n)]
        cases n <;> rfl
      · simp only [Desk.toIntro, if_pos hl]
        exact aloneMad_one (by simp only [MadOp.exec, p3])
    · have hl' : ¬ ((Area.mk 0 0 w h).width ≥ 20 ∧ (Area.mk 0 0 w h).height ≥ 15) := by
        unfold largeEnough at hl; rw [decide_eq_true_iff] at hl; exact hl
      rw [if_neg hl']
      have same : ∀ n, input { v with drawable := false, area := ⟨0, 0, w, h⟩ } n = input v n := by intro n; cases n <;> rfl
      refine ⟨_, true, rfl, ?_, ?_, ?_⟩
      · simp only [Desk.next, if_neg hl]
        exact ⟨hm.focus, rfl, by simpa using hl, fun n => by rw [same]; exact hm.ok n, fun n => by rw [same]; exact hm.focused n,
          fun n => by rw [same]; exact hm.inputs n, fun n => by rw [same]; exact hm.keys n, fun n => by rw [same]; exact hm.hidden n,
          hm.label1, hm.label2, hm.label3, hm.intro, hm.text, hm.skin, fun h => absurd h hl, hm.sizes⟩
      · intro n
        simp only [Desk.gives, if_neg hl, same]; rfl
      · simp only [Desk.toIntro, if_neg hl]; rfl

/-- An event. -/
theorem form_step (hfit : ∀ w, 3 ≤ w → FittingText cw c.skin w c.introduction) {d : Desk} {v : View} (hm : Matches c d v) (e : View.Event)
    (hs : ∀ w h, e = .resize w h → SmallSize w h) :
    ∃ v' b given, v.apply cw ws alnum e = some (v', b, given) ∧ Matches c (d.next e) v' ∧
      (∀ n, alone cw alnum (input v n) (d.gives n e) = some (input v' n)) ∧
      aloneMad cw ws v.introduction (d.toIntro e) = some v'.introduction := by
  cases e with
  | key k clip => exact key_step hfit hm k clip
  | mouse e =>
    obtain ⟨v', h1, h2, h3, h4⟩ := mouse_step (cw := cw) (alnum := alnum) hm e
    exact ⟨v', true, none, by simp only [View.apply, h1, Option.map_some], h2, h3, by rw [h4]; rfl⟩
  | resize w h =>
    obtain ⟨v', b, h1, h2, h3, h4⟩ := resize_step (cw := cw) (ws := ws) (alnum := alnum) hm (hs w h rfl)
    exact ⟨v', b, none, by simp only [View.apply, h1, Option.map_some], h2, h3, h4⟩
  | other => exact ⟨v, false, none, rfl, hm, fun n => rfl, rfl⟩

/-- Events. -/
theorem form_run (hfit : ∀ w, 3 ≤ w → FittingText cw c.skin w c.introduction) : ∀ (es : List View.Event) (d : Desk) (v : View), Matches c d v → SmallSizes es →
    ∃ v', runForm cw ws alnum v es = some v' ∧ Matches c (es.foldl Desk.next d) v' ∧
      (∀ n, alone cw alnum (input v n) (d.givesAll n es) = some (input v' n)) ∧
      aloneMad cw ws v.introduction (d.toIntroAll es) = some v'.introduction := by
  intro es
  induction es with
  | nil => intro d v hm _; exact ⟨v, rfl, hm, fun n => rfl, rfl⟩
  | cons e es ih =>
    intro d v hm hs
    obtain ⟨v1, b, given, h1, h2, h3, h4⟩ := form_step (ws := ws) (alnum := alnum) hfit hm e (fun w h he => hs w h (by rw [he]; simp))
    obtain ⟨v', k1, k2, k3, k4⟩ := ih (d.next e) v1 h2 (fun w h he => hs w h (List.mem_cons_of_mem _ he))
    refine ⟨v', by simp only [runForm, h1, Option.bind_eq_bind, Option.bind_some, k1], k2, ?_, ?_⟩
    · intro n; rw [Desk.givesAll, alone_append, h3 n, Option.bind_some, k3 n]
    · rw [Desk.toIntroAll, aloneMad_append, h4, Option.bind_some, k4]

/-- The new form. -/
theorem form_new (text : Text) {w h : Nat} (hs : SmallSize w h) :
    ∃ v, View.new cw c text ⟨0, 0, w, h⟩ = some v ∧ Matches c (.start w h) v ∧ (∀ n, alone cw alnum InputField.default (firstOps text w h n) = some (input v n)) ∧
      aloneMad cw ws { mlines := c.introduction, area := noArea, skin := c.skin } (if largeEnough w h then [.resize (introIn w h)] else []) =
        some v.introduction := by
  have hok0 : ∀ b p k, FieldOk { InputField.default with focused := b, passwordMode := p, newLineKeys := k } :=
    fun b p k => ⟨Content.default_valid, by show 1 ≤ 5; decide, by show 0 + 5 < 65536 ∧ 0 + 1 < 65536; decide⟩
  obtain ⟨f, b, hset, hok, _⟩ := fieldOp_ok cw alnum (f := { InputField.default with focused := false, newLineKeys := [keyEnter] }) (hok0 _ _ _) (.setStr text) trivial
  have hk := C45_kept cw alnum (hok0 _ _ _).2.2 _ hset
  have hset' := hset
  simp only [FieldOp.exec, Option.map_eq_some_iff, Prod.mk.injEq] at hset'
  obtain ⟨g, hg, hgf, _⟩ := hset'
  rw [hgf] at hg
  have hfoc : f.focused = false := by
    rcases hk.2.2.2 (by simp) with h | ⟨_, _, _, _, _, h | ⟨_, _, h⟩ | ⟨_, _, h⟩⟩
    · exact h
    · simp at h
    · simp at h
    · simp at h
  let v0 : View := {
    introduction := { mlines := c.introduction, area := noArea, skin := c.skin }
    login := InputField.default
    password := { InputField.default with passwordMode := true, focused := false }
    comments := f }
  have hdef : View.default cw c text = some v0 := by
    have : View.default cw c text =
        (({ InputField.default with focused := false, newLineKeys := [keyEnter] } : InputField).setStr cw text).bind fun f => some { v0 with comments := f } := rfl
    rw [this, hg, Option.bind_some]
  have hok : ∀ n, FieldOk (input v0 n) := by
    intro n
    cases n with
    | login => exact hok0 true false []
    | password => exact hok0 false true []
    | comments => exact hok
  have hfocused : ∀ n, (input v0 n).focused = decide (Focus.login = n.focus) := by
    intro n
    cases n with
    | login => rfl
    | password => rfl
    | comments => exact hfoc
  have hkeys : ∀ n, (input v0 n).newLineKeys = if n = .comments then [keyEnter] else [] := by
    intro n
    cases n with
    | login => rfl
    | password => rfl
    | comments => exact hk.2.2.1 (by simp) (by simp)
  have hhidden : ∀ n, (input v0 n).passwordMode = decide (n = .password) := by
    intro n
    cases n with
    | login => rfl
    | password => rfl
    | comments => exact hk.2.1 (by simp)
  have hareas : ∀ n, (input v0 n).area = noArea := by
    intro n
    cases n with
    | login => rfl
    | password => rfl
    | comments => exact hk.1 (by simp) (by simp)
  let first : InputName → List FieldOp := fun n =>
    match n with
    | .login => []
    | .password => [.setPasswordMode true, .setFocus false]
    | .comments => [.setFocus false, .newLineOn keyEnter, .setStr text]
  have hfirst : ∀ n, alone cw alnum InputField.default (first n) = some (input v0 n) := by
    intro n
    cases n with
    | login => rfl
    | password => rfl
    | comments =>
      show (FieldOp.exec cw alnum { InputField.default with focused := false, newLineKeys := [keyEnter] } (.setStr text)).bind (fun r => some r.1) = _
      rw [hset]; rfl
  have hops : ∀ n, firstOps text w h n = first n ++ if largeEnough w h then [.setArea (inputIn w h n)] else [] := by
    intro n; cases n <;> rfl
  simp only [View.new, hdef, Option.bind_eq_bind, Option.bind_some, View.resize]
  have hne : v0.area = ⟨0, 0, w, h⟩ ↔ w = 5 ∧ h = 1 := by
    show noArea = _ ↔ _
    simp only [noArea, Area.mk.injEq, true_and]
    omega
  by_cases hl : largeEnough w h = true
  · have hl' : (Area.mk 0 0 w h).width ≥ 20 ∧ (Area.mk 0 0 w h).height ≥ 15 := by
      unfold largeEnough at hl; rw [decide_eq_true_iff] at hl; exact hl
    rw [if_neg (by rw [hne]; simp only at hl'; omega), if_pos hl']
    obtain ⟨v', p1, p2, p3, p4⟩ := place_matches (cw := cw) (c := c) (d := ⟨.login, 0, 0, none⟩) (v := v0) rfl hok hfocused hkeys hhidden rfl rfl rfl rfl hl hs
    refine ⟨{ v' with drawable := true, area := ⟨0, 0, w, h⟩ }, by simp only [p1, Option.bind_some], ?_, ?_, ?_⟩
    · simp only [Desk.start, if_pos hl]; exact p4
    · intro n
      rw [hops, alone_append, hfirst, Option.bind_some, if_pos hl, alone_setArea (p2 n)]
      cases n <;> rfl
    · rw [if_pos hl]
      exact aloneMad_one (by simp only [MadOp.exec, p3]; rfl)
  · have hl' : ¬ ((Area.mk 0 0 w h).width ≥ 20 ∧ (Area.mk 0 0 w h).height ≥ 15) := by
      unfold largeEnough at hl; rw [decide_eq_true_iff] at hl; exact hl
    have hplaced : (Desk.start w h).placed = none := by simp only [Desk.start, if_neg hl]
    have hm : ∀ v : View, (∀ n, input v n = input v0 n) → v = { v0 with drawable := false, area := ⟨0, 0, w, h⟩ } → Matches c (.start w h) v := by
      intro v hn hv
      refine ⟨by rw [hv]; rfl, by rw [hv]; rfl, by rw [hv]; simpa [Desk.start] using hl, fun n => by rw [hn]; exact hok n, fun n => by rw [hn]; exact hfocused n,
        fun n => by rw [hn, hareas, Desk.inputArea, hplaced]; rfl, fun n => by rw [hn]; exact hkeys n, fun n => by rw [hn]; exact hhidden n,
        by rw [hv, Desk.labelArea, hplaced]; rfl, by rw [hv, Desk.labelArea, hplaced]; rfl, by rw [hv, Desk.labelArea, hplaced]; rfl, by rw [hv, Desk.intro, hplaced]; rfl,
        by rw [hv], by rw [hv], fun h => absurd h hl, fun w h he => by rw [hplaced] at he; cases he⟩
    by_cases hsame : v0.area = ⟨0, 0, w, h⟩
    · rw [if_pos hsame]
      refine ⟨v0, rfl, hm v0 (fun _ => rfl) (by rw [← hsame]), ?_, by rw [if_neg hl]; rfl⟩
      intro n; rw [hops, if_neg hl, List.append_nil, hfirst]
    · rw [if_neg hsame, if_neg hl']
      refine ⟨_, rfl, hm _ (fun n => by cases n <;> rfl) rfl, ?_, by rw [if_neg hl]; rfl⟩
      intro n; rw [hops, if_neg hl, List.append_nil, hfirst]; cases n <;> rfl

/-- The operation after which a field may have another content. -/
theorem typed_focused {d : Desk} {n : InputName} {e : View.Event} {f f' : InputField} (hok : FieldOk f) (hfoc : f.focused = decide (d.focus = n.focus))
    (hs : ∀ w h, e = .resize w h → SmallSize w h) (h : alone cw alnum f (d.gives n e) = some f') :
    (d.focus ≠ n.focus → f'.content = f.content) ∧ ((∀ k clip, e ≠ .key k clip) → f'.content.lines = f.content.lines) := by
  have hset : ∀ {g g' : InputField} {b : Bool}, FieldOk g → alone cw alnum g [.setFocus b] = some g' → g'.content = g.content := by
    intro g g' b hg ha
    obtain ⟨s, hs⟩ := (C26_setters cw hg.1 hg.2.1).1 b
    rw [alone_setFocus hs] at ha
    cases ha
    rfl
  cases e with
  | key k clip =>
    refine ⟨?_, fun hk => absurd rfl (hk k clip)⟩
    intro hne
    simp only [Desk.gives] at h
    split at h
    · exact hset hok h
    · first
      | (rw [if_neg hne] at h; simp only [alone, Option.some.injEq] at h; rw [h])
      | (simp only [alone, Option.some.injEq] at h; rw [h])
  | mouse e =>
    simp only [Desk.gives] at h
    rw [alone_append] at h
    split at h
    · obtain ⟨f1, a1, b1, _⟩ := mouse_field (cw := cw) (alnum := alnum) hok e
      rw [alone_one (op := .mouse e.kind e.x e.y e.mods e.double) a1, Option.bind_some] at h
      rw [hset b1 h]
      obtain ⟨hl, hf⟩ := C45_mouse cw alnum a1
      refine ⟨?_, fun _ => hl⟩
      intro hne
      have hu : f.focused = false := by rw [hfoc]; simpa using hne
      rcases hf hu with hf | hf <;> rw [hf]
    · rw [show alone cw alnum f [] = some f from rfl, Option.bind_some] at h
      rw [hset hok h]
      exact ⟨fun _ => rfl, fun _ => rfl⟩
  | resize w h' =>
    simp only [Desk.gives] at h
    split at h
    · next hl =>
      have hin := inputIn_ok hl (hs w h' rfl) n
      obtain ⟨s, hs'⟩ := (C26_setters cw hok.1 hok.2.1).2.1 _ hin.1
      rw [alone_setArea hs'] at h
      cases h
      exact ⟨fun _ => rfl, fun _ => rfl⟩
    · simp only [alone, Option.some.injEq] at h; rw [h]; exact ⟨fun _ => rfl, fun _ => rfl⟩
  | other => simp only [Desk.gives, alone, Option.some.injEq] at h; rw [h]; exact ⟨fun _ => rfl, fun _ => rfl⟩

end

/-- The forms which are obtained from a new one by events. -/
def FormAfter (cw : Char → Nat) (ws alnum : Char → Bool) (c : Config) (text : Text) (w h : Nat) (es : List View.Event) (v : View) : Prop :=
  ∃ v0, View.new cw c text ⟨0, 0, w, h⟩ = some v0 ∧ runForm cw ws alnum v0 es = some v

theorem formAfter_matches {cw : Char → Nat} {ws alnum : Char → Bool} {c : Config} (hfit : ∀ w, 3 ≤ w → FittingText cw c.skin w c.introduction) {text : Text}
    {w h : Nat} (hs : SmallSize w h) {es : List View.Event} (hes : SmallSizes es) {v : View} (hv : FormAfter cw ws alnum c text w h es v) :
    Matches c (es.foldl Desk.next (.start w h)) v := by
  obtain ⟨v0, h1, h2⟩ := hv
  obtain ⟨v0', k1, k2, _⟩ := form_new (cw := cw) (ws := ws) (alnum := alnum) (c := c) text hs
  rw [h1] at k1
  cases k1
  obtain ⟨v', e1, e2, _⟩ := form_run (cw := cw) (ws := ws) (alnum := alnum) hfit es _ v0 k2 hes
  rw [h2] at e1
  cases e1
  exact e2

/-- C80: whatever the events, the form doesn't panic, and each of its inputs is as an input field which would be alone and would receive what is meant for
it: the changes of focus (escape goes to the introduction, tab to the next widget, any event of the mouse to what is under it), the keys when it has the
focus, the mouse events which are on it, the places it's given by changes of the size of the terminal; likewise the introduction is a markdown view
receiving the keys when it has the focus. The form has one focus, which is the one of this specification. -/
theorem C80_inputs (cw : Char → Nat) (ws alnum : Char → Bool) (c : Config) (hfit : ∀ w, 3 ≤ w → FittingText cw c.skin w c.introduction) (text : Text)
    {w h : Nat} (hs : SmallSize w h) (es : List View.Event) (hes : SmallSizes es) :
    let d : Desk := es.foldl Desk.next (.start w h)
    ∃ v, FormAfter cw ws alnum c text w h es v ∧ v.focus = d.focus ∧
      (∀ n, alone cw alnum InputField.default (firstOps text w h n ++ (Desk.start w h).givesAll n es) = some (input v n)) ∧
      aloneMad cw ws { mlines := c.introduction, area := unplaced, skin := c.skin }
        ((if largeEnough w h then [.resize (introIn w h)] else []) ++ (Desk.start w h).toIntroAll es) = some v.introduction := by
  obtain ⟨v0, k1, k2, k3, k4⟩ := form_new (cw := cw) (ws := ws) (alnum := alnum) (c := c) text hs
  obtain ⟨v, e1, e2, e3, e4⟩ := form_run (cw := cw) (ws := ws) (alnum := alnum) hfit es _ v0 k2 hes
  refine ⟨v, ⟨v0, k1, e1⟩, e2.focus, ?_, ?_⟩
  · intro n; rw [alone_append, k3, Option.bind_some, e3]
  · show aloneMad cw ws { mlines := c.introduction, area := noArea, skin := c.skin } _ = _
    rw [aloneMad_append, k4, Option.bind_some, e4]

/-- C80: at any time, exactly the input which has the focus of the form is focused, the password is the only hidden one, only the comments can have several
lines with the enter key, and the widgets are where they should for the last size which was large enough; the form is shown if the terminal is large
enough. -/
theorem C80_state (cw : Char → Nat) (ws alnum : Char → Bool) (c : Config) (hfit : ∀ w, 3 ≤ w → FittingText cw c.skin w c.introduction) (text : Text)
    {w h : Nat} (hs : SmallSize w h) (es : List View.Event) (hes : SmallSizes es) {v : View} (hv : FormAfter cw ws alnum c text w h es v) :
    let d : Desk := es.foldl Desk.next (.start w h)
    (∀ n, ((input v n).focused = true ↔ v.focus = n.focus) ∧ ((input v n).passwordMode = true ↔ n = .password) ∧
      (input v n).newLineKeys = (if n = .comments then [keyEnter] else []) ∧ (input v n).area = d.inputArea n ∧ (input v n).content.Valid) ∧
    v.introduction.area = d.intro ∧ v.loginLabelArea = d.labelArea .login ∧ v.passwordLabelArea = d.labelArea .password ∧
    v.commentsLabelArea = d.labelArea .comments ∧ v.area = ⟨0, 0, d.width, d.height⟩ ∧ (v.drawable = true ↔ 20 ≤ d.width ∧ 15 ≤ d.height) := by
  have hm := formAfter_matches hfit hs hes hv
  refine ⟨fun n => ⟨by rw [hm.focused n, hm.focus]; simp, by rw [hm.hidden n]; simp, hm.keys n, hm.inputs n, (hm.ok n).1⟩,
    hm.intro, hm.label1, hm.label2, hm.label3, hm.area, by rw [hm.drawable, largeEnough, decide_eq_true_iff]⟩

/-- C80: in a terminal of at least 20 columns and 15 rows the widgets are all on the screen, but for the bottom of the last label, and no two of them have a
common cell. -/
theorem C80_layout (w h : Nat) (hw : 20 ≤ w) (hh : 15 ≤ h) :
    (∀ x y, InArea (introIn w h) x y → x < w ∧ y < h) ∧
    (∀ n x y, InArea (inputIn w h n) x y → x < w ∧ y < h) ∧
    (∀ n x y, InArea (labelIn w h n) x y → x < w ∧ (n ≠ .comments → y < h)) ∧
    (∀ n, Spec.Disjoint (introIn w h) (inputIn w h n) ∧ Spec.Disjoint (introIn w h) (labelIn w h n)) ∧
    (∀ n m, Spec.Disjoint (inputIn w h n) (labelIn w h m)) ∧
    (∀ n m, n ≠ m → Spec.Disjoint (inputIn w h n) (inputIn w h m) ∧ Spec.Disjoint (labelIn w h n) (labelIn w h m)) ∧
    (∀ n, 8 ≤ (inputIn w h n).width ∧ 1 ≤ (inputIn w h n).height) := by
  refine ⟨?_, ?_, ?_, ?_, ?_, ?_, ?_⟩
  · rintro x y ⟨i, j, h1, h2, rfl, rfl⟩
    simp only [introIn] at *
    omega
  · rintro n x y ⟨i, j, h1, h2, rfl, rfl⟩
    cases n <;> simp only [inputIn] at * <;> omega
  · rintro n x y ⟨i, j, h1, h2, rfl, rfl⟩
    cases n <;> simp only [labelIn] at * <;> first | omega | (refine ⟨by omega, fun h => absurd rfl h⟩)
  · intro n
    constructor
    · rintro x y ⟨⟨i, j, h1, h2, rfl, rfl⟩, ⟨i', j', h3, h4, h5, h6⟩⟩
      cases n <;> simp only [introIn, inputIn] at * <;> omega
    · rintro x y ⟨⟨i, j, h1, h2, rfl, rfl⟩, ⟨i', j', h3, h4, h5, h6⟩⟩
      cases n <;> simp only [introIn, labelIn] at * <;> omega
  · rintro n m x y ⟨⟨i, j, h1, h2, rfl, rfl⟩, ⟨i', j', h3, h4, h5, h6⟩⟩
    cases n <;> cases m <;> simp only [labelIn, inputIn] at * <;> omega
  · intro n m hne
    constructor
    · rintro x y ⟨⟨i, j, h1, h2, rfl, rfl⟩, ⟨i', j', h3, h4, h5, h6⟩⟩
      cases n <;> cases m <;> first | exact absurd rfl hne | (simp only [inputIn] at *; omega)
    · rintro x y ⟨⟨i, j, h1, h2, rfl, rfl⟩, ⟨i', j', h3, h4, h5, h6⟩⟩
      cases n <;> cases m <;> first | exact absurd rfl hne | (simp only [labelIn] at *; omega)
  · intro n
    cases n <;> simp only [inputIn] <;> omega

/-- C80: the keys of the form are different, so that each of them has one role. -/
theorem C80_keys : keyEnter ≠ keyEsc ∧ keyEnter ≠ keyTab ∧ keyEsc ≠ keyTab := by decide

/-- C80: the last label goes out of the screen. -/
theorem C80_label_counterexample : InArea (labelIn 20 15 .comments) 1 20 ∧ ¬ 20 < 15 := ⟨⟨0, 9, by decide, by decide, rfl, rfl⟩, by decide⟩

/-- C80: an event changes the content (text, cursor, selection) of no input but the one which had the focus, and only keys change a text: moving the mouse,
clicking, changing the focus or the size of the terminal don't. -/
theorem C80_contents (cw : Char → Nat) (ws alnum : Char → Bool) (c : Config) (hfit : ∀ w, 3 ≤ w → FittingText cw c.skin w c.introduction) (text : Text)
    {w h : Nat} (hs : SmallSize w h) (es : List View.Event) (hes : SmallSizes es) {v : View} (hv : FormAfter cw ws alnum c text w h es v) (e : View.Event)
    (he : ∀ w h, e = .resize w h → SmallSize w h) {v' : View} {b : Bool} {given : Option Text} (ha : v.apply cw ws alnum e = some (v', b, given)) :
    (∀ n, v.focus ≠ n.focus → (input v' n).content = (input v n).content) ∧
    ((∀ k clip, e ≠ .key k clip) → ∀ n, (input v' n).content.lines = (input v n).content.lines) := by
  have hm := formAfter_matches hfit hs hes hv
  obtain ⟨v1, b1, g1, h1, h2, h3, h4⟩ := form_step (cw := cw) (ws := ws) (alnum := alnum) hfit hm e he
  rw [ha] at h1
  cases h1
  have := fun n => typed_focused (hm.ok n) (hm.focused n) he (h3 n)
  exact ⟨fun n hne => (this n).1 (by rw [← hm.focus]; exact hne), fun hk n => (this n).2 hk⟩

end Verif.Props
