import Verif.Props.Form
import Verif.Props.FieldStyle
/-! C80: the clipboard of a form. -/
namespace Verif.Props
open Verif Verif.Spec Verif.Form InputField

/-- The keys of the clipboard. -/
def keyCopy : KeyComb := ⟨.char 'c', [], modCtrl⟩
/-- The key which cuts. -/
def keyCut : KeyComb := ⟨.char 'x', [], modCtrl⟩
/-- The key which pastes. -/
def keyPaste : KeyComb := ⟨.char 'v', [], modCtrl⟩

theorem ctrl_ignored (cw : Char → Nat) {f : InputField} (hn : ∀ ch, (⟨.char ch, [], modCtrl⟩ : KeyComb) ∉ f.newLineKeys) (ch : Char) :
    f.applyKeyCombination cw ⟨.char ch, [], modCtrl⟩ = some (f, false) := by
  unfold applyKeyCombination
  rw [List.contains_eq_mem, decide_eq_false (hn ch), if_neg (c := false = true) (by decide)]
  split <;> simp [applyMods, modCtrl]

/-- What a key does to the form when an input has the focus. -/
theorem key_apply {cw : Char → Nat} {ws alnum : Char → Bool} {v : View} {n : InputName} (hf : v.focus = n.focus) {k : KeyComb} (h1 : k ≠ keyEsc)
    (h2 : k ≠ keyTab) (clip : Clipboard) {f : InputField} {r : Bool × Option Text} (h : inputKey cw clip (input v n) k = some (f, r)) :
    ∃ v', v.apply cw ws alnum (.key k clip) = some (v', r) ∧ (∀ m, input v' m = if m = n then f else input v m) ∧
      (f = input v n → v' = v) := by
  obtain ⟨r1, r2⟩ := r
  cases n with
  | login =>
    simp only [input] at h
    simp only [View.apply, View.applyKey, if_neg h1, if_neg h2, hf, InputName.focus, h, Option.map_some]
    exact ⟨_, rfl, fun m => by cases m <;> rfl, fun hv => by rw [hv]; cases v; cases hf; rfl⟩
  | password =>
    simp only [input] at h
    simp only [View.apply, View.applyKey, if_neg h1, if_neg h2, hf, InputName.focus, h, Option.map_some]
    exact ⟨_, rfl, fun m => by cases m <;> rfl, fun hv => by rw [hv]; cases v; cases hf; rfl⟩
  | comments =>
    simp only [input] at h
    simp only [View.apply, View.applyKey, if_neg h1, if_neg h2, hf, InputName.focus, h, Option.map_some]
    exact ⟨_, rfl, fun m => by cases m <;> rfl, fun hv => by rw [hv]; cases v; cases hf; rfl⟩

section
variable {cw : Char → Nat} {ws alnum : Char → Bool} {c : Config}

theorem ctrl_keys {d : Desk} {v : View} (hm : Matches c d v) (n : InputName) (ch : Char) : (⟨.char ch, [], modCtrl⟩ : KeyComb) ∉ (input v n).newLineKeys := by
  rw [hm.keys n]
  split <;> simp [keyEnter]

/-- C80: ctrl-c gives the selected text of the input which has the focus to the clipboard, and changes nothing. -/
theorem C80_copy (hfit : ∀ w, 3 ≤ w → FittingText cw c.skin w c.introduction) (text : Text) {w h : Nat} (hs : SmallSize w h) (es : List View.Event)
    (hes : SmallSizes es) {v : View} (hv : FormAfter cw ws alnum c text w h es v) {n : InputName} (hf : v.focus = n.focus) (clip : Clipboard) :
    ∃ a sel b, (input v n).content.toText = a ++ sel ++ b ∧ a = textBefore (input v n).content.lines (input v n).content.selection.min ∧
      a ++ sel = textBefore (input v n).content.lines (input v n).content.selection.max ++
        (textAfter (input v n).content.lines (input v n).content.selection.max).take 1 ∧
      v.apply cw ws alnum (.key keyCopy clip) = some (v, clip.accepts, if clip.accepts then some sel else none) := by
  have hm := formAfter_matches hfit hs hes hv
  obtain ⟨s, h1, h2, h3⟩ := C23_string (hm.ok n).1
  refine ⟨_, s, _, h2.symm, rfl, h3, ?_⟩
  have hk : inputKey cw clip (input v n) keyCopy = some (input v n, clip.accepts, if clip.accepts then some s else none) := by
    have hc := ctrl_ignored cw (ctrl_keys hm n) 'c'
    simp only [inputKey, keyCopy, hc, Option.bind_eq_bind, Option.bind_some]
    rw [if_neg (by decide), if_pos trivial]
    simp only [copyFromInput, copySelection, h1, Option.bind_eq_bind, Option.bind_some]
  obtain ⟨v', a1, a2, a3⟩ := key_apply (ws := ws) (alnum := alnum) hf (by decide) (by decide) clip hk
  rw [a1, a3 rfl]

/-- C80: when several characters are selected, in a line or as whole lines, ctrl-x gives it to the clipboard and removes it from the text, and
ctrl-v replaces it with what the clipboard gives (without its carriage returns), the cursor being after it. -/
theorem C80_cut_paste (hfit : ∀ w, 3 ≤ w → FittingText cw c.skin w c.introduction) (text : Text) {w h : Nat} (hs : SmallSize w h) (es : List View.Event)
    (hes : SmallSizes es) {v : View} (hv : FormAfter cw ws alnum c text w h es v) {n : InputName} (hf : v.focus = n.focus) (clip : Clipboard)
    (hws : (input v n).content.hasWideSelection = true) (hec : ExactlyCut (input v n).content) :
    ∃ a sel b, (input v n).content.toText = a ++ sel ++ b ∧ (input v n).content.selectionString = some sel ∧
      (∃ v', v.apply cw ws alnum (.key keyCut clip) = some (v', clip.accepts, if clip.accepts then some sel else none) ∧
        (input v' n).content.before = a ∧ (input v' n).content.after = b) ∧
      (∀ s, clip.gives = some s → ∃ v', v.apply cw ws alnum (.key keyPaste clip) = some (v', true, none) ∧
        (input v' n).content.before = a ++ keptText s ∧ (input v' n).content.after = b) ∧
      (clip.gives = none → v.apply cw ws alnum (.key keyPaste clip) = some (v, false, none)) := by
  have hm := formAfter_matches hfit hs hes hv
  obtain ⟨a, sel, b, h1, h2, _, h4, _, h6⟩ := C45_replace cw (hm.ok n).1 (hm.ok n).2.1 hws hec
  have h6' : ∃ f', (input v n).cutSelection cw = some (f', sel) ∧ f'.content.before = a ∧ f'.content.after = b := by
    first | exact h6 | exact h6.2
  refine ⟨a, sel, b, h2, h1, ?_, ?_, ?_⟩
  · obtain ⟨f', k1, k2, k3⟩ := h6'
    have hk : inputKey cw clip (input v n) keyCut = some (f', clip.accepts, if clip.accepts then some sel else none) := by
      have hc := ctrl_ignored cw (ctrl_keys hm n) 'x'
      simp only [inputKey, keyCut, hc, Option.bind_eq_bind, Option.bind_some]
      rw [if_neg (by decide), if_neg (by decide), if_pos trivial]
      simp only [cutFromInput, k1, Option.bind_eq_bind, Option.bind_some]
    obtain ⟨v', a1, a2, a3⟩ := key_apply (ws := ws) (alnum := alnum) hf (by decide) (by decide) clip hk
    exact ⟨v', a1, by rw [a2, if_pos rfl]; exact k2, by rw [a2, if_pos rfl]; exact k3⟩
  · intro s hg
    obtain ⟨f', k1, k2, k3⟩ := h4 s
    have hk : inputKey cw clip (input v n) keyPaste = some (f', true, none) := by
      have hc := ctrl_ignored cw (ctrl_keys hm n) 'v'
      simp only [inputKey, keyPaste, hc, Option.bind_eq_bind, Option.bind_some]
      rw [if_neg (by decide), if_neg (by decide), if_neg (by decide), if_pos trivial]
      simp only [pasteIntoInput, hg, k1, Option.map_some]
    obtain ⟨v', a1, a2, a3⟩ := key_apply (ws := ws) (alnum := alnum) hf (by decide) (by decide) clip hk
    exact ⟨v', a1, by rw [a2, if_pos rfl]; exact k2, by rw [a2, if_pos rfl]; exact k3⟩
  · intro hg
    have hk : inputKey cw clip (input v n) keyPaste = some (input v n, false, none) := by
      have hc := ctrl_ignored cw (ctrl_keys hm n) 'v'
      simp only [inputKey, keyPaste, hc, Option.bind_eq_bind, Option.bind_some]
      rw [if_neg (by decide), if_neg (by decide), if_neg (by decide), if_pos trivial]
      simp only [pasteIntoInput, hg]
    obtain ⟨v', a1, a2, a3⟩ := key_apply (ws := ws) (alnum := alnum) hf (by decide) (by decide) clip hk
    rw [a1, a3 rfl]

theorem inputKey_given {clip : Clipboard} {f f' : InputField} {k : KeyComb} {b : Bool} {s : Text} (h : inputKey cw clip f k = some (f', b, some s))
    (hn : ∀ ch, (⟨.char ch, [], modCtrl⟩ : KeyComb) ∉ f.newLineKeys) :
    (k = keyCopy ∨ k = keyCut) ∧ clip.accepts = true ∧ f.content.selectionString = some s := by
  unfold inputKey at h
  simp only [Option.bind_eq_bind, Option.bind_eq_some_iff] at h
  obtain ⟨p, hp, h⟩ := h
  split at h
  · simp at h
  split at h
  · next hk =>
    rw [hk, ctrl_ignored cw hn] at hp
    cases hp
    simp only [copyFromInput, copySelection, Option.bind_eq_bind, Option.bind_eq_some_iff, Option.some.injEq, Prod.mk.injEq] at h
    obtain ⟨s', hs', _, _, h⟩ := h
    split at h
    · next ha => rw [Option.some.inj h] at hs'; exact ⟨.inl hk, ha, hs'⟩
    · cases h
  split at h
  · next hk =>
    rw [hk, ctrl_ignored cw hn] at hp
    cases hp
    simp only [cutFromInput, Option.bind_eq_bind, Option.bind_eq_some_iff, Option.some.injEq, Prod.mk.injEq] at h
    obtain ⟨q, hq, _, _, h⟩ := h
    split at h
    · next ha =>
      simp only [cutSelection, Option.bind_eq_bind, Option.bind_eq_some_iff, Option.some.injEq] at hq
      obtain ⟨s', hs', _, _, _, _, rfl⟩ := hq
      rw [show s' = s from Option.some.inj h] at hs'
      exact ⟨.inr hk, ha, hs'⟩
    · cases h
  split at h
  · unfold pasteIntoInput at h
    split at h
    · simp only [Option.map_eq_some_iff, Prod.mk.injEq, reduceCtorEq, and_false, exists_false] at h
    · simp at h
  · simp at h

/-- C80: nothing else is put in the clipboard: only ctrl-c and ctrl-x do it, with the selected text of the input which has the focus, and when the clipboard
accepts it. -/
theorem C80_clipboard (hfit : ∀ w, 3 ≤ w → FittingText cw c.skin w c.introduction) (text : Text) {w h : Nat} (hs : SmallSize w h) (es : List View.Event)
    (hes : SmallSizes es) {v : View} (hv : FormAfter cw ws alnum c text w h es v) (e : View.Event) {v' : View} {b : Bool} {s : Text}
    (ha : v.apply cw ws alnum e = some (v', b, some s)) :
    ∃ k clip n, e = .key k clip ∧ (k = keyCopy ∨ k = keyCut) ∧ clip.accepts = true ∧ v.focus = n.focus ∧ (input v n).content.selectionString = some s := by
  have hm := formAfter_matches hfit hs hes hv
  cases e with
  | mouse e => simp only [View.apply, Option.map_eq_some_iff, Prod.mk.injEq, reduceCtorEq, and_false, exists_false] at ha
  | resize w h => simp only [View.apply, Option.map_eq_some_iff, Prod.mk.injEq, reduceCtorEq, and_false, exists_false] at ha
  | other => simp [View.apply] at ha
  | key k clip =>
    simp only [View.apply, View.applyKey] at ha
    split at ha
    · simp only [Option.map_eq_some_iff, Prod.mk.injEq, reduceCtorEq, and_false, exists_false] at ha
    split at ha
    · simp only [Option.map_eq_some_iff, Prod.mk.injEq, reduceCtorEq, and_false, exists_false] at ha
    split at ha
    · next hf =>
      simp only [Option.map_eq_some_iff, Prod.mk.injEq] at ha
      obtain ⟨⟨f', b', g'⟩, h1, _, h2⟩ := ha
      cases h2
      obtain ⟨a1, a2, a3⟩ := inputKey_given h1 (ctrl_keys hm .login)
      exact ⟨k, clip, .login, rfl, a1, a2, hf, a3⟩
    · next hf =>
      simp only [Option.map_eq_some_iff, Prod.mk.injEq] at ha
      obtain ⟨⟨f', b', g'⟩, h1, _, h2⟩ := ha
      cases h2
      obtain ⟨a1, a2, a3⟩ := inputKey_given h1 (ctrl_keys hm .password)
      exact ⟨k, clip, .password, rfl, a1, a2, hf, a3⟩
    · next hf =>
      simp only [Option.map_eq_some_iff, Prod.mk.injEq] at ha
      obtain ⟨⟨f', b', g'⟩, h1, _, h2⟩ := ha
      cases h2
      obtain ⟨a1, a2, a3⟩ := inputKey_given h1 (ctrl_keys hm .comments)
      exact ⟨k, clip, .comments, rfl, a1, a2, hf, a3⟩
    · simp only [Option.map_eq_some_iff, Prod.mk.injEq, reduceCtorEq, and_false, exists_false] at ha

end

/-- A paragraph fits in all widths from 3. -/
theorem paragraph_fits {skin : Skin} (hm : skin.paragraph.leftMargin = 0 ∧ skin.paragraph.rightMargin = 0) (t : Text) (w : Nat) (hw : 3 ≤ w) :
    FittingText renderCw skin w [.normal .paragraph [⟨t, {}⟩]] := by
  have h0 : marginSum skin.paragraph w = 0 := by unfold marginSum; rw [hm.1, hm.2]; split <;> rfl
  refine ⟨?_, ?_, ?_⟩
  · intro kind cs h
    simp only [List.mem_cons, MLine.normal.injEq, List.not_mem_nil, or_false] at h
    obtain ⟨rfl, rfl⟩ := h
    refine ⟨by intro d h; simp at h, _, rfl, by simp, by rw [h0]; exact Nat.zero_le _, ?_⟩
    intro p _
    rw [h0]
    have : renderCw p.1 ≤ 2 := by unfold renderCw; split <;> omega
    show 0 + _ + 0 ≤ w
    omega
  · intro cells h
    simp at h
  · rintro tbl ⟨hne, hall, before, after, heq, _⟩
    obtain ⟨l, hl⟩ := List.exists_mem_of_ne_nil tbl hne
    have hin : l ∈ [MLine.normal .paragraph [⟨t, {}⟩]].map (FmtLine.ofMLine skin renderCw) := by
      rw [heq]; simp [hl]
    have := hall l hl
    simp only [List.map_cons, List.map_nil, List.mem_cons, List.not_mem_nil, or_false] at hin
    rw [hin] at this
    simp [IsTableLine, FmtLine.ofMLine] at this

/-- A form. -/
def exForm : Config where
  introduction := [.normal .paragraph [⟨"Please fill this form and don't forget your password".toList, {}⟩]]
  skin := {}
  labelSkin := {}
  loginLabel := [.normal .paragraph [⟨"Login".toList, {}⟩]]
  passwordLabel := [.normal .paragraph [⟨"Password".toList, {}⟩]]
  commentsLabel := [.normal .paragraph [⟨"Comments".toList, {}⟩]]
  tooSmall := [.normal .paragraph [⟨"too small".toList, {}⟩]]
  styles := styledBy []

/-- The texts of the inputs of a form, its focus and what is in the introduction. -/
def formTexts (v : View) : List (List Text) × Focus × Nat := ([v.login.content.lines, v.password.content.lines, v.comments.content.lines], v.focus, v.introduction.scroll)

/-- C80: keys, the mouse, changes of size and the clipboard in the form of the example. -/
example : (View.new renderCw exForm "a\nb".toList ⟨0, 0, 20, 15⟩).bind (fun v => (runForm renderCw (· == ' ') (fun _ => true) v [
    .key ⟨.char 'x', [], .none⟩ ⟨true, none⟩, .key keyTab ⟨true, none⟩, .key ⟨.char 'y', [], .none⟩ ⟨true, none⟩, .key keyEnter ⟨true, none⟩,
    .mouse ⟨.other 0, 12, 11, .none, false⟩, .key keyEnter ⟨true, none⟩, .resize 5 5, .key ⟨.char 'z', [], .none⟩ ⟨true, none⟩,
    .key keyPaste ⟨true, some "pasted".toList⟩, .key keyEsc ⟨true, none⟩, .key ⟨.char 'w', [], .none⟩ ⟨true, none⟩]).map formTexts) =
    some ([["x".toList], ["y".toList], ["a".toList, "b".toList, "zpasted".toList]], .introduction, 0) := by decide +kernel

/-- C80: the hypotheses of the theorems on forms are met by this one, with any text and events. -/
example (text : Text) (es : List View.Event) (hes : SmallSizes es) :
    ∃ v, FormAfter renderCw (· == ' ') (fun _ => true) exForm text 20 15 es v ∧ v.focus = (es.foldl Desk.next (.start 20 15)).focus :=
  have ⟨v, h1, h2, _⟩ := C80_inputs renderCw (· == ' ') (fun _ => true) exForm (fun w hw => paragraph_fits ⟨rfl, rfl⟩ _ w hw) text
    ⟨by decide, by decide⟩ es hes
  ⟨v, h1, h2⟩

example : SmallSizes [.key ⟨.char 'x', [], .none⟩ ⟨true, none⟩, .resize 5 5, .resize 300 100] := by
  intro w h hm
  simp at hm
  rcases hm with ⟨rfl, rfl⟩ | ⟨rfl, rfl⟩ <;> exact ⟨by decide, by decide⟩

/-- C80: what is cut is lost when the clipboard refuses it. -/
theorem C80_cut_lost_counterexample : (View.new renderCw exForm [] ⟨0, 0, 20, 15⟩).bind (fun v => (v.apply renderCw (· == ' ') (fun _ => true)
      (.key ⟨.char 'x', [], .none⟩ ⟨true, none⟩)).bind fun r => (r.1.apply renderCw (· == ' ') (fun _ => true) (.key ⟨.home, [], .shift⟩ ⟨true, none⟩)).bind fun r =>
      (r.1.apply renderCw (· == ' ') (fun _ => true) (.key keyCut ⟨false, none⟩)).map fun r => (r.1.login.content.lines, r.2)) =
    some ([[]], false, none) := by decide +kernel

/-- C80: what is typed as a password can be copied. -/
theorem C80_password_copied_counterexample : (View.new renderCw exForm [] ⟨0, 0, 20, 15⟩).bind (fun v => (runForm renderCw (· == ' ') (fun _ => true) v
      [.key keyTab ⟨true, none⟩, .key ⟨.char 's', [], .none⟩ ⟨true, none⟩, .key ⟨.home, [], .shift⟩ ⟨true, none⟩]).bind fun v =>
      (v.apply renderCw (· == ' ') (fun _ => true) (.key keyCopy ⟨true, none⟩)).map fun r => (r.1.focus, r.2.2)) =
    some (.password, some "s".toList) := by decide +kernel

end Verif.Props
