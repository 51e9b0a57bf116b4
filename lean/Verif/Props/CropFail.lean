import Verif.Model.CropFail
import Verif.Props.Fit
/-! C73: a crop writer on a writer which fails. -/
namespace Verif.Props
open Verif Spec

/-- What is given to the crop writer has no backspace. -/
def NoBackspace : CropWriter.Op → Prop
  | .str s => '\x08' ∉ s
  | .char c => c ≠ '\x08'
  | .unstyledChar c => c ≠ '\x08'
  | .gString s => '\x08' ∉ s
  | .fill c => c ≠ '\x08'
  | .repeat_ c _ => c ≠ '\x08'
  | .setTabReplacement t => '\x08' ∉ t

/-- What a call did, compared to what it does on a writer which doesn't fail: the same, but for the end of the text. -/
private def Cut (w : CropWriter) (kept : Nat) (full : Run CropWriter) (r : Run (CropWriter × Bool)) : Prop :=
  (full = none ∧ r = none) ∨ ∃ w1 w2 ok t q, full = some w1 ∧ r = some (w2, ok) ∧ w1.out = w.out ++ t ∧ w2 = { w1 with out := w.out ++ q } ∧
    q <+: t ∧ (ok = true → q = t) ∧ q = t.take kept ∧ (ok = true ↔ t.length ≤ kept)

private theorem cut_same (w : CropWriter) (kept : Nat) : Cut w kept (some w) (some (w, true)) :=
  .inr ⟨w, w, true, [], [], rfl, rfl, by simp, by simp, List.prefix_refl _, fun _ => rfl, by simp, by simp⟩

private theorem cut_print (w : CropWriter) (allowed : Nat) (t : Text) (kept : Nat) :
    Cut w kept (some (({ w with allowed } : CropWriter).print t)) (some (({ w with allowed } : CropWriter).printUntil t kept)) := by
  refine .inr ⟨_, _, _, t, t.take kept, rfl, rfl, rfl, rfl, List.take_prefix _ _, ?_, rfl, by simp⟩
  intro h
  simp only [decide_eq_true_eq] at h
  exact List.take_of_length_le h

private theorem chunks_until : ∀ (chunks : List Text) (w : CropWriter) (kept : Nat), ∃ q, q <+: chunks.flatten ∧
    (w.printChunksUntil chunks kept).1 = { w with out := w.out ++ q } ∧ ((w.printChunksUntil chunks kept).2 = true → q = chunks.flatten) ∧
    q = chunks.flatten.take kept ∧ ((w.printChunksUntil chunks kept).2 = true ↔ chunks.flatten.length ≤ kept) := by
  intro chunks
  induction chunks with
  | nil => intro w kept; exact ⟨[], by simp, by simp [CropWriter.printChunksUntil], fun _ => rfl, by simp, by simp [CropWriter.printChunksUntil]⟩
  | cons t chunks ih =>
    intro w kept
    simp only [CropWriter.printChunksUntil, List.flatten_cons]
    by_cases h : t.length ≤ kept
    · obtain ⟨q, h1, h2, h3, h4, h5⟩ := ih (w.print (t.take kept)) (kept - t.length)
      rw [if_pos (show (w.printUntil t kept).2 = true by simpa [CropWriter.printUntil] using h)]
      refine ⟨t ++ q, (List.prefix_append_right_inj _).2 h1, ?_, ?_, ?_, ?_⟩
      · refine Eq.trans h2 ?_
        rw [List.take_of_length_le h]
        simp [CropWriter.print]
      · intro h'; rw [h3 h']
      · rw [List.take_append, List.take_of_length_le h, h4]
      · rw [List.length_append]
        refine Iff.trans h5 ?_
        omega
    · rw [if_neg (show ¬ (w.printUntil t kept).2 = true by simpa [CropWriter.printUntil] using h)]
      exact ⟨t.take kept, (List.take_prefix _ _).trans (List.prefix_append _ _), rfl, fun h' => by simp [CropWriter.printUntil] at h'; omega,
        by rw [List.take_append_of_le_length (by omega)], by simp only [CropWriter.printUntil, List.length_append, decide_eq_true_eq]; omega⟩

private theorem cut_str (cw : Char → Nat) (w : CropWriter) (s : Text) (kept : Nat) : Cut w kept (w.queueStr cw s) (w.queueStrUntil cw s kept) := by
  unfold CropWriter.queueStr CropWriter.queueStrUntil
  by_cases hf : w.isFull = true
  · rw [if_pos hf, if_pos hf]; exact cut_same w kept
  · rw [if_neg hf, if_neg hf]
    cases h : StrFit.makeString cw s w.allowed with
    | none => exact .inl ⟨rfl, rfl⟩
    | some r =>
      cases h' : csub w.allowed r.2 with
      | none => exact .inl ⟨by simp [h'], by simp [h']⟩
      | some a => simp only [Option.bind_eq_bind, Option.bind_some, h']; exact cut_print w a r.1 kept

private theorem cut_char (cw : Char → Nat) (w : CropWriter) (c : Char) (kept : Nat) : Cut w kept (w.queueChar cw c) (w.queueCharUntil cw c kept) := by
  unfold CropWriter.queueChar CropWriter.queueCharUntil
  by_cases hf : cw c < w.allowed
  · rw [if_pos hf, if_pos hf]
    cases h' : csub w.allowed (cw c) with
    | none => exact .inl ⟨rfl, rfl⟩
    | some a => exact cut_print w a [c] kept
  · rw [if_neg hf, if_neg hf]; exact cut_same w kept

private theorem cut_repeat (w : CropWriter) (c : Char) (len kept : Nat) : Cut w kept (w.repeat_ c len) (w.repeatUntil c len kept) := by
  cases h : csub w.allowed (min len w.allowed) with
  | none => exact .inl ⟨by simp [CropWriter.repeat_, h], by simp [CropWriter.repeatUntil, h]⟩
  | some a =>
    cases h' : (Filling.fromChar c).queue (min len w.allowed) with
    | none => exact .inl ⟨by simp [CropWriter.repeat_, h, h'], by simp [CropWriter.repeatUntil, h, h']⟩
    | some chunks =>
      obtain ⟨q, h1, h2, h3, h4, h5⟩ := chunks_until chunks { w with allowed := a } kept
      refine .inr ⟨({ w with allowed := a } : CropWriter).print chunks.flatten, _, _, chunks.flatten, q, by simp [CropWriter.repeat_, h, h'],
        by simp only [CropWriter.repeatUntil, h, h', Option.bind_eq_bind, Option.bind_some], rfl, h2, h1, h3, h4, h5⟩

private theorem cut_step (cw : Char → Nat) (w : CropWriter) (op : CropWriter.Op) (kept : Nat) : Cut w kept (w.step cw op) (w.stepUntil cw op kept) := by
  cases op with
  | str s => exact cut_str cw w s kept
  | char c => exact cut_char cw w c kept
  | unstyledChar c =>
    by_cases h : c = tabChar
    · simp only [CropWriter.step, CropWriter.stepUntil, CropWriter.queueUnstyledChar, CropWriter.queueUnstyledCharUntil, h, if_true]
      exact cut_str cw w _ kept
    · simp only [CropWriter.step, CropWriter.stepUntil, CropWriter.queueUnstyledChar, CropWriter.queueUnstyledCharUntil, h, if_false]
      exact cut_char cw w c kept
  | gString s =>
    simp only [CropWriter.step, CropWriter.stepUntil, CropWriter.queueGString, CropWriter.queueGStringUntil]
    by_cases hf : w.isFull = true
    · rw [if_pos hf, if_pos hf]; exact cut_same w kept
    · rw [if_neg hf, if_neg hf]
      by_cases hl : s.length > w.allowed
      · rw [if_pos hl, if_pos hl]; exact cut_print w 0 _ kept
      · rw [if_neg hl, if_neg hl]
        cases h' : csub w.allowed s.length with
        | none => exact .inl ⟨rfl, rfl⟩
        | some a => exact cut_print w a s kept
  | fill c => exact cut_repeat w c w.allowed kept
  | repeat_ c len => exact cut_repeat w c len kept
  | setTabReplacement t =>
    exact .inr ⟨_, _, _, [], [], rfl, rfl, by simp, by simp, List.prefix_refl _, fun _ => rfl, by simp, by simp⟩

/-- Without backspaces the position only grows. -/
private theorem position_prefix (cw : Char → Nat) (tw : Nat) {q t : Text} (h : q <+: t) (hb : '\x08' ∉ t) : position cw tw q ≤ position cw tw t := by
  obtain ⟨r, rfl⟩ := h
  rw [position_append]
  have : ∀ r : Text, '\x08' ∉ r → 0 ≤ position cw tw r := by
    intro r
    induction r with
    | nil => intro _; simp [position]
    | cons c r ih =>
      intro hr
      simp only [List.mem_cons, not_or] at hr
      have := ih hr.2
      have hc : move cw tw c ≥ 0 := by
        unfold move
        split
        · omega
        · rw [if_neg (Ne.symm hr.1)]; omega
      simp only [position]; omega
  have := this r (by simp at hb; exact hb.2)
  omega

private theorem noTab_noBack {t : Text} (h : '\x08' ∉ t) : '\x08' ∉ noTab t := by
  simp only [noTab, List.mem_flatMap, not_exists, not_and]
  intro c hc
  split
  · decide
  · simp only [List.mem_singleton]
    rintro rfl
    exact h hc

private theorem str_noBack (cw : Char → Nat) (hsp : cw ' ' = 1) (w : CropWriter) (s : Text) (hs : '\x08' ∉ s) {w1 : CropWriter} {t : Text}
    (h : w.queueStr cw s = some w1) (ht : w1.out = w.out ++ t) : '\x08' ∉ t ∧ w1.tabRepl = w.tabRepl := by
  unfold CropWriter.queueStr at h
  split at h
  · cases h
    have : t = [] := by simpa using ht
    subst this; simp
  · obtain ⟨p, rest, cols, e, h1, _⟩ := C15_makeString cw hsp s w.allowed
    rw [h1] at h
    simp only [Option.bind_eq_bind, Option.bind_eq_some_iff, Option.bind_some] at h
    obtain ⟨a, _, h⟩ := h
    cases h
    have : t = noTab p := (List.append_cancel_left ht).symm
    subst this
    refine ⟨noTab_noBack ?_, rfl⟩
    intro hp
    exact hs (by rw [e]; simp [hp])

private theorem char_noBack (cw : Char → Nat) (w : CropWriter) (c : Char) (hc : c ≠ '\x08') {w1 : CropWriter} {t : Text}
    (h : w.queueChar cw c = some w1) (ht : w1.out = w.out ++ t) : '\x08' ∉ t ∧ w1.tabRepl = w.tabRepl := by
  unfold CropWriter.queueChar at h
  split at h
  · simp only [Option.bind_eq_bind, Option.bind_eq_some_iff] at h
    obtain ⟨a, _, h⟩ := h
    cases h
    have : t = [c] := (List.append_cancel_left ht).symm
    subst this
    exact ⟨by simp [Ne.symm hc], rfl⟩
  · cases h
    have : t = [] := by simpa using ht
    subst this; simp

private theorem repeat_noBack (w : CropWriter) (c : Char) (hc : c ≠ '\x08') (len : Nat) {w1 : CropWriter} {t : Text}
    (h : w.repeat_ c len = some w1) (ht : w1.out = w.out ++ t) : '\x08' ∉ t ∧ w1.tabRepl = w.tabRepl := by
  unfold CropWriter.repeat_ at h
  simp only [Option.bind_eq_bind, Option.bind_eq_some_iff] at h
  obtain ⟨a, _, chunks, h1, h⟩ := h
  obtain ⟨chunks', e1, e2⟩ := C17_filling c (min len w.allowed)
  rw [e1] at h1
  cases h1
  cases h
  have : t = chunks.flatten := (List.append_cancel_left ht).symm
  rw [this, e2]
  exact ⟨fun hm => hc (List.eq_of_mem_replicate hm).symm, rfl⟩

private theorem step_noBack (cw : Char → Nat) (hsp : cw ' ' = 1) (w : CropWriter) (hw : '\x08' ∉ w.tabRepl) (op : CropWriter.Op) (hb : NoBackspace op)
    {w1 : CropWriter} {t : Text} (h : w.step cw op = some w1) (ht : w1.out = w.out ++ t) : '\x08' ∉ t ∧ '\x08' ∉ w1.tabRepl := by
  have conv : '\x08' ∉ t ∧ w1.tabRepl = w.tabRepl → '\x08' ∉ t ∧ '\x08' ∉ w1.tabRepl := fun h => ⟨h.1, by rw [h.2]; exact hw⟩
  cases op with
  | str s => exact conv (str_noBack cw hsp w s hb h ht)
  | char c => exact conv (char_noBack cw w c hb h ht)
  | unstyledChar c =>
    simp only [CropWriter.step, CropWriter.queueUnstyledChar] at h
    split at h
    · exact conv (str_noBack cw hsp w _ hw h ht)
    · exact conv (char_noBack cw w c hb h ht)
  | gString s =>
    apply conv
    simp only [CropWriter.step, CropWriter.queueGString] at h
    split at h
    · cases h
      have : t = [] := by simpa using ht
      subst this; simp
    · split at h
      · cases h
        have : t = s.take w.allowed := (List.append_cancel_left ht).symm
        subst this
        exact ⟨fun hm => hb (List.mem_of_mem_take hm), rfl⟩
      · simp only [Option.bind_eq_bind, Option.bind_eq_some_iff] at h
        obtain ⟨a, _, h⟩ := h
        cases h
        have : t = s := (List.append_cancel_left ht).symm
        subst this
        exact ⟨hb, rfl⟩
  | fill c => exact conv (repeat_noBack w c hb _ h ht)
  | repeat_ c len => exact conv (repeat_noBack w c hb len h ht)
  | setTabReplacement s =>
    cases h
    have : t = [] := by simpa using ht
    subst this
    exact ⟨by simp, hb⟩

/-- C73: whatever the calls on a crop writer, on a writer which may fail during each of them, wherever in the text, and even if the caller
goes on after the errors: nothing panics and the limit isn't passed. -/
theorem C73_crop (cw : Char → Nat) (hsp : cw ' ' = 1) (tabWidth limit : Nat) (ops : List (CropWriter.Op × Nat))
    (hg : ∀ o ∈ ops, GoodOp cw o.1 ∧ NoBackspace o.1) :
    ∃ w results, (CropWriter.new limit).runUntil cw ops = some (w, results) ∧ results.length = ops.length ∧
      Within cw tabWidth w.out limit ∧ position cw tabWidth w.out + w.allowed ≤ limit := by
  have key : ∀ (ops : List (CropWriter.Op × Nat)) (w : CropWriter), (∀ o ∈ ops, GoodOp cw o.1 ∧ NoBackspace o.1) → CropInv cw tabWidth limit w →
      '\x08' ∉ w.tabRepl → ∃ w' results, w.runUntil cw ops = some (w', results) ∧ results.length = ops.length ∧ CropInv cw tabWidth limit w' := by
    intro ops
    induction ops with
    | nil => intro w _ hi _; exact ⟨w, [], rfl, rfl, hi⟩
    | cons o ops ih =>
      intro w hg hi hb
      obtain ⟨op, kept⟩ := o
      obtain ⟨g1, g2⟩ := hg (op, kept) (by simp)
      obtain ⟨w1, e1, hi1⟩ := cropInv_step cw hsp tabWidth limit w hi op g1
      rcases cut_step cw w op kept with ⟨h, _⟩ | ⟨w1', w2, ok, t, q, f1, f2, f3, f4, f5, _⟩
      · rw [e1] at h; cases h
      · rw [e1] at f1
        cases f1
        obtain ⟨b1, b2⟩ := step_noBack cw hsp w hb op g2 e1 f3
        have hi2 : CropInv cw tabWidth limit w2 := by
          have hpre : w.out ++ q <+: w1.out := by rw [f3]; exact (List.prefix_append_right_inj _).2 f5
          rw [f4]
          refine ⟨fun p hp => hi1.1 p (hp.trans hpre), ?_⟩
          have h2 := hi1.2
          have := position_prefix cw tabWidth f5 b1
          rw [f3, position_append] at h2
          simp only [position_append]
          omega
        obtain ⟨w', results, r1, r2, r3⟩ := ih w2 (fun o ho => hg o (by simp [ho])) hi2 (by rw [f4]; exact b2)
        exact ⟨w', ok :: results, by simp [CropWriter.runUntil, f2, r1], by simp [r2], r3⟩
  obtain ⟨w, results, h1, h2, h3, h4⟩ := key ops (CropWriter.new limit) hg
    ⟨by intro p hp; simp [CropWriter.new] at hp; subst hp; simp [position], by simp [CropWriter.new, position]⟩ (by simp only [CropWriter.new]; decide)
  exact ⟨w, results, h1, h2, h3, h4⟩

/-- C73: a call whose result is `Ok` wrote everything. -/
theorem C73_crop_ok (cw : Char → Nat) (w : CropWriter) (op : CropWriter.Op) (kept : Nat) (w' : CropWriter) (h : w.stepUntil cw op kept = some (w', true)) :
    w.step cw op = some w' := by
  rcases cut_step cw w op kept with ⟨_, h'⟩ | ⟨w1, w2, ok, t, q, f1, f2, f3, f4, _, f6, _⟩
  · rw [h] at h'; cases h'
  · rw [h] at f2
    cases f2
    rw [f1, f4, f6 rfl, ← f3]

/-- C73: an error is returned exactly when the writer can't take the whole text of the call, of which the first characters are written; the call
otherwise changes the crop writer (its remaining width) as if it had succeeded. -/
theorem C73_crop_error (cw : Char → Nat) (w w1 : CropWriter) (op : CropWriter.Op) (kept : Nat) (h : w.step cw op = some w1) :
    ∃ t ok, w1.out = w.out ++ t ∧ w.stepUntil cw op kept = some ({ w1 with out := w.out ++ t.take kept }, ok) ∧ (ok = true ↔ t.length ≤ kept) := by
  rcases cut_step cw w op kept with ⟨h', _⟩ | ⟨w1', w2, ok, t, q, f1, f2, f3, f4, _, _, f7, f8⟩
  · rw [h] at h'; cases h'
  · rw [h] at f1
    cases f1
    subst f7
    exact ⟨t, ok, f3, by rw [f2, f4], f8⟩

/-- A filling of which a part is written. -/
example : ((CropWriter.new 9).stepUntil (fun _ => 1) (.fill '-') 2).map (fun r => (r.1.out, r.1.allowed, r.2)) = some ("--".toList, 0, false) ∧
    ((CropWriter.new 9).stepUntil (fun _ => 1) (.fill '-') 9).map (fun r => (r.1.out.length, r.2)) = some (9, true) ∧
    ((CropWriter.new 9).step (fun _ => 1) (.fill '-')).isSome = true := by decide +kernel

/-- Calls which don't break the hypotheses: a text of which only 4 characters of the 5 are written, another one, a filling. -/
example : ((CropWriter.new 9).runUntil (fun _ => 1) [(.str "abcde".toList, 4), (.char 'x', 9), (.fill '-', 2)]).map (fun r => (r.1.out, r.2)) =
      some ("abcdx--".toList, [false, true, false]) ∧
    ∀ o ∈ [((.str "abcde".toList, 4) : CropWriter.Op × Nat), (.char 'x', 9), (.fill '-', 2)], GoodOp (fun _ => 1) o.1 ∧ NoBackspace o.1 := by
  refine ⟨by decide +kernel, ?_⟩
  intro o ho
  simp only [List.mem_cons, List.not_mem_nil, or_false] at ho
  rcases ho with rfl | rfl | rfl
  · exact ⟨trivial, by simp only [NoBackspace]; decide⟩
  · exact ⟨by simp only [GoodOp]; decide, by simp only [NoBackspace]; decide⟩
  · exact ⟨by simp only [GoodOp]; decide, by simp only [NoBackspace]; decide⟩

/-- C73: with backspaces, a failure makes the crop writer pass its limit: those which weren't written are counted. -/
theorem C73_backspace_counterexample :
    ((CropWriter.new 3).runUntil (fun _ => 1) [(.str ['a', 'b', 'c', '\x08', '\x08'], 3), (.str ['d', 'e'], 2)]).map
      (fun r => (r.1.out, r.2, position (fun _ => 1) 8 r.1.out)) = some (['a', 'b', 'c', 'd', 'e'], [false, true], 5) := by
  decide +kernel

end Verif.Props
