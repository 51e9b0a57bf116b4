import Verif.Spec.CropTty
import Verif.Props.Fit
import Verif.Props.Cells
import Verif.Props.Tty
/-! C91: what is written on a terminal through a crop writer. -/
namespace Verif.Props
open Verif Spec

private def emit : Option CompoundStyle → Text → TtyCmd
  | none, t => .print t
  | some cs, t => .styled cs t

private theorem chunks_of (c : Char) (len : Nat) :
    ∃ chunks, (Filling.fromChar c).queue len = some chunks ∧ chunks.flatten = List.replicate len c ∧
      (len ≤ 1000 → chunks.length ≤ 1) ∧ (0 < len → chunks ≠ []) ∧ (len = 0 → chunks = []) := by
  obtain ⟨chunks, e, hf⟩ := filling_queue c len
  refine ⟨chunks, e, hf, ?_, ?_, ?_⟩
  · intro hle
    rw [Filling.queue] at e
    by_cases h : 0 < len
    · rw [dif_pos h] at e
      simp only [fillingStringCharLen] at e
      cases hs : sliceBytes (Filling.fromChar c).fillingString 0 (min len 1000 * (Filling.fromChar c).charSize) with
      | none => simp [hs] at e
      | some chunk =>
        have h0 : (Filling.fromChar c).queue (len - min len 1000) = some [] := by
          rw [show len - min len 1000 = 0 by omega, Filling.queue]; rfl
        simp [hs, h0] at e
        subst e; simp
    · rw [dif_neg h] at e
      cases e; simp
  · rintro h rfl
    have := congrArg List.length hf
    simp at this; omega
  · rintro rfl
    rw [Filling.queue] at e
    cases e; rfl

/-- What a call which is asked to write something queues. -/
private def Emits (cw : Char → Nat) (w : CropTty) (tab : Text) (style : Option CompoundStyle) (o : CropWriter.Op) (r : Run CropTty) : Prop :=
  ∃ texts n, r = some { allowed := w.allowed - n, tabRepl := tab, cmds := w.cmds ++ texts.map (emit style) } ∧ n ≤ w.allowed ∧
    CropWritten cw w.allowed w.tabRepl o texts.flatten n ∧ (w.allowed ≤ 1000 → texts.length ≤ 1) ∧
    (cropPrints cw w.allowed o → texts ≠ []) ∧ (¬ cropPrints cw w.allowed o → texts = [] ∧ n = 0)

private theorem csub_le {a b : Nat} (h : b ≤ a) : csub a b = some (a - b) := by unfold csub; rw [if_pos h]

private theorem emits_str (cw : Char → Nat) (hsp : cw ' ' = 1) (w : CropTty) (style : Option CompoundStyle) (s : Text) :
    Emits cw w w.tabRepl style (.str s) (if w.allowed = 0 then some w
      else do
        let (string, len) ← StrFit.makeString cw s w.allowed
        let allowed ← csub w.allowed len
        some ({ w with allowed }.queue [emit style string])) := by
  by_cases h0 : w.allowed = 0
  · refine ⟨[], 0, ?_, by omega, .inl ⟨h0, rfl, rfl⟩, by simp, by simp [cropPrints]; omega, fun _ => ⟨rfl, rfl⟩⟩
    rw [if_pos h0]; simp
  · obtain ⟨p, rest, cols, e, hm, _, hw, hp, hr⟩ := C15_makeString cw hsp s w.allowed
    have hle : cols ≤ w.allowed := by
      have h1 := hw 2 (noTab p) (List.prefix_refl _)
      have h2 := hp 2
      omega
    refine ⟨[noTab p], cols, ?_, hle, .inr ⟨by omega, p, rest, e, by simp, by simpa using hw, by simpa using hp, hr⟩, by simp, by simp,
      fun h => absurd (show 0 < w.allowed by omega) h⟩
    rw [if_neg h0]
    simp [hm, csub_le hle, CropTty.queue]

private theorem emits_char (cw : Char → Nat) (w : CropTty) (style : Option CompoundStyle) (c : Char) :
    Emits cw w w.tabRepl style (.char c) (if cw c < w.allowed then do
        let allowed ← csub w.allowed (cw c)
        some ({ w with allowed }.queue [emit style [c]])
      else some w) := by
  by_cases h : cw c < w.allowed
  · refine ⟨[[c]], cw c, ?_, by omega, .inl ⟨h, rfl, rfl⟩, by simp, by simp, fun h' => absurd h h'⟩
    rw [if_pos h]
    simp [csub_le (Nat.le_of_lt h), CropTty.queue]
  · refine ⟨[], 0, ?_, by omega, .inr ⟨by omega, rfl, rfl⟩, by simp, fun h' => absurd h' h, fun _ => ⟨rfl, rfl⟩⟩
    rw [if_neg h]; simp

private theorem emits_g (cw : Char → Nat) (w : CropTty) (style : Option CompoundStyle) (s : Text) :
    Emits cw w w.tabRepl style (.gString s) (if w.allowed = 0 then some w
      else if s.length > w.allowed then some (({ w with allowed := 0 } : CropTty).queue [emit style (s.take w.allowed)])
      else do
        let allowed ← csub w.allowed s.length
        some ({ w with allowed }.queue [emit style s])) := by
  by_cases h0 : w.allowed = 0
  · refine ⟨[], 0, ?_, by omega, by simp [CropWritten, h0], by simp, by simp [cropPrints]; omega, fun _ => ⟨rfl, rfl⟩⟩
    rw [if_pos h0]; simp
  · have hp : ¬ cropPrints cw w.allowed (.gString s) → False := fun h => h (show 0 < w.allowed by omega)
    rw [if_neg h0]
    by_cases h : s.length > w.allowed
    · refine ⟨[s.take w.allowed], w.allowed, ?_, Nat.le_refl _, ⟨by simp, by simp; omega⟩, by simp, by simp, fun h => (hp h).elim⟩
      rw [if_pos h]; simp [CropTty.queue]
    · have hle : s.length ≤ w.allowed := by omega
      refine ⟨[s], s.length, ?_, hle, ⟨by simp [List.take_of_length_le hle], by simp⟩, by simp, by simp, fun h => (hp h).elim⟩
      rw [if_neg h]; simp [CropTty.queue, csub_le hle]

private theorem emits_repeat (cw : Char → Nat) (w : CropTty) (style : Option CompoundStyle) (c : Char) (len : Nat) :
    Emits cw w w.tabRepl style (.repeat_ c len) (do
      let allowed ← csub w.allowed (min len w.allowed)
      let chunks ← (Filling.fromChar c).queue (min len w.allowed)
      some ({ w with allowed }.queue (chunks.map (emit style)))) := by
  obtain ⟨chunks, e, hf, h1, h2, h3⟩ := chunks_of c (min len w.allowed)
  refine ⟨chunks, min len w.allowed, ?_, Nat.min_le_right .., ⟨hf, by rw [hf]; simp⟩, fun h => h1 (by omega), ?_, ?_⟩
  · simp [e, csub_le (Nat.min_le_right len w.allowed), CropTty.queue]
  · rintro ⟨a, b⟩; exact h2 (by omega)
  · intro h
    have : min len w.allowed = 0 := by
      simp only [cropPrints] at h; omega
    exact ⟨h3 this, this⟩

private theorem emits_fill (cw : Char → Nat) (w : CropTty) (style : Option CompoundStyle) (c : Char) :
    Emits cw w w.tabRepl style (.fill c) (do
      let allowed ← csub w.allowed (min w.allowed w.allowed)
      let chunks ← (Filling.fromChar c).queue (min w.allowed w.allowed)
      some ({ w with allowed }.queue (chunks.map (emit style)))) := by
  obtain ⟨texts, n, e, hn, ⟨ht, hc⟩, h1, h2, h3⟩ := emits_repeat cw w style c w.allowed
  refine ⟨texts, n, e, hn, ⟨by simpa using ht, by rw [hc, ht]; simp⟩, h1, fun h => h2 ⟨h, h⟩, fun h => h3 fun h' => h h'.1⟩

private theorem step_emits (cw : Char → Nat) (hsp : cw ' ' = 1) (w : CropTty) (op : CropTty.Op) (style : Option CompoundStyle)
    (o : CropWriter.Op) (ha : cropAsked op = some (style, o)) : Emits cw w (cropTab w.tabRepl op) style o (w.step cw op) := by
  cases op with
  | unstyledStr s => cases ha; exact emits_str cw hsp w none s
  | str cs s => cases ha; exact emits_str cw hsp w (some cs) s
  | char cs c => cases ha; exact emits_char cw w (some cs) c
  | unstyledChar c =>
    cases ha
    by_cases hc : c = '\t'
    · obtain ⟨texts, n, e, hn, h, h1, h2, h3⟩ := emits_str cw hsp w none w.tabRepl
      have hp : cropPrints cw w.allowed (.unstyledChar c) ↔ cropPrints cw w.allowed (.str w.tabRepl) := by simp [cropPrints, hc]
      refine ⟨texts, n, ?_, hn, .inl ⟨hc, h⟩, h1, fun h => h2 (hp.1 h), fun h => h3 (fun h' => h (hp.2 h'))⟩
      subst hc
      exact e
    · obtain ⟨texts, n, e, hn, h, h1, h2, h3⟩ := emits_char cw w none c
      have hp : cropPrints cw w.allowed (.unstyledChar c) ↔ cropPrints cw w.allowed (.char c) := by simp [cropPrints, hc]
      refine ⟨texts, n, ?_, hn, .inr ⟨hc, h⟩, h1, fun h => h2 (hp.1 h), fun h => h3 (fun h' => h (hp.2 h'))⟩
      refine Eq.trans ?_ e
      show (if c = '\t' then _ else _) = _
      rw [if_neg hc]
      rfl
  | unstyledGString s => cases ha; exact emits_g cw w none s
  | gString cs s => cases ha; exact emits_g cw w (some cs) s
  | fg cs => cases ha
  | bg cs => cases ha
  | fill cs c => cases ha; exact emits_fill cw w (some cs) c
  | fillUnstyled c => cases ha; exact emits_fill cw w none c
  | fillWithSpace cs => cases ha; exact emits_fill cw w (some cs) ' '
  | repeat_ cs c len => cases ha; exact emits_repeat cw w (some cs) c len
  | repeatUnstyled c len => cases ha; exact emits_repeat cw w none c len
  | setTabReplacement t =>
    cases ha
    exact ⟨[], 0, by simp [CropTty.step, cropTab], by omega, ⟨rfl, rfl⟩, by simp, by simp [cropPrints], fun _ => ⟨rfl, rfl⟩⟩

private theorem printText_app (cw : Char → Nat) (y : Nat) (s : CompoundStyle) : ∀ (a b : Text) (x : Nat) (g : Cells CompoundStyle),
    printText cw y s x (a ++ b) g = printText cw y s (x + textWidth cw a) b (printText cw y s x a g) := by
  intro a
  induction a with
  | nil => intro b x g; simp [printText, textWidth]
  | cons c a ih => intro b x g; simp only [List.cons_append, printText, ih, textWidth]; congr 1; omega

private theorem play_none (cw : Char → Nat) : ∀ (texts : List Text) (t : Tty), t.play cw (texts.map (emit none)) =
    ⟨printText cw t.y t.pen t.x texts.flatten t.cells, t.x + textWidth cw texts.flatten, t.y, t.pen⟩ := by
  intro texts
  induction texts with
  | nil => intro t; simp [Tty.play, printText]
  | cons a texts ih =>
    intro t
    have : t.play cw ((a :: texts).map (emit none)) = (t.exec cw (.print a)).play cw (texts.map (emit none)) := rfl
    rw [this, ih]
    simp [Tty.exec, printText_app, Nat.add_assoc]

private theorem play_some (cw : Char → Nat) (cs : CompoundStyle) (t : Tty) (texts : List Text) (hne : texts ≠ [])
    (h : texts.length ≤ 1 ∨ (t.pen = {} ∧ Tidy cs)) : t.play cw (texts.map (emit (some cs))) =
    ⟨printText cw t.y (over cs t.pen) t.x texts.flatten t.cells, t.x + textWidth cw texts.flatten, t.y, penAfter cs t.pen⟩ := by
  rcases h with h | ⟨hp, ht⟩
  · match texts, hne, h with
    | [a], _, _ => simp [Tty.play, emit, Tty.exec]
  · rw [hp, penAfter_default ht]
    clear hne
    induction texts generalizing t with
    | nil => obtain ⟨g, x, y, pen⟩ := t; simp at hp; subst hp; simp [Tty.play, printText]
    | cons a texts ih =>
      have : t.play cw ((a :: texts).map (emit (some cs))) = (t.exec cw (.styled cs a)).play cw (texts.map (emit (some cs))) := rfl
      rw [this, ih _ (by simp [Tty.exec, hp, penAfter_default ht])]
      simp [Tty.exec, printText_app, Nat.add_assoc, hp]

/-- C91: whatever the calls on a crop writer (with a limit of at most 1000 columns, or when no color is set apart), none panics, and on
any terminal the writing calls print one piece each, one after the other from where the cursor was: the text which fits in the columns
still allowed, with the look of the style given to the call, or the colors set before when there's no style. -/
theorem C91_shown (cw : Char → Nat) (hsp : cw ' ' = 1) (limit : Nat) (ops : List CropTty.Op) (t : Tty)
    (h : limit ≤ 1000 ∨ (t.pen = {} ∧ ∀ op ∈ ops, PlainCall op)) :
    ∃ w pieces pen, (CropTty.new limit).run cw ops = some w ∧ CropShown cw limit "  ".toList t.pen ops pieces w.allowed pen ∧
      t.play cw w.cmds = ⟨printPieces cw t.y t.x pieces t.cells, t.x + textWidth cw (pieces.flatMap (·.2)), t.y, pen⟩ := by
  suffices H : ∀ (ops : List CropTty.Op) (w : CropTty) (t : Tty), (w.allowed ≤ 1000 ∨ (t.pen = {} ∧ ∀ op ∈ ops, PlainCall op)) →
      ∃ w' cmds pieces pen, w.run cw ops = some w' ∧ w'.cmds = w.cmds ++ cmds ∧
        CropShown cw w.allowed w.tabRepl t.pen ops pieces w'.allowed pen ∧
        t.play cw cmds = ⟨printPieces cw t.y t.x pieces t.cells, t.x + textWidth cw (pieces.flatMap (·.2)), t.y, pen⟩ by
    obtain ⟨w, cmds, pieces, pen, h1, h2, h3, h4⟩ := H ops (CropTty.new limit) t h
    refine ⟨w, pieces, pen, h1, h3, ?_⟩
    rw [h2]; exact h4
  intro ops
  induction ops with
  | nil => intro w t _; exact ⟨w, [], [], t.pen, rfl, by simp, .nil .., by simp [Tty.play, printPieces]⟩
  | cons op ops ih =>
    intro w t h
    have tail : ∀ {a : Nat} {pen : CompoundStyle}, a ≤ w.allowed → (t.pen = {} → PlainCall op → pen = {}) →
        (a ≤ 1000 ∨ (pen = {} ∧ ∀ op ∈ ops, PlainCall op)) := by
      intro a pen ha hp
      rcases h with h | ⟨h1, h2⟩
      · left; omega
      · exact .inr ⟨hp h1 (h2 op (by simp)), fun o ho => h2 o (List.mem_cons_of_mem _ ho)⟩
    cases hask : cropAsked op with
    | none =>
      have main : ∀ (cmds : List TtyCmd) (pen : CompoundStyle), w.step cw op = some { w with cmds := w.cmds ++ cmds } →
          t.play cw cmds = { t with pen } → (t.pen = {} → PlainCall op → pen = {}) →
          (∀ {pieces a pen'}, CropShown cw w.allowed w.tabRepl pen ops pieces a pen' →
            CropShown cw w.allowed w.tabRepl t.pen (op :: ops) pieces a pen') →
          ∃ w' cmds pieces pen, w.run cw (op :: ops) = some w' ∧ w'.cmds = w.cmds ++ cmds ∧
            CropShown cw w.allowed w.tabRepl t.pen (op :: ops) pieces w'.allowed pen ∧
            t.play cw cmds = ⟨printPieces cw t.y t.x pieces t.cells, t.x + textWidth cw (pieces.flatMap (·.2)), t.y, pen⟩ := by
        intro cmds pen hs hpl hpen hc
        obtain ⟨w', cmds', pieces, pen', h1, h2, h3, h4⟩ := ih { w with cmds := w.cmds ++ cmds } { t with pen } (tail (Nat.le_refl _) hpen)
        refine ⟨w', cmds ++ cmds', pieces, pen', ?_, by rw [h2]; simp, hc h3, ?_⟩
        · simp only [CropTty.run, hs, Option.bind_some]; exact h1
        · rw [play_append, hpl]; exact h4
      cases op with
      | fg cs =>
        refine main cs.queueFg _ rfl ?_ (fun _ h => h.elim) .fg
        cases hf : cs.fg <;> simp [CompoundStyle.queueFg, hf, Tty.play, Tty.exec]
      | bg cs =>
        refine main cs.queueBg _ rfl ?_ (fun _ h => h.elim) .bg
        cases hf : cs.bg <;> simp [CompoundStyle.queueBg, hf, Tty.play, Tty.exec]
      | _ => cases hask
    | some p =>
      obtain ⟨style, o⟩ := p
      obtain ⟨texts, n, hs, hn, hw, hl, hp1, hp2⟩ := step_emits cw hsp w op style o hask
      cases style with
      | none =>
        obtain ⟨w', cmds', pieces, pen', h1, h2, h3, h4⟩ := ih
          { allowed := w.allowed - n, tabRepl := cropTab w.tabRepl op, cmds := w.cmds ++ texts.map (emit none) }
          ⟨printText cw t.y t.pen t.x texts.flatten t.cells, t.x + textWidth cw texts.flatten, t.y, t.pen⟩ (tail (Nat.sub_le ..) fun h _ => h)
        refine ⟨w', texts.map (emit none) ++ cmds', (t.pen, texts.flatten) :: pieces, pen', ?_, by rw [h2]; simp, ?_, ?_⟩
        · simp only [CropTty.run, hs, Option.bind_some]; exact h1
        · exact .unstyled hask hw hn h3
        · rw [play_append, play_none, h4]
          simp [printPieces, Nat.add_assoc]
      | some cs =>
        have htab : cropTab w.tabRepl op = w.tabRepl := by cases op <;> first | rfl | cases hask
        have htidy : PlainCall op → Tidy cs := by
          intro h
          cases op <;> first | exact h.elim | (cases hask; exact h) | cases hask
        by_cases hp : cropPrints cw w.allowed o
        · obtain ⟨w', cmds', pieces, pen', h1, h2, h3, h4⟩ := ih
            { allowed := w.allowed - n, tabRepl := cropTab w.tabRepl op, cmds := w.cmds ++ texts.map (emit (some cs)) }
            ⟨printText cw t.y (over cs t.pen) t.x texts.flatten t.cells, t.x + textWidth cw texts.flatten, t.y, penAfter cs t.pen⟩
            (tail (Nat.sub_le ..) fun h h' => by rw [h]; exact penAfter_default (htidy h'))
          refine ⟨w', texts.map (emit (some cs)) ++ cmds', (over cs t.pen, texts.flatten) :: pieces, pen', ?_, by rw [h2]; simp, ?_, ?_⟩
          · simp only [CropTty.run, hs, Option.bind_some]; exact h1
          · rw [htab] at h3
            exact .styled hask hw hn hp h3
          · rw [play_append, play_some cw cs t texts (hp1 hp) ?_, h4]
            · simp [printPieces, Nat.add_assoc]
            · rcases h with h | ⟨h1, h2⟩
              · exact .inl (hl h)
              · exact .inr ⟨h1, htidy (h2 op (by simp))⟩
        · obtain ⟨rfl, rfl⟩ := hp2 hp
          obtain ⟨w', cmds', pieces, pen', h1, h2, h3, h4⟩ := ih
            { allowed := w.allowed - 0, tabRepl := cropTab w.tabRepl op, cmds := w.cmds ++ [].map (emit (some cs)) } t
            (tail (Nat.sub_le ..) fun h _ => h)
          refine ⟨w', cmds', pieces, pen', ?_, by rw [h2]; simp, ?_, h4⟩
          · simp only [CropTty.run, hs, Option.bind_some]; exact h1
          · rw [htab] at h3
            exact .nothing hask hp h3

/-- Commands which print or set colors. -/
private def Inline : TtyCmd → Prop
  | .moveTo .. | .clearLine => False
  | _ => True

private def cmdText : TtyCmd → Text
  | .print t | .styled _ t => t
  | _ => []

private def onRow (x y k : Nat) (row : Nat → CompoundStyle × Char × Nat) (g : Cells CompoundStyle) : Cells CompoundStyle :=
  fun x' y' => if y' = y ∧ x ≤ x' ∧ x' < x + k then row x' else g x' y'

private theorem printText_row (cw : Char → Nat) (y : Nat) (s : CompoundStyle) (x : Nat) (t : Text) (g : Cells CompoundStyle) :
    printText cw y s x t g =
      onRow x y (textWidth cw t) (fun x' => (columnOf cw (t.map fun c => (s, c)) (x' - x)).getD ({}, ' ', 0)) g := by
  funext x' y'
  have hs : ((t.map fun c => (s, c)).map fun p => cw p.2).sum = textWidth cw t := by
    induction t with
    | nil => rfl
    | cons c t ih => simp only [List.map_cons, List.sum_cons, ih, textWidth]
  have h := columnOf_some cw (t.map fun c => (s, c)) (x' - x)
  rw [hs] at h
  rw [printText_eq]
  unfold onRow
  by_cases hy : y' = y ∧ x ≤ x'
  · rw [if_pos hy]
    by_cases hx : x' < x + textWidth cw t
    · obtain ⟨c, hc⟩ := h.2 (by omega)
      rw [if_pos ⟨hy.1, hy.2, hx⟩]; simp only [hc]; rfl
    · rw [if_neg (fun h => hx h.2.2)]
      cases hc : columnOf cw (t.map fun c => (s, c)) (x' - x) with
      | none => rfl
      | some c => have := h.1 ⟨c, hc⟩; omega
  · rw [if_neg hy, if_neg (fun h => hy ⟨h.1, h.2.1⟩)]

private theorem onRow_onRow (x y k l : Nat) (r s : Nat → CompoundStyle × Char × Nat) (g : Cells CompoundStyle) :
    onRow (x + k) y l s (onRow x y k r g) = onRow x y (k + l) (fun x' => if x' < x + k then r x' else s x') g := by
  funext x' y'
  unfold onRow
  by_cases h1 : y' = y ∧ x ≤ x' ∧ x' < x + (k + l)
  · rw [if_pos h1]
    by_cases h2 : x' < x + k
    · rw [if_neg (by omega), if_pos ⟨h1.1, h1.2.1, h2⟩]; simp only [if_pos h2]
    · rw [if_pos (by omega)]; simp only [if_neg h2]
  · rw [if_neg h1, if_neg (by omega), if_neg (by omega)]

private theorem play_inline (cw : Char → Nat) : ∀ (cmds : List TtyCmd), (∀ c ∈ cmds, Inline c) → ∀ x y pen, ∃ row pen', ∀ g,
    (⟨g, x, y, pen⟩ : Tty).play cw cmds =
      ⟨onRow x y (textWidth cw (cmds.flatMap cmdText)) row g, x + textWidth cw (cmds.flatMap cmdText), y, pen'⟩ := by
  intro cmds
  induction cmds with
  | nil =>
    intro _ x y pen
    refine ⟨fun _ => ({}, ' ', 0), pen, fun g => ?_⟩
    simp only [Tty.play, List.foldl_nil, List.flatMap_nil, textWidth, Nat.add_zero, Tty.mk.injEq, and_true]
    funext x' y'
    unfold onRow
    rw [if_neg (by omega)]
  | cons c cmds ih =>
    intro hc x y pen
    have hi := hc c (by simp)
    have ih := ih (fun c h => hc c (List.mem_cons_of_mem _ h))
    have key : ∀ (s : CompoundStyle) (t : Text) (pen1 : CompoundStyle), cmdText c = t →
        (∀ g, (⟨g, x, y, pen⟩ : Tty).exec cw c = ⟨printText cw y s x t g, x + textWidth cw t, y, pen1⟩) → ∃ row pen', ∀ g,
          (⟨g, x, y, pen⟩ : Tty).play cw (c :: cmds) =
            ⟨onRow x y (textWidth cw ((c :: cmds).flatMap cmdText)) row g, x + textWidth cw ((c :: cmds).flatMap cmdText), y, pen'⟩ := by
      intro s t pen1 ht he
      obtain ⟨row, pen', h⟩ := ih (x + textWidth cw t) y pen1
      refine ⟨fun x' => if x' < x + textWidth cw t then (columnOf cw (t.map fun c => (s, c)) (x' - x)).getD ({}, ' ', 0) else row x', pen',
        fun g => ?_⟩
      have : (⟨g, x, y, pen⟩ : Tty).play cw (c :: cmds) = ((⟨g, x, y, pen⟩ : Tty).exec cw c).play cw cmds := rfl
      rw [this, he, h, printText_row, onRow_onRow]
      simp only [List.flatMap_cons, ht, textWidth_append, Nat.add_assoc]
    have key0 : cmdText c = [] → ∀ (pen1 : CompoundStyle), (∀ g, (⟨g, x, y, pen⟩ : Tty).exec cw c = ⟨g, x, y, pen1⟩) → ∃ row pen', ∀ g,
          (⟨g, x, y, pen⟩ : Tty).play cw (c :: cmds) =
            ⟨onRow x y (textWidth cw ((c :: cmds).flatMap cmdText)) row g, x + textWidth cw ((c :: cmds).flatMap cmdText), y, pen'⟩ :=
      fun ht pen1 he => key {} [] pen1 ht fun g => (he g).trans (by simp [printText, textWidth])
    cases c with
    | moveTo a b => exact hi.elim
    | clearLine => exact hi.elim
    | print t => exact key _ t _ rfl fun g => rfl
    | styled s t => exact key (over s pen) t (penAfter s pen) rfl fun g => rfl
    | setFg a => exact key0 rfl { pen with fg := penColor a } fun g => rfl
    | setBg a => exact key0 rfl { pen with bg := penColor a } fun g => rfl

private theorem emit_inline (style : Option CompoundStyle) (texts : List Text) :
    (∀ c ∈ texts.map (emit style), Inline c) ∧ (texts.map (emit style)).flatMap cmdText = texts.flatten := by
  refine ⟨?_, ?_⟩
  · intro c hc
    obtain ⟨t, _, rfl⟩ := List.mem_map.1 hc
    cases style <;> trivial
  · induction texts with
    | nil => rfl
    | cons t texts ih =>
      simp only [List.map_cons, List.flatMap_cons, List.flatten_cons, ih]
      cases style <;> rfl

private theorem position_plain (cw : Char → Nat) (tw : Nat) : ∀ (t : Text), '\t' ∉ t → '\x08' ∉ t → position cw tw t = textWidth cw t := by
  intro t
  induction t with
  | nil => intro _ _; rfl
  | cons c t ih =>
    intro h1 h2
    simp only [List.mem_cons, not_or] at h1 h2
    simp only [position, textWidth, ih h1.2 h2.2, move, if_neg (Ne.symm h1.1), if_neg (Ne.symm h2.1)]
    omega

private theorem noTab_plain {t : Text} (h : '\x08' ∉ t) : '\x08' ∉ noTab t := by
  simp only [noTab, List.mem_flatMap, not_exists, not_and]
  intro c hc
  split
  · decide
  · simp only [List.mem_singleton]
    rintro rfl
    exact h hc

private theorem fit_width {cw : Char → Nat} {s t : Text} {a n : Nat} (hs : '\x08' ∉ s)
    (h : (a = 0 ∧ t = [] ∧ n = 0) ∨ (0 < a ∧ LongestFit cw s a t n)) : n = textWidth cw t := by
  rcases h with ⟨_, rfl, rfl⟩ | ⟨_, p, rest, rfl, rfl, _, hn, _⟩
  · rfl
  · have hp : '\x08' ∉ p := fun h => hs (by simp [h])
    have := hn 2
    rw [position_plain cw 2 _ (tab_not_mem_noTab p) (noTab_plain hp)] at this
    omega

private theorem ones (cw : Char → Nat) : ∀ (t : Text), (∀ c ∈ t, cw c = 1) → textWidth cw t = t.length := by
  intro t
  induction t with
  | nil => intro _; rfl
  | cons c t ih =>
    intro h
    simp only [textWidth, List.length_cons, ih fun c hc => h c (List.mem_cons_of_mem _ hc), h c (by simp)]
    omega

private theorem rep_ones (cw : Char → Nat) {c : Char} (h : cw c = 1) (n : Nat) : textWidth cw (List.replicate n c) = n := by
  rw [ones cw _ (fun d hd => by rw [(List.mem_replicate.1 hd).2]; exact h)]; simp

private theorem good_width {cw : Char → Nat} (hsp : cw ' ' = 1) {op : CropTty.Op} {style : Option CompoundStyle} {o : CropWriter.Op} {a n : Nat}
    {tab t : Text} (hg : GoodCall cw op) (htab : '\x08' ∉ tab) (ha : cropAsked op = some (style, o)) (h : CropWritten cw a tab o t n) :
    n = textWidth cw t := by
  have hchar : ∀ {c : Char}, (cw c < a ∧ t = [c] ∧ n = cw c) ∨ (a ≤ cw c ∧ t = [] ∧ n = 0) → n = textWidth cw t := by
    rintro c (⟨_, rfl, rfl⟩ | ⟨_, rfl, rfl⟩) <;> simp [textWidth]
  cases op with
  | unstyledStr s => cases ha; exact fit_width hg h
  | str cs s => cases ha; exact fit_width hg h
  | char cs c => cases ha; exact hchar h
  | unstyledChar c =>
    cases ha
    rcases h with ⟨_, h⟩ | ⟨_, h⟩
    · exact fit_width htab h
    · exact hchar h
  | unstyledGString s => cases ha; obtain ⟨rfl, rfl⟩ := h; exact (ones cw _ fun c hc => hg c (List.mem_of_mem_take hc)).symm
  | gString cs s => cases ha; obtain ⟨rfl, rfl⟩ := h; exact (ones cw _ fun c hc => hg c (List.mem_of_mem_take hc)).symm
  | fg cs => cases ha
  | bg cs => cases ha
  | fill cs c => cases ha; obtain ⟨rfl, rfl⟩ := h; exact (rep_ones cw hg _).symm
  | fillUnstyled c => cases ha; obtain ⟨rfl, rfl⟩ := h; exact (rep_ones cw hg _).symm
  | fillWithSpace cs => cases ha; obtain ⟨rfl, rfl⟩ := h; exact (rep_ones cw hsp _).symm
  | repeat_ cs c len => cases ha; obtain ⟨rfl, rfl⟩ := h; rw [rep_ones cw hg]; simp
  | repeatUnstyled c len => cases ha; obtain ⟨rfl, rfl⟩ := h; rw [rep_ones cw hg]; simp
  | setTabReplacement t => cases ha; obtain ⟨rfl, rfl⟩ := h; rfl

private theorem run_inline (cw : Char → Nat) (hsp : cw ' ' = 1) : ∀ (ops : List CropTty.Op) (w : CropTty), (∀ op ∈ ops, GoodCall cw op) →
    '\x08' ∉ w.tabRepl → ∃ w' cmds, w.run cw ops = some w' ∧ w'.cmds = w.cmds ++ cmds ∧ (∀ c ∈ cmds, Inline c) ∧
      w'.allowed + textWidth cw (cmds.flatMap cmdText) = w.allowed := by
  intro ops
  induction ops with
  | nil => intro w _ _; exact ⟨w, [], rfl, by simp, by simp, by simp⟩
  | cons op ops ih =>
    intro w hg htab
    have hop := hg op (by simp)
    have hg' : ∀ op ∈ ops, GoodCall cw op := fun o ho => hg o (List.mem_cons_of_mem _ ho)
    have main : ∀ (w1 : CropTty) (cmds : List TtyCmd), w.step cw op = some w1 → w1.cmds = w.cmds ++ cmds → (∀ c ∈ cmds, Inline c) →
        w1.allowed + textWidth cw (cmds.flatMap cmdText) = w.allowed → '\x08' ∉ w1.tabRepl →
        ∃ w' cmds, w.run cw (op :: ops) = some w' ∧ w'.cmds = w.cmds ++ cmds ∧ (∀ c ∈ cmds, Inline c) ∧
          w'.allowed + textWidth cw (cmds.flatMap cmdText) = w.allowed := by
      intro w1 cmds h1 h2 h3 h4 h5
      obtain ⟨w', cmds', k1, k2, k3, k4⟩ := ih w1 hg' h5
      refine ⟨w', cmds ++ cmds', ?_, by rw [k2, h2]; simp, ?_, ?_⟩
      · simp only [CropTty.run, h1, Option.bind_some]; exact k1
      · intro c hc
        rcases List.mem_append.1 hc with hc | hc
        · exact h3 c hc
        · exact k3 c hc
      · simp only [List.flatMap_append, textWidth_append]; omega
    cases hask : cropAsked op with
    | none =>
      cases op with
      | fg cs =>
        refine main _ cs.queueFg rfl rfl ?_ ?_ htab
        · intro c hc; cases hf : cs.fg <;> simp [CompoundStyle.queueFg, hf] at hc; subst hc; trivial
        · cases hf : cs.fg <;> simp [CompoundStyle.queueFg, hf, cmdText, CropTty.queueFg, CropTty.queue]
      | bg cs =>
        refine main _ cs.queueBg rfl rfl ?_ ?_ htab
        · intro c hc; cases hf : cs.bg <;> simp [CompoundStyle.queueBg, hf] at hc; subst hc; trivial
        · cases hf : cs.bg <;> simp [CompoundStyle.queueBg, hf, cmdText, CropTty.queueBg, CropTty.queue]
      | _ => cases hask
    | some p =>
      obtain ⟨style, o⟩ := p
      obtain ⟨texts, n, hs, hn, hw, _, _, _⟩ := step_emits cw hsp w op style o hask
      refine main _ (texts.map (emit style)) hs rfl (emit_inline style texts).1 ?_ ?_
      · rw [(emit_inline style texts).2, ← good_width hsp hop htab hask hw]
        show w.allowed - n + n = w.allowed
        omega
      · show '\x08' ∉ cropTab w.tabRepl op
        cases op <;> first | exact htab | exact hop

/-- C91: whatever the styles, the pen and the terminal, the calls on a crop writer (without backspaces, and with characters of one column
in gentle strings and fillings) rewrite the columns they took from the limit, starting at the cursor, which is then just after: no other
cell changes, and what is in these columns doesn't depend on what was there. -/
theorem C91_confined (cw : Char → Nat) (hsp : cw ' ' = 1) (limit : Nat) (ops : List CropTty.Op) (hg : ∀ op ∈ ops, GoodCall cw op)
    (x y : Nat) (pen : CompoundStyle) :
    ∃ (w : CropTty) (row : Nat → CompoundStyle × Char × Nat) (pen' : CompoundStyle), (CropTty.new limit).run cw ops = some w ∧ w.allowed ≤ limit ∧
      ∀ g : Cells CompoundStyle, (⟨g, x, y, pen⟩ : Tty).play cw w.cmds =
        ⟨fun x' y' => if y' = y ∧ x ≤ x' ∧ x' < x + (limit - w.allowed) then row x' else g x' y', x + (limit - w.allowed), y, pen'⟩ := by
  obtain ⟨w, cmds, h1, h2, h3, h4⟩ := run_inline cw hsp ops (CropTty.new limit) hg (show '\x08' ∉ ([' ', ' '] : Text) by decide)
  obtain ⟨row, pen', h⟩ := play_inline cw cmds h3 x y pen
  have h4 : w.allowed + textWidth cw (cmds.flatMap cmdText) = limit := h4
  have e : textWidth cw (cmds.flatMap cmdText) = limit - w.allowed := by omega
  refine ⟨w, row, pen', h1, by omega, fun g => ?_⟩
  have h2 : w.cmds = cmds := h2
  rw [h2, h g, e]
  rfl

/-- C91: when the last call is a filling, the whole limit is rewritten and nothing else: exactly `limit` columns from the cursor. -/
theorem C91_filled (cw : Char → Nat) (hsp : cw ' ' = 1) (limit : Nat) (ops : List CropTty.Op) (last : CropTty.Op)
    (hl : (∃ cs c, last = .fill cs c) ∨ (∃ c, last = .fillUnstyled c) ∨ ∃ cs, last = .fillWithSpace cs)
    (hg : ∀ op ∈ ops ++ [last], GoodCall cw op) (x y : Nat) (pen : CompoundStyle) :
    ∃ (w : CropTty) (row : Nat → CompoundStyle × Char × Nat) (pen' : CompoundStyle), (CropTty.new limit).run cw (ops ++ [last]) = some w ∧ w.allowed = 0 ∧
      ∀ g : Cells CompoundStyle, (⟨g, x, y, pen⟩ : Tty).play cw w.cmds =
        ⟨fun x' y' => if y' = y ∧ x ≤ x' ∧ x' < x + limit then row x' else g x' y', x + limit, y, pen'⟩ := by
  obtain ⟨w, row, pen', h1, h2, h3⟩ := C91_confined cw hsp limit (ops ++ [last]) hg x y pen
  have run_app : ∀ (ops : List CropTty.Op) (w : CropTty), w.run cw (ops ++ [last]) = (w.run cw ops).bind fun w => w.step cw last := by
    intro ops
    induction ops with
    | nil => intro w; simp only [List.nil_append, CropTty.run, Option.bind_some]; cases w.step cw last <;> rfl
    | cons op ops ih =>
      intro w
      simp only [List.cons_append, CropTty.run]
      cases w.step cw op with
      | none => rfl
      | some w1 => exact ih w1
  have h0 : w.allowed = 0 := by
    rw [run_app] at h1
    cases hr : (CropTty.new limit).run cw ops with
    | none => rw [hr] at h1; cases h1
    | some w1 =>
      rw [hr] at h1
      simp only [Option.bind_some] at h1
      have fin : ∀ {style c}, cropAsked last = some (style, .fill c) → w.allowed = 0 := by
        intro style c ha
        obtain ⟨texts, n, hs, _, ⟨_, hn⟩, _⟩ := step_emits cw hsp w1 last style _ ha
        rw [hs] at h1
        cases h1
        simp [hn]
      rcases hl with ⟨cs, c, rfl⟩ | ⟨c, rfl⟩ | ⟨cs, rfl⟩ <;> exact fin rfl
  refine ⟨w, row, pen', h1, h0, fun g => ?_⟩
  have := h3 g
  rw [h0] at this
  exact this

private def bold : CompoundStyle := { attrs := 1#32 }
private def onRed : CompoundStyle := { bg := some (.ansi 1) }
private def wideA : Char → Nat := fun c => if c = '漢' then 2 else if c = '\t' then 0 else 1

/-- C91: only in the columns which are left: a wide character, a tabulation, a filling. -/
example : ((CropTty.new 7).run wideA [.str bold "a漢".toList, .unstyledChar '\t', .char bold '漢', .fill onRed '-']).map
      (fun w => (w.allowed, w.cmds)) =
    some (0, [.styled bold "a漢".toList, .print "  ".toList, .styled onRed "--".toList]) := by decide +kernel

/-- C91: the hypotheses of the theorems are met by these calls. -/
example : ∀ op ∈ ([.str bold "a漢".toList, .unstyledChar '\t', .char bold '漢', .fill onRed '-'] : List CropTty.Op),
    GoodCall wideA op ∧ PlainCall op := by
  simp [GoodCall, PlainCall, Tidy, bold, onRed, wideA]

/-- C91: the last allowed column is never given to a character, be it of one column (it's given to a string). -/
theorem C91_last_char_counterexample : ∃ (w : CropTty), (CropTty.new 1).run wideA [.char bold 'a'] = some w ∧ w.cmds = [] ∧ w.allowed = 1 :=
  ⟨CropTty.new 1, rfl, rfl, rfl⟩

/-- C91: a style with attributes, in a filling of more than 1000 columns, is over the color which was set before in the first 1000 columns
only: the style is queued again for the other ones, after a reset. (This is why there's a limit in `C91_shown`.) -/
theorem C91_long_filling_counterexample : ∃ (w : CropTty) (t : Tty), (CropTty.new 1001).run wideA [.bg onRed, .fill bold '-'] = some w ∧
    t = (⟨fun _ _ => ({}, ' ', 0), 0, 0, {}⟩ : Tty).play wideA w.cmds ∧
    (t.cells 999 0).1.bg = some (.ansi 1) ∧ (t.cells 1000 0).1.bg = none := by
  have h : ((CropTty.new 1001).run wideA [.bg onRed, .fill bold '-']).map (fun w => w.cmds) =
    some [.setBg (.ansi 1), .styled bold (List.replicate 1000 '-'), .styled bold ['-']] := by decide +kernel
  cases hr : (CropTty.new 1001).run wideA [.bg onRed, .fill bold '-'] with
  | none => rw [hr] at h; cases h
  | some w =>
    rw [hr] at h
    simp only [Option.map_some, Option.some.injEq] at h
    refine ⟨w, _, rfl, rfl, ?_⟩
    rw [h]
    decide +kernel

end Verif.Props
