import Verif.Lemmas.Fit
import Verif.Spec.Crop
/-! Properties C15 (string truncation), C16 (crop writer) and C17 (fillings). -/
namespace Verif.Props
open Verif Spec

/-! ## C15 -/

/-- C15: `make_string` (and `make_cow`, `count_fitting`) never panic. They keep a prefix `p` of the string, with tabs
replaced; at no time is the cursor more than `m` columns right of its start; printing one more character would be
too wide; the column count is the final position (or 0), the byte count is the size of `p`. -/
theorem C15_makeString (cw : Char → Nat) (hsp : cw ' ' = 1) (s : Text) (m : Nat) :
    ∃ p rest cols, s = p ++ rest ∧
      StrFit.makeString cw s m = some (noTab p, cols) ∧
      StrFit.countFitting cw s m = (byteLen p, cols) ∧
      (∀ tabWidth, Within cw tabWidth (noTab p) m) ∧
      (∀ tabWidth, (cols : Int) = max 0 (position cw tabWidth (noTab p))) ∧
      (∀ c r tabWidth, rest = c :: r → (m : Int) < position cw tabWidth (noTab (p ++ [c]))) := by
  obtain ⟨p, rest, tab, e, hl, hq, hr, ht⟩ := strFit_loop cw m s 0 0 false (by omega)
  have hf : StrFit.from_ cw s m = ⟨byteLen p, (max (position cw 2 p) 0).toNat, tab⟩ := by
    simp [StrFit.from_, hl]
  refine ⟨p, rest, (max (position cw 2 p) 0).toNat, e, ?_, ?_, ?_, ?_, ?_⟩
  · simp only [StrFit.makeString, hf]
    rw [e, sliceBytes_prefix]
    cases tab with
    | true => simp [untab_eq]
    | false =>
      have : '\t' ∉ p := fun h => by simpa using ht h
      simp [noTab_of_not_mem this]
  · simp [StrFit.countFitting, hf]
  · intro tw q hq'
    exact within_noTab cw hsp tw p m (by simpa using hq) q hq'
  · intro tw; rw [position_noTab cw hsp]; omega
  · intro c r tw hc
    rw [position_noTab cw hsp]
    simpa using hr c r hc

/-- C15: without backspaces, the kept prefix is the longest one whose width fits. -/
theorem C15_longest (cw : Char → Nat) (hsp : cw ' ' = 1) (s : Text) (m : Nat) (hb : '\x08' ∉ s) :
    ∃ p, p <+: s ∧ StrFit.makeString cw s m = some (noTab p, textWidth cw (noTab p)) ∧
      textWidth cw (noTab p) ≤ m ∧
      ∀ q, q <+: s → textWidth cw (noTab q) ≤ m → q <+: p := by
  have hpos : ∀ t : Text, '\x08' ∉ t → (textWidth cw (noTab t) : Int) = position cw 0 (noTab t) := by
    intro t ht
    have h1 : '\x08' ∉ noTab t := by
      simp only [noTab, List.mem_flatMap, not_exists, not_and]
      intro c hc
      split
      · decide
      · intro h; simp at h; subst h; exact ht hc
    have h2 := tab_not_mem_noTab t
    generalize noTab t = u at *
    induction u with
    | nil => rfl
    | cons c u ih =>
      simp at h1 h2
      have e1 : c ≠ '\x08' := fun h => h1.1 h.symm
      have e2 : c ≠ '\t' := fun h => h2.1 h.symm
      have := ih h1.2 h2.2
      simp [textWidth, position, move, e1, e2]; omega
  obtain ⟨p, rest, cols, e, h1, h2, h3, h4, h5⟩ := C15_makeString cw hsp s m
  have hbp : '\x08' ∉ p := fun h => hb (by rw [e]; exact List.mem_append_left _ h)
  have hw : cols = textWidth cw (noTab p) := by
    have := h4 0
    rw [← hpos p hbp] at this
    omega
  refine ⟨p, ⟨rest, e.symm⟩, by rw [h1, hw], ?_, ?_⟩
  · have := h3 0 (noTab p) (List.prefix_refl _)
    rw [← hpos p hbp] at this
    omega
  · intro q hq hle
    rw [e] at hq
    rcases prefix_append_cases hq with h | ⟨q', rfl, hq'⟩
    · exact h
    · cases q' with
      | nil => simp
      | cons c q' =>
        exfalso
        obtain ⟨r, hr⟩ := hq'
        have h6 := h5 c (q' ++ r) 0 (by simpa using hr.symm)
        have hbc : '\x08' ∉ p ++ [c] := by
          intro h
          apply hb
          rw [e, ← hr]
          simp at h ⊢
          rcases h with h | h
          · exact Or.inl h
          · exact Or.inr (Or.inl h)
        rw [← hpos _ hbc] at h6
        have : textWidth cw (noTab (p ++ c :: q')) = textWidth cw (noTab (p ++ [c])) + textWidth cw (noTab q') := by
          rw [← textWidth_append, ← noTab_append]; simp
        omega

example : ∃ cw : Char → Nat, cw ' ' = 1 ∧
    StrFit.makeString cw "概\t要é".toList 5 = some ("概  ".toList, 4) ∧
    StrFit.countFitting cw "概\t要é".toList 6 = (7, 6) :=
  ⟨fun c => if c = '概' ∨ c = '要' then 2 else 1, by decide⟩

/-! ## C17 -/

/-- C17: a filling writes exactly `len` times its character and never slices out of a character boundary. -/
theorem C17_filling (c : Char) (len : Nat) :
    ∃ chunks, (Filling.fromChar c).queue len = some chunks ∧ chunks.flatten = List.replicate len c :=
  filling_queue c len

example : ∃ chunks, (Filling.fromChar '─').queue 2500 = some chunks ∧ chunks.flatten.length = 2500 := by
  obtain ⟨ch, h1, h2⟩ := C17_filling '─' 2500
  exact ⟨ch, h1, by rw [h2]; exact List.length_replicate⟩

/-! ## C16 -/

/-- The arguments are what the documentation of the operation asks for: no raw tabulation given as a single styled
char, one column per character of a "gentle" string, and at most one column for the filling character. -/
def GoodOp (cw : Char → Nat) : CropWriter.Op → Prop
  | .str _ => True
  | .char c => c ≠ '\t'
  | .unstyledChar _ => True
  | .gString s => ∀ c ∈ s, cw c = 1 ∧ c ≠ '\t'
  | .fill c => cw c ≤ 1 ∧ c ≠ '\t'
  | .repeat_ c _ => cw c ≤ 1 ∧ c ≠ '\t'
  | .setTabReplacement _ => True

/-- What holds after any number of calls. -/
def CropInv (cw : Char → Nat) (tw limit : Nat) (w : CropWriter) : Prop :=
  Within cw tw w.out limit ∧ position cw tw w.out + w.allowed ≤ limit

private theorem inv_print (cw : Char → Nat) (tw limit : Nat) (w : CropWriter) (hi : CropInv cw tw limit w) (t : Text)
    (len : Nat) (hlen : len ≤ w.allowed) (ht : ∀ q, q <+: t → position cw tw q ≤ w.allowed)
    (hp : position cw tw t ≤ len) :
    CropInv cw tw limit { w with allowed := w.allowed - len, out := w.out ++ t } := by
  obtain ⟨h1, h2⟩ := hi
  refine ⟨within_append h1 ?_, ?_⟩
  · intro q hq; have := ht q hq; omega
  · simp only [position_append]; omega

private theorem position_le_length (cw : Char → Nat) (tw : Nat) (t : Text) (h : ∀ c ∈ t, cw c ≤ 1 ∧ c ≠ '\t') :
    position cw tw t ≤ t.length := by
  induction t with
  | nil => simp [position]
  | cons c t ih =>
    have h1 := h c (by simp)
    have h2 := ih (fun d hd => h d (by simp [hd]))
    simp only [position, move, h1.2, if_false, List.length_cons]
    split <;> omega

private theorem inv_str (cw : Char → Nat) (hsp : cw ' ' = 1) (tw limit : Nat) (w : CropWriter)
    (hi : CropInv cw tw limit w) (s : Text) :
    ∃ w', w.queueStr cw s = some w' ∧ CropInv cw tw limit w' := by
  unfold CropWriter.queueStr
  by_cases hf : w.isFull = true
  · exact ⟨w, by simp [hf], hi⟩
  · obtain ⟨p, rest, cols, e, h1, _, h3, h4, _⟩ := C15_makeString cw hsp s w.allowed
    have hc : cols ≤ w.allowed := by
      have := h4 tw
      have := h3 tw (noTab p) (List.prefix_refl _)
      omega
    refine ⟨{ w with allowed := w.allowed - cols, out := w.out ++ noTab p }, ?_, ?_⟩
    · simp [hf, h1, csub, hc, CropWriter.print]
    · apply inv_print cw tw limit w hi _ _ hc
      · intro q hq; exact h3 tw q hq
      · have := h4 tw; omega

private theorem inv_char (cw : Char → Nat) (tw limit : Nat) (w : CropWriter) (hi : CropInv cw tw limit w) (c : Char)
    (hc : c ≠ '\t') : ∃ w', w.queueChar cw c = some w' ∧ CropInv cw tw limit w' := by
  unfold CropWriter.queueChar
  by_cases h : cw c < w.allowed
  · refine ⟨{ w with allowed := w.allowed - cw c, out := w.out ++ [c] }, ?_, ?_⟩
    · simp [h, csub, CropWriter.print, show cw c ≤ w.allowed by omega]
    · have hm : position cw tw [c] ≤ cw c := by
        simp only [position, move, hc, if_false]; split <;> omega
      apply inv_print cw tw limit w hi _ _ (by omega) _ hm
      intro q hq
      rcases List.prefix_cons_iff.mp hq with rfl | ⟨q', rfl, hq'⟩
      · simp [position]
      · simp at hq'; subst hq'; omega
  · exact ⟨w, by simp [h], hi⟩

private theorem inv_gentle (cw : Char → Nat) (tw limit : Nat) (w : CropWriter) (hi : CropInv cw tw limit w) (s : Text)
    (hs : ∀ c ∈ s, cw c ≤ 1 ∧ c ≠ '\t') (hl : s.length ≤ w.allowed) :
    CropInv cw tw limit { w with allowed := w.allowed - s.length, out := w.out ++ s } := by
  apply inv_print cw tw limit w hi _ _ hl
  · intro q hq
    have := position_le_length cw tw q (fun c hc => hs c (hq.subset hc))
    have := hq.length_le
    omega
  · exact position_le_length cw tw s hs

private theorem inv_repeat (cw : Char → Nat) (tw limit : Nat) (w : CropWriter) (hi : CropInv cw tw limit w) (c : Char)
    (hc : cw c ≤ 1 ∧ c ≠ '\t') (len : Nat) : ∃ w', w.repeat_ c len = some w' ∧ CropInv cw tw limit w' := by
  obtain ⟨chunks, e1, e2⟩ := filling_queue c (min len w.allowed)
  refine ⟨{ w with allowed := w.allowed - min len w.allowed, out := w.out ++ chunks.flatten }, ?_, ?_⟩
  · simp [CropWriter.repeat_, csub, e1, CropWriter.print, Nat.min_le_right]
  · have h := inv_gentle cw tw limit w hi chunks.flatten (by
      rw [e2]; intro d hd; rw [List.eq_of_mem_replicate hd]; exact hc) (by rw [e2]; simp; omega)
    have hl : chunks.flatten.length = min len w.allowed := by rw [e2]; simp
    rw [← hl]; exact h

theorem cropInv_step (cw : Char → Nat) (hsp : cw ' ' = 1) (tw limit : Nat) (w : CropWriter)
    (hi : CropInv cw tw limit w) (op : CropWriter.Op) (hg : GoodOp cw op) :
    ∃ w', w.step cw op = some w' ∧ CropInv cw tw limit w' := by
  cases op with
  | str s => exact inv_str cw hsp tw limit w hi s
  | char c => exact inv_char cw tw limit w hi c hg
  | unstyledChar c =>
    by_cases h : c = tabChar
    · simp only [CropWriter.step, CropWriter.queueUnstyledChar, h, if_true]
      exact inv_str cw hsp tw limit w hi _
    · simp only [CropWriter.step, CropWriter.queueUnstyledChar, h, if_false]
      exact inv_char cw tw limit w hi c h
  | gString s =>
    have hs : ∀ c ∈ s, cw c ≤ 1 ∧ c ≠ '\t' := fun c hc => ⟨by have := (hg c hc).1; omega, (hg c hc).2⟩
    simp only [CropWriter.step, CropWriter.queueGString]
    by_cases hf : w.isFull = true
    · exact ⟨w, by simp [hf], hi⟩
    · by_cases hl : s.length > w.allowed
      · refine ⟨{ w with allowed := 0, out := w.out ++ s.take w.allowed }, by simp [hf, hl, CropWriter.print], ?_⟩
        have h := inv_gentle cw tw limit w hi (s.take w.allowed) (fun c hc => hs c (List.mem_of_mem_take hc))
          (by simp; omega)
        have e : w.allowed - (s.take w.allowed).length = 0 := by simp; omega
        rw [e] at h
        exact h
      · refine ⟨{ w with allowed := w.allowed - s.length, out := w.out ++ s }, ?_, ?_⟩
        · simp [hf, hl, csub, show s.length ≤ w.allowed by omega, CropWriter.print]
        · exact inv_gentle cw tw limit w hi s hs (by omega)
  | fill c => exact inv_repeat cw tw limit w hi c hg _
  | repeat_ c len => exact inv_repeat cw tw limit w hi c hg len
  | setTabReplacement t => exact ⟨_, rfl, hi⟩

/-- C16: whatever the sequence of calls on a crop writer, nothing panics, the cursor never gets more than `limit`
columns right of where it was, and the remaining allowance never exceeds what is really left. -/
theorem C16_cropWriter (cw : Char → Nat) (hsp : cw ' ' = 1) (tabWidth limit : Nat) (ops : List CropWriter.Op)
    (hg : ∀ op ∈ ops, GoodOp cw op) :
    ∃ w, (CropWriter.new limit).run cw ops = some w ∧
      Within cw tabWidth w.out limit ∧ position cw tabWidth w.out + w.allowed ≤ limit := by
  have key : ∀ (ops : List CropWriter.Op) (w : CropWriter), (∀ op ∈ ops, GoodOp cw op) → CropInv cw tabWidth limit w →
      ∃ w', w.run cw ops = some w' ∧ CropInv cw tabWidth limit w' := by
    intro ops
    induction ops with
    | nil => intro w _ hi; exact ⟨w, rfl, hi⟩
    | cons op ops ih =>
      intro w hg hi
      obtain ⟨w1, e1, hi1⟩ := cropInv_step cw hsp tabWidth limit w hi op (hg op (by simp))
      obtain ⟨w2, e2, hi2⟩ := ih w1 (fun o ho => hg o (by simp [ho])) hi1
      exact ⟨w2, by simp [CropWriter.run, e1, e2], hi2⟩
  obtain ⟨w, e, h1, h2⟩ := key ops (CropWriter.new limit) hg
    ⟨by intro p hp; simp [CropWriter.new] at hp; subst hp; simp [position], by simp [CropWriter.new, position]⟩
  exact ⟨w, e, h1, h2⟩

example : ∀ op ∈ [CropWriter.Op.str "a\tb".toList, .char 'é', .unstyledChar '\t', .gString "──".toList, .fill ' '],
    GoodOp (fun _ => 1) op := by
  intro op h
  simp at h
  rcases h with rfl | rfl | rfl | rfl | rfl <;> simp [GoodOp]

/-- C16: once full, a crop writer writes nothing more. -/
theorem C16_full (cw : Char → Nat) (w : CropWriter) (h : w.allowed = 0) (op : CropWriter.Op) :
    ∃ w', w.step cw op = some w' ∧ w'.out = w.out ∧ w'.allowed = 0 := by
  have hf : w.isFull = true := by simp [CropWriter.isFull, h]
  have hr : ∀ c len, ∃ w', w.repeat_ c len = some w' ∧ w'.out = w.out ∧ w'.allowed = 0 := by
    intro c len
    obtain ⟨chunks, e1, e2⟩ := filling_queue c (min len w.allowed)
    refine ⟨{ w with allowed := w.allowed - min len w.allowed, out := w.out ++ chunks.flatten }, ?_, ?_, ?_⟩
    · simp [CropWriter.repeat_, csub, e1, CropWriter.print, Nat.min_le_right]
    · rw [e2]; simp [h]
    · simp [h]
  cases op with
  | str s => exact ⟨w, by simp [CropWriter.step, CropWriter.queueStr, hf], rfl, h⟩
  | char c => exact ⟨w, by simp [CropWriter.step, CropWriter.queueChar, h], rfl, h⟩
  | unstyledChar c =>
    refine ⟨w, ?_, rfl, h⟩
    simp only [CropWriter.step, CropWriter.queueUnstyledChar]
    split <;> simp [CropWriter.queueStr, CropWriter.queueChar, hf, h]
  | gString s => exact ⟨w, by simp [CropWriter.step, CropWriter.queueGString, hf], rfl, h⟩
  | fill c => exact hr c _
  | repeat_ c len => exact hr c len
  | setTabReplacement t => exact ⟨_, rfl, rfl, h⟩

/-- C16: `fill` leaves no allowance and writes exactly one character per allowed column. -/
theorem C16_fill (w : CropWriter) (c : Char) :
    ∃ w', w.fill c = some w' ∧ w'.allowed = 0 ∧ w'.out = w.out ++ List.replicate w.allowed c := by
  obtain ⟨chunks, e1, e2⟩ := filling_queue c w.allowed
  refine ⟨{ w with allowed := 0, out := w.out ++ chunks.flatten }, ?_, rfl, by simp [e2]⟩
  simp [CropWriter.fill, CropWriter.repeat_, csub, e1, CropWriter.print]

theorem queueStr_written (cw : Char → Nat) (hsp : cw ' ' = 1) (w : CropWriter) (s : Text) :
    ∃ t n, CropWriter.queueStr cw w s = some { w with allowed := w.allowed - n, out := w.out ++ t } ∧ n ≤ w.allowed ∧
      ((w.allowed = 0 ∧ t = [] ∧ n = 0) ∨ (0 < w.allowed ∧ LongestFit cw s w.allowed t n)) := by
  by_cases h0 : w.allowed = 0
  · refine ⟨[], 0, ?_, by omega, .inl ⟨h0, rfl, rfl⟩⟩
    obtain ⟨a, r, o⟩ := w
    simp only at h0
    subst h0
    simp [CropWriter.queueStr, CropWriter.isFull]
  · obtain ⟨p, rest, cols, e, hm, _, hw, hp, hr⟩ := C15_makeString cw hsp s w.allowed
    have hle : cols ≤ w.allowed := by
      have h1 := hw 2 (noTab p) (List.prefix_refl _)
      have h2 := hp 2
      omega
    refine ⟨noTab p, cols, ?_, hle, .inr ⟨by omega, p, rest, e, rfl, hw, hp, hr⟩⟩
    simp [CropWriter.queueStr, CropWriter.isFull, h0, hm, csub, hle, CropWriter.print]

theorem queueChar_written (cw : Char → Nat) (w : CropWriter) (c : Char) :
    ∃ t n, CropWriter.queueChar cw w c = some { w with allowed := w.allowed - n, out := w.out ++ t } ∧ n ≤ w.allowed ∧
      ((cw c < w.allowed ∧ t = [c] ∧ n = cw c) ∨ (w.allowed ≤ cw c ∧ t = [] ∧ n = 0)) := by
  by_cases h : cw c < w.allowed
  · refine ⟨[c], cw c, ?_, by omega, .inl ⟨h, rfl, rfl⟩⟩
    simp [CropWriter.queueChar, h, csub, Nat.le_of_lt h, CropWriter.print]
  · refine ⟨[], 0, ?_, by omega, .inr ⟨by omega, rfl, rfl⟩⟩
    simp [CropWriter.queueChar, h]

theorem repeat_written (w : CropWriter) (c : Char) (len : Nat) :
    CropWriter.repeat_ w c len =
      some { w with allowed := w.allowed - min len w.allowed, out := w.out ++ List.replicate (min len w.allowed) c } := by
  obtain ⟨chunks, e1, e2⟩ := filling_queue c (min len w.allowed)
  simp [CropWriter.repeat_, csub, e1, CropWriter.print, Nat.min_le_right, e2]

/-- C16: every call keeps what was written, adds exactly what `CropWritten` says and takes its columns from the allowance (for gentle
strings and fillings, one by character). The replacement of tabulations only changes with its setter. -/
theorem C16_written (cw : Char → Nat) (hsp : cw ' ' = 1) (w : CropWriter) (op : CropWriter.Op) :
    ∃ w' t n, w.step cw op = some w' ∧ w'.out = w.out ++ t ∧ n ≤ w.allowed ∧ w'.allowed = w.allowed - n ∧
      CropWritten cw w.allowed w.tabRepl op t n ∧
      w'.tabRepl = (match op with | .setTabReplacement r => r | _ => w.tabRepl) := by
  cases op with
  | str s =>
    obtain ⟨t, n, e, hn, h⟩ := queueStr_written cw hsp w s
    exact ⟨{ w with allowed := w.allowed - n, out := w.out ++ t }, t, n, e, rfl, hn, rfl, h, rfl⟩
  | char c =>
    obtain ⟨t, n, e, hn, h⟩ := queueChar_written cw w c
    exact ⟨{ w with allowed := w.allowed - n, out := w.out ++ t }, t, n, e, rfl, hn, rfl, h, rfl⟩
  | unstyledChar c =>
    by_cases hc : c = '\t'
    · obtain ⟨t, n, e, hn, h⟩ := queueStr_written cw hsp w w.tabRepl
      refine ⟨{ w with allowed := w.allowed - n, out := w.out ++ t }, t, n, ?_, rfl, hn, rfl, .inl ⟨hc, h⟩, rfl⟩
      subst hc
      exact e
    · obtain ⟨t, n, e, hn, h⟩ := queueChar_written cw w c
      refine ⟨{ w with allowed := w.allowed - n, out := w.out ++ t }, t, n, ?_, rfl, hn, rfl, .inr ⟨hc, h⟩, rfl⟩
      simpa [CropWriter.step, CropWriter.queueUnstyledChar, tabChar, hc] using e
  | gString s =>
    by_cases h0 : w.allowed = 0
    · refine ⟨w, [], 0, ?_, by simp, by omega, by omega, by simp [CropWritten, h0], rfl⟩
      simp [CropWriter.step, CropWriter.queueGString, CropWriter.isFull, h0]
    · by_cases h : s.length > w.allowed
      · refine ⟨{ w with allowed := 0, out := w.out ++ s.take w.allowed }, s.take w.allowed, w.allowed, ?_, rfl, Nat.le_refl _, by simp,
          ⟨rfl, by simp; omega⟩, rfl⟩
        simp [CropWriter.step, CropWriter.queueGString, CropWriter.isFull, h0, h, CropWriter.print]
      · have hle : s.length ≤ w.allowed := by omega
        have ht : s.take w.allowed = s := List.take_of_length_le hle
        refine ⟨{ w with allowed := w.allowed - s.length, out := w.out ++ s }, s, s.length, ?_, rfl, hle, rfl, ⟨ht.symm, rfl⟩, rfl⟩
        simp [CropWriter.step, CropWriter.queueGString, CropWriter.isFull, h0, h, CropWriter.print, csub, hle]
  | fill c =>
    refine ⟨_, List.replicate w.allowed c, w.allowed, repeat_written w c w.allowed, by simp, Nat.le_refl _, by simp, ⟨rfl, rfl⟩, rfl⟩
  | repeat_ c len =>
    exact ⟨_, List.replicate (min len w.allowed) c, min len w.allowed, repeat_written w c len, rfl, Nat.min_le_right _ _, rfl, ⟨rfl, by simp⟩, rfl⟩
  | setTabReplacement r => exact ⟨_, [], 0, rfl, by simp, by omega, rfl, ⟨rfl, rfl⟩, rfl⟩

/-- C16: a writer is full when nothing more is allowed; a new one has the whole limit, nothing written and two spaces for tabulations. -/
theorem C16_is_full (w : CropWriter) (limit : Nat) :
    (w.isFull = true ↔ w.allowed = 0) ∧
    (CropWriter.new limit).allowed = limit ∧ (CropWriter.new limit).out = [] ∧ (CropWriter.new limit).tabRepl = "  ".toList := by
  simp [CropWriter.isFull, CropWriter.new]

example : ((CropWriter.new 9).run (fun _ => 1) [.str "a\tb".toList, .unstyledChar '\t', .gString "──────".toList, .str "z".toList]).map
    (fun w => (String.ofList w.out, w.allowed)) = some ("a  b  ───", 0) := by decide

/-- C16: a tabulation given to `queue_char` is written as is: on a terminal it passes the limit. -/
theorem C16_tab_counterexample :
    let cw : Char → Nat := fun c => if c = '\t' then 0 else 1
    (((CropWriter.new 3).run cw [.char '\t']).map (fun w => (position cw 8 w.out, w.allowed))) = some (8, 3) := by
  decide

/-- C16 (remark): `queue_char` and `queue_unstyled_char` never use the last allowed column. -/
theorem C16_last_column_counterexample :
    (((CropWriter.new 1).run (fun _ => 1) [.char 'a', .unstyledChar 'a']).map (fun w => (w.out, w.allowed)))
      = some ([], 1) := by
  decide

end Verif.Props
