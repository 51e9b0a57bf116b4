import Verif.Spec.Chunks
import Verif.Model.Print
import Verif.Props.SkinRender
/-! C98: texts displayed part by part. -/
namespace Verif.Props
open Verif Verif.Spec

namespace ChunksLemmas

variable {cw : Char → Nat} {ws : Char → Bool} {skin : Skin}

theorem splitRow_ne {nb : Nat} {widths : List Nat} {cells : List FmtComposite} {rows : List (List FmtComposite)}
    (h : splitRow cw ws skin nb widths cells = some rows) : rows ≠ [] := by
  simp only [splitRow, Option.bind_eq_bind, Option.bind_eq_some_iff, Option.some.injEq] at h
  obtain ⟨r, _, rfl⟩ := h
  simp

theorem splitRows_ne {nb : Nat} {widths : List Nat} : ∀ {lines out : List FmtLine}, splitRows cw ws skin nb widths lines = some out → lines ≠ [] → out ≠ []
  | [], _, _, h => absurd rfl h
  | .tableRow cells :: rest, out, h, _ => by
    simp only [splitRows, Option.bind_eq_bind, Option.bind_eq_some_iff, Option.some.injEq] at h
    obtain ⟨r, _, rows, h2, rfl⟩ := h
    have := splitRow_ne h2
    cases rows with
    | nil => exact absurd rfl this
    | cons a l => simp
  | .tableRule r :: rest, out, h, _ => by
    simp only [splitRows, Option.bind_eq_bind, Option.bind_eq_some_iff, Option.some.injEq] at h
    obtain ⟨r, _, rfl⟩ := h
    simp
  | .normal r :: rest, out, h, _ => by
    simp only [splitRows, Option.bind_eq_bind, Option.bind_eq_some_iff, Option.some.injEq] at h
    obtain ⟨r, _, rfl⟩ := h
    simp
  | .horizontalRule :: rest, out, h, _ => by
    simp only [splitRows, Option.bind_eq_bind, Option.bind_eq_some_iff, Option.some.injEq] at h
    obtain ⟨r, _, rfl⟩ := h
    simp

theorem fixTableLines_ne {n width : Nat} {lines out : List FmtLine} (hl : ∀ l ∈ lines, IsTableLine l) (hne : lines ≠ [])
    (h : fixTableLines cw ws skin n width lines = some out) : out ≠ [] := by
  by_cases h0 : n = 0 ∨ width = 0
  · simp only [fixTableLines, h0, if_true, Option.some.injEq] at h
    subst h; exact hne
  · obtain ⟨widths, w1, w2, w3, w4, w5⟩ := fixTableLines_eq cw ws skin n width lines hl (by omega) (by omega)
    have key : ∀ cr ls, layoutRows cw ws skin (keptColumns n width) widths cr ls = some out → ls ≠ [] → out ≠ [] := by
      intro cr ls h hls
      simp only [layoutRows, Option.bind_eq_bind, Option.bind_eq_some_iff] at h
      obtain ⟨rows, h1, h2⟩ := h
      have e := (alignRows_length _ _ _ _ h2).1
      have := splitRows_ne h1 hls
      intro h0
      rw [h0] at e
      exact this (List.eq_nil_of_length_eq_zero e.symm)
    by_cases hc : 4 * n + 1 ≤ width
    · rw [w4 hc] at h; exact key _ _ h (by simpa using hne)
    · rw [(w5 hc).2] at h; exact key _ _ h hne

/-- Two lists of lines with no table going on from one to the other. -/
def Apart (p : FmtLine → Prop) (a b : List FmtLine) : Prop := ∀ x y, a.getLast? = some x → b.head? = some y → ¬ (p x ∧ p y)

theorem Apart.tail {p : FmtLine → Prop} {l : FmtLine} {a b : List FmtLine} (h : Apart p (l :: a) b) : Apart p a b := by
  intro x y hx hy
  refine h x y ?_ hy
  cases a with
  | nil => simp at hx
  | cons c a => simpa using hx

theorem Apart.right {p : FmtLine → Prop} {t a b : List FmtLine} (h : Apart p (t ++ a) b) : Apart p a b := by
  induction t with
  | nil => exact h
  | cons x t ih => exact ih (Apart.tail h)

theorem tables_append {width : Nat} : ∀ a b : List FmtLine, Apart IsTableLine a b → fixAllTables cw ws skin width (a ++ b) =
    (fixAllTables cw ws skin width a).bind fun x => (fixAllTables cw ws skin width b).map (x ++ ·) := by
  intro a
  induction a using tables_induction with
  | hnil =>
    intro b _
    simp [fixAllTables, findTables, findTablesLoop, fixTables]
  | hother l lines hl ih =>
    intro b h
    rw [List.cons_append, fixAllTables_other hl, fixAllTables_other hl, ih b h.tail]
    cases fixAllTables cw ws skin width lines <;> cases fixAllTables cw ws skin width b <;> rfl
  | htable tbl lines hne hl hmax ih =>
    intro b h
    have hmax' : ∀ l, (lines ++ b).head? = some l → ¬ IsTableLine l := by
      intro l hh
      cases lines with
      | cons c lines => exact hmax l (by simpa using hh)
      | nil =>
        intro ht
        simp only [List.append_nil, List.nil_append] at h hh
        exact h (tbl.getLast hne) l (List.getLast?_eq_some_getLast hne) hh ⟨hl _ (List.getLast_mem hne), ht⟩
    rw [List.append_assoc, fixAllTables_table hne hl hmax', fixAllTables_table hne hl hmax, ih b h.right]
    cases fixAllTables cw ws skin width lines <;> cases fixAllTables cw ws skin width b <;>
      cases fixTableLines cw ws skin (tableColumns tbl) width tbl <;> simp

theorem blocks_append' : ∀ a b : List FmtLine, Apart IsCodeLine a b → justifyBlocks (a ++ b) = justifyBlocks a ++ justifyBlocks b := by
  intro a
  induction a using runs_induction (p := IsCodeLine) with
  | hnil => intro b _; rfl
  | hother l lines hl ih =>
    intro b h
    rw [List.cons_append, justifyBlocks_other hl, justifyBlocks_other hl, ih b h.tail]
    rfl
  | hrun blk lines hne hl hmax ih =>
    intro b h
    have hmax' : ∀ l, (lines ++ b).head? = some l → ¬ IsCodeLine l := by
      intro l hh
      cases lines with
      | cons c lines => exact hmax l (by simpa using hh)
      | nil =>
        intro ht
        simp only [List.append_nil, List.nil_append] at h hh
        exact h (blk.getLast hne) l (List.getLast?_eq_some_getLast hne) hh ⟨hl _ (List.getLast_mem hne), ht⟩
    rw [List.append_assoc, justifyBlocks_block hne hl hmax', justifyBlocks_block hne hl hmax, ih b h.right]
    simp

theorem not_both {l : FmtLine} (h1 : IsTableLine l) (h2 : IsCodeLine l) : False := by
  cases l <;> simp [IsTableLine, IsCodeLine] at h1 h2

/-- A code line is at an end of the fixed lines only if it was at this end of the lines. -/
theorem code_ends {width : Nat} : ∀ (a out : List FmtLine), fixAllTables cw ws skin width a = some out →
    (out = [] → a = []) ∧ (∀ x, out.getLast? = some x → IsCodeLine x → a.getLast? = some x) ∧ ∀ x, out.head? = some x → IsCodeLine x → a.head? = some x := by
  intro a
  induction a using tables_induction with
  | hnil => intro out h; simp [fixAllTables, findTables, findTablesLoop, fixTables] at h; subst h; simp
  | hother l lines hl ih =>
    intro out h
    rw [fixAllTables_other hl] at h
    obtain ⟨o, h1, rfl⟩ := Option.map_eq_some_iff.1 h
    obtain ⟨i1, i2, _⟩ := ih o h1
    refine ⟨by simp, fun x hx hc => ?_, fun x hx _ => by simpa using hx⟩
    cases o with
    | nil => rw [i1 rfl]; exact hx
    | cons c o =>
      have := i2 x (by simpa using hx) hc
      cases lines with
      | nil => simp at this
      | cons c lines => simpa using this
  | htable tbl lines hne hl hmax ih =>
    intro out h
    rw [fixAllTables_table hne hl hmax] at h
    obtain ⟨o, h1, h3⟩ := Option.bind_eq_some_iff.1 h
    obtain ⟨t, h2, rfl⟩ := Option.map_eq_some_iff.1 h3
    obtain ⟨i1, i2, _⟩ := ih o h1
    have ht := fixTableLines_table hl h2
    have htn := fixTableLines_ne hl hne h2
    refine ⟨fun h => absurd (List.append_eq_nil_iff.1 h).1 htn, fun x hx hc => ?_, fun x hx hc => ?_⟩
    · cases o with
      | nil =>
        rw [List.append_nil] at hx
        exact (not_both (ht x (List.mem_of_getLast? hx)) hc).elim
      | cons c o =>
        rw [List.getLast?_append] at hx ⊢
        have hx' : (c :: o).getLast? = some x := by
          rw [List.getLast?_cons] at hx ⊢
          simpa using hx
        rw [i2 x hx' hc]
        rfl
    · cases t with
      | nil => exact absurd rfl htn
      | cons c t =>
        simp at hx
        subst hx
        exact (not_both (ht c (by simp)) hc).elim

theorem wrap_append {width : Nat} : ∀ a b : List FmtLine, (match hardWrapLines cw ws skin width (a ++ b) with
      | some (.ok ls) => some ls
      | _ => none) =
    (match hardWrapLines cw ws skin width a with
      | some (.ok ls) => some ls
      | _ => none).bind fun x => (match hardWrapLines cw ws skin width b with
      | some (.ok ls) => some ls
      | _ => none).map (x ++ ·)
  | [], b => by
    simp [hardWrapLines]
  | .normal fc :: a, b => by
    have ih := wrap_append (width := width) a b
    simp only [List.cons_append, hardWrapLines, Option.bind_eq_bind]
    cases hardWrapLine cw ws skin width fc with
    | none => rfl
    | some r =>
      cases r with
      | error e => rfl
      | ok fcs =>
        simp only [Option.bind_some]
        revert ih
        generalize hardWrapLines cw ws skin width (a ++ b) = u
        generalize hardWrapLines cw ws skin width a = v
        generalize hardWrapLines cw ws skin width b = w
        rcases u with _ | _ | u <;> rcases v with _ | _ | v <;> rcases w with _ | _ | w <;> simp_all
  | .tableRow fc :: a, b => by
    have ih := wrap_append (width := width) a b
    simp only [List.cons_append, hardWrapLines, Option.bind_eq_bind]
    revert ih
    generalize hardWrapLines cw ws skin width (a ++ b) = u
    generalize hardWrapLines cw ws skin width a = v
    generalize hardWrapLines cw ws skin width b = w
    rcases u with _ | _ | u <;> rcases v with _ | _ | v <;> rcases w with _ | _ | w <;> simp_all
  | .tableRule fc :: a, b => by
    have ih := wrap_append (width := width) a b
    simp only [List.cons_append, hardWrapLines, Option.bind_eq_bind]
    revert ih
    generalize hardWrapLines cw ws skin width (a ++ b) = u
    generalize hardWrapLines cw ws skin width a = v
    generalize hardWrapLines cw ws skin width b = w
    rcases u with _ | _ | u <;> rcases v with _ | _ | v <;> rcases w with _ | _ | w <;> simp_all
  | .horizontalRule :: a, b => by
    have ih := wrap_append (width := width) a b
    simp only [List.cons_append, hardWrapLines, Option.bind_eq_bind]
    revert ih
    generalize hardWrapLines cw ws skin width (a ++ b) = u
    generalize hardWrapLines cw ws skin width a = v
    generalize hardWrapLines cw ws skin width b = w
    rcases u with _ | _ | u <;> rcases v with _ | _ | v <;> rcases w with _ | _ | w <;> simp_all

theorem wrapText_append (width : Option Nat) (a b : List FmtLine) :
    wrapText cw ws skin width (a ++ b) = (wrapText cw ws skin width a).bind fun x => (wrapText cw ws skin width b).map (x ++ ·) := by
  unfold wrapText
  cases width with
  | none => rfl
  | some w =>
    by_cases h : w ≥ 3
    · simp only [if_pos h]
      exact wrap_append a b
    · simp only [if_neg h]
      rfl

theorem source_table {m : MLine} (h : IsTableLine (FmtLine.ofMLine skin cw m)) : TableSource m := by
  cases m <;> simp [FmtLine.ofMLine, IsTableLine, TableSource] at h ⊢

theorem source_code {m : MLine} (h : IsCodeLine (FmtLine.ofMLine skin cw m)) : CodeSource m := by
  cases m with
  | normal kind cs =>
    have h : kind = .code := h
    subst h; trivial
  | _ => simp [FmtLine.ofMLine, IsCodeLine] at h

end ChunksLemmas
open ChunksLemmas

variable {cw : Char → Nat} {ws : Char → Bool} {skin : Skin}

/-- C98: formatting two texts, one after the other, gives the lines of the first one then those of the second one, if no table and no code block goes
on from the first one to the second one. If one of them can't be formatted, the whole can't. -/
theorem C98_lines (width : Option Nat) (a b : List MLine) (h : Separated a b) : FmtText.fromText cw ws skin (a ++ b) width =
    (FmtText.fromText cw ws skin a width).bind fun ta => (FmtText.fromText cw ws skin b width).map fun tb => { lines := ta.lines ++ tb.lines, width } := by
  have h1 : Apart IsTableLine (a.map (FmtLine.ofMLine skin cw)) (b.map (FmtLine.ofMLine skin cw)) := by
    intro x y hx hy ⟨ht, ht'⟩
    rw [List.getLast?_map] at hx
    rw [List.head?_map] at hy
    obtain ⟨mx, hx', rfl⟩ := Option.map_eq_some_iff.1 hx
    obtain ⟨my, hy', rfl⟩ := Option.map_eq_some_iff.1 hy
    exact (h mx my hx' hy').1 ⟨source_table ht, source_table ht'⟩
  unfold FmtText.fromText
  simp only [Option.bind_eq_bind, List.map_append]
  rw [tables_append _ _ h1]
  cases ha : fixAllTables cw ws skin (width.getD usizeMax) (a.map (FmtLine.ofMLine skin cw)) with
  | none => rfl
  | some x =>
    cases hb : fixAllTables cw ws skin (width.getD usizeMax) (b.map (FmtLine.ofMLine skin cw)) with
    | none => cases wrapText cw ws skin width (justifyBlocks x) <;> simp_all
    | some y =>
      have h2 : Apart IsCodeLine x y := by
        intro u v hu hv ⟨hc, hc'⟩
        have hu := (code_ends _ _ ha).2.1 u hu hc
        have hv := (code_ends _ _ hb).2.2 v hv hc'
        rw [List.getLast?_map] at hu
        rw [List.head?_map] at hv
        obtain ⟨mx, hx, rfl⟩ := Option.map_eq_some_iff.1 hu
        obtain ⟨my, hy, rfl⟩ := Option.map_eq_some_iff.1 hv
        exact (h mx my hx hy).2 ⟨source_code hc, source_code hc'⟩
      simp only [Option.bind_some, Option.map_some, blocks_append' _ _ h2, wrapText_append]
      cases wrapText cw ws skin width (justifyBlocks x) <;> cases wrapText cw ws skin width (justifyBlocks y) <;> rfl

theorem display_append (la lb : List FmtLine) (width : Option Nat) : FmtText.display skin { lines := la ++ lb, width } =
    (FmtText.display skin { lines := la, width }).bind fun pa => (FmtText.display skin { lines := lb, width }).map (pa ++ ·) := by
  simp only [FmtText.display, List.mapM_append, Option.bind_eq_bind, Option.pure_def]
  cases la.mapM fun l => skin.writeFmtLine l width false with
  | none => rfl
  | some x => cases lb.mapM fun l => skin.writeFmtLine l width false <;> rfl

theorem fromText_width {mlines : List MLine} {width : Option Nat} {t : FmtText} (h : FmtText.fromText cw ws skin mlines width = some t) : t.width = width := by
  simp only [FmtText.fromText, Option.bind_eq_bind, Option.bind_eq_some_iff, Option.some.injEq] at h
  obtain ⟨_, _, _, _, rfl⟩ := h
  rfl

/-- C98: and so what is displayed for the two texts is what is displayed for the first one, then what is displayed for the second one. -/
theorem C98_display (width : Option Nat) (a b : List MLine) (h : Separated a b) : shownPieces cw ws skin (a ++ b) width =
    (shownPieces cw ws skin a width).bind fun pa => (shownPieces cw ws skin b width).map (pa ++ ·) := by
  simp only [shownPieces, Option.bind_eq_bind]
  rw [C98_lines width a b h]
  cases ha : FmtText.fromText cw ws skin a width with
  | none => rfl
  | some ta =>
    have ea := fromText_width ha
    obtain ⟨la, wa⟩ := ta
    subst ea
    cases hb : FmtText.fromText cw ws skin b wa with
    | none =>
      simp only [Option.bind_some, Option.map_none, Option.bind_none]
      cases FmtText.display skin ⟨la, wa⟩ <;> rfl
    | some tb =>
      have eb := fromText_width hb
      obtain ⟨lb, wb⟩ := tb
      subst eb
      simp only [Option.bind_some, Option.map_some]
      exact display_append la lb wb

/-- C98: printing a text then another one has the effect of printing both together. -/
theorem C98_print (told : Option (Nat × Nat)) (a b : List MLine) (h : Separated a b) : skin.printText cw ws told (a ++ b) =
    (skin.printText cw ws told a).bind fun ca => (skin.printText cw ws told b).map (ca ++ ·) := by
  have e : ∀ m, skin.printText cw ws told m = (shownPieces cw ws skin m (some (terminalSize told).1)).map fun drawn =>
      drawn.flatMap fun ps => ps.map Piece.cmd ++ [.print ['\n']] := by
    intro m
    simp only [Skin.printText, Skin.termText, FmtText.print, shownPieces, Option.bind_eq_bind]
    cases FmtText.fromText cw ws skin m (some (terminalSize told).1) with
    | none => rfl
    | some t => cases hd : t.display skin <;> simp [hd]
  rw [e, e, e, C98_display _ a b h]
  cases shownPieces cw ws skin a (some (terminalSize told).1) <;> cases shownPieces cw ws skin b (some (terminalSize told).1) <;> simp

/-- C98: adding something at the end of a text doesn't change what is displayed before. -/
theorem C98_prefix (width : Option Nat) (a b : List MLine) (h : Separated a b) {shown : List (List Piece)}
    (hs : shownPieces cw ws skin (a ++ b) width = some shown) : ∃ pa, shownPieces cw ws skin a width = some pa ∧ pa <+: shown := by
  rw [C98_display width a b h] at hs
  obtain ⟨pa, h1, h2⟩ := Option.bind_eq_some_iff.1 hs
  obtain ⟨pb, _, rfl⟩ := Option.map_eq_some_iff.1 h2
  exact ⟨pa, h1, List.prefix_append _ _⟩

/-- C98: a text in any number of parts is displayed part by part. -/
theorem C98_parts (width : Option Nat) : ∀ (parts : List (List MLine)), (∀ pre p post, parts = pre ++ p :: post → Separated p post.flatten) →
    shownPieces cw ws skin parts.flatten width = (parts.mapM fun p => shownPieces cw ws skin p width).map List.flatten
  | [], _ => by
    cases width with
    | none => rfl
    | some w =>
      simp only [shownPieces, FmtText.fromText, List.flatten_nil, List.map_nil]
      have e1 : fixAllTables cw ws skin ((some w).getD usizeMax) [] = some [] := rfl
      have e2 : wrapText cw ws skin (some w) (justifyBlocks []) = some [] := by
        show (if w ≥ 3 then _ else _) = _
        split <;> rfl
      simp only [e1, e2, Option.bind_eq_bind, Option.bind_some]
      rfl
  | p :: parts, h => by
    have ih := C98_parts width parts fun pre q post e => h (p :: pre) q post (by rw [e]; rfl)
    rw [List.flatten_cons, C98_display width p parts.flatten (h [] p parts rfl), ih]
    simp only [List.mapM_cons, Option.bind_eq_bind, Option.pure_def]
    cases shownPieces cw ws skin p width <;> cases parts.mapM fun p => shownPieces cw ws skin p width <;> simp

/-- C98: a text without tables and without code is displayed line by line. -/
theorem C98_line_by_line (width : Option Nat) (text : List MLine) (h : ∀ l ∈ text, ¬ TableSource l ∧ ¬ CodeSource l) :
    shownPieces cw ws skin text width = (text.mapM fun l => shownPieces cw ws skin [l] width).map List.flatten := by
  have key := C98_parts (cw := cw) (ws := ws) (skin := skin) width (text.map ([·])) (by
    intro pre p post e x y hx _
    have hp : p ∈ text.map ([·]) := by rw [e]; simp
    obtain ⟨l, hl, rfl⟩ := List.mem_map.1 hp
    simp only [List.getLast?_singleton, Option.some.injEq] at hx
    subst hx
    exact ⟨fun c => (h l hl).1 c.1, fun c => (h l hl).2 c.1⟩)
  have flat : ∀ l : List MLine, (l.map ([·])).flatten = l := by intro l; induction l <;> simp_all
  rw [flat] at key
  rw [key, List.mapM_map]
  rfl

/-- C98: the content width is the greater of those of the parts. -/
theorem C98_content_width (width : Option Nat) (a b : List MLine) (h : Separated a b) {ta tb : FmtText}
    (ha : FmtText.fromText cw ws skin a width = some ta) (hb : FmtText.fromText cw ws skin b width = some tb) :
    ∃ t, FmtText.fromText cw ws skin (a ++ b) width = some t ∧ t.contentWidth = max ta.contentWidth tb.contentWidth := by
  refine ⟨_, by rw [C98_lines width a b h, ha, hb]; rfl, ?_⟩
  have key : ∀ (l : List FmtLine) (m : Nat), l.foldl (fun m l => max m l.visibleLength) m = max m (l.foldl (fun m l => max m l.visibleLength) 0) := by
    intro l
    induction l with
    | nil => intro m; simp
    | cons x l ih => intro m; rw [List.foldl_cons, ih, List.foldl_cons, ih (max 0 _)]; omega
  simp only [FmtText.contentWidth, List.foldl_append]
  exact key tb.lines _

/-- Two tables one after the other are one table, whose columns are common. -/
theorem C98_table_counterexample : ∃ a b : List MLine, shownText (fun _ => 1) (· == ' ') {} (a ++ b) none ≠
    (shownText (fun _ => 1) (· == ' ') {} a none).bind fun x => (shownText (fun _ => 1) (· == ' ') {} b none).map (x ++ ·) :=
  ⟨[.tableRow [(.paragraph, [⟨"a".toList, {}⟩])]], [.tableRow [(.paragraph, [⟨"longer".toList, {}⟩])]], by decide +kernel⟩

/-- And two blocks of code are one block, as wide as its widest line. -/
theorem C98_code_counterexample : ∃ a b : List MLine, shownText (fun _ => 1) (· == ' ') {} (a ++ b) none ≠
    (shownText (fun _ => 1) (· == ' ') {} a none).bind fun x => (shownText (fun _ => 1) (· == ' ') {} b none).map (x ++ ·) :=
  ⟨[.normal .code [⟨"a".toList, {}⟩]], [.normal .code [⟨"longer".toList, {}⟩]], by decide +kernel⟩

/-- Two parts of the examples: a table before a paragraph, then code. -/
def firstPart : List MLine := [.normal .code [⟨"ab c".toList, {}⟩], .tableRow [(.paragraph, [⟨"a b c d".toList, {}⟩]), (.paragraph, [⟨"e".toList, {}⟩])]]
def secondPart : List MLine := [.normal .paragraph [⟨"some longer words".toList, {}⟩], .normal .code [⟨"x".toList, {}⟩]]

example : Separated firstPart secondPart := by
  intro x y hx hy
  simp [firstPart, secondPart] at hx hy
  subst hx hy
  exact ⟨fun h => h.2, fun h => h.2⟩

example : (shownText (fun _ => 1) (· == ' ') {} (firstPart ++ secondPart) (some 11)).map (·.map String.ofList) =
    some ["ab c", "│a b c│ e │", "│  d  │   │", "some longer", "words", "x"] := by decide +kernel

end Verif.Props
