import Verif.Model.ReleaseView
import Verif.Props.TextView
import Verif.Props.Release
import Verif.Props.ReleaseList
import Verif.Props.Fit
/-! C109: text views in release builds. -/
namespace Verif.Props
open Verif Verif.Spec

theorem release_prefix_same {skin : Skin} {kind : Kind} {ps : List Piece} (h : skin.writePrefix kind = some ps) : Release.writePrefix skin kind = ps := by
  unfold Skin.writePrefix at h
  unfold Release.writePrefix
  cases kind with
  | listItemFollowUp d =>
    dsimp only at h ⊢
    by_cases c : skin.indentMode = .block
    · rw [if_pos c] at h ⊢
      by_cases c2 : d + 1 < 256
      · rw [if_pos c2] at h
        rw [Nat.mod_eq_of_lt c2]
        exact Option.some.inj h
      · rw [if_neg c2] at h; cases h
    · rw [if_neg c] at h ⊢; exact Option.some.inj h
  | _ => exact Option.some.inj h

theorem release_composite_same {skin : Skin} {fc : FmtComposite} {outer : Option Nat} {rc margins : Bool} {ps : List Piece}
    (h : skin.writeFmtComposite fc outer rc margins = some ps) : Release.writeFmtComposite skin fc outer rc margins = some ps := by
  simp only [Skin.writeFmtComposite, Release.writeFmtComposite, Option.bind_eq_bind, Option.bind_eq_some_iff] at h ⊢
  obtain ⟨ls, h1, pre, h2, h3⟩ := h
  refine ⟨ls, h1, ?_⟩
  rw [release_prefix_same h2]
  exact h3

theorem release_cells_same {skin : Skin} : ∀ {cells : List FmtComposite} {ps : List Piece}, skin.writeCells cells = some ps → Release.writeCells skin cells = some ps
  | [], _, h => h
  | c :: cs, ps, h => by
    simp only [Skin.writeCells, Release.writeCells, Option.bind_eq_bind, Option.bind_eq_some_iff] at h ⊢
    obtain ⟨p, h1, r, h2, h3⟩ := h
    exact ⟨p, release_composite_same h1, r, release_cells_same h2, h3⟩

theorem release_line_same {skin : Skin} {l : FmtLine} {w : Option Nat} {rc : Bool} {ps : List Piece} (h : skin.writeFmtLine l w rc = some ps) :
    Release.writeFmtLine skin l w rc = some ps := by
  cases l with
  | normal fc => exact release_composite_same h
  | tableRow cells =>
    simp only [Skin.writeFmtLine, Release.writeFmtLine, Option.bind_eq_bind, Option.bind_eq_some_iff] at h ⊢
    obtain ⟨r, h2, h3⟩ := h
    exact ⟨r, release_cells_same h2, h3⟩
  | tableRule rule => exact h
  | horizontalRule => exact h

theorem release_rows_same {v : TextView} {skin : Skin} {width : Nat} {bar : Option (Nat × Nat)} : ∀ {n j : Nat} {rows : List WrittenRow},
    v.writeRows skin width bar n j = some rows → Release.viewRows v skin width bar n j = some rows
  | 0, _, _, h => h
  | n + 1, j, rows, h => by
    simp only [TextView.writeRows, Release.viewRows, Option.bind_eq_bind, Option.bind_eq_some_iff] at h ⊢
    obtain ⟨y, hy, ps, h1, rest, h2, h3⟩ := h
    have e : Release.addU16 v.area.top j = y := by
      unfold u16Add at hy
      unfold u16Size at hy
      unfold Release.addU16
      split at hy
      · cases hy; omega
      · cases hy
    refine ⟨ps, ?_, rest, release_rows_same h2, by rw [e]; exact h3⟩
    unfold TextView.writeText at h1
    unfold Release.viewText
    split at h1
    · rename_i l hl; rw [hl]; exact release_line_same h1
    · rename_i hl; rw [hl]; exact h1

/-- C109: what a debug build writes, a release build writes. -/
theorem C109_same (v : TextView) (skin : Skin) (rows : List WrittenRow) (h : v.writeOn skin = some rows) : Release.viewWriteOn v skin = some rows := by
  simp only [TextView.writeOn, Release.viewWriteOn, Option.bind_eq_bind, Option.bind_eq_some_iff] at h ⊢
  obtain ⟨bar, h1, w, h2, h3⟩ := h
  refine ⟨bar, h1, ?_⟩
  have e : Release.viewWidth v bar = w := by
    unfold TextView.textWidth at h2
    unfold Release.viewWidth
    cases bar with
    | none => exact Option.some.inj h2
    | some b =>
      dsimp only at h2 ⊢
      unfold csub at h2
      unfold Release.wsub
      split at h2
      · rename_i c; rw [if_pos c]; exact Option.some.inj h2
      · cases h2
  rw [e]
  exact release_rows_same h3

theorem release_neg {n : Int} (h1 : -2147483648 ≤ n) (h2 : n < 0) :
    Release.i32AsUsize (Release.wrapI32 (-n)) = if n = -2147483648 then 18446744071562067968 else (-n).toNat := by
  unfold Release.i32AsUsize Release.wrapI32
  split <;> omega

/-- C109: scrolling by lines is the same as in a debug build, when it doesn't panic. -/
theorem C109_lines_same (v v' : TextView) (hl : v.lines.length < 2 ^ 63) (hs : v.scroll ≤ v.lines.length) (n : Int)
    (h1 : -2147483648 ≤ n) (h2 : n ≤ 2147483647) (h : v.tryScrollLines n = some v') : Release.viewScrollLines v n = v' := by
  unfold TextView.tryScrollLines i32Min at h
  unfold Release.viewScrollLines
  by_cases c : n < 0
  · rw [if_pos c] at h ⊢
    by_cases c2 : n = -2147483648
    · rw [if_pos c2] at h; cases h
    · rw [if_neg c2] at h
      dsimp only
      rw [release_neg h1 c, if_neg c2, ← Option.some.inj h]
      split
      · rfl
      · congr 1
        unfold Release.wsub
        rw [if_pos (by omega)]
  · rw [if_neg c] at h ⊢
    rw [← Option.some.inj h]
    congr 1
    unfold Release.wadd Release.i32AsUsize
    omega

/-- C109: scrolling by any `i32` number of lines, the least one included, brings the scroll to the requested value, bounded by 0 and the maximum
(for less than `2^31` lines). -/
theorem C109_lines (v : TextView) (hl : v.lines.length < 2 ^ 31) (hs : v.scroll ≤ v.lines.length - v.area.height) (n : Int)
    (h1 : -2147483648 ≤ n) (h2 : n ≤ 2147483647) :
    Release.viewScrollLines v n = { v with scroll := clampTo (v.lines.length - v.area.height) (v.scroll + n) } := by
  unfold Release.viewScrollLines
  by_cases c : n < 0
  · rw [if_pos c]
    dsimp only
    congr 1
    rw [release_neg h1 c]
    unfold clampTo Release.wsub
    by_cases c2 : n = -2147483648
    · rw [if_pos c2, if_pos (by omega)]
      repeat' split
      all_goals omega
    · rw [if_neg c2]
      repeat' split
      all_goals omega
  · rw [if_neg c]
    unfold TextView.setScroll TextView.contentHeight
    congr 1
    unfold clampTo Release.wadd Release.i32AsUsize
    repeat' split
    all_goals omega

theorem toI32_range (x : Flt) : -2147483648 ≤ x.toI32 ∧ x.toI32 ≤ 2147483647 := by
  cases x <;> simp only [Flt.toI32, saturateI32, i32Min, i32Max] <;> omega

/-- C109: scrolling by pages never panics: it's the same as in a debug build when this one doesn't, and otherwise it goes to the top. -/
theorem C109_pages (v : TextView) (hl : v.lines.length < 2 ^ 63) (hs : v.scroll ≤ v.lines.length) (pages : Flt) :
    v.tryScrollPages pages = some (Release.viewScrollPages v pages) ∨
    v.tryScrollPages pages = none ∧ Release.viewScrollPages v pages = { v with scroll := 0 } := by
  unfold TextView.tryScrollPages Release.viewScrollPages
  dsimp only
  generalize hx : (if (Flt.mul f64.round pages (.fin v.area.height)).isNegative = true then (Flt.mul f64.round pages (.fin v.area.height)).floor
    else (Flt.mul f64.round pages (.fin v.area.height)).ceil) = x
  obtain ⟨h1, h2⟩ := toI32_range x
  cases h : v.tryScrollLines x.toI32 with
  | some v' => left; rw [C109_lines_same v v' hl hs _ h1 h2 h]
  | none =>
    right
    refine ⟨rfl, ?_⟩
    unfold TextView.tryScrollLines i32Min at h
    by_cases c : x.toI32 < 0
    · rw [if_pos c] at h
      by_cases c2 : x.toI32 = -2147483648
      · unfold Release.viewScrollLines
        rw [if_pos c]
        dsimp only
        rw [release_neg h1 c, if_pos c2, if_pos (by omega)]
      · rw [if_neg c2] at h; cases h
    · rw [if_neg c] at h; cases h

/-- C109: a `MadView` writes the same as in a debug build, when it doesn't panic, and so does `write_in_area`. -/
theorem C109_mad (cw : Char → Nat) (ws : Char → Bool) (m : MadView) (hr : Readable m.skin m.mlines) (rows : List WrittenRow) :
    (m.writeOn cw ws = some rows → Release.madWriteOn cw ws m = some rows) ∧
    (m.skin.writeInArea cw ws m.mlines m.area = some rows → Release.writeInArea cw ws m.skin m.mlines m.area = some rows) := by
  have ht : ∀ t, m.skin.areaText cw ws m.mlines m.area = some t → Release.areaText cw ws m.skin m.mlines m.area = some t := by
    intro t h
    unfold Skin.areaText csub at h
    unfold Release.areaText Release.wsub
    by_cases c : 1 ≤ m.area.width
    · rw [if_pos c] at h ⊢
      exact C93_same cw ws m.skin m.mlines _ hr t h
    · rw [if_neg c] at h; cases h
  constructor
  · intro h
    simp only [MadView.writeOn, MadView.view, Release.madWriteOn, Release.madText, Option.bind_eq_bind, Option.bind_eq_some_iff] at h ⊢
    obtain ⟨v, ⟨t, h1, h2⟩, h3⟩ := h
    exact ⟨v, ⟨t, ht t h1, h2⟩, C109_same v m.skin rows h3⟩
  · intro h
    simp only [Skin.writeInArea, Release.writeInArea, Option.bind_eq_bind, Option.bind_eq_some_iff] at h ⊢
    obtain ⟨t, h1, h3⟩ := h
    exact ⟨t, ht t h1, C109_same _ m.skin rows h3⟩

theorem release_view_rows (cw : Char → Nat) (v : TextView) (skin : Skin) (hk : OneColumnSkin cw skin) (width : Nat) (bar : Option (Nat × Nat))
    (hd : ∀ l ∈ v.lines, DrawableLine cw skin l) : ∀ (n j : Nat), ∃ rows, Release.viewRows v skin width bar n j = some rows ∧ rows.length = n ∧
      ∀ row ∈ rows, width ≤ piecesCols cw row.pieces
  | 0, _ => ⟨[], rfl, rfl, by simp⟩
  | n + 1, j => by
    obtain ⟨rows, h1, h2, h3⟩ := release_view_rows cw v skin hk width bar hd n (j + 1)
    have ht : ∃ ps, Release.viewText v skin width j = some ps ∧ width ≤ piecesCols cw ps := by
      unfold Release.viewText
      cases hl : v.lines[v.scroll + j]? with
      | some l =>
        obtain ⟨ps, p1, p2⟩ := C10_columns cw skin hk l (hd l (List.mem_of_getElem? hl)) width
        exact ⟨ps, release_line_same p1, by omega⟩
      | none =>
        obtain ⟨chunks, c1, c2⟩ := C17_filling ' ' width
        simp only [c1, Option.bind_eq_bind, Option.bind_some]
        refine ⟨_, rfl, ?_⟩
        have hsp : ∀ n, Verif.textWidth cw (List.replicate n ' ') = n := by
          intro n
          induction n with
          | zero => rfl
          | succ n ih => rw [List.replicate_succ, Verif.textWidth, ih, hk.space]; omega
        unfold piecesCols
        rw [show piecesText (chunks.map fun t => (skin.paragraph.style, t)) = chunks.flatten by
          clear c1 c2
          induction chunks with
          | nil => rfl
          | cons a as ih => simp only [piecesText, List.map_cons, List.flatMap_cons, List.flatten_cons] at ih ⊢; rw [ih], c2, hsp]
        exact Nat.le_refl _
    obtain ⟨ps, t1, t2⟩ := ht
    refine ⟨_, by simp only [Release.viewRows, t1, h1, Option.bind_eq_bind, Option.bind_some]; rfl, by simp [h2], ?_⟩
    intro row hr
    cases List.mem_cons.1 hr with
    | inl h => subst h; dsimp only; rw [piecesCols_append]; omega
    | inr h => exact h3 row h

/-- C109: in an area without column, a view with a scrollbar, which makes a debug build panic, doesn't end writing its first row: each row has `2^64 - 1`
columns or more. -/
theorem C109_no_column (cw : Char → Nat) (v : TextView) (skin : Skin) (hk : OneColumnSkin cw skin) (hw : v.area.width = 0)
    (hh : 1 ≤ v.area.height) (bar : Nat × Nat) (hb : v.scrollbar = some (some bar)) (hd : ∀ l ∈ v.lines, DrawableLine cw skin l) :
    v.writeOn skin = none ∧
    ∃ rows, Release.viewWriteOn v skin = some rows ∧ rows.length = v.area.height ∧ rows ≠ [] ∧ ∀ row ∈ rows, 2 ^ 64 - 1 ≤ piecesCols cw row.pieces := by
  constructor
  · simp [TextView.writeOn, hb, TextView.textWidth, csub, hw]
  · obtain ⟨rows, h1, h2, h3⟩ := release_view_rows cw v skin hk (2 ^ 64 - 1) (some bar) hd v.area.height 0
    refine ⟨rows, ?_, h2, ?_, h3⟩
    · simp only [Release.viewWriteOn, hb, Option.bind_eq_bind, Option.bind_some, Release.viewWidth, hw]
      exact h1
    · intro h; rw [h] at h2; simp at h2; omega

/-- C109: scrolling a `MadView` by lines, or by pages when their lines are counted by an `i32`, is the same as in a debug build. -/
theorem C109_mad_scroll (cw : Char → Nat) (ws : Char → Bool) (m m' : MadView) (hr : Readable m.skin m.mlines) (n : Int)
    (h1 : -2147483648 ≤ n) (h2 : n ≤ 2147483647) (count : Nat) (hc : m.HasLines cw ws count) (hl : count < 2 ^ 63) (hs : m.scroll ≤ count) :
    (m.tryScrollLines cw ws n = some m' → Release.madScrollLines cw ws m n = some m') ∧
    (m.tryScrollPages cw ws n = some m' → Release.madScrollPages cw ws m n = some m') := by
  have key : ∀ k, -2147483648 ≤ k → k ≤ 2147483647 → m.tryScrollLines cw ws k = some m' → Release.madScrollLines cw ws m k = some m' := by
    intro k k1 k2 h
    obtain ⟨t, t1, t2⟩ := hc
    simp only [MadView.tryScrollLines, MadView.view, Skin.areaText, Release.madScrollLines, Release.madText, Release.areaText, Option.bind_eq_bind,
      Option.bind_eq_some_iff] at h ⊢
    obtain ⟨v, ⟨t', ⟨w, hw, h1⟩, h2⟩, v', h3, h4⟩ := h
    unfold csub at hw
    by_cases c : 1 ≤ m.area.width
    · rw [if_pos c] at hw
      have hw := Option.some.inj hw
      subst hw
      rw [t1] at h1
      have h1 := Option.some.inj h1
      subst h1
      refine ⟨v, ⟨t, by rw [Release.wsub, if_pos c]; exact C93_same cw ws _ _ _ hr _ t1, h2⟩, ?_⟩
      have h2 := Option.some.inj h2
      subst h2
      rw [C109_lines_same _ v' (by simpa [t2] using hl) (by simpa [t2] using hs) k k1 k2 h3]
      exact h4
    · rw [if_neg c] at hw; cases hw
  refine ⟨key n h1 h2, fun h => ?_⟩
  unfold MadView.tryScrollPages i32Min i32Max at h
  unfold Release.madScrollPages
  by_cases c : -2147483648 ≤ n * m.area.height ∧ n * m.area.height ≤ 2147483647
  · rw [if_pos c] at h
    rw [wrapI32_small c.1 c.2]
    exact key _ c.1 c.2 h
  · rw [if_neg c] at h; cases h

/-- C109: but a number of pages which is a too large number of lines may go the wrong way, or nowhere: from the middle of a text in two rows, `2^30` pages
down go to the top, and `2^31 - 1` pages down go up of two lines. -/
theorem C109_pages_counterexample :
    (Release.madScrollPages renderCw (· == ' ') { exMad with area := ⟨0, 0, 10, 2⟩, scroll := 5 } 1073741824).map (·.scroll) = some 0 ∧
    (Release.madScrollPages renderCw (· == ' ') { exMad with area := ⟨0, 0, 10, 2⟩, scroll := 5 } 2147483647).map (·.scroll) = some 3 := by
  constructor <;> decide +kernel

/-- C109: in an area without column, a text without scrollbar isn't wrapped, and is written out of the area. -/
theorem C109_unwrapped_counterexample :
    (Release.writeInArea renderCw (· == ' ') {} [.normal .paragraph [⟨"ab cd".toList, {}⟩]] ⟨3, 0, 0, 1⟩).map
      (fun rows => rows.map fun r => (r.x, String.ofList (piecesText r.pieces))) = some [(3, "ab cd")] := by decide +kernel

/-- C109: the hypotheses of `C109_no_column` are those of any text larger than its area. -/
example : ∃ v : TextView, v.area.width = 0 ∧ 1 ≤ v.area.height ∧ (∃ bar, v.scrollbar = some (some bar)) ∧ OneColumnSkin renderCw renderSkin ∧
    ∀ l ∈ v.lines, DrawableLine renderCw renderSkin l :=
  ⟨{ area := ⟨0, 0, 0, 3⟩, lines := List.replicate 5 .horizontalRule }, rfl, by decide, ⟨_, rfl⟩, renderSkin_one,
    by intro l hl; rw [List.eq_of_mem_replicate hl]; trivial⟩

example : exMad.HasLines renderCw (· == ' ') 10 ∧ Release.madScrollLines renderCw (· == ' ') exMad 4 = exMad.tryScrollLines renderCw (· == ' ') 4 ∧
    (Release.madScrollLines renderCw (· == ' ') exMad (-2147483648)).map (·.scroll) = some 0 ∧
    exMad.tryScrollLines renderCw (· == ' ') (-2147483648) = none := ⟨⟨_, rfl, by decide⟩, by rfl, by decide +kernel, by rfl⟩

end Verif.Props
