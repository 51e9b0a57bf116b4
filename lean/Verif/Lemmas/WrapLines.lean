import Verif.Lemmas.Wrap
import Verif.Spec.Lines
/-! Lemmas on `hard_wrap_lines`. -/
namespace Verif

theorem lineStyle_eq (skin : Skin) (k : Kind) : skin.lineStyle k = styleOf skin k := by
  cases k with
  | header l =>
    cases l with
    | zero => simp [Skin.lineStyle, styleOf]
    | succ n =>
      by_cases h : n < 8
      · have h1 : n + 1 ≤ 8 := by omega
        simp [Skin.lineStyle, styleOf, h, h1]
      · have h1 : ¬ n + 1 ≤ 8 := by omega
        simp [Skin.lineStyle, styleOf, h, h1]
  | _ => rfl

theorem styleOf_followUp (skin : Skin) (k : Kind) : styleOf skin (followUpKind k) = styleOf skin k := by
  cases k <;> rfl

theorem margins_sum (ls : LineStyle) (width : Nat) :
    (ls.marginsIn (some width)).1 + (ls.marginsIn (some width)).2 = marginSum ls width := by
  simp only [LineStyle.marginsIn, marginSum]
  split
  · rw [if_neg (by omega)]; rfl
  · rw [if_pos (by omega)]

theorem marginSum_le (ls : LineStyle) (width : Nat) : marginSum ls width ≤ width := by
  simp only [marginSum]; split <;> omega

theorem marginSum_3 (ls : LineStyle) (width : Nat) (h : 3 ≤ width) : marginSum ls width + 3 ≤ width := by
  simp only [marginSum]; split <;> omega

/-- `hard_wrap_lines` on a normal line, in terms of the specification. -/
theorem hardWrapLine_eq (cw : Char → Nat) (ws : Char → Bool) (skin : Skin) (width : Nat) (fc : FmtComposite) :
    hardWrapLine cw ws skin width fc =
      (styleOf skin fc.kind).bind fun ls =>
        if fc.visibleLength + marginSum ls width ≤ width then some (.ok [fc])
        else hardWrapComposite cw ws skin fc (width - marginSum ls width) := by
  unfold hardWrapLine
  rw [lineStyle_eq]
  cases h : styleOf skin fc.kind with
  | none => rfl
  | some ls =>
    have hm := margins_sum ls width
    have hle := marginSum_le ls width
    simp only [Option.bind_eq_bind, Option.bind_some]
    rw [Nat.add_assoc, hm]
    split
    · rfl
    · have h1 : csub width (ls.marginsIn (some width)).1 = some (width - (ls.marginsIn (some width)).1) := by
        simp only [csub]; rw [if_pos (by omega)]
      have h2 : csub (width - (ls.marginsIn (some width)).1) (ls.marginsIn (some width)).2
          = some (width - marginSum ls width) := by
        simp only [csub]; rw [if_pos (by omega)]; congr 1; omega
      rw [h1]; simp only [Option.bind_some]; rw [h2]; rfl

theorem hardWrapLine_error {cw : Char → Nat} {ws : Char → Bool} {skin : Skin} {width : Nat} {fc : FmtComposite}
    {e : InsufficientWidth} (h : hardWrapLine cw ws skin width fc = some (.error e)) : width < 3 := by
  rw [hardWrapLine_eq] at h
  cases hs : styleOf skin fc.kind with
  | none => rw [hs] at h; simp at h
  | some ls =>
    rw [hs] at h
    simp only [Option.bind_some] at h
    split at h
    · simp at h
    · unfold hardWrapComposite at h
      split at h
      · have := marginSum_3 ls width; omega
      · split at h
        · simp at h
        · simp only at h
          split at h
          · simp at h
          · cases hm : csub (width - marginSum ls width) (compositeKindWidths skin fc.kind).1 with
            | none => rw [hm] at h; simp at h
            | some max =>
              rw [hm] at h
              simp only [Option.bind_eq_bind, Option.bind_some] at h
              generalize wrapTokens cw skin _ _ _ = r at h
              cases r with
              | none => simp at h
              | some r => simp at h

/-- One step of `hard_wrap_lines`, whatever the line. -/
def wrapOne (cw : Char → Nat) (ws : Char → Bool) (skin : Skin) (width : Nat) :
    FmtLine → Run (Except InsufficientWidth (List FmtLine))
  | .normal fc => (hardWrapLine cw ws skin width fc).map fun r => r.map (·.map .normal)
  | line => some (.ok [line])

theorem hardWrapLines_cons (cw : Char → Nat) (ws : Char → Bool) (skin : Skin) (width : Nat) (line : FmtLine)
    (rest : List FmtLine) :
    hardWrapLines cw ws skin width (line :: rest) =
      (wrapOne cw ws skin width line).bind fun r =>
        match r with
        | .error e => some (.error e)
        | .ok a => (hardWrapLines cw ws skin width rest).bind fun r' =>
          match r' with
          | .error e => some (.error e)
          | .ok b => some (.ok (a ++ b)) := by
  cases line with
  | normal fc =>
    simp only [hardWrapLines, wrapOne, Option.bind_eq_bind]
    cases hardWrapLine cw ws skin width fc with
    | none => rfl
    | some r => cases r <;> rfl
  | _ =>
    simp only [hardWrapLines, wrapOne, Option.bind_eq_bind, Option.bind_some]
    rfl

theorem hardWrapLines_flatMap (cw : Char → Nat) (ws : Char → Bool) (skin : Skin) (width : Nat)
    (lines out : List FmtLine) (f : FmtLine → List FmtLine)
    (h : ∀ line ∈ lines, wrapOne cw ws skin width line = some (.ok (f line))) (ho : out = lines.flatMap f) :
    hardWrapLines cw ws skin width lines = some (.ok out) := by
  subst ho
  induction lines with
  | nil => rfl
  | cons line rest ih =>
    rw [hardWrapLines_cons, h line (by simp)]
    simp only [Option.bind_some]
    rw [ih (fun l hl => h l (by simp [hl]))]
    simp

/-- Default value of the result on a line. -/
def blockOf (cw : Char → Nat) (ws : Char → Bool) (skin : Skin) (width : Nat) (line : FmtLine) : List FmtLine :=
  match wrapOne cw ws skin width line with
  | some (.ok b) => b
  | _ => []

theorem hardWrapLines_ok {cw : Char → Nat} {ws : Char → Bool} {skin : Skin} {width : Nat}
    {lines out : List FmtLine} (h : hardWrapLines cw ws skin width lines = some (.ok out)) :
    out = lines.flatMap (blockOf cw ws skin width) ∧
    ∀ line ∈ lines, wrapOne cw ws skin width line = some (.ok (blockOf cw ws skin width line)) := by
  induction lines generalizing out with
  | nil => simp [hardWrapLines] at h; subst h; simp
  | cons line rest ih =>
    rw [hardWrapLines_cons] at h
    cases h1 : wrapOne cw ws skin width line with
    | none => rw [h1] at h; simp at h
    | some r =>
      rw [h1] at h
      simp only [Option.bind_some] at h
      cases r with
      | error e => simp at h
      | ok a =>
        simp only at h
        cases h2 : hardWrapLines cw ws skin width rest with
        | none => rw [h2] at h; simp at h
        | some r' =>
          rw [h2] at h
          simp only [Option.bind_some] at h
          cases r' with
          | error e => simp at h
          | ok b =>
            simp only [Option.some.injEq, Except.ok.injEq] at h
            obtain ⟨i1, i2⟩ := ih h2
            have hb : blockOf cw ws skin width line = a := by simp [blockOf, h1]
            refine ⟨?_, ?_⟩
            · rw [← h, i1]; simp [hb]
            · intro l hl
              simp only [List.mem_cons] at hl
              rcases hl with rfl | hl
              · rw [hb, h1]
              · exact i2 l hl

theorem hardWrapLines_error {cw : Char → Nat} {ws : Char → Bool} {skin : Skin} {width : Nat}
    {lines : List FmtLine} {e : InsufficientWidth}
    (h : hardWrapLines cw ws skin width lines = some (.error e)) : width < 3 := by
  induction lines generalizing e with
  | nil => simp [hardWrapLines] at h
  | cons line rest ih =>
    rw [hardWrapLines_cons] at h
    cases h1 : wrapOne cw ws skin width line with
    | none => rw [h1] at h; simp at h
    | some r =>
      rw [h1] at h
      simp only [Option.bind_some] at h
      cases r with
      | error e' =>
        cases line with
        | normal fc =>
          simp only [wrapOne, Option.map_eq_some_iff] at h1
          obtain ⟨r, hr, hr2⟩ := h1
          cases r with
          | error e'' => exact hardWrapLine_error hr
          | ok _ => simp [Except.map] at hr2
        | _ => simp [wrapOne] at h1
      | ok a =>
        simp only at h
        cases h2 : hardWrapLines cw ws skin width rest with
        | none => rw [h2] at h; simp at h
        | some r' =>
          rw [h2] at h
          simp only [Option.bind_some] at h
          cases r' with
          | error e => exact ih h2
          | ok b => simp at h

end Verif
