import Verif.Lemmas.Fitter
import Verif.Props.Render
/-! Properties C12 and C13: fitting of composites. -/
namespace Verif.Props
open Verif

/-- What a composite must be for a fitter to be able to shorten it: its cached length is right, its prefix leaves room for an
ellipsis, its compounds aren't empty if the left can be truncated, and tokens are not just two wide characters if they can be
elided. -/
structure Fittable (cw : Char → Nat) (ws : Char → Bool) (skin : Skin) (f : Fitter) (maxWidth : Nat) (fc : FmtComposite) : Prop where
  cached : fc.visibleLength = lineCols cw skin.indentMode fc
  room : prefixCols skin.indentMode fc.kind = 0 ∨ prefixCols skin.indentMode fc.kind + 1 ≤ maxWidth ∧ 2 ≤ maxWidth
  nonEmpty : f.align = .right ∨ f.align = .center → ∀ c ∈ fc.compounds, c.src ≠ []
  tokens : f.midToken = true → ThickTokens cw ws fc.compounds

theorem cols_eq (cw : Char → Nat) (cs : List Compound) : colsOf cw (styledChars cs) = compoundsWidth cw cs :=
  styledChars_width cw cs

private theorem dots_cols {cw : Char → Nat} (he : cw '…' = 1) : colsOf cw [dots] = 1 := by
  simp [colsOf, dots, he]

private theorem dots_cons {cw : Char → Nat} (he : cw '…' = 1) (u : List (Char × Flags)) :
    colsOf cw (dots :: u) = 1 + colsOf cw u := by
  simp [colsOf, dots, he]

private theorem one_col {cw : Char → Nat} (x : Char × Flags) : colsOf cw [x] = cw x.1 := by
  simp [colsOf]

/-- What a truncation gives: `src` is the original text, `out` the result; with the last clauses saying that no more than needed is
removed from a text whose width is at least `full`. -/
def Truncated (cw : Char → Nat) (align : Alignment) (room : Nat) (full : Prop) (src out : List (Char × Flags)) : Prop :=
  match align with
  | .left | .unspecified => ∃ u q, src = u ++ q ∧ q ≠ [] ∧ out = u ++ [dots] ∧
      (full → ∀ y q', q = y :: q' → room < colsOf cw (u ++ [y, dots]))
  | .right => ∃ p u, src = p ++ u ∧ p ≠ [] ∧ out = dots :: u ∧
      (full → ∀ p' y, p = p' ++ [y] → room < colsOf cw (dots :: y :: u))
  | .center => ∃ p u q, src = p ++ u ++ q ∧ q ≠ [] ∧
      ((p = [] ∧ out = u ++ [dots] ∧ (full → ∀ y q', q = y :: q' → room < colsOf cw (u ++ [y, dots]))) ∨
        (p ≠ [] ∧ out = dots :: u ++ [dots] ∧
          (full → ∀ p' x y q', p = p' ++ [x] → q = y :: q' → room < colsOf cw (dots :: x :: (u ++ [y, dots])))) ∨
        (p = [] ∧ u = [] ∧ out = [dots] ∧ (full → ∃ x ∈ src, room ≤ cw x.1)))

/-- The truncations, with what they remove. -/
theorem truncate_ok {cw : Char → Nat} (he : cw '…' = 1) (f : Fitter) (e : Nat) (cs : List Compound) (room : Nat)
    (hroom : 1 ≤ room) (hw : compoundsWidth cw cs ≤ room + e) (hcs : styledChars cs ≠ []) (hpos : 0 < e)
    (hne : f.align = .right ∨ f.align = .center → ∀ c ∈ cs, c.src ≠ []) :
    ∃ cs', f.truncate cw e cs = some cs' ∧ compoundsWidth cw cs' ≤ room ∧
      Truncated cw f.align room (room + e ≤ compoundsWidth cw cs) (styledChars cs) (styledChars cs') ∧
      (room + e ≤ compoundsWidth cw cs → ∀ k, 1 ≤ k → (∀ x ∈ styledChars cs, cw x.1 ≤ k) → room ≤ compoundsWidth cw cs' + 2 * (k - 1)) := by
  have hw' := hw
  rw [← cols_eq] at hw'
  -- truncation on the right only
  have right : ∀ n, n = e + 1 → ∃ cs' u r, truncateRight cw n cs = some cs' ∧ compoundsWidth cw cs' ≤ room ∧
      styledChars cs = u ++ r ∧ r ≠ [] ∧ styledChars cs' = u ++ [dots] ∧
      (room + e ≤ compoundsWidth cw cs → ∀ y q', r = y :: q' → room < colsOf cw (u ++ [y, dots])) ∧
      (room + e ≤ compoundsWidth cw cs → ∀ k, 1 ≤ k → (∀ x ∈ styledChars cs, cw x.1 ≤ k) → room ≤ compoundsWidth cw cs' + 2 * (k - 1)) := by
    intro n hn
    obtain ⟨cs', r, u, h1, h2, h3, h4, h5⟩ := truncateRight_ok (cw := cw) n cs (by omega)
    have hr : r ≠ [] := by
      intro h0
      subst h0
      rcases h4 with rfl | h4
      · exact hcs (by rw [h2]; rfl)
      · simp [colsOf] at h4; omega
    have hmax : room + e ≤ compoundsWidth cw cs → ∀ y q', r = y :: q' → room < colsOf cw (u ++ [y, dots]) := by
      rintro hful y q' rfl
      have h6 := h5.resolve_left (by simp)
      rw [← cols_eq, h2] at hful
      rw [List.append_cons, colsOf_append, dots_cols he]
      rw [List.append_cons, colsOf_append] at hful
      rw [List.tail_cons] at h6
      omega
    refine ⟨cs', u, r, h1, ?_, h2, hr, h3, hmax, ?_⟩
    · rw [← cols_eq, h3, colsOf_append, dots_cols he]
      rw [h2, colsOf_append] at hw'
      rcases h4 with rfl | h4
      · simp [colsOf]; omega
      · omega
    · intro hful k hk hx
      obtain ⟨y, q', rfl⟩ := List.exists_cons_of_ne_nil hr
      have := hmax hful y q' rfl
      have hy := hx y (by rw [h2]; simp)
      rw [show u ++ [y, dots] = u ++ ([y] ++ [dots]) from rfl, colsOf_append, colsOf_append, one_col] at this
      rw [← cols_eq, h3, colsOf_append]
      omega
  have left : ∀ n, 0 < n → (∀ c ∈ cs, c.src ≠ []) → ∃ cs' r u, truncateLeft cw n cs = some cs' ∧ styledChars cs = r ++ u ∧
      r ≠ [] ∧ styledChars cs' = dots :: u ∧ (u = [] ∨ n ≤ colsOf cw r) ∧ colsOf cw r.dropLast < n := by
    intro n hn hne
    obtain ⟨cs', r, u, h1, h2, h3, h4, h5⟩ := truncateLeft_ok (cw := cw) n cs hne hn
    have hr : r ≠ [] := by
      intro h0
      subst h0
      rcases h4 with rfl | h4
      · exact hcs (by rw [h2]; rfl)
      · simp [colsOf] at h4; omega
    exact ⟨cs', r, u, h1, h2, hr, h3, h4, h5.resolve_left hr⟩
  simp only [Fitter.truncate]
  rw [if_neg (by omega)]
  cases ha : f.align with
  | left =>
    obtain ⟨cs', u, r, h1, h2, h3, h4, h5, h6, h7⟩ := right _ rfl
    exact ⟨cs', by simp [Fitter.excesses, ha, truncateLeft, h1], h2, ⟨u, r, h3, h4, h5, h6⟩, h7⟩
  | unspecified =>
    obtain ⟨cs', u, r, h1, h2, h3, h4, h5, h6, h7⟩ := right _ rfl
    exact ⟨cs', by simp [Fitter.excesses, ha, truncateLeft, h1], h2, ⟨u, r, h3, h4, h5, h6⟩, h7⟩
  | right =>
    obtain ⟨cs', r, u, h1, h2, h3, h4, h5, h6⟩ := left (e + 1) (by omega) (hne (.inl ha))
    refine ⟨cs', by simp [Fitter.excesses, ha, truncateRight, h1], ?_, ⟨r, u, h2, h3, h4, ?_⟩, ?_⟩
    · rw [← cols_eq, h4, dots_cons he]
      rw [h2, colsOf_append] at hw'
      rcases h5 with rfl | h5
      · simp [colsOf]; omega
      · omega
    · rintro hful p' y rfl
      rw [← cols_eq, h2, List.append_assoc, colsOf_append] at hful
      rw [List.dropLast_concat] at h6
      rw [dots_cons he]
      show room < 1 + colsOf cw ([y] ++ u)
      omega
    · intro hful k hk hx
      have hy := hx _ (by rw [h2]; exact List.mem_append_left _ (List.getLast_mem h3))
      have e1 := List.dropLast_concat_getLast h3
      rw [← cols_eq, h2, colsOf_append, ← e1, colsOf_append, one_col] at hful
      rw [← cols_eq, h4, dots_cons he]
      omega
  | center =>
    by_cases hl : e / 2 > 0
    · obtain ⟨cs1, r, u, h1, h2, h3, h4, h5, h6⟩ := left (e / 2 + 1) (by omega) (hne (.inr ha))
      obtain ⟨cs2, r2, u2, k1, k2, k3, k4, k5⟩ := truncateRight_ok (cw := cw) (e - e / 2 + 1) cs1 (by omega)
      have hrun : (truncateLeft cw (f.excesses e).1 cs).bind (fun l => truncateRight cw (f.excesses e).2 l) = some cs2 := by
        simp only [Fitter.excesses, ha, hl, if_true, h1, Option.bind_some, k1]
      have hw1 : colsOf cw (styledChars cs1) ≤ max 1 (room + (e - e / 2)) := by
        rw [h4, dots_cons he]
        rw [h2, colsOf_append] at hw'
        rcases h5 with rfl | h5
        · simp [colsOf]; omega
        · omega
      have hcols : compoundsWidth cw cs2 ≤ room := by
        rw [← cols_eq, k3, colsOf_append, dots_cols he]
        rw [k2, colsOf_append] at hw1
        rcases k4 with rfl | k4
        · simp [colsOf]; omega
        · omega
      cases u2 with
      | nil =>
        have hbig : room + e ≤ compoundsWidth cw cs → ∃ x ∈ styledChars cs, room ≤ cw x.1 := by
          intro hful
          rw [h4, List.nil_append] at k2
          subst k2
          have k6 := k5.resolve_left (by simp)
          rw [List.tail_cons] at k6
          have hx := List.dropLast_concat_getLast h3
          refine ⟨r.getLast h3, ?_, ?_⟩
          · rw [h2]; simp
          · rw [← cols_eq, h2, colsOf_append, ← hx, colsOf_append] at hful
            have : colsOf cw [r.getLast h3] = cw (r.getLast h3).1 := by simp [colsOf]
            omega
        refine ⟨cs2, hrun, hcols, ⟨[], [], r ++ u, by simpa using h2, by simp [h3], .inr (.inr ⟨rfl, rfl, k3, hbig⟩)⟩, ?_⟩
        intro hful k hk hx
        obtain ⟨x, x1, x2⟩ := hbig hful
        have := hx x x1
        rw [← cols_eq, k3, List.nil_append, dots_cols he]
        omega
      | cons x u2 =>
        have hr2 : r2 ≠ [] := by
          intro h0
          subst h0
          rcases k4 with k4 | k4
          · cases k4
          · simp [colsOf] at k4
        rw [h4] at k2
        simp only [List.cons_append, List.cons.injEq] at k2
        obtain ⟨rfl, rfl⟩ := k2
        refine ⟨cs2, hrun, hcols, ⟨r, u2, r2, by simpa using h2, hr2, .inr (.inl ⟨h3, by simpa using k3, ?_⟩)⟩, ?_⟩
        · rintro hful p' x y q' rfl rfl
          have k6 := k5.resolve_left (by simp)
          rw [List.tail_cons] at k6
          rw [List.dropLast_concat] at h6
          rw [← cols_eq, h2] at hful
          have e1 : p' ++ [x] ++ (u2 ++ y :: q') = p' ++ ([x] ++ (u2 ++ ([y] ++ q'))) := by simp
          rw [e1] at hful
          simp only [colsOf_append] at hful
          rw [dots_cons he]
          show room < 1 + colsOf cw ([x] ++ (u2 ++ ([y] ++ [dots])))
          simp only [colsOf_append, dots_cols he]
          omega
        · intro hful k hk hx
          have k6 := k5.resolve_left hr2
          have hy := hx _ (by rw [h2]; exact List.mem_append_left _ (List.getLast_mem h3))
          have e1 := List.dropLast_concat_getLast h3
          obtain ⟨y, q', rfl⟩ := List.exists_cons_of_ne_nil hr2
          have hy2 := hx y (by rw [h2]; simp)
          rw [List.tail_cons] at k6
          rw [← cols_eq, h2, colsOf_append, ← e1, colsOf_append, one_col, show u2 ++ y :: q' = u2 ++ ([y] ++ q') from rfl, colsOf_append,
            colsOf_append, one_col] at hful
          rw [← cols_eq, k3, colsOf_append, dots_cons he, dots_cols he]
          omega
    · have h1 : e = 1 := by omega
      subst h1
      obtain ⟨cs', u, r, h1, h2, h3, h4, h5, h6, h7⟩ := right _ rfl
      exact ⟨cs', by simp [Fitter.excesses, ha, truncateLeft, h1], h2, ⟨[], u, r, h3, h4, .inl ⟨rfl, h5, h6⟩⟩, h7⟩

private theorem fit_ok (cw : Char → Nat) (ws : Char → Bool) (skin : Skin) (he : cw '…' = 1) (f : Fitter) (maxWidth : Nat)
    (fc : FmtComposite) (h : Fittable cw ws skin f maxWidth fc) (h2 : 2 ≤ maxWidth) (hgt : maxWidth < fc.visibleLength) :
    ∃ cs mid, f.fit cw ws fc maxWidth skin = some (FmtComposite.recomputeWidth skin cw { fc with compounds := cs }) ∧
      prefixCols skin.indentMode fc.kind + compoundsWidth cw cs ≤ maxWidth ∧
      Elided (styledChars fc.compounds) mid ∧ (f.midToken = false → f.midCompound = false → mid = styledChars fc.compounds) ∧
      (mid = styledChars cs ∧ ¬ (f.midToken = false ∧ f.midCompound = false) ∨
        Truncated cw f.align (maxWidth - prefixCols skin.indentMode fc.kind) (f.midToken = false ∧ f.midCompound = false)
          mid (styledChars cs)) ∧
      (∀ k, 1 ≤ k → (∀ x ∈ styledChars fc.compounds, cw x.1 ≤ k) →
        maxWidth ≤ prefixCols skin.indentMode fc.kind + compoundsWidth cw cs + 2 * (k - 1)) := by
  have hc := h.cached
  rw [lineCols_eq, visible_eq] at hc
  obtain ⟨cs1, e1, t1, t2, t3, t4, t5, t7, t6⟩ := elideTokens_ok (ws := ws) he f (fc.visibleLength - maxWidth) fc.compounds h.tokens
  obtain ⟨cs2, e2, c1, c2, c3, c4, c5, c7, c6⟩ := elideCompounds_ok he f e1 cs1
  have hP : prefixCols skin.indentMode fc.kind + 1 ≤ maxWidth := by have := h.room; omega
  have hmid : f.midToken = false → f.midCompound = false → styledChars cs2 = styledChars fc.compounds := by
    intro m1 m2
    rw [(c6 m2).1, (t6 m1).1]
  have hne0 : styledChars fc.compounds ≠ [] := by
    intro h0
    have := cols_eq cw fc.compounds
    rw [h0] at this
    simp [colsOf] at this
    omega
  have hne2 : styledChars cs2 ≠ [] := by
    have : ∀ {s t}, Elided s t → s ≠ [] → t ≠ [] := by
      intro s t hE hs ht
      subst ht
      cases hE
      exact hs rfl
    exact this (t2.trans c2) hne0
  have hrun : ∀ cs3, f.truncate cw e2 cs2 = some cs3 →
      f.fit cw ws fc maxWidth skin = some (FmtComposite.recomputeWidth skin cw { fc with compounds := cs3 }) := by
    intro cs3 h3
    simp only [Fitter.fit]
    rw [if_neg (by omega), if_neg (by omega), if_neg (by omega), t1]
    simp only [Option.bind_eq_bind, Option.bind_some, c1, h3]
  have low : ∀ k, 1 ≤ k → (∀ x ∈ styledChars fc.compounds, cw x.1 ≤ k) →
      compoundsWidth cw fc.compounds ≤ compoundsWidth cw cs2 + (fc.visibleLength - maxWidth - e2) + (if e2 ≠ 0 then 0 else k - 1) ∧
      ∀ x ∈ styledChars cs2, cw x.1 ≤ k := by
    intro k hk hx
    have x1 : ∀ {s t : List (Char × Flags)}, Elided s t → (∀ x ∈ s, cw x.1 ≤ k) → ∀ x ∈ t, cw x.1 ≤ k := by
      intro s t hE hs x hxt
      rcases hE.mem x hxt with h | h
      · exact hs x h
      · rw [h]; simp only [dots, he]; exact hk
    have y1 := t7 k hk hx
    have y2 := c7 k hk (x1 t2 hx)
    refine ⟨?_, x1 c2 (x1 t2 hx)⟩
    split at y1 <;> split at y2 <;> split <;> omega
  by_cases h0 : e2 = 0
  · subst h0
    refine ⟨cs2, styledChars cs2, hrun cs2 (by simp [Fitter.truncate]), by omega, t2.trans c2, hmid, .inl ⟨rfl, ?_⟩, ?_⟩
    · rintro ⟨m1, m2⟩
      have := (c6 m2).2
      have := (t6 m1).2
      omega
    · intro k hk hx
      have := (low k hk hx).1
      rw [if_neg (by omega)] at this
      omega
  · obtain ⟨cs3, q1, q2, q3, q4⟩ := truncate_ok he f e2 cs2 (maxWidth - prefixCols skin.indentMode fc.kind)
      (by omega) (by omega) hne2 (by omega) (fun ha => c5 (t5 (h.nonEmpty ha)))
    have hful : (f.midToken = false ∧ f.midCompound = false) →
        maxWidth - prefixCols skin.indentMode fc.kind + e2 ≤ compoundsWidth cw cs2 := by
      rintro ⟨m1, m2⟩
      rw [(c6 m2).1, (c6 m2).2, (t6 m1).1, (t6 m1).2]
      omega
    refine ⟨cs3, styledChars cs2, hrun cs3 q1, by omega, t2.trans c2, hmid, .inr ?_, fun k hk hx => ?_⟩
    rotate_left
    · obtain ⟨l1, l2⟩ := low k hk hx
      rw [if_pos h0] at l1
      have := q4 (by omega) k hk l2
      omega
    cases ha : f.align <;> simp only [ha, Truncated] at q3 ⊢
    · obtain ⟨u, q, a1, a2, a3, a4⟩ := q3
      exact ⟨u, q, a1, a2, a3, fun hm => a4 (hful hm)⟩
    · obtain ⟨u, q, a1, a2, a3, a4⟩ := q3
      exact ⟨u, q, a1, a2, a3, fun hm => a4 (hful hm)⟩
    · obtain ⟨p, u, q, a1, a2, a3⟩ := q3
      refine ⟨p, u, q, a1, a2, ?_⟩
      rcases a3 with ⟨b1, b2, b3⟩ | ⟨b1, b2, b3⟩ | ⟨b1, b2, b3, b4⟩
      · exact .inl ⟨b1, b2, fun hm => b3 (hful hm)⟩
      · exact .inr (.inl ⟨b1, b2, fun hm => b3 (hful hm)⟩)
      · exact .inr (.inr ⟨b1, b2, b3, fun hm => b4 (hful hm)⟩)
    · obtain ⟨p, u, a1, a2, a3, a4⟩ := q3
      exact ⟨p, u, a1, a2, a3, fun hm => a4 (hful hm)⟩

/-- A line of the same kind with a wider text doesn't fit. -/
private theorem too_wide {cw : Char → Nat} {skin : Skin} {kind : Kind} {width : Nat} {l : List (Char × Flags)}
    (h : width - prefixCols skin.indentMode kind < colsOf cw l) (g : FmtComposite) (hk : g.kind = kind) (hg : styledChars g.compounds = l) :
    width < lineCols cw skin.indentMode g := by
  subst hk
  rw [lineCols_eq, visible_eq, ← cols_eq, hg]
  omega

/-- C12: fitting does not panic, makes the composite fit, keeps its cached length right, and leaves alone what already fits. -/
theorem C12_fits (cw : Char → Nat) (ws : Char → Bool) (skin : Skin) (he : cw '…' = 1) (f : Fitter) (maxWidth : Nat)
    (fc : FmtComposite) (h : Fittable cw ws skin f maxWidth fc) :
    ∃ fc', f.fit cw ws fc maxWidth skin = some fc' ∧ fc'.visibleLength ≤ maxWidth ∧
      fc'.visibleLength = lineCols cw skin.indentMode fc' ∧ fc'.kind = fc.kind ∧ fc'.spacing = fc.spacing ∧
      (fc.visibleLength ≤ maxWidth → fc' = fc) := by
  by_cases hle : fc.visibleLength ≤ maxWidth
  · exact ⟨fc, by simp [Fitter.fit, hle], hle, h.cached, rfl, rfl, fun _ => rfl⟩
  by_cases h0 : maxWidth = 0
  · subst h0
    have hp : prefixCols skin.indentMode fc.kind = 0 := by have := h.room; omega
    refine ⟨{ fc with compounds := [], visibleLength := 0 }, by simp [Fitter.fit, hle], Nat.le_refl _, ?_, rfl, rfl,
      fun h => absurd h hle⟩
    simp [lineCols, hp, styledChars]
  by_cases h1 : maxWidth = 1
  · subst h1
    have hp : prefixCols skin.indentMode fc.kind = 0 := by have := h.room; omega
    refine ⟨{ fc with compounds := [Compound.raw ellipsisText], visibleLength := 1 }, by simp [Fitter.fit, hle],
      Nat.le_refl _, ?_, rfl, rfl, fun h => absurd h hle⟩
    simp [lineCols, hp, styledChars, Compound.raw, ellipsisText, he]
  · obtain ⟨cs, mid, r1, r2, -⟩ := fit_ok cw ws skin he f maxWidth fc h (by omega) (by omega)
    refine ⟨_, r1, ?_, ?_, rfl, rfl, fun h => absurd h hle⟩
    · simp only [FmtComposite.recomputeWidth, visible_eq]; exact r2
    · rw [lineCols_eq]; rfl

/-- C12: fitting doesn't remove more than needed: when all characters take at most `k` columns, what is too large is brought to the asked
width less at most `2 * (k - 1)` columns. -/
theorem C12_not_too_short (cw : Char → Nat) (ws : Char → Bool) (skin : Skin) (he : cw '…' = 1) (f : Fitter) (maxWidth : Nat)
    (fc : FmtComposite) (h : Fittable cw ws skin f maxWidth fc) (hgt : maxWidth < fc.visibleLength) (k : Nat) (hk : 1 ≤ k)
    (hc : ∀ c ∈ fc.compounds, ∀ ch ∈ c.src, cw ch ≤ k) :
    ∃ fc', f.fit cw ws fc maxWidth skin = some fc' ∧ maxWidth ≤ lineCols cw skin.indentMode fc' + 2 * (k - 1) := by
  by_cases h0 : maxWidth = 0
  · obtain ⟨fc', h1, _⟩ := C12_fits cw ws skin he f maxWidth fc h
    exact ⟨fc', h1, by omega⟩
  by_cases h1 : maxWidth = 1
  · subst h1
    have hp : prefixCols skin.indentMode fc.kind = 0 := by have := h.room; omega
    refine ⟨{ fc with compounds := [Compound.raw ellipsisText], visibleLength := 1 }, by simp [Fitter.fit]; omega, ?_⟩
    simp [lineCols, hp, styledChars, Compound.raw, ellipsisText, he]
  · obtain ⟨cs, mid, r1, -, -, -, -, r2⟩ := fit_ok cw ws skin he f maxWidth fc h (by omega) hgt
    refine ⟨_, r1, ?_⟩
    rw [lineCols_eq, visible_eq]
    refine r2 k hk ?_
    intro x hx
    simp only [styledChars, List.mem_flatMap, List.mem_map] at hx
    obtain ⟨c, c1, ch, c2, rfl⟩ := hx
    exact hc c c1 ch c2

/-- C12: so, with characters of one column, what is too large takes exactly the asked width once fitted. -/
theorem C12_exact (cw : Char → Nat) (ws : Char → Bool) (skin : Skin) (he : cw '…' = 1) (f : Fitter) (maxWidth : Nat)
    (fc : FmtComposite) (h : Fittable cw ws skin f maxWidth fc) (hgt : maxWidth < fc.visibleLength)
    (hc : ∀ c ∈ fc.compounds, ∀ ch ∈ c.src, cw ch ≤ 1) :
    ∃ fc', f.fit cw ws fc maxWidth skin = some fc' ∧ lineCols cw skin.indentMode fc' = maxWidth := by
  obtain ⟨fc', h1, h2⟩ := C12_not_too_short cw ws skin he f maxWidth fc h hgt 1 (Nat.le_refl _) hc
  obtain ⟨fc'', k1, k2, k3, _⟩ := C12_fits cw ws skin he f maxWidth fc h
  rw [h1] at k1
  cases k1
  exact ⟨fc', h1, by omega⟩

/-- C12: after `fill_width`, a composite without spacing can be drawn and takes exactly the asked width. -/
theorem C12_fill (cw : Char → Nat) (ws : Char → Bool) (skin : Skin) (he : cw '…' = 1) (align : Alignment) (width : Nat)
    (fc : FmtComposite) (h : Fittable cw ws skin (Fitter.forAlign align) width fc) (hs : fc.spacing = none) :
    ∃ fc', fc.fillWidth cw ws width align skin = some fc' ∧ spacedCols fc' = width ∧ fc'.visibleLength ≤ width ∧
      fc'.visibleLength = lineCols cw skin.indentMode fc' ∧ ∀ sp, fc'.spacing = some sp → sp.align = align := by
  obtain ⟨g, h1, h2, h3, h4, h5, _⟩ := C12_fits cw ws skin he (Fitter.forAlign align) width fc h
  refine ⟨g.extendWidth width align, by simp [FmtComposite.fillWidth, FmtComposite.fitWidth, h1], ?_⟩
  rw [hs] at h5
  simp only [FmtComposite.extendWidth, h5]
  split
  · exact ⟨rfl, h2, h3, by intro sp h; simp at h; rw [← h]⟩
  · refine ⟨?_, h2, h3, by intro sp h; rw [h5] at h; cases h⟩
    simp only [spacedCols, h5]; omega

/-- C12: a composite which already has a spacing keeps the largest of the two widths, and takes the new alignment. -/
theorem C12_fill_again (cw : Char → Nat) (ws : Char → Bool) (skin : Skin) (he : cw '…' = 1) (align : Alignment) (width : Nat)
    (fc : FmtComposite) (h : Fittable cw ws skin (Fitter.forAlign align) width fc) (sp : Spacing) (hs : fc.spacing = some sp) :
    ∃ fc', fc.fillWidth cw ws width align skin = some fc' ∧ spacedCols fc' = max sp.width width ∧ fc'.visibleLength ≤ width ∧
      fc'.visibleLength = lineCols cw skin.indentMode fc' ∧ ∃ sp', fc'.spacing = some sp' ∧ sp'.align = align := by
  obtain ⟨g, h1, h2, h3, h4, h5, _⟩ := C12_fits cw ws skin he (Fitter.forAlign align) width fc h
  refine ⟨g.extendWidth width align, by simp [FmtComposite.fillWidth, FmtComposite.fitWidth, h1], ?_⟩
  rw [hs] at h5
  simp only [FmtComposite.extendWidth, h5]
  refine ⟨?_, h2, h3, _, rfl, rfl⟩
  simp only [spacedCols]
  split <;> omega

/-- C13: with a left alignment, the end of the text is replaced by an ellipsis, and keeping one more character wouldn't fit. -/
theorem C13_left (cw : Char → Nat) (ws : Char → Bool) (skin : Skin) (he : cw '…' = 1) (width : Nat) (fc : FmtComposite)
    (h : Fittable cw ws skin (Fitter.forAlign .left) width fc) (h2 : 2 ≤ width) (hgt : width < fc.visibleLength) :
    ∃ fc' kept removed, fc.fitWidth cw ws width .left skin = some fc' ∧ styledChars fc.compounds = kept ++ removed ∧
      removed ≠ [] ∧ styledChars fc'.compounds = kept ++ [dots] ∧
      ∀ x rest, removed = x :: rest → ∀ longer : FmtComposite, longer.kind = fc.kind →
        styledChars longer.compounds = kept ++ [x, dots] → width < lineCols cw skin.indentMode longer := by
  obtain ⟨cs, mid, r1, r2, r3, r4, r5⟩ := fit_ok cw ws skin he _ width fc h h2 hgt
  have hm := r4 rfl rfl
  subst hm
  rcases r5 with ⟨_, hn⟩ | ⟨u, q, k1, k2, k3, k4⟩
  · exact absurd ⟨rfl, rfl⟩ hn
  · exact ⟨_, u, q, r1, k1, k2, k3, fun x rest hx g hk hg => too_wide (k4 ⟨rfl, rfl⟩ x rest hx) g hk hg⟩

/-- C13: with a right alignment, the start of the text is replaced by an ellipsis, and keeping one more character wouldn't fit. -/
theorem C13_right (cw : Char → Nat) (ws : Char → Bool) (skin : Skin) (he : cw '…' = 1) (width : Nat) (fc : FmtComposite)
    (h : Fittable cw ws skin (Fitter.forAlign .right) width fc) (h2 : 2 ≤ width) (hgt : width < fc.visibleLength) :
    ∃ fc' removed kept, fc.fitWidth cw ws width .right skin = some fc' ∧ styledChars fc.compounds = removed ++ kept ∧
      removed ≠ [] ∧ styledChars fc'.compounds = dots :: kept ∧
      ∀ start x, removed = start ++ [x] → ∀ longer : FmtComposite, longer.kind = fc.kind →
        styledChars longer.compounds = dots :: x :: kept → width < lineCols cw skin.indentMode longer := by
  obtain ⟨cs, mid, r1, r2, r3, r4, r5⟩ := fit_ok cw ws skin he _ width fc h h2 hgt
  have hm := r4 rfl rfl
  subst hm
  rcases r5 with ⟨_, hn⟩ | ⟨p, u, k1, k2, k3, k4⟩
  · exact absurd ⟨rfl, rfl⟩ hn
  · exact ⟨_, p, u, r1, k1, k2, k3, fun x rest hx g hk hg => too_wide (k4 ⟨rfl, rfl⟩ x rest hx) g hk hg⟩

/-- C13: with a centered alignment, the end of the text and maybe its start are replaced by ellipses; restoring one character on
each cut side wouldn't fit. Nothing is kept only if a character of the text takes the whole width. -/
theorem C13_center (cw : Char → Nat) (ws : Char → Bool) (skin : Skin) (he : cw '…' = 1) (width : Nat) (fc : FmtComposite)
    (h : Fittable cw ws skin (Fitter.forAlign .center) width fc) (h2 : 2 ≤ width) (hgt : width < fc.visibleLength) :
    ∃ fc' before kept after, fc.fitWidth cw ws width .center skin = some fc' ∧
      styledChars fc.compounds = before ++ kept ++ after ∧ after ≠ [] ∧
      ((before = [] ∧ styledChars fc'.compounds = kept ++ [dots] ∧
          ∀ y rest, after = y :: rest → ∀ longer : FmtComposite, longer.kind = fc.kind →
            styledChars longer.compounds = kept ++ [y, dots] → width < lineCols cw skin.indentMode longer) ∨
        (before ≠ [] ∧ styledChars fc'.compounds = dots :: kept ++ [dots] ∧
          ∀ start x y rest, before = start ++ [x] → after = y :: rest → ∀ longer : FmtComposite, longer.kind = fc.kind →
            styledChars longer.compounds = dots :: x :: (kept ++ [y, dots]) → width < lineCols cw skin.indentMode longer) ∨
        (before = [] ∧ kept = [] ∧ styledChars fc'.compounds = [dots] ∧
          ∃ x ∈ styledChars fc.compounds, width ≤ prefixCols skin.indentMode fc.kind + cw x.1)) := by
  obtain ⟨cs, mid, r1, r2, r3, r4, r5⟩ := fit_ok cw ws skin he _ width fc h h2 hgt
  have hm := r4 rfl rfl
  subst hm
  rcases r5 with ⟨_, hn⟩ | ⟨p, u, q, k1, k2, k3⟩
  · exact absurd ⟨rfl, rfl⟩ hn
  · refine ⟨_, p, u, q, r1, k1, k2, ?_⟩
    rcases k3 with ⟨a1, a2, a3⟩ | ⟨a1, a2, a3⟩ | ⟨a1, a2, a3, a4⟩
    · exact .inl ⟨a1, a2, fun x rest hx g hk hg => too_wide (a3 ⟨rfl, rfl⟩ x rest hx) g hk hg⟩
    · exact .inr (.inl ⟨a1, a2, fun s x y t hx hy g hk hg => too_wide (a3 ⟨rfl, rfl⟩ s x y t hx hy) g hk hg⟩)
    · obtain ⟨x, hx, hle⟩ := a4 ⟨rfl, rfl⟩
      exact .inr (.inr ⟨a1, a2, a3, x, hx, by omega⟩)

/-- C13: for all fitters, and in particular with no alignment and inner elisions, the result is the original text with some parts
replaced by an ellipsis. -/
theorem C13_elided (cw : Char → Nat) (ws : Char → Bool) (skin : Skin) (he : cw '…' = 1) (f : Fitter) (width : Nat)
    (fc : FmtComposite) (h : Fittable cw ws skin f width fc) (h2 : 2 ≤ width) (hgt : width < fc.visibleLength) :
    ∃ fc', f.fit cw ws fc width skin = some fc' ∧ Elided (styledChars fc.compounds) (styledChars fc'.compounds) := by
  obtain ⟨cs, mid, r1, r2, r3, r4, r5⟩ := fit_ok cw ws skin he _ width fc h h2 hgt
  refine ⟨_, r1, ?_⟩
  show Elided _ (styledChars cs)
  refine r3.trans ?_
  rcases r5 with ⟨rfl, _⟩ | r5
  · exact Elided.refl _
  · cases ha : f.align <;> simp only [ha, Truncated] at r5
    · obtain ⟨u, q, rfl, k1, k2, _⟩ := r5
      rw [k2]; exact (Elided.refl _).append (.one k1)
    · obtain ⟨u, q, rfl, k1, k2, _⟩ := r5
      rw [k2]; exact (Elided.refl _).append (.one k1)
    · obtain ⟨p, u, q, rfl, k1, k2⟩ := r5
      rcases k2 with ⟨rfl, k2, _⟩ | ⟨k3, k2, _⟩ | ⟨rfl, rfl, k2, _⟩
      · rw [k2]; exact (Elided.refl _).append (.one k1)
      · rw [k2, List.append_assoc]; exact .cut k3 ((Elided.refl _).append (.one k1))
      · rw [k2]; exact .one k1
    · obtain ⟨p, u, rfl, k1, k2, _⟩ := r5
      rw [k2]; exact .cut k1 (Elided.refl _)

/-- Characters of one column, but ideographs. -/
def fitCw : Char → Nat := fun c => if c = '一' ∨ c = '曰' then 2 else if c = '\x00' then 0 else 1
/-- Spaces are the whitespace. -/
def fitWs : Char → Bool := fun c => c == ' '
/-- A paragraph with a long token and a styled part. -/
def fitExample : FmtComposite :=
  FmtComposite.ofComposite {} fitCw .paragraph [⟨"a longlonglong 一 ".toList, {}⟩, ⟨"word".toList, { bold := true }⟩]

/-- A sufficient condition: all characters have at most one column. -/
theorem thin_thick {cw : Char → Nat} (ws : Char → Bool) {cs : List Compound} (h : ∀ c ∈ cs, ∀ ch ∈ c.src, cw ch ≤ 1) :
    ThickTokens cw ws cs := by
  rintro c hc t ⟨_, _, before, after, ht, _⟩ hl hw
  have hm : ∀ ch ∈ t, cw ch ≤ 1 := fun ch hch => h c hc ch (by rw [ht]; simp [hch])
  cases t with
  | nil => simp at hl
  | cons x t =>
    rcases List.eq_nil_or_concat t with rfl | ⟨t', y, rfl⟩
    · simp at hl
    · simp only [List.concat_eq_append] at *
      have h1 := hm x (by simp)
      have h2 := hm y (by simp)
      simp only [textWidth, textWidth_append] at hw
      simp only [interior, List.tail_cons, List.dropLast_concat]
      omega

example : Fittable fitCw fitWs {} (Fitter.forAlign .center) 9 fitExample :=
  ⟨by decide, .inl (by decide), by decide, by simp [Fitter.forAlign]⟩

example : Fittable fitCw fitWs {} {} 9
    (FmtComposite.ofComposite {} fitCw .quote [⟨"a longlonglong ".toList, {}⟩, ⟨"word".toList, { bold := true }⟩]) :=
  ⟨by decide, .inr (by decide), by simp, fun _ => thin_thick fitWs (by decide)⟩

example : ((({} : Fitter).fit fitCw fitWs fitExample 14 {}).map fun fc => String.ofList ((styledChars fc.compounds).map (·.1))) =
    some "a lo…g 一 word" := by decide

example : ((fitExample.fitWidth fitCw fitWs 9 .center {}).map fun fc => String.ofList ((styledChars fc.compounds).map (·.1))) =
    some "…onglong…" := by decide

/-- C12: a text of single column characters, exactly fitted, and wide characters, which leave two columns. -/
example : (({} : Fitter).fit fitCw fitWs (FmtComposite.ofComposite {} fitCw .quote [⟨"a longlonglong ".toList, {}⟩, ⟨"word".toList, { bold := true }⟩]) 9 {}).map
    (fun fc => (String.ofList ((styledChars fc.compounds).map (·.1)), lineCols fitCw .block fc)) = some ("a l…g …", 9) := by decide

example : ((FmtComposite.ofComposite {} fitCw .paragraph [⟨"一一一一一一一一".toList, {}⟩]).fitWidth fitCw fitWs 12 .center {}).map
    (fun fc => (String.ofList ((styledChars fc.compounds).map (·.1)), lineCols fitCw .block fc)) = some ("…一一一一…", 10) := by decide

/-- A token made of two wide characters makes the default fitter panic. -/
theorem C12_token_counterexample :
    ({} : Fitter).fit fitCw fitWs (FmtComposite.ofComposite {} fitCw .paragraph [⟨"一曰".toList, {}⟩]) 3 {} = none := by decide

/-- An empty compound makes the fitters for right or centered alignments panic. -/
theorem C12_empty_counterexample :
    (FmtComposite.ofComposite {} fitCw .paragraph [⟨[], {}⟩, ⟨"abcd".toList, {}⟩]).fitWidth fitCw fitWs 3 .right {} = none := by
  decide

/-- When only one column is available, the cached length ignores the quote mark, and the real one is larger. -/
theorem C12_prefix_counterexample :
    ((FmtComposite.ofComposite {} fitCw .quote [⟨"abcd".toList, {}⟩]).fitWidth fitCw fitWs 1 .left {}).map
      (fun fc => (fc.visibleLength, lineCols fitCw .block fc)) = some (1, 3) := by decide

end Verif.Props
