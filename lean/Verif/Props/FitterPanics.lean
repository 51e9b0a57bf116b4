import Verif.Props.Fitter
/-! Property C12: exactly which composites make a fitter without inner elision panic. -/
namespace Verif.Props
open Verif

theorem srcCols_eq (cw : Char → Nat) (cs : List Compound) : srcCols cw cs = compoundsWidth cw cs := by
  have ht : ∀ t : Text, (t.map cw).sum = textWidth cw t := by
    intro t
    induction t with
    | nil => rfl
    | cons c t ih => simp only [List.map_cons, List.sum_cons, textWidth, ih]
  induction cs with
  | nil => rfl
  | cons c cs ih =>
    simp only [srcCols, compoundsWidth, List.flatMap_cons, List.map_append, List.sum_append, List.map_cons, List.sum_cons, ht] at ih ⊢
    rw [ih]

theorem leftTrunc_none (cw : Char → Nat) : ∀ (cs : List Compound) (e : Nat),
    leftTrunc cw e cs = none ↔ ∃ before c after, cs = before ++ c :: after ∧ c.src = [] ∧ compoundsWidth cw before < e := by
  intro cs
  induction cs with
  | nil =>
    intro e
    constructor
    · intro h; cases e <;> simp [leftTrunc] at h
    · rintro ⟨before, c, after, h, -⟩; simp at h
  | cons c cs ih =>
    intro e
    cases e with
    | zero =>
      constructor
      · intro h; simp [leftTrunc] at h
      · rintro ⟨before, c', after, -, -, h⟩; omega
    | succ e =>
      by_cases hc : c.src = []
      · constructor
        · intro _; exact ⟨[], c, cs, rfl, hc, by simp [compoundsWidth]⟩
        · intro _; simp [leftTrunc, hc, charInfos, charInfosFrom, leftLoop]
      · obtain ⟨p, q, k, h1, h2, h3, h4, h5, h6⟩ := leftLoop_ok (cw := cw) (e + 1) c.src 0 0 0 hc
        have hlen := congrArg List.length h2
        simp only [List.length_append] at hlen
        simp only [leftTrunc, charInfos_length]
        rw [charInfos, h1]
        simp only [Option.bind_eq_bind, Option.bind_some]
        by_cases hk : k + 1 = c.src.length
        · have hq : q = [] := List.eq_nil_of_length_eq_zero (by omega)
          subst hq
          rw [List.append_nil] at h2
          rw [if_pos hk, ih, ← h2]
          constructor
          · rintro ⟨before, c', after, rfl, e1, e2⟩
            refine ⟨c :: before, c', after, rfl, e1, ?_⟩
            simp only [compoundsWidth, List.map_cons, List.sum_cons] at e2 ⊢
            omega
          · rintro ⟨before, c', after, e0, e1, e2⟩
            cases before with
            | nil =>
              simp only [List.nil_append, List.cons.injEq] at e0
              obtain ⟨rfl, rfl⟩ := e0
              exact absurd e1 hc
            | cons x before =>
              simp only [List.cons_append, List.cons.injEq] at e0
              obtain ⟨rfl, rfl⟩ := e0
              refine ⟨before, c', after, rfl, e1, ?_⟩
              simp only [compoundsWidth, List.map_cons, List.sum_cons] at e2 ⊢
              omega
        · rw [if_neg hk]
          have hq : q ≠ [] := by
            intro h0; subst h0; simp at hlen; omega
          have hql : 0 < q.length := List.length_pos_iff.2 hq
          have hg := charInfos_get cw c.src (k + 1) (by omega)
          rw [charInfos] at hg
          have e1 : c.src.take (k + 1) = p := by
            rw [h2, show k + 1 = p.length by omega]; simp
          have e2 : dropBytes c.src (byteLen p) = some q := by rw [h2, dropBytes_prefix]
          rw [hg]
          simp only [Option.bind_some]
          rw [e1, e2]
          constructor
          · intro h; simp at h
          · rintro ⟨before, c', after, e0, e3, e4⟩
            exfalso
            cases before with
            | nil =>
              simp only [List.nil_append, List.cons.injEq] at e0
              obtain ⟨rfl, rfl⟩ := e0
              exact hc e3
            | cons x before =>
              simp only [List.cons_append, List.cons.injEq] at e0
              obtain ⟨rfl, rfl⟩ := e0
              have h7 := h5.resolve_right hq
              simp only [compoundsWidth, List.map_cons, List.sum_cons] at e4
              rw [h2, textWidth_append] at e4
              omega

theorem truncate_none (cw : Char → Nat) (f : Fitter) (e : Nat) (he : 0 < e) (cs : List Compound) :
    f.truncate cw e cs = none ↔
      ∃ before c after, cs = before ++ c :: after ∧ c.src = [] ∧ compoundsWidth cw before < startCut f.align e := by
  have hr : ∀ n cs, truncateRight cw n cs ≠ none := by
    intro n cs
    by_cases hn : 0 < n
    · obtain ⟨cs', r, u, h1, -⟩ := truncateRight_ok (cw := cw) n cs hn
      simp [h1]
    · simp [truncateRight, hn]
  have hs : (f.excesses e).1 = startCut f.align e := by
    unfold Fitter.excesses startCut
    cases f.align <;> simp only
    by_cases h : e / 2 > 0
    · rw [if_pos h, if_neg (by omega)]
    · rw [if_neg h, if_pos (by omega)]
  simp only [Fitter.truncate]
  rw [if_neg (by omega), hs, ← leftTrunc_none]
  generalize startCut f.align e = n
  by_cases hn : n > 0
  · simp only [truncateLeft, hn, if_true]
    cases hl : leftTrunc cw n cs with
    | none => simp
    | some l => simpa using hr _ _
  · have : n = 0 := by omega
    subst this
    simp only [truncateLeft, leftTrunc]
    simpa using hr _ _

/-- C12: a fitter without inner elision panics exactly on the composites to shorten, in at least two columns, which have an empty compound
before the place up to which their start must be removed. This holds whatever the cached length of the composite. -/
theorem C12_aligned_panics (cw : Char → Nat) (ws : Char → Bool) (skin : Skin) (f : Fitter) (hf : f.midToken = false ∧ f.midCompound = false)
    (maxWidth : Nat) (fc : FmtComposite) :
    f.fit cw ws fc maxWidth skin = none ↔ 2 ≤ maxWidth ∧ maxWidth < fc.visibleLength ∧
      ∃ before c after, fc.compounds = before ++ c :: after ∧ c.src = [] ∧
        srcCols cw before < startCut f.align (fc.visibleLength - maxWidth) := by
  simp only [Fitter.fit, srcCols_eq]
  by_cases h1 : fc.visibleLength ≤ maxWidth
  · rw [if_pos h1]; simp; omega
  by_cases h2 : maxWidth = 0
  · rw [if_neg h1, if_pos h2]; simp; omega
  by_cases h3 : maxWidth = 1
  · rw [if_neg h1, if_neg h2, if_pos h3]; simp; omega
  rw [if_neg h1, if_neg h2, if_neg h3]
  simp only [Fitter.elideTokens, Fitter.elideCompounds, hf.1, hf.2, Bool.false_eq_true, if_false, Option.bind_eq_bind, Option.bind_some]
  rw [← truncate_none cw f _ (by omega)]
  cases f.truncate cw (fc.visibleLength - maxWidth) fc.compounds with
  | none => simp; omega
  | some x => simp

/-- `abcd`, then an empty compound, then `e`, to fit right in 3 columns: there's no panic, because the removal stops before the empty
compound; to fit it in 2 columns panics. -/
example :
    ((FmtComposite.ofComposite {} fitCw .paragraph [⟨"abcd".toList, {}⟩, ⟨[], {}⟩, ⟨"e".toList, {}⟩]).fitWidth fitCw fitWs 3 .right {}).isSome ∧
    ((FmtComposite.ofComposite {} fitCw .paragraph [⟨"abcd".toList, {}⟩, ⟨[], {}⟩, ⟨"ef".toList, {}⟩]).fitWidth fitCw fitWs 2 .right {}) = none := by
  decide

/-! ### What a result is, without hypotheses on the compounds -/

theorem seg_width_mono (cw : Char → Nat) (t : Text) (i j : Nat) (hi : 1 ≤ i) (hij : i ≤ j) (hj : j + 1 ≤ t.length) :
    textWidth cw (seg t i j) ≤ textWidth cw (interior t) := by
  rw [interior_eq]
  have e : seg t 1 (t.length - 1) = seg t 1 i ++ (seg t i j ++ seg t j (t.length - 1)) := by
    have h1 := take_seg t 1 (t.length - 1) (by omega)
    have h2 := take_seg t j (t.length - 1) (by omega)
    have h3 := take_seg t i j hij
    have h4 := take_seg t 1 i hi
    rw [h3, h4, List.append_assoc, List.append_assoc] at h2
    exact List.append_cancel_left (h1.symm.trans h2)
  rw [e, textWidth_append, textWidth_append]
  omega

/-- A zone whose cut gives something has something between its first and last characters. -/
theorem cut_inside {cw : Char → Nat} {cs pre post : List Compound} {z : Zone} {c : Compound} {a t b : Text}
    (hp : cs = pre ++ c :: post) (hi : z.compoundIdx = pre.length) (ht : c.src = a ++ t ++ b) (hs : z.byteStart = byteLen a)
    (hin : z.infos = charInfos cw t) (hr : 2 ≤ z.removableWidth) (hl : 2 ≤ t.length) (n : Nat) (hn : 1 ≤ n)
    (h : z.cut cw cs n ≠ none) : ZoneAt cw cs z pre post c a t b := by
  refine ⟨hp, hi, ht, hs, hin, hr, hl, ?_⟩
  obtain ⟨i, j, r, c1, c2, c3, c4, c5, -⟩ := cutLoop_ok ht hs hin n (t.length + 1) (t.length / 2) (t.length / 2) 0
    (by omega) (by omega) (by omega) (by omega) (by omega) (by simp [seg]) (by omega) (by omega)
  have hget : cs[z.compoundIdx]? = some c := by rw [hp, hi]; simp
  have hm := seg_width_mono cw t i j c2 c3 c4
  rcases Nat.eq_zero_or_pos (textWidth cw (interior t)) with h0 | h0
  · exfalso
    have hr0 : r = 0 := by omega
    subst hr0
    apply h
    simp only [Zone.cut]
    rw [if_neg (by omega), hget]
    simp only [Option.bind_eq_bind, Option.bind_some, hin, charInfos_length, c1, csub, show ¬ 1 ≤ 0 by omega, if_false]
    simp
  · exact h0

theorem elideLoop_some {cw : Char → Nat} {zones : List Compound → Run (List Zone)} (he : cw '…' = 1)
    (hz : ∀ cs, ∃ zs, zones cs = some zs ∧ ∀ z ∈ zs, ∃ pre post c a t b, cs = pre ++ c :: post ∧ z.compoundIdx = pre.length ∧
      c.src = a ++ t ++ b ∧ z.byteStart = byteLen a ∧ z.infos = charInfos cw t ∧ 2 ≤ z.removableWidth ∧ 2 ≤ t.length) :
    ∀ fuel excess cs cs' e', elideLoop cw zones fuel excess cs = some (cs', e') →
      Elided (styledChars cs) (styledChars cs') ∧ e' ≤ excess ∧ compoundsWidth cw cs' + excess ≤ compoundsWidth cw cs + e' := by
  intro fuel
  induction fuel with
  | zero =>
    intro excess cs cs' e' h
    cases excess with
    | zero =>
      simp only [elideLoop, Option.some.injEq, Prod.mk.injEq] at h
      obtain ⟨rfl, rfl⟩ := h
      exact ⟨.refl _, Nat.le_refl _, Nat.le_refl _⟩
    | succ excess => simp [elideLoop] at h
  | succ fuel ih =>
    intro excess cs cs' e' h
    cases excess with
    | zero =>
      simp only [elideLoop, Option.some.injEq, Prod.mk.injEq] at h
      obtain ⟨rfl, rfl⟩ := h
      exact ⟨.refl _, Nat.le_refl _, Nat.le_refl _⟩
    | succ excess =>
      obtain ⟨zs, h1, h2⟩ := hz cs
      simp only [elideLoop, h1, Option.bind_eq_bind, Option.bind_some] at h
      cases hb : biggestZone zs with
      | none =>
        simp only [hb, Option.some.injEq, Prod.mk.injEq] at h
        obtain ⟨rfl, rfl⟩ := h
        exact ⟨.refl _, Nat.le_refl _, Nat.le_refl _⟩
      | some z =>
        obtain ⟨pre, post, c, a, t, b, k1, k2, k3, k4, k5, k6, k7⟩ := h2 z (biggestZone_mem hb)
        simp only [hb] at h
        have hz' : ZoneAt cw cs z pre post c a t b := by
          refine cut_inside k1 k2 k3 k4 k5 k6 k7 (excess + 2) (by omega) ?_
          intro h0
          rw [h0] at h
          simp at h
        obtain ⟨i, j, g, c1, c2, c3, c4, c5, -⟩ := cut_ok hz' (excess + 2) (by omega)
        rw [c1] at h
        simp only [Option.bind_some] at h
        have hE := zoneAt_chars hz' i j c3 (by omega)
        have hW := zoneAt_width hz' he i j g c3 c5
        by_cases hg0 : g = 0
        · rw [if_pos hg0] at h
          simp only [Option.some.injEq, Prod.mk.injEq] at h
          obtain ⟨rfl, rfl⟩ := h
          exact ⟨hE, Nat.le_refl _, by omega⟩
        · rw [if_neg hg0] at h
          obtain ⟨d1, d2, d3⟩ := ih _ _ _ _ h
          exact ⟨hE.trans d1, by omega, by omega⟩

theorem elideTokens_some {cw : Char → Nat} {ws : Char → Bool} (he : cw '…' = 1) (f : Fitter) (excess : Nat) (cs cs' : List Compound) (e' : Nat)
    (h : f.elideTokens cw ws excess cs = some (cs', e')) :
    Elided (styledChars cs) (styledChars cs') ∧ e' ≤ excess ∧ compoundsWidth cw cs' + excess ≤ compoundsWidth cw cs + e' := by
  unfold Fitter.elideTokens at h
  split at h
  · refine elideLoop_some he ?_ _ _ _ _ _ h
    intro cs
    obtain ⟨zs, h1, h2⟩ := tokenZones_ok (cw := cw) (ws := ws) 3 cs 0
    refine ⟨zs, h1, ?_⟩
    intro z hz
    obtain ⟨pre, post, c, a, t, b, q1, ⟨q2, q3, q4, q5⟩, q6, q7, q8, -⟩ := h2 z hz
    exact ⟨pre, post, c, a, t, b, q1, by omega, q2, q4, q5, by omega, length_of_bytes q8⟩
  · simp only [Option.some.injEq, Prod.mk.injEq] at h
    obtain ⟨rfl, rfl⟩ := h
    exact ⟨.refl _, Nat.le_refl _, Nat.le_refl _⟩

/-- The columns left by the removal of the start. -/
theorem leftTrunc_some (cw : Char → Nat) : ∀ (cs : List Compound) (e : Nat) (cs' : List Compound), leftTrunc cw e cs = some cs' →
    cs' = [] ∨ compoundsWidth cw cs' + e ≤ compoundsWidth cw cs := by
  intro cs
  induction cs with
  | nil =>
    intro e cs' h
    cases e <;> simp [leftTrunc] at h <;> exact .inl h
  | cons c cs ih =>
    intro e cs' h
    cases e with
    | zero =>
      simp only [leftTrunc, Option.some.injEq] at h
      subst h
      exact .inr (Nat.le_refl _)
    | succ e =>
      have hc : c.src ≠ [] := by
        intro h0
        simp [leftTrunc, h0, charInfos, charInfosFrom, leftLoop] at h
      obtain ⟨p, q, k, h1, h2, h3, h4, h5, h6⟩ := leftLoop_ok (cw := cw) (e + 1) c.src 0 0 0 hc
      have hlen := congrArg List.length h2
      simp only [List.length_append] at hlen
      simp only [leftTrunc, charInfos_length] at h
      rw [charInfos, h1] at h
      simp only [Option.bind_eq_bind, Option.bind_some] at h
      by_cases hk : k + 1 = c.src.length
      · have hq : q = [] := List.eq_nil_of_length_eq_zero (by omega)
        subst hq
        rw [List.append_nil] at h2
        rw [if_pos hk, ← h2] at h
        rcases ih _ _ h with h | h
        · exact .inl h
        · right
          simp only [compoundsWidth, List.map_cons, List.sum_cons] at h ⊢
          omega
      · rw [if_neg hk] at h
        have hq : q ≠ [] := by
          intro h0; subst h0; simp at hlen; omega
        have hql : 0 < q.length := List.length_pos_iff.2 hq
        have hg := charInfos_get cw c.src (k + 1) (by omega)
        rw [charInfos] at hg
        have e1 : c.src.take (k + 1) = p := by
          rw [h2, show k + 1 = p.length by omega]; simp
        have e2 : dropBytes c.src (byteLen p) = some q := by rw [h2, dropBytes_prefix]
        rw [hg] at h
        simp only [Option.bind_some] at h
        rw [e1, e2] at h
        simp only [Option.bind_some, Option.some.injEq] at h
        subst h
        right
        have h7 := h5.resolve_right hq
        have e3 : textWidth cw c.src = textWidth cw p + textWidth cw q := by rw [h2, textWidth_append]
        simp only [compoundsWidth, List.map_cons, List.sum_cons, e3]
        omega

theorem truncateLeft_some {cw : Char → Nat} (he : cw '…' = 1) (n : Nat) (cs cs' : List Compound)
    (h : truncateLeft cw n cs = some cs') : cs' = cs ∧ n = 0 ∨ 0 < n ∧ compoundsWidth cw cs' ≤ max 1 (compoundsWidth cw cs + 1 - n) := by
  unfold truncateLeft at h
  split at h
  · rename_i hn
    cases hl : leftTrunc cw n cs with
    | none => rw [hl] at h; simp at h
    | some l =>
      rw [hl] at h
      simp only [Option.map_some, Option.some.injEq] at h
      subst h
      refine .inr ⟨hn, ?_⟩
      have hd : textWidth cw (Compound.raw ellipsisText).src = 1 := by simp [Compound.raw, ellipsisText, textWidth, he]
      rcases leftTrunc_some cw cs n l hl with rfl | h
      · simp only [compoundsWidth, List.map_cons, List.sum_cons, List.map_nil, List.sum_nil, hd]; omega
      · simp only [compoundsWidth, List.map_cons, List.sum_cons, hd] at h ⊢; omega
  · simp only [Option.some.injEq] at h
    exact .inl ⟨h.symm, by omega⟩

theorem truncateRight_some {cw : Char → Nat} (he : cw '…' = 1) (n : Nat) (cs cs' : List Compound)
    (h : truncateRight cw n cs = some cs') : cs' = cs ∧ n = 0 ∨ 0 < n ∧ compoundsWidth cw cs' ≤ max 1 (compoundsWidth cw cs + 1 - n) := by
  rcases Nat.eq_zero_or_pos n with rfl | hn
  · simp [truncateRight] at h
    exact .inl ⟨h.symm, rfl⟩
  · obtain ⟨x, r, u, h1, h2, h3, h4, -⟩ := truncateRight_ok (cw := cw) n cs hn
    rw [h1] at h
    simp only [Option.some.injEq] at h
    subst h
    refine .inr ⟨hn, ?_⟩
    have hd : colsOf cw [dots] = 1 := by simp [colsOf, dots, he]
    rw [← cols_eq, ← cols_eq, h2, h3, colsOf_append, colsOf_append, hd]
    rcases h4 with rfl | h4
    · simp [colsOf]; omega
    · omega

theorem truncate_some {cw : Char → Nat} (he : cw '…' = 1) (f : Fitter) (e : Nat) (cs cs' : List Compound) (room : Nat) (hroom : 1 ≤ room)
    (hw : compoundsWidth cw cs ≤ room + e) (h : f.truncate cw e cs = some cs') : compoundsWidth cw cs' ≤ room := by
  unfold Fitter.truncate at h
  split at h
  · simp only [Option.some.injEq] at h
    subst h
    omega
  · rename_i he0
    cases hl : truncateLeft cw (f.excesses e).1 cs with
    | none => rw [hl] at h; simp at h
    | some l =>
      rw [hl] at h
      simp only [Option.bind_eq_bind, Option.bind_some] at h
      have k1 := truncateLeft_some he _ _ _ hl
      have k2 := truncateRight_some he _ _ _ h
      unfold Fitter.excesses at k1 k2
      have key : ∀ (A B : Nat), (l = cs ∧ A = 0 ∨ 0 < A ∧ compoundsWidth cw l ≤ max 1 (compoundsWidth cw cs + 1 - A)) →
          (cs' = l ∧ B = 0 ∨ 0 < B ∧ compoundsWidth cw cs' ≤ max 1 (compoundsWidth cw l + 1 - B)) →
          (A = e + 1 ∧ B = 0 ∨ A = 0 ∧ B = e + 1 ∨ 2 ≤ A ∧ 2 ≤ B ∧ A + B = e + 2) → compoundsWidth cw cs' ≤ room := by
        intro A B a b c
        rcases a with ⟨rfl, a⟩ | a <;> rcases b with ⟨rfl, b⟩ | b <;> omega
      refine key _ _ k1 k2 ?_
      cases f.align
      · exact .inr (.inl ⟨rfl, rfl⟩)
      · exact .inr (.inl ⟨rfl, rfl⟩)
      · by_cases hh : e / 2 > 0
        · rw [if_pos hh]; exact .inr (.inr ⟨by simp only; omega, by simp only; omega, by simp only; omega⟩)
        · rw [if_neg hh]; exact .inr (.inl ⟨rfl, by simp only; omega⟩)
      · exact .inl ⟨rfl, rfl⟩

/-- C12: in a debug build, whatever the compounds and the kind of fitting, a composite given by a fitter fits and has the right cached
length. -/
theorem C12_result_fits (cw : Char → Nat) (ws : Char → Bool) (skin : Skin) (he : cw '…' = 1) (f : Fitter) (maxWidth : Nat)
    (fc fc' : FmtComposite) (cached : fc.visibleLength = lineCols cw skin.indentMode fc)
    (room : prefixCols skin.indentMode fc.kind = 0 ∨ prefixCols skin.indentMode fc.kind + 1 ≤ maxWidth ∧ 2 ≤ maxWidth)
    (h : f.fit cw ws fc maxWidth skin = some fc') :
    fc'.visibleLength ≤ maxWidth ∧ fc'.visibleLength = lineCols cw skin.indentMode fc' ∧ fc'.kind = fc.kind ∧ fc'.spacing = fc.spacing := by
  simp only [Fitter.fit] at h
  by_cases h1 : fc.visibleLength ≤ maxWidth
  · rw [if_pos h1] at h
    simp only [Option.some.injEq] at h
    subst h
    exact ⟨h1, cached, rfl, rfl⟩
  by_cases h2 : maxWidth = 0
  · have hp : prefixCols skin.indentMode fc.kind = 0 := by omega
    rw [if_neg h1, if_pos h2] at h
    simp only [Option.some.injEq] at h
    subst h
    refine ⟨Nat.zero_le _, ?_, rfl, rfl⟩
    simp [lineCols, hp, styledChars]
  by_cases h3 : maxWidth = 1
  · have hp : prefixCols skin.indentMode fc.kind = 0 := by omega
    rw [if_neg h1, if_neg h2, if_pos h3] at h
    simp only [Option.some.injEq] at h
    subst h
    refine ⟨by simp only; omega, ?_, rfl, rfl⟩
    simp [lineCols, hp, styledChars, Compound.raw, ellipsisText, he]
  rw [if_neg h1, if_neg h2, if_neg h3] at h
  have hc := cached
  rw [lineCols_eq, visible_eq] at hc
  cases ht : f.elideTokens cw ws (fc.visibleLength - maxWidth) fc.compounds with
  | none => rw [ht] at h; simp at h
  | some r1 =>
    obtain ⟨cs1, e1⟩ := r1
    obtain ⟨-, t2, t3⟩ := elideTokens_some he f _ _ _ _ ht
    obtain ⟨cs2, e2, c1, -, c3, c4, -⟩ := elideCompounds_ok he f e1 cs1
    rw [ht] at h
    simp only [Option.bind_eq_bind, Option.bind_some, c1] at h
    cases hr : f.truncate cw e2 cs2 with
    | none => rw [hr] at h; simp at h
    | some cs3 =>
      rw [hr] at h
      simp only [Option.bind_some, Option.some.injEq] at h
      subst h
      have hmain : prefixCols skin.indentMode fc.kind + compoundsWidth cw cs3 ≤ maxWidth := by
        have := truncate_some he f e2 cs2 cs3 (maxWidth - prefixCols skin.indentMode fc.kind) (by omega) (by omega) hr
        omega
      refine ⟨?_, ?_, rfl, rfl⟩
      · simp only [FmtComposite.recomputeWidth, visible_eq]; exact hmain
      · rw [lineCols_eq]; rfl

/-- A composite with an empty compound, to fit right: it isn't one of those of `C12_fits`, but it gives a result, which fits. -/
example :
    ∃ fc fc', fc = FmtComposite.ofComposite {} fitCw .paragraph [⟨"abcd".toList, {}⟩, ⟨[], {}⟩, ⟨"e".toList, {}⟩] ∧
      fc.visibleLength = lineCols fitCw ({} : Skin).indentMode fc ∧ (Fitter.forAlign .right).fit fitCw fitWs fc 3 {} = some fc' ∧
      ¬ Fittable fitCw fitWs {} (Fitter.forAlign .right) 3 fc ∧ fc'.visibleLength = 3 := by
  refine ⟨_, ⟨.paragraph, [⟨"…".toList, {}⟩, ⟨"d".toList, {}⟩, ⟨[], {}⟩, ⟨"e".toList, {}⟩], 3, none⟩, rfl, by decide, by decide, ?_, rfl⟩
  intro h
  exact h.nonEmpty (.inl rfl) ⟨[], {}⟩ (by simp [FmtComposite.ofComposite]) rfl

end Verif.Props
