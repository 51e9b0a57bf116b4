import Verif.Model.ReleaseFit
import Verif.Props.FitterPanics
import Verif.Props.Fitter
/-! Property C106: the fitting of composites in release builds. -/
namespace Verif.Props
open Verif

/-! ## Lemmas -/

variable {cw : Char → Nat} {ws : Char → Bool}

theorem release_cut_same {z : Zone} {cs : List Compound} {n : Nat} {r : List Compound × Nat} (h : z.cut cw cs n = some r) : Release.cut cw z cs n = some r := by
  unfold Zone.cut at h
  unfold Release.cut
  split at h
  · rename_i c; rw [if_pos c]; exact h
  · rename_i c
    rw [if_neg c]
    simp only [Option.bind_eq_bind, Option.bind_eq_some_iff] at h ⊢
    obtain ⟨x, h1, p, h2, a, h3, b, h4, hd, h5, tl, h6, g, h7, h8⟩ := h
    refine ⟨x, h1, p, h2, a, h3, b, h4, hd, h5, tl, h6, ?_⟩
    unfold csub at h7
    split at h7
    · rename_i c1
      have : Release.wsub p.2.2 1 = g := by unfold Release.wsub; rw [if_pos c1]; exact Option.some.inj h7
      rw [this]; exact h8
    · simp at h7

theorem release_loop_same {zones : List Compound → Run (List Zone)} : ∀ (fuel excess : Nat) (cs : List Compound) (r : List Compound × Nat),
    elideLoop cw zones fuel excess cs = some r → Release.elideLoop cw zones fuel excess cs = some r := by
  intro fuel
  induction fuel with
  | zero => intro excess cs r h; cases excess <;> exact h
  | succ fuel ih =>
    intro excess cs r h
    cases excess with
    | zero => exact h
    | succ excess =>
      simp only [elideLoop, Release.elideLoop, Option.bind_eq_bind, Option.bind_eq_some_iff] at h ⊢
      obtain ⟨zs, h1, h⟩ := h
      refine ⟨zs, h1, ?_⟩
      cases hb : biggestZone zs with
      | none => rw [hb] at h; exact h
      | some z =>
        rw [hb] at h
        simp only [Option.bind_eq_some_iff] at h ⊢
        obtain ⟨x, hx, h⟩ := h
        refine ⟨x, release_cut_same hx, ?_⟩
        split at h
        · rename_i c; rw [if_pos c]; exact h
        · rename_i c; rw [if_neg c]; exact ih _ _ _ h

theorem release_compounds_same (he : cw '…' = 1) (f : Fitter) (excess : Nat) (cs : List Compound) :
    Release.elideCompounds cw f excess cs = f.elideCompounds cw excess cs := by
  obtain ⟨cs', e', h, _⟩ := elideCompounds_ok he f excess cs
  rw [h]
  unfold Fitter.elideCompounds at h
  unfold Release.elideCompounds
  split at h
  · rename_i c; rw [if_pos c]; exact release_loop_same _ _ _ _ h
  · rename_i c; rw [if_neg c]; exact h

/-- A cut of a token in a release build: it's the one of the debug build, or nothing which has columns can be removed. -/
theorem release_cut_token {cs pre post : List Compound} {z : Zone} {c : Compound} {a t b : Text} (hp : cs = pre ++ c :: post)
    (hi : z.compoundIdx = pre.length) (ht : c.src = a ++ t ++ b) (hs : z.byteStart = byteLen a) (hin : z.infos = charInfos cw t) (hr : 2 ≤ z.removableWidth)
    (hl : 2 ≤ t.length) (n : Nat) (hn : 1 ≤ n) :
    ZoneAt cw cs z pre post c a t b ∨
    ∃ i j, Release.cut cw z cs n = some (pre ++ { c with src := a ++ t.take i } :: Compound.raw ellipsisText ::
        { c with src := t.drop j ++ b } :: post, 2 ^ 64 - 1) ∧ z.cut cw cs n = none ∧ 1 ≤ i ∧ i ≤ j ∧ j + 1 ≤ t.length ∧ textWidth cw (seg t i j) = 0 := by
  by_cases hw : 1 ≤ textWidth cw (interior t)
  · exact .inl ⟨hp, hi, ht, hs, hin, hr, hl, hw⟩
  · right
    obtain ⟨i, j, r, c1, c2, c3, c4, c5, c6, _, _⟩ := cutLoop_ok ht hs hin n (t.length + 1) (t.length / 2) (t.length / 2) 0
      (by omega) (by omega) (by omega) (by omega) (by omega) (by simp [seg]) (by omega) (by omega)
    have hin0 : textWidth cw (seg t i j) ≤ textWidth cw (interior t) := by
      rw [interior_eq]
      have e : seg t 1 (t.length - 1) = seg t 1 i ++ (seg t i j ++ seg t j (t.length - 1)) := by
        unfold seg
        have k1 : (t.take (t.length - 1)).drop i = (t.take j).drop i ++ (t.take (t.length - 1)).drop j := by
          have := take_seg t j (t.length - 1) (by omega)
          conv => lhs; rw [this]
          rw [List.drop_append_of_le_length (by rw [List.length_take]; omega)]
          rfl
        have k2 : (t.take (t.length - 1)).drop 1 = (t.take i).drop 1 ++ (t.take (t.length - 1)).drop i := by
          have := take_seg t i (t.length - 1) (by omega)
          conv => lhs; rw [this]
          rw [List.drop_append_of_le_length (by rw [List.length_take]; omega)]
          rfl
        rw [k2, k1]
      rw [e, textWidth_append, textWidth_append]
      omega
    have hr0 : r = 0 := by omega
    refine ⟨i, j, ?_, ?_, c2, c3, c4, by omega⟩
    all_goals
      have e1 : byteLen a + byteLen (t.take i) = byteLen (a ++ t.take i) := by simp
      have e2 : byteLen a + byteLen (t.take j) = byteLen (a ++ t.take j) := by simp
      have f1 : c.src = (a ++ t.take i) ++ (t.drop i ++ b) := by
        rw [ht, List.append_assoc, List.append_assoc, ← List.append_assoc (t.take i), List.take_append_drop]
      have f2 : c.src = (a ++ t.take j) ++ (t.drop j ++ b) := by
        rw [ht, List.append_assoc, List.append_assoc, ← List.append_assoc (t.take j), List.take_append_drop]
      have g1 : takeBytes c.src (byteLen (a ++ t.take i)) = some (a ++ t.take i) := by rw [f1, takeBytes_prefix]
      have g2 : dropBytes c.src (byteLen (a ++ t.take j)) = some (t.drop j ++ b) := by rw [f2, dropBytes_prefix]
      have hget : cs[z.compoundIdx]? = some c := by rw [hp, hi]; simp
      have htake : cs.take z.compoundIdx = pre := by rw [hp, hi]; simp
      have hdrop : cs.drop (z.compoundIdx + 1) = post := by rw [hp, hi]; simp
    · simp only [Release.cut]
      rw [if_neg (by omega), hget]
      simp only [Option.bind_eq_bind, Option.bind_some, hin, charInfos_length, c1, charInfos_get cw t i (by omega),
        charInfos_get cw t j (by omega), hs, e1, e2, g1, g2, htake, hdrop, hr0]
      rfl
    · simp only [Zone.cut]
      rw [if_neg (by omega), hget]
      simp only [Option.bind_eq_bind, Option.bind_some, hin, charInfos_length, c1, charInfos_get cw t i (by omega),
        charInfos_get cw t j (by omega), hs, e1, e2, g1, g2, htake, hdrop, hr0]
      rfl

/-- What the elision of tokens gives in a release build: the same as in a debug build, or a debug build panics and a last ellipsis replaces nothing. -/
theorem release_tokens_loop (he : cw '…' = 1) : ∀ (fuel excess : Nat) (cs : List Compound), excess ≤ fuel → excess < 2 ^ 64 →
    ∃ cs' e', Release.elideLoop cw (tokenZones cw ws 3 0) fuel excess cs = some (cs', e') ∧
      ((∀ c ∈ cs, c.src ≠ []) → ∀ c ∈ cs', c.src ≠ []) ∧
      ((elideLoop cw (tokenZones cw ws 3 0) fuel excess cs = some (cs', e') ∧ Elided (styledChars cs) (styledChars cs') ∧ e' ≤ excess ∧
          compoundsWidth cw cs' + excess ≤ compoundsWidth cw cs + e') ∨
        (elideLoop cw (tokenZones cw ws 3 0) fuel excess cs = none ∧ e' = 0 ∧ compoundsWidth cw cs + 2 ≤ compoundsWidth cw cs' + excess ∧
          compoundsWidth cw cs' ≤ compoundsWidth cw cs + 1 ∧
          ∃ p r q, Elided (styledChars cs) (p ++ r ++ q) ∧ colsOf cw r = 0 ∧ styledChars cs' = p ++ dots :: q)) := by
  intro fuel
  induction fuel with
  | zero =>
    intro excess cs hf _
    have : excess = 0 := by omega
    subst this
    exact ⟨cs, 0, rfl, fun h => h, .inl ⟨rfl, .refl _, Nat.le_refl _, by omega⟩⟩
  | succ fuel ih =>
    intro excess cs hf hx
    cases excess with
    | zero => exact ⟨cs, 0, rfl, fun h => h, .inl ⟨rfl, .refl _, Nat.le_refl _, by omega⟩⟩
    | succ excess =>
      obtain ⟨zs, h1, h2⟩ := tokenZones_ok (cw := cw) (ws := ws) 3 cs 0
      simp only [Release.elideLoop, elideLoop, h1, Option.bind_eq_bind, Option.bind_some]
      cases hb : biggestZone zs with
      | none => exact ⟨cs, excess + 1, rfl, fun h => h, .inl ⟨rfl, .refl _, Nat.le_refl _, by omega⟩⟩
      | some z =>
        obtain ⟨pre, post, c, a, t, b, q1, ⟨q2, q3, q4, q5⟩, q6, q7, q8, q9, q10, q11, q12⟩ := h2 z (biggestZone_mem hb)
        have hl := length_of_bytes q8
        have hN : ∀ i j, 1 ≤ i → j + 1 ≤ t.length → (∀ c ∈ cs, c.src ≠ []) → ∀ x ∈ (pre ++ { c with src := a ++ t.take i } :: Compound.raw ellipsisText ::
            { c with src := t.drop j ++ b } :: post), x.src ≠ [] := by
          intro i j hi hj hne x hx
          rw [q1] at hne
          simp only [List.mem_append, List.mem_cons] at hx
          rcases hx with hx | rfl | rfl | rfl | hx
          · exact hne x (by simp [hx])
          · intro h0
            have := congrArg List.length (List.append_eq_nil_iff.1 h0).2
            rw [List.length_take, List.length_nil] at this; omega
          · simp [Compound.raw, ellipsisText]
          · intro h0
            have := congrArg List.length (List.append_eq_nil_iff.1 h0).1
            rw [List.length_drop, List.length_nil] at this; omega
          · exact hne x (by simp [hx])
        rcases release_cut_token (cw := cw) q1 (by rw [q3]; omega) q2 q4 q5 (by omega) hl (excess + 2) (by omega) with h3 | ⟨i, j, c1, c0, c2, c3, c4, c5⟩
        · obtain ⟨i, j, g, c1, c2, c3, c4, c5, c6, _, _⟩ := cut_ok h3 (excess + 2) (by omega)
          dsimp only
          rw [release_cut_same c1, c1]
          simp only [Option.bind_some]
          have hE := zoneAt_chars h3 i j c3 (by omega)
          have hW := zoneAt_width h3 he i j g c3 c5
          by_cases hg0 : g = 0
          · rw [if_pos hg0, if_pos hg0]
            exact ⟨_, _, rfl, hN i j c2 c4, .inl ⟨rfl, hE, Nat.le_refl _, by omega⟩⟩
          · rw [if_neg hg0, if_neg hg0]
            obtain ⟨cs', e', d1, d2, d3⟩ := ih (excess + 1 - min g (excess + 1)) (pre ++ { c with src := a ++ t.take i } :: Compound.raw ellipsisText ::
              { c with src := t.drop j ++ b } :: post) (by omega) (by omega)
            refine ⟨cs', e', d1, fun h => d2 (hN i j c2 c4 h), ?_⟩
            rcases d3 with ⟨k1, k2, k3, k4⟩ | ⟨k1, k2, k3, k4, p, r, q, k5, k6, k7⟩
            · exact .inl ⟨k1, hE.trans k2, by omega, by omega⟩
            · refine .inr ⟨k1, k2, ?_, by omega, p, r, q, hE.trans k5, k6, k7⟩
              by_cases hge : excess + 1 ≤ g
              · exfalso
                have : excess + 1 - min g (excess + 1) = 0 := by omega
                rw [this] at k1
                cases fuel <;> simp [elideLoop] at k1
              · omega
        · dsimp only
          rw [c1, c0]
          simp only [Option.bind_some, Option.bind_none]
          rw [if_neg (by decide), show excess + 1 - min (2 ^ 64 - 1) (excess + 1) = 0 by omega]
          refine ⟨_, 0, by cases fuel <;> rfl, hN i j c2 c4, .inr ⟨trivial, rfl, ?_⟩⟩
          have e : c.src = a ++ (t.take i ++ seg t i j ++ t.drop j) ++ b := by
            rw [q2, ← seg_split t i j (by omega)]
          have hW : compoundsWidth cw (pre ++ { c with src := a ++ t.take i } :: Compound.raw ellipsisText :: { c with src := t.drop j ++ b } :: post) =
              compoundsWidth cw cs + 1 := by
            rw [q1]
            simp only [compoundsWidth, List.map_append, List.sum_append, List.map_cons, List.sum_cons, e, textWidth_append,
              Compound.raw, ellipsisText, textWidth, he, c5]
            omega
          refine ⟨by omega, by omega, styledChars pre ++ (a ++ t.take i).map (fun ch => (ch, c.flags)), (seg t i j).map (fun ch => (ch, c.flags)),
            (t.drop j ++ b).map (fun ch => (ch, c.flags)) ++ styledChars post, ?_, by rw [colsOf_map]; exact c5, ?_⟩
          · have hs : styledChars cs = styledChars pre ++ (a ++ t.take i).map (fun ch => (ch, c.flags)) ++ (seg t i j).map (fun ch => (ch, c.flags)) ++
                ((t.drop j ++ b).map (fun ch => (ch, c.flags)) ++ styledChars post) := by
              rw [q1]
              simp only [styledChars_append, styledChars_cons, e, List.map_append, List.append_assoc]
            rw [hs]; exact Elided.refl _
          · have hdots : (Compound.raw ellipsisText).src.map (fun ch => (ch, (Compound.raw ellipsisText).flags)) = [dots] := rfl
            simp only [styledChars_append, styledChars_cons, hdots, List.append_assoc, List.cons_append, List.nil_append]

/-! ## C106 -/

/-- C106: when a debug build doesn't panic, a release build gives the same. -/
theorem C106_same (cw : Char → Nat) (ws : Char → Bool) (skin : Skin) (he : cw '…' = 1) (f : Fitter) (maxWidth : Nat) (fc fc' : FmtComposite)
    (h : f.fit cw ws fc maxWidth skin = some fc') : Release.fit cw ws f fc maxWidth skin = some fc' := by
  unfold Fitter.fit at h
  unfold Release.fit
  by_cases c1 : fc.visibleLength ≤ maxWidth
  · rw [if_pos c1] at h ⊢; exact h
  rw [if_neg c1] at h ⊢
  by_cases c2 : maxWidth = 0
  · rw [if_pos c2] at h ⊢; exact h
  rw [if_neg c2] at h ⊢
  by_cases c3 : maxWidth = 1
  · rw [if_pos c3] at h ⊢; exact h
  rw [if_neg c3] at h ⊢
  simp only [Option.bind_eq_bind, Option.bind_eq_some_iff] at h ⊢
  obtain ⟨r1, h1, r2, h2, h3⟩ := h
  refine ⟨r1, ?_, r2, by rw [release_compounds_same he]; exact h2, h3⟩
  unfold Fitter.elideTokens at h1
  unfold Release.elideTokens
  split at h1
  · rename_i c; rw [if_pos c]; exact release_loop_same _ _ _ _ h1
  · rename_i c; rw [if_neg c]; exact h1

/-- C106: in a release build the fitting doesn't panic; either a debug build gives the same, which fits, or a debug build panics, and the result is at least two columns
too wide and at most one column wider than the composite: it is the text with parts replaced by ellipsis, the last of which takes the place of something which has no
column. -/
theorem C106_fit (cw : Char → Nat) (ws : Char → Bool) (skin : Skin) (he : cw '…' = 1) (f : Fitter) (maxWidth : Nat) (fc : FmtComposite)
    (hcached : fc.visibleLength = lineCols cw skin.indentMode fc) (hsize : fc.visibleLength < 2 ^ 64)
    (hroom : prefixCols skin.indentMode fc.kind = 0 ∨ prefixCols skin.indentMode fc.kind + 1 ≤ maxWidth ∧ 2 ≤ maxWidth)
    (hne : f.align = .right ∨ f.align = .center → ∀ c ∈ fc.compounds, c.src ≠ []) :
    ∃ fc', Release.fit cw ws f fc maxWidth skin = some fc' ∧ fc'.visibleLength = lineCols cw skin.indentMode fc' ∧ fc'.kind = fc.kind ∧ fc'.spacing = fc.spacing ∧
      ((f.fit cw ws fc maxWidth skin = some fc' ∧ fc'.visibleLength ≤ maxWidth) ∨
        (f.fit cw ws fc maxWidth skin = none ∧ maxWidth + 2 ≤ fc'.visibleLength ∧ fc'.visibleLength ≤ fc.visibleLength + 1 ∧
          ∃ p r q, Elided (styledChars fc.compounds) (p ++ r ++ q) ∧ colsOf cw r = 0 ∧ styledChars fc'.compounds = p ++ dots :: q)) := by
  by_cases c1 : fc.visibleLength ≤ maxWidth
  · exact ⟨fc, by simp [Release.fit, c1], hcached, rfl, rfl, .inl ⟨by simp [Fitter.fit, c1], c1⟩⟩
  by_cases c2 : maxWidth < 2
  · have ht : Fittable cw ws skin { f with midToken := false } maxWidth fc := ⟨hcached, hroom, hne, by simp⟩
    obtain ⟨fc', h1, h2, h3, h4, h5, _⟩ := C12_fits cw ws skin he _ maxWidth fc ht
    have e : f.fit cw ws fc maxWidth skin = some fc' := by
      rw [← h1]
      unfold Fitter.fit
      rw [if_neg c1, if_neg c1]
      by_cases c0 : maxWidth = 0
      · rw [if_pos c0, if_pos c0]
      · rw [if_neg c0, if_neg c0, if_pos (by omega), if_pos (by omega)]
    exact ⟨fc', C106_same cw ws skin he f maxWidth fc fc' e, h3, h4, h5, .inl ⟨e, h2⟩⟩
  have hP : prefixCols skin.indentMode fc.kind + 1 ≤ maxWidth := by omega
  have hc := hcached
  rw [lineCols_eq, visible_eq] at hc
  have tok : ∃ cs' e', Release.elideTokens cw ws f (fc.visibleLength - maxWidth) fc.compounds = some (cs', e') ∧
      ((∀ c ∈ fc.compounds, c.src ≠ []) → ∀ c ∈ cs', c.src ≠ []) ∧
      ((f.elideTokens cw ws (fc.visibleLength - maxWidth) fc.compounds = some (cs', e') ∧ Elided (styledChars fc.compounds) (styledChars cs') ∧
          e' ≤ fc.visibleLength - maxWidth ∧
          compoundsWidth cw cs' + (fc.visibleLength - maxWidth) ≤ compoundsWidth cw fc.compounds + e') ∨
        (f.elideTokens cw ws (fc.visibleLength - maxWidth) fc.compounds = none ∧ e' = 0 ∧
          compoundsWidth cw fc.compounds + 2 ≤ compoundsWidth cw cs' + (fc.visibleLength - maxWidth) ∧
          compoundsWidth cw cs' ≤ compoundsWidth cw fc.compounds + 1 ∧
          ∃ p r q, Elided (styledChars fc.compounds) (p ++ r ++ q) ∧ colsOf cw r = 0 ∧ styledChars cs' = p ++ dots :: q)) := by
    unfold Release.elideTokens Fitter.elideTokens
    cases f.midToken with
    | true => simp only [if_true]; exact release_tokens_loop he _ _ _ (Nat.le_refl _) (by omega)
    | false => exact ⟨_, _, rfl, fun h => h, .inl ⟨rfl, .refl _, Nat.le_refl _, by omega⟩⟩
  obtain ⟨cs1, e1, t1, t2, t3⟩ := tok
  have run : ∀ cs2 e2 cs3, f.elideCompounds cw e1 cs1 = some (cs2, e2) → f.truncate cw e2 cs2 = some cs3 →
      Release.fit cw ws f fc maxWidth skin = some (FmtComposite.recomputeWidth skin cw { fc with compounds := cs3 }) := by
    intro cs2 e2 cs3 h1 h2
    simp only [Release.fit]
    rw [if_neg c1, if_neg (by omega), if_neg (by omega), t1]
    simp only [Option.bind_eq_bind, Option.bind_some, release_compounds_same he, h1, h2]
  have len : ∀ cs : List Compound, (FmtComposite.recomputeWidth skin cw { fc with compounds := cs }).visibleLength =
      lineCols cw skin.indentMode (FmtComposite.recomputeWidth skin cw { fc with compounds := cs }) ∧
      (FmtComposite.recomputeWidth skin cw { fc with compounds := cs }).visibleLength = prefixCols skin.indentMode fc.kind + compoundsWidth cw cs := by
    intro cs
    have e : (FmtComposite.recomputeWidth skin cw { fc with compounds := cs }).visibleLength = prefixCols skin.indentMode fc.kind + compoundsWidth cw cs :=
      visible_eq ..
    refine ⟨?_, e⟩
    rw [lineCols_eq]; rfl
  rcases t3 with ⟨k1, k2, k3, k4⟩ | ⟨k1, k2, k3, k4, k5⟩
  · obtain ⟨cs2, e2, b1, b2, b3, b4, b5, b7, b6⟩ := elideCompounds_ok he f e1 cs1
    have hne0 : styledChars fc.compounds ≠ [] := by
      intro h0
      have := cols_eq cw fc.compounds
      rw [h0] at this
      simp [colsOf] at this
      omega
    have hne2 : styledChars cs2 ≠ [] := by
      intro h0
      have hE := k2.trans b2
      rw [h0] at hE
      generalize styledChars fc.compounds = x at hE hne0
      cases hE
      exact hne0 rfl
    have fin : ∃ cs3, f.truncate cw e2 cs2 = some cs3 ∧ compoundsWidth cw cs3 ≤ maxWidth - prefixCols skin.indentMode fc.kind := by
      by_cases h0 : e2 = 0
      · exact ⟨cs2, by simp [Fitter.truncate, h0], by omega⟩
      · obtain ⟨cs3, q1, q2, _⟩ := truncate_ok he f e2 cs2 (maxWidth - prefixCols skin.indentMode fc.kind)
          (by omega) (by omega) hne2 (by omega) (fun ha => b5 (t2 (hne ha)))
        exact ⟨cs3, q1, q2⟩
    obtain ⟨cs3, q1, q2⟩ := fin
    refine ⟨_, run cs2 e2 cs3 b1 q1, (len cs3).1, rfl, rfl, .inl ⟨?_, by rw [(len cs3).2]; omega⟩⟩
    simp only [Fitter.fit]
    rw [if_neg c1, if_neg (by omega), if_neg (by omega), k1]
    simp only [Option.bind_eq_bind, Option.bind_some, b1, q1]
  · subst k2
    have h1 : f.elideCompounds cw 0 cs1 = some (cs1, 0) := by
      unfold Fitter.elideCompounds
      split
      · rfl
      · rfl
    refine ⟨_, run cs1 0 cs1 h1 (by simp [Fitter.truncate]), (len cs1).1, rfl, rfl, .inr ⟨?_, by rw [(len cs1).2]; omega, by rw [(len cs1).2]; omega, k5⟩⟩
    simp only [Fitter.fit]
    rw [if_neg c1, if_neg (by omega), if_neg (by omega), k1]
    rfl

/-- C106: when no long token consists of wide characters with nothing between them, the result fits, as in a debug build. -/
theorem C106_thick (cw : Char → Nat) (ws : Char → Bool) (skin : Skin) (he : cw '…' = 1) (f : Fitter) (maxWidth : Nat) (fc : FmtComposite)
    (h : Fittable cw ws skin f maxWidth fc) :
    ∃ fc', Release.fit cw ws f fc maxWidth skin = some fc' ∧ f.fit cw ws fc maxWidth skin = some fc' ∧ fc'.visibleLength ≤ maxWidth := by
  obtain ⟨fc', h1, h2, _⟩ := C12_fits cw ws skin he f maxWidth fc h
  exact ⟨fc', C106_same cw ws skin he f maxWidth fc fc' h1, h1, h2⟩

/-- Two words of wide characters after a longer one. -/
def thinExample : FmtComposite := FmtComposite.ofComposite {} fitCw .quote [⟨"abcdef ".toList, {}⟩, ⟨"一曰 曰一".toList, { bold := true }⟩]

/-- C106: the hypotheses are met when a debug build panics, with a first cut which removes something. -/
example : thinExample.visibleLength = lineCols fitCw .block thinExample ∧ prefixCols .block thinExample.kind + 1 ≤ 9 ∧
    ({} : Fitter).fit fitCw fitWs thinExample 9 {} = none ∧
    ((Release.fit fitCw fitWs {} thinExample 9 {}).map fun fc => (String.ofList ((styledChars fc.compounds).map (·.1)), fc.visibleLength)) =
      some ("a…f 一曰 曰…一", 16) := by decide

/-- C106: and when it doesn't. -/
example : ((Release.fit fitCw fitWs {} thinExample 16 {}).map fun fc => (String.ofList ((styledChars fc.compounds).map (·.1)), fc.visibleLength)) =
    some ("ab…f 一曰 曰一", 16) := by decide

/-- The fitting in 3 columns of two characters of two columns makes them larger: the ellipsis is added and nothing is removed. -/
theorem C106_wide_counterexample :
    ((Release.fit fitCw fitWs {} (FmtComposite.ofComposite {} fitCw .paragraph [⟨"一曰".toList, {}⟩]) 3 {}).map
      fun fc => (String.ofList ((styledChars fc.compounds).map (·.1)), fc.visibleLength)) = some ("一…曰", 5) := by decide

/-- An empty compound makes the fitters for right or centered alignments panic in release builds too: the index of its character is out of bounds. -/
theorem C106_empty_counterexample :
    Release.fitWidth fitCw fitWs (FmtComposite.ofComposite {} fitCw .paragraph [⟨[], {}⟩, ⟨"abcd".toList, {}⟩]) 3 .right {} = none := by
  decide

/-- C106: without inner elision, fitting panics in a release build exactly for the same composites as in a debug build: those to shorten, in at least
two columns, which have an empty compound before the place up to which their start must be removed. -/
theorem C106_aligned_panics (cw : Char → Nat) (ws : Char → Bool) (skin : Skin) (f : Fitter) (hf : f.midToken = false ∧ f.midCompound = false)
    (maxWidth : Nat) (fc : FmtComposite) :
    (Release.fit cw ws f fc maxWidth skin = none ↔ 2 ≤ maxWidth ∧ maxWidth < fc.visibleLength ∧
      ∃ before c after, fc.compounds = before ++ c :: after ∧ c.src = [] ∧
        srcCols cw before < startCut f.align (fc.visibleLength - maxWidth)) ∧
    Release.fit cw ws f fc maxWidth skin = f.fit cw ws fc maxWidth skin := by
  have e : Release.fit cw ws f fc maxWidth skin = f.fit cw ws fc maxWidth skin := by
    simp [Release.fit, Fitter.fit, Release.elideTokens, Release.elideCompounds, Fitter.elideTokens, Fitter.elideCompounds, hf.1, hf.2]
  exact ⟨by rw [e]; exact C12_aligned_panics cw ws skin f hf maxWidth fc, e⟩

/-- Both outcomes, for an empty compound which is reached or not. -/
example :
    (Release.fitWidth fitCw fitWs (FmtComposite.ofComposite {} fitCw .paragraph [⟨"abcd".toList, {}⟩, ⟨[], {}⟩, ⟨"e".toList, {}⟩]) 3 .right {}).isSome ∧
    Release.fitWidth fitCw fitWs (FmtComposite.ofComposite {} fitCw .paragraph [⟨"abcd".toList, {}⟩, ⟨[], {}⟩, ⟨"ef".toList, {}⟩]) 2 .right {} = none := by
  decide

end Verif.Props
