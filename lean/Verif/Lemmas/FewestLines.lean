import Verif.Lemmas.WrapBreaks
import Verif.Spec.FewestLines
/-! Lemmas for C70: the number of lines of a wrapping. -/
namespace Verif.Fewest
open Verif

/-- The number of line breaks made by the loop of `hard_wrap_composite` on tokens known by their blankness and width. -/
def breaks (W other : Nat) : Nat → List (Bool × Nat) → Nat
  | _, [] => 0
  | L, (b, w) :: ts =>
    if L + w > W then
      if b = false then breaks W other (other + w) ts + 1 else breaks W other L ts
    else breaks W other (L + w) ts

/-- Another way to break tokens: `n` line breaks, `L` columns in the current line, `e` tells whether there's no need for
the blanks at the current place (start of another line than the first one). -/
inductive Way (W other : Nat) : Nat → Nat → Bool → List (Bool × Nat) → Prop
  | done (n L : Nat) (e : Bool) : Way W other n L e []
  | word (n L : Nat) (e : Bool) (w : Nat) (ts : List (Bool × Nat)) : L + w ≤ W → Way W other n (L + w) false ts →
      Way W other n L e ((false, w) :: ts)
  | keep (n L w : Nat) (ts : List (Bool × Nat)) : Way W other n (L + w) false ts → Way W other n L false ((true, w) :: ts)
  | lead (n L w : Nat) (ts : List (Bool × Nat)) : Way W other n L true ts → Way W other n L true ((true, w) :: ts)
  | brk (n L : Nat) (e : Bool) (ts : List (Bool × Nat)) : Way W other n other true ts → Way W other (n + 1) L e ts

/-- Greedy is never behind. -/
theorem breaks_le {W other n L : Nat} {e : Bool} {ts : List (Bool × Nat)} (h : Way W other n L e ts) (hL : other ≤ L) :
    (∀ Lg, Lg ≤ L → e = false → breaks W other Lg ts ≤ n) ∧ ∀ Lg d, breaks W other Lg ts ≤ n + (d + 1) := by
  induction h with
  | done n L e => simp [breaks]
  | word n L e w ts hw _ ih =>
    obtain ⟨ih1, ih2⟩ := ih (by omega)
    constructor
    · intro Lg hle he
      rw [breaks, if_neg (by omega)]
      exact ih1 _ (by omega) rfl
    · intro Lg d
      rw [breaks]
      split
      · rw [if_pos rfl]
        cases d with
        | zero => have := ih1 (other + w) (by omega) rfl; omega
        | succ d => have := ih2 (other + w) d; omega
      · exact ih2 _ d
  | keep n L w ts _ ih =>
    obtain ⟨ih1, ih2⟩ := ih (by omega)
    constructor
    · intro Lg hle he
      rw [breaks]
      split
      · rw [if_neg (by simp)]; exact ih1 _ (by omega) rfl
      · exact ih1 _ (by omega) rfl
    · intro Lg d
      rw [breaks]
      split
      · rw [if_neg (by simp)]; exact ih2 _ d
      · exact ih2 _ d
  | lead n L w ts _ ih =>
    obtain ⟨ih1, ih2⟩ := ih hL
    constructor
    · intro Lg hle he; cases he
    · intro Lg d
      rw [breaks]
      split
      · rw [if_neg (by simp)]; exact ih2 _ d
      · exact ih2 _ d
  | brk n L e ts _ ih =>
    obtain ⟨_, ih2⟩ := ih (Nat.le_refl _)
    constructor
    · intro Lg _ _; have := ih2 Lg 0; omega
    · intro Lg d; have := ih2 Lg (d + 1); omega

/-- At the start of a line, the width of blanks has no importance. -/
theorem Way.change {W other n L : Nat} {e : Bool} {ts : List (Bool × Nat)} (h : Way W other n L e ts) :
    ∀ w w' ts', e = true → ts = (true, w) :: ts' → Way W other n L true ((true, w') :: ts') := by
  induction h with
  | done => intro w w' ts' _ h; cases h
  | word => intro w w' ts' _ h; cases h
  | keep => intro w w' ts' h; cases h
  | lead n L w0 ts hw _ => intro w w' ts' _ h; cases h; exact .lead _ _ _ _ hw
  | brk n L e ts hw ih => intro w w' ts' _ h; exact .brk _ _ _ _ (ih w w' ts' rfl h)

/-- A character: whether it's a blank, its width, and whether it can't be separated from the previous one. -/
structure Cell where
  blank : Bool
  width : Nat
  glued : Bool

/-- The cells of the rest of a compound, `p` telling whether there's a non blank just before. -/
def cellsFrom (cw : Char → Nat) (ws : Char → Bool) (flags : Flags) : Bool → Text → List Cell
  | _, [] => []
  | p, ch :: rest =>
    let b := Spec.blank ws (ch, flags)
    ⟨b, cw ch, p && !b⟩ :: cellsFrom cw ws flags (!b) rest

/-- The cells of compounds. -/
def cells (cw : Char → Nat) (ws : Char → Bool) (cs : List Compound) : List Cell :=
  cs.flatMap fun c => cellsFrom cw ws c.flags false c.src

def cellCols (l : List Cell) : Nat := (l.map (·.width)).sum

/-- A part of a line between two places where it may be cut by the tokenization. -/
structure IsPiece (t : Bool × Nat) (p : List Cell) : Prop where
  ne : p ≠ []
  blank : ∀ c ∈ p, c.blank = t.1
  width : cellCols p = t.2
  glued : t.1 = false → ∀ c q, p = c :: q → ∀ c' ∈ q, c'.glued = true

inductive Pieces : List (Bool × Nat) → List Cell → Prop
  | nil : Pieces [] []
  | cons (t : Bool × Nat) (ts : List (Bool × Nat)) (p l : List Cell) : IsPiece t p → Pieces ts l → Pieces (t :: ts) (p ++ l)

theorem Pieces.append {ts ts' : List (Bool × Nat)} {l l' : List Cell} (h : Pieces ts l) (h' : Pieces ts' l') :
    Pieces (ts ++ ts') (l ++ l') := by
  induction h with
  | nil => simpa
  | cons t ts p l hp _ ih => rw [List.append_assoc]; exact .cons _ _ _ _ hp ih

/-- What must be true of a line for it to be displayed: what ends with a non blank fits. -/
def FitsFrom (W L : Nat) (e : Bool) (r : List Cell) : Prop :=
  ∀ u c v, r = u ++ c :: v → c.blank = false →
    L + cellCols (if e then (u ++ [c]).dropWhile (·.blank) else u ++ [c]) ≤ W

theorem cellCols_append (a b : List Cell) : cellCols (a ++ b) = cellCols a + cellCols b := by simp [cellCols]

theorem dropWhile_blank_append (p u : List Cell) (hp : ∀ c ∈ p, c.blank = true) :
    (p ++ u).dropWhile (·.blank) = u.dropWhile (·.blank) := by
  induction p with
  | nil => rfl
  | cons c p ih =>
    rw [List.cons_append, List.dropWhile_cons_of_pos (hp c (by simp))]
    exact ih fun c' h => hp c' (by simp [h])

theorem dropWhile_word_append (p u : List Cell) (hne : p ≠ []) (hp : ∀ c ∈ p, c.blank = false) :
    (p ++ u).dropWhile (·.blank) = p ++ u := by
  cases p with
  | nil => exact absurd rfl hne
  | cons c p =>
    rw [List.cons_append, List.dropWhile_cons_of_neg (by simp [hp c (by simp)])]

/-- The first cell of groups of cells. -/
theorem head_of_groups {gs : List (List Cell)} {c : Cell} {q : List Cell} (h : gs.flatten = c :: q)
    (hg : ∀ g ∈ gs, ∀ c q, g = c :: q → c.glued = false) : c.glued = false := by
  induction gs with
  | nil => simp at h
  | cons g gs ih =>
    cases g with
    | nil => simp at h; exact ih h fun g hgm => hg g (by simp [hgm])
    | cons c' g =>
      simp at h
      obtain ⟨rfl, _⟩ := h
      exact hg (c' :: g) (by simp) _ _ rfl

/-- A layout of cells in lines is a way to break tokens. -/
theorem way_of_groups (W other : Nat) : ∀ (m : Nat) (ts : List (Bool × Nat)) (r : List Cell) (gs : List (List Cell)) (L : Nat) (e : Bool),
    ts.length + gs.length ≤ m → Pieces ts (r ++ gs.flatten) →
    (∀ g ∈ gs, ∀ c q, g = c :: q → c.glued = false) →
    FitsFrom W L e r → (∀ g ∈ gs, FitsFrom W other true g) → Way W other gs.length L e ts := by
  intro m
  induction m with
  | zero =>
    intro ts r gs L e hm hp _ _ _
    cases ts with
    | nil => exact .done _ _ _
    | cons t ts => simp at hm
  | succ m ih =>
    intro ts r gs L e hm hp hg hr hgs
    generalize hl : r ++ gs.flatten = l at hp
    cases hp with
    | nil => exact .done _ _ _
    | cons t ts p l ht hts =>
      rcases List.append_eq_append_iff.1 hl with ⟨p2, h1, h2⟩ | ⟨r', h1, h2⟩
      · -- the group ends in the token, or just before it
        by_cases hp2 : p2 = []
        · subst hp2
          simp only [List.append_nil, List.nil_append] at h1 h2
          subst h1 h2
          obtain ⟨b, w⟩ := t
          cases b with
          | false =>
            have hfit := hr
            obtain ⟨p', c, hpc⟩ : ∃ p' c, p = p' ++ [c] := ⟨p.dropLast, p.getLast ht.ne, (List.dropLast_concat_getLast ht.ne).symm⟩
            have hw := hfit p' c [] (by simp [hpc]) (ht.blank c (by simp [hpc]))
            rw [← hpc] at hw
            have hd := dropWhile_word_append p [] ht.ne ht.blank
            simp only [List.append_nil] at hd
            rw [hd, ite_self, ht.width] at hw
            refine .word _ _ _ _ _ hw ?_
            refine ih ts [] gs (L + w) false (by simp at hm ⊢; omega) (by simpa using hts) hg ?_ hgs
            intro u c v h; simp at h
          | true =>
            cases e with
            | true =>
              refine .lead _ _ _ _ (ih ts [] gs L true (by simp at hm ⊢; omega) (by simpa using hts) hg ?_ hgs)
              intro u c v h; simp at h
            | false =>
              refine .keep _ _ _ _ (ih ts [] gs (L + w) false (by simp at hm ⊢; omega) (by simpa using hts) hg ?_ hgs)
              intro u c v h; simp at h
        · cases gs with
          | nil => simp at h2; exact absurd h2.1 hp2
          | cons g gs =>
            obtain ⟨b, w⟩ := t
            cases b with
            | false =>
              by_cases hre : r = []
              · subst hre
                simp only [List.nil_append] at h1 h2
                subst h1
                refine .brk _ _ _ _ (ih _ g gs other true (by simp at hm ⊢; omega) ?_ (fun g' h => hg g' (by simp [h])) (hgs g (by simp)) (fun g' h => hgs g' (by simp [h])))
                rw [List.flatten_cons] at h2
                rw [h2]
                exact .cons _ _ _ _ ht hts
              · exfalso
                cases p2 with
                | nil => exact hp2 rfl
                | cons c q =>
                  cases r with
                  | nil => exact hre rfl
                  | cons c0 r =>
                    have hgl := head_of_groups (by rw [h2]; rfl) hg
                    have := ht.glued rfl c0 (r ++ c :: q) (by rw [h1]; rfl) c (by simp)
                    rw [this] at hgl; cases hgl
            | true =>
              refine .brk _ _ _ _ ?_
              have hway := ih ((true, cellCols p2) :: ts) g gs other true (by simp at hm ⊢; omega) (by
                rw [List.flatten_cons] at h2
                rw [h2]
                refine .cons _ _ _ _ ⟨hp2, ?_, rfl, by simp⟩ hts
                intro c hc
                exact ht.blank c (by rw [h1]; simp [hc])) (fun g' h => hg g' (by simp [h])) (hgs g (by simp)) (fun g' h => hgs g' (by simp [h]))
              exact hway.change _ _ _ rfl rfl
      · -- the token is in the group
        subst h1
        obtain ⟨b, w⟩ := t
        cases b with
        | false =>
          obtain ⟨p', c, hpc⟩ : ∃ p' c, p = p' ++ [c] := ⟨p.dropLast, p.getLast ht.ne, (List.dropLast_concat_getLast ht.ne).symm⟩
          have hw := hr p' c r' (by simp [hpc]) (ht.blank c (by simp [hpc]))
          rw [← hpc] at hw
          have hd := dropWhile_word_append p [] ht.ne ht.blank
          simp only [List.append_nil] at hd
          rw [hd, ite_self, ht.width] at hw
          refine .word _ _ _ _ _ hw ?_
          refine ih ts r' gs (L + w) false (by simp at hm ⊢; omega) (by rw [← h2]; exact hts) hg ?_ hgs
          intro u c v h hb
          have := hr (p ++ u) c v (by simp [h]) hb
          rw [List.append_assoc, dropWhile_word_append p (u ++ [c]) ht.ne ht.blank, ite_self, cellCols_append, ht.width] at this
          simp only [Bool.false_eq_true, if_false]
          omega
        | true =>
          cases e with
          | true =>
            refine .lead _ _ _ _ (ih ts r' gs L true (by simp at hm ⊢; omega) (by rw [← h2]; exact hts) hg ?_ hgs)
            intro u c v h hb
            have := hr (p ++ u) c v (by simp [h]) hb
            rw [if_pos rfl, List.append_assoc, dropWhile_blank_append p (u ++ [c]) ht.blank] at this
            rw [if_pos rfl]; exact this
          | false =>
            refine .keep _ _ _ _ (ih ts r' gs (L + w) false (by simp at hm ⊢; omega) (by rw [← h2]; exact hts) hg ?_ hgs)
            intro u c v h hb
            have := hr (p ++ u) c v (by simp [h]) hb
            simp only [Bool.false_eq_true, if_false, List.append_assoc] at this ⊢
            rw [cellCols_append, ht.width] at this
            omega

/-- The tokens of the rest of a compound. -/
theorem tokenizeLoop_pieces (cw : Char → Nat) (ws : Char → Bool) (c : Compound) (max : Nat) : ∀ (rest : Text) (idx : Nat) (t : Token) (p : List Cell),
    IsPiece (t.blank, t.width) p →
    Pieces ((tokenizeLoop cw ws c max idx (some t) rest).map fun t => (t.blank, t.width)) (p ++ cellsFrom cw ws c.flags (!t.blank) rest) := by
  intro rest
  induction rest with
  | nil =>
    intro idx t p hp
    simp only [tokenizeLoop, List.map_cons, List.map_nil, cellsFrom]
    exact .cons _ _ _ _ hp .nil
  | cons ch rest ih =>
    intro idx t p hp
    have hnew : ∀ g, IsPiece (ws ch && !c.flags.code, cw ch) [⟨ws ch && !c.flags.code, cw ch, g⟩] := fun g =>
      ⟨by simp, by simp, by simp [cellCols], by intro _ c q h c' hc'; simp at h; obtain ⟨_, rfl⟩ := h; simp at hc'⟩
    simp only [tokenizeLoop, cellsFrom, Spec.blank]
    split
    · rename_i hcond
      have := ih (idx + ch.utf8Size) { t with width := t.width + cw ch, stop := t.stop + ch.utf8Size }
        (p ++ [⟨ws ch && !c.flags.code, cw ch, !t.blank && !(ws ch && !c.flags.code)⟩]) (by
          refine ⟨by simp, ?_, ?_, ?_⟩
          · intro x hx
            simp only [List.mem_append, List.mem_singleton] at hx
            rcases hx with hx | rfl
            · exact hp.blank x hx
            · exact hcond.1.symm
          · rw [cellCols_append, hp.width]; simp [cellCols]
          · intro hb x q hq x' hx'
            simp only at hb
            cases hpp : p with
            | nil => exact absurd hpp hp.ne
            | cons d q' =>
              rw [hpp] at hq
              simp only [List.cons_append, List.cons.injEq] at hq
              obtain ⟨rfl, rfl⟩ := hq
              simp only [List.mem_append, List.mem_singleton] at hx'
              rcases hx' with hx' | rfl
              · exact hp.glued hb _ _ hpp _ hx'
              · simp only [← hcond.1, hb]; rfl)
      simp only [List.append_assoc, List.singleton_append] at this
      rw [← hcond.1]
      rw [← hcond.1] at this
      exact this
    · rw [List.map_cons]
      refine .cons _ _ _ _ hp ?_
      have := ih (idx + ch.utf8Size) ⟨c, ws ch && !c.flags.code, cw ch, idx, idx + ch.utf8Size⟩ _ (hnew (!t.blank && !(ws ch && !c.flags.code)))
      exact this

/-- The tokens of compounds cut their cells in pieces. -/
theorem tokenize_pieces (cw : Char → Nat) (ws : Char → Bool) (max : Nat) (cs : List Compound) :
    Pieces ((tokenize cw ws cs max).map fun t => (t.blank, t.width)) (cells cw ws cs) := by
  induction cs with
  | nil => exact .nil
  | cons c cs ih =>
    simp only [tokenize, cells, List.flatMap_cons, List.map_append] at ih ⊢
    refine Pieces.append ?_ ih
    cases hs : c.src with
    | nil => exact .nil
    | cons ch rest =>
      simp only [tokenizeLoop, cellsFrom, Spec.blank]
      have := tokenizeLoop_pieces cw ws c max rest (0 + ch.utf8Size) ⟨c, ws ch && !c.flags.code, cw ch, 0, 0 + ch.utf8Size⟩
        [⟨ws ch && !c.flags.code, cw ch, false && !(ws ch && !c.flags.code)⟩]
        ⟨by simp, by simp, by simp [cellCols], by intro _ c q h c' hc'; simp at h; obtain ⟨_, rfl⟩ := h; simp at hc'⟩
      exact this

/-- Whether there's a non blank just before the end of `u`, for a text starting with `p`. -/
def nonBlankAfter (ws : Char → Bool) (flags : Flags) : Bool → Text → Bool
  | p, [] => p
  | _, ch :: u => nonBlankAfter ws flags (!Spec.blank ws (ch, flags)) u

theorem cellsFrom_append (cw : Char → Nat) (ws : Char → Bool) (flags : Flags) : ∀ (u v : Text) (p : Bool),
    cellsFrom cw ws flags p (u ++ v) = cellsFrom cw ws flags p u ++ cellsFrom cw ws flags (nonBlankAfter ws flags p u) v := by
  intro u
  induction u with
  | nil => intro v p; rfl
  | cons ch u ih => intro v p; simp [cellsFrom, nonBlankAfter, ih]

theorem nonBlankAfter_blank (ws : Char → Bool) (flags : Flags) (ch : Char) (h : Spec.blank ws (ch, flags) = true) :
    ∀ (u : Text) (p : Bool), nonBlankAfter ws flags p (u ++ [ch]) = false := by
  intro u
  induction u with
  | nil => intro p; simp [nonBlankAfter, h]
  | cons c u ih => intro p; simp only [List.cons_append, nonBlankAfter]; exact ih _

theorem cellsFrom_blank (cw : Char → Nat) (ws : Char → Bool) (flags : Flags) (ch : Char) (v : Text) (p : Bool)
    (h : Spec.blank ws (ch, flags) = true) : cellsFrom cw ws flags p (ch :: v) = cellsFrom cw ws flags false (ch :: v) := by
  simp [cellsFrom, h]

/-- Cutting compounds at blanks doesn't change their cells. -/
theorem cells_cut (cw : Char → Nat) {ws : Char → Bool} {cs ps : List Compound} (h : Spec.CutAtBlanks ws cs ps) :
    cells cw ws ps = cells cw ws cs := by
  induction h with
  | nil => rfl
  | whole c cs ps _ ih => simp only [cells, List.flatMap_cons] at ih ⊢; rw [ih]
  | cut c u v cs ps hsrc hb _ ih =>
    simp only [cells, List.flatMap_cons] at ih ⊢
    rw [ih, hsrc, cellsFrom_append, List.append_assoc]
    congr 2
    rcases hb with ⟨u', ch, rfl, hch⟩ | ⟨ch, v', rfl, hch⟩
    · rw [nonBlankAfter_blank ws c.flags ch hch]
    · exact (cellsFrom_blank cw ws c.flags ch v' _ hch).symm

/-- The cells of a part of a line start a compound. -/
theorem cells_head (cw : Char → Nat) (ws : Char → Bool) (cs : List Compound) : ∀ c q, cells cw ws cs = c :: q → c.glued = false := by
  induction cs with
  | nil => intro c q h; simp [cells] at h
  | cons d cs ih =>
    intro c q h
    simp only [cells, List.flatMap_cons] at h ih
    cases hs : d.src with
    | nil => rw [hs] at h; simp only [cellsFrom, List.nil_append] at h; exact ih c q h
    | cons ch rest =>
      rw [hs] at h
      simp only [cellsFrom, List.cons_append, List.cons.injEq] at h
      rw [← h.1]; rfl

theorem cells_flatten (cw : Char → Nat) (ws : Char → Bool) (gs : List (List Compound)) :
    cells cw ws gs.flatten = (gs.map (cells cw ws)).flatten := by
  induction gs with
  | nil => rfl
  | cons g gs ih => simp only [List.flatten_cons, List.map_cons, ← ih]; simp [cells]

/-- What is seen of a cell in the characters. -/
def seen (cw : Char → Nat) (ws : Char → Bool) (p : Char × Flags) : Bool × Nat := (Spec.blank ws p, cw p.1)

theorem cellsFrom_seen (cw : Char → Nat) (ws : Char → Bool) (flags : Flags) : ∀ (t : Text) (p : Bool),
    (cellsFrom cw ws flags p t).map (fun c => (c.blank, c.width)) = t.map fun ch => seen cw ws (ch, flags) := by
  intro t
  induction t with
  | nil => intro p; rfl
  | cons ch t ih => intro p; simp [cellsFrom, ih, seen]

theorem cells_seen (cw : Char → Nat) (ws : Char → Bool) (cs : List Compound) :
    (cells cw ws cs).map (fun c => (c.blank, c.width)) = (styledChars cs).map (seen cw ws) := by
  induction cs with
  | nil => rfl
  | cons c cs ih =>
    simp only [cells, List.flatMap_cons, List.map_append] at ih ⊢
    rw [ih, cellsFrom_seen, styledChars_cons]
    simp [Function.comp_def]

/-- The columns of what is needed of a part, for cells seen as characters. -/
theorem fits_of_seen {cw : Char → Nat} {ws : Char → Bool} {W L : Nat} {e last : Bool} {r : List Cell} {l : List (Char × Flags)}
    (hs : r.map (fun c => (c.blank, c.width)) = l.map (seen cw ws))
    (h : L + Spec.partCols cw (Spec.needed ws (!e) last l) ≤ W) : FitsFrom W L e r := by
  intro u c v hr hb
  rw [hr] at hs
  have hlen : l = l.take (u.length + 1) ++ l.drop (u.length + 1) := (List.take_append_drop _ _).symm
  have hs1 : ∃ lu lc lv, l = lu ++ lc :: lv ∧ u.map (fun c => (c.blank, c.width)) = lu.map (seen cw ws) ∧ (c.blank, c.width) = seen cw ws lc := by
    rw [List.map_append, List.map_cons] at hs
    obtain ⟨lu, l2, rfl, h1, h2⟩ := List.map_eq_append_iff.1 hs.symm
    obtain ⟨lc, lv, rfl, h3, h4⟩ := List.map_eq_cons_iff.1 h2
    exact ⟨lu, lc, lv, rfl, h1.symm, h3.symm⟩
  obtain ⟨lu, lc, lv, rfl, hu, hc⟩ := hs1
  have hbc : Spec.blank ws lc = false := by
    have := congrArg Prod.fst hc
    simpa [seen, hb] using this.symm
  have hcols : ∀ (a : List Cell) (b : List (Char × Flags)), a.map (fun c => (c.blank, c.width)) = b.map (seen cw ws) → cellCols a = Spec.partCols cw b := by
    intro a b hab
    have := congrArg (List.map Prod.snd) hab
    simp only [List.map_map, Function.comp_def, seen] at this
    simp only [cellCols, Spec.partCols, this]
  have hdrop : ∀ (a : List Cell) (b : List (Char × Flags)), a.map (fun c => (c.blank, c.width)) = b.map (seen cw ws) →
      cellCols (a.dropWhile (·.blank)) = Spec.partCols cw (b.dropWhile (Spec.blank ws)) := by
    intro a
    induction a with
    | nil => intro b hab; simp at hab; subst hab; rfl
    | cons x a ih =>
      intro b hab
      cases b with
      | nil => simp at hab
      | cons y b =>
        simp only [List.map_cons, List.cons.injEq, seen, Prod.mk.injEq] at hab
        rw [List.dropWhile_cons, List.dropWhile_cons, hab.1.1]
        split
        · exact ih b hab.2
        · refine hcols _ _ ?_
          simp [seen, hab.1.1, hab.1.2, hab.2]
  have huc : (u ++ [c]).map (fun c => (c.blank, c.width)) = (lu ++ [lc]).map (seen cw ws) := by simp [hu, hc]
  -- what ends with a non blank is kept
  have hkeep : ∀ x : List (Char × Flags), Spec.partCols cw (x ++ [lc]) ≤ Spec.partCols cw (if last then x ++ lc :: lv else ((x ++ lc :: lv).reverse.dropWhile (Spec.blank ws)).reverse) := by
    intro x
    have : ∃ y, (if last then x ++ lc :: lv else ((x ++ lc :: lv).reverse.dropWhile (Spec.blank ws)).reverse) = x ++ lc :: y := by
      split
      · exact ⟨lv, rfl⟩
      · rw [List.reverse_append, List.reverse_cons, List.append_assoc]
        have key : ∀ z : List (Char × Flags), ∃ y, (z ++ ([lc] ++ x.reverse)).dropWhile (Spec.blank ws) = y ++ ([lc] ++ x.reverse) := by
          intro z
          induction z with
          | nil => exact ⟨[], by rw [List.nil_append, List.singleton_append, List.dropWhile_cons_of_neg (by simp [hbc])]⟩
          | cons a z ih =>
            rw [List.cons_append, List.dropWhile_cons]
            split
            · exact ih
            · exact ⟨a :: z, rfl⟩
        obtain ⟨y, hy⟩ := key lv.reverse
        rw [hy]
        exact ⟨y.reverse, by simp⟩
    obtain ⟨y, hy⟩ := this
    rw [hy]
    simp [Spec.partCols]
  cases e with
  | false =>
    simp only [Spec.needed, Bool.not_false, if_true] at h
    simp only [Bool.false_eq_true, if_false]
    rw [hcols _ _ huc]
    have := hkeep lu
    omega
  | true =>
    simp only [Spec.needed, Bool.not_true, Bool.false_eq_true, if_false] at h
    rw [if_pos rfl, hdrop _ _ huc]
    have hd : ∃ x, (lu ++ [lc]).dropWhile (Spec.blank ws) = x ++ [lc] ∧ (lu ++ lc :: lv).dropWhile (Spec.blank ws) = x ++ lc :: lv := by
      clear h huc hu hkeep hs hlen hr
      induction lu with
      | nil => exact ⟨[], by rw [List.nil_append, List.dropWhile_cons_of_neg (by simp [hbc])], by rw [List.nil_append, List.dropWhile_cons_of_neg (by simp [hbc])]⟩
      | cons a lu ih =>
        rw [List.cons_append, List.cons_append, List.dropWhile_cons, List.dropWhile_cons]
        split
        · exact ih
        · exact ⟨a :: lu, rfl, rfl⟩
    obtain ⟨x, h1, h2⟩ := hd
    rw [h1]
    rw [h2] at h
    have := hkeep x
    omega

/-- The number of lines made by the loop over tokens. -/
theorem wrapTokens_length (cw : Char → Nat) (ws : Char → Bool) (skin : Skin) (width max : Nat) (k : Kind) : ∀ (ts : List Token) (dst : FmtComposite) (ls : List FmtComposite),
    wrapTokens cw skin width dst ts = some ls → followUpKind dst.kind = k →
    (∀ t ∈ ts, ∃ c p, IsTok cw ws max c t p) →
    ls.length = breaks width (prefixCols skin.indentMode k) dst.visibleLength (ts.map fun t => (t.blank, t.width)) + 1 := by
  intro ts
  induction ts with
  | nil => intro dst ls h _ _; simp [wrapTokens] at h; subst h; rfl
  | cons t ts ih =>
    intro dst ls h hk hts
    obtain ⟨c, p, hp⟩ := hts t (by simp)
    have hc := hp.toCompound
    have hts' : ∀ t ∈ ts, ∃ c p, IsTok cw ws max c t p := fun t ht => hts t (by simp [ht])
    have hlen : textWidth cw p = t.width := hp.width.symm
    have hfk : followUpKind k = k := by rw [← hk, followUpKind_idem]
    simp only [wrapTokens] at h
    rw [List.map_cons, breaks]
    split at h
    · rename_i hgt
      rw [if_pos hgt]
      split at h
      · rename_i hb
        rw [if_pos hb]
        rw [hc] at h
        simp only [Option.bind_eq_bind, Option.bind_some] at h
        cases hr : wrapTokens cw skin width ((followUpComposite skin dst).addCompound cw { c with src := p }) ts with
        | none => rw [hr] at h; simp at h
        | some rest =>
          rw [hr] at h
          simp only [Option.bind_some, Option.some.injEq] at h
          subst h
          have := ih _ _ hr (by show followUpKind (followUpKind dst.kind) = k; rw [followUpKind_idem, hk]) hts'
          rw [List.length_cons, this]
          have hfl := followUpLength_eq skin.indentMode dst.kind
          rw [hk] at hfl
          simp only [FmtComposite.addCompound, followUpComposite, hk, hfl, hlen]
      · rename_i hb
        rw [if_neg hb]
        exact ih _ _ h hk hts'
    · rename_i hgt
      rw [if_neg hgt]
      rw [hc] at h
      simp only [Option.bind_eq_bind, Option.bind_some] at h
      have := ih _ _ h (by show followUpKind dst.kind = k; exact hk) hts'
      rw [this]
      simp only [FmtComposite.addCompound, hlen]

/-- When blanks have at most one column and words at least one, breaking in a width is a way to break in a greater one. -/
theorem way_of_breaks (W1 W2 other : Nat) (hW : W1 ≤ W2) : ∀ (ts : List (Bool × Nat)) (Lg La : Nat),
    (∀ t ∈ ts, (t.1 = true → t.2 ≤ 1) ∧ (t.1 = false → 1 ≤ t.2 ∧ other + t.2 ≤ W1)) →
    Lg ≤ W1 → (Lg = La ∨ Lg = W1 ∧ Lg ≤ La) → Way W2 other (breaks W1 other Lg ts) La false ts := by
  intro ts
  induction ts with
  | nil => intro Lg La _ _ _; exact .done _ _ _
  | cons t ts ih =>
    intro Lg La hts hLg hrel
    obtain ⟨b, w⟩ := t
    have ht := hts (b, w) (by simp)
    have hts' : ∀ t ∈ ts, (t.1 = true → t.2 ≤ 1) ∧ (t.1 = false → 1 ≤ t.2 ∧ other + t.2 ≤ W1) := fun t h => hts t (by simp [h])
    rw [breaks]
    cases b with
    | false =>
      have hw := ht.2 rfl
      simp only at hw
      split
      · rw [if_pos rfl]
        exact .brk _ _ _ _ (.word _ _ _ _ _ (by omega) (ih _ _ hts' (by omega) (Or.inl rfl)))
      · have : Lg = La := by omega
        subst this
        exact .word _ _ _ _ _ (by omega) (ih _ _ hts' (by omega) (Or.inl rfl))
    | true =>
      have hw := ht.1 rfl
      simp only at hw
      split
      · rw [if_neg (by simp)]
        exact .keep _ _ _ _ (ih _ _ hts' hLg (by omega))
      · exact .keep _ _ _ _ (ih _ _ hts' (by omega) (by omega))

/-- When there's no break and no blank at the end, everything fits. -/
theorem fits_of_no_break (W other : Nat) : ∀ (ts : List (Bool × Nat)) (L : Nat),
    (∀ t ∈ ts, (t.1 = true → t.2 ≤ 1) ∧ (t.1 = false → 1 ≤ t.2)) → L ≤ W →
    (∃ ts0 w, ts = ts0 ++ [(false, w)]) → breaks W other L ts = 0 → L + (ts.map (·.2)).sum ≤ W := by
  intro ts
  induction ts with
  | nil => intro L _ hL _ _; simpa using hL
  | cons t ts ih =>
    intro L hts hL ⟨ts0, wl, hl⟩ hb
    obtain ⟨b, w⟩ := t
    have ht := hts (b, w) (by simp)
    have hts' : ∀ t ∈ ts, (t.1 = true → t.2 ≤ 1) ∧ (t.1 = false → 1 ≤ t.2) := fun t h => hts t (by simp [h])
    rw [breaks] at hb
    simp only [List.map_cons, List.sum_cons]
    by_cases hfit : L + w > W
    · rw [if_pos hfit] at hb
      cases b with
      | false => rw [if_pos rfl] at hb; omega
      | true =>
        rw [if_neg (by simp)] at hb
        cases ts0 with
        | nil => simp at hl
        | cons t0 ts0 =>
          simp only [List.cons_append, List.cons.injEq] at hl
          have := ih L hts' hL ⟨ts0, wl, hl.2⟩ hb
          have hwl := (hts' (false, wl) (by rw [hl.2]; simp)).2 rfl
          have hsum : wl ≤ (ts.map (·.2)).sum := by rw [hl.2]; simp
          have := ht.1 rfl
          simp only at this hwl
          omega
    · rw [if_neg hfit] at hb
      cases ts0 with
      | nil =>
        simp only [List.nil_append, List.cons.injEq] at hl
        obtain ⟨_, rfl⟩ := hl
        simp only [List.map_nil, List.sum_nil]
        omega
      | cons t0 ts0 =>
        simp only [List.cons_append, List.cons.injEq] at hl
        have := ih (L + w) hts' (by omega) ⟨ts0, wl, hl.2⟩ hb
        omega

theorem Pieces.total {ts : List (Bool × Nat)} {l : List Cell} (h : Pieces ts l) : (ts.map (·.2)).sum = cellCols l := by
  induction h with
  | nil => rfl
  | cons t ts p l hp _ ih => simp [ih, cellCols_append, hp.width]

theorem Pieces.nil_of {ts : List (Bool × Nat)} {l : List Cell} (h : Pieces ts l) (hl : l = []) : ts = [] := by
  cases h with
  | nil => rfl
  | cons t ts p l hp _ => exact absurd (List.append_eq_nil_iff.1 hl).1 hp.ne

theorem Pieces.last {ts : List (Bool × Nat)} {l : List Cell} (h : Pieces ts l) : ∀ l0 c, l = l0 ++ [c] → c.blank = false →
    ∃ ts0 w, ts = ts0 ++ [(false, w)] := by
  induction h with
  | nil => intro l0 c h; simp at h
  | cons t ts p l hp hts ih =>
    intro l0 c hl hc
    by_cases hle : l = []
    · subst hle
      have := hts.nil_of rfl
      subst this
      simp only [List.append_nil] at hl
      have := hp.blank c (by simp [hl])
      obtain ⟨b, w⟩ := t
      simp only at this
      exact ⟨[], w, by rw [← this, hc]; rfl⟩
    · obtain ⟨l1, d, rfl⟩ : ∃ l1 d, l = l1 ++ [d] := ⟨l.dropLast, l.getLast hle, (List.dropLast_concat_getLast hle).symm⟩
      rw [← List.append_assoc] at hl
      have hd : d = c := by
        have := congrArg List.getLast? hl
        simpa using this
      obtain ⟨ts0, w, rfl⟩ := ih l1 d rfl (hd ▸ hc)
      exact ⟨t :: ts0, w, rfl⟩

/-- The tokens don't depend on the maximum width when all parts of one kind fit in it. -/
theorem tokenizeLoop_max (cw : Char → Nat) (ws : Char → Bool) (c : Compound) (max1 max2 : Nat) (hm : max1 ≤ max2)
    (hruns : ∀ b w, w <:+: c.src → (∀ ch ∈ w, blankBit ws c ch = b) → textWidth cw w ≤ max1) :
    ∀ (rest u mid : Text) (t : Token) (idx : Nat), c.src = u ++ mid ++ rest → t.width = textWidth cw mid →
    (∀ ch ∈ mid, blankBit ws c ch = t.blank) →
    tokenizeLoop cw ws c max1 idx (some t) rest = tokenizeLoop cw ws c max2 idx (some t) rest := by
  intro rest
  induction rest with
  | nil => intro u mid t idx _ _ _; rfl
  | cons ch rest ih =>
    intro u mid t idx hsrc hw hb
    simp only [tokenizeLoop]
    by_cases hk : t.blank = (ws ch && !c.flags.code)
    · have hfit : t.width + cw ch ≤ max1 := by
        have := hruns t.blank (mid ++ [ch]) ⟨u, rest, by simp [hsrc]⟩ (by
          intro x hx
          simp only [List.mem_append, List.mem_singleton] at hx
          rcases hx with hx | rfl
          · exact hb x hx
          · exact hk.symm)
        rw [hw]
        simpa [textWidth] using this
      rw [if_pos ⟨hk, hfit⟩, if_pos ⟨hk, by omega⟩]
      refine ih u (mid ++ [ch]) _ _ (by simp [hsrc]) (by simp [hw, textWidth]) ?_
      intro x hx
      simp only [List.mem_append, List.mem_singleton] at hx
      rcases hx with hx | rfl
      · exact hb x hx
      · exact hk.symm
    · rw [if_neg (fun h => hk h.1), if_neg (fun h => hk h.1)]
      congr 1
      exact ih (u ++ mid) [ch] _ _ (by simp [hsrc]) (by simp [textWidth]) (by simp [blankBit])

theorem tokenize_max (cw : Char → Nat) (ws : Char → Bool) (cs : List Compound) (max1 max2 : Nat) (hm : max1 ≤ max2)
    (hruns : ∀ c ∈ cs, ∀ b w, w <:+: c.src → (∀ ch ∈ w, blankBit ws c ch = b) → textWidth cw w ≤ max1) :
    tokenize cw ws cs max1 = tokenize cw ws cs max2 := by
  unfold tokenize
  induction cs with
  | nil => rfl
  | cons c cs ih =>
    rw [List.flatMap_cons, List.flatMap_cons, ih fun c h => hruns c (by simp [h])]
    congr 1
    cases hs : c.src with
    | nil => rfl
    | cons ch rest =>
      simp only [tokenizeLoop]
      exact tokenizeLoop_max cw ws c max1 max2 hm (hruns c (by simp)) rest [] [ch] _ _ (by simp [hs]) (by simp [textWidth]) (by simp [blankBit])

end Verif.Fewest
