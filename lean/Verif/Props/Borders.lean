import Verif.Props.WholeLines
import Verif.Spec.Borders
/-! C62: the borders of a table are aligned. -/
namespace Verif.Props
open Verif Spec

/-! ### Tables of formatted texts -/

/-- The tables of a list of lines are as said by `Q`. -/
inductive TablesAre (Q : List FmtLine → Prop) : List FmtLine → Prop
  | nil : TablesAre Q []
  | other {l ls} : ¬ IsTableLine l → TablesAre Q ls → TablesAre Q (l :: ls)
  | table {tbl ls} : tbl ≠ [] → (∀ l ∈ tbl, IsTableLine l) → (∀ l, ls.head? = some l → ¬ IsTableLine l) → Q tbl → TablesAre Q ls →
      TablesAre Q (tbl ++ ls)

theorem TablesAre.isTable {Q : List FmtLine → Prop} {lines : List FmtLine} (h : TablesAre Q lines) :
    ∀ tbl, IsTableOf lines tbl → Q tbl := by
  have key : ∀ tbl, tbl ≠ [] → (∀ l ∈ tbl, IsTableLine l) → ∀ before after, lines = before ++ tbl ++ after →
      (∀ l, before.getLast? = some l → ¬ IsTableLine l) → (∀ l, after.head? = some l → ¬ IsTableLine l) → Q tbl := by
    induction h with
    | nil => intro tbl hne _ before after e; simp at e; exact absurd e.2.1 hne
    | @other l ls hl _ ih =>
      intro tbl hne ht before after e hb ha
      cases before with
      | nil =>
        cases tbl with
        | nil => exact absurd rfl hne
        | cons a t => simp at e; rw [e.1] at hl; exact absurd (ht a (by simp)) hl
      | cons b bs =>
        simp only [List.cons_append, List.cons.injEq] at e
        refine ih tbl hne ht bs after e.2 ?_ ha
        intro x hx
        apply hb x
        cases bs with
        | nil => simp at hx
        | cons y ys => simpa using hx
    | @table T ls hT hTl hmax hQ _ ih =>
      intro tbl hne ht before after e hb ha
      rw [List.append_assoc] at e
      rcases List.append_eq_append_iff.1 e with ⟨d, e1, e2⟩ | ⟨c, e1, e2⟩
      · -- before = T ++ d
        refine ih tbl hne ht d after (by rw [e2, List.append_assoc]) ?_ ha
        intro x hx
        apply hb x
        rw [e1, List.getLast?_append, hx]; rfl
      · -- T = before ++ c
        have hb0 : before = [] := by
          cases hbl : before.getLast? with
          | none => simpa using hbl
          | some x =>
            have hm : x ∈ T := by rw [e1]; simp [List.mem_of_getLast? hbl]
            exact absurd (hTl x hm) (hb x hbl)
        subst hb0
        simp only [List.nil_append] at e1
        subst e1
        rcases List.append_eq_append_iff.1 e2 with ⟨x, e3, e4⟩ | ⟨x, e3, e4⟩
        · -- c = tbl ++ x
          cases x with
          | nil => simp at e3; rw [← e3]; exact hQ
          | cons y ys =>
            exact absurd (hTl y (by rw [e3]; simp)) (ha y (by rw [e4]; rfl))
        · cases x with
          | nil => simp at e3; rw [e3]; exact hQ
          | cons y ys =>
            exact absurd (ht y (by rw [e3]; simp)) (hmax y (by rw [e4]; rfl))
  rintro tbl ⟨h1, h2, before, after, e, h3, h4⟩
  exact key tbl h1 h2 before after e h3 h4

theorem TablesFixed.tablesAre {R : List FmtLine → List FmtLine → Prop} {Q : List FmtLine → Prop}
    (hR : ∀ a b, a ≠ [] → R a b → b ≠ [] ∧ (∀ l ∈ b, IsTableLine l) ∧ Q b) {lines out : List FmtLine} (h : TablesFixed R lines out) :
    TablesAre Q out := by
  induction h with
  | nil => exact .nil
  | other hl _ ih => exact .other hl ih
  | @table tbl tbl' ls out hne hl hmax hr hf ih =>
    obtain ⟨r1, r2, r3⟩ := hR _ _ hne hr
    refine .table r1 r2 ?_ r3 ih
    cases hf with
    | nil => simp
    | other hl' _ => intro l h; simp at h; subst h; exact hl'
    | @table t _ _ _ hne' hl' _ _ _ =>
      cases t with
      | nil => exact absurd rfl hne'
      | cons a t => exact absurd (hl' a (by simp)) (hmax a rfl)

theorem tablesAre_others {Q : List FmtLine → Prop} {ls : List FmtLine} : ∀ (b : List FmtLine), (∀ x ∈ b, ¬ IsTableLine x) →
    TablesAre Q ls → TablesAre Q (b ++ ls)
  | [], _, h => h
  | x :: b, hb, h => .other (hb x (by simp)) (tablesAre_others b (fun y hy => hb y (by simp [hy])) h)

/-- Tables are kept when table lines are, and other ones are replaced by other ones. -/
theorem TablesAre.replaced {Q : List FmtLine → Prop} {S : FmtLine → List FmtLine → Prop}
    (h1 : ∀ l b, IsTableLine l → S l b → b = [l]) (h2 : ∀ l b, ¬ IsTableLine l → S l b → b ≠ [] ∧ ∀ x ∈ b, ¬ IsTableLine x)
    {lines out : List FmtLine} (h : TablesAre Q lines) (hr : ReplacedBy S lines out) : TablesAre Q out := by
  induction h generalizing out with
  | nil => cases hr; exact .nil
  | @other l ls hl _ ih =>
    cases hr with
    | @cons _ b _ out' hx hr =>
      obtain ⟨_, hb⟩ := h2 l _ hl hx
      have hrest := ih hr
      exact tablesAre_others b hb hrest
  | @table tbl ls hne hl hmax hQ _ ih =>
    obtain ⟨oa, ob, rfl, ha, hb⟩ := blocks_split hr
    have e : oa = tbl := blocks_same (fun l hm b hs => h1 l b (hl l hm) hs) ha
    rw [e]
    refine .table hne hl ?_ hQ (ih hb)
    cases hb with
    | nil => simp
    | @cons x b xs out' hx _ =>
      obtain ⟨g1, g2⟩ := h2 x b (hmax x rfl) hx
      intro l hll
      cases b with
      | nil => exact absurd rfl g1
      | cons y ys => simp at hll; subst hll; exact g2 y (by simp)

/-- The position of a rule comes from its place in the table. -/
def RulesAt (tbl : List FmtLine) : Prop :=
  ∀ (i : Nat) (rule : FmtTableRule), tbl[i]? = some (.tableRule rule) →
    rule.position = if i = 0 then .top else if i + 1 = tbl.length then .bottom else .other

/-- The tables of a formatted text are rectangular and their cells are drawable. -/
theorem fromText_tables {cw : Char → Nat} {ws : Char → Bool} {skin : Skin} {w : Nat} (h3 : 3 ≤ w) {mlines : List MLine}
    (h : FittingText cw skin w mlines) {t : FmtText} (ht : FmtText.fromText cw ws skin mlines (some w) = some t) :
    ∀ tbl, IsTableOf t.lines tbl → ∃ nb, 0 < nb ∧ Rectangular w nb tbl ∧ RulesAt tbl := by
  simp only [FmtText.fromText, Option.bind_eq_bind, Option.bind_eq_some_iff, Option.some.injEq, Option.getD_some] at ht
  obtain ⟨l1, h1, l2, h2, rfl⟩ := ht
  refine TablesAre.isTable (Q := fun tbl => ∃ nb, 0 < nb ∧ Rectangular w nb tbl ∧ RulesAt tbl) ?_
  have hfix := (fixAllTables_spec (R := fun tbl tbl' => fixTableLines cw ws skin (tableColumns tbl) w tbl = some tbl')
    (fun _ _ _ h => h) _ l1 h1).isTable
  have ha : TablesAre (fun tbl => ∃ nb, 0 < nb ∧ Rectangular w nb tbl ∧ RulesAt tbl) l1 := by
    refine TablesFixed.tablesAre ?_ hfix
    rintro a b hne ⟨hta, hf⟩
    obtain ⟨s1, s2⟩ := h.tables a hta
    have h0 : tableColumns a ≠ 0 := by
      intro h0
      rw [h0] at s2
      simp only [keptColumns, Nat.mul_zero, Nat.zero_add] at s2
      rw [if_pos (by omega)] at s2
      omega
    obtain ⟨o, o1, o2⟩ := fixTableLines_fit (ws := ws) hta.2.1 s1 h0 (by omega)
    rw [o1] at hf
    simp only [Option.some.injEq] at hf
    subst hf
    refine ⟨?_, ?_, _, s2, o2, ?_⟩
    · have hb := fixTableLines_text hta.2.1 o1
      rcases hb with ⟨hz, rfl⟩ | ⟨_, _, hb, _⟩
      · exact hne
      · cases hb with
        | nil => exact absurd rfl hne
        | @cons l b ls out hk _ =>
          cases l with
          | tableRow cells =>
            obtain ⟨rows, rfl, hr, _⟩ := hk
            cases rows with
            | nil => exact absurd rfl hr
            | cons r rows => simp
          | tableRule rule => obtain ⟨r, rfl, _⟩ := hk; simp
          | normal fc => exact absurd hk id
          | horizontalRule => exact absurd hk id
    · obtain ⟨ws', _, _, _, hl⟩ := o2
      intro l hm
      rcases hl l hm with ⟨_, rfl, _⟩ | ⟨_, rfl, _⟩ <;> trivial
    · rcases fixTableLines_text hta.2.1 o1 with ⟨hz, _⟩ | ⟨_, _, _, _, hp⟩
      · omega
      · intro i rule hi
        obtain ⟨p1, p2, p3⟩ := hp i rule hi
        have hlt : i < o.length := (List.getElem?_eq_some_iff.1 hi).1
        by_cases hi0 : i = 0
        · rw [if_pos hi0]; exact p1 hi0
        rw [if_neg hi0]
        by_cases hie : i + 1 = o.length
        · rw [if_pos hie]; exact p2 (by omega) hie
        rw [if_neg hie]
        obtain ⟨rule0, hm, e⟩ := p3 (by omega) (by omega)
        rw [e]
        obtain ⟨_, _, before, after, e1, _, _⟩ := hta
        have : FmtLine.tableRule rule0 ∈ mlines.map (FmtLine.ofMLine skin cw) := by rw [e1]; simp [hm]
        obtain ⟨ml, _, e2⟩ := List.mem_map.1 this
        cases ml <;> simp only [FmtLine.ofMLine, reduceCtorEq, FmtLine.tableRule.injEq] at e2
        rw [← e2]
  have hj := TablesAre.replaced (S := CodeStep) (by
      rintro l b hl (rfl | ⟨fc, sp, rfl, _⟩)
      · rfl
      · exact absurd hl id) (by
      rintro l b hl (rfl | ⟨fc, sp, rfl, rfl⟩)
      · exact ⟨by simp, by simpa using hl⟩
      · exact ⟨by simp, by intro x hx; simp at hx; subst hx; exact id⟩) ha (code_blocks (justifyBlocks_spec l1))
  refine TablesAre.replaced (S := WrapStep ws) ?_ ?_ hj (wrap_blocks h2)
  · intro l b hl hs
    cases l with
    | normal fc => exact absurd hl id
    | horizontalRule => exact absurd hl id
    | tableRow cells => exact hs
    | tableRule rule => exact hs
  · intro l b hl hs
    cases l with
    | normal fc =>
      obtain ⟨fcs, rfl, ⟨first, more, rfl, _⟩, _⟩ := hs
      refine ⟨by simp, ?_⟩
      intro x hx
      simp only [List.mem_map] at hx
      obtain ⟨_, _, rfl⟩ := hx
      exact id
    | horizontalRule =>
      have e : b = [.horizontalRule] := hs
      subst e
      exact ⟨by simp, by intro x hx; simp at hx; subst hx; exact id⟩
    | tableRow cells => exact absurd trivial hl
    | tableRule rule => exact absurd trivial hl

/-! ### Where the borders are -/

theorem drawnAt_append {cw : Char → Nat} {a row : Text} {col : Nat} {c : Char} (h : DrawnAt cw row col c) :
    DrawnAt cw (a ++ row) (textWidth cw a + col) c := by
  obtain ⟨b, d, rfl, rfl⟩ := h
  exact ⟨a ++ b, d, by simp, by simp [textWidth]⟩

theorem drawnAt_right {cw : Char → Nat} {a row : Text} {col : Nat} {c : Char} (h : DrawnAt cw row col c) :
    DrawnAt cw (row ++ a) col c := by
  obtain ⟨b, d, rfl, rfl⟩ := h
  exact ⟨b, d ++ a, by simp, rfl⟩

theorem drawnAt_head (cw : Char → Nat) (c : Char) (row : Text) : DrawnAt cw (c :: row) 0 c := ⟨[], row, rfl, rfl⟩

theorem borderCols_length (n : Nat) (ws : List Nat) : (borderCols n ws).length = ws.length + 1 := by
  induction ws generalizing n with
  | nil => rfl
  | cons w ws ih => simp [borderCols, ih]

theorem borderCols_shift (k n : Nat) (ws : List Nat) : borderCols (k + n) ws = (borderCols n ws).map (k + ·) := by
  induction ws generalizing n with
  | nil => rfl
  | cons w ws ih =>
    have e : k + n + 1 + w = k + (n + 1 + w) := by omega
    simp only [borderCols, List.map_cons, List.cons.injEq, true_and, e, ih]

/-- The borders of a row of cells of given widths. -/
theorem row_borders {cw : Char → Nat} {v : Char} (hv : cw v = 1) : ∀ (txts : List Text) (widths : List Nat),
    txts.map (textWidth cw) = widths →
    ∀ col ∈ borderCols 0 widths, DrawnAt cw (txts.flatMap (fun t => v :: t) ++ [v]) col v := by
  intro txts
  induction txts with
  | nil =>
    intro widths h col hc
    simp at h
    subst h
    simp only [borderCols, List.mem_singleton] at hc
    subst hc
    exact drawnAt_head _ _ _
  | cons t txts ih =>
    intro widths h col hc
    cases widths with
    | nil => simp at h
    | cons w widths =>
      simp only [List.map_cons, List.cons.injEq] at h
      obtain ⟨h1, h2⟩ := h
      simp only [borderCols, List.mem_cons] at hc
      rcases hc with rfl | hc
      · simp only [List.flatMap_cons, List.cons_append]; exact drawnAt_head _ _ _
      · have e : 0 + 1 + w = (1 + w) + 0 := by omega
        rw [e, borderCols_shift] at hc
        simp only [List.mem_map] at hc
        obtain ⟨c, hc, rfl⟩ := hc
        have hd := ih widths h2 c hc
        have := drawnAt_append (a := v :: t) hd
        have e2 : textWidth cw (v :: t) = 1 + w := by simp [textWidth, hv]; rw [← h1]
        rw [e2] at this
        simpa using this

private theorem width_rep (cw : Char → Nat) (c : Char) (hc : cw c = 1) (n : Nat) : textWidth cw (List.replicate n c) = n := by
  induction n with
  | zero => rfl
  | succ n ih => simp only [List.replicate_succ, textWidth, List.map_cons, List.sum_cons, hc] at ih ⊢; omega

theorem dash_drawn (cw : Char → Nat) (h : Char) (hh : cw h = 1) (w k : Nat) (hk : k < w) : DrawnAt cw (List.replicate w h) k h := by
  refine ⟨List.replicate k h, List.replicate (w - k - 1) h, ?_, width_rep cw h hh k⟩
  rw [← List.replicate_succ, List.replicate_append_replicate]
  congr 1; omega

/-- The borders of a rule: a first character, then columns separated by junctions, then a last character. -/
theorem rule_borders {cw : Char → Nat} {h j r : Char} (hh : cw h = 1) (hj : cw j = 1) : ∀ (widths : List Nat) (l : Char), cw l = 1 →
    widths ≠ [] → ∀ (i : Nat) col, (borderCols 0 widths)[i]? = some col →
      DrawnAt cw (l :: ([j].intercalate (widths.map fun w => List.replicate w h) ++ [r])) col
        (if i = 0 then l else if i + 1 = (borderCols 0 widths).length then r else j) ∧
      ∀ next, (borderCols 0 widths)[i + 1]? = some next → ∀ c, col < c → c < next →
        DrawnAt cw (l :: ([j].intercalate (widths.map fun w => List.replicate w h) ++ [r])) c h := by
  intro widths
  induction widths with
  | nil => intro l _ hne; exact absurd rfl hne
  | cons w widths ih =>
    intro l hl _ i col hi
    cases widths with
    | nil =>
      have hrow : (l :: ([j].intercalate ([w].map fun w => List.replicate w h) ++ [r])) = (l :: List.replicate w h) ++ [r] := by
        simp [List.intercalate]
      rw [hrow]
      simp only [borderCols, Nat.zero_add] at hi ⊢
      cases i with
      | zero =>
        simp at hi; subst hi
        refine ⟨drawnAt_head _ _ _, ?_⟩
        intro next hn c h1 h2
        simp at hn; subst hn
        have := drawnAt_append (cw := cw) (a := [l]) (dash_drawn cw h hh w (c - 1) (by omega))
        have e : textWidth cw [l] + (c - 1) = c := by simp [textWidth, hl]; omega
        rw [e] at this
        exact drawnAt_right this
      | succ i =>
        cases i with
        | zero =>
          simp at hi; subst hi
          refine ⟨?_, by simp⟩
          have := drawnAt_append (cw := cw) (a := l :: List.replicate w h) (drawnAt_head cw r [])
          have e : textWidth cw (l :: List.replicate w h) + 0 = 1 + w := by
            have := width_rep cw h hh w
            simp only [textWidth, List.map_cons, List.sum_cons, hl] at this ⊢; omega
          rw [e] at this
          simpa using this
        | succ i => simp at hi
    | cons w2 ws =>
      have hrow : (l :: ([j].intercalate ((w :: w2 :: ws).map fun w => List.replicate w h) ++ [r])) =
          (l :: List.replicate w h) ++ (j :: ([j].intercalate ((w2 :: ws).map fun w => List.replicate w h) ++ [r])) := by
        simp [List.intercalate]
      rw [hrow]
      have ew : textWidth cw (l :: List.replicate w h) = 1 + w := by
        have := width_rep cw h hh w
        simp only [textWidth, List.map_cons, List.sum_cons, hl] at this ⊢; omega
      have ecols : borderCols 0 (w :: w2 :: ws) = 0 :: (borderCols 0 (w2 :: ws)).map ((1 + w) + ·) := by
        rw [← borderCols_shift]
        simp only [borderCols, Nat.zero_add, Nat.add_zero]
      have hlen : (borderCols 0 (w :: w2 :: ws)).length = (borderCols 0 (w2 :: ws)).length + 1 := by rw [ecols]; simp
      cases i with
      | zero =>
        rw [ecols] at hi
        simp at hi; subst hi
        refine ⟨drawnAt_head _ _ _, ?_⟩
        intro next hn c h1 h2
        rw [ecols] at hn
        simp only [Nat.zero_add, List.getElem?_cons_succ, List.getElem?_map, borderCols, List.getElem?_cons_zero, Option.map_some,
          Nat.add_zero, Option.some.injEq] at hn
        subst hn
        have := drawnAt_append (cw := cw) (a := [l]) (dash_drawn cw h hh w (c - 1) (by omega))
        have e : textWidth cw [l] + (c - 1) = c := by simp [textWidth, hl]; omega
        rw [e] at this
        exact drawnAt_right this
      | succ i =>
        rw [ecols] at hi
        simp only [List.getElem?_cons_succ, List.getElem?_map, Option.map_eq_some_iff] at hi
        obtain ⟨c0, hc0, rfl⟩ := hi
        obtain ⟨i1, i2⟩ := ih j hj (by simp) i c0 hc0
        refine ⟨?_, ?_⟩
        · have := drawnAt_append (a := l :: List.replicate w h) i1
          rw [ew] at this
          rw [hlen]
          by_cases h0 : i = 0
          · subst h0
            have hne : ¬ (0 + 1 + 1 = (borderCols 0 (w2 :: ws)).length + 1) := by rw [borderCols_length]; simp
            simp only [if_true] at this
            rw [if_neg (by omega), if_neg hne]
            exact this
          · rw [if_neg h0] at this
            rw [if_neg (by omega)]
            by_cases hl' : i + 1 = (borderCols 0 (w2 :: ws)).length
            · rw [if_pos hl'] at this; rw [if_pos (by omega)]; exact this
            · rw [if_neg hl'] at this; rw [if_neg (by omega)]; exact this
        · intro next hn c h1 h2
          rw [ecols] at hn
          simp only [List.getElem?_cons_succ, List.getElem?_map, Option.map_eq_some_iff] at hn
          obtain ⟨n0, hn0, rfl⟩ := hn
          have := drawnAt_append (a := l :: List.replicate w h) (i2 n0 hn0 (c - (1 + w)) (by omega) (by omega))
          rw [ew] at this
          have e : 1 + w + (c - (1 + w)) = c := by omega
          rw [e] at this
          exact this

theorem writeCells_widths {cw : Char → Nat} {skin : Skin} (hs : OneColumnSkin cw skin) : ∀ (cells : List FmtComposite),
    (∀ c ∈ cells, Drawable cw skin c) →
    ∃ ps, ∃ txts : List Text, skin.writeCells cells = some ps ∧ txts.map (textWidth cw) = cells.map spacedCols ∧
      piecesText ps = txts.flatMap (fun t => skin.tableBorderChars.vertical :: t) := by
  intro cells
  induction cells with
  | nil => intro _; exact ⟨[], [], rfl, rfl, rfl⟩
  | cons c cells ih =>
    intro h
    obtain ⟨rest, txts, r1, r2, r3⟩ := ih (fun x hx => h x (by simp [hx]))
    obtain ⟨ls, pre, _, h2, h3⟩ := writeFmtComposite_ok (h c (by simp)) none false
    have hw := front_width hs (h c (by simp)) ls pre h2 0
    simp only [Bool.false_eq_true, if_false, Spacing.optionalCompletions] at h3
    refine ⟨_, piecesText (repeatChar skin.paragraph.style ' ' (0 + 0) ++ repeatChar ls.style ' ' c.completions.1 ++ pre ++
      c.compounds.flatMap (skin.writeCompound ls) ++ repeatChar ls.style ' ' c.completions.2) :: txts, by simp only [Skin.writeCells, h3.1, r1, Option.bind_eq_bind, Option.bind_some]; rfl, ?_, ?_⟩
    · simp only [List.map_cons, r2, List.cons.injEq, and_true]
      simpa [piecesCols] using hw
    · simp [piecesText_cons, piecesText_append, r3]

theorem foldl_cells (cells : List FmtComposite) : ∀ n, cells.foldl (fun sum c => sum + c.innerWidth + 1) n =
    (cells.map spacedCols).foldl (fun sum w => sum + w + 1) n := by
  induction cells with
  | nil => intro n; rfl
  | cons c cells ih => intro n; simp only [List.foldl_cons, List.map_cons]; rw [ih]; rfl

theorem foldl_cols (ws : List Nat) : ∀ n, ws.foldl (fun sum w => sum + w + 1) n = n + ws.sum + ws.length := by
  induction ws with
  | nil => intro n; simp
  | cons w ws ih => intro n; simp only [List.foldl_cons, ih, List.sum_cons, List.length_cons]; omega

theorem rectangular_cells {widths : List Nat} {cells : List FmtComposite} (h1 : cells.length = widths.length)
    (h2 : ∀ (ic : Nat) (c : FmtComposite), cells[ic]? = some c →
          ∃ w a, widths[ic]? = some w ∧ c.spacing = some ⟨w, a⟩ ∧ c.visibleLength ≤ w) : cells.map spacedCols = widths := by
  apply List.ext_getElem?
  intro i
  rw [List.getElem?_map]
  cases hc : cells[i]? with
  | none =>
    have : widths[i]? = none := by simp at hc ⊢; omega
    rw [this]; rfl
  | some c =>
    obtain ⟨w, a, e1, e2, _⟩ := h2 i c hc
    simp [e1, spacedCols, e2]

/-- The borders of a drawn line, after `n` blanks. -/
theorem line_borders {cw : Char → Nat} {skin : Skin} (hs : OneColumnSkin cw skin) {widths : List Nat} (h0 : widths ≠ [])
    (rw : Option Nat) (l : FmtLine) (hd : DrawableLine cw skin l)
    (hl : (∃ cells, l = .tableRow cells ∧ cells.map spacedCols = widths) ∨ (∃ rule, l = .tableRule rule ∧ rule.widths = widths)) :
    ∃ ps, skin.writeFmtLine l rw false = some ps ∧
      Bordered cw skin.tableBorderChars
        (borderCols (Spacing.optionalCompletions skin.table.align (widths.sum + widths.length + 1) rw).1 widths) l (piecesText ps) := by
  have hsp := hs.space
  have hb := hs.border
  simp only [List.mem_cons, List.not_mem_nil, or_false, forall_eq_or_imp, forall_eq] at hb
  generalize hn : (Spacing.optionalCompletions skin.table.align (widths.sum + widths.length + 1) rw).1 = n
  have ebl : textWidth cw (List.replicate n ' ') = n := width_rep cw ' ' hsp n
  have ecols : borderCols n widths = (borderCols 0 widths).map (n + ·) := by rw [← borderCols_shift, Nat.add_zero]
  rcases hl with ⟨cells, rfl, hc⟩ | ⟨rule, rfl, hw⟩
  · obtain ⟨ps, txts, r1, r2, r3⟩ := writeCells_widths hs cells hd
    have etot : 1 + cells.foldl (fun sum c => sum + c.innerWidth + 1) 0 = widths.sum + widths.length + 1 := by
      rw [foldl_cells, hc, foldl_cols]; omega
    refine ⟨_, by simp only [Skin.writeFmtLine, r1, Option.bind_eq_bind, Option.bind_some]; rfl, ?_⟩
    intro col hcol
    rw [ecols, List.mem_map] at hcol
    obtain ⟨c, hcm, rfl⟩ := hcol
    have := drawnAt_append (a := List.replicate n ' ') (row_borders hb.2.1 txts widths (by rw [r2, hc]) c hcm)
    rw [ebl] at this
    simp only [piecesText_append, piecesText_repeat, r3, piecesText_cons, piecesText_nil, Bool.false_eq_true, if_false, List.append_nil,
      etot, hn, List.append_assoc] at this ⊢
    exact this
  · have etot : 1 + rule.widths.foldl (fun sum w => sum + w + 1) 0 = widths.sum + widths.length + 1 := by
      rw [hw, foldl_cols]; omega
    rw [hw] at etot
    have key : ∀ (l j r : Char), cw l = 1 → cw j = 1 →
        ∀ (i : Nat) col, (borderCols n widths)[i]? = some col →
        DrawnAt cw (List.replicate n ' ' ++ l :: ([j].intercalate (widths.map fun w => List.replicate w skin.tableBorderChars.horizontal) ++ [r])) col
          (if i = 0 then l else if i + 1 = (borderCols n widths).length then r else j) ∧
        ∀ next, (borderCols n widths)[i + 1]? = some next → ∀ c, col < c → c < next →
          DrawnAt cw (List.replicate n ' ' ++ l :: ([j].intercalate (widths.map fun w => List.replicate w skin.tableBorderChars.horizontal) ++ [r])) c
            skin.tableBorderChars.horizontal := by
      intro l j r hl hj i col hi
      rw [ecols, List.getElem?_map, Option.map_eq_some_iff] at hi
      obtain ⟨c0, hi, rfl⟩ := hi
      obtain ⟨k1, k2⟩ := rule_borders (r := r) hb.1 hj widths l hl h0 i c0 hi
      refine ⟨?_, ?_⟩
      · have := drawnAt_append (a := List.replicate n ' ') k1
        rw [ebl] at this
        have elen : (borderCols n widths).length = (borderCols 0 widths).length := by rw [ecols]; simp
        rw [elen]
        exact this
      · intro next hnext c h1 h2
        rw [ecols, List.getElem?_map, Option.map_eq_some_iff] at hnext
        obtain ⟨n0, hnext, rfl⟩ := hnext
        have := drawnAt_append (a := List.replicate n ' ') (k2 n0 hnext (c - n) (by omega) (by omega))
        rw [ebl] at this
        have e : n + (c - n) = c := by omega
        rw [e] at this
        exact this
    refine ⟨_, rfl, ?_⟩
    have et : piecesText (repeatChar skin.paragraph.style ' ' (Spacing.optionalCompletions skin.table.align
          (1 + rule.widths.foldl (fun sum w => sum + w + 1) 0) rw).1 ++ [(skin.table.style, [(skin.tableBorderChars.ruleChars rule.position).1])] ++
        skin.writeRuleCols (skin.tableBorderChars.ruleChars rule.position).2.1 true rule.widths ++
        [(skin.table.style, [(skin.tableBorderChars.ruleChars rule.position).2.2])] ++
        if false = true then repeatChar skin.paragraph.style ' ' (Spacing.optionalCompletions skin.table.align
          (1 + rule.widths.foldl (fun sum w => sum + w + 1) 0) rw).2 else []) =
        List.replicate n ' ' ++ (skin.tableBorderChars.ruleChars rule.position).1 ::
          ([(skin.tableBorderChars.ruleChars rule.position).2.1].intercalate
            (widths.map fun w => List.replicate w skin.tableBorderChars.horizontal) ++ [(skin.tableBorderChars.ruleChars rule.position).2.2]) := by
      simp only [piecesText_append, piecesText_repeat, piecesText_cons, piecesText_nil, Bool.false_eq_true, if_false,
        List.append_nil, (writeRuleCols_text _ _).2, List.append_assoc, etot, hn, hw]
      rfl
    rw [et]
    simp only [Bordered]
    cases rule.position with
    | top => exact key _ _ _ hb.2.2.1 hb.2.2.2.2.2.2.1
    | other => exact key _ _ _ hb.2.2.2.2.2.2.2.2.2.1 hb.2.2.2.2.2.2.2.2.2.2
    | bottom => exact key _ _ _ hb.2.2.2.2.2.1 hb.2.2.2.2.2.2.2.2.1

theorem completions_placed (align : Alignment) (n w : Nat) (h : n ≤ w) :
    Placed align 0 0 (Spacing.optionalCompletions align n (some w)).1 (w - n - (Spacing.optionalCompletions align n (some w)).1) := by
  simp only [Spacing.optionalCompletions, Spacing.completions]
  split
  · have : w = n := by omega
    subst this
    cases align <;> simp [Placed]
  · cases align <;> simp [Placed] <;> omega

/-- C62: in a text formatted for a width, whatever the width it's then rendered with, the lines of each table are written with their
borders at the same columns: there are at least two borders, with at least 3 columns between neighbours; all of them are inside
the width when it's the one of the rendering, and the table is placed in it as the alignment of tables of the skin says. -/
theorem C62_borders (cw : Char → Nat) (ws : Char → Bool) (skin : Skin) (hs : OneColumnSkin cw skin) (w : Nat) (h3 : 3 ≤ w)
    (mlines : List MLine) (h : FittingText cw skin w mlines) :
    ∃ t, FmtText.fromText cw ws skin mlines (some w) = some t ∧ ∀ tbl, IsTableOf t.lines tbl →
      ∃ widths : List Nat, widths ≠ [] ∧ (∀ x ∈ widths, 3 ≤ x) ∧ widths.sum + widths.length + 1 ≤ w ∧
        ∀ rendering : Option Nat, ∃ n,
          (∀ l ∈ tbl, ∃ ps, skin.writeFmtLine l rendering false = some ps ∧
            Bordered cw skin.tableBorderChars (borderCols n widths) l (piecesText ps)) ∧
          ∀ rw, rendering = some rw → widths.sum + widths.length + 1 ≤ rw →
            n + (widths.sum + widths.length + 1) ≤ rw ∧
            Placed skin.table.align 0 0 n (rw - (widths.sum + widths.length + 1) - n) := by
  obtain ⟨out, ht, hfin⟩ := fromText_final (ws := ws) h3 h
  refine ⟨_, ht, ?_⟩
  intro tbl htbl
  obtain ⟨nb, hnb, ⟨widths, w1, w2, w3, w4⟩, _⟩ := fromText_tables h3 h ht tbl htbl
  have hne : widths ≠ [] := by intro h0; subst h0; simp at w1; omega
  refine ⟨widths, hne, w2, by omega, ?_⟩
  intro rendering
  refine ⟨(Spacing.optionalCompletions skin.table.align (widths.sum + widths.length + 1) rendering).1, ?_, ?_⟩
  · intro l hm
    have hml : l ∈ out := by
      obtain ⟨_, _, before, after, e, _, _⟩ := htbl
      have e' : out = before ++ tbl ++ after := e
      rw [e']; simp [hm]
    refine line_borders hs hne rendering l (hfin l hml).1 ?_
    rcases w4 l hm with ⟨cells, rfl, e1, e2⟩ | ⟨rule, rfl, e1⟩
    · exact .inl ⟨cells, rfl, rectangular_cells (by omega) e2⟩
    · exact .inr ⟨rule, rfl, e1⟩
  · rintro rw rfl hr
    refine ⟨?_, completions_placed _ _ _ hr⟩
    have := completions_sum skin.table.align (widths.sum + widths.length + 1) rw
    simp only [Spacing.optionalCompletions]
    omega

/-- The drawn lines of a text. -/
def exDrawn : Option (List String) :=
  (FmtText.fromText renderCw (· == ' ') renderSkin exText (some 13)).bind fun t =>
    (t.display renderSkin).map fun ls => ls.map fun ps => String.ofList (piecesText ps)

/-- The hypotheses are met by a text, with a table: `exText_fits`, `renderSkin_one`. -/
example : exDrawn.map (fun ls => ls.drop 6) =
    some ["│col │ 一   │", "│    │second│", "├────┼──────┤", "│cell│      │", "―――――――――――――"] := by decide +kernel

example : Spec.borderCols 0 [4, 6] = [0, 5, 12] := rfl

/-- With a vertical border of two columns, the second border of a row is not above the one of the rule. -/
theorem C62_wide_border_counterexample :
    let skin : Skin := { tableBorderChars := { TableBorderChars.standard with vertical := '一' } }
    ∃ row rule, (FmtText.fromText renderCw (· == ' ') skin [.tableRow [(.paragraph, [⟨"a".toList, {}⟩])], .tableRule [.left]] (some 13)).bind
        (fun t => (t.display skin).map fun ls => ls.map piecesText) = some [row, rule] ∧
      row = "一 a 一".toList ∧ rule = "└───┘".toList ∧
      ¬ Spec.DrawnAt renderCw row (textWidth renderCw "└───".toList) '一' := by
  refine ⟨_, _, by decide +kernel, rfl, rfl, ?_⟩
  rintro ⟨b, a, e, h⟩
  have hlen : b.length ≤ 4 := by
    have := congrArg List.length e
    simp at this; omega
  have hb : b = ("一 a 一".toList).take b.length := by rw [e]; simp
  have hc : ("一 a 一".toList)[b.length]? = some '一' := by rw [e]; simp
  have : b.length = 0 ∨ b.length = 1 ∨ b.length = 2 ∨ b.length = 3 ∨ b.length = 4 := by omega
  rcases this with h0 | h0 | h0 | h0 | h0 <;> rw [h0] at hb <;> rw [h0] at hc <;> rw [hb] at h <;> revert h hc <;>
    decide

end Verif.Props
