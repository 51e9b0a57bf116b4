import Verif.Props.FormClip
/-! C80: what a form shows. -/
namespace Verif.Props
open Verif Verif.Spec Verif.Form InputField Verif.Pager

/-- Commands printing rows which fill an area. -/
def Draws (cw : Char → Nat) (cmds : List AppCmd) (area : Area) (rows : List (Nat × Nat × List Piece)) : Prop :=
  (∀ t : Tty, t.pen = {} → (t.playApp cw cmds).pen = {} ∧ (t.playApp cw cmds).cells = printSeen cw rows t.cells) ∧
  FillsArea cw area (rows.map fun r => (r.1, r.2.1, seenPieces r.2.2))

theorem fills_inside {σ : Type} {cw : Char → Nat} {area : Area} {rows : List (Nat × Nat × List (σ × Text))} (h : FillsArea cw area rows) (g g' : Cells σ)
    {x y : Nat} (ha : InArea area x y) : printRows cw rows g x y = printRows cw rows g' x y := by
  obtain ⟨row, cell, e1, e2, e3⟩ := (h g x y).1 ha
  obtain ⟨row', cell', e1', e2', e3'⟩ := (h g' x y).1 ha
  rw [e1] at e1'
  cases e1'
  rw [e2] at e2'
  cases e2'
  rw [e3, e3']

/-- Several drawings in areas without common cell. -/
theorem draws_all (cw : Char → Nat) : ∀ (ds : List (List AppCmd × Area × List (Nat × Nat × List Piece))), (∀ d ∈ ds, Draws cw d.1 d.2.1 d.2.2) →
    ds.Pairwise (fun a b => Spec.Disjoint a.2.1 b.2.1) → ∀ t : Tty, t.pen = {} →
    (t.playApp cw (ds.flatMap (·.1))).pen = {} ∧
    (∀ d ∈ ds, ∀ x y, InArea d.2.1 x y → (t.playApp cw (ds.flatMap (·.1))).cells x y = printSeen cw d.2.2 blankCells x y) ∧
    (∀ x y, (∀ d ∈ ds, ¬ InArea d.2.1 x y) → (t.playApp cw (ds.flatMap (·.1))).cells x y = t.cells x y) := by
  intro ds
  induction ds with
  | nil => intro _ _ t ht; exact ⟨ht, by simp, fun _ _ _ => rfl⟩
  | cons d ds ih =>
    intro hd hp t ht
    obtain ⟨h1, h2⟩ := hd d (by simp)
    obtain ⟨p1, p2⟩ := h1 t ht
    rw [List.pairwise_cons] at hp
    obtain ⟨i1, i2, i3⟩ := ih (fun e he => hd e (List.mem_cons_of_mem _ he)) hp.2 _ p1
    rw [List.flatMap_cons, playApp_append]
    refine ⟨i1, ?_, ?_⟩
    · intro e he x y hin
      rcases List.mem_cons.1 he with rfl | he
      · rw [i3 x y (fun e he h => hp.1 e he x y ⟨hin, h⟩), p2]
        exact fills_inside h2 _ _ hin
      · exact i2 e he x y hin
    · intro x y hout
      rw [i3 x y (fun e he => hout e (List.mem_cons_of_mem _ he)), p2]
      exact (h2 t.cells x y).2 (hout d (by simp))

section
variable {cw : Char → Nat} {ws alnum : Char → Bool} {c : Config}

/-- A text view which draws its area. -/
theorem view_draws {skin : Skin} (hk : FormSkin cw skin) {v : TextView} (bar : Option (Nat × Nat)) (hb : v.scrollbar = some bar)
    (h3 : bar = none ↔ v.showScrollbar = false ∨ v.lines.length ≤ v.area.height) (hw : 4 ≤ v.area.width) (ho : OnScreen v.area)
    {mlines : List MLine} (hf : FittingText cw skin (v.area.width - 1) mlines)
    (ht : ∃ w, FmtText.fromText cw ws skin mlines (some (v.area.width - 1)) = some ⟨v.lines, w⟩) :
    ∃ cmds rows, v.cmds skin = some cmds ∧ v.writeOn skin = some rows ∧ Draws cw (cmds.map .view) v.area (viewRows rows) := by
  obtain ⟨out, e1, e2⟩ := fromText_final (ws := ws) (by omega) hf
  obtain ⟨w, ht⟩ := ht
  rw [e1] at ht
  cases ht
  have hm : NoMarginEdge skin v.area.width := by
    intro k ls h
    have := hk.margins k ls h
    omega
  obtain ⟨rows, r1, r2, r3⟩ := columns_with cw v skin hk.columns hk.thumb hk.track bar hb h3 (by omega) ho (by
    intro l hl
    refine ⟨(e2 l hl).1, ?_⟩
    rintro n rfl
    split
    · exact ownCols_succ hm (e2 l hl).2
    · exact (e2 l hl).2)
  have hfill : FillsArea cw v.area ((viewRows rows).map fun r => (r.1, r.2.1, seenPieces r.2.2)) := by
    apply seen_fills cw v.area (viewRows rows) (by simpa [viewRows] using r2)
    intro j row hj
    simp only [viewRows, List.getElem?_map, Option.map_eq_some_iff] at hj
    obtain ⟨r, hr', rfl⟩ := hj
    have hr1 := r1
    simp only [TextView.writeOn, Option.bind_eq_bind, Option.bind_eq_some_iff] at hr1
    obtain ⟨bar', _, w', _, hr1⟩ := hr1
    obtain ⟨a1, a2⟩ := writeRows_places v skin w' bar' _ _ _ hr1 j r hr'
    exact ⟨a1, by simpa using a2, r3 r (List.mem_of_getElem? hr')⟩
  obtain ⟨cmds, c1, _⟩ := C65_text_view cw v hk.tidy r1 ⟨blankCells, 0, 0, {}⟩ rfl
  refine ⟨cmds, rows, c1, r1, ?_, hfill⟩
  intro t hp
  obtain ⟨cmds', d1, d2, d3⟩ := C65_text_view cw v hk.tidy r1 t hp
  rw [c1] at d1
  cases d1
  rw [playApp_view]
  exact ⟨d2, d3⟩

/-- A text written in an area. -/
theorem area_draws {skin : Skin} (hk : FormSkin cw skin) {mlines : List MLine} (ht : FormText cw skin mlines) {a : Area} (hw : 4 ≤ a.width)
    (ho : OnScreen a) : ∃ cmds rows, View.areaCmds cw ws skin mlines a = some cmds ∧ skin.writeInArea cw ws mlines a = some rows ∧
      Draws cw cmds a (viewRows rows) := by
  have hf := ht (a.width - 1) (by omega)
  obtain ⟨out, e1, _⟩ := fromText_final (ws := ws) (by omega) hf
  have hat : skin.areaText cw ws mlines a = some ⟨out, some (a.width - 1)⟩ := by
    simp only [Skin.areaText, csub, Option.bind_eq_bind]
    rw [if_pos (by omega), Option.bind_some, e1]
  obtain ⟨cmds, rows, h1, h2, h3⟩ := view_draws (ws := ws) hk (v := { area := a, lines := out, showScrollbar := false }) none rfl (by simp) hw ho hf ⟨_, e1⟩
  exact ⟨cmds.map .view, rows, by simp only [View.areaCmds, hat, h1, Option.bind_eq_bind, Option.bind_some],
    by simp only [Skin.writeInArea, hat, h2, Option.bind_eq_bind, Option.bind_some], h3⟩

/-- A markdown view. -/
theorem mad_draws {m : MadView} (hk : FormSkin cw m.skin) (ht : FormText cw m.skin m.mlines) (hw : 4 ≤ m.area.width) (ho : OnScreen m.area)
    (hsmall : m.area.top + m.area.height + m.scroll < 65536) (hcount : ∀ n, m.HasLines cw ws n → n < 65536)
    (hs : ∀ n, m.HasLines cw ws n → m.scroll ≤ n) :
    ∃ cmds rows, draw cw ws m = some cmds ∧ m.writeOn cw ws = some rows ∧ Draws cw cmds m.area (viewRows rows) := by
  have hf := ht (m.area.width - 1) (by omega)
  obtain ⟨out, e1, _⟩ := fromText_final (ws := ws) (by omega) hf
  have hlen := hcount _ ⟨_, e1, rfl⟩
  simp only at hlen
  have hscroll := hs _ ⟨_, e1, rfl⟩
  simp only at hscroll
  have hv : m.view cw ws = some { area := m.area, lines := out, scroll := m.scroll } := by
    simp only [MadView.view, Skin.areaText, csub, Option.bind_eq_bind]
    rw [if_pos (by omega), Option.bind_some, e1, Option.bind_some]
  obtain ⟨bar, hb, hbn⟩ : ∃ bar, ({ area := m.area, lines := out, scroll := m.scroll } : TextView).scrollbar = some bar ∧
      (bar = none ↔ out.length ≤ m.area.height) := by
    have e1 : asU16 m.scroll = m.scroll := by unfold asU16 u16Size; omega
    have e2 : asU16 out.length = out.length := by unfold asU16 u16Size; omega
    simp only [TextView.scrollbar, TextView.contentHeight, if_true, e1, e2, Area.scrollbar]
    obtain ⟨r, hr⟩ := C19_total m.scroll out.length m.area.height m.area.top (by omega)
    refine ⟨r, hr, ?_⟩
    rw [← C19_none_iff m.scroll out.length m.area.height m.area.top, hr]
    simp
  obtain ⟨cmds, rows, h1, h2, h3⟩ := view_draws (ws := ws) hk bar hb (by rw [hbn]; simp) hw ho hf ⟨_, e1⟩
  exact ⟨cmds.map .view, rows, by simp only [draw, hv, h1, Option.bind_eq_bind, Option.bind_some],
    by simp only [MadView.writeOn, hv, h2, Option.bind_eq_bind, Option.bind_some], h3⟩

/-- An input field. -/
theorem field_draws (hs : cw ' ' = 1) (he : cw '…' = 1) (hb : cw '▐' = 1) (ops : List FieldStyleOp)
    (hst : Tidy (styledBy ops).focused ∧ Tidy (styledBy ops).unfocused ∧ Tidy (styledBy ops).cursor) {f : InputField} (ho : OnScreen f.area)
    (h1 : 2 ≤ f.area.width) (hf : ShownInput f) :
    ∃ cmds rows cur, (styledBy ops).cmds cw f = some cmds ∧ (styledBy ops).displayOn cw f = some (rows, cur) ∧
      Draws cw (cmds.map .view) f.area rows := by
  obtain ⟨htab, hn, hy⟩ := hf
  obtain ⟨cells, cur, g1, g2, g3, _⟩ := C27_rows cw hs he ('▐', '▐') ⟨hb, hb⟩ ho (by unfold textCols; split <;> omega) (by omega) (by omega) htab
  obtain ⟨rows, d1, d2, d3⟩ := (C58_cells cw ops f).2 cells cur g1
  have hfill : FillsArea cw f.area (rows.map fun r => (r.1, r.2.1, seenPieces r.2.2)) := by
    apply seen_fills cw f.area rows (by rw [d2, g2])
    intro j row hj
    have hlt : j < cells.length := by rw [← d2]; exact (List.getElem?_eq_some_iff.1 hj).1
    obtain ⟨pieces, p1, p2, p3⟩ := d3 j cells[j] (List.getElem?_eq_getElem hlt)
    rw [hj] at p1
    cases p1
    obtain ⟨a1, a2, a3⟩ := g3 j cells[j] (List.getElem?_eq_getElem hlt)
    refine ⟨a1, a2, ?_⟩
    rw [← a3]
    have : pieces.map (·.2) = cells[j].pieces.map (·.2) := by
      apply List.ext_getElem?
      intro k
      rw [List.getElem?_map, List.getElem?_map]
      cases hk : cells[j].pieces[k]? with
      | none =>
        have : pieces[k]? = none := by rw [List.getElem?_eq_none_iff] at hk ⊢; omega
        rw [this]; rfl
      | some p =>
        obtain ⟨style, s1, _⟩ := p3 k p.1 p.2 hk
        rw [s1]; rfl
    show textWidth cw (pieces.flatMap (·.2)) = textWidth cw (cellsText cells[j].pieces)
    unfold cellsText
    rw [List.flatMap_def, this]
  obtain ⟨cmds, c1, _⟩ := C65_input_field cw (styledBy ops) f d1 hst ⟨blankCells, 0, 0, {}⟩ none rfl
  refine ⟨cmds, rows, cur, c1, d1, ?_, hfill⟩
  intro t hp
  obtain ⟨cmds', e1, e2, e3⟩ := C65_input_field cw (styledBy ops) f d1 hst t none (by rw [hp])
  rw [c1] at e1
  cases e1
  rw [playApp_view]
  exact ⟨e2, e3⟩

theorem aloneMad_reach {m0 : MadView} : ∀ (ops : List MadOp) (m m' : MadView), ReachableMad cw ws (fun _ _ => True) m0 m → aloneMad cw ws m ops = some m' →
    ReachableMad cw ws (fun _ _ => True) m0 m' := by
  intro ops
  induction ops with
  | nil => intro m m' h he; cases he; exact h
  | cons op ops ih =>
    intro m m' h he
    simp only [aloneMad, Option.bind_eq_bind, Option.bind_eq_some_iff] at he
    obtain ⟨m1, h1, h2⟩ := he
    exact ih m1 m' (.step op h (fun _ _ => trivial) h1) h2

end

/-- C80: a drawing of the form on a terminal of at least 20 columns and 15 rows shows each of its widgets exactly in its place, as it would be drawn alone
on an empty screen, and nothing elsewhere, whatever was shown before. -/
theorem C80_screen (cw : Char → Nat) (ws alnum : Char → Bool) (c : Config) (hs : cw ' ' = 1) (he : cw '…' = 1) (hb : cw '▐' = 1)
    (hc : FormTexts cw c) (ops : List FieldStyleOp) (hops : c.styles = styledBy ops)
    (hst : Tidy c.styles.focused ∧ Tidy c.styles.unfocused ∧ Tidy c.styles.cursor) (text : Text)
    {w h : Nat} (hsz : SmallSize w h) (es : List View.Event) (hes : SmallSizes es) {v : View} (hv : FormAfter cw ws alnum c text w h es v)
    (hin : ∀ n, ShownInput (input v n)) :
    let d : Desk := es.foldl Desk.next (.start w h)
    largeEnough d.width d.height = true → (∀ n, v.introduction.HasLines cw ws n → n < 65536) → d.height + v.introduction.scroll < 65536 → ∃ cmds, v.queueOn cw ws c = some cmds ∧ ∀ t : Tty, t.pen = {} →
      let t' := t.playApp cw cmds
      t'.pen = {} ∧
      (∃ rows, v.introduction.writeOn cw ws = some rows ∧
        ∀ x y, InArea (introIn d.width d.height) x y → t'.cells x y = printSeen cw (viewRows rows) blankCells x y) ∧
      (∀ n, ∃ rows, c.labelSkin.writeInArea cw ws (labelText c n) (labelIn d.width d.height n) = some rows ∧
        ∀ x y, InArea (labelIn d.width d.height n) x y → t'.cells x y = printSeen cw (viewRows rows) blankCells x y) ∧
      (∀ n, ∃ rows cur, c.styles.displayOn cw (input v n) = some (rows, cur) ∧
        ∀ x y, InArea (inputIn d.width d.height n) x y → t'.cells x y = printSeen cw rows blankCells x y) ∧
      ∀ x y, ¬ InArea (introIn d.width d.height) x y → (∀ n, ¬ InArea (labelIn d.width d.height n) x y ∧ ¬ InArea (inputIn d.width d.height n) x y) →
        t'.cells x y = blankCells x y := by
  intro d hl hcount hroom
  have hm : Matches c d v := formAfter_matches hc.introduction hsz hes hv
  have hplaced := hm.placed hl
  obtain ⟨_, hsmall⟩ := hm.sizes _ _ hplaced
  have hl' := hl
  unfold largeEnough at hl'
  rw [decide_eq_true_iff] at hl'
  unfold SmallSize at hsmall
  obtain ⟨L1, L2, L3, L4, L5, L6, L7⟩ := C80_layout d.width d.height hl'.1 hl'.2
  have hreach : ∀ n, v.introduction.HasLines cw ws n → v.introduction.scroll ≤ n := by
    obtain ⟨v0, a1, a2⟩ := hv
    obtain ⟨v0', b1, b2, _, b4⟩ := form_new (cw := cw) (ws := ws) (alnum := alnum) (c := c) text hsz
    rw [a1] at b1
    cases b1
    obtain ⟨v', e1, _, _, e4⟩ := form_run (cw := cw) (ws := ws) (alnum := alnum) hc.introduction es _ v0 b2 hes
    rw [a2] at e1
    cases e1
    intro n hn
    refine C29_bound cw ws { mlines := c.introduction, area := noArea, skin := c.skin } v.introduction ?_ n hn
    exact aloneMad_reach _ _ _ (aloneMad_reach _ _ _ .init b4) e4
  have hintro : v.introduction.area = introIn d.width d.height := by rw [hm.intro, Desk.intro, hplaced]
  have hinput : ∀ n, (input v n).area = inputIn d.width d.height n := fun n => by rw [hm.inputs, Desk.inputArea, hplaced]
  obtain ⟨cmds0, rows0, x1, x2, x3⟩ := mad_draws (cw := cw) (ws := ws) (m := v.introduction) (by rw [hm.skin]; exact hc.skin)
    (by rw [hm.skin, hm.text]; exact hc.introduction) (by rw [hintro]; simp only [introIn]; omega)
    (by rw [hintro]; simp only [introIn, OnScreen]; omega) (by rw [hintro]; simp only [introIn]; omega) hcount hreach
  have hlabel : ∀ n, ∃ cmds rows, View.areaCmds cw ws c.labelSkin (labelText c n) (labelIn d.width d.height n) = some cmds ∧
      c.labelSkin.writeInArea cw ws (labelText c n) (labelIn d.width d.height n) = some rows ∧ Draws cw cmds (labelIn d.width d.height n) (viewRows rows) := by
    intro n
    have ht : FormText cw c.labelSkin (labelText c n) := by
      cases n with
      | login => exact hc.login
      | password => exact hc.password
      | comments => exact hc.comments
    apply area_draws hc.labelSkin ht
    · cases n <;> simp only [labelIn] <;> omega
    · cases n <;> simp only [labelIn, OnScreen] <;> omega
  have hfield : ∀ n, ∃ cmds rows cur, c.styles.cmds cw (input v n) = some cmds ∧ c.styles.displayOn cw (input v n) = some (rows, cur) ∧
      Draws cw (cmds.map .view) (inputIn d.width d.height n) rows := by
    intro n
    rw [hops] at hst ⊢
    have := field_draws hs he hb ops hst (f := input v n) (hm.ok n).2.2 (by rw [hinput]; have := (L7 n).1; omega) (hin n)
    rw [hinput] at this
    exact this
  obtain ⟨l1, lr1, y1, y1', y1''⟩ := hlabel .login
  obtain ⟨l2, lr2, y2, y2', y2''⟩ := hlabel .password
  obtain ⟨l3, lr3, y3, y3', y3''⟩ := hlabel .comments
  obtain ⟨f1, fr1, cur1, z1, z1', z1''⟩ := hfield .login
  obtain ⟨f2, fr2, cur2, z2, z2', z2''⟩ := hfield .password
  obtain ⟨f3, fr3, cur3, z3, z3', z3''⟩ := hfield .comments
  rw [hintro] at x3
  let ds : List (List AppCmd × Area × List (Nat × Nat × List Piece)) := [
    (cmds0, introIn d.width d.height, viewRows rows0),
    (l1, labelIn d.width d.height .login, viewRows lr1), (f1.map .view, inputIn d.width d.height .login, fr1),
    (l2, labelIn d.width d.height .password, viewRows lr2), (f2.map .view, inputIn d.width d.height .password, fr2),
    (l3, labelIn d.width d.height .comments, viewRows lr3), (f3.map .view, inputIn d.width d.height .comments, fr3)]
  have symm : ∀ {a b : Area}, Spec.Disjoint a b → Spec.Disjoint b a := fun h x y hx => h x y ⟨hx.2, hx.1⟩
  have hpair : ds.Pairwise (fun a b => Spec.Disjoint a.2.1 b.2.1) := by
    simp only [ds, List.pairwise_cons, List.mem_cons, List.not_mem_nil, or_false, forall_eq_or_imp, forall_eq, List.Pairwise.nil, and_true, false_implies, implies_true]
    exact ⟨⟨(L4 _).2, (L4 _).1, (L4 _).2, (L4 _).1, (L4 _).2, (L4 _).1⟩,
      ⟨symm (L5 _ _), (L6 _ _ (by decide)).2, symm (L5 _ _), (L6 _ _ (by decide)).2, symm (L5 _ _)⟩,
      ⟨L5 _ _, (L6 _ _ (by decide)).1, L5 _ _, (L6 _ _ (by decide)).1⟩,
      ⟨symm (L5 _ _), (L6 _ _ (by decide)).2, symm (L5 _ _)⟩, ⟨L5 _ _, (L6 _ _ (by decide)).1⟩, symm (L5 _ _)⟩
  have hall : ∀ e ∈ ds, Draws cw e.1 e.2.1 e.2.2 := by
    simp only [ds, List.mem_cons, List.not_mem_nil, or_false, forall_eq_or_imp, forall_eq]
    exact ⟨x3, y1'', z1'', y2'', z2'', y3'', z3''⟩
  have hlab : v.loginLabelArea = labelIn d.width d.height .login ∧ v.passwordLabelArea = labelIn d.width d.height .password ∧
      v.commentsLabelArea = labelIn d.width d.height .comments := by
    rw [hm.label1, hm.label2, hm.label3]
    simp only [Desk.labelArea, hplaced, and_self]
  refine ⟨.clearAll :: ds.flatMap (·.1), ?_, ?_⟩
  · have hd : v.drawable = true := by rw [hm.drawable, hl]
    simp only [input, labelText] at y1 y2 y3 z1 z2 z3
    simp only [View.queueOn, if_pos hd, x1, hlab.1, hlab.2.1, hlab.2.2, y1, y2, y3, z1, z2, z3, Option.bind_eq_bind, Option.bind_some, ds,
      List.flatMap_cons, List.flatMap_nil, List.append_nil, List.cons_append, List.append_assoc]
  · intro t ht
    have hplay : t.playApp cw (.clearAll :: ds.flatMap (·.1)) = ({ t with cells := blankCells } : Tty).playApp cw (ds.flatMap (·.1)) := by
      show (t.execApp cw .clearAll).playApp cw _ = _
      simp only [Tty.execApp, ht]
      rfl
    obtain ⟨p1, p2, p3⟩ := draws_all cw ds hall hpair { t with cells := blankCells } ht
    simp only [hplay]
    refine ⟨p1, ⟨rows0, x2, fun x y hx => p2 (cmds0, introIn d.width d.height, viewRows rows0) (by simp [ds]) x y hx⟩, ?_, ?_, ?_⟩
    · intro n
      cases n with
      | login => exact ⟨lr1, y1', fun x y hx => p2 (l1, labelIn d.width d.height .login, viewRows lr1) (by simp [ds]) x y hx⟩
      | password => exact ⟨lr2, y2', fun x y hx => p2 (l2, labelIn d.width d.height .password, viewRows lr2) (by simp [ds]) x y hx⟩
      | comments => exact ⟨lr3, y3', fun x y hx => p2 (l3, labelIn d.width d.height .comments, viewRows lr3) (by simp [ds]) x y hx⟩
    · intro n
      cases n with
      | login => exact ⟨fr1, cur1, z1', fun x y hx => p2 (f1.map .view, inputIn d.width d.height .login, fr1) (by simp [ds]) x y hx⟩
      | password => exact ⟨fr2, cur2, z2', fun x y hx => p2 (f2.map .view, inputIn d.width d.height .password, fr2) (by simp [ds]) x y hx⟩
      | comments => exact ⟨fr3, cur3, z3', fun x y hx => p2 (f3.map .view, inputIn d.width d.height .comments, fr3) (by simp [ds]) x y hx⟩
    · intro x y h0 hn
      apply p3
      simp only [ds, List.mem_cons, List.not_mem_nil, or_false, forall_eq_or_imp, forall_eq]
      exact ⟨h0, (hn .login).1, (hn .login).2, (hn .password).1, (hn .password).2, (hn .comments).1, (hn .comments).2⟩

/-- C80: on smaller terminals, of at least 4 columns, only the message saying that it's too small is shown. -/
theorem C80_small_screen (cw : Char → Nat) (ws alnum : Char → Bool) (c : Config) (hc : FormTexts cw c) (text : Text)
    {w h : Nat} (hsz : SmallSize w h) (es : List View.Event) (hes : SmallSizes es) {v : View} (hv : FormAfter cw ws alnum c text w h es v) :
    let d : Desk := es.foldl Desk.next (.start w h)
    largeEnough d.width d.height = false → 4 ≤ d.width → ∃ cmds rows, v.queueOn cw ws c = some cmds ∧
      c.skin.writeInArea cw ws c.tooSmall ⟨0, 0, d.width, d.height⟩ = some rows ∧ ∀ t : Tty, t.pen = {} →
      (t.playApp cw cmds).pen = {} ∧ (t.playApp cw cmds).cells = printSeen cw (viewRows rows) blankCells ∧
      ∀ x y, ¬ InArea ⟨0, 0, d.width, d.height⟩ x y → (t.playApp cw cmds).cells x y = blankCells x y := by
  intro d hl h4
  have hm : Matches c d v := formAfter_matches hc.introduction hsz hes hv
  have hsize : SmallSize d.width d.height := by
    have : ∀ (es : List View.Event) (d0 : Desk), SmallSizes es → SmallSize d0.width d0.height →
        SmallSize (es.foldl Desk.next d0).width (es.foldl Desk.next d0).height := by
      intro es
      induction es with
      | nil => intro d0 _ h; exact h
      | cons e es ih =>
        intro d0 he h
        apply ih (d0.next e) (fun w h hh => he w h (List.mem_cons_of_mem _ hh))
        cases e with
        | key k clip => exact h
        | mouse e => exact h
        | resize w h => exact he w h (by simp)
        | other => exact h
    exact this es _ hes hsz
  unfold SmallSize at hsize
  obtain ⟨cmds, rows, a1, a2, a3⟩ := area_draws (cw := cw) (ws := ws) hc.skin hc.tooSmall (a := ⟨0, 0, d.width, d.height⟩) h4 (by unfold OnScreen; simp only; omega)
  have hd : v.drawable = false := by rw [hm.drawable, hl]
  refine ⟨.clearAll :: cmds, rows, ?_, a2, ?_⟩
  · unfold View.queueOn
    rw [if_neg (by rw [hd]; decide), hm.skin, hm.area, a1]
    rfl
  · intro t ht
    have hplay : t.playApp cw (.clearAll :: cmds) = ({ t with cells := blankCells } : Tty).playApp cw cmds := by
      show (t.execApp cw .clearAll).playApp cw _ = _
      simp only [Tty.execApp, ht]
      rfl
    obtain ⟨p1, p2⟩ := a3.1 { t with cells := blankCells } ht
    rw [hplay]
    refine ⟨p1, p2, ?_⟩
    intro x y hn
    rw [p2]
    exact (a3.2 blankCells x y).2 hn

theorem plainSkin : FormSkin renderCw ({} : Skin) := by
  refine ⟨⟨.inl rfl, fun _ => .inl rfl, .inl rfl, .inl rfl, .inl rfl, .inl rfl, .inl rfl, .inl rfl, .inl rfl, .inl rfl, fun _ _ h => by simp at h⟩,
    ⟨by decide, by decide, by decide, by decide, by decide, fun c sc h => by simp at h⟩, by decide, by decide, ?_⟩
  intro k ls h
  unfold styleOf at h
  split at h
  · cases h; rfl
  · cases h
  · split at h <;> cases h <;> rfl
  · cases h; rfl

theorem exForm_texts : FormTexts renderCw exForm :=
  ⟨plainSkin, plainSkin, paragraph_fits ⟨rfl, rfl⟩ _, paragraph_fits ⟨rfl, rfl⟩ _, paragraph_fits ⟨rfl, rfl⟩ _, paragraph_fits ⟨rfl, rfl⟩ _,
    paragraph_fits ⟨rfl, rfl⟩ _⟩

theorem exSize : SmallSize 20 15 := ⟨by decide, by decide⟩

/-- Events of the example: typing in the login, then in the password, changes of size. -/
def exEvents : List View.Event :=
  [.key ⟨.char 'x', [], .none⟩ ⟨true, none⟩, .key keyTab ⟨true, none⟩, .resize 5 5, .key ⟨.char 'y', [], .none⟩ ⟨true, none⟩, .resize 30 18]

theorem exEvents_small : SmallSizes exEvents := by
  intro w h hh
  simp only [exEvents, List.mem_cons, View.Event.resize.injEq, reduceCtorEq, List.not_mem_nil, or_false, false_or] at hh
  unfold SmallSize
  omega

/-- C80: the hypotheses are met by the form of the example. -/
example : ∃ v cmds, FormAfter renderCw (· == ' ') (fun _ => true) exForm "a\nb".toList 20 15 exEvents v ∧ v.queueOn renderCw (· == ' ') exForm = some cmds ∧
    v.focus = .password ∧ ∃ rows cur, exForm.styles.displayOn renderCw v.password = some (rows, cur) ∧
    ∀ t : Tty, t.pen = {} → ∀ x y, InArea (inputIn 30 18 .password) x y → (t.playApp renderCw cmds).cells x y = printSeen renderCw rows blankCells x y := by
  obtain ⟨v, hv, hf, _⟩ := C80_inputs renderCw (· == ' ') (fun _ => true) exForm exForm_texts.introduction "a\nb".toList (w := 20) (h := 15) exSize exEvents exEvents_small
  have hfacts : ((View.new renderCw exForm "a\nb".toList ⟨0, 0, 20, 15⟩).bind fun v => (runForm renderCw (· == ' ') (fun _ => true) v exEvents).map
      fun v => ([v.login, v.password, v.comments].map fun f => (f.content.lines, decide (f.area.top + f.area.height + f.scroll.y + 1 < 65536)), v.introduction.scroll, v.introduction.mlines.length)) =
      some ([(["x".toList], true), (["y".toList], true), (["a".toList, "b".toList], true)], 0, 1) := by decide +kernel
  obtain ⟨v0, hv0, hv1⟩ := id hv
  rw [hv0] at hfacts
  simp only [Option.bind_some, hv1, Option.map_some, Option.some.injEq, Prod.mk.injEq, List.map_cons, List.map_nil, List.cons.injEq, and_true] at hfacts
  obtain ⟨⟨⟨a1, a2⟩, ⟨b1, b2⟩, c1, c2⟩, i1, _⟩ := hfacts
  have hm : Matches exForm _ v := formAfter_matches exForm_texts.introduction exSize exEvents_small hv
  have hin : ∀ n, ShownInput (input v n) := by
    intro n
    cases n with
    | login => exact ⟨.inr (by show ∀ l ∈ v.login.content.lines, _; rw [a1]; decide), by show v.login.content.lines.length < 65536; rw [a1]; decide, of_decide_eq_true a2⟩
    | password => exact ⟨.inr (by show ∀ l ∈ v.password.content.lines, _; rw [b1]; decide), by show v.password.content.lines.length < 65536; rw [b1]; decide, of_decide_eq_true b2⟩
    | comments => exact ⟨.inr (by show ∀ l ∈ v.comments.content.lines, _; rw [c1]; decide), by show v.comments.content.lines.length < 65536; rw [c1]; decide, of_decide_eq_true c2⟩
  obtain ⟨cmds, h1, h2⟩ := C80_screen renderCw (· == ' ') (fun _ => true) exForm (by decide) (by decide) (by decide) exForm_texts [] rfl
    ⟨.inl rfl, .inl rfl, .inl rfl⟩ _ exSize exEvents exEvents_small hv hin (by decide) (by
      rintro n ⟨t, ht, rfl⟩
      rw [hm.text, hm.skin, hm.intro] at ht
      have : (FmtText.fromText renderCw (· == ' ') exForm.skin exForm.introduction (some 26)).map (·.lines.length) = some t.lines.length := by
        rw [show FmtText.fromText renderCw (· == ' ') exForm.skin exForm.introduction (some 26) = some t from ht]; rfl
      have e : (FmtText.fromText renderCw (· == ' ') exForm.skin exForm.introduction (some 26)).map (·.lines.length) = some 2 := by decide +kernel
      rw [e] at this
      have := Option.some.inj this
      omega) (by rw [i1]; decide)
  have key := fun t ht => (h2 t ht).2.2.2.1 .password
  obtain ⟨rows, cur, k1, _⟩ := key ⟨blankCells, 0, 0, {}⟩ rfl
  refine ⟨v, cmds, hv, h1, hf, rows, cur, k1, ?_⟩
  intro t ht x y hx
  obtain ⟨rows', cur', k2, k3⟩ := key t ht
  have : some (rows, cur) = some (rows', cur') := by rw [← k1]; exact k2
  cases this
  exact k3 x y hx

/-- C80: a form in a terminal which is too small. -/
example : ∃ v cmds, FormAfter renderCw (· == ' ') (fun _ => true) exForm [] 20 15 [.resize 19 15] v ∧ v.queueOn renderCw (· == ' ') exForm = some cmds := by
  have hs : SmallSizes [.resize 19 15] := by
    intro w h hh
    simp only [List.mem_cons, View.Event.resize.injEq, List.not_mem_nil, or_false] at hh
    unfold SmallSize
    omega
  obtain ⟨v, hv, _⟩ := C80_inputs renderCw (· == ' ') (fun _ => true) exForm exForm_texts.introduction [] (w := 20) (h := 15) exSize _ hs
  obtain ⟨cmds, _, h, _⟩ := C80_small_screen renderCw (· == ' ') (fun _ => true) exForm exForm_texts [] exSize _ hs hv (by decide) (by decide)
  exact ⟨v, cmds, hv, h⟩

end Verif.Props
