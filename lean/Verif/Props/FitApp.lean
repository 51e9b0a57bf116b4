import Verif.Spec.FitApp
import Verif.Props.PagerMain
import Verif.Props.Write
/-! C96: the application of `examples/fit-width` shows its lines, each of them filling the width of the terminal. -/
namespace Verif.Props
open Verif Verif.Spec Verif.AppMain Verif.Pager

namespace FitAppLemmas
variable {cw : Char → Nat} {ws : Char → Bool} {skin : Skin} {page : FitApp.Page}

/-- A line in its width. -/
def lineOf (cw : Char → Nat) (ws : Char → Bool) (skin : Skin) (width : Nat) (l : List Compound × Alignment) : Run FmtComposite :=
  FitApp.makeLine cw ws skin width l.1 l.2

theorem fillable (ht : FittableTexts cw ws page.texts) {width : Nat} {l : List Compound × Alignment} (hl : l ∈ fitLines page) :
    Fillable cw ws skin .paragraph l.1 width l.2 := by
  have key : (l.2 = .left) ∨ l.1 ∈ page.texts := by
    simp only [fitLines, List.flatMap_cons, List.flatMap_nil, List.append_nil, List.mem_append, List.mem_cons, List.mem_map] at hl
    rcases hl with (rfl | ⟨t, h, rfl⟩) | (rfl | ⟨t, h, rfl⟩) | (rfl | ⟨t, h, rfl⟩) | (rfl | ⟨t, h, rfl⟩) <;> simp_all
  refine ⟨by simp [styleOf], by simp, .inl rfl, ?_, ?_⟩
  · intro h
    rcases key with k | k
    · rw [k] at h; simp at h
    · exact (ht _ k).1
  · intro h
    rcases key with k | k
    · rw [k] at h; simp at h
    · exact (ht _ k).2

/-- All the lines with what is written for them. -/
theorem line_ok (he : cw '…' = 1) (hs : OneColumnSkin cw skin) (hm : skin.paragraph.leftMargin = 0) (ht : FittableTexts cw ws page.texts) (width : Nat)
    {l : List Compound × Alignment} (hl : l ∈ fitLines page) :
    ∃ fc ps, FitApp.makeLine cw ws skin width l.1 l.2 = some fc ∧ skin.writeInline fc = some ps ∧
      skin.writeCompositeFill cw ws .paragraph l.1 width l.2 = some ps ∧ piecesCols cw ps = width := by
  obtain ⟨ps, ls, h1, h2, h3⟩ := C55_fill cw ws skin he hs .paragraph l.1 width l.2 (fillable ht hl)
  simp only [Skin.writeCompositeFill, Option.bind_eq_bind, Option.bind_eq_some_iff] at h1
  obtain ⟨fc, f1, f2⟩ := h1
  refine ⟨fc, ps, f1, f2, ?_, ?_⟩
  · simp only [Skin.writeCompositeFill, f1, Option.bind_eq_bind, Option.bind_some, f2]
  · simp only [styleOf, Option.some.injEq] at h2
    rw [h3, ← h2, hm, Nat.zero_add]

/-- A function which may panic, on all items. -/
def mapRun {α β : Type} (f : α → Run β) : List α → Run (List β)
  | [] => some []
  | a :: as => (f a).bind fun b => (mapRun f as).map (b :: ·)

theorem mapRun_append {α β : Type} (f : α → Run β) (a b : List α) : mapRun f (a ++ b) = (mapRun f a).bind fun x => (mapRun f b).map (x ++ ·) := by
  induction a with
  | nil => simp only [List.nil_append, mapRun, Option.bind_some]; cases mapRun f b <;> rfl
  | cons x a ih =>
    simp only [List.cons_append, mapRun, ih]
    cases f x <;> simp only [Option.bind_none, Option.bind_some]
    cases mapRun f a <;> simp only [Option.bind_none, Option.bind_some, Option.map_none, Option.map_some]
    cases mapRun f b <;> rfl

theorem mapRun_some {α β : Type} (f : α → Run β) : ∀ (as : List α), (∀ a ∈ as, ∃ b, f a = some b) →
    ∃ bs, mapRun f as = some bs ∧ bs.length = as.length ∧ ∀ (j : Nat) (b : β), bs[j]? = some b → ∃ a, as[j]? = some a ∧ f a = some b := by
  intro as
  induction as with
  | nil => intro _; exact ⟨[], rfl, rfl, by simp⟩
  | cons a as ih =>
    intro h
    obtain ⟨b, hb⟩ := h a (by simp)
    obtain ⟨bs, h1, h2, h3⟩ := ih (fun x hx => h x (List.mem_cons_of_mem _ hx))
    refine ⟨b :: bs, by simp [mapRun, hb, h1], by simp [h2], ?_⟩
    intro j c hj
    cases j with
    | zero => simp only [List.getElem?_cons_zero, Option.some.injEq] at hj ⊢; exact ⟨a, rfl, by rw [hb, hj]⟩
    | succ j => simp only [List.getElem?_cons_succ] at hj ⊢; exact h3 j c hj

theorem makeTexts_eq (width : Nat) (align : Alignment) : ∀ texts, FitApp.makeTexts cw ws skin width align texts =
    mapRun (lineOf cw ws skin width) (texts.map fun t => (t, align)) := by
  intro texts
  induction texts with
  | nil => rfl
  | cons t texts ih =>
    simp only [FitApp.makeTexts, List.map_cons, mapRun, ih, lineOf, Option.bind_eq_bind]
    cases FitApp.makeLine cw ws skin width t align <;> simp only [Option.bind_none, Option.bind_some]
    rw [Option.map_eq_bind]
    rfl

theorem makeAllLines_eq (width : Nat) : FitApp.makeAllLines cw ws skin page width = mapRun (lineOf cw ws skin width) (fitLines page) := by
  simp only [FitApp.makeAllLines, makeTexts_eq, fitLines, List.flatMap_cons, List.flatMap_nil, List.append_nil, mapRun_append, mapRun, Option.bind_eq_bind]
  have e : ∀ md align, FitApp.makeLine cw ws skin width md align = lineOf cw ws skin width (md, align) := fun _ _ => rfl
  simp only [e]
  generalize lineOf cw ws skin width (page.leftTitle, .left) = a1
  generalize lineOf cw ws skin width (page.autoTitle, .left) = a2
  generalize lineOf cw ws skin width (page.rightTitle, .left) = a3
  generalize lineOf cw ws skin width (page.centerTitle, .left) = a4
  generalize mapRun (lineOf cw ws skin width) (page.texts.map fun t => (t, .left)) = b1
  generalize mapRun (lineOf cw ws skin width) (page.texts.map fun t => (t, .unspecified)) = b2
  generalize mapRun (lineOf cw ws skin width) (page.texts.map fun t => (t, .right)) = b3
  generalize mapRun (lineOf cw ws skin width) (page.texts.map fun t => (t, .center)) = b4
  cases a1 <;> cases a2 <;> cases a3 <;> cases a4 <;> cases b1 <;> cases b2 <;> cases b3 <;> cases b4 <;> simp

/-- The rows of the screen: the ones of the lines, then empty ones. -/
def padded (n : Nat) (pss : List (List Piece)) : List (List Piece) := pss.take n ++ List.replicate (n - pss.length) []

theorem drawRows_eq (width : Nat) : ∀ (n y : Nat) (ls : List (List Compound × Alignment)) (fcs : List FmtComposite) (pss : List (List Piece)),
    mapRun (lineOf cw ws skin width) ls = some fcs → mapRun (fun l => skin.writeCompositeFill cw ws .paragraph l.1 width l.2) ls = some pss →
    FitApp.drawRows skin n y fcs = some ((stacked y (padded n pss)).flatMap fun r => rowCmds r.1 r.2.1 r.2.2) := by
  intro n
  induction n with
  | zero => intro y ls fcs pss _ _; simp [FitApp.drawRows, padded, stacked]
  | succ n ih =>
    intro y ls fcs pss h1 h2
    cases ls with
    | nil =>
      simp only [mapRun, Option.some.injEq] at h1 h2
      subst h1 h2
      have := ih (y + 1) [] [] [] rfl rfl
      simp only [FitApp.drawRows, this, Option.bind_eq_bind, Option.bind_some, Option.some.injEq]
      simp [padded, List.replicate_succ, stacked, rowCmds]
    | cons l ls =>
      simp only [mapRun, Option.bind_eq_some_iff, Option.map_eq_some_iff] at h1 h2
      obtain ⟨fc, f1, fcs', f2, rfl⟩ := h1
      obtain ⟨ps, p1, pss', p2, rfl⟩ := h2
      have hw : skin.writeInline fc = some ps := by
        simp only [Skin.writeCompositeFill, Option.bind_eq_bind, Option.bind_eq_some_iff] at p1
        obtain ⟨fc', g1, g2⟩ := p1
        have : some fc = some fc' := f1.symm.trans g1
        cases this
        exact g2
      have := ih (y + 1) ls fcs' pss' f2 p2
      simp only [FitApp.drawRows, hw, this, Option.bind_eq_bind, Option.bind_some, Option.some.injEq]
      simp [padded, stacked, rowCmds]

theorem stacked_append (a b : List (List Piece)) : ∀ y, stacked y (a ++ b) = stacked y a ++ stacked (y + a.length) b := by
  induction a with
  | nil => intro y; rfl
  | cons p a ih => intro y; simp only [List.cons_append, stacked, ih, List.length_cons]; rw [show y + 1 + a.length = y + (a.length + 1) by omega]

theorem stacked_get (rows : List (List Piece)) : ∀ (y j : Nat) (r : Nat × Nat × List Piece), (stacked y rows)[j]? = some r →
    ∃ ps, rows[j]? = some ps ∧ r = (0, y + j, ps) := by
  induction rows with
  | nil => intro y j r h; simp [stacked] at h
  | cons p rows ih =>
    intro y j r h
    cases j with
    | zero => simp only [stacked, List.getElem?_cons_zero, Option.some.injEq] at h; exact ⟨p, rfl, h.symm⟩
    | succ j =>
      simp only [stacked, List.getElem?_cons_succ] at h
      obtain ⟨ps, h1, h2⟩ := ih (y + 1) j r h
      exact ⟨ps, h1, by rw [h2, show y + 1 + j = y + (j + 1) by omega]⟩

theorem stacked_length (rows : List (List Piece)) : ∀ y, (stacked y rows).length = rows.length := by
  induction rows with
  | nil => intro y; rfl
  | cons p rows ih => intro y; simp [stacked, ih]

theorem printSeen_append (a b : List (Nat × Nat × List Piece)) (g : Cells CompoundStyle) : printSeen cw (a ++ b) g = printSeen cw b (printSeen cw a g) := by
  simp [printSeen, printRows]

theorem printSeen_empty (n : Nat) : ∀ y (g : Cells CompoundStyle), printSeen cw (stacked y (List.replicate n [])) g = g := by
  induction n with
  | zero => intro y g; rfl
  | succ n ih => intro y g; rw [List.replicate_succ]; exact ih (y + 1) g

/-- The part of the screen in which there are lines. -/
def pageArea (page : FitApp.Page) (size : Nat × Nat) : Area := ⟨0, 0, size.1, min size.2 (fitLines page).length⟩

/-- The terminal after a drawing. -/
theorem drawing_ok (he : cw '…' = 1) (hs : OneColumnSkin cw skin) (hsk : TidySkin skin) (hm : skin.paragraph.leftMargin = 0)
    (ht : FittableTexts cw ws page.texts) (size : Nat × Nat) :
    ∃ cmds rows, FitApp.draw cw ws skin page size = some cmds ∧ FitRows cw ws skin page size rows ∧
      (∀ x y, ¬ InArea (pageArea page size) x y → printSeen cw (stacked 0 rows) blankCells x y = blankCells x y) ∧
      ∀ t : Tty, t.pen = {} → (∀ x y, ¬ InArea (pageArea page size) x y → t.cells x y = blankCells x y) →
        (t.playApp cw cmds).pen = {} ∧ (t.playApp cw cmds).cells = printSeen cw (stacked 0 rows) blankCells := by
  obtain ⟨fcs, f1, f2, f3⟩ := mapRun_some (lineOf cw ws skin size.1) (fitLines page) (fun l hl => by
    obtain ⟨fc, ps, h, _⟩ := line_ok he hs hm ht size.1 hl
    exact ⟨fc, h⟩)
  obtain ⟨pss, p1, p2, p3⟩ := mapRun_some (fun l => skin.writeCompositeFill cw ws .paragraph l.1 size.1 l.2) (fitLines page) (fun l hl => by
    obtain ⟨fc, ps, _, _, h, _⟩ := line_ok he hs hm ht size.1 hl
    exact ⟨ps, h⟩)
  have hcols : ∀ (j : Nat) ps, pss[j]? = some ps → piecesCols cw ps = size.1 ∧ ∀ p ∈ ps, Tidy p.1 := by
    intro j ps hj
    obtain ⟨l, l1, l2⟩ := p3 j ps hj
    obtain ⟨fc, ps', h1, h2, h3, h4⟩ := line_ok he hs hm ht size.1 (List.mem_of_getElem? l1)
    have : some ps = some ps' := l2.symm.trans h3
    cases this
    exact ⟨h4, tidy_line hsk (line := .normal fc) (width := none) (rc := false) h2⟩
  have hd := drawRows_eq size.1 size.2 0 (fitLines page) fcs pss f1 p1
  have hlen : (pss.take size.2).length = min size.2 (fitLines page).length := by rw [List.length_take, p2]
  have hfill : FillsArea cw (pageArea page size) ((stacked 0 (pss.take size.2)).map fun r => (r.1, r.2.1, seenPieces r.2.2)) := by
    apply seen_fills cw (pageArea page size) _ (by rw [stacked_length]; exact hlen)
    intro j row hj
    obtain ⟨ps, h1, rfl⟩ := stacked_get _ 0 j row hj
    refine ⟨rfl, rfl, ?_⟩
    rw [List.getElem?_take] at h1
    split at h1
    · exact (hcols j ps h1).1
    · cases h1
  refine ⟨((stacked 0 (padded size.2 pss)).flatMap fun r => rowCmds r.1 r.2.1 r.2.2).map .view, pss.take size.2, by simp only [FitApp.draw, makeAllLines_eq, f1, hd, Option.bind_eq_bind, Option.bind_some], ⟨hlen, ?_⟩, ?_, ?_⟩
  · intro j ps hj
    rw [List.getElem?_take] at hj
    split at hj
    · obtain ⟨l, l1, l2⟩ := p3 j ps hj
      exact ⟨l.1, l.2, l1, l2, (hcols j ps hj).1⟩
    · cases hj
  · intro x y hn
    exact (hfill blankCells x y).2 hn
  · intro t hp hc
    rw [playApp_view]
    have htidy : ∀ r ∈ stacked 0 (padded size.2 pss), ∀ p ∈ r.2.2, Tidy p.1 := by
      intro r hr p hp
      obtain ⟨j, hj⟩ := List.mem_iff_getElem?.1 hr
      obtain ⟨ps, h1, rfl⟩ := stacked_get _ 0 j r hj
      have hmem : ps ∈ padded size.2 pss := List.mem_of_getElem? h1
      unfold padded at hmem
      rcases List.mem_append.1 hmem with hmem | hmem
      · obtain ⟨i, hi⟩ := List.mem_iff_getElem?.1 (List.mem_of_mem_take hmem)
        exact (hcols i ps hi).2 p hp
      · rw [List.eq_of_mem_replicate hmem] at hp
        simp at hp
    obtain ⟨a1, a2⟩ := play_rows cw (stacked 0 (padded size.2 pss)) t hp htidy
    refine ⟨a1, ?_⟩
    rw [a2]
    unfold padded
    rw [stacked_append, printSeen_append, printSeen_empty]
    exact fills_same cw (pageArea page size) _ hfill t.cells blankCells hc

theorem key_iff (e : PagerHappening) : FitApp.breaks e.1 = true ↔ IsKeyEvent e := by
  unfold IsKeyEvent
  cases e.1 <;> simp [FitApp.breaks]

/-- The loop, as long as it goes on. -/
theorem fit_loop (he : cw '…' = 1) (hs : OneColumnSkin cw skin) (hsk : TidySkin skin) (hm : skin.paragraph.leftMargin = 0)
    (ht : FittableTexts cw ws page.texts) {width height : Nat} {torn : Nat × Nat → List AppCmd} (io : Answers) (t : Terminal) :
    ∀ (es : List PagerHappening) (p : Proc PagerHappening) (q : List AppCmd) (size : Nat × Nat) {p' : Proc PagerHappening} {s' : List AppCmd × Nat × Nat},
      OnlyResized es → p.buf = [] → (soon cw t p).alternate = true → (soon cw t p).app.pen = {} →
      (∃ rows, FitRows cw ws skin page size rows ∧ (soon cw t p).app.cells = printSeen cw (stacked 0 rows) blankCells ∧
        ∀ x y, ¬ InArea (pageArea page size) x y → (soon cw t p).app.cells x y = blankCells x y) →
      loop (FitApp.fitProgram cw ws skin page width height torn) io false p (q, size) es = (p', .waiting s') →
      p'.buf = [] ∧ received p'.trace = received p.trace ++ es ∧ (∀ e ∈ es, ¬ IsKeyEvent e) ∧ s'.2 = sizeAfter size es ∧
        ∃ rows, FitRows cw ws skin page (sizeAfter size es) rows ∧ (soon cw t p').app.cells = printSeen cw (stacked 0 rows) blankCells ∧
          ∀ x y, ¬ InArea (pageArea page (sizeAfter size es)) x y → (soon cw t p').app.cells x y = blankCells x y := by
  intro es
  induction es with
  | nil =>
    intro p q size p' s' _ hb ha hp hc h
    unfold loop at h
    simp only [Bool.false_eq_true, if_false, Prod.mk.injEq, Stop.waiting.injEq] at h
    obtain ⟨rfl, rfl⟩ := h
    exact ⟨hb, by simp, by simp, rfl, hc⟩
  | cons e es ih =>
    intro p q size p' s' ho hb ha hp hc h
    unfold loop at h
    obtain ⟨r1, r2, r3, r4, r5⟩ := receive_spec (cw := cw) t hb e
    split at h
    · simp at h
    next hq =>
    have hq' : ¬ IsKeyEvent e := by
      intro hk
      exact hq ((key_iff e).2 hk)
    have happ : (FitApp.fitProgram cw ws skin page width height torn).apply (q, size) e = some (FitApp.handle size e.1, true) := rfl
    rw [happ] at h
    dsimp only at h
    split at h
    · next p1 hr =>
      have ha' : (soon cw t (p.receive e)).alternate = true := by rw [r1]; exact ha
      obtain ⟨⟨cs, d1, d2⟩, d3, d4, d5, d6, d7⟩ := redraw_spec (cw := cw) _ io t _ ha' _ hr
      obtain ⟨d2, d8⟩ := d2 rfl
      simp only [FitApp.fitProgram, Option.map_eq_some_iff] at d8
      obtain ⟨cmds', c1, c2⟩ := d8
      obtain ⟨cmds, rows, k1, k2, k3, k4⟩ := drawing_ok he hs hsk hm ht (FitApp.handle size e.1).2
      rw [c1] at k1
      cases k1
      have hsize : (FitApp.handle size e.1).2 = sizeAfter size [e] := by
        obtain ⟨e1, e2⟩ := e
        cases e1 <;> rfl
      have hsize' : sizeAfter size (e :: es) = sizeAfter (FitApp.handle size e.1).2 es := by
        obtain ⟨e1, e2⟩ := e
        cases e1 <;> rfl
      have hap : (soon cw t p1).app = (({ (soon cw t p).app with cells := e.2.getD (soon cw t p).app.cells } : Tty).playApp cw (FitApp.handle size e.1).1).playApp cw cmds' := by
        rw [d1, r1]
        simp only [drawn, ← c2, playApp_append]
      have hbefore : (({ (soon cw t p).app with cells := e.2.getD (soon cw t p).app.cells } : Tty).playApp cw (FitApp.handle size e.1).1).pen = {} ∧
          ∀ x y, ¬ InArea (pageArea page (FitApp.handle size e.1).2) x y →
            (({ (soon cw t p).app with cells := e.2.getD (soon cw t p).app.cells } : Tty).playApp cw (FitApp.handle size e.1).1).cells x y = blankCells x y := by
        obtain ⟨e1, e2⟩ := e
        have quiet : (∀ w h, e1 ≠ .resize w h) → e2 = none := ho (e1, e2) (by simp)
        cases e1 with
        | resize w h =>
          refine ⟨hp, fun x y _ => ?_⟩
          simp only [FitApp.handle, Tty.playApp, List.foldl_cons, List.foldl_nil, Tty.execApp, hp]
          rfl
        | key k => exact absurd ⟨k, rfl⟩ hq'
        | other =>
          have := quiet (by simp)
          subst this
          obtain ⟨_, _, _, hc⟩ := hc
          exact ⟨hp, hc⟩
      obtain ⟨k5, k6⟩ := k4 _ hbefore.1 hbefore.2
      obtain ⟨i1, i2, i3, i4, i5⟩ := ih p1 _ _ (fun e' he' => ho e' (List.mem_cons_of_mem _ he')) d2 (by rw [d1]; exact ha') (by rw [hap]; exact k5)
        ⟨rows, k2, by rw [hap]; exact k6, fun x y hn => by rw [hap, k6]; exact k3 x y hn⟩ h
      rw [hsize']
      refine ⟨i1, by rw [i2, d3, r3]; simp, ?_, i4, i5⟩
      intro e' he'
      rcases List.mem_cons.1 he' with rfl | he'
      · exact hq'
      · exact i3 e' he'
    · next p1 stop hr =>
      obtain ⟨_, _, _, _, d6, _⟩ := redraw_spec (cw := cw) _ io t _ (by rw [r1]; exact ha) _ hr
      simp only [Prod.mk.injEq] at h
      rw [h.2] at d6
      simp at d6

/-- When nothing fails, a drawing is done. -/
theorem redraw_ok (he : cw '…' = 1) (hs : OneColumnSkin cw skin) (hsk : TidySkin skin) (hm : skin.paragraph.leftMargin = 0)
    (ht : FittableTexts cw ws page.texts) {width height : Nat} {torn : Nat × Nat → List AppCmd} {io : Answers} (hio : NoFailure io) (t : Terminal)
    {p : Proc PagerHappening} (ha : (soon cw t p).alternate = true) (s : List AppCmd × Nat × Nat) :
    ∃ p', redraw (FitApp.fitProgram cw ws skin page width height torn) io p s = (p', none) ∧ p'.buf = [] ∧ (soon cw t p').alternate = true ∧
      received p'.trace = received p.trace := by
  generalize hr : redraw (FitApp.fitProgram cw ws skin page width height torn) io p s = x
  obtain ⟨p', r⟩ := x
  obtain ⟨⟨cs, d1, d2⟩, d3, d4, d5, d6, d7⟩ := redraw_spec (cw := cw) _ io t _ ha _ hr
  obtain ⟨cmds, _, hd, _⟩ := drawing_ok he hs hsk hm ht s.2
  rcases d7 hio.writes with ⟨_, hn⟩ | rfl
  · simp [FitApp.fitProgram, hd] at hn
  · exact ⟨p', rfl, (d2 rfl).1, by rw [d1]; exact ha, d3⟩

/-- When nothing fails, the loop goes on. -/
theorem loop_ok (he : cw '…' = 1) (hs : OneColumnSkin cw skin) (hsk : TidySkin skin) (hm : skin.paragraph.leftMargin = 0)
    (ht : FittableTexts cw ws page.texts) {width height : Nat} {torn : Nat × Nat → List AppCmd} {io : Answers} (hio : NoFailure io) (t : Terminal) :
    ∀ (es : List PagerHappening) (p : Proc PagerHappening) (s : List AppCmd × Nat × Nat), p.buf = [] → (soon cw t p).alternate = true →
    (∀ e ∈ es, ¬ IsKeyEvent e) →
    ∃ p' s', p'.buf = [] ∧ (soon cw t p').alternate = true ∧ received p'.trace = received p.trace ++ es ∧
      ∀ tail, loop (FitApp.fitProgram cw ws skin page width height torn) io false p s (es ++ tail) =
        loop (FitApp.fitProgram cw ws skin page width height torn) io false p' s' tail := by
  intro es
  induction es with
  | nil => intro p s hb ha _; exact ⟨p, s, hb, ha, by simp, fun _ => rfl⟩
  | cons e es ih =>
    intro p s hb ha hkeys
    have hq : FitApp.breaks e.1 = false := by
      cases hx : FitApp.breaks e.1 with
      | false => rfl
      | true => exact absurd ((key_iff e).1 hx) (hkeys e (by simp))
    obtain ⟨r1, r2, r3, _⟩ := receive_spec (cw := cw) t hb e
    obtain ⟨p1, d1, d2, d3, d4⟩ := redraw_ok (width := width) (height := height) (torn := torn) he hs hsk hm ht hio t
      (p := p.receive e) (by rw [r1]; exact ha) (FitApp.handle s.2 e.1)
    obtain ⟨p', s', i1, i2, i3, i4⟩ := ih p1 (FitApp.handle s.2 e.1) d2 d3 (fun e' he' => hkeys e' (List.mem_cons_of_mem _ he'))
    refine ⟨p', s', i1, i2, by rw [i3, d4, r3]; simp, fun tail => ?_⟩
    rw [← i4, List.cons_append]
    conv => lhs; unfold loop
    have h1 : (FitApp.fitProgram cw ws skin page width height torn).quits e = false := hq
    have h2 : (FitApp.fitProgram cw ws skin page width height torn).apply s e = some (FitApp.handle s.2 e.1, true) := rfl
    rw [h1, h2]
    simp only [Bool.false_eq_true, if_false, d1]

/-- When nothing fails, the application runs its loop. -/
theorem main_ok (he : cw '…' = 1) (hs : OneColumnSkin cw skin) (hsk : TidySkin skin) (hm : skin.paragraph.leftMargin = 0)
    (ht : FittableTexts cw ws page.texts) {width height : Nat} {torn : Nat × Nat → List AppCmd} {io : Answers} (hio : NoFailure io) {t : Terminal}
    (hr : AtRest t) (es : List PagerHappening) (hkeys : ∀ e ∈ es, ¬ IsKeyEvent e) (tail : List PagerHappening) :
    ∃ p s, p.buf = [] ∧ received p.trace = es ∧ (soon cw t p).alternate = true ∧
      (∀ s', loop (FitApp.fitProgram cw ws skin page width height torn) io false p s tail = (p, .waiting s') →
        runMain (FitApp.fitProgram cw ws skin page width height torn) io (es ++ tail) = (p, .waiting s')) ∧
      (∀ q, loop (FitApp.fitProgram cw ws skin page width height torn) io false p s tail = (q, .left) →
        runMain (FitApp.fitProgram cw ws skin page width height torn) io (es ++ tail) = runRestore io q) := by
  generalize hx : runMain (FitApp.fitProgram cw ws skin page width height torn) io (es ++ tail) = x
  obtain ⟨px, st⟩ := x
  rcases runMain_cases (cw := cw) _ io t hr _ hx with ⟨hn, _⟩ | ⟨_, p0, h1, h2, h3, h4, hc⟩
  · exact absurd ⟨fun k _ => hio.writes k, hio.raws 0⟩ hn
  obtain ⟨p1, d1, d2, d3, d4⟩ := redraw_ok (width := width) (height := height) (torn := torn) he hs hsk hm ht hio t
    (p := p0) (by rw [h1]; rfl) ([], width, height)
  obtain ⟨p2, s2, i1, i2, i3, i4⟩ := loop_ok (width := width) (height := height) (torn := torn) he hs hsk hm ht hio t es p1 ([], width, height) d2 d3 hkeys
  have key : ∀ y, loop (FitApp.fitProgram cw ws skin page width height torn) io false p2 s2 tail = y →
      ∃ r stop, (r, stop) = y ∧ ((∃ s, stop = .waiting s ∧ st = .waiting s ∧ px = r) ∨ (stop = .left ∧ runRestore io r = (px, st)) ∨
            ((stop = .failed ∨ stop = .panicked) ∧ st = stop ∧ px = r.abandon io)) := by
    intro y hy
    rcases hc with ⟨hn, _⟩ | ⟨s0, q, hst, ⟨stop, hd', _⟩ | ⟨hd', r, stop, hl, hc⟩⟩
    · cases hn
    · cases hst
      have := d1.symm.trans hd'
      simp at this
    · cases hst
      have := d1.symm.trans hd'
      simp only [Prod.mk.injEq, and_true] at this
      subst this
      rw [i4] at hl
      exact ⟨r, stop, hl.symm.trans hy, hc⟩
  refine ⟨p2, s2, i1, by rw [i3, d4, h2]; rfl, i2, fun s' hy => ?_, fun q hy => ?_⟩
  · obtain ⟨r, stop, e, hc⟩ := key _ hy
    cases e
    rcases hc with ⟨s, h5, h6, rfl⟩ | ⟨h5, _⟩ | ⟨h5, _⟩
    · cases h5
      rw [h6]
    · cases h5
    · simp at h5
  · obtain ⟨r, stop, e, hc⟩ := key _ hy
    cases e
    rcases hc with ⟨s, h5, _⟩ | ⟨_, h5⟩ | ⟨h5, _⟩
    · cases h5
    · exact h5.symm
    · simp at h5

end FitAppLemmas

open FitAppLemmas

/-- C96: whatever the failures of the terminal and the events, as long as the application waits for an event: it received all of them, none of which is a key, the terminal is in the
modes of the application, the screen of the user is kept, all that was written was sent, and the alternate screen shows exactly, from its first row, as many lines as it can, each of
them written in the width given by the last change of size and taking this width. The rest of the screen is empty. This holds for all sizes. -/
theorem C96_screen (cw : Char → Nat) (ws : Char → Bool) {skin : Skin} {page : FitApp.Page} (he : cw '…' = 1) (hs : OneColumnSkin cw skin) (hsk : TidySkin skin)
    (hm : skin.paragraph.leftMargin = 0) (ht : FittableTexts cw ws page.texts) (width height : Nat) (torn : Nat × Nat → List AppCmd) (io : Answers)
    {t : Terminal} (hr : AtRest t) (es : List PagerHappening) (ho : OnlyResized es) {p : Proc PagerHappening} {state : List AppCmd × Nat × Nat}
    (h : runMain (FitApp.fitProgram cw ws skin page width height torn) io es = (p, .waiting state)) :
    received p.trace = es ∧ (∀ e ∈ es, ¬ IsKeyEvent e) ∧ p.buf = [] ∧ Paging (t.after cw p.trace) ∧ (t.after cw p.trace).user = t.user ∧
      let size := sizeAfter (width, height) es
      ∃ rows, FitRows cw ws skin page size rows ∧
        (t.after cw p.trace).app.cells = printSeen cw (stacked 0 rows) blankCells ∧
        ∀ x y, size.1 ≤ x ∨ size.2 ≤ y ∨ (fitLines page).length ≤ y → (t.after cw p.trace).app.cells x y = blankCells x y := by
  rcases runMain_cases (cw := cw) _ io t hr es h with ⟨_, h, _⟩ | ⟨_, p0, h1, h2, h3, h4, ⟨_, _, h⟩ | ⟨s0, q, hst, ⟨stop, hd, _, rfl⟩ | ⟨hd, r, stop, hl, hc⟩⟩⟩
  · cases h
  · cases h
  · obtain ⟨_, _, _, _, d6, _⟩ := redraw_spec (cw := cw) _ io t _ (by rw [h1]; rfl) _ hd
    simp at d6
  simp only [FitApp.fitProgram, Option.some.injEq] at hst
  subst hst
  have ha0 : (soon cw t p0).alternate = true := by rw [h1]; rfl
  obtain ⟨⟨cs, d1, d2⟩, d3, d4, d5, d6, d7⟩ := redraw_spec (cw := cw) _ io t _ ha0 _ hd
  obtain ⟨d2, d8⟩ := d2 rfl
  simp only [FitApp.fitProgram, List.nil_append, Option.map_id'] at d8
  have ha : (soon cw t q).alternate = true := by rw [d1]; exact ha0
  have hwait : stop = .waiting state ∧ p = r := by
    rcases hc with ⟨s', rfl, h5, rfl⟩ | ⟨rfl, h5⟩ | ⟨h5, h6, _⟩
    · cases h5; exact ⟨rfl, rfl⟩
    · obtain ⟨_, k, _⟩ := runRestore_spec (cw := cw) io t r h5
      simp at k
    · rcases h5 with rfl | rfl <;> cases h6
  obtain ⟨rfl, rfl⟩ := hwait
  obtain ⟨cmds, rows, k1, k2, k3, k4⟩ := drawing_ok he hs hsk hm ht (width, height)
  rw [d8] at k1
  cases k1
  have hap : (soon cw t q).app = ({ t.user with cells := blankCells } : Tty).playApp cw cs := by rw [d1, h1]; rfl
  obtain ⟨k5, k6⟩ := k4 ({ t.user with cells := blankCells } : Tty) hr.pen (fun _ _ _ => rfl)
  obtain ⟨i1, i2, i3, i4, rows', i5, i6, i7⟩ := fit_loop he hs hsk hm ht io t es q [] (width, height) ho d2 ha (by rw [hap]; exact k5)
    ⟨rows, k2, by rw [hap]; exact k6, fun x y hn => by rw [hap, k6]; exact k3 x y hn⟩ hl
  obtain ⟨m1, _⟩ := loop_modes (cw := cw) _ io false t es q _ d2 ha hl
  rw [d1, h1, soon_flushed t i1] at m1
  rw [soon_flushed t i1] at i6 i7
  refine ⟨by rw [i2, d3, h2]; rfl, i3, i1, ⟨m1.alternate, m1.raw, by rw [m1.mouse]; exact hr.silent, m1.cursor⟩, m1.user, rows', i5, i6, ?_⟩
  intro x y hxy
  apply i7
  rintro ⟨i, j, hi, hj, rfl, rfl⟩
  simp only [pageArea] at hi hj hxy
  omega

/-- C96: when nothing fails, the application goes on until a key is hit, whatever the size of the terminal and the other events: it never panics. -/
theorem C96_alive (cw : Char → Nat) (ws : Char → Bool) {skin : Skin} {page : FitApp.Page} (he : cw '…' = 1) (hs : OneColumnSkin cw skin) (hsk : TidySkin skin)
    (hm : skin.paragraph.leftMargin = 0) (ht : FittableTexts cw ws page.texts) (width height : Nat) (torn : Nat × Nat → List AppCmd) (io : Answers)
    (hio : NoFailure io) (es : List PagerHappening) (hkeys : ∀ e ∈ es, ¬ IsKeyEvent e) :
    ∃ p state, runMain (FitApp.fitProgram cw ws skin page width height torn) io es = (p, .waiting state) := by
  let t : Terminal := { user := ⟨blankCells, 0, 0, {}⟩, app := ⟨blankCells, 0, 0, {}⟩ }
  obtain ⟨p, s, _, _, _, h, _⟩ := main_ok (width := width) (height := height) (torn := torn) he hs hsk hm ht hio (t := t) ⟨rfl, rfl, rfl, rfl, rfl⟩ es hkeys []
  exact ⟨p, s, by simpa using h s rfl⟩

/-- C96: when nothing fails and a key is hit, whatever this key, the application receives it and no event after it, ends, and the user gets back the screen and the modes of the
terminal as they were. -/
theorem C96_left (cw : Char → Nat) (ws : Char → Bool) {skin : Skin} {page : FitApp.Page} (he : cw '…' = 1) (hs : OneColumnSkin cw skin) (hsk : TidySkin skin)
    (hm : skin.paragraph.leftMargin = 0) (ht : FittableTexts cw ws page.texts) (width height : Nat) (torn : Nat × Nat → List AppCmd) (io : Answers)
    (hio : NoFailure io) {t : Terminal} (hr : AtRest t) (es : List PagerHappening) (hkeys : ∀ e ∈ es, ¬ IsKeyEvent e) (e : PagerHappening) (hk : IsKeyEvent e)
    (rest : List PagerHappening) :
    ∃ p, runMain (FitApp.fitProgram cw ws skin page width height torn) io (es ++ e :: rest) = (p, .left) ∧
      received p.trace = es ++ [e] ∧ p.buf = [] ∧ SameModes t (t.after cw p.trace) := by
  obtain ⟨p, s, h1, h2, _, _, h⟩ := main_ok (width := width) (height := height) (torn := torn) he hs hsk hm ht hio hr es hkeys (e :: rest)
  have hl : loop (FitApp.fitProgram cw ws skin page width height torn) io false p s (e :: rest) = (p.receive e, .left) := by
    unfold loop
    rw [if_pos]
    exact (key_iff e).2 hk
  have hmain := h _ hl
  generalize hx : runRestore (σ := List AppCmd × Nat × Nat) io (p.receive e) = x at hmain
  obtain ⟨p', st⟩ := x
  obtain ⟨k1, _, _, k4⟩ := runRestore_spec (cw := cw) io t _ hx
  have := k4 hio
  subst this
  obtain ⟨c1, c2, _⟩ := C84_ended cw _ io hr _ hmain
  refine ⟨p', hmain, ?_, c1, c2⟩
  rw [k1, (receive_spec (cw := cw) t h1 e).2.2.1, h2]

/-- C96: the application ends only with a key, and then, whatever failed before, the user gets back the screen and the modes of the terminal as they were. -/
theorem C96_ended (cw : Char → Nat) (ws : Char → Bool) {skin : Skin} {page : FitApp.Page} (width height : Nat) (torn : Nat × Nat → List AppCmd) (io : Answers)
    {t : Terminal} (hr : AtRest t) (es : List PagerHappening) {p : Proc PagerHappening}
    (h : runMain (FitApp.fitProgram cw ws skin page width height torn) io es = (p, .left)) :
    p.buf = [] ∧ SameModes t (t.after cw p.trace) ∧
      ∃ got e rest, es = got ++ e :: rest ∧ IsKeyEvent e ∧ (∀ e ∈ got, ¬ IsKeyEvent e) ∧ received p.trace = got ++ [e] := by
  obtain ⟨h1, h2, got, e, rest, h3, h4, h5, h6⟩ := C84_ended cw _ io hr es h
  refine ⟨h1, h2, got, e, rest, h3, (key_iff e).1 h4, fun e' he' hk => ?_, h6⟩
  have := h5 e' he'
  rw [show (FitApp.fitProgram cw ws skin page width height torn).quits e' = FitApp.breaks e'.1 from rfl, (key_iff e').2 hk] at this
  cases this

/-! Examples -/

/-- The skin of the application can be used, whatever the widths of characters, as soon as those of the skin have one column. -/
theorem C96_skin (cw : Char → Nat) (h : ∀ c ∈ " •▐―─│┌┐┘└┬┤┴├┼".toList, cw c = 1) :
    OneColumnSkin cw FitApp.makeSkin ∧ TidySkin FitApp.makeSkin ∧ FitApp.makeSkin.paragraph.leftMargin = 0 := by
  refine ⟨⟨h _ (by decide), h _ (by decide), h _ (by decide), h _ (by decide), ?_, ?_⟩, ?_, rfl⟩
  · intro c hc
    apply h
    revert c
    decide
  · intro c sc hc
    cases hc
  · refine ⟨.inl rfl, ?_, .inl rfl, .inl rfl, .inl rfl, .inl rfl, .inl rfl, .inl rfl, .inl rfl, .inl rfl, ?_⟩
    · intro i
      exact .inl (by revert i; decide)
    · intro c r hc
      cases hc

/-- A text without whitespace, which is thick. -/
theorem solid_thick {cw : Char → Nat} {ws : Char → Bool} {cs : List Compound}
    (h : ∀ c ∈ cs, (∀ ch ∈ c.src, cw ch ≤ 1) ∨ (∀ ch ∈ c.src, ws ch = false) ∧ 1 ≤ textWidth cw (interior c.src)) : ThickTokens cw ws cs := by
  intro c hc t ht hl hw
  rcases h c hc with h | ⟨h1, h2⟩
  · exact thin_thick ws (cs := [c]) (by simpa using h) c (by simp) t ht hl hw
  · obtain ⟨_, _, before, after, e, hb, ha⟩ := ht
    have hb' : before = [] := by
      cases hg : before.getLast? with
      | none => simpa using hg
      | some x =>
        have hx := h1 x (by rw [e]; simp [List.mem_of_getLast? hg])
        rw [hb x hg] at hx
        cases hx
    have ha' : after = [] := by
      cases hg : after.head? with
      | none => simpa using hg
      | some x =>
        have hx := h1 x (by rw [e]; simp [List.mem_of_head? hg])
        rw [ha x hg] at hx
        cases hx
    subst hb' ha'
    simp only [List.nil_append, List.append_nil] at e
    rw [← e]
    exact h2

/-- Ideographs and their punctuation have two columns. -/
def fitAppCw : Char → Nat := fun c => if 0x3000 ≤ c.toNat then 2 else 1

/-- The texts of the application, as they're parsed. -/
def fitAppPage : FitApp.Page where
  leftTitle := [⟨"Left align:".toList, { bold := true }⟩]
  autoTitle := [⟨"Auto (with internal ellisions):".toList, { bold := true }⟩]
  rightTitle := [⟨"Right align:".toList, { bold := true }⟩]
  centerTitle := [⟨"Center align:".toList, { bold := true }⟩]
  texts := [
    [⟨"This demo shows fitting without wrapping, with wide chars support: ".toList, {}⟩, ⟨"一曰道，二曰天".toList, { italic := true }⟩, ⟨".".toList, {}⟩],
    [⟨"Resize the terminal to see how markdown fitting works.".toList, {}⟩],
    [⟨"Hit ".toList, {}⟩, ⟨"any key".toList, { italic := true }⟩, ⟨" to quit.".toList, {}⟩],
    [⟨"some Code: ".toList, {}⟩, ⟨"fc.fill_width(width, align, skin);".toList, { code := true }⟩],
    [⟨"一曰道，二曰天，三曰地，四曰將，五曰法。".toList, {}⟩],
    [⟨"cp src/displayable_line.rs ../other_thing/src/displayable_stuff/line.rs".toList, { code := true }⟩],
    []]

/-- They can be fitted. -/
theorem fitAppPage_ok : FittableTexts fitAppCw fitWs fitAppPage.texts := by
  intro text h
  refine ⟨?_, solid_thick ?_⟩ <;> revert text <;> decide +kernel

/-- The hypotheses are met by the skin and the texts of the application: after a change of size, its screen of 20 columns and 12 rows has 12 rows. -/
example (c : Cells CompoundStyle) : ∃ p state rows,
    runMain (FitApp.fitProgram fitAppCw fitWs FitApp.makeSkin fitAppPage 80 24 (fun _ => [])) pagerFine [(.other, none), (.resize 20 12, some c)] = (p, .waiting state) ∧
    (pagerRest.after fitAppCw p.trace).app.cells = printSeen fitAppCw (stacked 0 rows) blankCells ∧ rows.length = 12 ∧ ∀ ps ∈ rows, piecesCols fitAppCw ps = 20 := by
  obtain ⟨h1, h2, h3⟩ := C96_skin fitAppCw (by decide)
  obtain ⟨p, state, h⟩ := C96_alive fitAppCw fitWs (by decide) h1 h2 h3 fitAppPage_ok 80 24 (fun _ => []) pagerFine pagerFine_fine
    [(.other, none), (.resize 20 12, some c)] (by simp [IsKeyEvent])
  obtain ⟨_, _, _, _, _, rows, r1, r2, _⟩ := C96_screen fitAppCw fitWs (by decide) h1 h2 h3 fitAppPage_ok 80 24 (fun _ => []) pagerFine pagerRest_rest
    [(.other, none), (.resize 20 12, some c)] (by
      intro e he hn
      simp only [List.mem_cons, List.not_mem_nil, or_false] at he
      rcases he with rfl | rfl
      · rfl
      · exact absurd rfl (hn 20 12)) h
  refine ⟨p, state, rows, h, r2, by rw [r1.1]; rfl, fun ps hps => ?_⟩
  obtain ⟨j, hj⟩ := List.mem_iff_getElem?.1 hps
  obtain ⟨_, _, _, _, h6⟩ := r1.2 j ps hj
  exact h6

/-- Some rows of a screen of 30 columns. -/
example : ((fitLines fitAppPage).map fun l => (FitApp.makeSkin.writeCompositeFill fitAppCw fitWs .paragraph l.1 30 l.2).map fun ps => String.ofList (piecesText ps))[1]? =
    some (some "This demo shows fitting witho…") ∧
  ((fitLines fitAppPage).map fun l => (FitApp.makeSkin.writeCompositeFill fitAppCw fitWs .paragraph l.1 30 l.2).map fun ps => String.ofList (piecesText ps))[19]? =
    some (some "          Hit any key to quit.") := by decide +kernel

/-- The hypotheses of C96_left, and so of C96_ended, are met: the up key leaves this application. -/
example : ∃ p : Proc PagerHappening, runMain (FitApp.fitProgram fitAppCw fitWs FitApp.makeSkin fitAppPage 80 24 (fun _ => [])) pagerFine
      [(.other, none), (.key .up, none), (.other, none)] = (p, .left) ∧ received p.trace = [(.other, none), (.key .up, none)] := by
  obtain ⟨h1, h2, h3⟩ := C96_skin fitAppCw (by decide)
  obtain ⟨p, h, h', _⟩ := C96_left fitAppCw fitWs (by decide) h1 h2 h3 fitAppPage_ok 80 24 (fun _ => []) pagerFine pagerFine_fine pagerRest_rest
    [(.other, none)] (by simp [IsKeyEvent]) (.key .up, none) ⟨_, rfl⟩ [(.other, none)]
  exact ⟨p, h, h'⟩

end Verif.Props
