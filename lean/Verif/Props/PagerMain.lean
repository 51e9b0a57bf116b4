import Verif.Spec.PagerMain
import Verif.Props.AppMain
/-! C84: the life of the application of `examples/scrollable` on a terminal. -/
namespace Verif.Props
open Verif Verif.Spec Verif.AppMain Verif.Pager

section
variable {σ ε : Type} {cw : Char → Nat} {ws : Char → Bool}

/-- The terminal in the modes of the pager, with nothing on its alternate screen. -/
def paging (t : Terminal) : Terminal := { t with alternate := true, app := { t.user with cells := blankCells }, raw := true, cursor := false }

/-- The first calls are done without errors. -/
def RunStartOk (io : Answers) : Prop := (∀ k, k < 2 → ∃ n, io.writes k = .ok n) ∧ io.raws 0 = true

theorem runMain_cases (prog : Program σ (Happening ε)) (io : Answers) (t : Terminal) (ht : AtRest t) (es : List (Happening ε))
    {p' : Proc (Happening ε)} {st : Stop σ} (h : runMain prog io es = (p', st)) :
    (¬ RunStartOk io ∧ st = .failed ∧ received p'.trace = []) ∨
    RunStartOk io ∧ ∃ p, soon cw t p = paging t ∧ received p.trace = [] ∧ p.writes = 2 ∧ p.raws = 1 ∧
      ((prog.start = none ∧ p' = p.abandon io ∧ st = .panicked) ∨
      ∃ s q, prog.start = some s ∧
        ((∃ stop, redraw prog io p s = (q, some stop) ∧ p' = q.abandon io ∧ st = stop) ∨
        redraw prog io p s = (q, none) ∧ ∃ r stop, loop prog io false q s es = (r, stop) ∧
          ((∃ s, stop = .waiting s ∧ st = .waiting s ∧ p' = r) ∨ (stop = .left ∧ runRestore io r = (p', st)) ∨
            ((stop = .failed ∨ stop = .panicked) ∧ st = stop ∧ p' = r.abandon io)))) := by
  unfold runMain at h
  dsimp only at h
  obtain ⟨a1, a2, a3, a4, a5⟩ := queue_spec (cw := cw) io t ({} : Proc (Happening ε)) (.control .enterAlternate)
  generalize ({} : Proc (Happening ε)).queue io (.control .enterAlternate) = a at h a1 a2 a3 a4 a5
  obtain ⟨a, fa⟩ := a
  dsimp only at h a1 a2 a3 a4 a5
  have hs0 : soon cw t ({} : Proc (Happening ε)) = t := rfl
  cases fa with
  | false =>
    simp only [Bool.false_eq_true, if_false] at h
    cases h
    exact .inl ⟨fun hk => absurd (a5.2 (hk.1 0 (by omega))) (by simp), rfl, by rw [(abandon_spec (cw := cw) io t a).2.1, a2]; rfl⟩
  | true =>
  simp only [if_true, hs0] at h a1
  obtain ⟨b1, b2, b3, b4, b5, b6⟩ := setRaw_spec (cw := cw) io t a true
  generalize a.setRaw io true = b at h b1 b2 b3 b4 b5 b6
  obtain ⟨b, fb⟩ := b
  dsimp only at h b1 b2 b3 b4 b5 b6
  cases fb with
  | false =>
    simp only [Bool.false_eq_true, if_false] at h
    cases h
    refine .inl ⟨fun hk => absurd (b6.2 ?_) (by simp), rfl, by rw [(abandon_spec (cw := cw) io t b).2.1, b2, a2]; rfl⟩
    rw [a4]
    exact hk.2
  | true =>
  simp only [if_true] at h b1
  obtain ⟨c1, c2, c3, c4, c5⟩ := queue_spec (cw := cw) io t b (.control .hideCursor)
  generalize b.queue io (.control .hideCursor) = c at h c1 c2 c3 c4 c5
  obtain ⟨c, fc⟩ := c
  dsimp only at h c1 c2 c3 c4 c5
  cases fc with
  | false =>
    simp only [Bool.false_eq_true, if_false] at h
    cases h
    refine .inl ⟨fun hk => absurd (c5.2 (hk.1 _ ?_)) (by simp), rfl, by rw [(abandon_spec (cw := cw) io t c).2.1, c2, b2, a2]; rfl⟩
    rw [b3, a3]
    decide
  | true =>
  simp only [if_true] at h c1
  have hcap : soon cw t c = paging t := by
    rw [c1, b1, a1]
    simp only [Terminal.exec, Terminal.control, ht.normal, Bool.false_eq_true, if_false, paging]
  have hrec : received c.trace = [] := by rw [c2, b2, a2]; rfl
  have hw : c.writes = 2 := by rw [c3, b3, a3]
  have hr : c.raws = 1 := by rw [c4, b4, a4]
  have hok : RunStartOk io := by
    refine ⟨fun k hk => ?_, ?_⟩
    · have : k = 0 ∨ k = 1 := by omega
      rcases this with rfl | rfl
      · exact a5.1 rfl
      · have := c5.1 rfl
        rwa [b3, a3] at this
    · have := b6.1 rfl
      rwa [a4] at this
  refine .inr ⟨hok, c, hcap, hrec, hw, hr, ?_⟩
  split at h
  · next hn =>
    cases h
    exact .inl ⟨hn, rfl, rfl⟩
  next s hs =>
  right
  split at h
  · next q stop hd =>
    cases h
    exact ⟨s, q, hs, .inl ⟨_, hd, rfl, rfl⟩⟩
  next q hd =>
  refine ⟨s, q, hs, .inr ⟨hd, ?_⟩⟩
  split at h
  · next r s' hl => cases h; exact ⟨_, _, hl, .inl ⟨s', rfl, rfl, rfl⟩⟩
  · next r hl => exact ⟨r, _, hl, .inr (.inl ⟨rfl, h⟩)⟩
  · next r hl => cases h; exact ⟨r, _, hl, .inr (.inr ⟨.inl rfl, rfl, rfl⟩)⟩
  · next r hl => cases h; exact ⟨r, _, hl, .inr (.inr ⟨.inr rfl, rfl, rfl⟩)⟩

theorem runRestore_spec (io : Answers) (t : Terminal) (p : Proc (Happening ε)) {p' : Proc (Happening ε)} {st : Stop σ}
    (h : runRestore io p = (p', st)) :
    received p'.trace = received p.trace ∧ (st = .left ∨ st = .failed) ∧
    (st = .left → p'.buf = [] ∧ soon cw t p' = { soon cw t p with cursor := true, raw := false, alternate := false }) ∧
    (NoFailure io → st = .left) := by
  unfold runRestore at h
  dsimp only at h
  obtain ⟨a1, a2, a3, a4, a5, a6⟩ := setRaw_spec (cw := cw) io t p false
  generalize p.setRaw io false = a at h a1 a2 a3 a4 a5 a6
  obtain ⟨a, fa⟩ := a
  dsimp only at h a1 a2 a3 a4 a5 a6
  cases fa with
  | false =>
    simp only [Bool.false_eq_true, if_false] at h
    cases h
    exact ⟨by rw [(abandon_spec (cw := cw) io t a).2.1, a2], .inr rfl, by simp, fun hn => absurd (a6.2 (hn.raws _)) (by simp)⟩
  | true =>
  simp only [if_true] at h a1
  obtain ⟨b1, b2, b3, b4, b5⟩ := queue_spec (cw := cw) io t a (.control .showCursor)
  generalize a.queue io (.control .showCursor) = b at h b1 b2 b3 b4 b5
  obtain ⟨b, fb⟩ := b
  dsimp only at h b1 b2 b3 b4 b5
  cases fb with
  | false =>
    simp only [Bool.false_eq_true, if_false] at h
    cases h
    exact ⟨by rw [(abandon_spec (cw := cw) io t b).2.1, b2, a2], .inr rfl, by simp, fun hn => absurd (b5.2 (hn.writes _)) (by simp)⟩
  | true =>
  simp only [if_true] at h b1
  obtain ⟨c1, c2, c3, c4, c5⟩ := queue_spec (cw := cw) io t b (.control .leaveAlternate)
  generalize b.queue io (.control .leaveAlternate) = c at h c1 c2 c3 c4 c5
  obtain ⟨c, fc⟩ := c
  dsimp only at h c1 c2 c3 c4 c5
  cases fc with
  | false =>
    simp only [Bool.false_eq_true, if_false] at h
    cases h
    exact ⟨by rw [(abandon_spec (cw := cw) io t c).2.1, c2, b2, a2], .inr rfl, by simp, fun hn => absurd (c5.2 (hn.writes _)) (by simp)⟩
  | true =>
  simp only [if_true] at h c1
  obtain ⟨d1, d2, d3, d4, d5, d6⟩ := flush_spec (cw := cw) io t c
  generalize c.flush io = d at h d1 d2 d3 d4 d5 d6
  obtain ⟨d, fd⟩ := d
  dsimp only at h d1 d2 d3 d4 d5 d6
  cases fd with
  | false =>
    simp only [Bool.false_eq_true, if_false] at h
    cases h
    exact ⟨by rw [(abandon_spec (cw := cw) io t d).2.1, d3, c2, b2, a2], .inr rfl, by simp, fun hn => absurd (d6.2 (hn.writes _)) (by simp)⟩
  | true =>
  simp only [if_true] at h
  cases h
  refine ⟨by rw [d3, c2, b2, a2], .inl rfl, fun _ => ⟨d2 rfl, ?_⟩, fun _ => rfl⟩
  rw [d1, c1, b1, a1]
  rfl

theorem breaks_iff (e : PagerHappening) : breaks e.1 = true ↔ LeavingKey e := by
  obtain ⟨e, o⟩ := e
  unfold LeavingKey Scrolls
  dsimp only
  constructor
  · intro h
    unfold breaks at h
    split at h <;> first | (simp at h; done) | skip
    next k h1 h2 h3 h4 => exact ⟨k, rfl, by rintro (rfl | rfl | rfl | rfl) <;> contradiction⟩
  · rintro ⟨k, rfl, hk⟩
    unfold breaks
    split <;> simp_all

theorem not_breaks {e : PagerHappening} (h : breaks e.1 = false) : ∀ k, e.1 = .key k → Scrolls k := by
  intro k hk
  apply Classical.byContradiction
  intro hn
  have := (breaks_iff e).2 ⟨k, hk, hn⟩
  rw [h] at this
  cases this

/-- The events with the cells after each change of size are those for which the terminal is the one of C78. -/
theorem pager_loop {mlines : List MLine} {skin : Skin} {width height : Nat} {torn : MadView → List AppCmd} (io : Answers) (t : Terminal) :
    ∀ (es : List PagerHappening) (p : Proc PagerHappening) (q : List AppCmd) (m : MadView) (t0 : Tty) (cmds : List AppCmd) {p' : Proc PagerHappening}
      {s' : List AppCmd × MadView}, OnlyResized es → p.buf = [] → (soon cw t p).alternate = true → Pager.draw cw ws m = some cmds →
      (soon cw t p).app = t0.playApp cw cmds →
      loop (pagerProgram cw ws mlines skin width height torn) io false p (q, m) es = (p', .waiting s') →
      ∃ es' : List (Event × Cells CompoundStyle), es'.map Prod.fst = es.map Prod.fst ∧ Spec.runApp cw ws t0 m es' = some ((soon cw t p').app, s'.2) ∧
        received p'.trace = received p.trace ++ es ∧ p'.buf = [] ∧ ∀ e ∈ es, breaks e.1 = false := by
  intro es
  induction es with
  | nil =>
    intro p q m t0 cmds p' s' _ hb ha hd hx h
    unfold loop at h
    simp only [Bool.false_eq_true, if_false, Prod.mk.injEq, Stop.waiting.injEq] at h
    obtain ⟨rfl, rfl⟩ := h
    exact ⟨[], rfl, by simp [Spec.runApp, hd, hx], by simp, hb, by simp⟩
  | cons e es ih =>
    intro p q m t0 cmds p' s' ho hb ha hd hx h
    unfold loop at h
    obtain ⟨r1, r2, r3, r4, r5⟩ := receive_spec (cw := cw) t hb e
    split at h
    · simp at h
    next hq =>
    have hq' : breaks e.1 = false := by simpa [pagerProgram] using hq
    cases hh : handle cw ws m e.1 with
    | none =>
      have : (pagerProgram cw ws mlines skin width height torn).apply (q, m) e = none := by simp [pagerProgram, hh]
      rw [this] at h
      simp at h
    | some nx =>
    cases nx with
    | none =>
      obtain ⟨k, hk, hn⟩ := (C78_quits cw ws m e.1).1 hh
      exact absurd (not_breaks hq' k hk) hn
    | some nx =>
    obtain ⟨more, m'⟩ := nx
    have : (pagerProgram cw ws mlines skin width height torn).apply (q, m) e = some ((more, m'), true) := by simp [pagerProgram, hh]
    rw [this] at h
    dsimp only at h
    split at h
    · next p1 hr =>
      have ha' : (soon cw t (p.receive e)).alternate = true := by rw [r1]; exact ha
      obtain ⟨⟨cs, d1, d2⟩, d3, d4, d5, d6, d7⟩ := redraw_spec (cw := cw) _ io t _ ha' _ hr
      obtain ⟨d2, d8⟩ := d2 rfl
      simp only [pagerProgram, Option.map_eq_some_iff] at d8
      obtain ⟨cmds', c1, c2⟩ := d8
      have hap : (soon cw t p1).app =
          (({ (t0.playApp cw cmds) with cells := e.2.getD (t0.playApp cw cmds).cells } : Tty).playApp cw more).playApp cw cmds' := by
        rw [d1, r1]
        simp only [drawn, ← c2, playApp_append, hx]
      obtain ⟨es', i1, i2, i3, i4, i5⟩ := ih p1 more m' _ cmds' (fun e' he' => ho e' (List.mem_cons_of_mem _ he')) d2 (by rw [d1]; exact ha') c1 hap h
      refine ⟨(e.1, e.2.getD (t0.playApp cw cmds).cells) :: es', by simp [i1], ?_, by rw [i3, d3, r3]; simp, i4, ?_⟩
      · simp only [Spec.runApp, hd, hh, Option.bind_eq_bind, Option.bind_some]
        rw [← i2]
        congr 2
        unfold Tty.disturbed
        split
        · rfl
        · next hne =>
          rw [ho e (by simp) (fun w h he => hne w h he)]
          rfl
      · intro e' he'
        rcases List.mem_cons.1 he' with rfl | he'
        · exact hq'
        · exact i5 e' he'
    · next p1 stop hr =>
      obtain ⟨_, _, _, _, d6, _⟩ := redraw_spec (cw := cw) _ io t _ (by rw [r1]; exact ha) _ hr
      simp only [Prod.mk.injEq] at h
      rw [h.2] at d6
      simp at d6

theorem shown_fold {count : Nat → Nat} : ∀ (es : List PagerHappening) (es' : List (Event × Cells CompoundStyle)) (s : Shown), es'.map Prod.fst = es.map Prod.fst →
    es'.foldl (fun s e => s.next count e.1) s = es.foldl (fun s e => s.next count e.1) s := by
  intro es es' s h
  rw [← List.foldl_map (f := Prod.fst) (g := fun s e => Shown.next count s e), ← List.foldl_map (f := Prod.fst) (g := fun s e => Shown.next count s e), h]

theorem good_draw {mlines : List MLine} {skin : Skin} {count : Nat → Nat} (hsk : TidySkin skin) (hk : OneColumnSkin cw skin)
    (ht : piecesCols cw skin.scrollbar.thumb.display = 1) (ht' : piecesCols cw skin.scrollbar.track.display = 1) {s : Shown} {m : MadView}
    (hg : GoodSize cw ws skin mlines count s.width s.height) (hs : s.scroll ≤ count s.textColumns) (hm : Shows mlines skin s m) :
    ∃ cmds, Pager.draw cw ws m = some cmds := by
  obtain ⟨text, h1, _, _⟩ := formatted hg
  obtain ⟨rows, r1, _⟩ := rows_ok hk ht ht' hg hs h1
  obtain ⟨cmds, c1, _⟩ := draw_ok hsk hk ht ht' hg hs hm h1 r1 ⟨blankCells, 0, 0, {}⟩ rfl (fun _ _ _ => rfl)
  exact ⟨cmds, c1⟩

theorem alive_redraw {mlines : List MLine} {skin : Skin} {width height : Nat} {torn : MadView → List AppCmd} {io : Answers} (hio : NoFailure io) (t : Terminal)
    {p : Proc PagerHappening} (ha : (soon cw t p).alternate = true) (q : List AppCmd) {m : MadView} {cmds : List AppCmd} (hd : Pager.draw cw ws m = some cmds) :
    ∃ p', redraw (pagerProgram cw ws mlines skin width height torn) io p (q, m) = (p', none) ∧ p'.buf = [] ∧ (soon cw t p').alternate = true ∧
      received p'.trace = received p.trace := by
  generalize hr : redraw (pagerProgram cw ws mlines skin width height torn) io p (q, m) = x
  obtain ⟨p', r⟩ := x
  obtain ⟨⟨cs, d1, d2⟩, d3, d4, d5, d6, d7⟩ := redraw_spec (cw := cw) _ io t _ ha _ hr
  rcases d7 hio.writes with ⟨_, hn⟩ | rfl
  · simp [pagerProgram, hd] at hn
  · exact ⟨p', rfl, (d2 rfl).1, by rw [d1]; exact ha, d3⟩

/-- When nothing fails, the loop goes on. -/
theorem alive_loop {mlines : List MLine} {skin : Skin} {count : Nat → Nat} (hsk : TidySkin skin) (hk : OneColumnSkin cw skin)
    (ht : piecesCols cw skin.scrollbar.thumb.display = 1) (ht' : piecesCols cw skin.scrollbar.track.display = 1) {width height : Nat} {torn : MadView → List AppCmd}
    {io : Answers} (hio : NoFailure io) (t : Terminal) : ∀ (es : List PagerHappening) (s : Shown) (p : Proc PagerHappening) (q : List AppCmd) (m : MadView),
    GoodSize cw ws skin mlines count s.width s.height → s.scroll ≤ count s.textColumns → Shows mlines skin s m → p.buf = [] → (soon cw t p).alternate = true →
    (∀ e ∈ es, ∀ w h, e.1 = .resize w h → GoodSize cw ws skin mlines count w h) → (∀ e ∈ es, ¬ LeavingKey e) →
    ∃ p' s', p'.buf = [] ∧ (soon cw t p').alternate = true ∧ received p'.trace = received p.trace ++ es ∧
      ∀ tail, loop (pagerProgram cw ws mlines skin width height torn) io false p (q, m) (es ++ tail) =
        loop (pagerProgram cw ws mlines skin width height torn) io false p' s' tail := by
  intro es
  induction es with
  | nil => intro s p q m _ _ _ hb ha _ _; exact ⟨p, (q, m), hb, ha, by simp, fun _ => rfl⟩
  | cons e es ih =>
    intro s p q m hg hs hm hb ha hes hkeys
    have hq : breaks e.1 = false := by
      cases hx : breaks e.1 with
      | false => rfl
      | true => exact absurd ((breaks_iff e).1 hx) (hkeys e (by simp))
    obtain ⟨more, m', k1, k2, k3, k4, _⟩ := handle_ok hg hs hm e.1 (not_breaks hq) (hes e (by simp))
    obtain ⟨r1, r2, r3, _⟩ := receive_spec (cw := cw) t hb e
    obtain ⟨cmds, hd⟩ := good_draw hsk hk ht ht' k3 k4 k2
    obtain ⟨p1, d1, d2, d3, d4⟩ := alive_redraw (mlines := mlines) (skin := skin) (width := width) (height := height) (torn := torn) hio t
      (p := p.receive e) (by rw [r1]; exact ha) more hd
    obtain ⟨p', s', i1, i2, i3, i4⟩ := ih _ p1 more m' k3 k4 k2 d2 d3 (fun e' he' => hes e' (List.mem_cons_of_mem _ he'))
      (fun e' he' => hkeys e' (List.mem_cons_of_mem _ he'))
    refine ⟨p', s', i1, i2, by rw [i3, d4, r3]; simp, fun tail => ?_⟩
    rw [← i4, List.cons_append]
    conv => lhs; unfold loop
    have h1 : (pagerProgram cw ws mlines skin width height torn).quits e = false := hq
    have h2 : (pagerProgram cw ws mlines skin width height torn).apply (q, m) e = some ((more, m'), true) := by simp [pagerProgram, k1]
    rw [h1, h2]
    simp only [Bool.false_eq_true, if_false, d1]

/-- The start of the application when nothing fails, before its loop. -/
theorem alive_start {mlines : List MLine} {skin : Skin} {count : Nat → Nat} (hsk : TidySkin skin) (hk : OneColumnSkin cw skin)
    (ht : piecesCols cw skin.scrollbar.thumb.display = 1) (ht' : piecesCols cw skin.scrollbar.track.display = 1) {width height : Nat} {torn : MadView → List AppCmd}
    (hg : GoodSize cw ws skin mlines count width height) {io : Answers} (hio : NoFailure io) {t : Terminal} (hr : AtRest t) (es : List PagerHappening)
    (hes : ∀ e ∈ es, ∀ w h, e.1 = .resize w h → GoodSize cw ws skin mlines count w h) (hkeys : ∀ e ∈ es, ¬ LeavingKey e) (tail : List PagerHappening) :
    ∃ p s, p.buf = [] ∧ received p.trace = es ∧ (soon cw t p).alternate = true ∧
      (∀ s', loop (pagerProgram cw ws mlines skin width height torn) io false p s tail = (p, .waiting s') →
        runMain (pagerProgram cw ws mlines skin width height torn) io (es ++ tail) = (p, .waiting s')) ∧
      (∀ q, loop (pagerProgram cw ws mlines skin width height torn) io false p s tail = (q, .left) →
        runMain (pagerProgram cw ws mlines skin width height torn) io (es ++ tail) = runRestore io q) := by
  generalize hx : runMain (pagerProgram cw ws mlines skin width height torn) io (es ++ tail) = x
  obtain ⟨px, st⟩ := x
  have hst : start mlines skin width height = some { mlines, area := Shown.area ⟨width, height, 0⟩, skin } := by
    simp only [start, viewArea_ok hg.small 0, Option.map_some]
  rcases runMain_cases (cw := cw) _ io t hr _ hx with ⟨hn, _⟩ | ⟨_, p0, h1, h2, h3, h4, hc⟩
  · exact absurd ⟨fun k _ => hio.writes k, hio.raws 0⟩ hn
  have hgood := good_draw hsk hk ht ht' (s := ⟨width, height, 0⟩) (m := { mlines, area := Shown.area ⟨width, height, 0⟩, skin }) hg (Nat.zero_le _) ⟨rfl, rfl, rfl, rfl⟩
  obtain ⟨cmds, hd⟩ := hgood
  obtain ⟨p1, d1, d2, d3, d4⟩ := alive_redraw (mlines := mlines) (skin := skin) (width := width) (height := height) (torn := torn) hio t
    (p := p0) (by rw [h1]; rfl) [] hd
  obtain ⟨p2, s2, i1, i2, i3, i4⟩ := alive_loop (mlines := mlines) (skin := skin) (width := width) (height := height) (torn := torn) hsk hk ht ht' hio t es
    ⟨width, height, 0⟩ p1 [] { mlines, area := Shown.area ⟨width, height, 0⟩, skin } hg (Nat.zero_le _) ⟨rfl, rfl, rfl, rfl⟩ d2 d3 hes hkeys
  have key : ∀ y, loop (pagerProgram cw ws mlines skin width height torn) io false p2 s2 tail = y →
      ∃ r stop, (r, stop) = y ∧ ((∃ s, stop = .waiting s ∧ st = .waiting s ∧ px = r) ∨ (stop = .left ∧ runRestore io r = (px, st)) ∨
            ((stop = .failed ∨ stop = .panicked) ∧ st = stop ∧ px = r.abandon io)) := by
    intro y hy
    rcases hc with ⟨hn, _⟩ | ⟨s0, q, hs, ⟨stop, hd', _⟩ | ⟨hd', r, stop, hl, hc⟩⟩
    · simp [pagerProgram, hst] at hn
    · simp only [pagerProgram, hst, Option.map_some, Option.some.injEq] at hs
      subst hs
      have := d1.symm.trans hd'
      simp at this
    · have hs' : s0 = ([], { mlines, area := Shown.area ⟨width, height, 0⟩, skin }) := by
        simp only [pagerProgram, hst, Option.map_some, Option.some.injEq] at hs
        exact hs.symm
      subst hs'
      have := d1.symm.trans hd'
      simp only [Prod.mk.injEq, and_true] at this
      subst this
      rw [i4] at hl
      exact ⟨r, stop, hl.symm.trans hy, hc⟩
  refine ⟨p2, s2, i1, by rw [i3, d4, h2]; rfl, i2, fun s' hy => ?_, fun q hy => ?_⟩
  · obtain ⟨r, stop, e, hc⟩ := key _ hy
    cases e
    rcases hc with ⟨s, h5, h6, rfl⟩ | ⟨h5, _⟩ | ⟨h5, _⟩
    · cases h5
      rw [h6]
    · cases h5
    · simp at h5
  · obtain ⟨r, stop, e, hc⟩ := key _ hy
    cases e
    rcases hc with ⟨s, h5, _⟩ | ⟨_, h5⟩ | ⟨h5, _⟩
    · cases h5
    · exact h5.symm
    · simp at h5

end

/-- C84: whatever the failures of the terminal and the events, as long as the application waits for an event: it received all of them, none of which is a key which leaves it, the
terminal is in the modes of the application, the screen of the user is kept, all that was written was sent, and the alternate screen shows exactly the text from the line
given by the events, for the size given by the last change of size, whatever was shown before. -/
theorem C84_screen (cw : Char → Nat) (ws : Char → Bool) {mlines : List MLine} {skin : Skin} (count : Nat → Nat) (hsk : TidySkin skin)
    (hk : OneColumnSkin cw skin) (ht : piecesCols cw skin.scrollbar.thumb.display = 1) (ht' : piecesCols cw skin.scrollbar.track.display = 1)
    {width height : Nat} (hg : GoodSize cw ws skin mlines count width height) (torn : MadView → List AppCmd) (io : Answers) {t : Terminal} (hr : AtRest t)
    (es : List PagerHappening) (hes : ∀ e ∈ es, ∀ w h, e.1 = .resize w h → GoodSize cw ws skin mlines count w h) (ho : OnlyResized es)
    {p : Proc PagerHappening} {state : List AppCmd × MadView}
    (h : runMain (pagerProgram cw ws mlines skin width height torn) io es = (p, .waiting state)) :
    received p.trace = es ∧ (∀ e ∈ es, ¬ LeavingKey e) ∧ p.buf = [] ∧ Paging (t.after cw p.trace) ∧ (t.after cw p.trace).user = t.user ∧
      let s := shownAfter count width height es
      ∃ text rows, FmtText.fromText cw ws skin mlines (some (s.textColumns - 1)) = some text ∧ text.lines.length = count s.textColumns ∧
        ({ area := s.area, lines := text.lines, scroll := s.scroll } : TextView).writeOn skin = some rows ∧
        (t.after cw p.trace).app.cells = printSeen cw (viewRows rows) blankCells ∧
        (∀ x y, InArea s.area x y → x < s.width ∧ y < s.height) ∧
        (∀ x y, ¬ InArea s.area x y → (t.after cw p.trace).app.cells x y = blankCells x y) := by
  rcases runMain_cases (cw := cw) _ io t hr es h with ⟨_, h, _⟩ | ⟨_, p0, h1, h2, h3, h4, ⟨_, _, h⟩ | ⟨s0, q, hs, ⟨stop, hd, _, rfl⟩ | ⟨hd, r, stop, hl, hc⟩⟩⟩
  · cases h
  · cases h
  · obtain ⟨_, _, _, _, d6, _⟩ := redraw_spec (cw := cw) _ io t _ (by rw [h1]; rfl) _ hd
    simp at d6
  have hst : start mlines skin width height = some { mlines, area := Shown.area ⟨width, height, 0⟩, skin } := by
    simp only [start, viewArea_ok hg.small 0, Option.map_some]
  simp only [pagerProgram, hst, Option.map_some, Option.some.injEq] at hs
  subst hs
  have ha0 : (soon cw t p0).alternate = true := by rw [h1]; rfl
  obtain ⟨⟨cs, d1, d2⟩, d3, d4, d5, d6, d7⟩ := redraw_spec (cw := cw) _ io t _ ha0 _ hd
  obtain ⟨d2, d8⟩ := d2 rfl
  simp only [pagerProgram, List.nil_append, Option.map_id'] at d8
  have ha : (soon cw t q).alternate = true := by rw [d1]; exact ha0
  have hwait : stop = .waiting state ∧ p = r := by
    rcases hc with ⟨s', rfl, h5, rfl⟩ | ⟨rfl, h5⟩ | ⟨h5, h6, _⟩
    · cases h5; exact ⟨rfl, rfl⟩
    · obtain ⟨_, k, _⟩ := runRestore_spec (cw := cw) io t r h5
      simp at k
    · rcases h5 with rfl | rfl <;> cases h6
  obtain ⟨rfl, rfl⟩ := hwait
  obtain ⟨es', i1, i2, i3, i4, i5⟩ := pager_loop (cw := cw) io t es q [] _ ({ t.user with cells := blankCells } : Tty) cs ho d2 ha d8 (by rw [d1, h1]; rfl) hl
  obtain ⟨m1, _⟩ := loop_modes (cw := cw) _ io false t es q _ d2 ha hl
  rw [d1, h1, soon_flushed t i4] at m1
  rw [soon_flushed t i4] at i2
  have hes' : ∀ e ∈ es', (∀ k, e.1 = .key k → Scrolls k) ∧ ∀ w h, e.1 = .resize w h → GoodSize cw ws skin mlines count w h := by
    intro e he
    have : e.1 ∈ es.map Prod.fst := by rw [← i1]; exact List.mem_map_of_mem he
    obtain ⟨e', he', hee⟩ := List.mem_map.1 this
    rw [← hee]
    exact ⟨not_breaks (i5 e' he'), hes e' he'⟩
  obtain ⟨t', m', r1, r2, r3, r4, r5⟩ := run_ok hsk hk ht ht' es' ⟨width, height, 0⟩ ({ t.user with cells := blankCells } : Tty)
    { mlines, area := Shown.area ⟨width, height, 0⟩, skin } hg (Nat.zero_le _) ⟨rfl, rfl, rfl, rfl⟩ hr.pen (fun _ _ _ => rfl) hes'
  rw [i2] at r1
  simp only [Option.some.injEq, Prod.mk.injEq] at r1
  rw [← r1.1] at r4 r5
  rw [shown_fold es es' _ i1] at r2 r3 r5
  refine ⟨by rw [i3, d3, h2]; rfl, fun e he hlk => ?_, i4, ⟨m1.alternate, m1.raw, by rw [m1.mouse]; exact hr.silent, m1.cursor⟩, m1.user, ?_⟩
  · have := i5 e he
    rw [(breaks_iff e).2 hlk] at this
    cases this
  obtain ⟨text, t1, t2, _⟩ := formatted r2
  obtain ⟨rows, w1, _⟩ := rows_ok hk ht ht' r2 r3 t1
  obtain ⟨c1, c2⟩ := r5 text rows t1 w1
  exact ⟨text, rows, t1, t2, w1, c1, fun x y h => shown_inside _ h, c2⟩

/-- C84: in whatever way it ends normally, errors having been possible before or not, the application restores the terminal. -/
theorem C84_ended {σ ε : Type} (cw : Char → Nat) (prog : Program σ (Happening ε)) (io : Answers) {t : Terminal} (ht : AtRest t) (es : List (Happening ε))
    {p : Proc (Happening ε)} (h : runMain prog io es = (p, .left)) :
    p.buf = [] ∧ SameModes t (t.after cw p.trace) ∧
      ∃ got e rest, es = got ++ e :: rest ∧ prog.quits e = true ∧ (∀ e ∈ got, prog.quits e = false) ∧ received p.trace = got ++ [e] := by
  rcases runMain_cases (cw := cw) _ io t ht es h with ⟨_, h, _⟩ | ⟨_, p0, h1, h2, h3, h4, ⟨_, _, h⟩ | ⟨s0, q, hs, ⟨stop, hd, _, rfl⟩ | ⟨hd, r, stop, hl, hc⟩⟩⟩
  · cases h
  · cases h
  · obtain ⟨_, _, _, _, d6, _⟩ := redraw_spec (cw := cw) _ io t _ (by rw [h1]; rfl) _ hd
    simp at d6
  have ha0 : (soon cw t p0).alternate = true := by rw [h1]; rfl
  obtain ⟨⟨cs, d1, d2⟩, d3, _⟩ := redraw_spec (cw := cw) _ io t _ ha0 _ hd
  have d2 := (d2 rfl).1
  have ha : (soon cw t q).alternate = true := by rw [d1]; exact ha0
  rcases hc with ⟨s', _, h5, _⟩ | ⟨rfl, h5⟩ | ⟨h5, h6, _⟩
  · cases h5
  · obtain ⟨k1, _, k3, _⟩ := runRestore_spec (cw := cw) io t r h5
    obtain ⟨k3, k4⟩ := k3 rfl
    obtain ⟨m1, _⟩ := loop_modes (cw := cw) _ io false t es q _ d2 ha hl
    obtain ⟨⟨got', rest', g1, g2, g3⟩, l2, _⟩ := loop_stop (cw := cw) _ io false t es q _ d2 ha hl
    rw [soon_flushed t k3] at k4
    rw [d1, h1] at m1
    rw [k4]
    refine ⟨k3, ⟨m1.user, ht.normal.symm, ht.cooked.symm, m1.mouse, ht.shown.symm⟩, ?_⟩
    rcases l2 rfl with ⟨hf, _⟩ | ⟨got, e, rest, e1, e2, e3⟩
    · cases hf
    · refine ⟨got, e, rest, e1, e2, ?_, by rw [k1, e3, d3, h2]; rfl⟩
      rw [g2, List.append_cancel_left_eq] at e3
      rw [e3, List.dropLast_concat] at g3
      exact g3
  · rcases h5 with rfl | rfl <;> cases h6

/-- C84: when nothing fails, the sizes are good, and no key leaves the application, it waits for the next event: it never ends by itself. -/
theorem C84_alive (cw : Char → Nat) (ws : Char → Bool) {mlines : List MLine} {skin : Skin} (count : Nat → Nat) (hsk : TidySkin skin)
    (hk : OneColumnSkin cw skin) (ht : piecesCols cw skin.scrollbar.thumb.display = 1) (ht' : piecesCols cw skin.scrollbar.track.display = 1)
    {width height : Nat} (hg : GoodSize cw ws skin mlines count width height) (torn : MadView → List AppCmd) (io : Answers) (hio : NoFailure io)
    (es : List PagerHappening) (hes : ∀ e ∈ es, ∀ w h, e.1 = .resize w h → GoodSize cw ws skin mlines count w h) (hkeys : ∀ e ∈ es, ¬ LeavingKey e) :
    ∃ p state, runMain (pagerProgram cw ws mlines skin width height torn) io es = (p, .waiting state) := by
  let t : Terminal := { user := ⟨blankCells, 0, 0, {}⟩, app := ⟨blankCells, 0, 0, {}⟩ }
  obtain ⟨p, s, _, _, _, h, _⟩ := alive_start (torn := torn) hsk hk ht ht' hg hio (t := t) ⟨rfl, rfl, rfl, rfl, rfl⟩ es hes hkeys []
  exact ⟨p, s, by simpa using h s rfl⟩

/-- C84: when nothing fails and a key which leaves the application is hit, it receives this key and no event after it, it ends, and the user gets back the screen and the modes
of the terminal as they were. -/
theorem C84_left (cw : Char → Nat) (ws : Char → Bool) {mlines : List MLine} {skin : Skin} (count : Nat → Nat) (hsk : TidySkin skin)
    (hk : OneColumnSkin cw skin) (ht : piecesCols cw skin.scrollbar.thumb.display = 1) (ht' : piecesCols cw skin.scrollbar.track.display = 1)
    {width height : Nat} (hg : GoodSize cw ws skin mlines count width height) (torn : MadView → List AppCmd) (io : Answers) (hio : NoFailure io) {t : Terminal} (hr : AtRest t)
    (es : List PagerHappening) (hes : ∀ e ∈ es, ∀ w h, e.1 = .resize w h → GoodSize cw ws skin mlines count w h) (hkeys : ∀ e ∈ es, ¬ LeavingKey e)
    (e : PagerHappening) (he : LeavingKey e) (rest : List PagerHappening) :
    ∃ p, runMain (pagerProgram cw ws mlines skin width height torn) io (es ++ e :: rest) = (p, .left) ∧
      received p.trace = es ++ [e] ∧ p.buf = [] ∧ SameModes t (t.after cw p.trace) := by
  obtain ⟨p, s, h1, h2, _, _, h⟩ := alive_start (torn := torn) hsk hk ht ht' hg hio hr es hes hkeys (e :: rest)
  have hl : loop (pagerProgram cw ws mlines skin width height torn) io false p s (e :: rest) = (p.receive e, .left) := by
    unfold loop
    rw [if_pos]
    exact (breaks_iff e).2 he
  have hm := h _ hl
  generalize hx : runRestore (σ := List AppCmd × MadView) io (p.receive e) = x at hm
  obtain ⟨p', st⟩ := x
  obtain ⟨_, _, _, k4⟩ := runRestore_spec (cw := cw) io t _ hx
  have := k4 hio
  subst this
  obtain ⟨c1, c2, got, e', rest', c3, c4, c5, c6⟩ := C84_ended cw _ io hr _ hm
  refine ⟨p', hm, ?_, c1, c2⟩
  obtain ⟨k1, _⟩ := runRestore_spec (cw := cw) io t _ hx
  rw [k1, (receive_spec (cw := cw) t h1 e).2.2.1, h2]

/-- C84: but an application which stops on an error or a panic before having received an event which leaves it doesn't restore the terminal: it's still in raw mode, and it's also on the
alternate screen and without cursor if what was written could at last be sent. -/
theorem C84_error {σ ε : Type} (cw : Char → Nat) (prog : Program σ (Happening ε)) (io : Answers) {t : Terminal} (ht : AtRest t) (es : List (Happening ε))
    {p : Proc (Happening ε)} {st : Stop σ} (h : runMain prog io es = (p, st)) (hst : st = .failed ∨ st = .panicked)
    (hstart : (∀ k, k < 2 → ∃ n, io.writes k = .ok n) ∧ io.raws 0 = true) (hgot : ∀ e ∈ received p.trace, prog.quits e = false) :
    (t.after cw p.trace).raw = true ∧ (p.buf = [] → Paging (t.after cw p.trace) ∧ (t.after cw p.trace).user = t.user) := by
  suffices hs : ∃ app, soon cw t p = { paging t with app } by
    obtain ⟨app, hs⟩ := hs
    refine ⟨by rw [← soon_raw, hs]; rfl, fun hb => ?_⟩
    rw [soon_flushed t hb] at hs
    rw [hs]
    exact ⟨⟨rfl, rfl, ht.silent, rfl⟩, rfl⟩
  rcases runMain_cases (cw := cw) _ io t ht es h with ⟨hn, _, _⟩ | ⟨_, p0, h1, h2, h3, h4, ⟨_, rfl, h⟩ | ⟨s0, q, hs, ⟨stop, hd, rfl, rfl⟩ | ⟨hd, r, stop, hl, hc⟩⟩⟩
  · exact absurd hstart hn
  · exact ⟨_, by rw [(abandon_spec (cw := cw) io t p0).1, h1]⟩
  · obtain ⟨⟨cs, d1, _⟩, _⟩ := redraw_spec (cw := cw) _ io t _ (by rw [h1]; rfl) _ hd
    exact ⟨_, by rw [(abandon_spec (cw := cw) io t q).1, d1, h1]; rfl⟩
  have ha0 : (soon cw t p0).alternate = true := by rw [h1]; rfl
  obtain ⟨⟨cs, d1, d2⟩, d3, _⟩ := redraw_spec (cw := cw) _ io t _ ha0 _ hd
  have d2 := (d2 rfl).1
  have ha : (soon cw t q).alternate = true := by rw [d1]; exact ha0
  obtain ⟨_, l2, _⟩ := loop_stop (cw := cw) _ io false t es q _ d2 ha hl
  rcases hc with ⟨s', _, rfl, _⟩ | ⟨rfl, h5⟩ | ⟨h5, h6, rfl⟩
  · simp at hst
  · obtain ⟨k1, _⟩ := runRestore_spec (cw := cw) io t r h5
    rcases l2 rfl with ⟨hf, _⟩ | ⟨got, e, rest, e1, e2, e3⟩
    · cases hf
    · have := hgot e (by rw [k1, e3]; simp)
      rw [e2] at this
      cases this
  · obtain ⟨m1, _⟩ := loop_modes (cw := cw) _ io false t es q _ d2 ha hl
    rw [d1, h1] at m1
    obtain ⟨e1, e2, e3, e4, e5⟩ := m1
    refine ⟨(soon cw t r).app, ?_⟩
    rw [(abandon_spec (cw := cw) io t r).1]
    generalize soon cw t r = x at e1 e2 e3 e4 e5
    obtain ⟨_, _, _, _, _, _⟩ := x
    dsimp only [drawn] at e1 e2 e3 e4 e5
    subst e1 e2 e3 e4 e5
    rfl

/-! Examples -/

/-- A terminal before the application is launched. -/
def pagerRest : Terminal := { user := ⟨fun _ _ => ({}, '$', 0), 3, 2, {}⟩, app := ⟨fun _ _ => ({}, 'z', 0), 0, 0, {}⟩ }

theorem pagerRest_rest : AtRest pagerRest := ⟨rfl, rfl, rfl, rfl, rfl⟩

/-- Answers without errors, the commands being sent by two. -/
def pagerFine : Answers := ⟨fun _ => .ok 2, fun _ => true⟩

theorem pagerFine_fine : NoFailure pagerFine := ⟨fun _ => ⟨2, rfl⟩, fun _ => rfl⟩

/-- Two pages down, then a higher terminal, whose cells are lost. -/
def pagerEvents (c : Cells CompoundStyle) : List PagerHappening := [(.key .pageDown, none), (.key .pageDown, none), (.other, none), (.resize 14 9, some c)]

theorem pagerEvents_sizes (c : Cells CompoundStyle) : ∀ e ∈ pagerEvents c, ∀ w h, e.1 = .resize w h →
    GoodSize renderCw (· == ' ') renderSkin exText (fun _ => 11) w h := by
  intro e he
  simp only [pagerEvents, List.mem_cons, List.not_mem_nil, or_false] at he
  rcases he with rfl | rfl | rfl | rfl <;> simp (config := { contextual := true })
  exact exText_good14 9 (by decide) (by decide)

theorem pagerEvents_keys (c : Cells CompoundStyle) : ∀ e ∈ pagerEvents c, ¬ LeavingKey e := by
  intro e he
  simp only [pagerEvents, List.mem_cons, List.not_mem_nil, or_false] at he
  rcases he with rfl | rfl | rfl | rfl <;> simp [LeavingKey, Scrolls]

/-- The hypotheses of C84_alive and C84_screen are met, whatever the cells left by the change of size: the 9 rows of the screen are those of the text from its seventh line. -/
example (c : Cells CompoundStyle) : ∃ p state rows, runMain (pagerProgram renderCw (· == ' ') exText renderSkin 14 5 (fun _ => [])) pagerFine (pagerEvents c) = (p, .waiting state) ∧
    (shownAfter (fun _ => 11) 14 5 (pagerEvents c)).scroll = 6 ∧ (pagerRest.after renderCw p.trace).app.cells = printSeen renderCw (viewRows rows) blankCells := by
  obtain ⟨p, state, h⟩ := C84_alive renderCw (· == ' ') (fun _ => 11) renderSkin_tidy renderSkin_one (by decide) (by decide)
    (exText_good14 5 (by decide) (by decide)) (fun _ => []) pagerFine pagerFine_fine (pagerEvents c) (pagerEvents_sizes c) (pagerEvents_keys c)
  have ho : OnlyResized (pagerEvents c) := by
    intro e he hn
    simp only [pagerEvents, List.mem_cons, List.not_mem_nil, or_false] at he
    rcases he with rfl | rfl | rfl | rfl <;> first | rfl | exact absurd rfl (hn 14 9)
  obtain ⟨_, _, _, _, _, text, rows, _, _, _, h5, _⟩ := C84_screen renderCw (· == ' ') (fun _ => 11) renderSkin_tidy renderSkin_one (by decide) (by decide)
    (exText_good14 5 (by decide) (by decide)) (fun _ => []) pagerFine pagerRest_rest (pagerEvents c) (pagerEvents_sizes c) ho h
  exact ⟨p, state, rows, h, rfl, h5⟩

/-- The hypotheses of C84_left, and so of C84_ended, are met: the `q` key leaves the application. -/
example (c : Cells CompoundStyle) : ∃ p, runMain (pagerProgram renderCw (· == ' ') exText renderSkin 14 5 (fun _ => [])) pagerFine
      (pagerEvents c ++ (.key (.char 'q'), none) :: [(.key .up, none)]) = (p, .left) ∧ received p.trace = pagerEvents c ++ [(.key (.char 'q'), none)] := by
  obtain ⟨p, h1, h2, _⟩ := C84_left renderCw (· == ' ') (fun _ => 11) renderSkin_tidy renderSkin_one (by decide) (by decide)
    (exText_good14 5 (by decide) (by decide)) (fun _ => []) pagerFine pagerFine_fine pagerRest_rest (pagerEvents c) (pagerEvents_sizes c) (pagerEvents_keys c)
    (.key (.char 'q'), none) ⟨_, rfl, by simp [Scrolls]⟩ [(.key .up, none)]
  exact ⟨p, h1, h2⟩

/-- C84: an error of the writer at the first drawing, all calls being good before and after, leaves the terminal of the user in raw mode, on the alternate screen, without cursor. -/
theorem C84_error_counterexample : ∃ (io : Answers) (p : Proc PagerHappening), (∀ k, k ≠ 2 → ∃ n, io.writes k = .ok n) ∧ (∀ k, io.raws k = true) ∧
    runMain (pagerProgram renderCw (· == ' ') exText renderSkin 14 5 (fun _ => [])) io [(.key (.char 'q'), none)] = (p, .failed) ∧ p.buf = [] ∧
    Paging (pagerRest.after renderCw p.trace) := by
  let io : Answers := ⟨fun k => if k = 2 then .fail 0 else .ok 0, fun _ => true⟩
  refine ⟨io, (runMain (pagerProgram renderCw (· == ' ') exText renderSkin 14 5 (fun _ => [])) io [(.key (.char 'q'), none)]).1, fun k hk => ⟨0, if_neg hk⟩, fun _ => rfl,
    ?_, by decide +kernel, ⟨by decide +kernel, by decide +kernel, by decide +kernel, by decide +kernel⟩⟩
  rw [Prod.ext_iff]
  refine ⟨rfl, ?_⟩
  have h : (match (runMain (pagerProgram renderCw (· == ' ') exText renderSkin 14 5 (fun _ => [])) io [((.key (.char 'q'), none) : PagerHappening)]).2 with
    | .failed => true
    | _ => false) = true := by decide +kernel
  split at h
  · next hf => exact hf
  · cases h

end Verif.Props
