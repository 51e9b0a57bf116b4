import Verif.Spec.AppMain
import Verif.Props.Pager
/-! C82: the life of an application on a terminal. -/
namespace Verif.Props
open Verif Verif.Spec Verif.AppMain

section
variable {σ ε : Type} {cw : Char → Nat}

theorem after_append (t : Terminal) (a b : List (Item (Happening ε))) : t.after cw (a ++ b) = (t.after cw a).after cw b := by
  simp [Terminal.after]

/-- The terminal when it will have received what is in the buffer. -/
def soon (cw : Char → Nat) (t : Terminal) (p : Proc (Happening ε)) : Terminal := t.after cw (p.trace ++ p.buf.map .out)

theorem soon_flushed (t : Terminal) {p : Proc (Happening ε)} (h : p.buf = []) : soon cw t p = t.after cw p.trace := by
  simp [soon, h]

theorem received_append {α : Type} (a b : List (Item α)) : received (a ++ b) = received a ++ received b := by
  induction a with
  | nil => rfl
  | cons i a ih => cases i <;> simp [received, ih]

theorem received_outs {α : Type} (cs : List OutCmd) : received (cs.map (Item.out (ε := α))) = [] := by
  induction cs with
  | nil => rfl
  | cons c cs ih => exact ih

theorem deliver_soon (t : Terminal) (p : Proc (Happening ε)) (n : Nat) : soon cw t (p.deliver n) = soon cw t p := by
  simp only [soon, Proc.deliver, List.append_assoc, ← List.map_append, List.take_append_drop]

theorem deliver_received (p : Proc (Happening ε)) (n : Nat) : received (p.deliver n).trace = received p.trace := by
  simp only [Proc.deliver, received_append, received_outs, List.append_nil]

theorem queue_spec (io : Answers) (t : Terminal) (p : Proc (Happening ε)) (c : OutCmd) :
    soon cw t (p.queue io c).1 = (if (p.queue io c).2 then (soon cw t p).exec cw c else soon cw t p) ∧
    received (p.queue io c).1.trace = received p.trace ∧ (p.queue io c).1.writes = p.writes + 1 ∧ (p.queue io c).1.raws = p.raws ∧
    ((p.queue io c).2 = true ↔ ∃ n, io.writes p.writes = .ok n) := by
  unfold Proc.queue
  cases io.writes p.writes with
  | ok n =>
    refine ⟨?_, deliver_received _ _, rfl, rfl, by simp⟩
    rw [deliver_soon]
    simp only [soon, List.map_append, ← List.append_assoc, after_append, if_true]
    rfl
  | fail n => exact ⟨by rw [deliver_soon]; rfl, deliver_received _ _, rfl, rfl, by simp⟩

theorem flush_spec (io : Answers) (t : Terminal) (p : Proc (Happening ε)) :
    soon cw t (p.flush io).1 = soon cw t p ∧ ((p.flush io).2 = true → (p.flush io).1.buf = []) ∧
    received (p.flush io).1.trace = received p.trace ∧ (p.flush io).1.writes = p.writes + 1 ∧ (p.flush io).1.raws = p.raws ∧
    ((p.flush io).2 = true ↔ ∃ n, io.writes p.writes = .ok n) := by
  unfold Proc.flush
  cases io.writes p.writes with
  | ok n => exact ⟨deliver_soon _ _ _, fun _ => by simp [Proc.deliver], deliver_received _ _, rfl, rfl, by simp⟩
  | fail n => exact ⟨deliver_soon _ _ _, fun h => by simp at h, deliver_received _ _, rfl, rfl, by simp⟩

/-- Commands don't depend on the raw mode. -/
theorem exec_raw (t : Terminal) (c : OutCmd) (b : Bool) : ({ t with raw := b } : Terminal).exec cw c = { t.exec cw c with raw := b } := by
  cases c with
  | control c =>
    cases c <;> simp only [Terminal.exec, Terminal.control] <;> split <;> rfl
  | app c => simp only [Terminal.exec]; split <;> rfl

theorem outs_raw (cs : List OutCmd) (t : Terminal) (b : Bool) :
    ({ t with raw := b } : Terminal).after cw (cs.map (Item.out (ε := Happening ε))) = { t.after cw (cs.map (Item.out (ε := Happening ε))) with raw := b } := by
  induction cs generalizing t with
  | nil => rfl
  | cons c cs ih =>
    show (({ t with raw := b } : Terminal).exec cw c).after cw _ = _
    rw [exec_raw, ih]
    rfl

theorem setRaw_spec (io : Answers) (t : Terminal) (p : Proc (Happening ε)) (b : Bool) :
    soon cw t (p.setRaw io b).1 = (if (p.setRaw io b).2 then { soon cw t p with raw := b } else soon cw t p) ∧
    received (p.setRaw io b).1.trace = received p.trace ∧ (p.setRaw io b).1.writes = p.writes ∧ (p.setRaw io b).1.raws = p.raws + 1 ∧
    (p.setRaw io b).1.buf = p.buf ∧ ((p.setRaw io b).2 = true ↔ io.raws p.raws = true) := by
  unfold Proc.setRaw
  split
  · next h =>
    refine ⟨?_, by simp [received_append, received], rfl, rfl, rfl, by simp [h]⟩
    simp only [soon, after_append, if_true]
    show ({ t.after cw p.trace with raw := b } : Terminal).after cw (p.buf.map Item.out) = _
    rw [outs_raw]
  · next h => exact ⟨rfl, rfl, rfl, rfl, rfl, by simp [h]⟩

/-- What the application draws goes to the alternate screen. -/
def drawn (cw : Char → Nat) (t : Terminal) (cs : List AppCmd) : Terminal := { t with app := t.app.playApp cw cs }

theorem drawn_cons {t : Terminal} (ht : t.alternate = true) (c : AppCmd) (cs : List AppCmd) : drawn cw (t.exec cw (.app c)) cs = drawn cw t (c :: cs) := by
  simp only [drawn, Terminal.exec, ht, if_true]
  rfl

theorem queueAll_spec (io : Answers) (t : Terminal) : ∀ (cmds : List AppCmd) (p : Proc (Happening ε)), (soon cw t p).alternate = true →
    ∃ cs, soon cw t (p.queueAll io cmds).1 = drawn cw (soon cw t p) cs ∧ ((p.queueAll io cmds).2 = true → cs = cmds) ∧
      received (p.queueAll io cmds).1.trace = received p.trace ∧ (p.queueAll io cmds).1.raws = p.raws ∧
      p.writes ≤ (p.queueAll io cmds).1.writes ∧ ((∀ k, ∃ n, io.writes k = .ok n) → (p.queueAll io cmds).2 = true) := by
  intro cmds
  induction cmds with
  | nil => intro p _; exact ⟨[], rfl, fun _ => rfl, rfl, rfl, Nat.le_refl _, fun _ => rfl⟩
  | cons c cmds ih =>
    intro p ha
    obtain ⟨q1, q2, q3, q4, q5⟩ := queue_spec (cw := cw) io t p (.app c)
    unfold Proc.queueAll
    split
    · next hq =>
      rw [if_pos hq] at q1
      obtain ⟨cs, i1, i2, i3, i4, i5, i6⟩ := ih (p.queue io (.app c)).1 (by rw [q1]; simp only [Terminal.exec, ha, if_true])
      rw [q1, drawn_cons ha] at i1
      exact ⟨c :: cs, i1, fun h => by rw [i2 h], by rw [i3, q2], by rw [i4, q4], by omega, i6⟩
    · next hq =>
      rw [if_neg hq] at q1
      exact ⟨[], q1, fun h => by simp at h, q2, q4, by dsimp only; omega, fun h => absurd (q5.2 (h _)) hq⟩

theorem redraw_spec (prog : Program σ (Happening ε)) (io : Answers) (t : Terminal) (p : Proc (Happening ε)) (ha : (soon cw t p).alternate = true) (s : σ)
    {p' : Proc (Happening ε)} {r : Option (Stop σ)} (h : redraw prog io p s = (p', r)) :
    (∃ cs, soon cw t p' = drawn cw (soon cw t p) cs ∧ (r = none → p'.buf = [] ∧ prog.draw s = some cs)) ∧
    received p'.trace = received p.trace ∧ p'.raws = p.raws ∧ p.writes ≤ p'.writes ∧ (r = none ∨ r = some .failed ∨ r = some .panicked ∧ prog.draw s = none) ∧
    ((∀ k, ∃ n, io.writes k = .ok n) → r = some .panicked ∧ prog.draw s = none ∨ r = none) := by
  unfold redraw at h
  split at h
  · next hd =>
    obtain ⟨cs, i1, i2, i3, i4, i5, i6⟩ := queueAll_spec (cw := cw) io t (prog.torn s) p ha
    split at h
    · obtain ⟨rfl, rfl⟩ := Prod.mk.inj h
      exact ⟨⟨cs, i1, fun h => by simp at h⟩, i3, i4, i5, .inr (.inr ⟨rfl, hd⟩), fun _ => .inl ⟨rfl, hd⟩⟩
    · next hq =>
      obtain ⟨rfl, rfl⟩ := Prod.mk.inj h
      exact ⟨⟨cs, i1, fun h => by simp at h⟩, i3, i4, i5, .inr (.inl rfl), fun h => absurd (i6 h) hq⟩
  · next cmds hd =>
    obtain ⟨cs, i1, i2, i3, i4, i5, i6⟩ := queueAll_spec (cw := cw) io t cmds p ha
    split at h
    · next hq =>
      cases i2 hq
      obtain ⟨f1, f2, f3, f4, f5, f6⟩ := flush_spec (cw := cw) io t (p.queueAll io cmds).1
      split at h
      · next hf =>
        obtain ⟨rfl, rfl⟩ := Prod.mk.inj h
        exact ⟨⟨cmds, by rw [f1, i1], fun _ => ⟨f2 hf, hd⟩⟩, by rw [f3, i3], by rw [f5, i4], by omega, .inl rfl, fun _ => .inr rfl⟩
      · next hf =>
        obtain ⟨rfl, rfl⟩ := Prod.mk.inj h
        exact ⟨⟨cmds, by rw [f1, i1], fun h => by simp at h⟩, by rw [f3, i3], by rw [f5, i4], by omega, .inr (.inl rfl), fun h => absurd (f6.2 (h _)) hf⟩
    · next hq =>
      obtain ⟨rfl, rfl⟩ := Prod.mk.inj h
      exact ⟨⟨cs, i1, fun h => by simp at h⟩, i3, i4, i5, .inr (.inl rfl), fun h => absurd (i6 h) hq⟩

theorem receive_spec (t : Terminal) {p : Proc (Happening ε)} (hb : p.buf = []) (e : Happening ε) :
    soon cw t (p.receive e) = { soon cw t p with app := { (soon cw t p).app with cells := e.2.getD (soon cw t p).app.cells } } ∧
    (p.receive e).buf = [] ∧ received (p.receive e).trace = received p.trace ++ [e] ∧ (p.receive e).writes = p.writes ∧ (p.receive e).raws = p.raws := by
  refine ⟨?_, hb, by simp [Proc.receive, received_append, received], rfl, rfl⟩
  rw [soon_flushed t (show (p.receive e).buf = [] from hb), soon_flushed t hb]
  simp only [Proc.receive, after_append]
  rfl

theorem stateAfter_none (prog : Program σ ε) (es : List ε) : stateAfter prog none es = none := by
  induction es with
  | nil => rfl
  | cons e es ih => exact ih

theorem stateAfter_append (prog : Program σ ε) (s : Run σ) (a b : List ε) : stateAfter prog s (a ++ b) = stateAfter prog (stateAfter prog s a) b := by
  induction a generalizing s with
  | nil => rfl
  | cons e a ih => exact ih _

theorem unused_append {prog : Program σ ε} {es : List ε} : ∀ {s s' s'' : σ} {e : ε}, Unused prog s es → stateAfter prog (some s) es = some s' →
    prog.apply s' e = some (s'', false) → Unused prog s (es ++ [e]) := by
  induction es with
  | nil =>
    intro s s' s'' e _ h1 h2
    cases h1
    exact ⟨s'', h2, trivial⟩
  | cons a es ih =>
    rintro s s' s'' e ⟨s1, h1, h2⟩ h3 h4
    simp only [stateAfter, Option.bind_some, h1, Option.map_some] at h3
    exact ⟨s1, h1, ih h2 h3 h4⟩

theorem loop_modes (prog : Program σ (Happening ε)) (io : Answers) (closed : Bool) (t : Terminal) : ∀ (es : List (Happening ε)) (p : Proc (Happening ε)) (s : σ)
    {p' : Proc (Happening ε)} {stop : Stop σ}, p.buf = [] → (soon cw t p).alternate = true → loop prog io closed p s es = (p', stop) →
    SameModes (soon cw t p) (soon cw t p') ∧ p'.raws = p.raws ∧ p.writes ≤ p'.writes := by
  intro es
  induction es with
  | nil =>
    intro p s p' stop hb ha h
    unfold loop at h
    split at h <;> cases h <;> exact ⟨⟨rfl, rfl, rfl, rfl, rfl⟩, rfl, Nat.le_refl _⟩
  | cons e es ih =>
    intro p s p' stop hb ha h
    obtain ⟨r1, r2, r3, r4, r5⟩ := receive_spec (cw := cw) t hb e
    have hsame : SameModes (soon cw t p) (soon cw t (p.receive e)) := by rw [r1]; exact ⟨rfl, rfl, rfl, rfl, rfl⟩
    have hra : (soon cw t (p.receive e)).alternate = true := by rw [hsame.alternate, ha]
    have trans : ∀ {a b c : Terminal}, SameModes a b → SameModes b c → SameModes a c := fun h k =>
      ⟨k.user.trans h.user, k.alternate.trans h.alternate, k.raw.trans h.raw, k.mouse.trans h.mouse, k.cursor.trans h.cursor⟩
    unfold loop at h
    split at h
    · cases h; exact ⟨hsame, r5, by omega⟩
    split at h
    · cases h; exact ⟨hsame, r5, by omega⟩
    · obtain ⟨a, b, c⟩ := ih _ _ r2 hra h
      exact ⟨trans hsame a, by omega, by omega⟩
    · next s' _ =>
      split at h
      · next p1 hr =>
        obtain ⟨⟨cs, d1, d2⟩, d3, d4, d5, d6⟩ := redraw_spec (cw := cw) prog io t _ hra _ hr
        have hs1 : SameModes (soon cw t (p.receive e)) (soon cw t p1) := by rw [d1]; exact ⟨rfl, rfl, rfl, rfl, rfl⟩
        obtain ⟨a, b, c⟩ := ih _ _ (d2 rfl).1 (by rw [hs1.alternate, hra]) h
        exact ⟨trans hsame (trans hs1 a), by omega, by omega⟩
      · next p1 st hr =>
        obtain ⟨⟨cs, d1, d2⟩, d3, d4, d5, d6⟩ := redraw_spec (cw := cw) prog io t _ hra _ hr
        cases h
        have hs1 : SameModes (soon cw t (p.receive e)) (soon cw t p') := by rw [d1]; exact ⟨rfl, rfl, rfl, rfl, rfl⟩
        exact ⟨trans hsame hs1, by omega, by omega⟩

theorem loop_waiting (prog : Program σ (Happening ε)) (io : Answers) (closed : Bool) (t : Terminal) : ∀ (es hist : List (Happening ε)) (p : Proc (Happening ε)) (s : σ)
    {p' : Proc (Happening ε)} {s' : σ}, CleanDrawings cw prog (hist ++ es) → p.buf = [] → (soon cw t p).alternate = true → (soon cw t p).app.pen = {} →
    stateAfter prog prog.start hist = some s → ShowsLast cw prog hist (soon cw t p).app → received p.trace = hist →
    loop prog io closed p s es = (p', .waiting s') →
    closed = false ∧ (∀ e ∈ es, prog.quits e = false) ∧ stateAfter prog prog.start (hist ++ es) = some s' ∧ received p'.trace = hist ++ es ∧ p'.buf = [] ∧
      ShowsLast cw prog (hist ++ es) (soon cw t p').app := by
  intro es
  induction es with
  | nil =>
    intro hist p s p' s' _ hb ha hp hs hl hr h
    unfold loop at h
    split at h
    · simp at h
    · next hc =>
      simp only [Prod.mk.injEq, Stop.waiting.injEq] at h
      obtain ⟨rfl, rfl⟩ := h
      rw [List.append_nil]
      exact ⟨by simpa using hc, by simp, hs, hr, hb, hl⟩
  | cons e es ih =>
    intro hist p s p' s' hclean hb ha hp hs hl hr h
    obtain ⟨r1, r2, r3, r4, r5⟩ := receive_spec (cw := cw) t hb e
    have hra : (soon cw t (p.receive e)).alternate = true := by rw [r1]; exact ha
    have hrp : (soon cw t (p.receive e)).app.pen = {} := by rw [r1]; exact hp
    have ecat : hist ++ e :: es = (hist ++ [e]) ++ es := by simp
    unfold loop at h
    split at h
    · simp at h
    next hq =>
    have hq' : prog.quits e = false := by simpa using hq
    split at h
    · simp at h
    · next s1 h1 =>
      have hs1 : stateAfter prog prog.start (hist ++ [e]) = some s1 := by
        rw [stateAfter_append, hs]
        simp only [stateAfter, Option.bind_some, h1, Option.map_some]
      obtain ⟨a1, a2, a3, a4, a5, a6⟩ := ih (hist ++ [e]) _ _ (by rw [← ecat]; exact hclean) r2 hra hrp hs1 (by
        obtain ⟨pre, post, sd, cmds, before, rfl, b2, b3, b4, b5, b6⟩ := hl
        refine ⟨pre, post ++ [e], sd, cmds, before, by simp, b2, b3, ?_, b5, ?_⟩
        · rw [stateAfter_append, b2] at hs
          exact unused_append b4 hs h1
        · intro hn
          rw [r1, hn e (by simp)]
          exact b6 (fun u hu => hn u (by simp [hu]))) (by rw [r3, hr]) h
      rw [ecat]
      exact ⟨a1, by simpa [hq'] using a2, a3, a4, a5, a6⟩
    · next s1 h1 =>
      have hs1 : stateAfter prog prog.start (hist ++ [e]) = some s1 := by
        rw [stateAfter_append, hs]
        simp only [stateAfter, Option.bind_some, h1, Option.map_some]
      split at h
      · next p1 hrd =>
        obtain ⟨⟨cs, d1, d2⟩, d3, d4, d5, d6⟩ := redraw_spec (cw := cw) prog io t _ hra _ hrd
        obtain ⟨d2, d7⟩ := d2 rfl
        obtain ⟨a1, a2, a3, a4, a5, a6⟩ := ih (hist ++ [e]) _ _ (by rw [← ecat]; exact hclean) d2 (by rw [d1]; exact hra)
          (by rw [d1]; exact hclean (hist ++ [e]) ⟨es, by simp⟩ _ hs1 _ d7 _ hrp) hs1
          ⟨hist ++ [e], [], s1, cs, (soon cw t (p.receive e)).app, by simp, hs1, d7, trivial, hrp, fun _ => by rw [d1]; rfl⟩ (by rw [d3, r3, hr]) h
        rw [ecat]
        exact ⟨a1, by simpa [hq'] using a2, a3, a4, a5, a6⟩
      · next p1 st hrd =>
        obtain ⟨_, _, _, _, d6, _⟩ := redraw_spec (cw := cw) prog io t _ hra _ hrd
        simp only [Prod.mk.injEq] at h
        rw [h.2] at d6
        simp at d6

/-- Everything but the raw mode is the same. -/
structure SameButRaw (t t' : Terminal) : Prop where
  user : t'.user = t.user
  alternate : t'.alternate = t.alternate
  mouse : t'.mouse = t.mouse
  cursor : t'.cursor = t.cursor

/-- The application panics before its first turn. -/
def EarlyPanic (prog : Program σ ε) : Prop := prog.start.bind prog.draw = none

theorem loop_stop (prog : Program σ (Happening ε)) (io : Answers) (closed : Bool) (t : Terminal) : ∀ (es : List (Happening ε)) (p : Proc (Happening ε)) (s : σ)
    {p' : Proc (Happening ε)} {stop : Stop σ}, p.buf = [] → (soon cw t p).alternate = true → loop prog io closed p s es = (p', stop) →
    (∃ got rest, es = got ++ rest ∧ received p'.trace = received p.trace ++ got ∧ ∀ e ∈ got.dropLast, prog.quits e = false) ∧
    (stop = .left → closed = true ∧ received p'.trace = received p.trace ++ es ∧ (∀ e ∈ es, prog.quits e = false) ∨
      ∃ got e rest, es = got ++ e :: rest ∧ prog.quits e = true ∧ received p'.trace = received p.trace ++ (got ++ [e])) ∧
    ((∀ k, ∃ n, io.writes k = .ok n) → stop ≠ .failed) := by
  intro es
  induction es with
  | nil =>
    intro p s p' stop hb ha h
    unfold loop at h
    split at h
    · next hc =>
      cases h
      exact ⟨⟨[], [], rfl, by simp, by simp⟩, fun _ => .inl ⟨hc, by simp, by simp⟩, fun _ => by simp⟩
    · cases h
      exact ⟨⟨[], [], rfl, by simp, by simp⟩, fun h => by simp at h, fun _ => by simp⟩
  | cons e es ih =>
    intro p s p' stop hb ha h
    obtain ⟨r1, r2, r3, r4, r5⟩ := receive_spec (cw := cw) t hb e
    have hra : (soon cw t (p.receive e)).alternate = true := by rw [r1]; exact ha
    have goOn : ∀ (q : Proc (Happening ε)), prog.quits e = false → received q.trace = received p.trace ++ [e] →
        ((∃ got rest, es = got ++ rest ∧ received p'.trace = received q.trace ++ got ∧ ∀ e ∈ got.dropLast, prog.quits e = false) ∧
        (stop = .left → closed = true ∧ received p'.trace = received q.trace ++ es ∧ (∀ e ∈ es, prog.quits e = false) ∨
          ∃ got e rest, es = got ++ e :: rest ∧ prog.quits e = true ∧ received p'.trace = received q.trace ++ (got ++ [e])) ∧
        ((∀ k, ∃ n, io.writes k = .ok n) → stop ≠ .failed)) →
        ((∃ got rest, e :: es = got ++ rest ∧ received p'.trace = received p.trace ++ got ∧ ∀ e ∈ got.dropLast, prog.quits e = false) ∧
        (stop = .left → closed = true ∧ received p'.trace = received p.trace ++ e :: es ∧ (∀ e' ∈ e :: es, prog.quits e' = false) ∨
          ∃ got e' rest, e :: es = got ++ e' :: rest ∧ prog.quits e' = true ∧ received p'.trace = received p.trace ++ (got ++ [e'])) ∧
        ((∀ k, ∃ n, io.writes k = .ok n) → stop ≠ .failed)) := by
      rintro q hq hrec ⟨⟨got, rest, g1, g2, g3⟩, g4, g5⟩
      refine ⟨⟨e :: got, rest, by rw [g1]; rfl, by rw [g2, hrec]; simp, ?_⟩, ?_, g5⟩
      · intro e' he'
        cases got with
        | nil => simp at he'
        | cons a got =>
          rw [List.dropLast_cons_of_ne_nil (by simp)] at he'
          rcases List.mem_cons.1 he' with rfl | he'
          · exact hq
          · exact g3 e' he'
      · intro hstop
        rcases g4 hstop with ⟨k1, k2, k3⟩ | ⟨got, e', rest, k1, k2, k3⟩
        · exact .inl ⟨k1, by rw [k2, hrec]; simp, by simpa [hq] using k3⟩
        · exact .inr ⟨e :: got, e', rest, by rw [k1]; rfl, k2, by rw [k3, hrec]; simp⟩
    unfold loop at h
    split at h
    · next hq =>
      cases h
      exact ⟨⟨[e], es, rfl, r3, by simp⟩, fun _ => .inr ⟨[], e, es, rfl, hq, r3⟩, fun _ => by simp⟩
    next hq =>
    have hq' : prog.quits e = false := by simpa using hq
    split at h
    · cases h
      exact ⟨⟨[e], es, rfl, r3, by simp⟩, fun h => by simp at h, fun _ => by simp⟩
    · exact goOn _ hq' r3 (ih _ _ r2 hra h)
    · next s' _ =>
      split at h
      · next p1 hr =>
        obtain ⟨⟨cs, d1, d2⟩, d3, d4, d5, d6⟩ := redraw_spec (cw := cw) prog io t _ hra _ hr
        exact goOn p1 hq' (by rw [d3, r3]) (ih _ _ (d2 rfl).1 (by rw [d1]; exact hra) h)
      · next p1 st hr =>
        obtain ⟨_, d3, d4, d5, d6, d7⟩ := redraw_spec (cw := cw) prog io t _ hra _ hr
        cases h
        refine ⟨⟨[e], es, rfl, by rw [d3, r3], by simp⟩, fun h => by subst h; simp at d6, ?_⟩
        intro hw hf
        subst hf
        have := d7 hw
        simp at this

/-- The part of the application which is in the alternate screen. -/
theorem run_spec (prog : Program σ (Happening ε)) (io : Answers) (closed : Bool) (t : Terminal) (es : List (Happening ε)) (p : Proc (Happening ε))
    {p' : Proc (Happening ε)} {stop : Stop σ} (ha : (soon cw t p).alternate = true) (hraw : (soon cw t p).raw = true) (h0 : received p.trace = [])
    (h : runInAlternate prog io p es closed = (p', stop)) :
    SameButRaw (soon cw t p) (soon cw t p') ∧ p.writes ≤ p'.writes ∧ p.raws ≤ p'.raws ∧
    (∃ got rest, es = got ++ rest ∧ received p'.trace = got ∧ ∀ e ∈ got.dropLast, prog.quits e = false) ∧
    (stop = .left → closed = true ∧ received p'.trace = es ∧ (∀ e ∈ es, prog.quits e = false) ∨
      ∃ got e rest, es = got ++ e :: rest ∧ prog.quits e = true ∧ received p'.trace = got ++ [e]) ∧
    (NoFailure io → stop ≠ .failed) ∧
    (∀ s, stop = .waiting s → (soon cw t p').raw = true) ∧
    ((∀ k, io.raws k = true) → (∀ s, stop ≠ .waiting s) → received p'.trace ≠ [] → (soon cw t p').raw = false) ∧
    (NoFailure io → stop = .panicked → ((soon cw t p').raw = true ↔ EarlyPanic prog)) := by
  unfold runInAlternate at h
  split at h
  · next hs =>
    cases h
    exact ⟨⟨rfl, rfl, rfl, rfl⟩, Nat.le_refl _, Nat.le_refl _, ⟨[], es, rfl, h0, by simp⟩, fun h => by simp at h, fun _ => by simp, fun s h => by simp at h,
      fun _ _ h => absurd h0 h, fun _ _ => ⟨fun _ => by simp [EarlyPanic, hs], fun _ => hraw⟩⟩
  next s hs =>
  split at h
  · next p1 st hr =>
    cases h
    obtain ⟨⟨cs, d1, d2⟩, d3, d4, d5, d6, d7⟩ := redraw_spec (cw := cw) prog io t _ ha _ hr
    refine ⟨by rw [d1]; exact ⟨rfl, rfl, rfl, rfl⟩, d5, by omega, ⟨[], es, rfl, by rw [d3, h0], by simp⟩, fun h => by subst h; simp at d6, ?_,
      fun s h => by subst h; simp at d6, fun _ _ h => absurd (by rw [d3, h0]) h, ?_⟩
    · intro hn h
      subst h
      have := d7 hn.writes
      simp at this
    · rintro hn rfl
      refine ⟨fun _ => ?_, fun _ => by rw [d1]; exact hraw⟩
      rcases d7 hn.writes with ⟨_, k⟩ | k
      · simp [EarlyPanic, hs, k]
      · simp at k
  next p1 hr =>
  obtain ⟨⟨cs, d1, d2⟩, d3, d4, d5, d6, d7⟩ := redraw_spec (cw := cw) prog io t _ ha _ hr
  obtain ⟨d2, d8⟩ := d2 rfl
  obtain ⟨s1, s2, s3, s4, s5, s6⟩ := setRaw_spec (cw := cw) io t p1 true
  have hdone : ¬ EarlyPanic prog := by simp [EarlyPanic, hs, d8]
  split at h
  · next hsr =>
    rw [if_pos hsr] at s1
    have hsoon : soon cw t (p1.setRaw io true).1 = drawn cw (soon cw t p) cs := by
      rw [s1, d1]
      simp only [drawn, ← hraw]
    have ha' : (soon cw t (p1.setRaw io true).1).alternate = true := by rw [hsoon]; exact ha
    have hb' : (p1.setRaw io true).1.buf = [] := by rw [s5, d2]
    have hr' : received (p1.setRaw io true).1.trace = [] := by rw [s2, d3, h0]
    split at h
    · next p2 s' hl =>
      cases h
      obtain ⟨l1, l2, l3⟩ := loop_modes (cw := cw) prog io closed t es _ s hb' ha' hl
      obtain ⟨k1, k2, k3⟩ := loop_stop (cw := cw) prog io closed t es _ s hb' ha' hl
      rw [hr'] at k1
      refine ⟨⟨by rw [l1.user, hsoon]; rfl, by rw [l1.alternate, hsoon]; rfl, by rw [l1.mouse, hsoon]; rfl, by rw [l1.cursor, hsoon]; rfl⟩, by omega, by omega,
        by simpa using k1, fun h => by simp at h, fun _ => by simp, fun _ _ => by rw [l1.raw, hsoon]; exact hraw, fun _ h => absurd rfl (h s'), fun _ h => by simp at h⟩
    · next p2 st hne hl =>
      obtain ⟨l1, l2, l3⟩ := loop_modes (cw := cw) prog io closed t es _ s hb' ha' hl
      obtain ⟨k1, k2, k3⟩ := loop_stop (cw := cw) prog io closed t es _ s hb' ha' hl
      rw [hr'] at k1 k2
      simp only [List.nil_append] at k1 k2
      obtain ⟨z1, z2, z3, z4, z5, z6⟩ := setRaw_spec (cw := cw) io t p2 false
      have hother : SameButRaw (soon cw t p) (soon cw t (p2.setRaw io false).1) := by
        have h1 : SameButRaw (soon cw t p) (soon cw t p2) :=
          ⟨by rw [l1.user, hsoon]; rfl, by rw [l1.alternate, hsoon]; rfl, by rw [l1.mouse, hsoon]; rfl, by rw [l1.cursor, hsoon]; rfl⟩
        rw [z1]
        split
        · exact ⟨h1.user, h1.alternate, h1.mouse, h1.cursor⟩
        · exact h1
      split at h
      · next hz =>
        rw [if_pos hz] at z1
        cases h
        exact ⟨hother, by omega, by omega, by rw [z2]; exact k1, by rw [z2]; exact k2, fun hn => k3 hn.writes, fun s' h => (hne s' h).elim,
          fun _ _ _ => by rw [z1], fun _ _ => by rw [z1]; simp [hdone]⟩
      · next hz =>
        cases h
        exact ⟨hother, by omega, by omega, by rw [z2]; exact k1, fun h => by simp at h, fun _ => by simp, fun s' h => by simp at h,
          fun hn => absurd (z6.2 (hn _)) hz, fun hn => absurd (z6.2 (hn.raws _)) hz⟩
  · next hsr =>
    rw [if_neg hsr] at s1
    cases h
    exact ⟨by rw [s1, d1]; exact ⟨rfl, rfl, rfl, rfl⟩, by omega, by omega, ⟨[], es, rfl, by rw [s2, d3, h0], by simp⟩, fun h => by simp at h,
      fun hn => absurd (s6.2 (hn.raws _)) hsr, fun s' h => by simp at h, fun hn => absurd (s6.2 (hn _)) hsr, fun _ h => by simp at h⟩

theorem abandon_spec (io : Answers) (t : Terminal) (p : Proc (Happening ε)) :
    soon cw t (p.abandon io) = soon cw t p ∧ received (p.abandon io).trace = received p.trace ∧ (p.abandon io).writes = p.writes + 1 ∧ (p.abandon io).raws = p.raws ∧
    ((∃ n, io.writes p.writes = .ok n) → (p.abandon io).buf = []) := by
  obtain ⟨f1, f2, f3, f4, f5, f6⟩ := flush_spec (cw := cw) io t p
  exact ⟨f1, f3, f4, f5, fun h => f2 (f6.2 h)⟩

/-- The last calls are done without errors. -/
def EndOk (io : Answers) (p : Proc (Happening ε)) : Prop :=
  (∀ k, k < p.writes → p.writes ≤ k + 4 → ∃ n, io.writes k = .ok n) ∧ ∀ k, k + 1 = p.raws → io.raws k = true

theorem restore_spec (io : Answers) (t : Terminal) (p : Proc (Happening ε)) (stop : Stop σ) {p' : Proc (Happening ε)} {st : Stop σ}
    (h : restore io p stop = (p', st)) :
    received p'.trace = received p.trace ∧ (soon cw t p').user = (soon cw t p).user ∧ ((soon cw t p).raw = false → (soon cw t p').raw = false) ∧
    (st = stop ∨ st = .failed) ∧
    (EndOk io p' → st = stop ∧ p'.buf = [] ∧ soon cw t p' = { soon cw t p with mouse := false, cursor := true, raw := false, alternate := false }) ∧
    (NoFailure io → EndOk io p') := by
  suffices hmain : received p'.trace = received p.trace ∧ (soon cw t p').user = (soon cw t p).user ∧ ((soon cw t p).raw = false → (soon cw t p').raw = false) ∧
      (st = stop ∨ st = .failed) ∧
      (EndOk io p' → st = stop ∧ p'.buf = [] ∧ soon cw t p' = { soon cw t p with mouse := false, cursor := true, raw := false, alternate := false }) from
    ⟨hmain.1, hmain.2.1, hmain.2.2.1, hmain.2.2.2.1, hmain.2.2.2.2, fun hn => ⟨fun k _ _ => hn.writes k, fun k _ => hn.raws k⟩⟩
  unfold restore at h
  dsimp only at h
  obtain ⟨a1, a2, a3, a4, a5⟩ := queue_spec (cw := cw) io t p (.control .disableMouse)
  generalize p.queue io (.control .disableMouse) = a at h a1 a2 a3 a4 a5
  obtain ⟨a, fa⟩ := a
  dsimp only at h a1 a2 a3 a4 a5
  cases fa with
  | false =>
    simp only [Bool.false_eq_true, if_false] at h a1
    cases h
    obtain ⟨q1, q2, q3, q4, q5⟩ := abandon_spec (cw := cw) io t a
    refine ⟨by rw [q2, a2], by rw [q1, a1], by rw [q1, a1]; exact id, .inr rfl, fun he => absurd (a5.2 (he.1 _ (by omega) (by omega))) (by simp)⟩
  | true =>
  simp only [if_true] at h a1
  obtain ⟨b1, b2, b3, b4, b5⟩ := queue_spec (cw := cw) io t a (.control .showCursor)
  generalize a.queue io (.control .showCursor) = b at h b1 b2 b3 b4 b5
  obtain ⟨b, fb⟩ := b
  dsimp only at h b1 b2 b3 b4 b5
  have au : (soon cw t a).user = (soon cw t p).user := by rw [a1]; rfl
  have ar : (soon cw t a).raw = (soon cw t p).raw := by rw [a1]; rfl
  cases fb with
  | false =>
    simp only [Bool.false_eq_true, if_false] at h b1
    cases h
    obtain ⟨q1, q2, q3, q4, q5⟩ := abandon_spec (cw := cw) io t b
    refine ⟨by rw [q2, b2, a2], by rw [q1, b1, au], by rw [q1, b1, ar]; exact id, .inr rfl, fun he => absurd (b5.2 (he.1 _ (by omega) (by omega))) (by simp)⟩
  | true =>
  simp only [if_true] at h b1
  have bu : (soon cw t b).user = (soon cw t p).user := by rw [b1, ← au]; rfl
  have br : (soon cw t b).raw = (soon cw t p).raw := by rw [b1, ← ar]; rfl
  obtain ⟨c1, c2, c3, c4, c5, c6⟩ := setRaw_spec (cw := cw) io t b false
  generalize b.setRaw io false = c at h c1 c2 c3 c4 c5 c6
  obtain ⟨c, fc⟩ := c
  dsimp only at h c1 c2 c3 c4 c5 c6
  cases fc with
  | false =>
    simp only [Bool.false_eq_true, if_false] at h c1
    cases h
    obtain ⟨q1, q2, q3, q4, q5⟩ := abandon_spec (cw := cw) io t c
    refine ⟨by rw [q2, c2, b2, a2], by rw [q1, c1, bu], by rw [q1, c1, br]; exact id, .inr rfl, fun he => absurd (c6.2 (he.2 _ (by omega))) (by simp)⟩
  | true =>
  simp only [if_true] at h c1
  have cu : (soon cw t c).user = (soon cw t p).user := by rw [c1]; exact bu
  have cr : (soon cw t c).raw = false := by rw [c1]
  obtain ⟨d1, d2, d3, d4, d5⟩ := queue_spec (cw := cw) io t c (.control .leaveAlternate)
  generalize c.queue io (.control .leaveAlternate) = d at h d1 d2 d3 d4 d5
  obtain ⟨d, fd⟩ := d
  dsimp only at h d1 d2 d3 d4 d5
  cases fd with
  | false =>
    simp only [Bool.false_eq_true, if_false] at h d1
    cases h
    obtain ⟨q1, q2, q3, q4, q5⟩ := abandon_spec (cw := cw) io t d
    refine ⟨by rw [q2, d2, c2, b2, a2], by rw [q1, d1, cu], fun _ => by rw [q1, d1, cr], .inr rfl,
      fun he => absurd (d5.2 (he.1 _ (by omega) (by omega))) (by simp)⟩
  | true =>
  simp only [if_true] at h d1
  have du : (soon cw t d).user = (soon cw t p).user := by rw [d1, ← cu]; rfl
  have dr : (soon cw t d).raw = false := by rw [d1, ← cr]; rfl
  obtain ⟨e1, e2, e3, e4, e5, e6⟩ := flush_spec (cw := cw) io t d
  generalize d.flush io = e at h e1 e2 e3 e4 e5 e6
  obtain ⟨e, fe⟩ := e
  dsimp only at h e1 e2 e3 e4 e5 e6
  cases fe with
  | false =>
    simp only [Bool.false_eq_true, if_false] at h
    cases h
    obtain ⟨q1, q2, q3, q4, q5⟩ := abandon_spec (cw := cw) io t e
    refine ⟨by rw [q2, e3, d2, c2, b2, a2], by rw [q1, e1, du], fun _ => by rw [q1, e1, dr], .inr rfl,
      fun he => absurd (e6.2 (he.1 _ (by omega) (by omega))) (by simp)⟩
  | true =>
  simp only [if_true] at h
  cases h
  refine ⟨by rw [e3, d2, c2, b2, a2], by rw [e1, du], fun _ => by rw [e1, dr], .inl rfl, fun _ => ⟨rfl, e2 rfl, ?_⟩⟩
  rw [e1, d1, c1, b1, a1]
  rfl

/-- The terminal when the application starts to draw. -/
def captured (t : Terminal) : Terminal :=
  { t with alternate := true, app := { t.user with cells := blankCells }, raw := true, mouse := true, cursor := false }

/-- The first calls are done without errors. -/
def StartOk (io : Answers) : Prop := (∀ k, k < 3 → ∃ n, io.writes k = .ok n) ∧ io.raws 0 = true

theorem main_cases (prog : Program σ (Happening ε)) (io : Answers) (closed : Bool) (t : Terminal) (ht : AtRest t) (es : List (Happening ε))
    {p' : Proc (Happening ε)} {st : Stop σ} (h : main prog io es closed = (p', st)) :
    (¬ StartOk io ∧ st = .failed ∧ received p'.trace = []) ∨
    ∃ p q stop, soon cw t p = captured t ∧ received p.trace = [] ∧ p.writes = 3 ∧ p.raws = 1 ∧ runInAlternate prog io p es closed = (q, stop) ∧
      ((∃ s, stop = .waiting s ∧ st = .waiting s ∧ p' = q) ∨ (stop = .panicked ∧ st = .panicked ∧ p' = q.abandon io) ∨
        ((stop = .left ∨ stop = .failed) ∧ restore io q stop = (p', st))) := by
  unfold main at h
  dsimp only at h
  obtain ⟨a1, a2, a3, a4, a5⟩ := queue_spec (cw := cw) io t ({} : Proc (Happening ε)) (.control .enterAlternate)
  generalize ({} : Proc (Happening ε)).queue io (.control .enterAlternate) = a at h a1 a2 a3 a4 a5
  obtain ⟨a, fa⟩ := a
  dsimp only at h a1 a2 a3 a4 a5
  have hs0 : soon cw t ({} : Proc (Happening ε)) = t := rfl
  cases fa with
  | false =>
    simp only [Bool.false_eq_true, if_false] at h
    cases h
    exact .inl ⟨fun hk => absurd (a5.2 (hk.1 0 (by omega))) (by simp), rfl, by rw [(abandon_spec (cw := cw) io t a).2.1, a2]; rfl⟩
  | true =>
  simp only [if_true, hs0] at h a1
  obtain ⟨b1, b2, b3, b4, b5, b6⟩ := setRaw_spec (cw := cw) io t a true
  generalize a.setRaw io true = b at h b1 b2 b3 b4 b5 b6
  obtain ⟨b, fb⟩ := b
  dsimp only at h b1 b2 b3 b4 b5 b6
  cases fb with
  | false =>
    simp only [Bool.false_eq_true, if_false] at h
    cases h
    refine .inl ⟨fun hk => absurd (b6.2 ?_) (by simp), rfl, by rw [(abandon_spec (cw := cw) io t b).2.1, b2, a2]; rfl⟩
    rw [a4]
    exact hk.2
  | true =>
  simp only [if_true] at h b1
  obtain ⟨c1, c2, c3, c4, c5⟩ := queue_spec (cw := cw) io t b (.control .hideCursor)
  generalize b.queue io (.control .hideCursor) = c at h c1 c2 c3 c4 c5
  obtain ⟨c, fc⟩ := c
  dsimp only at h c1 c2 c3 c4 c5
  cases fc with
  | false =>
    simp only [Bool.false_eq_true, if_false] at h
    cases h
    refine .inl ⟨fun hk => absurd (c5.2 (hk.1 _ ?_)) (by simp), rfl, by rw [(abandon_spec (cw := cw) io t c).2.1, c2, b2, a2]; rfl⟩
    rw [b3, a3]
    decide
  | true =>
  simp only [if_true] at h c1
  obtain ⟨d1, d2, d3, d4, d5⟩ := queue_spec (cw := cw) io t c (.control .enableMouse)
  generalize c.queue io (.control .enableMouse) = d at h d1 d2 d3 d4 d5
  obtain ⟨d, fd⟩ := d
  dsimp only at h d1 d2 d3 d4 d5
  cases fd with
  | false =>
    simp only [Bool.false_eq_true, if_false] at h
    cases h
    refine .inl ⟨fun hk => absurd (d5.2 (hk.1 _ ?_)) (by simp), rfl, by rw [(abandon_spec (cw := cw) io t d).2.1, d2, c2, b2, a2]; rfl⟩
    rw [c3, b3, a3]
    decide
  | true =>
  simp only [if_true] at h d1
  have hcap : soon cw t d = captured t := by
    rw [d1, c1, b1, a1]
    simp only [Terminal.exec, Terminal.control, ht.normal, Bool.false_eq_true, if_false, captured]
  have hrec : received d.trace = [] := by rw [d2, c2, b2, a2]; rfl
  have hw : d.writes = 3 := by rw [d3, c3, b3, a3]
  have hr : d.raws = 1 := by rw [d4, c4, b4, a4]
  right
  split at h
  · next q s hrun =>
    obtain ⟨rfl, rfl⟩ := Prod.mk.inj h
    exact ⟨d, q, _, hcap, hrec, hw, hr, hrun, .inl ⟨s, rfl, rfl, rfl⟩⟩
  · next q hrun =>
    obtain ⟨rfl, rfl⟩ := Prod.mk.inj h
    exact ⟨d, q, _, hcap, hrec, hw, hr, hrun, .inr (.inl ⟨rfl, rfl, rfl⟩)⟩
  · next q hrun => exact ⟨d, q, _, hcap, hrec, hw, hr, hrun, .inr (.inr ⟨.inl rfl, h⟩)⟩
  · next q hrun => exact ⟨d, q, _, hcap, hrec, hw, hr, hrun, .inr (.inr ⟨.inr rfl, h⟩)⟩

end

/-- C82: when the application waits for an event, it has received all the events before, none of which quits, the terminal is in the modes of the application,
what was on the screen of the user is kept, and the alternate screen shows the state of the application when it was last drawn, that is before the events which are told
unused, unless something else wrote on it since then. -/
theorem C82_waiting {σ ε : Type} (cw : Char → Nat) (prog : Program σ (Happening ε)) (io : Answers) (closed : Bool) {t : Terminal} (ht : AtRest t) (es : List (Happening ε))
    {p : Proc (Happening ε)} {s : σ} (h : main prog io es closed = (p, .waiting s)) (hclean : CleanDrawings cw prog es) :
    closed = false ∧ (∀ e ∈ es, prog.quits e = false) ∧ received p.trace = es ∧ stateAfter prog prog.start es = some s ∧ p.buf = [] ∧
      Captured (t.after cw p.trace) ∧ (t.after cw p.trace).user = t.user ∧ ShowsLast cw prog es (t.after cw p.trace).app := by
  rcases main_cases (cw := cw) prog io closed t ht es h with ⟨_, h, _⟩ | ⟨p0, q, stop, h1, h2, h3, h4, hrun, ⟨s', rfl, h5, rfl⟩ | ⟨_, h5, _⟩ | ⟨h5, h6⟩⟩
  · cases h
  · cases h5
    have ha : (soon cw t p0).alternate = true := by rw [h1]; rfl
    have hraw : (soon cw t p0).raw = true := by rw [h1]; rfl
    obtain ⟨r1, _, _, _, _, _, r7, _, _⟩ := run_spec (cw := cw) prog io closed t es p0 ha hraw h2 hrun
    have r70 := r7 s rfl
    clear r7
    unfold runInAlternate at hrun
    split at hrun
    · simp at hrun
    next s0 hs0 =>
    split at hrun
    · next p1 st hr =>
      simp only [Prod.mk.injEq] at hrun
      obtain ⟨_, _, _, _, d6, _⟩ := redraw_spec (cw := cw) prog io t _ ha _ hr
      rw [hrun.2] at d6
      simp at d6
    next p1 hr =>
    obtain ⟨⟨cs, d1, d2⟩, d3, d4, d5, d6, d7⟩ := redraw_spec (cw := cw) prog io t _ ha _ hr
    obtain ⟨d2, d8⟩ := d2 rfl
    obtain ⟨s1, s2, s3, s4, s5, s6⟩ := setRaw_spec (cw := cw) io t p1 true
    split at hrun
    · next hsr =>
      rw [if_pos hsr] at s1
      have hsoon : soon cw t (p1.setRaw io true).1 = drawn cw (soon cw t p0) cs := by
        rw [s1, d1]
        simp only [drawn, ← hraw]
      split at hrun
      · next p2 s' hl =>
        simp only [Prod.mk.injEq, Stop.waiting.injEq] at hrun
        obtain ⟨rfl, rfl⟩ := hrun
        have hpen : (captured t).app.pen = {} := ht.pen
        obtain ⟨k1, k2, k3, k4, k5, k6⟩ := loop_waiting (cw := cw) prog io closed t es [] _ s0 (by simpa using hclean) (by rw [s5, d2]) (by rw [hsoon]; exact ha)
          (by rw [hsoon, h1]; exact hclean [] ⟨es, rfl⟩ s0 hs0 cs d8 _ hpen) hs0
          ⟨[], [], s0, cs, (captured t).app, rfl, hs0, d8, trivial, hpen, fun _ => by rw [hsoon, h1]; rfl⟩ (by rw [s2, d3, h2]) hl
        rw [soon_flushed t k5] at r1 r70 k6
        exact ⟨k1, k2, k4, k3, k5, ⟨by rw [r1.alternate, ha], r70, by rw [r1.mouse, h1]; rfl, by rw [r1.cursor, h1]; rfl⟩, by rw [r1.user, h1]; rfl, k6⟩
      · next p2 st hne hl =>
        split at hrun
        · simp only [Prod.mk.injEq] at hrun
          exact (hne _ hrun.2).elim
        · simp at hrun
    · simp at hrun
  · cases h5
  · obtain ⟨_, _, _, k, _⟩ := restore_spec (cw := cw) io t q stop h6
    rcases h5 with rfl | rfl <;> simp at k

/-- C82: when nothing fails and the application ends, the screen and the modes of the terminal are those of before, and the user gets them back after the first event
which quits and not before, or after all the events if there's no more event source. -/
theorem C82_ended {σ ε : Type} (cw : Char → Nat) (prog : Program σ (Happening ε)) (io : Answers) (hio : NoFailure io) (closed : Bool) {t : Terminal} (ht : AtRest t)
    (es : List (Happening ε)) {p : Proc (Happening ε)} {st : Stop σ} (h : main prog io es closed = (p, st)) :
    st ≠ .failed ∧ (st = .left → p.buf = [] ∧ SameModes t (t.after cw p.trace) ∧
      ((∃ got e rest, es = got ++ e :: rest ∧ prog.quits e = true ∧ (∀ e ∈ got, prog.quits e = false) ∧ received p.trace = got ++ [e]) ∨
        closed = true ∧ (∀ e ∈ es, prog.quits e = false) ∧ received p.trace = es)) := by
  rcases main_cases (cw := cw) prog io closed t ht es h with ⟨h, _, _⟩ | ⟨p0, q, stop, h1, h2, h3, h4, hrun, h5⟩
  · exact absurd ⟨fun k _ => hio.writes k, hio.raws 0⟩ h
  have ha : (soon cw t p0).alternate = true := by rw [h1]; rfl
  have hraw : (soon cw t p0).raw = true := by rw [h1]; rfl
  obtain ⟨r1, _, _, r4, r5, r6, _, _, _⟩ := run_spec (cw := cw) prog io closed t es p0 ha hraw h2 hrun
  rcases h5 with ⟨s', rfl, rfl, rfl⟩ | ⟨_, rfl, _⟩ | ⟨h5, h6⟩
  · simp
  · simp
  · obtain ⟨k1, k2, _, k4, k5, k6⟩ := restore_spec (cw := cw) io t q stop h6
    obtain ⟨k7, k8, k9⟩ := k5 (k6 hio)
    subst k7
    refine ⟨r6 hio, fun hst => ⟨k8, ?_, ?_⟩⟩
    · rw [soon_flushed t k8] at k9
      rw [k9]
      refine ⟨r1.user.trans (by rw [h1]; rfl), ht.normal.symm, ht.cooked.symm, ht.silent.symm, ht.shown.symm⟩
    · obtain ⟨g, r, e1, e2, e3⟩ := r4
      rcases r5 hst with ⟨a, b, c⟩ | ⟨got, e, rest, a, b, c⟩
      · exact .inr ⟨a, c, by rw [k1, b]⟩
      · refine .inl ⟨got, e, rest, a, b, ?_, by rw [k1, c]⟩
        rw [e2] at c
        rw [c] at e3
        simpa using e3

/-- C82: the same when some writes fail while the application is running, or when its event source can't be created: the error is returned, but if the calls of
the start and those of the end are done without errors the terminal is as before. -/
theorem C82_error {σ ε : Type} (cw : Char → Nat) (prog : Program σ (Happening ε)) (io : Answers) (closed : Bool) {t : Terminal} (ht : AtRest t)
    (es : List (Happening ε)) {p : Proc (Happening ε)} {st : Stop σ} (h : main prog io es closed = (p, st)) (hst : st = .left ∨ st = .failed)
    (hstart : (∀ k, k < 3 → ∃ n, io.writes k = .ok n) ∧ io.raws 0 = true)
    (hend : (∀ k, k < p.writes → p.writes ≤ k + 4 → ∃ n, io.writes k = .ok n) ∧ ∀ k, k + 1 = p.raws → io.raws k = true) :
    p.buf = [] ∧ SameModes t (t.after cw p.trace) := by
  rcases main_cases (cw := cw) prog io closed t ht es h with ⟨h, _, _⟩ | ⟨p0, q, stop, h1, h2, h3, h4, hrun, h5⟩
  · exact absurd hstart h
  have ha : (soon cw t p0).alternate = true := by rw [h1]; rfl
  have hraw : (soon cw t p0).raw = true := by rw [h1]; rfl
  obtain ⟨r1, _⟩ := run_spec (cw := cw) prog io closed t es p0 ha hraw h2 hrun
  rcases h5 with ⟨s', rfl, rfl, rfl⟩ | ⟨_, rfl, _⟩ | ⟨h5, h6⟩
  · simp at hst
  · simp at hst
  · obtain ⟨k1, k2, _, k4, k5, k6⟩ := restore_spec (cw := cw) io t q stop h6
    obtain ⟨k7, k8, k9⟩ := k5 hend
    refine ⟨k8, ?_⟩
    rw [soon_flushed t k8] at k9
    rw [k9]
    exact ⟨r1.user.trans (by rw [h1]; rfl), ht.normal.symm, ht.cooked.symm, ht.silent.symm, ht.shown.symm⟩

/-- The raw mode isn't changed by commands. -/
theorem soon_raw {ε : Type} (cw : Char → Nat) (t : Terminal) (p : Proc (Happening ε)) : (soon cw t p).raw = (t.after cw p.trace).raw := by
  rw [soon, after_append]
  have := outs_raw (cw := cw) (ε := ε) p.buf (t.after cw p.trace) (t.after cw p.trace).raw
  have := congrArg Terminal.raw this
  exact this

/-- C82: whatever the failures of the writer, and even if it panics, an application which has received an event and doesn't run any more leaves the
terminal out of raw mode, if the raw mode itself can be changed. -/
theorem C82_raw {σ ε : Type} (cw : Char → Nat) (prog : Program σ (Happening ε)) (io : Answers) (closed : Bool) {t : Terminal} (ht : AtRest t)
    (es : List (Happening ε)) {p : Proc (Happening ε)} {st : Stop σ} (h : main prog io es closed = (p, st)) (hraws : ∀ k, io.raws k = true)
    (hst : ∀ s, st ≠ .waiting s) (hgot : received p.trace ≠ []) : (t.after cw p.trace).raw = false := by
  rcases main_cases (cw := cw) prog io closed t ht es h with ⟨_, _, h⟩ | ⟨p0, q, stop, h1, h2, h3, h4, hrun, h5⟩
  · exact absurd h hgot
  have ha : (soon cw t p0).alternate = true := by rw [h1]; rfl
  have hraw : (soon cw t p0).raw = true := by rw [h1]; rfl
  obtain ⟨_, _, _, _, _, _, _, r8, _⟩ := run_spec (cw := cw) prog io closed t es p0 ha hraw h2 hrun
  rcases h5 with ⟨s', rfl, rfl, rfl⟩ | ⟨rfl, rfl, rfl⟩ | ⟨h5, h6⟩
  · exact absurd rfl (hst s')
  · obtain ⟨f1, f2, _⟩ := abandon_spec (cw := cw) io t q
    rw [← soon_raw, f1]
    exact r8 hraws (by simp) (by rw [← f2]; exact hgot)
  · obtain ⟨k1, _, k3, _⟩ := restore_spec (cw := cw) io t q stop h6
    rw [← soon_raw]
    exact k3 (r8 hraws (by rcases h5 with rfl | rfl <;> simp) (by rw [← k1]; exact hgot))

/-- C82: on the contrary an application which panics leaves the terminal on the alternate screen, with the mouse captured and without cursor. It's also in raw mode
when the panic comes from the creation of the view or from its first drawing. The screen of the user isn't changed. -/
theorem C82_panicked {σ ε : Type} (cw : Char → Nat) (prog : Program σ (Happening ε)) (io : Answers) (hio : NoFailure io) (closed : Bool) {t : Terminal} (ht : AtRest t)
    (es : List (Happening ε)) {p : Proc (Happening ε)} (h : main prog io es closed = (p, .panicked)) :
    p.buf = [] ∧ (t.after cw p.trace).alternate = true ∧ (t.after cw p.trace).mouse = true ∧ (t.after cw p.trace).cursor = false ∧
      (t.after cw p.trace).user = t.user ∧ ((t.after cw p.trace).raw = true ↔ prog.start.bind prog.draw = none) := by
  rcases main_cases (cw := cw) prog io closed t ht es h with ⟨_, h, _⟩ | ⟨p0, q, stop, h1, h2, h3, h4, hrun, h5⟩
  · cases h
  have ha : (soon cw t p0).alternate = true := by rw [h1]; rfl
  have hraw : (soon cw t p0).raw = true := by rw [h1]; rfl
  obtain ⟨r1, _, _, _, _, _, _, _, r9⟩ := run_spec (cw := cw) prog io closed t es p0 ha hraw h2 hrun
  rcases h5 with ⟨s', rfl, h5, rfl⟩ | ⟨rfl, _, rfl⟩ | ⟨h5, h6⟩
  · cases h5
  · obtain ⟨f1, f2, f3, f4, f5⟩ := abandon_spec (cw := cw) io t q
    have hb := f5 (hio.writes _)
    rw [soon_flushed t hb] at f1
    rw [f1]
    exact ⟨hb, by rw [r1.alternate, ha], by rw [r1.mouse, h1]; rfl, by rw [r1.cursor, h1]; rfl, by rw [r1.user, h1]; rfl, r9 hio rfl⟩
  · obtain ⟨_, _, _, k4, _⟩ := restore_spec (cw := cw) io t q stop h6
    rcases h5 with rfl | rfl <;> simp at k4

/-! A small application: it displays a letter, that an event changes. The event 0 quits, the event 1 goes to the next letter, the event 2 does nothing, and the other
ones panic. -/
namespace Small

def prog : Program Nat (Happening Nat) where
  start := some 0
  quits e := e.1 == 0
  apply s e := match e.1 with | 1 => some (s + 1, true) | 2 => some (s, false) | _ => none
  draw s := some [.view (.moveTo 0 0), .view (.print [Char.ofNat (97 + s)])]
  torn _ := []

def io : Answers := ⟨fun k => .ok (k % 2), fun _ => true⟩

def term : Terminal := { user := ⟨blankCells, 3, 0, {}⟩, app := ⟨blankCells, 0, 0, {}⟩ }

def events (l : List Nat) : List (Happening Nat) := l.map fun n => (n, none)

theorem io_ok : NoFailure io := ⟨fun _ => ⟨_, rfl⟩, fun _ => rfl⟩

theorem term_rest : AtRest term := ⟨rfl, rfl, rfl, rfl, rfl⟩

theorem prog_clean (es : List (Happening Nat)) : CleanDrawings (fun _ => 1) prog es := by
  intro pre _ s _ cmds hd t ht
  cases hd
  simpa [Tty.playApp, Tty.execApp, Tty.exec] using ht

/-- C82_waiting: its hypotheses are met when the application waits after three events, and then the screen of the application shows the letter. -/
example : ∃ p, main prog io (events [1, 2, 1]) false = (p, .waiting 2) ∧ AtRest term ∧ CleanDrawings (fun _ => 1) prog (events [1, 2, 1]) ∧
    ((term.after (fun _ => 1) p.trace).app.cells 0 0).2.1 = 'c' :=
  ⟨_, rfl, term_rest, prog_clean _, by decide +kernel⟩

/-- C82_ended: the application is left by the event 0, or because there's no more event. -/
example : NoFailure io ∧ AtRest term ∧ (∃ p, main prog io (events [1, 0, 1]) false = (p, .left) ∧ (received p.trace).length = 2) ∧
    ∃ p, main prog io (events [1, 1]) true = (p, .left) ∧ (received p.trace).length = 2 :=
  ⟨io_ok, term_rest, ⟨_, rfl, by decide +kernel⟩, ⟨_, rfl, by decide +kernel⟩⟩

/-- C82_error: a call to the writer which fails while the letter is drawn ends the application, and its hypotheses are met. -/
example : ∃ p, main prog ⟨fun k => if k = 7 then .fail 0 else .ok 0, fun _ => true⟩ (events [1, 1]) false = (p, .failed) ∧ p.writes = 12 ∧ p.raws = 4 ∧
    (received p.trace).length = 1 := ⟨_, rfl, by decide +kernel, by decide +kernel, by decide +kernel⟩

/-- C82_panicked and C82_raw: the event 3 panics, after having been received. -/
example : NoFailure io ∧ AtRest term ∧ ∃ p, main prog io (events [1, 3, 1]) false = (p, .panicked) ∧ (received p.trace).length = 2 ∧
    (term.after (fun _ => 1) p.trace).raw = false ∧ (term.after (fun _ => 1) p.trace).alternate = true :=
  ⟨io_ok, term_rest, _, rfl, by decide +kernel, by decide +kernel, by decide +kernel⟩

end Small

end Verif.Props
