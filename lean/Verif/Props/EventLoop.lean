import Verif.Spec.EventLoop
import Verif.Props.EventSourceLive
import Verif.Props.Editor
/-! C74: the loop on events of an application. -/
namespace Verif.Props
open Verif.Events Verif.Spec

variable {S K σ : Type} {tr : S → RawKey → Option K × S} {o : Options} {handle : σ → TimedEv K → σ × Bool} {c : S} {init : σ}

theorem handleAll_snoc (handle : σ → TimedEv K → σ × Bool) (e : TimedEv K) : ∀ (l : List (TimedEv K)) (st : σ), (handleAll handle st l).2 = false →
    handleAll handle st (l ++ [e]) = handle (handleAll handle st l).1 e
  | [], st, _ => by
    simp only [List.nil_append, handleAll]
    cases h : (handle st e).2 with
    | true => simp [← h]
    | false => simp [← h]
  | x :: l, st, h => by
    simp only [List.cons_append, handleAll] at h ⊢
    by_cases hx : (handle st x).2 = true
    · rw [if_pos hx] at h; simp at h
    · rw [if_neg hx] at h ⊢
      rw [if_neg hx]
      exact handleAll_snoc handle e l _ h

/-- What the source has done, and where the loop is. -/
structure LoopInv (tr : S → RawKey → Option K × S) (o : Options) (handle : σ → TimedEv K → σ × Bool) (c : S) (init : σ) (input : List RawEvent)
    (own : Nat) (sacts : List Act) (l : Loop S K σ) : Prop where
  exec : Exec tr o c sacts l.source
  input : inputs sacts = input
  le : l.received ≤ l.source.sent.length
  panic : l.panicked = false
  count : own + (if l.pending.isSome then 1 else 0) = threadActs sacts + 2 * l.received + l.closed.toNat
  alive : l.closed = false → l.source.sourceAlive = true ∧ l.source.receiverAlive = true
  state : l.state = (handleAll handle init (l.source.sent.take l.received)).1
  before : (handleAll handle init (l.source.sent.take (l.received - 1))).2 = false
  running : l.left = false → l.closed = false ∧
    match l.pending with
    | none => unblocks sacts = List.replicate l.received false ∧ (handleAll handle init (l.source.sent.take l.received)).2 = false
    | some q => 1 ≤ l.received ∧ unblocks sacts = List.replicate (l.received - 1) false ∧ (handleAll handle init (l.source.sent.take l.received)).2 = q
  ended : l.left = true → 1 ≤ l.received ∧ l.received = l.source.sent.length ∧ l.pending = none ∧
    unblocks sacts = List.replicate (l.received - 1) false ++ [true] ∧ (handleAll handle init (l.source.sent.take l.received)).2 = true

theorem take_prefix_eq {α : Type} {a b : List α} {n : Nat} (h : a <+: b) (hn : n ≤ a.length) : b.take n = a.take n := by
  obtain ⟨t, rfl⟩ := h
  rw [List.take_append_of_le_length hn]

/-- The number of falses before the first true. -/
theorem falses_length (n : Nat) (l : List Bool) : ((List.replicate n false ++ true :: l).takeWhile (· = false)).length = n := by
  induction n with
  | zero => simp
  | succ n ih => simp only [List.replicate_succ, List.cons_append]; rw [List.takeWhile_cons_of_pos (by simp)]; simp only [List.length_cons]; omega

theorem falses_length' (n : Nat) : ((List.replicate n false).takeWhile (· = false)).length = n := by
  induction n with
  | zero => simp
  | succ n ih => simp only [List.replicate_succ]; rw [List.takeWhile_cons_of_pos (by simp)]; simp only [List.length_cons]; omega

private theorem thread_inv {input : List RawEvent} {own : Nat} {sacts : List Act} {l l' : Loop S K σ} (h : LoopInv tr o handle c init input own sacts l)
    (a : Act) (hu : unblocks [a] = []) (halive : ∀ s, step tr o l.source a = some s → s.sourceAlive = l.source.sourceAlive ∧ s.receiverAlive = l.source.receiverAlive)
    (he : l.thread tr o a = some l') :
    LoopInv tr o handle c init (input ++ inputs [a]) (own + threadActs [a]) (sacts ++ [a]) l' := by
  unfold Loop.thread at he
  cases hs : step tr o l.source a with
  | none => rw [hs] at he; simp at he
  | some s =>
    rw [hs] at he
    simp only [Option.map_some, Option.some.injEq] at he
    subst he
    obtain ⟨ha1, ha2⟩ := halive s hs
    have hex := Exec.step a h.exec hs
    have hp := exec_sent_mono h.exec hs
    have hub : unblocks (sacts ++ [a]) = unblocks sacts := by rw [unblocks_append, hu, List.append_nil]
    have hle := hp.length_le
    have ht : ∀ n, n ≤ l.received → s.sent.take n = l.source.sent.take n := fun n hn => take_prefix_eq hp (Nat.le_trans hn h.le)
    refine ⟨hex, by rw [inputs_append, h.input], Nat.le_trans h.le hle, h.panic, ?_, ?_, ?_, ?_, ?_, ?_⟩
    · have := h.count
      rw [threadActs_snoc]
      show own + threadActs [a] + (if l.pending.isSome then 1 else 0) = threadActs sacts + threadActs [a] + 2 * l.received + l.closed.toNat
      omega
    · intro hc
      rw [ha1, ha2]
      exact h.alive hc
    · show l.state = _
      rw [ht _ (Nat.le_refl _)]
      exact h.state
    · show (handleAll handle init (s.sent.take (l.received - 1))).2 = false
      rw [ht _ (Nat.sub_le _ _)]
      exact h.before
    · intro hl
      obtain ⟨r1, r2⟩ := h.running hl
      refine ⟨r1, ?_⟩
      show (match l.pending with | none => _ | some q => _)
      cases hpend : l.pending with
      | none =>
        rw [hpend] at r2
        refine ⟨by rw [hub]; exact r2.1, ?_⟩
        rw [ht _ (Nat.le_refl _)]
        exact r2.2
      | some q =>
        rw [hpend] at r2
        refine ⟨r2.1, by rw [hub]; exact r2.2.1, ?_⟩
        rw [ht _ (Nat.le_refl _)]
        exact r2.2.2
    · intro hl
      obtain ⟨e1, e2, e3, e4, e5⟩ := h.ended hl
      have hb := C36_bound hex
      rw [hub, e4, falses_length] at hb
      refine ⟨e1, ?_, e3, by rw [hub]; exact e4, ?_⟩
      · show l.received = s.sent.length
        have : l.source.sent.length ≤ s.sent.length := hle
        have : s.sent.length ≤ l.received - 1 + 1 := hb
        omega
      · show (handleAll handle init (s.sent.take l.received)).2 = true
        rw [ht _ (Nat.le_refl _)]
        exact e5

theorem loop_inv {acts : List LoopAct} {l : Loop S K σ} (h : LoopExec tr o handle c init acts l) :
    ∃ sacts, LoopInv tr o handle c init (loopInputs acts) (ownActs acts) sacts l := by
  induction h with
  | init =>
    exact ⟨[], ⟨.init, rfl, by simp, rfl, rfl, fun _ => ⟨rfl, rfl⟩, by simp [handleAll], by simp [handleAll], fun _ => ⟨rfl, rfl, rfl⟩, by simp⟩⟩
  | @step acts l l' a h he ih =>
    obtain ⟨sacts, inv⟩ := ih
    have happ : loopInputs (acts ++ [a]) = loopInputs acts ++ loopInputs [a] := by simp [loopInputs]
    have happ' : ownActs (acts ++ [a]) = ownActs acts + ownActs [a] := by simp [ownActs, List.countP_append]
    have hcount := inv.count
    rw [happ, happ']
    cases a with
    | read ev =>
      refine ⟨_, thread_inv inv (.read ev) rfl ?_ he⟩
      intro s hs
      cases step_change hs with
      | read _ h1 h2 h3 h4 =>
        obtain ⟨_, _, _, _, _, _, _, _, f9, f10, f11⟩ := read_frame l.source ev
        exact ⟨f10, f11⟩
    | work now =>
      refine ⟨_, thread_inv inv (.work now) rfl ?_ he⟩
      intro s hs
      cases step_change hs with
      | work _ t ts ht h1 h2 h3 =>
        obtain ⟨_, _, _, _, _, _, _, _, f9, f10, f11, _⟩ := work_frame (tr := tr) (o := o) ({ l.source with todo := ts } : Source S K) t now
        exact ⟨f10, f11⟩
    | send =>
      refine ⟨_, thread_inv inv .send rfl ?_ he⟩
      intro s hs
      cases step_change hs <;> exact ⟨rfl, rfl⟩
    | wake =>
      refine ⟨_, thread_inv inv .wake rfl ?_ he⟩
      intro s hs
      cases step_change hs <;> exact ⟨rfl, rfl⟩
    | receive =>
      simp only [loopStep, Loop.receive] at he
      by_cases hb : l.left = true ∨ l.pending.isSome = true
      · rw [if_pos hb] at he; simp at he
      rw [if_neg hb] at he
      have hl : l.left = false := by cases hl : l.left <;> simp_all
      have hpd : l.pending = none := by cases hpd : l.pending <;> simp_all
      cases hg : l.source.sent[l.received]? with
      | none => rw [hg] at he; simp at he
      | some e =>
        rw [hg] at he
        simp only [Option.map_some, Option.some.injEq] at he
        subst he
        have hlt : l.received < l.source.sent.length := by
          obtain ⟨hlt, _⟩ := List.getElem?_eq_some_iff.1 hg
          exact hlt
        obtain ⟨r1, r2⟩ := inv.running hl
        rw [hpd] at r2
        obtain ⟨r2, r3⟩ := r2
        have htk : l.source.sent.take (l.received + 1) = l.source.sent.take l.received ++ [e] := by
          rw [List.take_add_one, hg]; rfl
        have hall := handleAll_snoc handle e _ init r3
        rw [← htk, ← inv.state] at hall
        refine ⟨sacts, ⟨inv.exec, by rw [inv.input]; simp [loopInputs], hlt, inv.panic, ?_, inv.alive, ?_, ?_, ?_, ?_⟩⟩
        · rw [hpd] at hcount
          show ownActs acts + 1 + 1 = threadActs sacts + 2 * (l.received + 1) + l.closed.toNat
          simp at hcount
          omega
        · show (handle l.state e).1 = (handleAll handle init (l.source.sent.take (l.received + 1))).1
          rw [hall]
        · exact r3
        · intro _
          exact ⟨r1, by simp, by simpa using r2, by show (handleAll handle init (l.source.sent.take (l.received + 1))).2 = _; rw [hall]⟩
        · intro hl'
          rw [show l.left = true from hl'] at hl
          cases hl
    | hangup =>
      simp only [loopStep] at he
      split at he
      · rename_i hh
        obtain ⟨h1, h2, h3, h4⟩ := hh
        obtain ⟨r1, r2⟩ := inv.running h1
        rw [h2] at r2
        have := (exec_unblock inv.exec).2.2 h3 (inv.alive r1).1
        rw [r2.1] at this
        have := (List.mem_replicate.1 this).2
        cases this
      · simp at he
    | answer =>
      simp only [loopStep, Loop.answer] at he
      cases hpd : l.pending with
      | none => rw [hpd] at he; simp at he
      | some q =>
        rw [hpd] at he
        have hl : l.left = false := by
          cases hl : l.left with
          | false => rfl
          | true => rw [(inv.ended hl).2.2.1] at hpd; cases hpd
        obtain ⟨r1, r2⟩ := inv.running hl
        rw [hpd] at r2
        obtain ⟨r2, r3, r4⟩ := r2
        obtain ⟨s', hs'⟩ := C36_unblock_no_panic inv.exec (inv.alive r1).1 (by
          rw [r3]; intro hm; have := (List.mem_replicate.1 hm).2; cases this) q
        simp only [hs', Option.some.injEq] at he
        subst he
        have hex := Exec.step (.unblock q) inv.exec hs'
        have hub : unblocks (sacts ++ [.unblock q]) = List.replicate (l.received - 1) false ++ [q] := by
          rw [unblocks_append, r3]; rfl
        have hsame : s'.sent = l.source.sent ∧ s'.sourceAlive = l.source.sourceAlive ∧ s'.receiverAlive = l.source.receiverAlive := by
          cases step_change hs' <;> exact ⟨rfl, rfl, rfl⟩
        obtain ⟨g1, g2, g3⟩ := hsame
        refine ⟨sacts ++ [.unblock q], ⟨hex, by rw [inputs_append, inv.input]; rfl, by show l.received ≤ s'.sent.length; rw [g1]; exact inv.le, inv.panic, ?_, ?_, ?_, ?_, ?_, ?_⟩⟩
        · rw [threadActs_snoc]
          rw [hpd] at hcount
          show ownActs acts + 1 + 0 = threadActs sacts + 0 + 2 * l.received + l.closed.toNat
          simp at hcount
          omega
        · intro hc
          show s'.sourceAlive = true ∧ s'.receiverAlive = true
          rw [g2, g3]
          exact inv.alive hc
        · show l.state = (handleAll handle init (s'.sent.take l.received)).1
          rw [g1]; exact inv.state
        · show (handleAll handle init (s'.sent.take (l.received - 1))).2 = false
          rw [g1]; exact inv.before
        · intro hq
          have hq : q = false := hq
          subst hq
          refine ⟨r1, ?_, ?_⟩
          · rw [hub, show [false] = List.replicate 1 false from rfl, List.replicate_append_replicate, Nat.sub_add_cancel r2]
          · show (handleAll handle init (s'.sent.take l.received)).2 = false
            rw [g1]; exact r4
        · intro hq
          have hq : q = true := hq
          subst hq
          refine ⟨r2, ?_, rfl, hub, ?_⟩
          · show l.received = s'.sent.length
            rw [g1]
            have hb := C36_bound inv.exec
            rw [r3, falses_length'] at hb
            have := inv.le
            omega
          · show (handleAll handle init (s'.sent.take l.received)).2 = true
            rw [g1]; exact r4
    | close =>
      simp only [loopStep] at he
      split at he
      · rename_i hh
        obtain ⟨h1, h2⟩ := hh
        cases hs : step tr o l.source .dropSource with
        | none => rw [hs] at he; simp at he
        | some s1 =>
          rw [hs] at he
          simp only [Option.bind_some] at he
          cases hs2 : step tr o s1 .dropReceiver with
          | none => rw [hs2] at he; simp at he
          | some s2 =>
            rw [hs2] at he
            simp only [Option.map_some, Option.some.injEq] at he
            subst he
            have hex := Exec.step .dropReceiver (Exec.step .dropSource inv.exec hs) hs2
            have g1 : s2.sent = l.source.sent := by
              cases step_change hs2 <;> (cases step_change hs <;> rfl)
            obtain ⟨e1, e2, e3, e4, e5⟩ := inv.ended h1
            have hub : unblocks (sacts ++ [Act.dropSource] ++ [.dropReceiver]) = unblocks sacts := by
              rw [unblocks_append, unblocks_append]; simp [unblocks]
            refine ⟨sacts ++ [.dropSource] ++ [.dropReceiver], ⟨hex, by rw [inputs_append, inputs_append, inv.input]; simp [inputs, loopInputs], ?_, inv.panic, ?_, by simp, ?_, ?_, ?_, ?_⟩⟩
            · show l.received ≤ s2.sent.length
              rw [g1]; exact inv.le
            · rw [threadActs_snoc, threadActs_snoc]
              rw [e3, h2] at hcount
              show ownActs acts + 1 + (if l.pending.isSome then 1 else 0) = threadActs sacts + 0 + 0 + 2 * l.received + 1
              rw [e3]
              simp at hcount ⊢
              omega
            · show l.state = (handleAll handle init (s2.sent.take l.received)).1
              rw [g1]; exact inv.state
            · show (handleAll handle init (s2.sent.take (l.received - 1))).2 = false
              rw [g1]; exact inv.before
            · intro hl'
              rw [show l.left = false from hl'] at h1
              cases h1
            · intro _
              refine ⟨e1, ?_, e3, by rw [hub]; exact e4, ?_⟩
              · show l.received = s2.sent.length
                rw [g1]; exact e2
              · show (handleAll handle init (s2.sent.take l.received)).2 = true
                rw [g1]; exact e5
      · simp at he
/-- C74: whatever the schedule, the events handled by the application are, in order and each once, the first ones of those the source has to
emit; its state is the one given by handling them one after the other, and it quits on none of them but the last one. Nothing panics. -/
theorem C74_handled {acts : List LoopAct} {l : Loop S K σ} (h : LoopExec tr o handle c init acts l) :
    ∃ blocks opening handled, Parsed (loopInputs acts) blocks opening ∧
      handled.map TimedEv.data <+: keep tr o c (blocks.flatMap Block.ordinary) ∧ handled.length = l.received ∧ handled <+: l.source.sent ∧
      l.state = (handleAll handle init handled).1 ∧ (handleAll handle init handled.dropLast).2 = false ∧ l.panicked = false := by
  obtain ⟨sacts, inv⟩ := loop_inv h
  obtain ⟨blocks, opening, hp, hs⟩ := C34_events inv.exec
  rw [inv.input] at hp
  refine ⟨blocks, opening, l.source.sent.take l.received, hp, ?_, by rw [List.length_take]; exact Nat.min_eq_left inv.le, List.take_prefix _ _,
    inv.state, ?_, inv.panic⟩
  · rw [List.map_take]
    exact (List.take_prefix _ _).trans hs
  · have : (l.source.sent.take l.received).dropLast = l.source.sent.take (l.received - 1) := by
      rw [List.dropLast_eq_take, List.take_take, List.length_take]
      congr 1
      have := inv.le
      omega
    rw [this]
    exact inv.before

/-- C74: the call of `unblock` for a handled event never panics, and the loop goes on exactly when the event isn't one on which the application quits. -/
theorem C74_unblock {acts : List LoopAct} {l : Loop S K σ} (h : LoopExec tr o handle c init acts l) (q : Bool) (hq : l.pending = some q) :
    ∃ s : Source S K, step tr o l.source (.unblock q) = some s ∧ q = (handleAll handle init (l.source.sent.take l.received)).2 ∧
      loopStep tr o handle l .answer = some { l with source := s, pending := none, left := q } := by
  obtain ⟨sacts, inv⟩ := loop_inv h
  have hl : l.left = false := by
    cases hl : l.left with
    | false => rfl
    | true => rw [(inv.ended hl).2.2.1] at hq; cases hq
  obtain ⟨r1, r2⟩ := inv.running hl
  rw [hq] at r2
  obtain ⟨r2, r3, r4⟩ := r2
  obtain ⟨s', hs'⟩ := C36_unblock_no_panic inv.exec (inv.alive r1).1 (by
    rw [r3]; intro hm; have := (List.mem_replicate.1 hm).2; cases this) q
  exact ⟨s', hs', r4.symm, by simp only [loopStep, Loop.answer, hq, hs']⟩

/-- C74: when the terminal is read, the application has handled all the events it had to, and hasn't quit. -/
theorem C74_complete {acts : List LoopAct} {l : Loop S K σ} (h : LoopExec tr o handle c init acts l) (ev : RawEvent)
    (hr : ∃ l', loopStep tr o handle l (.read ev) = some l') :
    ∃ blocks opening, Parsed (loopInputs acts) blocks opening ∧ l.source.sent.map TimedEv.data = keep tr o c (blocks.flatMap Block.ordinary) ∧
      handleAll handle init l.source.sent = (l.state, false) ∧ l.left = false := by
  obtain ⟨sacts, inv⟩ := loop_inv h
  obtain ⟨l', hr⟩ := hr
  simp only [loopStep, Loop.thread] at hr
  cases hs : step tr o l.source (.read ev) with
  | none => rw [hs] at hr; simp at hr
  | some s' =>
    obtain ⟨blocks, opening, hp, hk⟩ := C34_complete inv.exec ev ⟨s', hs⟩
    rw [inv.input] at hp
    have hst : l.source.stopped = false ∧ l.source.waiting = false := by
      cases step_change hs with
      | read _ h1 h2 h3 h4 => exact ⟨h1, h2⟩
    obtain ⟨n, u1, u2⟩ := (exec_unblock inv.exec).1 hst.1
    rw [hst.2] at u2
    have u2 : l.source.sent.length = n := u2
    have hlen : n ≤ (unblocks sacts).length := by rw [u1]; simp
    cases hl : l.left with
    | true =>
      obtain ⟨e1, e2, e3, e4, e5⟩ := inv.ended hl
      rw [u1] at e4
      have hn : n = (l.received - 1) + 1 := by omega
      rw [hn, List.replicate_succ', List.append_assoc] at e4
      have := List.append_cancel_left e4
      simp at this
    | false =>
      obtain ⟨r1, r2⟩ := inv.running hl
      cases hpd : l.pending with
      | some q =>
        rw [hpd] at r2
        rw [r2.2.1] at hlen
        have := r2.1
        have := inv.le
        simp at hlen
        omega
      | none =>
        rw [hpd] at r2
        rw [r2.1] at hlen
        have := inv.le
        simp at hlen
        have ht : l.source.sent.take l.received = l.source.sent := List.take_of_length_le (by omega)
        have hst' := inv.state
        have hq := r2.2
        rw [ht] at hst' hq
        exact ⟨blocks, opening, hp, hk, by rw [hst', ← hq], rfl⟩

/-- C74: the application is never stuck: the terminal is read, or the thread or the loop can act, or both have ended after the application has
quit. -/
theorem C74_progress {acts : List LoopAct} {l : Loop S K σ} (h : LoopExec tr o handle c init acts l) :
    (∀ ev, ∃ l', loopStep tr o handle l (.read ev) = some l') ∨
    (∃ a l', ownActs [a] = 1 ∧ loopStep tr o handle l a = some l') ∨
    (l.left = true ∧ l.closed = true ∧ l.source.stopped = true) := by
  obtain ⟨sacts, inv⟩ := loop_inv h
  have lift : ∀ a s', step tr o l.source a = some s' → l.thread tr o a = some { l with source := s' } := by
    intro a s' ha
    simp [Loop.thread, ha]
  have close : l.left = true → l.closed = false → ∃ a l', ownActs [a] = 1 ∧ loopStep tr o handle l a = some l' := by
    intro hl hc
    obtain ⟨a1, a2⟩ := inv.alive hc
    exact ⟨.close, _, rfl, by simp only [loopStep, hl, hc, and_self, if_true, step, a1, a2, Bool.not_false, Option.bind_some, Option.map_some]; rfl⟩
  cases hs : l.source.stopped with
  | true =>
    cases hl : l.left with
    | true =>
      cases hc : l.closed with
      | true => exact .inr (.inr ⟨rfl, rfl, rfl⟩)
      | false => exact .inr (.inl (close hl hc))
    | false =>
      exfalso
      obtain ⟨r1, r2⟩ := inv.running hl
      have hm := (exec_unblock inv.exec).2.2 hs (inv.alive r1).1
      cases hpd : l.pending with
      | none => rw [hpd] at r2; rw [r2.1] at hm; have := (List.mem_replicate.1 hm).2; cases this
      | some q => rw [hpd] at r2; rw [r2.2.1] at hm; have := (List.mem_replicate.1 hm).2; cases this
  | false =>
    obtain ⟨p1, p2⟩ := C36_progress inv.exec hs
    cases hw : l.source.waiting with
    | false =>
      rcases p1 hw with ⟨s', he⟩ | hall | hread
      · exact .inr (.inl ⟨.send, _, rfl, lift _ _ he⟩)
      · obtain ⟨s', he⟩ := hall 0
        exact .inr (.inl ⟨.work 0, _, rfl, lift _ _ he⟩)
      · left
        intro ev
        obtain ⟨s', he⟩ := hread ev
        exact ⟨_, lift _ _ he⟩
    | true =>
      rcases p2 hw with hlt | ⟨s', he⟩
      · right; left
        cases hl : l.left with
        | true =>
          obtain ⟨e1, e2, e3, e4, e5⟩ := inv.ended hl
          rw [e4] at hlt
          simp at hlt
          omega
        | false =>
          obtain ⟨r1, r2⟩ := inv.running hl
          cases hpd : l.pending with
          | none =>
            rw [hpd] at r2
            rw [r2.1] at hlt
            simp at hlt
            exact ⟨.receive, _, rfl, by
              simp only [loopStep, Loop.receive, hl, hpd, List.getElem?_eq_getElem hlt]
              rfl⟩
          | some q =>
            rw [hpd] at r2
            obtain ⟨s', hs'⟩ := C36_unblock_no_panic inv.exec (inv.alive r1).1 (by
              rw [r2.2.1]; intro hm; have := (List.mem_replicate.1 hm).2; cases this) q
            exact ⟨.answer, _, rfl, by simp only [loopStep, Loop.answer, hpd, hs']; rfl⟩
      · exact .inr (.inl ⟨.wake, _, rfl, lift _ _ he⟩)

/-- C74: once the application has left the loop, it's because it quit on the last event it handled, the terminal isn't read any more, and nothing
more is handled. -/
theorem C74_quit {acts : List LoopAct} {l : Loop S K σ} (h : LoopExec tr o handle c init acts l) (hl : l.left = true) :
    handleAll handle init l.source.sent = (l.state, true) ∧ (∀ ev, loopStep tr o handle l (.read ev) = none) ∧ loopStep tr o handle l .receive = none := by
  obtain ⟨sacts, inv⟩ := loop_inv h
  obtain ⟨e1, e2, e3, e4, e5⟩ := inv.ended hl
  have ht : l.source.sent.take l.received = l.source.sent := List.take_of_length_le (by omega)
  refine ⟨?_, ?_, by simp [loopStep, Loop.receive, hl]⟩
  · have h1 := inv.state
    rw [ht] at h1 e5
    rw [h1, ← e5]
  · intro ev
    cases hr : loopStep tr o handle l (.read ev) with
    | none => rfl
    | some l' =>
      obtain ⟨_, _, _, _, _, hf⟩ := C74_complete h ev ⟨l', hr⟩
      rw [hl] at hf
      cases hf
/-- C74: whatever the schedule, there are at most five actions of the thread and of the loop for each event read from the terminal (and one to
close the source): with `C74_progress`, every event read is handled after finitely many actions, unless the application has quit. -/
theorem C74_bounded {acts : List LoopAct} {l : Loop S K σ} (h : LoopExec tr o handle c init acts l) :
    ownActs acts ≤ 5 * (loopInputs acts).length + 1 := by
  obtain ⟨sacts, inv⟩ := loop_inv h
  have h1 := C36_bounded_work inv.exec
  have h2 := C36_enough inv.exec
  have h3 := inv.le
  have h4 := inv.count
  rw [inv.input] at h1 h2
  have : l.closed.toNat ≤ 1 := by cases l.closed <;> simp
  omega

/-- The combination given to the field for an event. -/
def fieldKey (into : RawKey → KeyComb) (ev : RawEvent) : Option KeyComb :=
  match ev with
  | .key k => some (into k)
  | _ => none

/-- The keys which don't quit are given to the field. -/
theorem handleAll_field (cw : Char → Nat) (into : RawKey → KeyComb) (quitKey : KeyComb) : ∀ (evs : List (TimedEv KeyComb)) (f : Run InputField),
    (∀ e ∈ evs, e.isKey into quitKey = false) →
    handleAll (fieldHandler cw into quitKey) f evs = (f.bind (pressAll cw (evs.filterMap fun e => fieldKey into e.event)), false)
  | [], f, _ => by cases f <;> rfl
  | e :: evs, f, h => by
    have h1 := h e (by simp)
    have ih := fun f => handleAll_field cw into quitKey evs f fun e he => h e (by simp [he])
    have hq : ∀ k, e.event = .key k → fieldHandler cw into quitKey f e = (f.bind fun f => (f.applyKeyCombination cw (into k)).map Prod.fst, false) := by
      intro k hk
      simp [fieldHandler, h1, hk]
    cases hev : e.event with
    | key k =>
      rw [handleAll, hq k hev, if_neg (by simp), ih]
      simp only [List.filterMap_cons, fieldKey, hev]
      cases f with
      | none => rfl
      | some f =>
        simp only [Option.bind_some, pressAll]
        cases f.applyKeyCombination cw (into k) <;> rfl
    | mouse m =>
      have hq : fieldHandler cw into quitKey f e = (f, false) := by simp [fieldHandler, h1, hev]
      rw [handleAll, hq, if_neg (by simp), ih]
      simp [fieldKey, hev]
    | other n =>
      have hq : fieldHandler cw into quitKey f e = (f, false) := by simp [fieldHandler, h1, hev]
      rw [handleAll, hq, if_neg (by simp), ih]
      simp [fieldKey, hev]

/-- Events without ALT are single ones. -/
private theorem singles {input : List RawEvent} (h : ∀ k, .key k ∈ input → k.alt = false) {blocks : List Block} {opening : List RawKey}
    (hp : Parsed input blocks opening) : blocks.flatMap Block.ordinary = input := by
  have hp' : Parsed input (input.map Block.single) [] := by
    refine ⟨?_, ?_, .inl rfl⟩
    · simp [List.flatMap_map, Block.raw]
    · intro b hb
      obtain ⟨ev, hev, rfl⟩ := List.mem_map.1 hb
      intro k hk hs
      subst hk
      have := h k hev
      simp [SeqStart, this] at hs
  obtain ⟨rfl, rfl⟩ := C34_unambiguous hp hp'
  simp [List.flatMap_map, Block.ordinary]

/-- What is kept of someone's typing. -/
private theorem keep_typing {S : Type} {tr : S → RawKey → Option KeyComb × S} {o : Options} (ho : o.discardRawKeys = true) {into : RawKey → KeyComb} {enter : KeyComb}
    (hk : PlainKeyboard tr into enter) : ∀ (input : List RawEvent) (c : S),
    (keep tr o c input).filterMap (fun p => fieldKey into p.1) = (input.filter fun | .key k => k.kind = 0 | _ => false).filterMap (fieldKey into) ∧
    ∀ p ∈ keep tr o c input, (∃ k, p.1 = .key k ∧ .key k ∈ input ∧ p.2 = some (into k)) ∨ ((∀ k, p.1 ≠ .key k) ∧ p.2 = none)
  | [], c => by simp [keep]
  | .key k :: l, c => by
    obtain ⟨i1, i2⟩ := keep_typing ho hk l (tr c k).2
    by_cases h0 : k.kind = 0
    · have hp := hk.press c k h0
      simp only [keep, ho, hp]
      refine ⟨?_, ?_⟩
      · rw [List.filter_cons_of_pos (by simpa using h0), List.filterMap_cons, ← i1]
        simp [fieldKey]
      intro p hm
      simp at hm
      rcases hm with rfl | hm
      · exact .inl ⟨k, rfl, by simp, rfl⟩
      · rcases i2 p hm with ⟨k', a, b, d⟩ | h
        · exact .inl ⟨k', a, by simp [b], d⟩
        · exact .inr h
    · have hp := hk.release c k h0
      simp only [keep, ho, hp]
      refine ⟨by simp [i1, h0], ?_⟩
      intro p hm
      simp at hm
      rcases i2 p hm with ⟨k', a, b, d⟩ | h
      · exact .inl ⟨k', a, by simp [b], d⟩
      · exact .inr h
  | .mouse m :: l, c => by
    obtain ⟨i1, i2⟩ := keep_typing ho hk l c
    simp only [keep]
    constructor
    · rw [List.filterMap_append, i1]
      split <;> simp [fieldKey]
    · intro p hm
      rcases List.mem_append.1 hm with hm | hm
      · split at hm
        · simp at hm
        · simp at hm; subst hm; exact .inr ⟨by simp, rfl⟩
      · rcases i2 p hm with ⟨k', a, b, d⟩ | h
        · exact .inl ⟨k', a, by simp [b], d⟩
        · exact .inr h
  | .other n :: l, c => by
    obtain ⟨i1, i2⟩ := keep_typing ho hk l c
    simp only [keep]
    constructor
    · rw [List.filter_cons_of_neg (by simp), ← i1]
      simp [fieldKey]
    · intro p hm
      rcases List.mem_cons.1 hm with rfl | hm
      · exact .inr ⟨by simp, rfl⟩
      · rcases i2 p hm with ⟨k', a, b, d⟩ | h
        · exact .inl ⟨k', a, by simp [b], d⟩
        · exact .inr h

/-- The text in the reference editor. -/
private theorem typing_press (cw : Char → Nat) {S : Type} {tr : S → RawKey → Option KeyComb × S} {into : RawKey → KeyComb} {enter : KeyComb}
    (hk : PlainKeyboard tr into enter) (page : Nat) : ∀ (input : List RawEvent) (d : Doc), (∀ ev ∈ input, Typing enter.code ev) →
    ((input.filter fun | .key k => k.kind = 0 | _ => false).filterMap (fieldKey into)).foldl (Doc.press cw [enter] page) d =
      ⟨d.before ++ typedText enter.code input, d.after⟩
  | [], d, _ => by simp [typedText]
  | ev :: input, d, h => by
    have ih := fun d => typing_press cw hk page input d fun e he => h e (by simp [he])
    have hev := h ev (by simp)
    cases ev with
    | mouse m =>
      rw [List.filter_cons_of_neg (by simp), ih d, typedText, typedText, List.filterMap_cons_none rfl]
    | other n =>
      rw [List.filter_cons_of_neg (by simp), ih d, typedText, typedText, List.filterMap_cons_none rfl]
    | key k =>
      obtain ⟨h1, h2, _, h3⟩ := hev k rfl
      by_cases h0 : k.kind = 0
      · have hstep : ∃ ch, typedChar enter.code (.key k) = some ch ∧ d.press cw [enter] page (into k) = ⟨d.before ++ [ch], d.after⟩ := by
          by_cases he : k.code = enter.code
          · refine ⟨'\n', by simp [typedChar, h0, he], ?_⟩
            rw [hk.lineBreak k (hev k rfl) he]
            simp [Doc.press, Doc.insert]
          · rcases h3 with h3 | ⟨ch, h3, h4, _, h5, _⟩
            · exact absurd h3.1 he
            · refine ⟨ch, by simp [typedChar, h0, he]; rw [h3], ?_⟩
              obtain ⟨mods, e1, e2⟩ := hk.char k ch (hev k rfl) h3
              have hne : (⟨.char ch, [], mods⟩ : KeyComb) ≠ enter := fun e => hk.notChar ch (by rw [← e])
              rw [e1]
              rcases e2 with rfl | rfl <;> simp [Doc.press, hne, h4, h5, Doc.insert]
        obtain ⟨ch, t1, t2⟩ := hstep
        rw [List.filter_cons_of_pos (by simpa using h0), List.filterMap_cons]
        simp only [fieldKey, List.foldl_cons]
        rw [t2]
        have := ih ⟨d.before ++ [ch], d.after⟩
        simp only [typedText, List.filterMap_cons, t1]
        simpa [typedText] using this
      · rw [List.filter_cons_of_neg (by simpa using h0), ih d]
        have : typedChar enter.code (.key k) = none := by simp [typedChar, h0]
        simp [typedText, this]

/-- The keys of someone's typing don't select. -/
private theorem typing_narrow {S : Type} {tr : S → RawKey → Option KeyComb × S} {into : RawKey → KeyComb} {enter : KeyComb}
    (hk : PlainKeyboard tr into enter) {k : RawKey} (h : Typing enter.code (.key k)) : ¬ Selects [enter] (into k) := by
  obtain ⟨_, _, _, h3⟩ := h k rfl
  intro hs
  rcases h3 with h3 | ⟨ch, h3, _⟩
  · rw [hk.lineBreak k (h k rfl) h3.1] at hs
    exact hs.1 (by simp)
  · obtain ⟨mods, e1, _⟩ := hk.char k ch (h k rfl) h3
    rw [e1] at hs
    exact hs.2.2.2.2.2 ch rfl

private theorem typing_quit {S : Type} {tr : S → RawKey → Option KeyComb × S} {into : RawKey → KeyComb} {enter quitKey : KeyComb}
    (hk : PlainKeyboard tr into enter) (hq : quitKey ≠ enter ∧ quitKey.mods ≠ .none ∧ quitKey.mods ≠ .shift)
    {k : RawKey} (h : Typing enter.code (.key k)) : into k ≠ quitKey := by
  obtain ⟨_, _, _, h3⟩ := h k rfl
  intro he
  rcases h3 with h3 | ⟨ch, h3, _⟩
  · rw [hk.lineBreak k (h k rfl) h3.1] at he
    exact hq.1 he.symm
  · obtain ⟨mods, e1, e2⟩ := hk.char k ch (h k rfl) h3
    rw [e1] at he
    subst he
    rcases e2 with rfl | rfl
    · exact hq.2.1 rfl
    · exact hq.2.2 rfl

/-- The field after the events kept of a typing, or of its start. -/
private theorem typing_handled (cw : Char → Nat) {S : Type} {tr : S → RawKey → Option KeyComb × S} {o : Options} (ho : o.discardRawKeys = true)
    {into : RawKey → KeyComb} {enter quitKey : KeyComb} (hk : PlainKeyboard tr into enter)
    (hq : quitKey ≠ enter ∧ quitKey.mods ≠ .none ∧ quitKey.mods ≠ .shift) (area : Area) (hw : 1 ≤ area.width) :
    ∀ (evs : List (TimedEv KeyComb)) (input : List RawEvent) (c : S), (∀ ev ∈ input, Typing enter.code ev) →
      evs.map TimedEv.data <+: keep tr o c input →
      ∃ f, handleAll (fieldHandler cw into quitKey) (some { InputField.new area with newLineKeys := [enter] }) evs = (some f, false) ∧
        f.content.toText <+: typedText enter.code input ∧ (evs.map TimedEv.data = keep tr o c input → f.content.toText = typedText enter.code input) := by
  intro evs input c ht hpre
  obtain ⟨k1, k2⟩ := keep_typing ho hk input c
  have hnq : ∀ e ∈ evs, e.isKey into quitKey = false := by
    intro e he
    have hm : e.data ∈ keep tr o c input := hpre.subset (List.mem_map_of_mem he)
    unfold TimedEv.isKey
    rcases k2 _ hm with ⟨k, a, b, d⟩ | ⟨a, b⟩
    · have a : e.event = .key k := a
      have d : e.comb = some (into k) := d
      have hne := typing_quit hk hq (ht _ b)
      rw [if_neg (by rw [d]; simpa using hne), a]
      simpa using hne
    · have b : e.comb = none := b
      rw [if_neg (by rw [b]; simp)]
      cases hev : e.event with
      | key k => exact absurd hev (a k)
      | mouse m => rfl
      | other n => rfl
  have hkeys : evs.filterMap (fun e => fieldKey into e.event) <+: (input.filter fun | .key k => k.kind = 0 | _ => false).filterMap (fieldKey into) := by
    rw [← k1]
    have : evs.filterMap (fun e => fieldKey into e.event) = (evs.map TimedEv.data).filterMap (fun p => fieldKey into p.1) := by
      rw [List.filterMap_map]; rfl
    rw [this]
    exact hpre.filterMap _
  have hns : ∀ k ∈ (input.filter fun | .key k => k.kind = 0 | _ => false).filterMap (fieldKey into), ¬ Selects [enter] k := by
    intro k hm
    obtain ⟨ev, h1, h2⟩ := List.mem_filterMap.1 hm
    have hin := (List.mem_filter.1 h1).1
    cases ev with
    | key rk => simp [fieldKey] at h2; subst h2; exact typing_narrow hk (ht _ hin)
    | mouse m => simp [fieldKey] at h2
    | other n => simp [fieldKey] at h2
  obtain ⟨f, p1, p2⟩ := C60_new cw area hw [enter] (evs.filterMap fun e => fieldKey into e.event) (fun k hm => hns k (hkeys.subset hm))
  -- every key adds a character at the end
  have hfold := typing_press cw hk area.height input {} ht
  have hmono : ∀ (keys more : List KeyComb) (d : Doc), (∀ k ∈ keys ++ more, (∃ ch, (∀ d : Doc, d.press cw [enter] area.height k = ⟨d.before ++ [ch], d.after⟩))) →
      (keys.foldl (Doc.press cw [enter] area.height) d).after = d.after ∧
      (keys.foldl (Doc.press cw [enter] area.height) d).before <+: ((keys ++ more).foldl (Doc.press cw [enter] area.height) d).before := by
    intro keys
    induction keys with
    | nil =>
      intro more
      induction more with
      | nil => intro d _; exact ⟨rfl, List.prefix_rfl⟩
      | cons k more ih =>
        intro d hall
        obtain ⟨ch, hch⟩ := hall k (by simp)
        have := (ih (d.press cw [enter] area.height k) (fun k hk => hall k (by simp at hk ⊢; exact .inr hk))).2
        refine ⟨rfl, ?_⟩
        simp only [List.nil_append, List.foldl_nil, List.foldl_cons] at this ⊢
        rw [hch] at this ⊢
        exact (List.prefix_append _ _).trans this
    | cons k keys ih =>
      intro more d hall
      obtain ⟨ch, hch⟩ := hall k (by simp)
      have := ih more (d.press cw [enter] area.height k) (fun k hk => hall k (by simp at hk ⊢; exact .inr hk))
      simp only [List.cons_append, List.foldl_cons]
      exact ⟨by rw [this.1, hch], this.2⟩
  have hchars : ∀ k ∈ (input.filter fun | .key k => k.kind = 0 | _ => false).filterMap (fieldKey into),
      ∃ ch, ∀ d : Doc, d.press cw [enter] area.height k = ⟨d.before ++ [ch], d.after⟩ := by
    intro k hm
    obtain ⟨ev, h1, h2⟩ := List.mem_filterMap.1 hm
    have hin := (List.mem_filter.1 h1)
    cases ev with
    | mouse m => simp [fieldKey] at h2
    | other n => simp [fieldKey] at h2
    | key rk =>
      simp [fieldKey] at h2
      subst h2
      have ha := ht _ hin.1 rk rfl
      obtain ⟨_, _, _, a3⟩ := id ha
      by_cases he : rk.code = enter.code
      · refine ⟨'\n', fun d => ?_⟩
        rw [hk.lineBreak rk ha he]
        simp [Doc.press, Doc.insert]
      · rcases a3 with a3 | ⟨ch, a3, a4, _, a5, _⟩
        · exact absurd a3.1 he
        · refine ⟨ch, fun d => ?_⟩
          obtain ⟨mods, e1, e2⟩ := hk.char rk ch ha a3
          have hne : (⟨.char ch, [], mods⟩ : KeyComb) ≠ enter := fun e => hk.notChar ch (by rw [← e])
          rw [e1]
          rcases e2 with rfl | rfl <;> simp [Doc.press, hne, a4, a5, Doc.insert]
  obtain ⟨more, hmore⟩ := hkeys
  have hm := hmono (evs.filterMap fun e => fieldKey into e.event) more {} (by rw [hmore]; exact hchars)
  rw [hmore, hfold] at hm
  obtain ⟨m1, m2⟩ := hm
  simp at m1 m2
  refine ⟨f, ?_, ?_, ?_⟩
  · rw [handleAll_field cw into quitKey evs _ hnq, Option.bind_some, p1]
  · rw [p2, m1]
    simpa using m2
  · intro heq
    have : evs.filterMap (fun e => fieldKey into e.event) = (input.filter fun | .key k => k.kind = 0 | _ => false).filterMap (fieldKey into) := by
      rw [← k1, ← heq, List.filterMap_map]; rfl
    rw [p2, this, hfold]
    simp

/-- C74: what is typed on the keyboard is in the field: whatever the schedule, the field has at any time the start of the text typed, and all of it
when the terminal is read. -/
theorem C74_typed (cw : Char → Nat) {S : Type} {tr : S → RawKey → Option KeyComb × S} {o : Options} (ho : o.discardRawKeys = true) {c : S}
    {into : RawKey → KeyComb} {enter quitKey : KeyComb} (hk : PlainKeyboard tr into enter)
    (hq : quitKey ≠ enter ∧ quitKey.mods ≠ .none ∧ quitKey.mods ≠ .shift) (area : Area) (hw : 1 ≤ area.width)
    {acts : List LoopAct} {l : Loop S KeyComb (Run InputField)}
    (h : LoopExec tr o (fieldHandler cw into quitKey) c (some { InputField.new area with newLineKeys := [enter] }) acts l)
    (ht : ∀ ev ∈ loopInputs acts, Typing enter.code ev) :
    ∃ f, l.state = some f ∧ f.content.toText <+: typedText enter.code (loopInputs acts) ∧
      ((∃ ev l', loopStep tr o (fieldHandler cw into quitKey) l (.read ev) = some l') → f.content.toText = typedText enter.code (loopInputs acts)) := by
  have key := typing_handled cw ho hk hq area hw
  have halt : ∀ k, RawEvent.key k ∈ loopInputs acts → k.alt = false := fun k hm => (ht _ hm k rfl).1
  obtain ⟨blocks, opening, handled, hp, g1, g2, g3, g4, g5, g6⟩ := C74_handled h
  rw [singles halt hp] at g1
  obtain ⟨f, f1, f2, f3⟩ := key handled _ c ht g1
  refine ⟨f, by rw [g4, f1], f2, ?_⟩
  rintro ⟨ev, l', hr⟩
  obtain ⟨blocks', opening', hp', q1, q2, q3⟩ := C74_complete h ev ⟨l', hr⟩
  rw [singles halt hp'] at q1
  obtain ⟨f', f1', f2', f3'⟩ := key l.source.sent _ c ht (by rw [q1]; exact List.prefix_rfl)
  rw [q2] at f1'
  have : l.state = some f' := congrArg Prod.fst f1'
  rw [g4, f1] at this
  cases this
  exact f3' q1

private theorem keep_append {S : Type} {tr : S → RawKey → Option KeyComb × S} {o : Options} : ∀ (a b : List RawEvent) (c : S),
    ∃ c', keep tr o c (a ++ b) = keep tr o c a ++ keep tr o c' b
  | [], b, c => ⟨c, rfl⟩
  | .key k :: a, b, c => by
    obtain ⟨c', h⟩ := keep_append (tr := tr) (o := o) a b (tr c k).2
    exact ⟨c', by simp only [List.cons_append, keep, h, List.append_assoc]⟩
  | .mouse m :: a, b, c => by
    obtain ⟨c', h⟩ := keep_append (tr := tr) (o := o) a b c
    exact ⟨c', by simp only [List.cons_append, keep, h, List.append_assoc]⟩
  | .other n :: a, b, c => by
    obtain ⟨c', h⟩ := keep_append (tr := tr) (o := o) a b c
    exact ⟨c', by simp only [List.cons_append, keep, h]⟩

private theorem handleAll_append {handle : σ → TimedEv K → σ × Bool} : ∀ (a b : List (TimedEv K)) (st st' : σ), handleAll handle st a = (st', false) →
    handleAll handle st (a ++ b) = handleAll handle st' b
  | [], b, st, st', h => by simp only [handleAll, Prod.mk.injEq] at h; rw [← h.1]; rfl
  | e :: a, b, st, st', h => by
    simp only [handleAll, List.cons_append] at h ⊢
    by_cases hq : (handle st e).2 = true
    · rw [if_pos hq] at h; simp at h
    · rw [if_neg hq] at h ⊢
      exact handleAll_append a b _ _ h

/-- C74: when the key to quit comes after the typing, the terminal isn't read any more, and when the loop is left (which always comes, see
C74_progress and C74_bounded) the field has exactly the text typed. -/
theorem C74_typed_quit (cw : Char → Nat) {S : Type} {tr : S → RawKey → Option KeyComb × S} {o : Options} (ho : o.discardRawKeys = true) {c : S}
    {into : RawKey → KeyComb} {enter quitKey : KeyComb} (hk : PlainKeyboard tr into enter)
    (hq : quitKey ≠ enter ∧ quitKey.mods ≠ .none ∧ quitKey.mods ≠ .shift) (area : Area) (hw : 1 ≤ area.width)
    {acts : List LoopAct} {l : Loop S KeyComb (Run InputField)}
    (h : LoopExec tr o (fieldHandler cw into quitKey) c (some { InputField.new area with newLineKeys := [enter] }) acts l)
    {input : List RawEvent} {q : RawKey} (hi : loopInputs acts = input ++ [.key q]) (ht : ∀ ev ∈ input, Typing enter.code ev)
    (hpress : q.kind = 0) (halt : q.alt = false) (hquit : into q = quitKey) :
    (∀ ev, loopStep tr o (fieldHandler cw into quitKey) l (.read ev) = none) ∧
    ∃ f, l.state = some f ∧ f.content.toText <+: typedText enter.code input ∧ (l.left = true → f.content.toText = typedText enter.code input) := by
  have hal : ∀ k, RawEvent.key k ∈ loopInputs acts → k.alt = false := by
    intro k hm
    rw [hi] at hm
    rcases List.mem_append.1 hm with hm | hm
    · exact (ht _ hm k rfl).1
    · simp at hm; rw [hm]; exact halt
  have hkeep : keep tr o c (loopInputs acts) = keep tr o c input ++ [(.key q, some quitKey)] := by
    obtain ⟨c', hc⟩ := keep_append (tr := tr) (o := o) input [.key q] c
    rw [hi, hc]
    simp [keep, hk.press c' q hpress, hquit]
  -- what is handled is a part of the typing, or all of it and the key to quit
  have key : ∀ evs : List (TimedEv KeyComb), evs.map TimedEv.data <+: keep tr o c (loopInputs acts) →
      ∃ f, f.content.toText <+: typedText enter.code input ∧
        (handleAll (fieldHandler cw into quitKey) (some { InputField.new area with newLineKeys := [enter] }) evs = (some f, false) ∧
            evs.map TimedEv.data ≠ keep tr o c (loopInputs acts) ∨
          handleAll (fieldHandler cw into quitKey) (some { InputField.new area with newLineKeys := [enter] }) evs = (some f, true) ∧
            f.content.toText = typedText enter.code input) := by
    intro evs hpre
    rw [hkeep] at hpre ⊢
    rcases List.prefix_concat_iff.1 hpre with hall | hpre
    · have hlen : evs ≠ [] := by
        rintro rfl
        simp at hall
      obtain ⟨evs', e, rfl⟩ : ∃ evs' e, evs = evs' ++ [e] := ⟨evs.dropLast, evs.getLast hlen, (List.dropLast_concat_getLast hlen).symm⟩
      rw [List.map_append] at hall
      obtain ⟨h1, h2⟩ := List.append_inj' hall rfl
      simp only [List.map_cons, List.map_nil, List.cons.injEq, and_true] at h2
      obtain ⟨f, f1, f2, f3⟩ := typing_handled cw ho hk hq area hw evs' input c ht (by rw [h1]; exact List.prefix_rfl)
      refine ⟨f, f2, .inr ⟨?_, f3 h1⟩⟩
      rw [handleAll_append _ _ _ _ f1]
      have hc : e.comb = some quitKey := congrArg Prod.snd h2
      have hkey : e.isKey into quitKey = true := by
        unfold TimedEv.isKey
        rw [if_pos (by rw [hc])]
      simp [handleAll, fieldHandler, hkey]
    · obtain ⟨f, f1, f2, f3⟩ := typing_handled cw ho hk hq area hw evs input c ht hpre
      refine ⟨f, f2, .inl ⟨f1, fun he => ?_⟩⟩
      have := hpre.length_le
      rw [he, List.length_append] at this
      simp only [List.length_cons, List.length_nil] at this
      omega
  refine ⟨fun ev => ?_, ?_⟩
  · cases hr : loopStep tr o (fieldHandler cw into quitKey) l (.read ev) with
    | none => rfl
    | some l' =>
      obtain ⟨blocks, opening, hp, q1, q2, q3⟩ := C74_complete h ev ⟨l', hr⟩
      rw [singles hal hp] at q1
      obtain ⟨f, _, ⟨_, f3⟩ | ⟨f2, _⟩⟩ := key l.source.sent (by rw [q1]; exact List.prefix_rfl)
      · exact absurd q1 f3
      · rw [q2] at f2; simp at f2
  · by_cases hl : l.left = true
    · obtain ⟨sacts, inv⟩ := loop_inv h
      obtain ⟨blocks, opening, hp, hs⟩ := C34_events inv.exec
      rw [inv.input] at hp
      rw [singles hal hp] at hs
      have hall := (C74_quit h hl).1
      obtain ⟨f, f0, ⟨f2, _⟩ | ⟨f2, f3⟩⟩ := key l.source.sent hs
      · rw [hall] at f2; simp at f2
      · rw [hall] at f2
        exact ⟨f, congrArg Prod.fst f2, f0, fun _ => f3⟩
    · obtain ⟨blocks, opening, handled, hp, g1, g2, g3, g4, g5, g6⟩ := C74_handled h
      rw [singles hal hp] at g1
      obtain ⟨f, f0, ⟨f2, _⟩ | ⟨f2, _⟩⟩ := key handled g1
      · exact ⟨f, by rw [g4, f2], f0, fun h => absurd h hl⟩
      · exact ⟨f, by rw [g4, f2], f0, fun h => absurd h hl⟩

/-! ### Concrete cases -/

/-- Some actions, one after the other. -/
def runLoop (tr : S → RawKey → Option K × S) (o : Options) (handle : σ → TimedEv K → σ × Bool) : Loop S K σ → List LoopAct → Option (Loop S K σ)
  | l, [] => some l
  | l, a :: acts => match loopStep tr o handle l a with
    | some l' => runLoop tr o handle l' acts
    | none => none

theorem runLoop_exec : ∀ (more : List LoopAct) {acts : List LoopAct} {l l' : Loop S K σ}, LoopExec tr o handle c init acts l →
    runLoop tr o handle l more = some l' → LoopExec tr o handle c init (acts ++ more) l'
  | [], acts, l, l', h, he => by simp only [runLoop, Option.some.injEq] at he; subst he; simpa using h
  | a :: more, acts, l, l', h, he => by
    simp only [runLoop] at he
    split at he
    · rename_i l1 h1
      have := runLoop_exec more (h.step a h1) he
      simpa using this
    · simp at he

theorem runLoop_some {acts : List LoopAct} {l' : Loop S K σ} (he : runLoop tr o handle { source := { comb := c }, state := init } acts = some l') :
    LoopExec tr o handle c init acts l' := by
  have := runLoop_exec acts (LoopExec.init (tr := tr) (o := o) (handle := handle) (c := c) (init := init)) he
  simpa using this

/-- A conversion of keys, and its combiner. -/
def plainInto (k : RawKey) : KeyComb := ⟨k.code, [], if k.alt || k.ctrl || k.otherMods != 0 then .other 1 else if k.shift then .shift else .none⟩
def pressComb : Unit → RawKey → Option KeyComb × Unit := fun _ k => (if k.kind = 0 then some (plainInto k) else none, ())
def enterKey : KeyComb := ⟨.other 13, [], .none⟩
def ctrlQ : KeyComb := ⟨.char 'q', [], .other 1⟩

theorem plainKeyboard : PlainKeyboard pressComb plainInto enterKey where
  press := by intro c k h; simp [pressComb, h]
  release := by intro c k h; simp [pressComb, h]
  char := by
    rintro k c ⟨h1, h2, h3, h4⟩ hc
    cases hs : k.shift
    · exact ⟨.none, by simp [plainInto, h1, h2, h3, hc, hs], .inl rfl⟩
    · exact ⟨.shift, by simp [plainInto, h1, h2, h3, hc, hs], .inr rfl⟩
  lineBreak := by
    rintro k ⟨h1, h2, h3, h4⟩ hc
    rcases h4 with ⟨_, h5⟩ | ⟨c, h5, _⟩
    · simp [plainInto, h1, h2, h3, h5, hc, enterKey]
    · rw [hc] at h5; simp [enterKey] at h5
  notChar := by intro c; simp [enterKey]

/-- What happens for an event which is received, handled and answered. -/
def turn (k : RawKey) (now : Nat) : List LoopAct := [.read (.key k), .work now, .send, .receive, .answer, .wake]

/-- `h`, the release of `h`, `É`, a mouse move, enter and `x`. -/
def typingRun : List LoopAct :=
  turn { code := .char 'h' } 1 ++ [.read (.key { code := .char 'h', kind := 2 }), .work 2] ++ turn { code := .char 'É', shift := true } 3 ++
    [.read (.mouse ⟨.moved, 1, 2, 0⟩), .work 4] ++ turn { code := .other 13 } 5 ++ turn { code := .char 'x' } 6

def typingArea : Area := ⟨0, 0, 10, 3⟩

example : ∃ l f, LoopExec pressComb {} (fieldHandler (fun _ => 1) plainInto ctrlQ) () (some { InputField.new typingArea with newLineKeys := [enterKey] })
      typingRun l ∧ l.state = some f ∧ f.content.toText = "hÉ\nx".toList ∧ typedText enterKey.code (loopInputs typingRun) = "hÉ\nx".toList ∧
      l.source.waiting = false ∧ l.source.todo = [] := by
  refine ⟨_, _, runLoop_some (by rfl), rfl, by decide, by decide, by decide, by decide⟩

example : ctrlQ ≠ enterKey ∧ ctrlQ.mods ≠ .none ∧ ctrlQ.mods ≠ .shift ∧ ∀ ev ∈ loopInputs typingRun, Typing enterKey.code ev := by
  refine ⟨by decide, by decide, by decide, ?_⟩
  intro ev hev k hk
  have : loopInputs typingRun = [.key { code := .char 'h' }, .key { code := .char 'h', kind := 2 }, .key { code := .char 'É', shift := true },
    .mouse ⟨.moved, 1, 2, 0⟩, .key { code := .other 13 }, .key { code := .char 'x' }] := by decide
  rw [this] at hev
  subst hk
  simp at hev
  rcases hev with rfl | rfl | rfl | rfl | rfl
  · exact ⟨rfl, rfl, rfl, .inr ⟨'h', rfl, by decide, by decide, by decide, by decide⟩⟩
  · exact ⟨rfl, rfl, rfl, .inr ⟨'h', rfl, by decide, by decide, by decide, by decide⟩⟩
  · exact ⟨rfl, rfl, rfl, .inr ⟨'É', rfl, by decide, by decide, by decide, by decide⟩⟩
  · exact ⟨rfl, rfl, rfl, .inl ⟨rfl, rfl⟩⟩
  · exact ⟨rfl, rfl, rfl, .inr ⟨'x', rfl, by decide, by decide, by decide, by decide⟩⟩

/-- The application quits on `ctrl-q`: the thread stops, the loop is left, and the field has what was typed before. -/
example : ∃ l f, LoopExec pressComb {} (fieldHandler (fun _ => 1) plainInto ctrlQ) () (some { InputField.new typingArea with newLineKeys := [enterKey] })
      (typingRun ++ turn { code := .char 'q', ctrl := true } 7 ++ [.close]) l ∧ l.state = some f ∧ f.content.toText = "hÉ\nx".toList ∧
      l.left = true ∧ l.closed = true ∧ l.source.stopped = true ∧ l.panicked = false := by
  refine ⟨_, _, runLoop_some (by rfl), rfl, by decide, by decide, by decide, by decide, by decide⟩

/-- When the raw key events aren't discarded, the release of a key types it again. -/
theorem C74_typed_counterexample : ∃ (acts : List LoopAct) (l : Loop Unit KeyComb (Run InputField)) (f : InputField),
    LoopExec pressComb { discardRawKeys := false } (fieldHandler (fun _ => 1) plainInto ctrlQ) ()
      (some { InputField.new typingArea with newLineKeys := [enterKey] }) acts l ∧ l.state = some f ∧
      typedText enterKey.code (loopInputs acts) = ['h'] ∧ f.content.toText = ['h', 'h'] :=
  ⟨turn { code := .char 'h' } 1 ++ turn { code := .char 'h', kind := 2 } 2, _, _, runLoop_some (by rfl), rfl, by decide, by decide⟩

/-- `ALT-_` withholds what is typed after it. -/
theorem C74_withheld_counterexample : ∃ (acts : List LoopAct) (l : Loop Unit KeyComb (Run InputField)) (f : InputField),
    LoopExec pressComb {} (fieldHandler (fun _ => 1) plainInto ctrlQ) ()
      (some { InputField.new typingArea with newLineKeys := [enterKey] }) acts l ∧ l.state = some f ∧
      loopInputs acts = [.key kStart, .key kA] ∧ f.content.toText = [] ∧ ∀ ev, ∃ l', loopStep pressComb {} (fieldHandler (fun _ => 1) plainInto ctrlQ) l (.read ev) = some l' :=
  ⟨[.read (.key kStart), .read (.key kA)], _, _, runLoop_some (by rfl), rfl, by decide, by decide, by
    intro ev
    exact ⟨_, rfl⟩⟩

end Verif.Props
