import Verif.Props.EventSource
/-! C36: the event source always comes back to reading. -/
namespace Verif.Props
open Verif.Events

variable {S K : Type} {tr : S → RawKey → Option K × S} {o : Options} {c : S}

theorem threadActs_snoc (acts : List Act) (a : Act) : threadActs (acts ++ [a]) = threadActs acts + threadActs [a] := by
  simp [threadActs, List.countP_append]

theorem inputs_snoc_length (acts : List Act) (a : Act) : (inputs (acts ++ [a])).length = (inputs acts).length + (inputs [a]).length := by
  rw [inputs_append, List.length_append]

/-- What reading an event gives to do. -/
theorem read_load (s : Source S K) (ev : RawEvent) (ht : s.todo = []) :
    ((s.read ev).seq.getD []).length + (s.read ev).todo.length ≤ (s.seq.getD []).length + 1 := by
  unfold Source.read
  cases hs : s.seq with
  | none =>
    simp only
    cases ev with
    | key k => simp only; split <;> simp [ht]
    | mouse m => simp
    | other n => simp
  | some keys =>
    simp only
    cases ev with
    | key k =>
      simp only
      split
      · simp only [Source.offer]
        split <;> simp [ht]
      · split <;> simp [ht]
    | mouse m => simp
    | other n => simp

/-- What the work leaves to do. -/
theorem work_outbox (s : Source S K) (t : Todo) (now : Nat) (_ : s.outbox = none) : (s.work tr o now t).outbox.toList.length ≤ 1 := by
  cases (s.work tr o now t).outbox <;> simp

/-- The events read pay for what is to do. -/
theorem exec_load {acts : List Act} {s : Source S K} (h : Exec tr o c acts s) :
    threadActs acts + (if s.stopped then 0 else 3 * (s.seq.getD []).length + 3 * s.todo.length + 2 * s.outbox.toList.length + s.waiting.toNat) ≤
      3 * (inputs acts).length ∧
    s.sent.length + s.outbox.toList.length + s.todo.length + (s.seq.getD []).length ≤ (inputs acts).length := by
  induction h with
  | init => simp [threadActs, inputs]
  | @step acts s s' a h he ih =>
    obtain ⟨i1, i2⟩ := ih
    have hpl := exec_place h
    rw [threadActs_snoc, inputs_snoc_length]
    cases step_change he with
    | read ev h1 h2 h3 h4 =>
      obtain ⟨-, -, f1, f2, f3, -, f4, -⟩ := read_frame s ev
      have hl := read_load s ev h4
      rw [h1, h2, h3, h4] at i1
      rw [h3, h4] at i2
      rw [f1, f2, f3, f4, h1, h2, h3]
      have e1 : threadActs [Act.read ev] = 0 := rfl
      have e2 : (inputs [Act.read ev]).length = 1 := rfl
      rw [e1, e2]
      simp at i1 i2 ⊢
      omega
    | work now t ts hts h1 h2 h3 =>
      obtain ⟨f1, f2, f3, f4, f5, -⟩ := work_frame (tr := tr) (o := o) ({ s with todo := ts } : Source S K) t now
      have hb := work_outbox (tr := tr) (o := o) ({ s with todo := ts } : Source S K) t now h3
      rw [f1, f2, f3, f4, f5]
      generalize (({ s with todo := ts } : Source S K).work tr o now t).outbox.toList.length = n at hb ⊢
      rw [h1, h2, h3, hts] at i1
      rw [h3, hts] at i2
      have e1 : threadActs [Act.work now] = 1 := rfl
      have e2 : (inputs [Act.work now]).length = 0 := rfl
      rw [e1, e2]
      simp [h1, h2] at i1 i2 ⊢
      omega
    | send e ho h1 =>
      have hst : s.stopped = false := by
        cases hs : s.stopped with
        | false => rfl
        | true => rw [hpl.stopped hs] at ho; simp at ho
      have hw : s.waiting = false := by
        cases hs : s.waiting with
        | false => rfl
        | true => rw [hpl.waiting hs] at ho; simp at ho
      simp only [hst, ho, hw] at *
      simp [threadActs, inputs] at *
      omega
    | lost e ho h1 =>
      have hst : s.stopped = false := by
        cases hs : s.stopped with
        | false => rfl
        | true => rw [hpl.stopped hs] at ho; simp at ho
      simp only [hst, ho] at *
      simp [threadActs, inputs] at *
      omega
    | wake qs hq h1 h2 =>
      simp only [h1, h2] at *
      simp [threadActs, inputs] at *
      omega
    | quit qs hq h1 h2 =>
      simp only [h1, h2] at *
      simp [threadActs, inputs] at *
      omega
    | orphan hq h0 h1 h2 =>
      simp only [h1, h2] at *
      simp [threadActs, inputs] at *
      omega
    | unblock q h1 h2 => simpa [threadActs, inputs] using ⟨i1, i2⟩
    | take q qs hq => simpa [threadActs, inputs] using ⟨i1, i2⟩
    | dropSource h => simpa [threadActs, inputs] using ⟨i1, i2⟩
    | dropReceiver h h1 => simpa [threadActs, inputs] using ⟨i1, i2⟩

/-- The thread doesn't run for nothing: whatever the schedule, it does at most three actions by event read, before it reads, awaits `unblock` or ends. -/
theorem C36_bounded_work {acts : List Act} {s : Source S K} (h : Exec tr o c acts s) : threadActs acts ≤ 3 * (inputs acts).length :=
  Nat.le_trans (Nat.le_add_right _ _) (exec_load h).1

/-- A user who keeps the source, has answered each event by `unblock(false)` (one call by event read is enough) and never quits, has received, when the
thread has nothing more to do, all the events kept. With `C36_bounded_work`, this happens after finitely many actions. -/
theorem C36_delivered {acts : List Act} {s : Source S K} (h : Exec tr o c acts s) (ha : s.sourceAlive = true) (hq : true ∉ unblocks acts)
    (hu : s.sent.length ≤ (unblocks acts).length) (hi : Idle tr o s) :
    ∃ blocks opening, Parsed (inputs acts) blocks opening ∧ s.sent.map TimedEv.data = keep tr o c (blocks.flatMap Block.ordinary) := by
  have hs : s.stopped = false := by
    cases hs : s.stopped with
    | false => rfl
    | true => exact absurd ((exec_unblock h).2.2 hs ha) hq
  obtain ⟨hp1, hp2⟩ := C36_progress h hs
  obtain ⟨j1, j2, j3⟩ := hi
  cases hw : s.waiting with
  | true =>
    rcases hp2 hw with hlt | ⟨s', he⟩
    · omega
    · rw [j3] at he; cases he
  | false =>
    rcases hp1 hw with ⟨s', he⟩ | hall | hread
    · rw [j2] at he; cases he
    · obtain ⟨s', he⟩ := hall 0
      rw [j1 0] at he; cases he
    · exact C34_complete h (.other 0) (hread (.other 0))

/-- Calling `unblock(false)` once by event read is enough. -/
theorem C36_enough {acts : List Act} {s : Source S K} (h : Exec tr o c acts s) : s.sent.length ≤ (inputs acts).length := by
  have := (exec_load h).2
  omega

/-- As long as it isn't idle, the thread can act. -/
theorem C36_not_idle {s : Source S K} (h : ¬ Idle tr o s) : ∃ a s', threadActs [a] = 1 ∧ step tr o s a = some s' := by
  by_cases h1 : ∀ now, step tr o s (.work now) = none
  · by_cases h2 : step tr o s .send = none
    · by_cases h3 : step tr o s .wake = none
      · exact absurd ⟨h1, h2, h3⟩ h
      · obtain ⟨s', hs⟩ := Option.ne_none_iff_exists'.1 h3
        exact ⟨.wake, s', rfl, hs⟩
    · obtain ⟨s', hs⟩ := Option.ne_none_iff_exists'.1 h2
      exact ⟨.send, s', rfl, hs⟩
  · have : ∃ now, step tr o s (.work now) ≠ none := Classical.not_forall.1 h1
    obtain ⟨now, hn⟩ := this
    obtain ⟨s', hs⟩ := Option.ne_none_iff_exists'.1 hn
    exact ⟨.work now, s', rfl, hs⟩

/-- The actions of the thread can be carried on until it's idle. -/
theorem C36_until_idle {acts : List Act} {s : Source S K} (h : Exec tr o c acts s) :
    ∃ more s', (∀ a ∈ more, threadActs [a] = 1) ∧ Exec tr o c (acts ++ more) s' ∧ Idle tr o s' := by
  have key : ∀ n (acts : List Act) (s : Source S K), Exec tr o c acts s → 3 * (inputs acts).length - threadActs acts ≤ n →
      ∃ more s', (∀ a ∈ more, threadActs [a] = 1) ∧ Exec tr o c (acts ++ more) s' ∧ Idle tr o s' := by
    intro n
    induction n with
    | zero =>
      intro acts s h hn
      by_cases hi : Idle tr o s
      · exact ⟨[], s, by simp, by simpa using h, hi⟩
      · obtain ⟨a, s', ha, hs⟩ := C36_not_idle hi
        have hx := Exec.step a h hs
        have hb := C36_bounded_work hx
        rw [threadActs_snoc, inputs_snoc_length, ha] at hb
        have : (inputs [a]).length = 0 := by cases a <;> simp [threadActs, inputs] at *
        omega
    | succ n ih =>
      intro acts s h hn
      by_cases hi : Idle tr o s
      · exact ⟨[], s, by simp, by simpa using h, hi⟩
      · obtain ⟨a, s', ha, hs⟩ := C36_not_idle hi
        have hx := Exec.step a h hs
        have h0 : (inputs [a]).length = 0 := by cases a <;> simp [threadActs, inputs] at *
        obtain ⟨more, s'', hm, he, hid⟩ := ih (acts ++ [a]) s' hx (by rw [threadActs_snoc, inputs_snoc_length, ha, h0]; omega)
        refine ⟨a :: more, s'', ?_, by simpa using he, hid⟩
        intro b hb
        rcases List.mem_cons.1 hb with rfl | hb
        · exact ha
        · exact hm b hb
  exact key _ acts s h (Nat.le_refl _)

/-- A broken sequence and a resize, all answered. -/
def answeredRun : List Act :=
  [.read (.key kStart), .read (.key kA), .read (.other 1), .unblock false, .unblock false, .unblock false,
   .work 5, .send, .wake, .work 6, .send, .wake, .work 7, .send, .wake]

example : ∃ s, Exec plainComb {} () answeredRun s ∧ s.sourceAlive = true ∧ true ∉ unblocks answeredRun ∧
    s.sent.length ≤ (unblocks answeredRun).length ∧ Idle plainComb {} s ∧ s.sent.length = 3 ∧ threadActs answeredRun = 9 ∧
    (inputs answeredRun).length = 3 :=
  ⟨_, runActs_some (by rfl), by decide, by decide, by decide, ⟨fun _ => by rfl, by rfl, by rfl⟩, by decide, by decide, by decide⟩

/-- Without the call to `unblock`, the events which follow aren't delivered. -/
theorem C36_delivered_counterexample : ∃ s : Source Unit RawKey,
    Exec plainComb {} () [.read (.key kStart), .read (.other 1), .work 5, .send] s ∧ Idle plainComb {} s ∧ s.sent.length = 1 :=
  ⟨_, runActs_some (by rfl), ⟨fun _ => by rfl, by rfl, by rfl⟩, by decide⟩

end Verif.Props
