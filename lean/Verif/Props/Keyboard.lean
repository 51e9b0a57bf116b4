import Verif.Model.Keyboard
import Verif.Props.EventSource
/-! C108: the keyboard protocol of the terminal around an event source. -/
namespace Verif.Props
open Verif Verif.Events

variable {S K : Type} {tr : S → RawKey → Option K × S} {o : Options} {c : S} {combining : Bool}

/-- The actions of the event source among those of an execution. -/
def keyedSourceActs : List KeyedAct → List Act
  | [] => []
  | .act a :: as => a :: keyedSourceActs as
  | .exit :: as => keyedSourceActs as

theorem keyedSourceActs_append (as bs : List KeyedAct) : keyedSourceActs (as ++ bs) = keyedSourceActs as ++ keyedSourceActs bs := by
  induction as with
  | nil => rfl
  | cons a as ih => cases a <;> simp [keyedSourceActs, ih]

theorem keyed_exec {acts : List KeyedAct} {k : Keyed S K} (h : KeyedExec tr o c combining acts k) : Exec tr o c (keyedSourceActs acts) k.source := by
  induction h with
  | init => exact .init
  | step a h he ih =>
    cases a with
    | exit =>
      simp only [Keyed.step] at he
      split at he
      · simp at he
      · cases he; simpa [keyedSourceActs_append, keyedSourceActs] using ih
    | act a =>
      simp only [Keyed.step] at he
      split at he
      · simp at he
      · split at he
        · simp at he
        · rename_i s hs
          cases he
          rw [keyedSourceActs_append]
          exact .step a ih hs

theorem stopped_stays {s s' : Source S K} {a : Act} (he : Events.step tr o s a = some s') (hs : s.stopped = true) : s'.stopped = true := by
  cases step_change he <;> simp_all

/-- The state of the keyboard: it's changed as long as the thread lives, if it was, and it's restored when the thread has ended. -/
theorem C108_restored {acts : List KeyedAct} {k : Keyed S K} (h : KeyedExec tr o c combining acts k) :
    k.changed = true ↔ combining = true ∧ k.source.stopped = false := by
  induction h with
  | init => simp
  | step a h he ih =>
    cases a with
    | exit =>
      simp only [Keyed.step] at he
      split at he
      · simp at he
      · cases he; exact ih
    | act a =>
      rename_i k k'
      simp only [Keyed.step] at he
      split at he
      · simp at he
      · split at he
        · simp at he
        · rename_i s hs
          cases he
          cases h1 : k.source.stopped with
          | true =>
            have h2 := stopped_stays hs h1
            rw [h1] at ih
            simp only [h2]
            simpa using ih
          | false =>
            rw [h1] at ih
            cases h2 : s.stopped <;> simp [ih]

/-- It's never changed when keys aren't combined, or when the terminal can't. -/
theorem C108_plain {acts : List KeyedAct} {k : Keyed S K} (h : KeyedExec tr o c false acts k) : k.changed = false := by
  cases hc : k.changed with
  | false => rfl
  | true => simpa using (C108_restored h).1 hc

/-- The proper ending: when the user answers `unblock(true)` to the event they received, the thread needs no other event: it can do nothing but end, and
the keyboard is restored when it has. -/
theorem C108_quit {acts : List KeyedAct} {k : Keyed S K} (h : KeyedExec tr o c combining acts k) (hx : k.exited = false)
    (hw : k.source.waiting = true) (hs : k.source.stopped = false) (hq : k.source.quits = []) (ha : k.source.sourceAlive = true) :
    ∃ k1, k.step tr o (.act (.unblock true)) = some k1 ∧ k1.changed = combining ∧
      (∀ ev, k1.step tr o (.act (.read ev)) = none) ∧ (∀ now, k1.step tr o (.act (.work now)) = none) ∧ k1.step tr o (.act .send) = none ∧
      ∃ k2, k1.step tr o (.act .wake) = some k2 ∧ k2.changed = false ∧ k2.source.stopped = true := by
  have ho := (exec_place (keyed_exec h)).waiting hw
  have hc : k.changed = combining := by
    have := C108_restored h
    rw [hs] at this
    cases h1 : k.changed <;> cases h2 : combining <;> simp_all
  refine ⟨{ k with source := { k.source with quits := [true] } }, ?_, hc, ?_, ?_, ?_, ?_⟩
  · simp [Keyed.step, Events.step, hx, ha, hs, hq]
  · intro ev; simp [Keyed.step, Events.step, hx, hw]
  · intro now
    simp only [Keyed.step, Events.step, hx]
    cases ht : k.source.todo <;> simp [hw]
  · simp [Keyed.step, Events.step, hx, ho]
  · exact ⟨_, by simp only [Keyed.step, Events.step, hx, hw, hs]; rfl, by simp, rfl⟩

/-- So does the drop of the source while an event is awaiting its answer, when all the answers have been read. -/
theorem C108_drop_answer {k : Keyed S K} (hx : k.exited = false) (hw : k.source.waiting = true) (hs : k.source.stopped = false)
    (hq : k.source.quits = []) (ha : k.source.sourceAlive = true) :
    ∃ k1, k.step tr o (.act .dropSource) = some k1 ∧ k1.changed = k.changed ∧
      ∃ k2, k1.step tr o (.act .wake) = some k2 ∧ k2.changed = false ∧ k2.source.stopped = true := by
  refine ⟨{ k with source := { k.source with sourceAlive := false } }, ?_, rfl, ?_⟩
  · simp [Keyed.step, Events.step, hx, ha, hs]
  · exact ⟨_, by simp only [Keyed.step, Events.step, hx, hw, hs, hq]; rfl, by simp, rfl⟩

/-- A list of actions, if they're possible. -/
def keyedRun (tr : S → RawKey → Option K × S) (o : Options) (k : Keyed S K) : List KeyedAct → Option (Keyed S K)
  | [] => some k
  | a :: as => (k.step tr o a).bind fun k' => keyedRun tr o k' as

theorem keyedRun_exec {acts more : List KeyedAct} {k k' : Keyed S K} (h : KeyedExec tr o c combining acts k) (hr : keyedRun tr o k more = some k') :
    KeyedExec tr o c combining (acts ++ more) k' := by
  induction more generalizing acts k with
  | nil => simp only [keyedRun, Option.some.injEq] at hr; subst hr; simpa using h
  | cons a as ih =>
    simp only [keyedRun] at hr
    cases hk : k.step tr o a with
    | none => simp [hk] at hr
    | some k1 =>
      rw [hk] at hr
      have := ih (.step a h hk) hr
      simpa using this

/-- An action which isn't the reading of an event of the terminal. -/
def NoRead : KeyedAct → Prop
  | .act (.read _) => False
  | _ => True

/-- While the thread reads the terminal, nothing but an event restores the keyboard: neither calls to `unblock` nor the drop of the source and of the
receivers nor the end of the process. -/
theorem C108_reading {acts more : List KeyedAct} {k k' : Keyed S K} (h : KeyedExec tr o c combining acts k) (hr : keyedRun tr o k more = some k')
    (hm : ∀ a ∈ more, NoRead a)
    (hw : k.source.waiting = false) (hs : k.source.stopped = false) (ho : k.source.outbox = none) (ht : k.source.todo = []) :
    k'.changed = combining ∧ k'.source.stopped = false := by
  induction more generalizing acts k with
  | nil =>
    simp only [keyedRun, Option.some.injEq] at hr
    subst hr
    have := C108_restored h
    rw [hs] at this
    refine ⟨?_, hs⟩
    cases h1 : k.changed <;> cases h2 : combining <;> simp_all
  | cons a as ih =>
    simp only [keyedRun] at hr
    cases hk : k.step tr o a with
    | none => simp [hk] at hr
    | some k1 =>
      rw [hk] at hr
      have hn := hm a (by simp)
      suffices hq : k1.source.waiting = false ∧ k1.source.stopped = false ∧ k1.source.outbox = none ∧ k1.source.todo = [] from
        ih (.step a h hk) hr (fun b hb => hm b (by simp [hb])) hq.1 hq.2.1 hq.2.2.1 hq.2.2.2
      cases a with
      | exit =>
        simp only [Keyed.step] at hk
        split at hk
        · simp at hk
        · cases hk; exact ⟨hw, hs, ho, ht⟩
      | act a =>
        simp only [Keyed.step] at hk
        split at hk
        · simp at hk
        · split at hk
          · simp at hk
          · rename_i s hse
            cases hk
            dsimp only
            cases step_change hse <;> simp_all [NoRead]

/-- The first event which has to be sent ends the thread when there's no more receiver, and restores the keyboard. -/
theorem C108_late {acts : List KeyedAct} {k : Keyed S K} (h : KeyedExec tr o c combining acts k) (hx : k.exited = false)
    (hr : k.source.receiverAlive = false) (ho : k.source.outbox ≠ none) :
    ∃ k1, k.step tr o (.act .send) = some k1 ∧ k1.changed = false ∧ k1.source.sent = k.source.sent := by
  cases he : k.source.outbox with
  | none => exact absurd he ho
  | some e =>
    have h1 : k.step tr o (.act .send) = some { k with
        source := { k.source with outbox := none, stopped := true }, changed := if !k.source.stopped then false else k.changed } := by
      simp [Keyed.step, Events.step, hx, hr, he]
    refine ⟨_, h1, ?_, rfl⟩
    have h2 := C108_restored (.step _ h h1)
    simpa using h2

theorem keyed_start {acts : List KeyedAct} {k : Keyed S K} (hr : keyedRun tr o { source := { comb := c }, changed := combining } acts = some k) :
    KeyedExec tr o c combining acts k := by
  simpa using keyedRun_exec (acts := []) .init hr

/-- The drop of the source and of all receivers isn't enough: the standard behaviour isn't restored on drop. -/
theorem C108_drop_counterexample : ∃ k : Keyed Unit RawKey,
    KeyedExec plainComb {} () true [.act .dropSource, .act .dropReceiver, .exit] k ∧ k.source.sourceAlive = false ∧ k.changed = true :=
  ⟨_, keyed_start (by rfl), by decide, by decide⟩

/-- Nor is the proper ending when the process ends before the thread: nothing waits for the thread. -/
theorem C108_exit_counterexample : ∃ k : Keyed Unit RawKey,
    KeyedExec plainComb {} () true [.act (.read (.key kA)), .act (.work 0), .act .send, .act (.unblock true), .act .dropSource, .exit] k ∧
    k.source.quits = [true] ∧ k.changed = true :=
  ⟨_, keyed_start (by rfl), by decide, by decide⟩

/-- Nor is a call to `unblock(true)` while the thread reads: the keyboard is restored after the next event, which is sent. -/
theorem C108_early_counterexample : ∃ k k' : Keyed Unit RawKey,
    KeyedExec plainComb {} () true [.act (.unblock true)] k ∧ k.changed = true ∧ k.step plainComb {} (.act .wake) = none ∧
    KeyedExec plainComb {} () true [.act (.unblock true), .act (.read (.key kA)), .act (.work 0), .act .send, .act .wake] k' ∧ k'.changed = false :=
  ⟨_, _, keyed_start (by rfl), by decide, by rfl, keyed_start (by rfl), by decide⟩

example : ∃ k : Keyed Unit RawKey, KeyedExec plainComb {} () true [.act (.read (.key kA)), .act (.work 0), .act .send] k ∧ k.exited = false ∧
    k.source.waiting = true ∧ k.source.stopped = false ∧ k.source.quits = [] ∧ k.source.sourceAlive = true ∧ k.changed = true :=
  ⟨_, keyed_start (by rfl), by decide, by decide, by decide, by decide, by decide, by decide⟩

example : ∃ k : Keyed Unit RawKey, KeyedExec plainComb {} () true
      [.act (.read (.key kA)), .act (.work 0), .act .send, .act (.unblock true), .act .wake, .act .dropSource, .exit] k ∧ k.changed = false :=
  ⟨_, keyed_start (by rfl), by decide⟩

example : ∃ k : Keyed Unit RawKey, KeyedExec plainComb {} () true
      [.act .dropSource, .act .dropReceiver, .act (.read (.key kA)), .act (.work 0)] k ∧
    k.exited = false ∧ k.source.receiverAlive = false ∧ k.source.outbox ≠ none ∧ k.changed = true :=
  ⟨_, keyed_start (by rfl), by decide, by decide, by decide, by decide⟩

end Verif.Props
