import Verif.Spec.Background
import Verif.Props.EventSource
/-! C100: a background computation testing the event counter is interrupted by the next event, and by nothing else. -/
namespace Verif.Props
open Verif Verif.Events

variable {S K : Type} {tr : S → RawKey → Option K × S} {o : Options} {c : S}

/-- The counter never decreases. -/
theorem step_count {s s' : Source S K} {a : Act} (he : step tr o s a = some s') : s.count ≤ s'.count := by
  cases step_change he with
  | read ev => rw [(read_frame s ev).2.2.2.2.2.1]; exact Nat.le_refl _
  | work now t ts ht h1 h2 h3 =>
    obtain ⟨_, _, _, _, _, _, _, _, _, _, _, f12⟩ := work_frame (tr := tr) (o := o) ({ s with todo := ts } : Source S K) t now
    have := f12 h3
    rw [this]
    exact Nat.le_add_right _ _
  | _ => exact Nat.le_refl _

/-- The counter isn't more than one over the number of calls to `unblock(false)` before the first `unblock(true)`. -/
theorem exec_count_bound {acts : List Act} {s : Source S K} (h : Exec tr o c acts s) :
    s.count ≤ ((unblocks acts).takeWhile (· = false)).length + 1 := by
  induction h with
  | init => exact Nat.zero_le _
  | @step acts s s' a h he ih =>
    have mono : ∀ l l' : List Bool, (l.takeWhile (· = false)).length ≤ ((l ++ l').takeWhile (· = false)).length := by
      intro l l'
      induction l with
      | nil => simp
      | cons x l ih => cases x <;> simp_all
    have hu : unblocks (acts ++ [a]) = unblocks acts ++ unblocks [a] := by simp [unblocks]
    have hm := mono (unblocks acts) (unblocks [a])
    rw [← hu] at hm
    have same : s'.count = s.count → s'.count ≤ ((unblocks (acts ++ [a])).takeWhile (· = false)).length + 1 := by intro e; omega
    cases step_change he with
    | read ev => exact same (read_frame s ev).2.2.2.2.2.1
    | work now t ts ht h1 h2 h3 =>
      obtain ⟨_, _, _, _, _, _, _, _, _, _, _, f12⟩ := work_frame (tr := tr) (o := o) ({ s with todo := ts } : Source S K) t now
      have hc := f12 h3
      have hc' := (exec_count h).1 h1
      rw [h3] at hc'
      simp only [Option.toList_none, List.length_nil, Nat.add_zero] at hc'
      obtain ⟨n, j1, j2⟩ := (exec_unblock h).1 h1
      rw [h2] at j2
      simp only [Bool.false_eq_true, if_false, Nat.add_zero] at j2
      have hb : ∀ n (l : List Bool), n ≤ ((List.replicate n false ++ l).takeWhile (· = false)).length := by
        intro n l
        induction n with
        | zero => simp
        | succ n ih => simp [List.replicate_succ]
      have hb' := hb n s.quits
      rw [← j1] at hb'
      have hl : ∀ x : Option (TimedEv K), x.toList.length ≤ 1 := fun x => by cases x <;> simp
      have := hl (({ s with todo := ts } : Source S K).work tr o now t).outbox
      have e : ({ s with todo := ts } : Source S K).count = s.count := rfl
      rw [e] at hc
      omega
    | _ => exact same rfl

theorem sourceActs_append (a b : List BackAct) : sourceActs (a ++ b) = sourceActs a ++ sourceActs b := by
  simp [sourceActs]

theorem unblocks_append (a b : List Act) : unblocks (a ++ b) = unblocks a ++ unblocks b := by
  simp [unblocks]

theorem back_append : ∀ (acts more : List BackAct) (b : Back S K),
    Back.run tr o b (acts ++ more) = (Back.run tr o b acts).bind fun b => Back.run tr o b more
  | [], more, b => rfl
  | a :: acts, more, b => by
    show ((b.step tr o a).bind fun b => Back.run tr o b (acts ++ more)) = ((b.step tr o a).bind fun b => Back.run tr o b acts).bind _
    cases b.step tr o a with
    | none => rfl
    | some b => exact back_append acts more b

/-- What is before and after some of the actions. -/
theorem back_split {acts more : List BackAct} {b b' : Back S K} (h : Back.run tr o b (acts ++ more) = some b') :
    ∃ b1, Back.run tr o b acts = some b1 ∧ Back.run tr o b1 more = some b' := by
  rw [back_append] at h
  cases h1 : Back.run tr o b acts with
  | none => rw [h1] at h; cases h
  | some b1 => rw [h1] at h; exact ⟨b1, rfl, h⟩

/-- An action, seen from the source. -/
theorem back_step_source {b b' : Back S K} {a : BackAct} (h : b.step tr o a = some b') :
    ((∃ x, a = .source x ∧ step tr o b.source x = some b'.source) ∨ ((∀ x, a ≠ .source x) ∧ b'.source = b.source)) ∧
    (b.received ≤ b.source.sent.length → b'.received ≤ b'.source.sent.length) ∧ b.received ≤ b'.received := by
  cases a with
  | source x =>
    simp only [Back.step] at h
    cases hs : step tr o b.source x with
    | none => rw [hs] at h; cases h
    | some s =>
      rw [hs] at h
      simp only [Option.map_some, Option.some.injEq] at h
      subst h
      refine ⟨.inl ⟨x, rfl, hs⟩, ?_, Nat.le_refl _⟩
      intro hr
      have hm : b.source.sent <+: s.sent := by
        cases step_change hs with
        | read ev => rw [(read_frame _ ev).2.2.2.2.2.2.1]; exact List.prefix_rfl
        | work now t ts =>
          obtain ⟨_, _, _, _, f5, _⟩ := work_frame (tr := tr) (o := o) ({ b.source with todo := ts } : Source S K) t now
          rw [f5]; exact List.prefix_rfl
        | send e => exact List.prefix_append _ _
        | _ => exact List.prefix_rfl
      exact Nat.le_trans hr hm.length_le
  | receive =>
    simp only [Back.step] at h
    split at h
    · rename_i hlt
      simp only [Option.some.injEq] at h
      subst h
      exact ⟨.inr ⟨by simp, rfl⟩, fun _ => hlt, Nat.le_succ _⟩
    · cases h
  | start n =>
    simp only [Back.step, Option.some.injEq] at h
    subst h
    exact ⟨.inr ⟨by simp, rfl⟩, id, Nat.le_refl _⟩
  | check i =>
    simp only [Back.step] at h
    cases ht : b.tasks[i]? with
    | none => rw [ht] at h; cases h
    | some t =>
      rw [ht] at h
      simp only [Option.bind_some] at h
      cases hc : t.check b.source.count with
      | none => rw [hc] at h; cases h
      | some t' =>
        rw [hc] at h
        simp only [Option.map_some, Option.some.injEq] at h
        subst h
        exact ⟨.inr ⟨by simp, rfl⟩, id, Nat.le_refl _⟩
  | work i =>
    simp only [Back.step] at h
    cases ht : b.tasks[i]? with
    | none => rw [ht] at h; cases h
    | some t =>
      rw [ht] at h
      simp only [Option.bind_some] at h
      cases hc : t.work with
      | none => rw [hc] at h; cases h
      | some t' =>
        rw [hc] at h
        simp only [Option.map_some, Option.some.injEq] at h
        subst h
        exact ⟨.inr ⟨by simp, rfl⟩, id, Nat.le_refl _⟩

/-- The source follows its own actions. -/
theorem back_exec : ∀ (more : List BackAct) {acts : List Act} {b b' : Back S K}, Exec tr o c acts b.source → b.received ≤ b.source.sent.length →
    Back.run tr o b more = some b' → Exec tr o c (acts ++ sourceActs more) b'.source ∧ b'.received ≤ b'.source.sent.length ∧ b.source.count ≤ b'.source.count
  | [], acts, b, b', h, hr, he => by
    simp only [Back.run, Option.some.injEq] at he
    subst he
    exact ⟨by simpa [sourceActs] using h, hr, Nat.le_refl _⟩
  | a :: more, acts, b, b', h, hr, he => by
    simp only [Back.run] at he
    cases hs : b.step tr o a with
    | none => rw [hs] at he; cases he
    | some b1 =>
      rw [hs] at he
      simp only [Option.bind_some] at he
      obtain ⟨h1, h2, _⟩ := back_step_source hs
      rcases h1 with ⟨x, rfl, hx⟩ | ⟨hn, e⟩
      · obtain ⟨i1, i2, i3⟩ := back_exec more (h.step x hx) (h2 hr) he
        refine ⟨?_, i2, Nat.le_trans (step_count hx) i3⟩
        simpa [sourceActs] using i1
      · have h' : Exec tr o c acts b1.source := by rw [e]; exact h
        obtain ⟨i1, i2, i3⟩ := back_exec more h' (h2 hr) he
        refine ⟨?_, i2, by rw [← e]; exact i3⟩
        cases a with
        | source x => exact absurd rfl (hn x)
        | _ => exact i1

theorem back_init_exec {acts : List BackAct} {b : Back S K} (h : Back.run tr o (Back.init c) acts = some b) :
    Exec tr o c (sourceActs acts) b.source ∧ b.received ≤ b.source.sent.length := by
  obtain ⟨h1, h2, _⟩ := back_exec (c := c) acts (acts := []) (b := Back.init c) .init (Nat.le_refl 0) h
  exact ⟨by simpa using h1, h2⟩

/-- What an action does of a computation. -/
def TaskStep (i : Nat) (count : Nat) (t : Task) (a : BackAct) (t' : Task) : Prop :=
  (a = .check i ∧ t.check count = some t') ∨ (a = .work i ∧ t.work = some t') ∨ (a ≠ .check i ∧ a ≠ .work i ∧ t' = t)

theorem back_step_task {b b' : Back S K} {a : BackAct} (h : b.step tr o a = some b') {i : Nat} {t : Task} (ht : b.tasks[i]? = some t) :
    ∃ t', b'.tasks[i]? = some t' ∧ TaskStep i b.source.count t a t' := by
  have hi : i < b.tasks.length := by
    by_cases hh : i < b.tasks.length
    · exact hh
    · rw [List.getElem?_eq_none (by omega)] at ht; cases ht
  cases a with
  | source x =>
    simp only [Back.step] at h
    cases hs : step tr o b.source x with
    | none => rw [hs] at h; cases h
    | some s =>
      rw [hs] at h
      simp only [Option.map_some, Option.some.injEq] at h
      subst h
      exact ⟨t, ht, .inr (.inr ⟨by simp, by simp, rfl⟩)⟩
  | receive =>
    simp only [Back.step] at h
    split at h
    · simp only [Option.some.injEq] at h
      subst h
      exact ⟨t, ht, .inr (.inr ⟨by simp, by simp, rfl⟩)⟩
    · cases h
  | start n =>
    simp only [Back.step, Option.some.injEq] at h
    subst h
    exact ⟨t, by rw [List.getElem?_append_left hi]; exact ht, .inr (.inr ⟨by simp, by simp, rfl⟩)⟩
  | check j =>
    simp only [Back.step] at h
    cases hj : b.tasks[j]? with
    | none => rw [hj] at h; cases h
    | some u =>
      rw [hj] at h
      simp only [Option.bind_some] at h
      cases hc : u.check b.source.count with
      | none => rw [hc] at h; cases h
      | some u' =>
        rw [hc] at h
        simp only [Option.map_some, Option.some.injEq] at h
        subst h
        by_cases hij : j = i
        · subst hij
          rw [ht] at hj
          cases hj
          exact ⟨u', by simp [hi], .inl ⟨rfl, hc⟩⟩
        · exact ⟨t, by simp only [List.getElem?_set, if_neg hij]; exact ht, .inr (.inr ⟨by simpa using hij, by simp, rfl⟩)⟩
  | work j =>
    simp only [Back.step] at h
    cases hj : b.tasks[j]? with
    | none => rw [hj] at h; cases h
    | some u =>
      rw [hj] at h
      simp only [Option.bind_some] at h
      cases hc : u.work with
      | none => rw [hc] at h; cases h
      | some u' =>
        rw [hc] at h
        simp only [Option.map_some, Option.some.injEq] at h
        subst h
        by_cases hij : j = i
        · subst hij
          rw [ht] at hj
          cases hj
          exact ⟨u', by simp [hi], .inr (.inl ⟨rfl, hc⟩)⟩
        · exact ⟨t, by simp only [List.getElem?_set, if_neg hij]; exact ht, .inr (.inr ⟨by simp, by simpa using hij, rfl⟩)⟩

/-- What the test does. -/
theorem check_cases {t t' : Task} {count : Nat} (h : t.check count = some t') :
    t.ended = none ∧ t.checked = false ∧
    ((t.done = t.size ∧ t' = { t with ended := some true }) ∨ (t.done ≠ t.size ∧ count ≠ t.noted ∧ t' = { t with ended := some false }) ∨
      (t.done ≠ t.size ∧ count = t.noted ∧ t' = { t with checked := true })) := by
  unfold Task.check at h
  split at h
  · cases h
  · rename_i h0
    have e1 : t.ended = none := by
      cases he : t.ended with
      | none => rfl
      | some x => exact absurd (.inl (by simp [he])) h0
    have e2 : t.checked = false := by
      cases he : t.checked with
      | false => rfl
      | true => exact absurd (.inr he) h0
    refine ⟨e1, e2, ?_⟩
    split at h
    · rename_i hd; exact .inl ⟨hd, by cases h; rfl⟩
    · rename_i hd
      split at h
      · rename_i hc; exact .inr (.inl ⟨hd, hc, by cases h; rfl⟩)
      · rename_i hc; exact .inr (.inr ⟨hd, by simpa using hc, by cases h; rfl⟩)

theorem work_cases {t t' : Task} (h : t.work = some t') : t.ended = none ∧ t.checked = true ∧ t' = { t with done := t.done + 1, checked := false } := by
  unfold Task.work at h
  split at h
  · cases h
  · rename_i h0
    refine ⟨?_, ?_, by cases h; rfl⟩
    · cases he : t.ended with
      | none => rfl
      | some x => exact absurd (.inl (by simp [he])) h0
    · cases he : t.checked with
      | true => rfl
      | false => exact absurd (.inr he) h0

/-- What is always true of a computation, when the counter is `count`. -/
structure TaskInv (count : Nat) (t : Task) : Prop where
  done : t.done + (if t.checked then 1 else 0) ≤ t.size
  finished : t.ended = some true → t.done = t.size
  interrupted : t.ended = some false → t.noted < count
  noted : t.noted ≤ count
  checked : t.ended ≠ none → t.checked = false

/-- The actions of a computation already done, from its state. -/
def taskAge (t : Task) : Nat := 2 * t.done + (if t.checked then 1 else 0) + (if t.ended.isSome then 1 else 0)

theorem task_step_inv {i count count' : Nat} {t t' : Task} {a : BackAct} (h : TaskStep i count t a t') (hc : count ≤ count') (inv : TaskInv count t) :
    TaskInv count' t' ∧ t'.noted = t.noted ∧ t'.size = t.size ∧ taskAge t' = taskAge t + taskActs i [a] := by
  rcases h with ⟨rfl, h⟩ | ⟨rfl, h⟩ | ⟨h1, h2, rfl⟩
  · obtain ⟨e1, e2, h | h | h⟩ := check_cases h
    · obtain ⟨hd, rfl⟩ := h
      have := inv.done
      exact ⟨⟨inv.done, fun _ => hd, by simp, Nat.le_trans inv.noted hc, fun _ => e2⟩, rfl, rfl, by simp [taskAge, taskActs, e1]⟩
    · obtain ⟨hd, hn, rfl⟩ := h
      have := inv.noted
      exact ⟨⟨inv.done, by simp, fun _ => by show t.noted < count'; omega, Nat.le_trans inv.noted hc, fun _ => e2⟩, rfl, rfl, by simp [taskAge, taskActs, e1]⟩
    · obtain ⟨hd, hn, rfl⟩ := h
      have := inv.done
      rw [e2] at this
      refine ⟨⟨?_, ?_, ?_, Nat.le_trans inv.noted hc, ?_⟩, rfl, rfl, ?_⟩
      · simp at this ⊢; omega
      · show t.ended = some true → _; rw [e1]; simp
      · show t.ended = some false → _; rw [e1]; simp
      · show t.ended ≠ none → _; rw [e1]; simp
      · simp [taskAge, taskActs, e1, e2]
  · obtain ⟨e1, e2, rfl⟩ := work_cases h
    have := inv.done
    rw [e2] at this
    refine ⟨⟨?_, ?_, ?_, Nat.le_trans inv.noted hc, ?_⟩, rfl, rfl, ?_⟩
    · simp at this ⊢; omega
    · show t.ended = some true → _; rw [e1]; simp
    · show t.ended = some false → _; rw [e1]; simp
    · intro _; rfl
    · simp [taskAge, taskActs, e1, e2]; omega
  · refine ⟨⟨inv.done, inv.finished, fun h => Nat.lt_of_lt_of_le (inv.interrupted h) hc, Nat.le_trans inv.noted hc, inv.checked⟩, rfl, rfl, ?_⟩
    simp [taskActs, h1, h2]

/-- A computation through actions. -/
theorem task_run {i : Nat} : ∀ (more : List BackAct) {b b' : Back S K} {t : Task}, b.tasks[i]? = some t → TaskInv b.source.count t →
    Back.run tr o b more = some b' →
    ∃ t', b'.tasks[i]? = some t' ∧ TaskInv b'.source.count t' ∧ t'.noted = t.noted ∧ t'.size = t.size ∧ taskAge t' = taskAge t + taskActs i more
  | [], b, b', t, ht, inv, he => by
    simp only [Back.run, Option.some.injEq] at he
    subst he
    exact ⟨t, ht, inv, rfl, rfl, rfl⟩
  | a :: more, b, b', t, ht, inv, he => by
    simp only [Back.run] at he
    cases hs : b.step tr o a with
    | none => rw [hs] at he; cases he
    | some b1 =>
      rw [hs] at he
      simp only [Option.bind_some] at he
      obtain ⟨t1, ht1, hst⟩ := back_step_task hs ht
      have hc : b.source.count ≤ b1.source.count := by
        rcases (back_step_source hs).1 with ⟨x, _, hx⟩ | ⟨_, e⟩
        · exact step_count hx
        · rw [e]; exact Nat.le_refl _
      obtain ⟨i1, i2, i3, i4⟩ := task_step_inv hst hc inv
      obtain ⟨t', j1, j2, j3, j4, j5⟩ := task_run more ht1 i1 he
      refine ⟨t', j1, j2, by rw [j3, i2], by rw [j4, i3], ?_⟩
      rw [j5, i4]
      have : taskActs i (a :: more) = taskActs i [a] + taskActs i more := by
        simp only [taskActs]
        rw [← List.countP_append]; rfl
      omega

/-- A computation from its start. -/
theorem task_start {n : Nat} {more : List BackAct} {b b' : Back S K} (h : Back.run tr o b (.start n :: more) = some b') :
    ∃ t, b'.tasks[b.tasks.length]? = some t ∧ TaskInv b'.source.count t ∧ t.noted = b.source.count ∧ t.size = n ∧ taskAge t = taskActs b.tasks.length more := by
  simp only [Back.run, Back.step, Option.bind_some] at h
  obtain ⟨t, h1, h2, h3, h4, h5⟩ := task_run (i := b.tasks.length) more
    (b := { b with tasks := b.tasks ++ [{ noted := b.source.count, size := n }] }) (t := { noted := b.source.count, size := n }) (by simp)
    ⟨Nat.zero_le _, by simp, by simp, Nat.le_refl _, by simp⟩ h
  exact ⟨t, h1, h2, h3, h4, by rw [h5]; simp [taskAge]⟩

/-- When an event is being handled, its number is the counter, and all the previous ones have been answered by `unblock(false)`. -/
theorem handling {acts : List BackAct} {b : Back S K} (h : Back.run tr o (Back.init c) acts = some b) (hh : Handling acts b) :
    b.source.count = b.received ∧ b.source.sent.length = b.received ∧ b.received = (unblocks (sourceActs acts)).length + 1 := by
  obtain ⟨h1, h2⟩ := back_init_exec h
  have h3 := exec_count_bound h1
  have h4 := (exec_count h1).2.1
  have h5 : ((unblocks (sourceActs acts)).takeWhile (· = false)).length ≤ (unblocks (sourceActs acts)).length :=
    (List.takeWhile_sublist _).length_le
  have h6 : (unblocks (sourceActs acts)).length < b.received := hh
  omega

/-- A thread which has ended without losing an event. -/
theorem stopped_count {acts : List Act} {s : Source S K} (h : Exec tr o c acts s) :
    s.receiverAlive = true → s.stopped = true → s.count = s.sent.length := by
  induction h with
  | init => intro _ h; cases h
  | @step acts s s' a h he ih =>
    have hc := (exec_count h).1
    have hpl := exec_place h
    cases step_change he with
    | read ev h1 =>
      obtain ⟨_, _, _, _, f5, _⟩ := read_frame s ev
      intro _ hs
      rw [f5, h1] at hs
      cases hs
    | work now t ts ht h1 h2 h3 =>
      obtain ⟨_, _, _, f4, _⟩ := work_frame (tr := tr) (o := o) ({ s with todo := ts } : Source S K) t now
      intro _ hs
      rw [f4] at hs
      change s.stopped = true at hs
      rw [h1] at hs
      cases hs
    | send e ho h1 =>
      intro _ hs
      have := hpl.stopped hs
      rw [ho] at this
      cases this
    | lost e ho h1 => intro ha _; change s.receiverAlive = true at ha; rw [h1] at ha; cases ha
    | wake qs hq h1 h2 => intro _ hs; change s.stopped = true at hs; rw [h2] at hs; cases hs
    | quit qs hq h1 h2 => intro _ _; have := hc h2; rw [hpl.waiting h1] at this; simpa using this
    | orphan hq h0 h1 h2 => intro _ _; have := hc h2; rw [hpl.waiting h1] at this; simpa using this
    | unblock q h1 h2 => exact ih
    | take q qs hq => exact ih
    | dropSource h => exact ih
    | dropReceiver h h1 => intro ha; cases ha

/-- The units done by a computation. -/
theorem task_done {i : Nat} : ∀ (more : List BackAct) {b b' : Back S K} {t t' : Task}, b.tasks[i]? = some t → Back.run tr o b more = some b' →
    b'.tasks[i]? = some t' → t'.done = t.done + more.count (.work i)
  | [], b, b', t, t', ht, he, ht' => by
    simp only [Back.run, Option.some.injEq] at he
    subst he
    rw [ht] at ht'
    cases ht'
    rfl
  | a :: more, b, b', t, t', ht, he, ht' => by
    simp only [Back.run] at he
    cases hs : b.step tr o a with
    | none => rw [hs] at he; cases he
    | some b1 =>
      rw [hs] at he
      simp only [Option.bind_some] at he
      obtain ⟨t1, ht1, hst⟩ := back_step_task hs ht
      rw [task_done more ht1 he ht']
      rcases hst with ⟨rfl, h⟩ | ⟨rfl, h⟩ | ⟨h1, h2, rfl⟩
      · have : t1.done = t.done := by
          obtain ⟨_, _, h | h | h⟩ := check_cases h
          · rw [h.2]
          · rw [h.2.2]
          · rw [h.2.2]
        rw [this]; simp
      · obtain ⟨_, _, rfl⟩ := work_cases h
        simp; omega
      · simp [h2]

/-- A computation when the counter has changed. -/
theorem late_task {i : Nat} : ∀ (more : List BackAct) {b b' : Back S K} {t t' : Task}, b.tasks[i]? = some t → t.noted < b.source.count →
    Back.run tr o b more = some b' → b'.tasks[i]? = some t' →
    (t.checked = false → more.count (.work i) = 0) ∧ (t.ended ≠ none → more.count (.work i) = 0 ∧ t'.ended ≠ none) ∧
      more.count (.work i) ≤ 1 ∧ (.check i ∈ more → t'.ended ≠ none)
  | [], b, b', t, t', ht, _, he, ht' => by
    simp only [Back.run, Option.some.injEq] at he
    subst he
    rw [ht] at ht'
    cases ht'
    simp
  | a :: more, b, b', t, t', ht, hn, he, ht' => by
    simp only [Back.run] at he
    cases hs : b.step tr o a with
    | none => rw [hs] at he; cases he
    | some b1 =>
      rw [hs] at he
      simp only [Option.bind_some] at he
      obtain ⟨t1, ht1, hst⟩ := back_step_task hs ht
      have hc : b.source.count ≤ b1.source.count := by
        rcases (back_step_source hs).1 with ⟨x, _, hx⟩ | ⟨_, e⟩
        · exact step_count hx
        · rw [e]; exact Nat.le_refl _
      rcases hst with ⟨rfl, h⟩ | ⟨rfl, h⟩ | ⟨h1, h2, rfl⟩
      · have key : t1.ended ≠ none ∧ t1.noted = t.noted ∧ t.ended = none ∧ t1.checked = false := by
          obtain ⟨e0, e1, h | h | h⟩ := check_cases h
          · rw [h.2]; exact ⟨by simp, rfl, e0, e1⟩
          · rw [h.2.2]; exact ⟨by simp, rfl, e0, e1⟩
          · omega
        obtain ⟨j1, j2, j3, j4⟩ := late_task more ht1 (by rw [key.2.1]; omega) he ht'
        obtain ⟨k1, k2⟩ := j2 key.1
        refine ⟨fun _ => by simpa using k1, fun hx => absurd key.2.2.1 hx, by simpa using j3, fun _ => k2⟩
      · obtain ⟨e0, e1, rfl⟩ := work_cases h
        obtain ⟨j1, j2, j3, j4⟩ := late_task more ht1 (by show t.noted < _; omega) he ht'
        have k1 := j1 rfl
        refine ⟨fun hx => absurd hx (by simp [e1]), fun hx => absurd e0 hx, by simp [k1], ?_⟩
        intro hm
        simp only [List.mem_cons, reduceCtorEq, false_or] at hm
        exact j4 hm
      · obtain ⟨j1, j2, j3, j4⟩ := late_task more ht1 (by omega) he ht'
        have e : (a :: more).count (.work i) = more.count (.work i) := by simp [h2]
        rw [e]
        refine ⟨j1, j2, j3, ?_⟩
        intro hm
        rcases List.mem_cons.1 hm with rfl | hm
        · exact absurd rfl h1
        · exact j4 hm

/-- C100: a computation started while an event is handled is interrupted only because of another event: the application has called `unblock`
since, and this event is sent, or is to be sent at the next action of the event source (if the receivers of events aren't dropped). -/
theorem C100_only_events {before more : List BackAct} {n : Nat} {b b' : Back S K} {t : Task} (hb : Back.run tr o (Back.init c) before = some b)
    (hh : Handling before b) (h : Back.run tr o (Back.init c) (before ++ .start n :: more) = some b')
    (ht : b'.tasks[b.tasks.length]? = some t) (hi : t.ended = some false) :
    b.received < b'.source.count ∧
    (unblocks (sourceActs before)).length < (unblocks (sourceActs (before ++ .start n :: more))).length ∧
    (b'.source.receiverAlive = true → b.received < b'.source.sent.length ∨
      ∃ s, step tr o b'.source .send = some s ∧ b.received < s.sent.length) := by
  obtain ⟨h1, h2, h3⟩ := handling hb hh
  obtain ⟨b1, hb1, hr⟩ := back_split h
  rw [hb] at hb1
  cases hb1
  obtain ⟨t', e, inv, k1, _⟩ := task_start hr
  rw [ht] at e
  cases e
  have hlt : b.received < b'.source.count := by
    have := inv.interrupted hi
    omega
  obtain ⟨x1, _⟩ := back_init_exec h
  have hbound := exec_count_bound x1
  have hle : ((unblocks (sourceActs (before ++ .start n :: more))).takeWhile (· = false)).length ≤
      (unblocks (sourceActs (before ++ .start n :: more))).length := (List.takeWhile_sublist _).length_le
  refine ⟨hlt, by omega, ?_⟩
  intro ha
  by_cases hs : b.received < b'.source.sent.length
  · exact .inl hs
  · right
    have hst : b'.source.stopped = true → b'.source.count = b'.source.sent.length := stopped_count x1 ha
    cases hsto : b'.source.stopped with
    | true => have := hst hsto; omega
    | false =>
      have hc := (exec_count x1).1 hsto
      cases ho : b'.source.outbox with
      | none => rw [ho] at hc; simp at hc; omega
      | some e =>
        refine ⟨{ b'.source with outbox := none, sent := b'.source.sent ++ [e], waiting := true }, by simp [step, ho, ha], ?_⟩
        rw [ho] at hc
        simp at hc
        simp only [List.length_append, List.length_singleton]
        omega

/-- C100: when another event is sent, the computation doesn't start any unit of work: it has at most the one already started to do, and its next
test, if it isn't ended, ends it. -/
theorem C100_prompt {before mid more : List BackAct} {n : Nat} {b b1 b2 : Back S K} {t : Task} (hb : Back.run tr o (Back.init c) before = some b)
    (hh : Handling before b) (h1 : Back.run tr o (Back.init c) (before ++ .start n :: mid) = some b1)
    (hev : b.received < b1.source.sent.length)
    (h2 : Back.run tr o (Back.init c) (before ++ .start n :: mid ++ more) = some b2) (ht : b2.tasks[b.tasks.length]? = some t) :
    more.count (.work b.tasks.length) ≤ 1 ∧ (.check b.tasks.length ∈ more → t.ended ≠ none) := by
  obtain ⟨k1, k2, k3⟩ := handling hb hh
  obtain ⟨bx, e, hr⟩ := back_split h1
  rw [hb] at e
  cases e
  obtain ⟨t1, e1, inv, n1, _⟩ := task_start hr
  obtain ⟨by', e, hr2⟩ := back_split h2
  rw [h1] at e
  cases e
  have hc : t1.noted < b1.source.count := by
    have := (exec_count (back_init_exec h1).1).2.1
    omega
  exact (late_task more e1 hc hr2 ht).2.2

/-- C100: a computation which isn't interrupted ends with all its units done, and never does more. -/
theorem C100_result {before more : List BackAct} {n : Nat} {b b' : Back S K} {t : Task} (hb : Back.run tr o (Back.init c) before = some b)
    (h : Back.run tr o (Back.init c) (before ++ .start n :: more) = some b') (ht : b'.tasks[b.tasks.length]? = some t) :
    t.done ≤ n ∧ (t.ended = some true → t.done = n) ∧ more.count (.work b.tasks.length) = t.done := by
  obtain ⟨bx, e, hr⟩ := back_split h
  rw [hb] at e
  cases e
  obtain ⟨t1, e1, inv, _, n2, _⟩ := task_start hr
  rw [ht] at e1
  cases e1
  refine ⟨by have := inv.done; omega, fun he => by rw [inv.finished he, n2], ?_⟩
  simp only [Back.run, Back.step, Option.bind_some] at hr
  have := task_done more (i := b.tasks.length) (b := { b with tasks := b.tasks ++ [{ noted := b.source.count, size := n }] })
    (t := { noted := b.source.count, size := n }) (by simp) hr ht
  simpa using this.symm

/-- C100: a computation which isn't ended can act, and it ends after at most `2 * n + 1` actions: with `C100_only_events`, it does all its
work when no other event comes. -/
theorem C100_ends {before more : List BackAct} {n : Nat} {b b' : Back S K} {t : Task} (hb : Back.run tr o (Back.init c) before = some b)
    (h : Back.run tr o (Back.init c) (before ++ .start n :: more) = some b') (ht : b'.tasks[b.tasks.length]? = some t) :
    (t.ended = none → ∃ a b'', (a = .check b.tasks.length ∨ a = .work b.tasks.length) ∧ b'.step tr o a = some b'') ∧
    taskActs b.tasks.length more ≤ 2 * n + 1 := by
  obtain ⟨bx, e, hr⟩ := back_split h
  rw [hb] at e
  cases e
  obtain ⟨t1, e1, inv, _, n2, n3⟩ := task_start hr
  rw [ht] at e1
  cases e1
  constructor
  · intro he
    cases hc : t.checked with
    | true =>
      refine ⟨.work b.tasks.length, { b' with tasks := b'.tasks.set b.tasks.length { t with done := t.done + 1, checked := false } }, .inr rfl, ?_⟩
      simp [Back.step, ht, Task.work, he, hc]
    | false =>
      have : ∃ t', t.check b'.source.count = some t' := by
        unfold Task.check
        rw [if_neg (by simp [he, hc])]
        split
        · exact ⟨_, rfl⟩
        · split
          · exact ⟨_, rfl⟩
          · exact ⟨_, rfl⟩
      obtain ⟨t', ht'⟩ := this
      refine ⟨.check b.tasks.length, { b' with tasks := b'.tasks.set b.tasks.length t' }, .inl rfl, ?_⟩
      simp [Back.step, ht, ht']
  · rw [← n3]
    have h1 := inv.done
    unfold taskAge
    cases hc : t.checked with
    | false =>
      rw [hc] at h1
      simp at h1 ⊢
      split <;> omega
    | true =>
      have he : t.ended = none := by
        cases he : t.ended with
        | none => rfl
        | some x => have := inv.checked (by simp [he]); rw [hc] at this; cases this
      rw [hc] at h1
      simp [he] at h1 ⊢
      omega

/-- C100: while the application handles the event and hasn't called `unblock`, nothing interrupts the computation: the counter doesn't change. -/
theorem C100_not_before_unblock {before more : List BackAct} {b b' : Back S K} (hb : Back.run tr o (Back.init c) before = some b)
    (hh : Handling before b) (h : Back.run tr o (Back.init c) (before ++ more) = some b')
    (hu : unblocks (sourceActs more) = []) : b'.source.count = b.received := by
  obtain ⟨h1, h2, h3⟩ := handling hb hh
  obtain ⟨bx, e, hr⟩ := back_split h
  rw [hb] at e
  cases e
  obtain ⟨x1, x2⟩ := back_init_exec hb
  have hm := (back_exec more x1 x2 hr).2.2
  have hbound := exec_count_bound (back_init_exec h).1
  have hle : ((unblocks (sourceActs (before ++ more))).takeWhile (· = false)).length ≤
      (unblocks (sourceActs (before ++ more))).length := (List.takeWhile_sublist _).length_le
  have hlen : (unblocks (sourceActs (before ++ more))).length = (unblocks (sourceActs before)).length := by
    rw [sourceActs_append, unblocks_append, hu, List.append_nil]
  omega

/-- The actions of an application which receives a key, starts a computation of three units, then lets the source go on. -/
def backStart : List BackAct :=
  [.source (.read (.key kA)), .source (.work 0), .source .send, .receive]

/-- Another key is sent after the second test: the computation ends its second unit, and is interrupted before the third one. -/
def backRest : List BackAct :=
  [.source (.unblock false), .check 0, .work 0, .source .wake, .check 0, .source (.read (.key kA)), .source (.work 5), .source .send]

example : ∃ b b1 b2 : Back Unit RawKey, Back.run plainComb {} (Back.init ()) backStart = some b ∧ Handling backStart b ∧ b.tasks.length = 0 ∧
    Back.run plainComb {} (Back.init ()) (backStart ++ .start 3 :: backRest) = some b1 ∧ b.received < b1.source.sent.length ∧
    Back.run plainComb {} (Back.init ()) (backStart ++ .start 3 :: backRest ++ [.receive, .work 0, .check 0]) = some b2 ∧
    b2.tasks = [{ noted := 1, size := 3, done := 2, ended := some false }] := by
  refine ⟨_, _, _, rfl, ?_, rfl, rfl, ?_, rfl, ?_⟩
  · show 0 < 1; decide
  · show 1 < 2; decide
  · rfl

/-- A computation which does all its work, as no event comes. -/
example : (Back.run plainComb {} (Back.init ()) (backStart ++ .start 2 :: [.source (.unblock false), .check 0, .work 0, .check 0, .work 0, .check 0])).map
    (fun b : Back Unit RawKey => b.tasks) = some [{ noted := 1, size := 2, done := 2, ended := some true }] := rfl

/-- The counter must be read before the call to `unblock`: when a computation is started after it, the next event may already be counted and even
sent; it doesn't interrupt the computation. -/
theorem C100_late_counterexample : ∃ b b' : Back Unit RawKey,
    Back.run plainComb {} (Back.init ()) (backStart ++ [.source (.unblock false), .source .wake, .source (.read (.key kA)), .source (.work 5), .source .send]) = some b ∧
    b.received = 1 ∧ b.source.sent.length = 2 ∧ b.tasks = [] ∧
    Back.run plainComb {} b [.start 1, .check 0, .work 0, .check 0] = some b' ∧ b'.received = 1 ∧ b'.tasks.map Task.ended = [some true] := by
  exact ⟨_, _, rfl, rfl, rfl, rfl, rfl, rfl, rfl⟩

/-- An event which is discarded, or an escape sequence, doesn't interrupt a computation. -/
example : (Back.run plainComb {} (Back.init ()) (backStart ++ .start 1 :: [.source (.unblock false), .source .wake, .source (.read (.mouse ⟨.moved, 1, 1, 0⟩)),
      .source (.work 5), .source (.read (.key kStart)), .source (.read (.key kEnd)), .check 0, .work 0, .check 0])).map
    (fun b : Back Unit RawKey => b.tasks) = some [{ noted := 1, size := 1, done := 1, ended := some true }] := rfl

end Verif.Props
