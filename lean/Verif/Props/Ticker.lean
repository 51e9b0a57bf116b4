import Verif.Lemmas.TickerHandles
/-! C37: the ticker and its beams. The id of a beam is its rank among the starts (`C37_ids`). -/
namespace Verif.Props
open Verif.Ticks

variable {P : Type}

/-- The n-th start of a beam returns the id n, whatever happened before: the ids are unique. -/
theorem C37_ids {acts : List (Act P)} {t : Ticker P} (h : Exec acts t) (p : P) (n : Option Nat) : (t.start p n).1 = (starts acts).length := by
  obtain ⟨h1, h2, _⟩ := exec_shape h
  simp only [Ticker.start]
  omega

/-- `tick_once` starts a beam of count 1, `tick_several_times` a beam of the given count, and `tick_infinitely` one without count. -/
theorem C37_start {acts : List (Act P)} {t : Ticker P} (h : Exec acts t) (hd : t.dropped = false) (p : P) :
    (Exec (acts ++ [.start p (some 1)]) (t.tickOnce p).2 ∧ (t.tickOnce p).1 = (starts acts).length) ∧
    (∀ n, Exec (acts ++ [.start p (some n)]) (t.tickSeveralTimes p n).2 ∧ (t.tickSeveralTimes p n).1 = (starts acts).length) ∧
    Exec (acts ++ [.start p none]) (t.tickInfinitely p).2 ∧ (t.tickInfinitely p).1 = (starts acts).length :=
  have s : ∀ n, Ticks.step t (.start p n) = some (t.start p n).2 := fun n => by simp [Ticks.step, hd]
  ⟨⟨.step _ h (s _), C37_ids h p _⟩, fun _ => ⟨.step _ h (s _), C37_ids h p _⟩, .step _ h (s _), C37_ids h p _⟩

/-- Every tick comes from a started beam, with its payload. -/
theorem C37_payload {acts : List (Act P)} {t : Ticker P} (h : Exec acts t) (i : Nat) (q : P) (hq : (i, q) ∈ t.ticks) :
    ∃ n, (starts acts)[i]? = some (q, n) := by
  have hlt := (exec_shape h).2.2 _ hq
  obtain ⟨p, n, k, f⟩ := exec_history h (List.getElem?_eq_getElem hlt)
  have hm : (i, q) ∈ ticksOf t i := by simp [ticksOf, hq]
  rw [f.ticks, List.mem_replicate] at hm
  have := hm.2
  cases this
  exact ⟨n, f.started⟩

theorem thread_of_start {acts : List (Act P)} {t : Ticker P} (h : Exec acts t) {i : Nat} {p : P} {n : Option Nat} (hs : (starts acts)[i]? = some (p, n)) :
    ∃ b k, t.threads[i]? = some b ∧ History acts t i b p n k := by
  have hlt : i < t.threads.length := by
    rw [(exec_shape h).1]
    rcases Nat.lt_or_ge i (starts acts).length with h | h
    · exact h
    · rw [List.getElem?_eq_none h] at hs; simp at hs
  obtain ⟨p', n', k, f⟩ := exec_history h (List.getElem?_eq_getElem hlt)
  have := f.started
  rw [hs] at this
  cases this
  exact ⟨_, k, List.getElem?_eq_getElem hlt, f⟩

/-- A beam of count n sends at most n ticks, all with its payload. -/
theorem C37_at_most {acts : List (Act P)} {t : Ticker P} (h : Exec acts t) (i n : Nat) (p : P) (hs : (starts acts)[i]? = some (p, some n)) :
    ∃ k ≤ n, ticksOf t i = List.replicate k (i, p) := by
  obtain ⟨b, k, hb, f⟩ := thread_of_start h hs
  refine ⟨k, ?_, f.ticks⟩
  obtain ⟨r, _, hr⟩ := f.remaining n rfl
  rcases hr with hr | hr | ⟨_, hr | hr⟩
  · omega
  · omega
  · omega
  · have := hr.1; omega

/-- If nothing stops it, its thread ends after exactly n ticks, and 3n + 1 actions: it can't do more. -/
theorem C37_exactly {acts : List (Act P)} {t : Ticker P} (h : Exec acts t) (i n : Nat) (p : P) (hs : (starts acts)[i]? = some (p, some n))
    (hn : ∀ a ∈ acts, ¬ Stops i a) :
    threadSteps acts i ≤ 3 * n + 1 ∧ (Ended t i ↔ threadSteps acts i = 3 * n + 1) ∧ (Ended t i → ticksOf t i = List.replicate n (i, p)) := by
  obtain ⟨b, k, hb, f⟩ := thread_of_start h hs
  have hst := f.steps hn
  obtain ⟨r, _, hr⟩ := f.remaining n rfl
  have hend : Ended t i ↔ b.phase = .ended := by
    unfold Ended
    rw [hb]
    simp
  rw [hend]
  rcases hr with ⟨hp, hr⟩ | ⟨hp | hp, hr⟩ | ⟨hp, hr | hr⟩
  · rw [hp] at hst ⊢
    simp only [reduceCtorEq, false_iff, false_implies, and_true] at hst ⊢
    omega
  · rw [hp] at hst ⊢
    simp only [reduceCtorEq, false_iff, false_implies, and_true] at hst ⊢
    omega
  · rw [hp] at hst ⊢
    simp only [reduceCtorEq, false_iff, false_implies, and_true] at hst ⊢
    omega
  · rw [hp] at hst ⊢
    simp only [true_iff, true_implies] at hst ⊢
    obtain ⟨rfl, _⟩ := hr
    exact ⟨by omega, by omega, f.ticks⟩
  · obtain ⟨a, ha, hsa⟩ := hr.2
    exact absurd hsa (hn a ha)

/-- An infinite beam that nothing stops never ends, and sends a tick for three actions of its thread. -/
theorem C37_infinite {acts : List (Act P)} {t : Ticker P} (h : Exec acts t) (i : Nat) (p : P) (hs : (starts acts)[i]? = some (p, none))
    (hn : ∀ a ∈ acts, ¬ Stops i a) :
    ¬ Ended t i ∧ ticksOf t i = List.replicate (threadSteps acts i / 3) (i, p) := by
  obtain ⟨b, k, hb, f⟩ := thread_of_start h hs
  have hst := f.steps hn
  have hne : b.phase ≠ .ended := fun hp => by
    obtain ⟨a, ha, hsa⟩ := f.ended rfl hp
    exact hn a ha hsa
  constructor
  · rintro ⟨b', h1, h2⟩
    rw [hb] at h1
    cases h1
    exact hne h2
  · rw [f.ticks]
    congr 1
    cases hp : b.phase <;> rw [hp] at hst
    · simp only at hst; omega
    · simp only at hst; omega
    · simp only at hst; omega
    · exact absurd hp hne

/-- A thread which isn't ended can act, whatever the others do. -/
theorem C37_progress {acts : List (Act P)} {t : Ticker P} (h : Exec acts t) (i : Nat) (hi : i < (starts acts).length) :
    Ended t i ∨ ∃ a ∈ [Act.check i, .timeout i, .stopped i, .send i], ∃ t', step t a = some t' := by
  have hlt : i < t.threads.length := by rw [(exec_shape h).1]; exact hi
  obtain ⟨b, hb⟩ : ∃ b, t.threads[i]? = some b := ⟨_, List.getElem?_eq_getElem hlt⟩
  cases hp : b.phase with
  | ended => exact .inl ⟨b, hb, hp⟩
  | check => exact .inr ⟨.check i, by simp, _, by simp only [step, hb, hp, if_true]; rfl⟩
  | send => exact .inr ⟨.send i, by simp, _, by simp only [step, hb, hp, if_true]; rfl⟩
  | wait =>
    cases hin : b.inbox with
    | false => exact .inr ⟨.timeout i, by simp, _, by simp only [step, hb, hp, hin, true_and, if_true]; rfl⟩
    | true => exact .inr ⟨.stopped i, by simp, _, by simp only [step, hb, hp, hin, true_and, if_true]; rfl⟩

theorem after_stop {acts more : List (Act P)} {t t' : Ticker P} {a : Act P} {i : Nat} (h : Exec acts t) (hi : i < (starts acts).length) (hs : Stops i a)
    (h' : Exec (acts ++ a :: more) t') :
    ∃ b, t.threads[i]? = some b ∧ (ticksOf t' i).length ≤ (ticksOf t i).length + pending b ∧ threadSteps more i ≤ rank b ∧
      ((Ended t' i) ∨ threadSteps more i < rank b) := by
  have hlt : i < t.threads.length := by rw [(exec_shape h).1]; exact hi
  obtain ⟨b, hb⟩ : ∃ b, t.threads[i]? = some b := ⟨_, List.getElem?_eq_getElem hlt⟩
  have happ : acts ++ a :: more = (acts ++ [a]) ++ more := by simp
  rw [happ] at h'
  obtain ⟨t1, h1⟩ := exec_split more h'
  obtain ⟨t0, h0, he⟩ := tick_exec_snoc h1
  cases tick_exec_unique h h0
  obtain ⟨b1, hb1, hbs, htk⟩ := step_beam he hb
  obtain ⟨p, n, k, f⟩ := exec_history h hb
  have hnz : ticksOf t1 i = ticksOf t i := by
    rw [htk]
    cases a with
    | send j => exact hs.elim
    | _ => simp
  have hstop : (b1.inbox = true ∨ b1.phase = .ended) ∧ pending b1 = pending b ∧ rank b1 = rank b := by
    cases hbs with
    | other _ hz h2 => exact ⟨f.handle (h2 hs), rfl, rfl⟩
    | inter _ hz h2 hm => exact ⟨.inl rfl, rfl, rfl⟩
    | check hp => exact hs.elim
    | timeout hp => exact hs.elim
    | stopped hp => exact hs.elim
    | send hp => exact hs.elim
  obtain ⟨b2, k1, k2, k3, k4⟩ := exec_stopped h1 hb1 hstop.1 more h'
  rw [hstop.2.1, hnz] at k3
  rw [hstop.2.2] at k4
  refine ⟨b, hb, by omega, by omega, ?_⟩
  by_cases hr : b2.phase = .ended
  · exact .inl ⟨b2, k1, hr⟩
  · right
    have : 0 < rank b2 := by
      unfold rank
      cases hp : b2.phase <;> simp
      exact absurd hp hr
    omega

/-- Once a beam is stopped (by its id, with all others, or by the drop of the ticker), it sends at most one more tick, its thread does at most three
more actions, and is ended when it has done three. -/
theorem C37_stop {acts more : List (Act P)} {t t' : Ticker P} {a : Act P} {i : Nat} (h : Exec acts t) (hi : i < (starts acts).length) (hs : Stops i a)
    (h' : Exec (acts ++ a :: more) t') :
    (ticksOf t' i).length ≤ (ticksOf t i).length + 1 ∧ threadSteps more i ≤ 3 ∧ (threadSteps more i = 3 → Ended t' i) := by
  obtain ⟨b, hb, h1, h2, h3⟩ := after_stop h hi hs h'
  have hp : pending b ≤ 1 := by unfold pending; split <;> omega
  have hr : rank b ≤ 3 := by unfold rank; split <;> omega
  exact ⟨by omega, by omega, fun h => h3.resolve_right (by omega)⟩

/-- It sends none if it's awaiting its next tick when it's stopped. -/
theorem C37_stop_waiting {acts more : List (Act P)} {t t' t1 : Ticker P} {a : Act P} {i : Nat} (h : Exec acts t) (hi : i < (starts acts).length)
    (hs : Stops i a) (hw : step t (.timeout i) = some t1) (h' : Exec (acts ++ a :: more) t') : (ticksOf t' i).length ≤ (ticksOf t i).length := by
  obtain ⟨b, hb, h1, _⟩ := after_stop h hi hs h'
  have hp : pending b = 0 := by
    simp only [step, hb] at hw
    split at hw
    · rename_i hph; simp [pending, hph.1]
    · simp at hw
  omega

/-- Stopping a beam by its id changes neither the threads of the others nor the possibility to stop them. -/
theorem C37_stop_only {t t' : Ticker P} {i : Nat} (he : step t (.stop i) = some t') (j : Nat) (hj : j ≠ i) :
    t'.threads[j]? = t.threads[j]? ∧ t'.ticks = t.ticks ∧ (j ∈ t.handles → j ∈ t'.handles) := by
  refine ⟨?_, ?_, fun hm => step_handles he hm (fun h => hj h.symm)⟩
  · simp only [step] at he
    split at he
    · simp at he
    · cases he
      rw [stop_threads, if_neg (fun h => hj h.1.symm)]
  · simp only [step] at he
    split at he
    · simp at he
    · cases he
      exact (stop_frame t i).2.2

/-- So do the actions of a thread. -/
theorem C37_thread_only {t t' : Ticker P} {i : Nat} {a : Act P} (ha : a ∈ [Act.check i, .timeout i, .stopped i, .send i]) (he : step t a = some t')
    (j : Nat) (hj : j ≠ i) : t'.threads[j]? = t.threads[j]? ∧ ticksOf t' j = ticksOf t j ∧ t'.handles = t.handles := by
  have hh : t'.handles = t.handles := by
    simp only [List.mem_cons, List.not_mem_nil, or_false] at ha
    rcases ha with rfl | rfl | rfl | rfl <;>
    · simp only [step] at he
      split at he
      · split at he
        · cases he; rfl
        · simp at he
      · simp at he
  have ht : t'.threads[j]? = t.threads[j]? := by
    simp only [List.mem_cons, List.not_mem_nil, or_false] at ha
    rcases ha with rfl | rfl | rfl | rfl <;>
    · simp only [step] at he
      split at he
      · split at he
        · cases he; simp only; rw [List.getElem?_set_ne (Ne.symm hj)]
        · simp at he
      · simp at he
  refine ⟨ht, ?_, hh⟩
  simp only [List.mem_cons, List.not_mem_nil, or_false] at ha
  rcases ha with rfl | rfl | rfl | rfl
  · simp only [step] at he
    split at he
    · split at he
      · cases he; rfl
      · simp at he
    · simp at he
  · simp only [step] at he
    split at he
    · split at he
      · cases he; rfl
      · simp at he
    · simp at he
  · simp only [step] at he
    split at he
    · split at he
      · cases he; rfl
      · simp at he
    · simp at he
  · simp only [step] at he
    split at he
    · split at he
      · cases he; rw [ticksOf_snoc, if_neg (Ne.symm hj), List.append_nil]
      · simp at he
    · simp at he

/-- Stopping beams never waits: whatever happened before, the beams to which a stop may send a message are distinct, and their channels have room for it. -/
theorem C37_never_waits {acts : List (Act P)} {t : Ticker P} (h : Exec acts t) : t.handles.Nodup ∧ ∀ i ∈ t.handles, ¬ SendWaits t i := by
  obtain ⟨_, h1, h2⟩ := exec_handles h
  refine ⟨h1, ?_⟩
  rintro i hi ⟨b, hb, hin, _⟩
  obtain ⟨c, hc, hcin⟩ := h2 i hi
  rw [hb] at hc
  cases hc
  rw [hin] at hcin
  simp at hcin

/-- There are such beams, and some whose channel is full: the second beam is stopped and its thread has not yet seen it. -/
example : ∃ t : Ticker Char, Exec [.start 'a' (some 2), .start 'b' none, .check 1, .stop 1] t ∧ t.handles = [0] ∧ SendWaits t 1 :=
  ⟨_, runTicks_some (by rfl), by decide, ⟨_, rfl, rfl, by decide⟩⟩

/-- One beam of two ticks and an infinite one, which is stopped just before it sends its second tick. -/
def beamsRun : List (Act Char) :=
  [.start 'a' (some 2), .start 'b' none, .check 0, .check 1, .timeout 1, .send 1, .timeout 0, .check 1, .timeout 1, .stop 1, .send 0, .send 1, .check 0,
   .check 1, .timeout 0, .stopped 1, .send 0, .check 0]

example : ∃ t, Exec beamsRun t ∧ t.ticks = [(1, 'b'), (0, 'a'), (1, 'b'), (0, 'a')] ∧ Ended t 0 ∧ Ended t 1 ∧ threadSteps beamsRun 0 = 7 ∧ t.handles = [0] :=
  ⟨_, runTicks_some (by rfl), by decide, ⟨_, rfl, rfl⟩, ⟨_, rfl, rfl⟩, by decide, by decide⟩

example : starts beamsRun = [('a', some 2), ('b', none)] ∧ ∀ a ∈ beamsRun, ¬ Stops 0 a := by
  refine ⟨by decide, ?_⟩
  intro a ha
  simp only [beamsRun, List.mem_cons, List.not_mem_nil, or_false] at ha
  rcases ha with rfl | rfl | rfl | rfl | rfl | rfl | rfl | rfl | rfl | rfl | rfl | rfl | rfl | rfl | rfl | rfl | rfl | rfl <;> simp [Stops]

/-- The tick sent after a stop. -/
theorem C37_stop_counterexample : ∃ t t' : Ticker Char, Exec [.start 'a' none, .check 0, .timeout 0] t ∧
    Exec ([.start 'a' none, .check 0, .timeout 0] ++ Act.stop 0 :: [.send 0, .check 0, .stopped 0]) t' ∧
    (ticksOf t 0).length = 0 ∧ (ticksOf t' 0).length = 1 ∧ Ended t' 0 :=
  ⟨_, _, runTicks_some (by rfl), runTicks_some (by rfl), by decide, by decide, ⟨_, rfl, rfl⟩⟩

end Verif.Props
