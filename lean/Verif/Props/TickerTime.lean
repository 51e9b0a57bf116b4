import Verif.Lemmas.TickerTime
import Verif.Props.Ticker
/-! C89: the times of the ticks. -/
namespace Verif.Props
open Verif.Ticks

variable {P : Type}

theorem timed_thread {acts : List (TimedAct P)} {s : TimedTicker P} (h : TimedExec acts s) {i : Nat} {x : Nat × Nat} (hs : (startTimes acts)[i]? = some x) :
    ∃ b, s.ticker.threads[i]? = some b := by
  obtain ⟨h1, _⟩ := timed_shape h
  have : i < s.ticker.threads.length := by
    rcases Nat.lt_or_ge i s.ticker.threads.length with h | h
    · exact h
    · rw [List.getElem?_eq_none (by omega)] at hs; simp at hs
  exact ⟨_, List.getElem?_eq_getElem this⟩

/-- Without the times, the runs are those of C37, the order of the ticks and the payloads included. -/
theorem C89_untimed {acts : List (TimedAct P)} {s : TimedTicker P} (h : TimedExec acts s) : Exec (untimed acts) s.ticker := timed_untimed h

/-- There's a time for each tick. -/
theorem C89_ticks {acts : List (TimedAct P)} {s : TimedTicker P} (h : TimedExec acts s) (i : Nat) :
    (tickTimes acts i).length = (ticksOf s.ticker i).length := tickTimes_length h i

/-- And all runs of C37 are possible, whatever the periods. -/
theorem C89_any {acts : List (Act P)} {t : Ticker P} (h : Exec acts t) (periods : Nat → Nat) :
    ∃ (timed : List (TimedAct P)) (s : TimedTicker P), TimedExec timed s ∧ untimed timed = acts ∧ s.ticker = t ∧
      ∀ (i : Nat) (x : Nat × Nat), (startTimes timed)[i]? = some x → x.2 = periods i := by
  induction h with
  | init => exact ⟨[], {}, .init, rfl, rfl, by simp [startTimes, dated]⟩
  | @step acts t t' a h he ih =>
    obtain ⟨timed, s, h1, h2, h3, h4⟩ := ih
    subst h3
    have go : ∀ (b : TimedAct P) (s' : TimedTicker P), b.plain = some a → (∀ p n q, b ≠ .start p n q) → timedStep s b = some s' → s'.ticker = t' →
        ∃ (timed : List (TimedAct P)) (s : TimedTicker P), TimedExec timed s ∧ untimed timed = acts ++ [a] ∧ s.ticker = t' ∧
          ∀ (i : Nat) (x : Nat × Nat), (startTimes timed)[i]? = some x → x.2 = periods i := by
      intro b s' hb hns hs' ht
      refine ⟨timed ++ [b], s', .step b h1 hs', by rw [untimed_snoc, h2, hb]; rfl, ht, ?_⟩
      rw [startTimes_snoc h1]
      cases b <;> simp at hns ⊢ <;> simpa using h4
    cases a with
    | start p n =>
      refine ⟨timed ++ [.start p n (periods (startTimes timed).length)],
        { s with ticker := t', clocks := s.clocks ++ [⟨periods (startTimes timed).length, s.now⟩] }, .step _ h1 (by simp only [timedStep, he, Option.map_some]), by rw [untimed_snoc, h2]; rfl, rfl, ?_⟩
      rw [startTimes_snoc h1]
      intro i x hx
      simp only at hx
      rcases Nat.lt_trichotomy i (startTimes timed).length with hi | hi | hi
      · rw [List.getElem?_append_left hi] at hx; exact h4 i x hx
      · subst hi; simp at hx; subst hx; rfl
      · rw [List.getElem?_eq_none (by simp; omega)] at hx; simp at hx
    | timeout i =>
      have hth : ∃ b, s.ticker.threads[i]? = some b := by
        simp only [Ticks.step] at he
        split at he
        · exact ⟨_, by assumption⟩
        · simp at he
      obtain ⟨b, hb⟩ := hth
      obtain ⟨t0, c, hst, hc, _⟩ := beam_times h1 hb
      refine ⟨timed ++ [.pass (c.since + c.period)] ++ [.timeout i], { s with ticker := t', now := s.now + (c.since + c.period) },
        .step _ (.step _ h1 rfl) ?_, by rw [untimed_snoc, untimed_snoc, h2]; simp [TimedAct.plain], rfl, ?_⟩
      · simp only [timedStep, hc, he, Option.map_some]
        rw [if_pos (by omega)]
      · rw [startTimes_snoc (.step _ h1 rfl), startTimes_snoc h1]
        simpa using h4
    | stop id => exact go (.stop id) { s with ticker := t' } rfl (by simp) (by simp [timedStep, he]) rfl
    | stopAll => exact go .stopAll { s with ticker := t' } rfl (by simp) (by simp [timedStep, he]) rfl
    | drop => exact go .drop { s with ticker := t' } rfl (by simp) (by simp [timedStep, he]) rfl
    | check i => exact go (.check i) _ rfl (by simp) (by simp only [timedStep, he, Option.map_some]; rfl) rfl
    | stopped i => exact go (.stopped i) { s with ticker := t' } rfl (by simp) (by simp [timedStep, he]) rfl
    | send i => exact go (.send i) { s with ticker := t' } rfl (by simp) (by simp [timedStep, he]) rfl

/-- The tick of rank k (from 0) of a beam never comes before k + 1 periods have elapsed since the start of the beam. -/
theorem C89_not_before {acts : List (TimedAct P)} {s : TimedTicker P} (h : TimedExec acts s) (i t0 period k t : Nat)
    (hs : (startTimes acts)[i]? = some (t0, period)) (ht : (tickTimes acts i)[k]? = some t) : t0 + (k + 1) * period ≤ t ∧ t ≤ s.now := by
  obtain ⟨b, hb⟩ := timed_thread h hs
  obtain ⟨t0', c, h1, _, h2, _⟩ := beam_times h hb
  rw [hs] at h1
  cases h1
  exact ⟨steps_least h2.spaced k t ht, Nat.le_trans (steps_le_last h2.spaced k t ht) h2.last⟩

/-- Two successive ticks of a beam are separated by at least the period. -/
theorem C89_spacing {acts : List (TimedAct P)} {s : TimedTicker P} (h : TimedExec acts s) (i t0 period k t t' : Nat)
    (hs : (startTimes acts)[i]? = some (t0, period)) (ht : (tickTimes acts i)[k]? = some t) (ht' : (tickTimes acts i)[k + 1]? = some t') :
    t + period ≤ t' := by
  obtain ⟨b, hb⟩ := timed_thread h hs
  obtain ⟨t0', c, h1, _, h2, _⟩ := beam_times h hb
  rw [hs] at h1
  cases h1
  exact steps_next h2.spaced k t t' ht ht'

/-- When threads run at once, ticks come exactly at the multiples of the period since the start. -/
theorem C89_exact {acts : List (TimedAct P)} {s : TimedTicker P} (h : TimedExec acts s) (hp : Prompt acts) (i t0 period k t : Nat)
    (hs : (startTimes acts)[i]? = some (t0, period)) (ht : (tickTimes acts i)[k]? = some t) : t = t0 + (k + 1) * period := by
  obtain ⟨b, hb⟩ := timed_thread h hs
  obtain ⟨t0', c, h1, _, _, h2⟩ := beam_times h hb
  rw [hs] at h1
  cases h1
  exact steps_exact (h2 hp).spaced k t ht

theorem last_exact {p : Nat} {l : List Nat} {a : Nat} (h : Steps (fun x y => x + p = y) a l) : l.getLastD a = a + l.length * p := by
  rcases List.eq_nil_or_concat l with rfl | ⟨l, x, rfl⟩
  · simp
  · have := steps_exact h l.length x (by simp)
    simpa using this

/-- And there's no missing tick: as long as its thread isn't ended, the number of ticks of a beam is the number of periods elapsed since its start. -/
theorem C89_count {acts : List (TimedAct P)} {s : TimedTicker P} (h : TimedExec acts s) (hp : Prompt acts) (i t0 period : Nat)
    (hs : (startTimes acts)[i]? = some (t0, period)) (he : ¬ Ended s.ticker i) :
    t0 + (ticksOf s.ticker i).length * period ≤ s.now ∧ s.now ≤ t0 + ((ticksOf s.ticker i).length + 1) * period := by
  obtain ⟨b, hb⟩ := timed_thread h hs
  obtain ⟨t0', c, h1, _, h3, h2⟩ := beam_times h hb
  rw [hs] at h1
  cases h1
  have h2 := h2 hp
  rw [← C89_ticks h, Nat.add_mul]
  have hl := last_exact h2.spaced
  cases hph : b.phase with
  | check => have := h2.check hph; omega
  | wait => have := h2.wait hph; omega
  | send => have := h2.send hph; omega
  | ended => exact absurd ⟨b, hb, hph⟩ he

/-- A beam of n ticks that nothing stops has sent all of them, and its thread is ended, as soon as more than n periods have elapsed. -/
theorem C89_done {acts : List (TimedAct P)} {s : TimedTicker P} (h : TimedExec acts s) (hp : Prompt acts) (i t0 period n : Nat) (p : P)
    (hs : (startTimes acts)[i]? = some (t0, period)) (hst : (starts (untimed acts))[i]? = some (p, some n)) (hn : ∀ a ∈ untimed acts, ¬ Stops i a)
    (hnow : t0 + n * period < s.now) : Ended s.ticker i ∧ ticksOf s.ticker i = List.replicate n (i, p) := by
  obtain ⟨_, _, h3⟩ := C37_exactly (C89_untimed h) i n p hst hn
  by_cases he : Ended s.ticker i
  · exact ⟨he, h3 he⟩
  · exfalso
    obtain ⟨b, k, hb, f⟩ := thread_of_start (C89_untimed h) hst
    obtain ⟨t0', c, h1, _, _, h2⟩ := beam_times h hb
    rw [hs] at h1
    cases h1
    have h2 := h2 hp
    have hk : (tickTimes acts i).length = k := by rw [C89_ticks h, f.ticks]; simp
    have hl := last_exact h2.spaced
    rw [hk] at hl
    obtain ⟨r, _, hr⟩ := f.remaining n rfl
    have hmul : ∀ m, m ≤ n → m * c.period ≤ n * c.period := fun m hm => Nat.mul_le_mul_right _ hm
    rcases hr with ⟨hph, hr⟩ | ⟨hph, hr⟩ | ⟨hph, _⟩
    · have := h2.check hph; have := hmul k (by omega); omega
    · have := hmul (k + 1) (by omega)
      rw [Nat.add_mul] at this
      rcases hph with hph | hph
      · have := h2.wait hph; omega
      · have := h2.send hph; omega
    · exact he ⟨b, hb, hph⟩

/-- No tick comes later than the stop of its beam. -/
theorem C89_stop {acts more : List (TimedAct P)} {a : TimedAct P} {x : Act P} {s : TimedTicker P} (h : TimedExec (acts ++ a :: more) s)
    (hp : Prompt (acts ++ a :: more)) (i : Nat) (hi : i < (startTimes acts).length) (ha : a.plain = some x) (hx : Stops i x) :
    ∀ t ∈ tickTimes (acts ++ a :: more) i, t ≤ (acts.map TimedAct.lasts).sum := by
  have happ : acts ++ a :: more = (acts ++ [a]) ++ more := by simp
  rw [happ] at h hp ⊢
  exact (timed_stopped h hp rfl hi ha hx).2

/-- A beam of two ticks of period 10 started at time 5, and an infinite one of period 7 started at time 8, which is stopped at time 17. -/
def timedRun : List (TimedAct Char) :=
  [.pass 5, .start 'a' (some 2) 10, .check 0, .pass 3, .start 'b' none 7, .check 1, .pass 7, .timeout 0, .timeout 1, .send 1, .send 0, .check 0, .check 1, .pass 2,
   .stop 1, .stopped 1, .pass 8, .timeout 0, .send 0, .check 0, .pass 100]

example : ∃ s, TimedExec timedRun s ∧ startTimes timedRun = [(5, 10), (8, 7)] ∧ tickTimes timedRun 0 = [15, 25] ∧ tickTimes timedRun 1 = [15] ∧
    s.now = 125 ∧ Ended s.ticker 0 ∧ Ended s.ticker 1 :=
  ⟨_, runTimed_some (by rfl), by decide, by decide, by decide, by decide, ⟨_, rfl, rfl⟩, ⟨_, rfl, rfl⟩⟩

/-- Its threads are prompt, and nothing stops the first beam. -/
example : Prompt timedRun ∧ Stops 1 (.stop 1 : Act Char) ∧ ∀ a ∈ untimed timedRun, ¬ Stops 0 a := by
  refine ⟨promptRun_prompt (by decide), rfl, ?_⟩
  intro a ha
  simp only [timedRun, untimed, List.filterMap_cons, TimedAct.plain, List.filterMap_nil, List.mem_cons, List.not_mem_nil, or_false] at ha
  rcases ha with rfl | rfl | rfl | rfl | rfl | rfl | rfl | rfl | rfl | rfl | rfl | rfl | rfl | rfl | rfl <;> simp [Stops]

/-- Ticks may be late when the thread isn't prompt, and the delays add up: the second tick comes at the time 29 instead of 20. -/
theorem C89_exact_counterexample : ∃ s, TimedExec ([.start 'a' none 10, .check 0, .pass 14, .timeout 0, .pass 1, .send 0, .pass 3, .check 0, .pass 11,
      .timeout 0, .send 0] : List (TimedAct Char)) s ∧
    tickTimes ([.start 'a' none 10, .check 0, .pass 14, .timeout 0, .pass 1, .send 0, .pass 3, .check 0, .pass 11, .timeout 0, .send 0] : List (TimedAct Char)) 0 =
      [15, 29] :=
  ⟨_, runTimed_some (by rfl), by decide⟩

/-- And a tick may then come after the stop. -/
theorem C89_stop_counterexample : ∃ s, TimedExec ([.start 'a' none 10, .check 0, .pass 10, .timeout 0, .stop 0, .pass 5, .send 0] : List (TimedAct Char)) s ∧
    tickTimes ([.start 'a' none 10, .check 0, .pass 10, .timeout 0, .stop 0, .pass 5, .send 0] : List (TimedAct Char)) 0 = [15] :=
  ⟨_, runTimed_some (by rfl), by decide⟩

end Verif.Props
