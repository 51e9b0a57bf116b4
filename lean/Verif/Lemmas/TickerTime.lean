import Verif.Spec.TickerTime
import Verif.Lemmas.Ticker
/-! Lemmas for the time of ticks. -/
namespace Verif.Ticks
variable {P : Type}

theorem timedStep_plain {s s' : TimedTicker P} {a : TimedAct P} (h : timedStep s a = some s') :
    s'.now = s.now + a.lasts ∧ (a.plain = none → s'.ticker = s.ticker ∧ s'.clocks = s.clocks) ∧
    ∀ x, a.plain = some x → step s.ticker x = some s'.ticker := by
  cases a with
  | pass d => simp only [timedStep, Option.some.injEq] at h; subst h; simp [TimedAct.plain, TimedAct.lasts]
  | timeout i =>
    simp only [timedStep] at h
    split at h
    · split at h
      · simp only [Option.map_eq_some_iff] at h
        obtain ⟨t, h1, rfl⟩ := h
        simp [TimedAct.plain, TimedAct.lasts, h1]
      · simp at h
    · simp at h
  | _ =>
    simp only [timedStep, Option.map_eq_some_iff] at h
    obtain ⟨t, h1, rfl⟩ := h
    simp [TimedAct.plain, TimedAct.lasts, h1]

theorem timedStep_timeout {s s' : TimedTicker P} {i : Nat} (h : timedStep s (.timeout i) = some s') {c : BeamClock} (hc : s.clocks[i]? = some c) :
    c.since + c.period ≤ s.now := by
  simp only [timedStep, hc] at h
  split at h
  · assumption
  · simp at h

/-- What an action does to the clock of a beam. -/
theorem timedStep_clock {s s' : TimedTicker P} {a : TimedAct P} (h : timedStep s a = some s') {i : Nat} {c : BeamClock} (hc : s.clocks[i]? = some c) :
    ∃ c', s'.clocks[i]? = some c' ∧ c'.period = c.period ∧
      ((a.plain = some (.check i) ∧ c'.since = s.now) ∨ (a.plain ≠ some (.check i) ∧ c'.since = c.since)) := by
  have hlt : i < s.clocks.length := (List.getElem?_eq_some_iff.1 hc).1
  cases a with
  | pass d => simp only [timedStep, Option.some.injEq] at h; subst h; exact ⟨c, hc, rfl, .inr ⟨by simp [TimedAct.plain], rfl⟩⟩
  | timeout j =>
    simp only [timedStep] at h
    split at h
    · split at h
      · simp only [Option.map_eq_some_iff] at h
        obtain ⟨t, h1, rfl⟩ := h
        exact ⟨c, hc, rfl, .inr ⟨by simp [TimedAct.plain], rfl⟩⟩
      · simp at h
    · simp at h
  | start p n period =>
    simp only [timedStep, Option.map_eq_some_iff] at h
    obtain ⟨t, h1, rfl⟩ := h
    exact ⟨c, by simp [List.getElem?_append_left hlt, hc], rfl, .inr ⟨by simp [TimedAct.plain], rfl⟩⟩
  | check j =>
    simp only [timedStep, Option.map_eq_some_iff] at h
    obtain ⟨t, h1, rfl⟩ := h
    by_cases hj : j = i
    · subst hj
      exact ⟨{ c with since := s.now }, by simp [hc], rfl, .inl ⟨rfl, rfl⟩⟩
    · exact ⟨c, by simp [hj, hc], rfl, .inr ⟨by simp [TimedAct.plain, hj], rfl⟩⟩
  | _ =>
    simp only [timedStep, Option.map_eq_some_iff] at h
    obtain ⟨t, h1, rfl⟩ := h
    exact ⟨c, hc, rfl, .inr ⟨by simp [TimedAct.plain], rfl⟩⟩

theorem dated_append : ∀ (l m : List (TimedAct P)) (n : Nat), dated n (l ++ m) = dated n l ++ dated (n + (l.map TimedAct.lasts).sum) m
  | [], m, n => by simp [dated]
  | a :: l, m, n => by simp [dated, dated_append l m, Nat.add_assoc]

theorem timed_now {acts : List (TimedAct P)} {s : TimedTicker P} (h : TimedExec acts s) : s.now = (acts.map TimedAct.lasts).sum := by
  induction h with
  | init => rfl
  | step a h he ih => rw [(timedStep_plain he).1, ih]; simp

theorem untimed_snoc (acts : List (TimedAct P)) (a : TimedAct P) : untimed (acts ++ [a]) = untimed acts ++ a.plain.toList := by
  cases h : a.plain <;> simp [untimed, h]

theorem timed_untimed {acts : List (TimedAct P)} {s : TimedTicker P} (h : TimedExec acts s) : Exec (untimed acts) s.ticker := by
  induction h with
  | init => exact .init
  | @step acts s s' a h he ih =>
    obtain ⟨_, h1, h2⟩ := timedStep_plain he
    rw [untimed_snoc]
    cases hp : a.plain with
    | none => rw [(h1 hp).1]; simpa using ih
    | some x => exact ih.step x (h2 x hp)

theorem startTimes_snoc {acts : List (TimedAct P)} {s : TimedTicker P} (h : TimedExec acts s) (a : TimedAct P) :
    startTimes (acts ++ [a]) = startTimes acts ++ (match a with | .start _ _ period => [(s.now, period)] | _ => []) := by
  simp only [startTimes, dated_append, List.filterMap_append, timed_now h, dated]
  cases a <;> simp

theorem tickTimes_snoc {acts : List (TimedAct P)} {s : TimedTicker P} (h : TimedExec acts s) (a : TimedAct P) (i : Nat) :
    tickTimes (acts ++ [a]) i = tickTimes acts i ++ (match a with | .send j => if j = i then [s.now] else [] | _ => []) := by
  simp only [tickTimes, dated_append, List.filterMap_append, timed_now h, dated]
  cases a <;> simp
  rename_i j
  by_cases hj : j = i <;> simp [hj]

theorem timed_shape {acts : List (TimedAct P)} {s : TimedTicker P} (h : TimedExec acts s) :
    (startTimes acts).length = s.ticker.threads.length ∧ s.clocks.length = s.ticker.threads.length := by
  rw [(exec_shape (timed_untimed h)).1]
  induction h with
  | init => exact ⟨rfl, rfl⟩
  | @step acts s s' a h he ih =>
    rw [startTimes_snoc h, untimed_snoc, starts_append, List.length_append, List.length_append, ih.1]
    cases a with
    | pass d => simp only [timedStep, Option.some.injEq] at he; subst he; simp [TimedAct.plain, starts, ih.2]
    | timeout i =>
      simp only [timedStep] at he
      split at he
      · split at he
        · simp only [Option.map_eq_some_iff] at he
          obtain ⟨t, h1, rfl⟩ := he
          simp [TimedAct.plain, starts, ih.2]
        · simp at he
      · simp at he
    | _ =>
      simp only [timedStep, Option.map_eq_some_iff] at he
      obtain ⟨t, h1, rfl⟩ := he
      simp [TimedAct.plain, starts, ih.2]

theorem step_ticks {t t' : Ticker P} {x : Act P} (h : step t x = some t') (i : Nat) :
    (ticksOf t' i).length = (ticksOf t i).length + (match x with | .send j => if j = i then 1 else 0 | _ => 0) := by
  cases x with
  | stop id =>
    simp only [step] at h
    split at h
    · simp at h
    · cases h; simp only [ticksOf, Ticker.stop]; split <;> rfl
  | send j =>
    simp only [step] at h
    split at h
    · split at h
      · cases h; rw [ticksOf_snoc]; by_cases hj : j = i <;> simp [hj]
      · simp at h
    · simp at h
  | start p n => simp only [step] at h; split at h <;> cases h; rfl
  | stopAll => simp only [step] at h; split at h <;> cases h; rfl
  | drop => simp only [step] at h; split at h <;> cases h; rfl
  | _ =>
    simp only [step] at h
    split at h
    · split at h
      · cases h; rfl
      · simp at h
    · simp at h

/-- There are as many times as ticks. -/
theorem tickTimes_length {acts : List (TimedAct P)} {s : TimedTicker P} (h : TimedExec acts s) (i : Nat) :
    (tickTimes acts i).length = (ticksOf s.ticker i).length := by
  induction h with
  | init => rfl
  | @step acts s s' a h he ih =>
    obtain ⟨_, h1, h2⟩ := timedStep_plain he
    rw [tickTimes_snoc h, List.length_append, ih]
    cases hp : a.plain with
    | none =>
      rw [(h1 hp).1]
      cases a <;> simp_all [TimedAct.plain]
    | some x =>
      rw [step_ticks (h2 x hp)]
      cases a with
      | send j =>
        simp only [TimedAct.plain, Option.some.injEq] at hp
        subst hp
        by_cases hj : j = i <;> simp [hj]
      | _ => simp [TimedAct.plain] at hp <;> subst hp <;> simp

/-- Each number is in relation with the one before it, starting from a first one. -/
def Steps (R : Nat → Nat → Prop) : Nat → List Nat → Prop
  | _, [] => True
  | a, b :: l => R a b ∧ Steps R b l

theorem steps_snoc (R : Nat → Nat → Prop) : ∀ (l : List Nat) (a b : Nat), Steps R a (l ++ [b]) ↔ Steps R a l ∧ R (l.getLastD a) b
  | [], a, b => by simp [Steps]
  | x :: l, a, b => by
    have : (x :: l).getLastD a = l.getLastD x := by cases l <;> rfl
    rw [this]
    simp only [List.cons_append, Steps, steps_snoc R l x b, and_assoc]

theorem prompt_before {acts : List (TimedAct P)} {a : TimedAct P} (h : Prompt (acts ++ [a])) : Prompt acts := by
  intro before after d s e
  exact h before (after ++ [a]) d s (by simp [e])

theorem tickTimes_plain {acts : List (TimedAct P)} {s : TimedTicker P} (h : TimedExec acts s) (a : TimedAct P) (i : Nat) :
    (a.plain = some (.send i) → tickTimes (acts ++ [a]) i = tickTimes acts i ++ [s.now]) ∧
    (a.plain ≠ some (.send i) → tickTimes (acts ++ [a]) i = tickTimes acts i) := by
  rw [tickTimes_snoc h]
  cases a <;> simp [TimedAct.plain]

theorem lasts_plain {a : TimedAct P} {x : Act P} (h : a.plain = some x) : a.lasts = 0 := by
  cases a <;> simp [TimedAct.plain] at h <;> rfl

/-- The times of a beam, which depend on the place of its thread in the loop. -/
structure BeamTimes (s : TimedTicker P) (times : List Nat) (b : Beam P) (t0 : Nat) (c : BeamClock) : Prop where
  spaced : Steps (fun x y => x + c.period ≤ y) t0 times
  last : times.getLastD t0 ≤ s.now
  wait : b.phase = .wait → times.getLastD t0 ≤ c.since ∧ c.since ≤ s.now
  send : b.phase = .send → times.getLastD t0 + c.period ≤ s.now

/-- The times of a beam when threads are prompt. -/
structure PromptTimes (s : TimedTicker P) (times : List Nat) (b : Beam P) (t0 : Nat) (c : BeamClock) : Prop where
  spaced : Steps (fun x y => x + c.period = y) t0 times
  check : b.phase = .check → times.getLastD t0 = s.now
  wait : b.phase = .wait → times.getLastD t0 = c.since ∧ c.since ≤ s.now ∧ s.now ≤ c.since + c.period
  send : b.phase = .send → times.getLastD t0 + c.period = s.now

theorem beam_times {acts : List (TimedAct P)} {s : TimedTicker P} (h : TimedExec acts s) {i : Nat} {b : Beam P}
    (hb : s.ticker.threads[i]? = some b) :
    ∃ t0 c, (startTimes acts)[i]? = some (t0, c.period) ∧ s.clocks[i]? = some c ∧ BeamTimes s (tickTimes acts i) b t0 c ∧
      (Prompt acts → PromptTimes s (tickTimes acts i) b t0 c) := by
  induction h generalizing b with
  | init => simp at hb
  | @step acts s s' a h he ih =>
    obtain ⟨hnow, hpass, hplain⟩ := timedStep_plain he
    obtain ⟨sh1, sh2⟩ := timed_shape h
    cases hb0 : s.ticker.threads[i]? with
    | none =>
      cases hp : a.plain with
      | none => rw [(hpass hp).1, hb0] at hb; simp at hb
      | some x =>
        obtain ⟨p, n, rfl, rfl, hi, ht⟩ := start_beam_new (timed_untimed h) (hplain x hp) hb0 hb
        have ht0 : tickTimes (acts ++ [a]) i = [] := by
          apply List.eq_nil_of_length_eq_zero
          rw [tickTimes_length (h.step a he), ht]; rfl
        cases a <;> simp [TimedAct.plain] at hp
        rename_i p' n' period
        obtain ⟨rfl, rfl⟩ := hp
        rw [ht0]
        have hn : s'.now = s.now := by simpa [TimedAct.lasts] using hnow
        refine ⟨s.now, ⟨period, s.now⟩, ?_, ?_, ⟨trivial, by simp [hn], by simp, by simp⟩, fun _ => ⟨trivial, by simp [hn], by simp, by simp⟩⟩
        · rw [startTimes_snoc h, List.getElem?_append_right (by omega), hi, sh1]; simp
        · simp only [timedStep, Option.map_eq_some_iff] at he
          obtain ⟨t, h1, rfl⟩ := he
          show (s.clocks ++ [_])[i]? = _
          rw [List.getElem?_append_right (by omega), hi, sh2]; simp
    | some b0 =>
      obtain ⟨t0, c, k1, k2, k3, k4⟩ := ih hb0
      obtain ⟨c', hc1, hc2, hc3⟩ := timedStep_clock he k2
      have hst : (startTimes (acts ++ [a]))[i]? = some (t0, c'.period) := by
        rw [startTimes_snoc h, List.getElem?_append_left (by
          have := (List.getElem?_eq_some_iff.1 hb0).1
          omega), k1, hc2]
      have hlast : ∀ (l : List Nat) (x : Nat), (l ++ [x]).getLastD t0 = x := by intro l x; simp
      cases hp : a.plain with
      | none =>
        obtain ⟨e1, e2⟩ := hpass hp
        rw [e1, hb0] at hb
        cases hb
        rw [e2, k2] at hc1
        cases hc1
        have ht := (tickTimes_plain h a i).2 (by simp [hp])
        rw [ht]
        refine ⟨t0, c, hst, by rw [e2, k2], ⟨k3.spaced, by have := k3.last; omega, fun hw => ?_, fun hw => ?_⟩, fun hpr => ?_⟩
        · have := k3.wait hw; omega
        · have := k3.send hw; omega
        · have k5 := k4 (prompt_before hpr)
          cases a <;> simp [TimedAct.plain] at hp
          rename_i d
          have hnow' : s'.now = s.now + d := hnow
          rcases hpr acts [] d s (by simp) h i b c hb0 k2 with hph | ⟨hph, _, hd⟩
          · exact ⟨k5.spaced, fun hw => by simp [hph] at hw, fun hw => by simp [hph] at hw, fun hw => by simp [hph] at hw⟩
          · refine ⟨k5.spaced, fun hw => by simp [hph] at hw, fun hw => ?_, fun hw => by simp [hph] at hw⟩
            have := k5.wait hw; omega
      | some x =>
        have hn : s'.now = s.now := by rw [hnow, lasts_plain hp]; rfl
        obtain ⟨b', hb', hbs, _⟩ := step_beam (hplain x hp) hb0
        rw [hb'] at hb
        cases hb
        have hpr' := fun hpr : Prompt (acts ++ [a]) => k4 (prompt_before hpr)
        -- an action which isn't of this thread
        have hother : threadSteps [x] i = 0 → b.phase = b0.phase → ∃ t0 c, (startTimes (acts ++ [a]))[i]? = some (t0, c.period) ∧ s'.clocks[i]? = some c ∧
            BeamTimes s' (tickTimes (acts ++ [a]) i) b t0 c ∧ (Prompt (acts ++ [a]) → PromptTimes s' (tickTimes (acts ++ [a]) i) b t0 c) := by
          intro hts hph
          have h1 : x ≠ .send i := by rintro rfl; simp [threadSteps] at hts
          have h2 : x ≠ .check i := by rintro rfl; simp [threadSteps] at hts
          rw [(tickTimes_plain h a i).2 (by rw [hp]; simpa using h1)]
          have hs : c'.since = c.since := by
            rcases hc3 with ⟨h3, _⟩ | ⟨_, h3⟩
            · rw [hp] at h3; simp at h3; exact absurd h3 h2
            · exact h3
          refine ⟨t0, c', hst, hc1, ⟨by rw [hc2]; exact k3.spaced, by rw [hn]; exact k3.last, ?_, ?_⟩, fun hpr => ⟨by rw [hc2]; exact (hpr' hpr).spaced, ?_, ?_, ?_⟩⟩
          · rw [hph, hs, hn]; exact k3.wait
          · rw [hph, hc2, hn]; exact k3.send
          · rw [hph, hn]; exact (hpr' hpr).check
          · rw [hph, hs, hn, hc2]; exact (hpr' hpr).wait
          · rw [hph, hc2, hn]; exact (hpr' hpr).send
        generalize hbb : b = bb at hbs
        cases hbs with
        | other _ h1 _ => exact hbb ▸ hother h1 (by rw [hbb])
        | inter _ h1 _ _ => exact hbb ▸ hother h1 (by rw [hbb])
        | check hph =>
          subst hbb
          rw [(tickTimes_plain h a i).2 (by rw [hp]; simp)]
          have hs : c'.since = s.now := by
            rcases hc3 with ⟨_, h3⟩ | ⟨h3, _⟩
            · exact h3
            · exact absurd hp h3
          have hl := k3.last
          refine ⟨t0, c', hst, hc1, ⟨by rw [hc2]; exact k3.spaced, by omega, fun _ => by omega, ?_⟩, fun hpr => ⟨by rw [hc2]; exact (hpr' hpr).spaced, ?_, fun _ => ?_, ?_⟩⟩
          · intro hw; unfold Beam.check at hw; split at hw <;> simp at hw
          · intro hw; unfold Beam.check at hw; split at hw <;> simp at hw
          · have := (hpr' hpr).check hph; omega
          · intro hw; unfold Beam.check at hw; split at hw <;> simp at hw
        | timeout hph _ =>
          subst hbb
          rw [(tickTimes_plain h a i).2 (by rw [hp]; simp)]
          have hto : c.since + c.period ≤ s.now := by
            cases a <;> simp [TimedAct.plain] at hp
            subst hp
            exact timedStep_timeout he k2
          have hl := k3.last
          have hw := k3.wait hph
          refine ⟨t0, c', hst, hc1, ⟨by rw [hc2]; exact k3.spaced, by omega, by simp, fun _ => by omega⟩,
            fun hpr => ⟨by rw [hc2]; exact (hpr' hpr).spaced, by simp, by simp, fun _ => ?_⟩⟩
          have := (hpr' hpr).wait hph; omega
        | stopped hph _ =>
          subst hbb
          rw [(tickTimes_plain h a i).2 (by rw [hp]; simp)]
          exact ⟨t0, c', hst, hc1, ⟨by rw [hc2]; exact k3.spaced, by rw [hn]; exact k3.last, by simp, by simp⟩,
            fun hpr => ⟨by rw [hc2]; exact (hpr' hpr).spaced, by simp, by simp, by simp⟩⟩
        | send hph =>
          subst hbb
          rw [(tickTimes_plain h a i).1 hp]
          refine ⟨t0, c', hst, hc1, ⟨?_, ?_, by simp, by simp⟩, fun hpr => ⟨?_, ?_, by simp, by simp⟩⟩
          · rw [steps_snoc, hc2]; exact ⟨k3.spaced, k3.send hph⟩
          · rw [hlast]; omega
          · rw [steps_snoc, hc2]; exact ⟨(hpr' hpr).spaced, (hpr' hpr).send hph⟩
          · rw [hlast]; omega

theorem steps_least {p : Nat} : ∀ {l : List Nat} {a : Nat}, Steps (fun x y => x + p ≤ y) a l → ∀ (k t : Nat), l[k]? = some t → a + (k + 1) * p ≤ t
  | [], a, _, k, t, h => by simp at h
  | x :: l, a, hs, k, t, h => by
    obtain ⟨h1, h2⟩ := hs
    cases k with
    | zero => simp at h; subst h; omega
    | succ k =>
      have := steps_least h2 k t (by simpa using h)
      have e : (k + 1 + 1) * p = (k + 1) * p + p := by rw [Nat.add_mul (k + 1) 1 p]; omega
      omega

theorem steps_exact {p : Nat} : ∀ {l : List Nat} {a : Nat}, Steps (fun x y => x + p = y) a l → ∀ (k t : Nat), l[k]? = some t → t = a + (k + 1) * p
  | [], a, _, k, t, h => by simp at h
  | x :: l, a, hs, k, t, h => by
    obtain ⟨h1, h2⟩ := hs
    cases k with
    | zero => simp at h; subst h; omega
    | succ k =>
      have := steps_exact h2 k t (by simpa using h)
      have e : (k + 1 + 1) * p = (k + 1) * p + p := by rw [Nat.add_mul (k + 1) 1 p]; omega
      omega

theorem steps_next {R : Nat → Nat → Prop} : ∀ {l : List Nat} {a : Nat}, Steps R a l → ∀ (k t t' : Nat), l[k]? = some t → l[k + 1]? = some t' → R t t'
  | [], a, _, k, t, t', h, _ => by simp at h
  | [x], a, _, k, t, t', _, h => by simp at h
  | x :: y :: l, a, hs, k, t, t', h, h' => by
    cases k with
    | zero => simp at h h'; subst h; subst h'; exact hs.2.1
    | succ k => exact steps_next hs.2 k t t' (by simpa using h) (by simpa using h')

theorem steps_le_last {p : Nat} : ∀ {l : List Nat} {a : Nat}, Steps (fun x y => x + p ≤ y) a l → ∀ (k t : Nat), l[k]? = some t → t ≤ l.getLastD a
  | [], a, _, k, t, h => by simp at h
  | [x], a, _, k, t, h => by
    cases k with
    | zero => simp at h; subst h; simp
    | succ k => simp at h
  | x :: y :: l, a, hs, k, t, h => by
    have e : (x :: y :: l).getLastD a = (y :: l).getLastD x := by cases l <;> rfl
    rw [e]
    cases k with
    | zero =>
      have := steps_le_last hs.2 0 y (by simp)
      have := hs.2.1
      simp at h; omega
    | succ k => exact steps_le_last hs.2 k t (by simpa using h)

theorem tickTimes_le {acts : List (TimedAct P)} {s : TimedTicker P} (h : TimedExec acts s) (i : Nat) : ∀ t ∈ tickTimes acts i, t ≤ s.now := by
  induction h with
  | init => simp [tickTimes, dated]
  | @step acts s s' a h he ih =>
    have hn := (timedStep_plain he).1
    rw [tickTimes_snoc h]
    intro t ht
    rw [List.mem_append] at ht
    rcases ht with ht | ht
    · have := ih t ht; omega
    · cases a <;> simp at ht
      omega

/-- With prompt threads, a stopped beam is about to end, at the time of the stop, or has ended, and no tick is later. -/
theorem timed_stopped {acts : List (TimedAct P)} {a : TimedAct P} {x : Act P} {i : Nat} {all : List (TimedAct P)} {s : TimedTicker P} (h : TimedExec all s) (hp : Prompt all) :
    ∀ {more : List (TimedAct P)}, all = (acts ++ [a]) ++ more → i < (startTimes acts).length → a.plain = some x → Stops i x →
    (∃ b, s.ticker.threads[i]? = some b ∧ (b.phase = .ended ∨ (b.inbox = true ∧ s.now = (acts.map TimedAct.lasts).sum))) ∧
    ∀ t ∈ tickTimes all i, t ≤ (acts.map TimedAct.lasts).sum := by
  induction h with
  | init => intro more e; simp at e
  | @step l s s' y h he ih =>
    intro more e hi ha hx
    obtain ⟨hnow, hpass, hplain⟩ := timedStep_plain he
    rcases List.eq_nil_or_concat more with rfl | ⟨more, z, rfl⟩
    · rw [List.append_nil] at e
      obtain ⟨rfl, e2⟩ := List.append_inj' e rfl
      cases e2
      have hn : s'.now = (l.map TimedAct.lasts).sum := by rw [hnow, lasts_plain ha, timed_now h]; rfl
      refine ⟨?_, fun t ht => hn ▸ tickTimes_le (h.step _ he) i t ht⟩
      obtain ⟨b, hb⟩ : ∃ b, s.ticker.threads[i]? = some b := ⟨_, List.getElem?_eq_getElem (by rw [← (timed_shape h).1]; exact hi)⟩
      obtain ⟨b1, hb1, hbs, _⟩ := step_beam (hplain x ha) hb
      obtain ⟨p, n, k, f⟩ := exec_history (timed_untimed h) hb
      refine ⟨b1, hb1, ?_⟩
      have : b1.inbox = true ∨ b1.phase = .ended := by
        cases hbs with
        | other _ hz h2 => exact f.handle (h2 hx)
        | inter _ hz h2 hm => exact .inl rfl
        | check hp => exact hx.elim
        | timeout hp => exact hx.elim
        | stopped hp => exact hx.elim
        | send hp => exact hx.elim
      rcases this with h | h
      · exact .inr ⟨h, hn⟩
      · exact .inl h
    · rw [List.concat_eq_append, ← List.append_assoc] at e
      obtain ⟨e1, e⟩ := List.append_inj' e rfl
      cases e
      obtain ⟨⟨b, hb, hst⟩, ht⟩ := ih (prompt_before hp) e1 hi ha hx
      cases hy : y.plain with
      | none =>
        obtain ⟨k1, k2⟩ := hpass hy
        rw [(tickTimes_plain h y i).2 (by simp [hy]), k1]
        refine ⟨⟨b, hb, ?_⟩, ht⟩
        cases y <;> simp [TimedAct.plain] at hy
        rename_i d
        obtain ⟨t0, c, _, hc, _⟩ := beam_times h hb
        rcases hp l [] d s (by simp) h i b c hb hc with h1 | ⟨_, h1, _⟩
        · exact .inl h1
        · rcases hst with hst | hst
          · exact .inl hst
          · rw [hst.1] at h1; simp at h1
      | some w =>
        have hn : s'.now = s.now := by rw [hnow, lasts_plain hy]; rfl
        obtain ⟨b1, hb1, hbs, _⟩ := step_beam (hplain w hy) hb
        rw [hb1]
        refine ⟨⟨b1, rfl, ?_⟩, ?_⟩
        · rw [hn]
          cases hbs with
          | other _ hz h2 => exact hst
          | inter _ hz h2 hm =>
            rcases hst with h | h
            · exact .inl h
            · exact .inr ⟨rfl, h.2⟩
          | check hp =>
            rcases hst with h | h
            · rw [hp] at h; simp at h
            · right; unfold Beam.check; split <;> exact h
          | timeout hp hin =>
            rcases hst with h | h
            · rw [hp] at h; simp at h
            · rw [hin] at h; simp at h
          | stopped hp => exact .inl rfl
          | send hp =>
            rcases hst with h | h
            · rw [hp] at h; simp at h
            · exact .inr h
        · by_cases hw : w = .send i
          · subst hw
            rw [(tickTimes_plain h y i).1 hy]
            intro t hm
            rw [List.mem_append] at hm
            rcases hm with hm | hm
            · exact ht t hm
            · simp at hm; subst hm
              rcases hst with h1 | h1
              · cases hbs with
                | send hp => rw [hp] at h1; simp at h1
                | other _ hz _ => simp [threadSteps] at hz
                | inter _ hz _ _ => simp [threadSteps] at hz
              · omega
          · rw [(tickTimes_plain h y i).2 (by rw [hy]; simpa using hw)]; exact ht

/-- Runs the actions. -/
def runTimed (s : TimedTicker P) : List (TimedAct P) → Option (TimedTicker P)
  | [] => some s
  | a :: l => (timedStep s a).bind fun s' => runTimed s' l

theorem runTimed_exec : ∀ (l : List (TimedAct P)) {acts : List (TimedAct P)} {s s' : TimedTicker P}, TimedExec acts s → runTimed s l = some s' →
    TimedExec (acts ++ l) s'
  | [], acts, s, s', h, e => by cases e; simpa using h
  | a :: l, acts, s, s', h, e => by
    simp only [runTimed] at e
    cases he : timedStep s a with
    | none => rw [he] at e; simp at e
    | some s1 =>
      rw [he] at e
      have := runTimed_exec l (h.step a he) e
      simpa using this

theorem runTimed_some {l : List (TimedAct P)} {s : TimedTicker P} (h : runTimed {} l = some s) : TimedExec l s := by
  simpa using runTimed_exec l .init h

theorem runTimed_append : ∀ (l l' : List (TimedAct P)) (s : TimedTicker P), runTimed s (l ++ l') = (runTimed s l).bind fun s' => runTimed s' l'
  | [], l', s => by simp [runTimed]
  | a :: l, l', s => by
    simp only [List.cons_append, runTimed]
    cases timedStep s a with
    | none => rfl
    | some s1 => exact runTimed_append l l' s1

theorem exec_runTimed {l : List (TimedAct P)} {s : TimedTicker P} (h : TimedExec l s) : runTimed {} l = some s := by
  induction h with
  | init => rfl
  | step a h he ih => rw [runTimed_append, ih]; simp [runTimed, he]

/-- Whether time may pass. -/
def mayPass (s : TimedTicker P) (d : Nat) : Bool :=
  (s.ticker.threads.zip s.clocks).all fun x => decide (x.1.phase = .ended ∨ (x.1.phase = .wait ∧ x.1.inbox = false ∧ s.now + d ≤ x.2.since + x.2.period))

/-- Whether the threads are prompt. -/
def promptRun (s : TimedTicker P) : List (TimedAct P) → Bool
  | [] => true
  | a :: l => (match a with | .pass d => mayPass s d | _ => true) && (match timedStep s a with | some s' => promptRun s' l | none => true)

theorem promptRun_at : ∀ (before : List (TimedAct P)) {after : List (TimedAct P)} {d : Nat} {s0 s : TimedTicker P},
    promptRun s0 (before ++ .pass d :: after) = true → runTimed s0 before = some s → mayPass s d = true
  | [], after, d, s0, s, h, e => by
    cases e
    simp only [List.nil_append, promptRun, Bool.and_eq_true] at h
    exact h.1
  | a :: l, after, d, s0, s, h, e => by
    simp only [List.cons_append, promptRun, Bool.and_eq_true] at h
    simp only [runTimed] at e
    cases he : timedStep s0 a with
    | none => rw [he] at e; simp at e
    | some s1 =>
      rw [he] at h e
      exact promptRun_at l h.2 e

theorem promptRun_prompt {acts : List (TimedAct P)} (h : promptRun {} acts = true) : Prompt acts := by
  intro before after d s e hs i b c hb hc
  rw [e] at h
  have hm := promptRun_at before h (exec_runTimed hs)
  unfold mayPass at hm
  rw [List.all_eq_true] at hm
  have := hm (b, c) (List.mem_of_getElem? (i := i) (by rw [List.getElem?_zip_eq_some]; exact ⟨hb, hc⟩))
  simpa using this

end Verif.Ticks
