import Verif.Spec.Ticker
/-! Lemmas on the ticker. -/
namespace Verif.Ticks
variable {P : Type}

theorem interrupt_get (l : List (Beam P)) (id i : Nat) :
    (interrupt l id)[i]? = if id = i then l[i]?.map (fun b => { b with inbox := true }) else l[i]? := by
  unfold interrupt
  rw [List.getElem?_modify]
  by_cases h : id = i
  · simp only [h, if_true]; rfl
  · simp [h]

theorem interrupt_length (l : List (Beam P)) (id : Nat) : (interrupt l id).length = l.length := by simp [interrupt]

theorem interrupts_get : ∀ (ids : List Nat) (l : List (Beam P)) (i : Nat),
    (ids.foldl interrupt l)[i]? = if i ∈ ids then l[i]?.map (fun b => { b with inbox := true }) else l[i]?
  | [], l, i => by simp
  | id :: ids, l, i => by
    rw [List.foldl_cons, interrupts_get ids, interrupt_get]
    by_cases h : id = i
    · subst h
      simp only [if_true, List.mem_cons, true_or]
      split
      · simp [Function.comp_def]
      · rfl
    · have : (i ∈ id :: ids) ↔ i ∈ ids := by simp [Ne.symm h]
      simp only [h, if_false, this]

theorem interrupts_length : ∀ (ids : List Nat) (l : List (Beam P)), (ids.foldl interrupt l).length = l.length
  | [], _ => rfl
  | id :: ids, l => by rw [List.foldl_cons, interrupts_length ids, interrupt_length]

/-- What an action does to the thread of a beam. -/
inductive BeamStep (t : Ticker P) (i : Nat) (b : Beam P) : Act P → Beam P → Prop
  | other (a : Act P) (h : threadSteps [a] i = 0) (h2 : Stops i a → i ∉ t.handles) : BeamStep t i b a b
  | inter (a : Act P) (h : threadSteps [a] i = 0) (h2 : Stops i a) (h3 : i ∈ t.handles) : BeamStep t i b a { b with inbox := true }
  | check (h : b.phase = .check) : BeamStep t i b (.check i) b.check
  | timeout (h : b.phase = .wait) (h2 : b.inbox = false) : BeamStep t i b (.timeout i) { b with phase := .send }
  | stopped (h : b.phase = .wait) (h2 : b.inbox = true) : BeamStep t i b (.stopped i) { b with phase := .ended, inbox := false }
  | send (h : b.phase = .send) : BeamStep t i b (.send i) { b with phase := .check }

theorem stop_handles {t : Ticker P} {id idx : Nat} (h : t.handles.findIdx? (· = id) = some idx) : t.handles[idx]? = some id := by
  rw [List.findIdx?_eq_some_iff_getElem] at h
  obtain ⟨h1, h2, _⟩ := h
  rw [List.getElem?_eq_getElem h1]
  simpa using h2

theorem stop_threads (t : Ticker P) (id i : Nat) :
    (t.stop id).threads[i]? = if id = i ∧ i ∈ t.handles then t.threads[i]?.map (fun b => { b with inbox := true }) else t.threads[i]? := by
  unfold Ticker.stop
  cases hf : t.handles.findIdx? (· = id) with
  | some idx =>
    have h1 := stop_handles hf
    simp only
    rw [List.getD_eq_getElem?_getD, h1, Option.getD_some, interrupt_get]
    by_cases h : id = i
    · subst h
      rw [if_pos rfl, if_pos ⟨rfl, List.mem_of_getElem? h1⟩]
    · rw [if_neg h, if_neg (fun hh => h hh.1)]
  | none =>
    rw [List.findIdx?_eq_none_iff] at hf
    rw [if_neg]
    rintro ⟨rfl, h2⟩
    have := hf id h2
    simp at this

theorem ticksOf_snoc (t : Ticker P) (th : List (Beam P)) (i j : Nat) (p : P) :
    ticksOf { t with threads := th, ticks := t.ticks ++ [(j, p)] } i = ticksOf t i ++ (if j = i then [(j, p)] else []) := by
  simp only [ticksOf, List.filter_append]
  by_cases h : j = i <;> simp [h]

theorem step_beam {t t' : Ticker P} {a : Act P} (he : step t a = some t') {i : Nat} {b : Beam P} (hb : t.threads[i]? = some b) :
    ∃ b', t'.threads[i]? = some b' ∧ BeamStep t i b a b' ∧
      ticksOf t' i = ticksOf t i ++ (match a with | .send j => if j = i then [(i, b.payload)] else [] | _ => []) := by
  have hlt : i < t.threads.length := by
    rcases Nat.lt_or_ge i t.threads.length with h | h
    · exact h
    · rw [List.getElem?_eq_none h] at hb; simp at hb
  cases a with
  | start p n =>
    simp only [step] at he
    split at he
    · simp at he
    · cases he
      refine ⟨b, ?_, .other _ rfl (fun h => h.elim), by simp [ticksOf, Ticker.start]⟩
      simp [Ticker.start, List.getElem?_append_left hlt, hb]
  | stop id =>
    simp only [step] at he
    split at he
    · simp at he
    · cases he
      have ht : ticksOf (t.stop id) i = ticksOf t i := by
        unfold Ticker.stop ticksOf
        split <;> rfl
      rw [stop_threads, hb, ht]
      by_cases h : id = i ∧ i ∈ t.handles
      · rw [if_pos h]
        exact ⟨_, rfl, .inter _ rfl h.1 h.2, by simp⟩
      · rw [if_neg h]
        exact ⟨_, rfl, .other _ rfl (fun hs hm => h ⟨hs, hm⟩), by simp⟩
  | stopAll =>
    simp only [step] at he
    split at he
    · simp at he
    · cases he
      simp only [Ticker.stopAll, interrupts_get, hb]
      by_cases h : i ∈ t.handles
      · rw [if_pos h]
        exact ⟨_, rfl, .inter _ rfl trivial h, by simp [ticksOf]⟩
      · rw [if_neg h]
        exact ⟨_, rfl, .other _ rfl (fun _ => h), by simp [ticksOf]⟩
  | drop =>
    simp only [step] at he
    split at he
    · simp at he
    · cases he
      simp only [Ticker.stopAll, interrupts_get, hb]
      by_cases h : i ∈ t.handles
      · rw [if_pos h]
        exact ⟨_, rfl, .inter _ rfl trivial h, by simp [ticksOf]⟩
      · rw [if_neg h]
        exact ⟨_, rfl, .other _ rfl (fun _ => h), by simp [ticksOf]⟩
  | check j =>
    simp only [step] at he
    split at he
    · rename_i bj hj
      split at he
      · rename_i hph
        cases he
        by_cases h : j = i
        · subst h
          rw [hb] at hj; cases hj
          exact ⟨_, by simp [hlt], .check hph, by simp [ticksOf]⟩
        · exact ⟨b, by simp [List.getElem?_set_ne h, hb], .other _ (by simp [threadSteps, h]) (fun hs => hs.elim), by simp [ticksOf]⟩
      · simp at he
    · simp at he
  | timeout j =>
    simp only [step] at he
    split at he
    · rename_i bj hj
      split at he
      · rename_i hph
        cases he
        by_cases h : j = i
        · subst h
          rw [hb] at hj; cases hj
          exact ⟨_, by simp [hlt], .timeout hph.1 hph.2, by simp [ticksOf]⟩
        · exact ⟨b, by simp [List.getElem?_set_ne h, hb], .other _ (by simp [threadSteps, h]) (fun hs => hs.elim), by simp [ticksOf]⟩
      · simp at he
    · simp at he
  | stopped j =>
    simp only [step] at he
    split at he
    · rename_i bj hj
      split at he
      · rename_i hph
        cases he
        by_cases h : j = i
        · subst h
          rw [hb] at hj; cases hj
          exact ⟨_, by simp [hlt], .stopped hph.1 hph.2, by simp [ticksOf]⟩
        · exact ⟨b, by simp [List.getElem?_set_ne h, hb], .other _ (by simp [threadSteps, h]) (fun hs => hs.elim), by simp [ticksOf]⟩
      · simp at he
    · simp at he
  | send j =>
    simp only [step] at he
    split at he
    · rename_i bj hj
      split at he
      · rename_i hph
        cases he
        rw [ticksOf_snoc]
        by_cases h : j = i
        · subst h
          rw [hb] at hj; cases hj
          exact ⟨_, by simp [hlt], .send hph, by simp⟩
        · exact ⟨b, by simp [List.getElem?_set_ne h, hb], .other _ (by simp [threadSteps, h]) (fun hs => hs.elim), by simp [h]⟩
      · simp at he
    · simp at he

theorem starts_append (acts acts' : List (Act P)) : starts (acts ++ acts') = starts acts ++ starts acts' := by simp [starts]

theorem threadSteps_append (acts acts' : List (Act P)) (i : Nat) : threadSteps (acts ++ acts') i = threadSteps acts i + threadSteps acts' i := by
  simp [threadSteps]

theorem stop_frame (t : Ticker P) (id : Nat) :
    (t.stop id).nextId = t.nextId ∧ (t.stop id).threads.length = t.threads.length ∧ (t.stop id).ticks = t.ticks := by
  unfold Ticker.stop
  split
  · exact ⟨rfl, interrupt_length _ _, rfl⟩
  · exact ⟨rfl, rfl, rfl⟩

/-- The number of threads, and the senders of the ticks. -/
theorem exec_shape {acts : List (Act P)} {t : Ticker P} (h : Exec acts t) :
    t.threads.length = (starts acts).length ∧ t.nextId = t.threads.length ∧ ∀ x ∈ t.ticks, x.1 < t.threads.length := by
  induction h with
  | init => exact ⟨rfl, rfl, by simp⟩
  | @step acts t t' a h he ih =>
    obtain ⟨i1, i2, i3⟩ := ih
    rw [starts_append]
    cases a with
    | start p n =>
      simp only [step] at he
      split at he
      · simp at he
      · cases he
        refine ⟨by simp [Ticker.start, starts, i1], by simp [Ticker.start, i2], ?_⟩
        intro x hx
        have := i3 x hx
        simp only [Ticker.start, List.length_append, List.length_singleton]; omega
    | stop id =>
      simp only [step] at he
      split at he
      · simp at he
      · cases he
        obtain ⟨f1, f2, f3⟩ := stop_frame t id
        rw [f1, f2, f3, show starts [Act.stop id] = ([] : List (P × Option Nat)) from rfl, List.append_nil]
        exact ⟨i1, i2, i3⟩
    | stopAll =>
      simp only [step] at he
      split at he
      · simp at he
      · cases he
        rw [show starts [Act.stopAll] = ([] : List (P × Option Nat)) from rfl, List.append_nil]
        simp only [Ticker.stopAll, interrupts_length]
        exact ⟨i1, i2, i3⟩
    | drop =>
      simp only [step] at he
      split at he
      · simp at he
      · cases he
        rw [show starts [Act.drop] = ([] : List (P × Option Nat)) from rfl, List.append_nil]
        simp only [Ticker.stopAll, interrupts_length]
        exact ⟨i1, i2, i3⟩
    | check j =>
      rw [show starts [Act.check j] = ([] : List (P × Option Nat)) from rfl, List.append_nil]
      simp only [step] at he
      split at he
      · split at he
        · cases he; simp only [List.length_set]; exact ⟨i1, i2, i3⟩
        · simp at he
      · simp at he
    | timeout j =>
      rw [show starts [Act.timeout j] = ([] : List (P × Option Nat)) from rfl, List.append_nil]
      simp only [step] at he
      split at he
      · split at he
        · cases he; simp only [List.length_set]; exact ⟨i1, i2, i3⟩
        · simp at he
      · simp at he
    | stopped j =>
      rw [show starts [Act.stopped j] = ([] : List (P × Option Nat)) from rfl, List.append_nil]
      simp only [step] at he
      split at he
      · split at he
        · cases he; simp only [List.length_set]; exact ⟨i1, i2, i3⟩
        · simp at he
      · simp at he
    | send j =>
      rw [show starts [Act.send j] = ([] : List (P × Option Nat)) from rfl, List.append_nil]
      simp only [step] at he
      split at he
      · rename_i b hj
        split at he
        · cases he
          simp only [List.length_set]
          refine ⟨i1, i2, ?_⟩
          intro x hx
          rcases List.mem_append.1 hx with h | h
          · exact i3 x h
          · simp only [List.mem_singleton] at h
            subst h
            rcases Nat.lt_or_ge j t.threads.length with h | h
            · exact h
            · rw [List.getElem?_eq_none h] at hj; simp at hj
        · simp at he
      · simp at he

/-- The thread of a beam after a start. -/
theorem start_beam_new {acts : List (Act P)} {t t' : Ticker P} {a : Act P} (h : Exec acts t) (he : step t a = some t') {i : Nat} (hi : t.threads[i]? = none)
    {b' : Beam P} (hb' : t'.threads[i]? = some b') :
    ∃ p n, a = .start p n ∧ b' = { payload := p, remaining := n } ∧ i = t.threads.length ∧ ticksOf t' i = [] := by
  obtain ⟨i1, i2, i3⟩ := exec_shape h
  obtain ⟨j1, j2, j3⟩ := exec_shape (h.step a he)
  have hge : t.threads.length ≤ i := by simpa using hi
  have hlt : i < t'.threads.length := by
    rcases Nat.lt_or_ge i t'.threads.length with h | h
    · exact h
    · rw [List.getElem?_eq_none h] at hb'; simp at hb'
  rw [starts_append, List.length_append] at j1
  cases a with
  | start p n =>
    simp only [step] at he
    split at he
    · simp at he
    · cases he
      simp only [starts, List.filterMap_cons, List.filterMap_nil, List.length_singleton] at j1
      have hi : i = t.threads.length := by simp only [starts] at i1; omega
      subst hi
      refine ⟨p, n, rfl, ?_, rfl, ?_⟩
      · simpa [Ticker.start, eq_comm] using hb'
      · simp only [ticksOf, Ticker.start]
        rw [List.filter_eq_nil_iff]
        intro x hx
        have := i3 x hx
        simp; omega
  | _ => simp [starts] at j1; simp only [starts] at i1; omega

/-- The history of a beam. `k` is the number of its ticks. -/
structure History (acts : List (Act P)) (t : Ticker P) (i : Nat) (b : Beam P) (p : P) (n : Option Nat) (k : Nat) : Prop where
  started : (starts acts)[i]? = some (p, n)
  payload : b.payload = p
  ticks : ticksOf t i = List.replicate k (i, p)
  forever : n = none → b.remaining = none
  remaining : ∀ m, n = some m → ∃ r, b.remaining = some r ∧
    ((b.phase = .check ∧ k + r = m) ∨ ((b.phase = .wait ∨ b.phase = .send) ∧ k + r + 1 = m) ∨
     (b.phase = .ended ∧ ((k = m ∧ r = 0) ∨ (k + r + 1 = m ∧ ∃ a ∈ acts, Stops i a))))
  ended : n = none → b.phase = .ended → ∃ a ∈ acts, Stops i a
  inbox : b.inbox = true → ∃ a ∈ acts, Stops i a
  steps : (∀ a ∈ acts, ¬ Stops i a) → threadSteps acts i = 3 * k + (match b.phase with | .check => 0 | .wait => 1 | .send => 2 | .ended => 1)
  handle : i ∉ t.handles → b.inbox = true ∨ b.phase = .ended

theorem swapRemove_mem (l : List Nat) (idx id j : Nat) (h : l[idx]? = some id) (hj : j ≠ id) (hm : j ∈ l) : j ∈ swapRemove l idx := by
  unfold swapRemove
  have hidx : idx < l.length := by
    rcases Nat.lt_or_ge idx l.length with h' | h'
    · exact h'
    · rw [List.getElem?_eq_none h'] at h; simp at h
  rcases List.eq_nil_or_concat l with rfl | ⟨l', x, rfl⟩
  · simp at hm
  · simp only [List.concat_eq_append] at *
    rw [List.getLast?_concat]
    simp only [Option.getD_some]
    by_cases hlast : idx = l'.length
    · subst hlast
      rw [List.set_append_right _ _ (Nat.le_refl _)]
      simp only [Nat.sub_self, List.set_cons_zero]
      rw [List.dropLast_concat]
      rw [List.getElem?_append_right (Nat.le_refl _)] at h
      simp at h
      subst h
      rcases List.mem_append.1 hm with h' | h'
      · exact h'
      · simp only [List.mem_singleton] at h'; exact absurd h' hj
    · have hlt : idx < l'.length := by simp at hidx; omega
      rw [List.set_append_left _ _ hlt, List.dropLast_concat]
      rw [List.getElem?_append_left hlt] at h
      rcases List.mem_append.1 hm with h' | h'
      · obtain ⟨n, hn⟩ := List.getElem?_of_mem h'
        have hne : idx ≠ n := by rintro rfl; rw [h] at hn; cases hn; exact hj rfl
        exact List.mem_of_getElem? (i := n) (by rw [List.getElem?_set_ne hne, hn])
      · simp only [List.mem_singleton] at h'
        subst h'
        exact List.mem_of_getElem? (i := idx) (by simp [hlt])

theorem step_handles {t t' : Ticker P} {a : Act P} (he : step t a = some t') {i : Nat} (hm : i ∈ t.handles) (hs : ¬ Stops i a) : i ∈ t'.handles := by
  cases a with
  | start p n =>
    simp only [step] at he
    split at he
    · simp at he
    · cases he; simp [Ticker.start, hm]
  | stop id =>
    simp only [step] at he
    split at he
    · simp at he
    · cases he
      unfold Ticker.stop
      split
      · rename_i idx hf
        exact swapRemove_mem _ _ _ _ (stop_handles hf) (fun h => hs h.symm) hm
      · exact hm
  | stopAll => exact absurd trivial hs
  | drop => exact absurd trivial hs
  | check j =>
    simp only [step] at he
    split at he
    · split at he
      · cases he; exact hm
      · simp at he
    · simp at he
  | timeout j =>
    simp only [step] at he
    split at he
    · split at he
      · cases he; exact hm
      · simp at he
    · simp at he
  | stopped j =>
    simp only [step] at he
    split at he
    · split at he
      · cases he; exact hm
      · simp at he
    · simp at he
  | send j =>
    simp only [step] at he
    split at he
    · split at he
      · cases he; exact hm
      · simp at he
    · simp at he

theorem exec_history {acts : List (Act P)} {t : Ticker P} (h : Exec acts t) {i : Nat} {b : Beam P} (hb : t.threads[i]? = some b) :
    ∃ p n k, History acts t i b p n k := by
  induction h generalizing b with
  | init => simp at hb
  | @step acts t t' a h he ih =>
    cases hb0 : t.threads[i]? with
    | none =>
      obtain ⟨p, n, rfl, rfl, hi, ht⟩ := start_beam_new h he hb0 hb
      obtain ⟨i1, i2, i3⟩ := exec_shape h
      refine ⟨p, n, 0, ⟨?_, rfl, by simpa using ht, fun h => h, ?_, by simp, by simp, ?_, ?_⟩⟩
      · rw [starts_append, List.getElem?_append_right (by omega), hi, i1]; simp [starts]
      · intro m hm; exact ⟨m, hm, .inl ⟨rfl, by omega⟩⟩
      · intro _
        simp only [Nat.mul_zero, Nat.add_zero]
        rw [threadSteps_append]
        -- no action of the thread before its start
        have : ∀ {acts : List (Act P)} {t : Ticker P}, Exec acts t → ∀ j, t.threads[j]? = none → threadSteps acts j = 0 := by
          intro acts t h
          induction h with
          | init => intros; rfl
          | @step acts t t' a h he ih =>
            intro j hj
            have hl := (exec_shape (h.step a he)).1
            have hl0 := (exec_shape h).1
            rw [starts_append, List.length_append] at hl
            have hj' : t'.threads.length ≤ j := by simpa using hj
            have hn : t.threads[j]? = none := List.getElem?_eq_none (by omega)
            rw [threadSteps_append, ih j hn]
            cases a with
            | check x => simp only [step] at he; split at he
                         · rename_i bx hx
                           have : x ≠ j := by rintro rfl; rw [hn] at hx; simp at hx
                           simp [threadSteps, this]
                         · simp at he
            | timeout x => simp only [step] at he; split at he
                           · rename_i bx hx
                             have : x ≠ j := by rintro rfl; rw [hn] at hx; simp at hx
                             simp [threadSteps, this]
                           · simp at he
            | stopped x => simp only [step] at he; split at he
                           · rename_i bx hx
                             have : x ≠ j := by rintro rfl; rw [hn] at hx; simp at hx
                             simp [threadSteps, this]
                           · simp at he
            | send x => simp only [step] at he; split at he
                        · rename_i bx hx
                          have : x ≠ j := by rintro rfl; rw [hn] at hx; simp at hx
                          simp [threadSteps, this]
                        · simp at he
            | _ => rfl
        rw [this h i hb0]
        rfl
      · intro hh
        exfalso
        apply hh
        simp only [step] at he
        split at he
        · simp at he
        · cases he; simp [Ticker.start, hi, i2]
    | some b0 =>
      obtain ⟨p, n, k, f⟩ := ih hb0
      obtain ⟨b', h1, h2, h3⟩ := step_beam he hb0
      rw [hb] at h1
      cases h1
      have hst : (starts (acts ++ [a]))[i]? = some (p, n) := by
        rw [starts_append, List.getElem?_append_left]
        · exact f.started
        · have := f.started
          rcases Nat.lt_or_ge i (starts acts).length with h | h
          · exact h
          · rw [List.getElem?_eq_none h] at this; simp at this
      have wk : (∃ x ∈ acts, Stops i x) → ∃ x ∈ acts ++ [a], Stops i x := fun ⟨x, hx, hs⟩ => ⟨x, List.mem_append_left _ hx, hs⟩
      have nk : (∀ x ∈ acts ++ [a], ¬ Stops i x) → ∀ x ∈ acts, ¬ Stops i x := fun hh x hx => hh x (List.mem_append_left _ hx)
      have hnext : ¬ Stops i a → i ∉ t'.handles → i ∉ t.handles := fun hs hh hm => hh (step_handles he hm hs)
      cases h2 with
      | other _ hz hs =>
        refine ⟨p, n, k, ⟨hst, f.payload, ?_, f.forever, ?_, fun a b => wk (f.ended a b), fun a => wk (f.inbox a), ?_, ?_⟩⟩
        · rw [h3, f.ticks]
          cases a with
          | send j =>
            by_cases hj : j = i
            · subst hj; simp [threadSteps] at hz
            · simp [hj]
          | _ => simp
        · intro m hm
          obtain ⟨r, hr, hh⟩ := f.remaining m hm
          refine ⟨r, hr, ?_⟩
          rcases hh with hh | hh | ⟨hh, hh2⟩
          · exact .inl hh
          · exact .inr (.inl hh)
          · exact .inr (.inr ⟨hh, hh2.imp id fun q => ⟨q.1, wk q.2⟩⟩)
        · intro hh
          rw [threadSteps_append, hz, Nat.add_zero]
          exact f.steps (nk hh)
        · intro hh
          by_cases hsa : Stops i a
          · exact f.handle (hs hsa)
          · exact f.handle (hnext hsa hh)
      | inter _ hz hs hm0 =>
        have hsa : ∃ x ∈ acts ++ [a], Stops i x := ⟨a, by simp, hs⟩
        refine ⟨p, n, k, ⟨hst, f.payload, ?_, f.forever, ?_, fun _ _ => hsa, fun _ => hsa, ?_, fun _ => .inl rfl⟩⟩
        · rw [h3, f.ticks]
          cases a with
          | send j => exact hs.elim
          | _ => simp
        · intro m hm
          obtain ⟨r, hr, hh⟩ := f.remaining m hm
          refine ⟨r, hr, ?_⟩
          rcases hh with hh | hh | ⟨hh, hh2⟩
          · exact .inl hh
          · exact .inr (.inl hh)
          · exact .inr (.inr ⟨hh, hh2.imp id fun q => ⟨q.1, hsa⟩⟩)
        · intro hh; exact absurd hs (hh a (by simp))
      | check hph =>
        simp only [List.append_nil] at h3
        have hz : threadSteps [Act.check (P := P) i] i = 1 := by simp [threadSteps]
        have hnst : ∀ (hh : ∀ x ∈ acts ++ [Act.check i], ¬ Stops i x), threadSteps (acts ++ [Act.check i]) i = 3 * k + 1 := by
          intro hh
          rw [threadSteps_append, hz, f.steps (nk hh), hph]; rfl
        have hhan : i ∉ t'.handles → b0.inbox = true := by
          intro hh
          have := f.handle (hnext (fun h => h) hh)
          rw [hph] at this
          simpa using this
        cases n with
        | none =>
          have hr := f.forever rfl
          have hbe : b0.check = { b0 with phase := .wait } := by unfold Beam.check; rw [hr]
          rw [hbe]
          exact ⟨p, none, k, ⟨hst, f.payload, by rw [h3, f.ticks], fun _ => hr, by simp, by simp, fun a => wk (f.inbox a), hnst, fun hh => .inl (hhan hh)⟩⟩
        | some m =>
          obtain ⟨r, hr, hh⟩ := f.remaining m rfl
          rw [hph] at hh
          simp only [true_and, reduceCtorEq, or_self, false_and, or_false] at hh
          cases r with
          | zero =>
            have hbe : b0.check = { b0 with phase := .ended } := by unfold Beam.check; rw [hr]
            rw [hbe]
            refine ⟨p, some m, k, ⟨hst, f.payload, by rw [h3, f.ticks], by simp, ?_, by simp, fun a => wk (f.inbox a), hnst, fun hh => .inr rfl⟩⟩
            intro m' hm'
            cases hm'
            exact ⟨0, hr, .inr (.inr ⟨rfl, .inl ⟨hh, rfl⟩⟩)⟩
          | succ r =>
            have hbe : b0.check = { b0 with remaining := some r, phase := .wait } := by unfold Beam.check; rw [hr]
            rw [hbe]
            refine ⟨p, some m, k, ⟨hst, f.payload, by rw [h3, f.ticks], by simp, ?_, by simp, fun a => wk (f.inbox a), hnst, fun hh => .inl (hhan hh)⟩⟩
            intro m' hm'
            cases hm'
            exact ⟨r, rfl, .inr (.inl ⟨.inl rfl, by omega⟩)⟩
      | timeout hph hin =>
        simp only [List.append_nil] at h3
        have hz : threadSteps [Act.timeout (P := P) i] i = 1 := by simp [threadSteps]
        refine ⟨p, n, k, ⟨hst, f.payload, by rw [h3, f.ticks], f.forever, ?_, by simp, fun a => wk (f.inbox a), ?_, ?_⟩⟩
        · intro m hm
          obtain ⟨r, hr, hh⟩ := f.remaining m hm
          rw [hph] at hh
          simp only [reduceCtorEq, false_and, true_and, false_or, or_false] at hh
          exact ⟨r, hr, .inr (.inl ⟨.inr rfl, hh⟩)⟩
        · intro hh
          rw [threadSteps_append, hz, f.steps (nk hh), hph]; rfl
        · intro hh
          have := f.handle (hnext (fun h => h) hh)
          rw [hph, hin] at this
          simp at this
      | stopped hph hin =>
        simp only [List.append_nil] at h3
        refine ⟨p, n, k, ⟨hst, f.payload, by rw [h3, f.ticks], f.forever, ?_, fun _ _ => wk (f.inbox hin), by simp, ?_, fun _ => .inr rfl⟩⟩
        · intro m hm
          obtain ⟨r, hr, hh⟩ := f.remaining m hm
          rw [hph] at hh
          simp only [reduceCtorEq, false_and, true_and, false_or, or_false] at hh
          exact ⟨r, hr, .inr (.inr ⟨rfl, .inr ⟨hh, wk (f.inbox hin)⟩⟩)⟩
        · intro hh
          obtain ⟨x, hx, hs⟩ := f.inbox hin
          exact absurd hs (nk hh x hx)
      | send hph =>
        have hz : threadSteps [Act.send (P := P) i] i = 1 := by simp [threadSteps]
        simp only [if_true] at h3
        refine ⟨p, n, k + 1, ⟨hst, f.payload, by rw [h3, f.ticks, f.payload, List.replicate_succ'], f.forever, ?_, by simp, fun a => wk (f.inbox a), ?_, ?_⟩⟩
        · intro m hm
          obtain ⟨r, hr, hh⟩ := f.remaining m hm
          rw [hph] at hh
          simp only [reduceCtorEq, false_and, or_true, true_and, false_or, or_false] at hh
          exact ⟨r, hr, .inl ⟨rfl, by omega⟩⟩
        · intro hh
          rw [threadSteps_append, hz, f.steps (nk hh), hph]
          simp only; omega
        · intro hh
          have := f.handle (hnext (fun h => h) hh)
          rw [hph] at this
          simp only [reduceCtorEq, or_false] at this
          exact .inl this

/-- The ticks that a stopped beam may still send, and the actions its thread may still do. -/
def pending (b : Beam P) : Nat := if b.phase = .send then 1 else 0
def rank (b : Beam P) : Nat := match b.phase with | .send => 3 | .check => 2 | .wait => 1 | .ended => 0

theorem step_stopped {t t' : Ticker P} {a : Act P} (he : step t a = some t') {i : Nat} {b : Beam P} (hb : t.threads[i]? = some b)
    (hst : b.inbox = true ∨ b.phase = .ended) :
    ∃ b', t'.threads[i]? = some b' ∧ (b'.inbox = true ∨ b'.phase = .ended) ∧ (ticksOf t' i).length + pending b' ≤ (ticksOf t i).length + pending b ∧
      threadSteps [a] i + rank b' ≤ rank b := by
  obtain ⟨b', h1, h2, h3⟩ := step_beam he hb
  refine ⟨b', h1, ?_⟩
  cases h2 with
  | other _ hz hs =>
    have h4 : ticksOf t' i = ticksOf t i := by
      rw [h3]
      cases a with
      | send j =>
        by_cases hj : j = i
        · subst hj; simp [threadSteps] at hz
        · simp [hj]
      | _ => simp
    rw [h4, hz]
    exact ⟨hst, Nat.le_refl _, by omega⟩
  | inter _ hz hs hm =>
    have h4 : ticksOf t' i = ticksOf t i := by
      rw [h3]
      cases a with
      | send j => exact hs.elim
      | _ => simp
    rw [h4, hz]
    exact ⟨.inl rfl, Nat.le_refl _, by simp [rank]⟩
  | check hph =>
    simp only [List.append_nil] at h3
    have hz : threadSteps [Act.check (P := P) i] i = 1 := by simp [threadSteps]
    rw [h3, hz]
    have hin : b.inbox = true := by rw [hph] at hst; simpa using hst
    unfold Beam.check
    split
    · exact ⟨.inr rfl, by simp [pending], by simp [rank, hph]⟩
    · exact ⟨.inl hin, by simp [pending], by simp [rank, hph]⟩
    · exact ⟨.inl hin, by simp [pending], by simp [rank, hph]⟩
  | timeout hph hin => rw [hph, hin] at hst; simp at hst
  | stopped hph hin =>
    simp only [List.append_nil] at h3
    have hz : threadSteps [Act.stopped (P := P) i] i = 1 := by simp [threadSteps]
    rw [h3, hz]
    exact ⟨.inr rfl, by simp [pending], by simp [rank, hph]⟩
  | send hph =>
    have hz : threadSteps [Act.send (P := P) i] i = 1 := by simp [threadSteps]
    simp only [if_true] at h3
    rw [h3, hz]
    have hin : b.inbox = true := by rw [hph] at hst; simpa using hst
    exact ⟨.inl hin, by simp [pending, hph], by simp [rank, hph]⟩

theorem tick_exec_snoc {acts : List (Act P)} {a : Act P} {t' : Ticker P} (h : Exec (acts ++ [a]) t') : ∃ t, Exec acts t ∧ step t a = some t' := by
  generalize hl : acts ++ [a] = l at h
  cases h with
  | init => simp at hl
  | @step acts2 s2 _ a2 h he =>
    have := List.append_inj' hl (by simp)
    obtain ⟨rfl, h2⟩ := this
    cases h2
    exact ⟨s2, h, he⟩

theorem tick_exec_unique {acts : List (Act P)} {s s' : Ticker P} (h : Exec acts s) (h' : Exec acts s') : s = s' := by
  induction h generalizing s' with
  | init =>
    generalize hl : ([] : List (Act P)) = l at h'
    cases h' with
    | init => rfl
    | step a h he => simp at hl
  | @step acts s s1 a h he ih =>
    obtain ⟨s2, h2, he2⟩ := tick_exec_snoc h'
    cases ih h2
    rw [he] at he2
    cases he2
    rfl

theorem exec_split {acts : List (Act P)} : ∀ (more : List (Act P)) {s' : Ticker P}, Exec (acts ++ more) s' → ∃ s, Exec acts s := by
  intro more s' h
  generalize hl : acts ++ more = l at h
  induction h generalizing more with
  | init =>
    obtain ⟨rfl, rfl⟩ := List.append_eq_nil_iff.1 hl
    exact ⟨_, .init⟩
  | @step acts2 s1 s2 a h he ih =>
    rcases List.eq_nil_or_concat more with rfl | ⟨m, y, rfl⟩
    · rw [List.append_nil] at hl
      subst hl
      exact ⟨s2, h.step a he⟩
    · rw [List.concat_eq_append, ← List.append_assoc] at hl
      exact ih m (List.append_inj' hl (by simp)).1

theorem exec_stopped {acts : List (Act P)} {t : Ticker P} (h0 : Exec acts t) {i : Nat} {b : Beam P} (hb : t.threads[i]? = some b)
    (hst : b.inbox = true ∨ b.phase = .ended) : ∀ (more : List (Act P)) {t' : Ticker P}, Exec (acts ++ more) t' →
    ∃ b', t'.threads[i]? = some b' ∧ (b'.inbox = true ∨ b'.phase = .ended) ∧ (ticksOf t' i).length + pending b' ≤ (ticksOf t i).length + pending b ∧
      threadSteps more i + rank b' ≤ rank b := by
  intro more t' h
  generalize hl : acts ++ more = l at h
  induction h generalizing more with
  | init =>
    obtain ⟨rfl, rfl⟩ := List.append_eq_nil_iff.1 hl
    cases tick_exec_unique h0 .init
    exact ⟨b, hb, hst, Nat.le_refl _, by simp [threadSteps]⟩
  | @step acts2 s1 s2 a h he ih =>
    rcases List.eq_nil_or_concat more with rfl | ⟨m, y, rfl⟩
    · rw [List.append_nil] at hl
      subst hl
      cases tick_exec_unique h0 (h.step a he)
      exact ⟨b, hb, hst, Nat.le_refl _, by simp [threadSteps]⟩
    · rw [List.concat_eq_append, ← List.append_assoc] at hl
      have hh := List.append_inj' hl (by simp)
      obtain ⟨b1, g1, g2, g3, g4⟩ := ih m hh.1
      have hy : y = a := by have := hh.2; simpa using this
      subst hy
      obtain ⟨b2, k1, k2, k3, k4⟩ := step_stopped he g1 g2
      rw [List.concat_eq_append, threadSteps_append]
      exact ⟨b2, k1, k2, by omega, by omega⟩

/-- The state after actions, for concrete cases. -/
def runTicks : Ticker P → List (Act P) → Option (Ticker P)
  | s, [] => some s
  | s, a :: l => match step s a with
    | some s' => runTicks s' l
    | none => none

theorem runTicks_exec : ∀ (l : List (Act P)) {acts : List (Act P)} {s s' : Ticker P}, Exec acts s → runTicks s l = some s' → Exec (acts ++ l) s'
  | [], acts, s, s', h, he => by simp only [runTicks, Option.some.injEq] at he; subst he; simpa using h
  | a :: l, acts, s, s', h, he => by
    simp only [runTicks] at he
    split at he
    · rename_i s1 h1
      have := runTicks_exec l (h.step a h1) he
      simpa using this
    · simp at he

theorem runTicks_some {l : List (Act P)} {s' : Ticker P} (he : runTicks {} l = some s') : Exec l s' := by
  have := runTicks_exec l (Exec.init (P := P)) he
  simpa using this

end Verif.Ticks
