import Verif.Lemmas.EventSource
/-! More invariants of the event source: counter, double clicks, channel of sequences, protocol of `unblock`. -/
namespace Verif.Events

variable {S K : Type} {tr : S → RawKey → Option K × S} {o : Options} {c : S}

/-- What an enabled action does, read as a relation. -/
inductive Change (tr : S → RawKey → Option K × S) (o : Options) (s : Source S K) : Act → Source S K → Prop
  | read (ev : RawEvent) (h1 : s.stopped = false) (h2 : s.waiting = false) (h3 : s.outbox = none) (h4 : s.todo = []) : Change tr o s (.read ev) (s.read ev)
  | work (now : Nat) (t : Todo) (ts : List Todo) (h : s.todo = t :: ts) (h1 : s.stopped = false) (h2 : s.waiting = false) (h3 : s.outbox = none) :
      Change tr o s (.work now) ({ s with todo := ts }.work tr o now t)
  | send (e : TimedEv K) (h : s.outbox = some e) (h1 : s.receiverAlive = true) :
      Change tr o s .send { s with outbox := none, sent := s.sent ++ [e], waiting := true }
  | lost (e : TimedEv K) (h : s.outbox = some e) (h1 : s.receiverAlive = false) : Change tr o s .send { s with outbox := none, stopped := true }
  | wake (qs : List Bool) (h : s.quits = false :: qs) (h1 : s.waiting = true) (h2 : s.stopped = false) :
      Change tr o s .wake { s with waiting := false, quits := qs }
  | quit (qs : List Bool) (h : s.quits = true :: qs) (h1 : s.waiting = true) (h2 : s.stopped = false) :
      Change tr o s .wake { s with stopped := true, quits := qs }
  | orphan (h : s.quits = []) (h0 : s.sourceAlive = false) (h1 : s.waiting = true) (h2 : s.stopped = false) : Change tr o s .wake { s with stopped := true }
  | unblock (q : Bool) (h1 : s.sourceAlive = true) (h2 : s.stopped = false) : Change tr o s (.unblock q) { s with quits := s.quits ++ [q] }
  | take (q : List RawKey) (qs : List (List RawKey)) (h : s.queue = q :: qs) : Change tr o s .take { s with queue := qs, taken := s.taken ++ [q] }
  | dropSource (h : s.sourceAlive = true) : Change tr o s .dropSource { s with sourceAlive := false }
  | dropReceiver (h : s.sourceAlive = false) (h1 : s.receiverAlive = true) : Change tr o s .dropReceiver { s with receiverAlive := false }

theorem step_change {s s' : Source S K} {a : Act} (he : step tr o s a = some s') : Change tr o s a s' := by
  cases a with
  | read ev =>
    simp only [step] at he
    split at he
    · rename_i h
      cases he
      exact .read ev (by simpa using h.1) (by simpa using h.2.1) (Option.isNone_iff_eq_none.1 h.2.2.1) h.2.2.2
    · simp at he
  | work now =>
    simp only [step] at he
    split at he
    · simp at he
    · rename_i t ts ht
      split at he
      · rename_i h
        simp only [Option.some.injEq] at he
        subst he
        exact .work now t ts ht (by simpa using h.1) (by simpa using h.2.1) (Option.isNone_iff_eq_none.1 h.2.2)
      · simp at he
  | send =>
    simp only [step] at he
    split at he
    · simp at he
    · rename_i e ho
      split at he
      · rename_i h; cases he; exact .send e ho h
      · rename_i h; cases he; exact .lost e ho (by simpa using h)
  | wake =>
    simp only [step] at he
    split at he
    · rename_i h
      have h2 : s.stopped = false := by simpa using h.2
      split at he
      · rename_i qs hq; cases he; exact .wake qs hq h.1 h2
      · rename_i qs hq; cases he; exact .quit qs hq h.1 h2
      · rename_i hq
        split at he
        · simp at he
        · rename_i ha; cases he; exact .orphan hq (by simpa using ha) h.1 h2
    · simp at he
  | unblock q =>
    simp only [step] at he
    split at he
    · rename_i h; cases he; exact .unblock q h.1 (by simpa using h.2)
    · simp at he
  | take =>
    simp only [step] at he
    split at he
    · simp at he
    · rename_i q qs hq; cases he; exact .take q qs hq
  | dropSource =>
    simp only [step] at he
    split at he
    · rename_i h; cases he; exact .dropSource h
    · simp at he
  | dropReceiver =>
    simp only [step] at he
    split at he
    · rename_i h; cases he; exact .dropReceiver (by simpa using h.1) h.2
    · simp at he

/-- The counter. -/
theorem exec_count {acts : List Act} {s : Source S K} (h : Exec tr o c acts s) :
    (s.stopped = false → s.count = s.sent.length + s.outbox.toList.length) ∧ s.sent.length ≤ s.count ∧ s.count ≤ s.sent.length + 1 := by
  induction h with
  | init => exact ⟨fun _ => rfl, Nat.le_refl _, by simp⟩
  | @step acts s s' a h he ih =>
    obtain ⟨i1, i2, i3⟩ := ih
    have hpl := exec_place h
    cases step_change he with
    | read ev h1 h2 h3 h4 =>
      obtain ⟨_, _, f3, _, f5, f6, f7, _⟩ := read_frame s ev
      rw [f3, f5, f6, f7]; exact ⟨i1, i2, i3⟩
    | work now t ts ht h1 h2 h3 =>
      obtain ⟨_, _, _, f4, f5, _, _, _, _, _, _, f12⟩ := work_frame (tr := tr) (o := o) ({ s with todo := ts } : Source S K) t now
      have hc := f12 h3
      have h0 := i1 h1
      rw [h3] at h0
      simp only [Option.toList_none, List.length_nil, Nat.add_zero] at h0
      rw [f5, hc]
      show (_ → s.count + _ = s.sent.length + _) ∧ s.sent.length ≤ s.count + _ ∧ s.count + _ ≤ s.sent.length + 1
      rw [h0]
      have hl : ∀ x : Option (TimedEv K), x.toList.length ≤ 1 := fun x => by cases x <;> simp
      exact ⟨fun _ => rfl, Nat.le_add_right _ _, Nat.add_le_add_left (hl _) _⟩
    | send e ho h1 =>
      have hst : s.stopped = false := by
        cases hs : s.stopped with
        | false => rfl
        | true => have := hpl.stopped hs; rw [ho] at this; simp at this
      have h0 := i1 hst
      rw [ho] at h0
      simp only [Option.toList_some, List.length_singleton] at h0
      simp only [List.length_append, List.length_singleton, Option.toList_none, List.length_nil]
      exact ⟨fun _ => by omega, by omega, by omega⟩
    | lost e ho h1 => exact ⟨by simp, i2, i3⟩
    | wake qs hq h1 h2 => exact ⟨i1, i2, i3⟩
    | quit qs hq h1 h2 => exact ⟨by simp, i2, i3⟩
    | orphan hq h0 h1 h2 => exact ⟨by simp, i2, i3⟩
    | unblock q h1 h2 => exact ⟨i1, i2, i3⟩
    | take q qs hq => exact ⟨i1, i2, i3⟩
    | dropSource h => exact ⟨i1, i2, i3⟩
    | dropReceiver h h1 => exact ⟨i1, i2, i3⟩

/-- The channel of sequences. -/
theorem exec_queue {acts : List Act} {s : Source S K} (h : Exec tr o c acts s) :
    (s.offered.filter (·.2)).map (·.1) = s.taken ++ s.queue ∧ s.queue.length ≤ seqChannelSize := by
  induction h with
  | init => exact ⟨rfl, by simp⟩
  | @step acts s s' a h he ih =>
    obtain ⟨i1, i2⟩ := ih
    cases step_change he with
    | read ev h1 h2 h3 h4 =>
      obtain ⟨_, _, _, _, _, _, _, f8, _⟩ := read_frame s ev
      rw [f8]
      have ho : ∀ (s : Source S K) keys, (s.offered.filter (·.2)).map (·.1) = s.taken ++ s.queue → s.queue.length ≤ seqChannelSize →
          ((s.offer keys).offered.filter (·.2)).map (·.1) = s.taken ++ (s.offer keys).queue ∧ (s.offer keys).queue.length ≤ seqChannelSize := by
        intro s keys i1 i2
        unfold Source.offer
        split
        · rename_i hlt
          simp only [List.filter_append, List.map_append, i1, List.length_append, List.length_singleton]
          exact ⟨by simp, hlt⟩
        · simp only [List.filter_append, List.map_append, i1]
          exact ⟨by simp, i2⟩
      unfold Source.read
      split
      · split
        · split
          · exact ho _ _ i1 i2
          · split <;> exact ⟨i1, i2⟩
        · exact ⟨i1, i2⟩
      · split
        · split <;> exact ⟨i1, i2⟩
        · exact ⟨i1, i2⟩
    | work now t ts ht h1 h2 h3 =>
      obtain ⟨_, _, _, _, _, f6, f7, f8, _⟩ := work_frame (tr := tr) (o := o) ({ s with todo := ts } : Source S K) t now
      rw [f6, f7, f8]; exact ⟨i1, i2⟩
    | send e ho h1 => exact ⟨i1, i2⟩
    | lost e ho h1 => exact ⟨i1, i2⟩
    | wake qs hq h1 h2 => exact ⟨i1, i2⟩
    | quit qs hq h1 h2 => exact ⟨i1, i2⟩
    | orphan hq h0 h1 h2 => exact ⟨i1, i2⟩
    | unblock q h1 h2 => exact ⟨i1, i2⟩
    | take q qs hq =>
      rw [hq] at i1 i2
      simp only [List.length_cons] at i2
      exact ⟨by rw [i1]; simp, by simp only; omega⟩
    | dropSource h => exact ⟨i1, i2⟩
    | dropReceiver h h1 => exact ⟨i1, i2⟩

/-- The sent events only grow. -/
theorem exec_sent_mono {acts : List Act} {s s' : Source S K} {a : Act} (_ : Exec tr o c acts s) (he : step tr o s a = some s') : s.sent <+: s'.sent := by
  cases step_change he with
  | read ev => rw [(read_frame s ev).2.2.2.2.2.2.1]; exact List.prefix_rfl
  | work now t ts =>
    obtain ⟨_, _, _, _, f5, _⟩ := work_frame (tr := tr) (o := o) ({ s with todo := ts } : Source S K) t now
    rw [f5]; exact List.prefix_rfl
  | send e => exact List.prefix_append _ _
  | _ => exact List.prefix_rfl

/-- The double clicks of a list of events, each one decided by the previous ones. -/
def Doubles (l : List (TimedEv K)) : Prop :=
  ∀ before e after, l = before ++ e :: after → (e.double = true ↔ DoubleAfter before e)

theorem work_double (s : Source S K) (t : Todo) (now : Nat) (ho : s.outbox = none) (hl : s.lastUp = (s.sent.filterMap TimedEv.leftUp).getLast?) :
    (s.work tr o now t).lastUp = ((s.sent ++ (s.work tr o now t).outbox.toList).filterMap TimedEv.leftUp).getLast? ∧
    ∀ e, (s.work tr o now t).outbox = some e → (e.double = true ↔ DoubleAfter s.sent e) := by
  have hkey : ∀ k, (s.workKey tr o now k).lastUp = ((s.sent ++ (s.workKey tr o now k).outbox.toList).filterMap TimedEv.leftUp).getLast? ∧
      ∀ e, (s.workKey tr o now k).outbox = some e → (e.double = true ↔ DoubleAfter s.sent e) := by
    intro k
    unfold Source.workKey
    simp only
    split
    · simp [ho, hl]
    · refine ⟨by simp [Source.post, TimedEv.leftUp, hl], ?_⟩
      rintro e ⟨⟩
      simp [DoubleAfter]
  match t with
  | .replay k => exact hkey k
  | .event (.key k) => exact hkey k
  | .event (.other n) =>
    refine ⟨by simp [Source.work, Source.post, TimedEv.leftUp, hl], ?_⟩
    rintro e ⟨⟩
    simp [DoubleAfter]
  | .event (.mouse m) =>
    unfold Source.work Source.workMouse
    simp only
    split
    · simp [ho, hl]
    · split
      · rename_i hk
        constructor
        · obtain ⟨kind, x, y, mods⟩ := m
          simp only at hk ⊢
          by_cases hu : kind = .up .left
          · subst hu
            simp [Source.post, TimedEv.leftUp]
          · have hd : kind = .down .left := hk.resolve_right hu
            subst hd
            simp [Source.post, TimedEv.leftUp, hl]
        · rintro e ⟨⟩
          unfold DoubleAfter
          rw [← hl]
          cases s.lastUp with
          | none => simp
          | some q =>
            obtain ⟨tm, x, y⟩ := q
            simp only [decide_eq_true_eq]
            constructor
            · rintro ⟨h1, h2, h3⟩
              exact ⟨m, rfl, hk, tm, by rw [h1, h2], h3⟩
            · rintro ⟨m', h1, _, tm', h3, h4⟩
              cases h1
              simp only [Option.some.injEq, Prod.mk.injEq] at h3
              obtain ⟨rfl, rfl, rfl⟩ := h3
              exact ⟨rfl, rfl, h4⟩
      · rename_i hk
        constructor
        · have : TimedEv.leftUp (K := K) { time := now, event := .mouse m } = none := by
            unfold TimedEv.leftUp
            split
            · rename_i heq; cases heq; simp at hk
            · rfl
          simp [Source.post, this, hl]
        · rintro e ⟨⟩
          unfold DoubleAfter
          simp only [Bool.false_eq_true, false_iff]
          rintro ⟨m', h1, h2, _⟩
          cases h1
          exact hk h2

theorem doubles_append {l : List (TimedEv K)} {e : TimedEv K} (h : Doubles l) (he : e.double = true ↔ DoubleAfter l e) : Doubles (l ++ [e]) := by
  intro before x after heq
  rcases List.eq_nil_or_concat after with rfl | ⟨a', y, rfl⟩
  · have := List.append_inj' heq (by simp)
    obtain ⟨rfl, h2⟩ := this
    cases h2
    exact he
  · rw [List.concat_eq_append, ← List.cons_append, ← List.append_assoc] at heq
    have := List.append_inj' heq (by simp)
    exact h before x a' this.1

theorem exec_double {acts : List Act} {s : Source S K} (h : Exec tr o c acts s) :
    (s.stopped = false → s.lastUp = ((s.sent ++ s.outbox.toList).filterMap TimedEv.leftUp).getLast? ∧ Doubles (s.sent ++ s.outbox.toList)) ∧
    Doubles s.sent := by
  induction h with
  | init => exact ⟨fun _ => ⟨rfl, by intro b e a h; simp at h⟩, by intro b e a h; simp at h⟩
  | @step acts s s' a h he ih =>
    obtain ⟨i1, i2⟩ := ih
    have hpl := exec_place h
    cases step_change he with
    | read ev h1 h2 h3 h4 =>
      obtain ⟨_, f2, f3, _, f5, f6, f7, _⟩ := read_frame s ev
      rw [f2, f3, f5, f7]; exact ⟨i1, i2⟩
    | work now t ts ht h1 h2 h3 =>
      obtain ⟨_, _, _, f4, f5, _⟩ := work_frame (tr := tr) (o := o) ({ s with todo := ts } : Source S K) t now
      obtain ⟨j1, j2⟩ := i1 h1
      rw [h3] at j1 j2
      simp only [Option.toList_none, List.append_nil] at j1 j2
      obtain ⟨w1, w2⟩ := work_double (tr := tr) (o := o) ({ s with todo := ts } : Source S K) t now h3 j1
      rw [f5]
      refine ⟨fun _ => ⟨w1, ?_⟩, i2⟩
      cases hob : (({ s with todo := ts } : Source S K).work tr o now t).outbox with
      | none => simpa using i2
      | some e => exact doubles_append i2 (w2 e hob)
    | send e ho h1 =>
      have hst : s.stopped = false := by
        cases hs : s.stopped with
        | false => rfl
        | true => have := hpl.stopped hs; rw [ho] at this; simp at this
      have h0 := i1 hst
      rw [ho] at h0
      simp only [Option.toList_some] at h0
      refine ⟨fun _ => by simpa using h0, h0.2⟩
    | lost e ho h1 => exact ⟨by simp, i2⟩
    | quit qs hq h1 h2 => exact ⟨by simp, i2⟩
    | orphan hq h0 h1 h2 => exact ⟨by simp, i2⟩
    | wake qs hq h1 h2 => exact ⟨i1, i2⟩
    | unblock q h1 h2 => exact ⟨i1, i2⟩
    | take q qs hq => exact ⟨i1, i2⟩
    | dropSource h => exact ⟨i1, i2⟩
    | dropReceiver h h1 => exact ⟨i1, i2⟩

/-- The protocol of `unblock`. -/
theorem exec_unblock {acts : List Act} {s : Source S K} (h : Exec tr o c acts s) :
    (s.stopped = false → ∃ n, unblocks acts = List.replicate n false ++ s.quits ∧ s.sent.length = n + (if s.waiting then 1 else 0)) ∧
    s.sent.length ≤ ((unblocks acts).takeWhile (· = false)).length + 1 ∧
    (s.stopped = true → s.sourceAlive = true → true ∈ unblocks acts) := by
  induction h with
  | init => exact ⟨fun _ => ⟨0, rfl, rfl⟩, by simp, by simp⟩
  | @step acts s s' a h he ih =>
    obtain ⟨i1, i2, i3⟩ := ih
    have hpl := exec_place h
    have hb : ∀ n (l : List Bool), n ≤ ((List.replicate n false ++ l).takeWhile (· = false)).length := by
      intro n l
      induction n with
      | zero => simp
      | succ n ih => simp only [List.replicate_succ, List.cons_append]; rw [List.takeWhile_cons_of_pos (by simp)]; simp only [List.length_cons]; omega
    rw [unblocks_append]
    cases step_change he with
    | read ev h1 h2 h3 h4 =>
      obtain ⟨_, _, _, f4, f5, _, f7, _, f9, f10, _⟩ := read_frame s ev
      rw [f4, f5, f7, f9, f10, show unblocks [Act.read ev] = [] from rfl, List.append_nil]; exact ⟨i1, i2, i3⟩
    | work now t ts ht h1 h2 h3 =>
      obtain ⟨_, _, f3, f4, f5, _, _, _, f9, f10, _⟩ := work_frame (tr := tr) (o := o) ({ s with todo := ts } : Source S K) t now
      rw [f3, f4, f5, f9, f10, show unblocks [Act.work now] = [] from rfl, List.append_nil]; exact ⟨i1, i2, i3⟩
    | send e ho h1 =>
      rw [show unblocks [Act.send] = [] from rfl, List.append_nil]
      have hst : s.stopped = false := by
        cases hs : s.stopped with
        | false => rfl
        | true => have := hpl.stopped hs; rw [ho] at this; simp at this
      have hw : s.waiting = false := by
        cases hs : s.waiting with
        | false => rfl
        | true => have := hpl.waiting hs; rw [ho] at this; simp at this
      obtain ⟨n, j1, j2⟩ := i1 hst
      rw [hw] at j2
      simp only [Bool.false_eq_true, if_false, Nat.add_zero] at j2
      refine ⟨fun _ => ⟨n, j1, by simp [j2]⟩, ?_, fun h => by simp only at h; rw [hst] at h; simp at h⟩
      have := hb n s.quits
      rw [j1]
      simp only [List.length_append, List.length_singleton]
      omega
    | lost e ho h1 =>
      rw [show unblocks [Act.send] = [] from rfl, List.append_nil]
      refine ⟨by simp, i2, fun _ ha => ?_⟩
      have := hpl.alive ha
      rw [h1] at this
      simp at this
    | wake qs hq h1 h2 =>
      rw [show unblocks [Act.wake] = [] from rfl, List.append_nil]
      obtain ⟨n, j1, j2⟩ := i1 h2
      rw [h1] at j2
      simp only [if_true] at j2
      refine ⟨fun _ => ⟨n + 1, ?_, by simp [j2]⟩, i2, i3⟩
      rw [j1, hq, List.replicate_succ']
      simp
    | quit qs hq h1 h2 =>
      rw [show unblocks [Act.wake] = [] from rfl, List.append_nil]
      obtain ⟨n, j1, j2⟩ := i1 h2
      refine ⟨by simp, i2, fun _ _ => ?_⟩
      rw [j1, hq]; simp
    | orphan hq h0 h1 h2 =>
      rw [show unblocks [Act.wake] = [] from rfl, List.append_nil]
      refine ⟨by simp, i2, fun _ ha => ?_⟩
      simp only at ha; rw [h0] at ha; simp at ha
    | unblock q h1 h2 =>
      rw [show unblocks [Act.unblock q] = [q] from rfl]
      obtain ⟨n, j1, j2⟩ := i1 h2
      refine ⟨fun _ => ⟨n, by rw [j1]; simp, j2⟩, ?_, fun h => by simp only at h; rw [h2] at h; simp at h⟩
      have := hb n (s.quits ++ [q])
      rw [j1, List.append_assoc]
      simp only
      rw [j2]
      split <;> omega
    | take q qs hq =>
      rw [show unblocks [Act.take] = [] from rfl, List.append_nil]
      exact ⟨i1, i2, i3⟩
    | dropSource h =>
      rw [show unblocks [Act.dropSource] = [] from rfl, List.append_nil]
      exact ⟨i1, i2, by simp⟩
    | dropReceiver h h1 =>
      rw [show unblocks [Act.dropReceiver] = [] from rfl, List.append_nil]
      exact ⟨i1, i2, i3⟩

theorem exec_snoc {acts : List Act} {a : Act} {s' : Source S K} (h : Exec tr o c (acts ++ [a]) s') :
    ∃ s, Exec tr o c acts s ∧ step tr o s a = some s' := by
  generalize hl : acts ++ [a] = l at h
  cases h with
  | init => simp at hl
  | @step acts2 s2 _ a2 h he =>
    have := List.append_inj' hl (by simp)
    obtain ⟨rfl, h2⟩ := this
    cases h2
    exact ⟨s2, h, he⟩

theorem exec_unique {acts : List Act} {s s' : Source S K} (h : Exec tr o c acts s) (h' : Exec tr o c acts s') : s = s' := by
  induction h generalizing s' with
  | init =>
    generalize hl : ([] : List Act) = l at h'
    cases h' with
    | init => rfl
    | step a h he => simp at hl
  | @step acts s s1 a h he ih =>
    obtain ⟨s2, h2, he2⟩ := exec_snoc h'
    cases ih h2
    rw [he] at he2
    cases he2
    rfl

theorem exec_prefix {acts : List Act} : ∀ (more : List Act) {s' : Source S K}, Exec tr o c (acts ++ more) s' → ∃ s, Exec tr o c acts s ∧ s.sent <+: s'.sent := by
  intro more s' h
  generalize hl : acts ++ more = l at h
  induction h generalizing more with
  | init =>
    obtain ⟨rfl, rfl⟩ := List.append_eq_nil_iff.1 hl
    exact ⟨_, .init, List.prefix_rfl⟩
  | @step acts2 s1 s2 a h he ih =>
    rcases List.eq_nil_or_concat more with rfl | ⟨m, y, rfl⟩
    · rw [List.append_nil] at hl
      subst hl
      exact ⟨s2, h.step a he, List.prefix_rfl⟩
    · rw [List.concat_eq_append, ← List.append_assoc] at hl
      have := List.append_inj' hl (by simp)
      obtain ⟨s, hs, hp⟩ := ih m this.1
      exact ⟨s, hs, hp.trans (exec_sent_mono h he)⟩

/-- The state after actions, for concrete cases. -/
def runActs (tr : S → RawKey → Option K × S) (o : Options) : Source S K → List Act → Option (Source S K)
  | s, [] => some s
  | s, a :: l => match step tr o s a with
    | some s' => runActs tr o s' l
    | none => none

theorem runActs_exec : ∀ (l : List Act) {acts : List Act} {s s' : Source S K}, Exec tr o c acts s → runActs tr o s l = some s' → Exec tr o c (acts ++ l) s'
  | [], acts, s, s', h, he => by simp only [runActs, Option.some.injEq] at he; subst he; simpa using h
  | a :: l, acts, s, s', h, he => by
    simp only [runActs] at he
    split at he
    · rename_i s1 h1
      have := runActs_exec l (h.step a h1) he
      simpa using this
    · simp at he

theorem runActs_some {l : List Act} {s' : Source S K} (he : runActs tr o { comb := c } l = some s') : Exec tr o c l s' := by
  have := runActs_exec l (Exec.init (tr := tr) (o := o) (c := c)) he
  simpa using this

/-- The cut of the input, computed. -/
def cutStep (p : List Block × List RawKey) (ev : RawEvent) : List Block × List RawKey :=
  if p.2 = [] then
    match ev with
    | .key k => if isSeqStart k then (p.1, [k]) else (p.1 ++ [.single ev], [])
    | _ => (p.1 ++ [.single ev], [])
  else
    match ev with
    | .key k =>
      if isSeqEnd k then (p.1 ++ [.complete (p.2 ++ [k])], [])
      else if !(k.alt || k.ctrl) then (p.1, p.2 ++ [k])
      else (p.1 ++ [.broken p.2 ev], [])
    | _ => (p.1 ++ [.broken p.2 ev], [])

theorem isSeqEnd_alt {k : RawKey} (h : isSeqEnd k = true) : k.alt = true := ((isSeqEnd_iff k).1 h).2.1

theorem cut_opening (bs : List Block) {keys : List RawKey} (h : Opening keys) : (keys.map RawEvent.key).foldl cutStep (bs, []) = (bs, keys) := by
  obtain ⟨k, mid, rfl, h1, h2⟩ := h
  have : ∀ (mid acc : List RawKey), acc ≠ [] → (∀ x ∈ mid, SeqKey x) → (mid.map RawEvent.key).foldl cutStep (bs, acc) = (bs, acc ++ mid) := by
    intro mid
    induction mid with
    | nil => intro acc _ _; simp
    | cons x mid ih =>
      intro acc ha hm
      have hx := hm x List.mem_cons_self
      have he : isSeqEnd x = false := by
        cases h : isSeqEnd x with
        | false => rfl
        | true => have := isSeqEnd_alt h; rw [hx.1] at this; simp at this
      have : cutStep (bs, acc) (.key x) = (bs, acc ++ [x]) := by
        simp [cutStep, ha, he, hx.1, hx.2]
      rw [List.map_cons, List.foldl_cons, this, ih _ (by simp) (fun y hy => hm y (List.mem_cons_of_mem _ hy))]
      simp
  rw [List.map_cons, List.foldl_cons]
  have h3 : cutStep (bs, []) (.key k) = (bs, [k]) := by simp [cutStep, (isSeqStart_iff k).2 h1]
  rw [h3, this mid [k] (by simp) h2]
  rfl

theorem opening_ne {keys : List RawKey} (h : Opening keys) : keys ≠ [] := by
  obtain ⟨k, mid, rfl, _⟩ := h; simp

theorem cut_block (bs : List Block) (b : Block) (h : b.Valid) : b.raw.foldl cutStep (bs, []) = (bs ++ [b], []) := by
  match b with
  | .single ev =>
    cases ev with
    | key k =>
      have : isSeqStart k = false := by
        cases hs : isSeqStart k with
        | false => rfl
        | true => exact absurd ((isSeqStart_iff k).1 hs) (h k rfl)
      simp [Block.raw, cutStep, this]
    | mouse m => simp [Block.raw, cutStep]
    | other n => simp [Block.raw, cutStep]
  | .complete keys =>
    obtain ⟨start, e, rfl, h1, h2⟩ := h
    simp only [Block.raw, List.map_append, List.foldl_append, cut_opening bs h1, List.map_cons, List.map_nil, List.foldl_cons, List.foldl_nil]
    simp [cutStep, opening_ne h1, (isSeqEnd_iff e).2 h2]
  | .broken keys ev =>
    simp only [Block.raw, List.foldl_append, cut_opening bs h.1, List.foldl_cons, List.foldl_nil]
    cases ev with
    | key k =>
      obtain ⟨h1, h2⟩ := h.2 k rfl
      have he : isSeqEnd k = false := by
        cases hs : isSeqEnd k with
        | false => rfl
        | true => exact absurd ((isSeqEnd_iff k).1 hs) h1
      have hneg : (!(k.alt || k.ctrl)) = false := by
        unfold SeqKey at h2
        cases ha : k.alt <;> cases hc : k.ctrl <;> simp_all
      simp only [cutStep, opening_ne h.1, if_false, he, hneg, Bool.false_eq_true]
    | mouse m => simp [cutStep, opening_ne h.1]
    | other n => simp [cutStep, opening_ne h.1]

theorem cut_blocks : ∀ (blocks bs : List Block), (∀ b ∈ blocks, b.Valid) → (blocks.flatMap Block.raw).foldl cutStep (bs, []) = (bs ++ blocks, [])
  | [], bs, _ => by simp
  | b :: blocks, bs, h => by
    rw [List.flatMap_cons, List.foldl_append, cut_block bs b (h b List.mem_cons_self), cut_blocks blocks _ (fun x hx => h x (List.mem_cons_of_mem _ hx))]
    simp

theorem cut_parsed {input : List RawEvent} {blocks : List Block} {opening : List RawKey} (h : Parsed input blocks opening) :
    input.foldl cutStep ([], []) = (blocks, opening) := by
  rw [h.cut, List.foldl_append, cut_blocks blocks [] h.valid, List.nil_append]
  rcases h.opened with rfl | h
  · rfl
  · exact cut_opening blocks h

end Verif.Events
