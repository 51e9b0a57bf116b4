import Verif.Lemmas.EventSourceRun
/-! C34, C35, C36: the event source. -/
namespace Verif.Props
open Verif.Events

variable {S K : Type} {tr : S → RawKey → Option K × S} {o : Options} {c : S}

/-- A combiner for the concrete cases: keys whose kind isn't 0 give nothing. -/
def plainComb : Unit → RawKey → Option RawKey × Unit := fun _ k => (if k.kind = 0 then some k else none, ())

/-- `ALT-_`, `ALT-\` and a letter. -/
def kStart : RawKey := { code := .char '_', alt := true }
def kEnd : RawKey := { code := .char '\\', alt := true }
def kA : RawKey := { code := .char 'a' }

/-- The input has one cut only in single events, complete sequences, broken sequences, and the start of a sequence. -/
theorem C34_unambiguous {input : List RawEvent} {blocks blocks' : List Block} {opening opening' : List RawKey}
    (h : Parsed input blocks opening) (h' : Parsed input blocks' opening') : blocks = blocks' ∧ opening = opening' := by
  have h1 := cut_parsed h
  rw [cut_parsed h'] at h1
  exact ⟨(congrArg Prod.fst h1).symm, (congrArg Prod.snd h1).symm⟩

/-- Whatever the schedule, the input is cut in single events, complete escape sequences and broken ones (then comes the sequence being read). The
events sent are the first ones, in order and each once, of those the options keep among the single events and the broken sequences. -/
theorem C34_events {acts : List Act} {s : Source S K} (h : Exec tr o c acts s) :
    ∃ blocks opening, Parsed (inputs acts) blocks opening ∧ s.sent.map TimedEv.data <+: keep tr o c (blocks.flatMap Block.ordinary) := by
  obtain ⟨blocks, opening, f⟩ := exec_faithful h
  exact ⟨blocks, opening, f.parsed, f.sent⟩

/-- None is lost: when the thread is back to reading, the events sent are exactly those. -/
theorem C34_complete {acts : List Act} {s : Source S K} (h : Exec tr o c acts s) (ev : RawEvent) (hr : ∃ s', step tr o s (.read ev) = some s') :
    ∃ blocks opening, Parsed (inputs acts) blocks opening ∧ s.sent.map TimedEv.data = keep tr o c (blocks.flatMap Block.ordinary) := by
  obtain ⟨blocks, opening, f⟩ := exec_faithful h
  obtain ⟨s', hr⟩ := hr
  cases step_change hr with
  | read ev h1 h2 h3 h4 =>
    refine ⟨blocks, opening, f.parsed, ?_⟩
    have := f.running h1
    rw [h3, h4] at this
    simpa [keep] using this

/-- And so it is while an event is awaiting `unblock`, when the thread has nothing else to do. -/
theorem C34_complete_waiting {acts : List Act} {s : Source S K} (h : Exec tr o c acts s) (hw : s.waiting = true) (hs : s.stopped = false) (ht : s.todo = []) :
    ∃ blocks opening, Parsed (inputs acts) blocks opening ∧ s.sent.map TimedEv.data = keep tr o c (blocks.flatMap Block.ordinary) := by
  obtain ⟨blocks, opening, f⟩ := exec_faithful h
  refine ⟨blocks, opening, f.parsed, ?_⟩
  have := f.running hs
  rw [(exec_place h).waiting hw, ht] at this
  simpa [keep] using this

/-- The escape sequences received, then those awaiting in their channel, are among the complete ones, in order and each once. -/
theorem C34_sequences {acts : List Act} {s : Source S K} (h : Exec tr o c acts s) :
    ∃ blocks opening, Parsed (inputs acts) blocks opening ∧ (s.taken ++ s.queue).Sublist (blocks.filterMap Block.sequence?) := by
  obtain ⟨blocks, opening, f⟩ := exec_faithful h
  refine ⟨blocks, opening, f.parsed, ?_⟩
  rw [← f.offered, ← (exec_queue h).1]
  exact List.filter_sublist.map _

/-- None is lost if fewer than ten are let awaiting. -/
theorem C34_sequences_complete {acts : List Act} {s : Source S K} (h : Exec tr o c acts s)
    (hq : ∀ (before after : List Act) (s' : Source S K), acts = before ++ after → Exec tr o c before s' → s'.queue.length < 10) :
    ∃ blocks opening, Parsed (inputs acts) blocks opening ∧ s.taken ++ s.queue = blocks.filterMap Block.sequence? := by
  obtain ⟨blocks, opening, f⟩ := exec_faithful h
  refine ⟨blocks, opening, f.parsed, ?_⟩
  have key : ∀ x ∈ s.offered, x.2 = true := by
    clear f
    induction h with
    | init => simp
    | @step acts s s' a h he ih =>
      have hlt := hq acts [a] s rfl h
      have hi := ih (fun b a' s' e => hq b (a' ++ [a]) s' (by rw [e]; simp))
      cases step_change he with
      | read ev h1 h2 h3 h4 =>
        have ho : ∀ (s : Source S K) keys, s.queue.length < 10 → (∀ x ∈ s.offered, x.2 = true) → ∀ x ∈ (s.offer keys).offered, x.2 = true := by
          intro s keys hlt hi x hx
          unfold Source.offer at hx
          rw [if_pos (show s.queue.length < seqChannelSize from hlt)] at hx
          rcases List.mem_append.1 hx with h | h
          · exact hi x h
          · simp only [List.mem_singleton] at h; rw [h]
        unfold Source.read
        split
        · split
          · split
            · exact ho _ _ hlt hi
            · split <;> exact hi
          · exact hi
        · split
          · split <;> exact hi
          · exact hi
      | work now t ts =>
        obtain ⟨_, _, _, _, _, _, _, f8, _⟩ := work_frame (tr := tr) (o := o) ({ s with todo := ts } : Source S K) t now
        rw [f8]; exact hi
      | _ => exact hi
  rw [← f.offered, ← (exec_queue h).1, List.filter_eq_self.2 key]

/-- The counter is the number of events sent, or one more when the last counted event isn't yet sent. -/
theorem C34_counter {acts : List Act} {s : Source S K} (h : Exec tr o c acts s) :
    s.sent.length ≤ s.count ∧ s.count ≤ s.sent.length + 1 ∧ (s.waiting = true → s.stopped = false → s.count = s.sent.length) := by
  obtain ⟨h1, h2, h3⟩ := exec_count h
  refine ⟨h2, h3, fun hw hs => ?_⟩
  have := h1 hs
  rw [(exec_place h).waiting hw] at this
  simpa using this

/-- A sequence `ALT-_ a ALT-\`, an interrupted one, a click and a resize. -/
def mixedRun : List Act :=
  [.read (.key kStart), .read (.key kA), .read (.key kEnd), .take,
   .read (.key kStart), .read (.key kA), .read (.mouse ⟨.moved, 3, 4, 0⟩), .work 5, .send, .unblock false, .wake, .work 6, .send, .unblock false, .wake, .work 7,
   .read (.other 1), .work 9, .send, .unblock true]

example : ∃ s, Exec plainComb {} () mixedRun s ∧ s.taken = [[kStart, kA, kEnd]] ∧ s.waiting = true ∧ s.stopped = false ∧ s.todo = [] ∧
    s.sent.map TimedEv.data = [(.key kStart, some kStart), (.key kA, some kA), (.other 1, none)] ∧ s.count = 3 :=
  ⟨_, runActs_some (by rfl), by decide, by decide, by decide, by decide, by decide, by decide⟩

example : Parsed (inputs mixedRun) [.complete [kStart, kA, kEnd], .broken [kStart, kA] (.mouse ⟨.moved, 3, 4, 0⟩), .single (.other 1)] [] := by
  refine ⟨by decide, ?_, .inl rfl⟩
  intro b hb
  simp only [List.mem_cons, List.not_mem_nil, or_false] at hb
  rcases hb with rfl | rfl | rfl
  · exact ⟨[kStart, kA], kEnd, rfl, ⟨kStart, [kA], rfl, by unfold SeqStart; decide, by unfold SeqKey; decide⟩, by unfold SeqEnd; decide⟩
  · exact ⟨⟨kStart, [kA], rfl, by unfold SeqStart; decide, by unfold SeqKey; decide⟩, by simp⟩
  · intro k hk; simp at hk

theorem keep_comb [DecidableEq K] : ∀ (l : List RawEvent) (c : S) (ev : RawEvent) (comb : K), (ev, some comb) ∈ keep tr o c l → ∃ k, ev = .key k
  | [], _, _, _, h => by simp [keep] at h
  | .key k :: l, c, ev, comb, h => by
    simp only [keep, List.mem_append] at h
    rcases h with h | h
    · split at h
      · cases h
      · rw [List.mem_singleton] at h
        exact ⟨k, congrArg Prod.fst h⟩
    · exact keep_comb l _ ev comb h
  | .mouse m :: l, c, ev, comb, h => by
    simp only [keep, List.mem_append] at h
    rcases h with h | h
    · split at h
      · cases h
      · rw [List.mem_singleton] at h
        injection h with _ h
        cases h
    · exact keep_comb l _ ev comb h
  | .other n :: l, c, ev, comb, h => by
    simp only [keep, List.mem_cons] at h
    rcases h with h | h
    · injection h with _ h
      cases h
    · exact keep_comb l _ ev comb h

/-- A sent event answers to a key exactly when it's a key event, and this key is its combination or the one of the key event itself (which may
be the last of the keys of the combination); `into` is the conversion of key events. -/
theorem C34_is_key [DecidableEq K] {acts : List Act} {s : Source S K} (h : Exec tr o c acts s) (e : TimedEv K) (he : e ∈ s.sent) (into : RawKey → K) (key : K) :
    e.isKey into key = true ↔ ∃ k, e.event = .key k ∧ (e.comb = some key ∨ into k = key) := by
  obtain ⟨blocks, opening, _, hp⟩ := C34_events h
  have hm : e.data ∈ keep tr o c (blocks.flatMap Block.ordinary) := hp.subset (List.mem_map_of_mem he)
  unfold TimedEv.isKey
  by_cases hc : e.comb = some key
  · rw [if_pos hc]
    simp only [TimedEv.data, hc] at hm
    obtain ⟨k, hk⟩ := keep_comb _ _ _ _ hm
    exact ⟨fun _ => ⟨k, hk, .inl hc⟩, fun _ => rfl⟩
  · rw [if_neg hc]
    cases hev : e.event with
    | key k => simp [hc]
    | mouse m => simp
    | other n => simp

example : ∃ s, Exec plainComb {} () mixedRun s ∧ s.sent.map (fun e => e.isKey id kA) = [false, true, false] :=
  ⟨_, runActs_some (by rfl), by decide⟩

/-- Eleven sequences which the user doesn't take: the last one is lost. -/
theorem C34_sequences_counterexample : ∃ s : Source Unit RawKey,
    Exec plainComb {} () (List.replicate 11 [Act.read (.key kStart), .read (.key kEnd)]).flatten s ∧
    s.taken ++ s.queue = List.replicate 10 [kStart, kEnd] ∧ s.sent = [] :=
  ⟨_, runActs_some (by rfl), by decide, by decide⟩

/-- An `ALT-_` which interrupts a sequence doesn't start a new one: what follows isn't a sequence. -/
theorem C34_restart_counterexample : ∃ s : Source Unit RawKey,
    Exec plainComb {} () [.read (.key kStart), .read (.key kStart), .work 1, .send, .unblock false, .wake, .work 2, .send, .unblock false, .wake,
      .read (.key kEnd), .work 3, .send] s ∧
    s.taken ++ s.queue = [] ∧ s.sent.map TimedEv.data = [(.key kStart, some kStart), (.key kStart, some kStart), (.key kEnd, some kEnd)] :=
  ⟨_, runActs_some (by rfl), by decide, by decide⟩

/-- The text of an escape sequence whose keys are plain characters. -/
theorem C34_text (start stop : RawKey) (h1 : SeqStart start) (h2 : SeqEnd stop) (t : Text) :
    seqText (start :: t.map (fun c => { code := .char c }) ++ [stop]) = t := by
  have h3 : seqText [stop] = [] := by
    unfold seqText
    split
    · have := h2.2.1; simp at this
    · rfl
  have h4 : ∀ t : Text, seqText (t.map (fun c => ({ code := .char c } : RawKey)) ++ [stop]) = t := by
    intro t
    induction t with
    | nil => exact h3
    | cons c t ih => simp [seqText, ih]
  rw [List.cons_append]
  unfold seqText
  split
  · have := h1.2.1; simp at this
  · exact h4 t

/-- The characters typed with shift aren't in the text. -/
theorem C34_text_counterexample : seqText [kStart, { code := .char 'G', shift := true }, kA, kEnd] = ['a'] := by decide

/-- A sent event is a double click exactly when it's a press or release of the left button, on the cell of the last release of this button, less than
700ms after it. -/
theorem C35_double {acts : List Act} {s : Source S K} (h : Exec tr o c acts s) (before after : List (TimedEv K)) (e : TimedEv K)
    (hs : s.sent = before ++ e :: after) : e.double = true ↔ DoubleAfter before e :=
  (exec_double h).2 before e after hs

/-- A click is a release of the left button, without modifier, which isn't a double click. -/
theorem C35_click {acts : List Act} {s : Source S K} (h : Exec tr o c acts s) (before after : List (TimedEv K)) (e : TimedEv K)
    (hs : s.sent = before ++ e :: after) (x y : Nat) :
    e.asClick = some (x, y) ↔ e.event = .mouse ⟨.up .left, x, y, 0⟩ ∧ ¬ DoubleAfter before e := by
  rw [← C35_double h before after e hs]
  obtain ⟨time, ev, double, comb⟩ := e
  simp only
  unfold TimedEv.asClick
  split
  · rename_i x' y' heq
    simp only at heq
    subst heq
    cases double <;> simp
  · rename_i hn
    simp only at hn
    simp only [reduceCtorEq, false_iff, not_and]
    intro he
    exact absurd he (hn x y)

/-- Keys and other events are never double clicks. -/
theorem C35_mouse_only {acts : List Act} {s : Source S K} (h : Exec tr o c acts s) (e : TimedEv K) (he : e ∈ s.sent) (hd : e.double = true) :
    ∃ m, e.event = .mouse m := by
  obtain ⟨l, r, hs⟩ := List.append_of_mem he
  obtain ⟨m, hm, _⟩ := (C35_double h l r e hs).1 hd
  exact ⟨m, hm⟩

/-- Press, release, press and release 0.2s later, release 0.7s after. -/
def clicksRun : List Act :=
  ([(.down .left, 0), (.up .left, 1), (.down .left, 200000000), (.up .left, 200000001), (.up .left, 900000001)].map fun (p : RawMouseKind × Nat) =>
    [Act.read (.mouse ⟨p.1, 3, 4, 0⟩), .work p.2, .send, .unblock false, .wake]).flatten

example : ∃ s, Exec plainComb {} () clicksRun s ∧ s.sent.map TimedEv.double = [false, false, true, true, false] ∧
    s.sent.map TimedEv.asClick = [none, some (3, 4), none, none, some (3, 4)] :=
  ⟨_, runActs_some (by rfl), by decide, by decide⟩

/-- Never more events than one plus the number of `unblock(false)` before the first `unblock(true)`. -/
theorem C36_bound {acts : List Act} {s : Source S K} (h : Exec tr o c acts s) :
    s.sent.length ≤ ((unblocks acts).takeWhile (· = false)).length + 1 := (exec_unblock h).2.1

/-- Nothing is sent after an `unblock(true)` called when an event is received and not yet answered by a call to `unblock`. -/
theorem C36_quit {acts more : List Act} {s s' : Source S K} (h : Exec tr o c acts s) (h' : Exec tr o c (acts ++ .unblock true :: more) s')
    (hr : (unblocks acts).length < s.sent.length) : s'.sent = s.sent := by
  obtain ⟨s1, h1, hp⟩ := exec_prefix (.unblock true :: more) h'
  cases exec_unique h h1
  have hb := C36_bound h'
  have hu : unblocks (acts ++ .unblock true :: more) = unblocks acts ++ true :: unblocks more := by
    rw [unblocks_append]; rfl
  have hl : ∀ l l' : List Bool, ((l ++ true :: l').takeWhile (· = false)).length ≤ l.length := by
    intro l l'
    induction l with
    | nil => simp
    | cons b l ih =>
      cases b
      · rw [List.cons_append, List.takeWhile_cons_of_pos (by simp)]; simpa using ih
      · simp
  rw [hu] at hb
  have := hl (unblocks acts) (unblocks more)
  exact (List.IsPrefix.eq_of_length_le hp (by omega)).symm

/-- Called in advance, `unblock(true)` lets one more event be sent. -/
theorem C36_quit_counterexample : ∃ s : Source Unit RawKey,
    Exec plainComb {} () [.unblock true, .read (.key kA), .work 0, .send, .wake] s ∧ s.sent.length = 1 ∧ s.stopped = true :=
  ⟨_, runActs_some (by rfl), by decide, by decide⟩

/-- `unblock` doesn't panic while it has not been called with true. -/
theorem C36_unblock_no_panic {acts : List Act} {s : Source S K} (h : Exec tr o c acts s) (ha : s.sourceAlive = true) (hu : true ∉ unblocks acts) (q : Bool) :
    ∃ s', step tr o s (.unblock q) = some s' := by
  have hs : s.stopped = false := by
    cases hs : s.stopped with
    | false => rfl
    | true => exact absurd ((exec_unblock h).2.2 hs ha) hu
  exact ⟨_, by simp only [step, ha, hs]; rfl⟩

/-- It panics after the end of the thread. -/
theorem C36_unblock_counterexample : ∃ s : Source Unit RawKey,
    Exec plainComb {} () [.read (.key kA), .work 0, .send, .unblock true, .wake] s ∧ s.sourceAlive = true ∧ step plainComb {} s (.unblock true) = none :=
  ⟨_, runActs_some (by rfl), by decide, by rfl⟩

/-- The thread isn't stuck: unless it has ended it can send, work or read, or it awaits the call to `unblock` for the last event sent. -/
theorem C36_progress {acts : List Act} {s : Source S K} (h : Exec tr o c acts s) (hs : s.stopped = false) :
    (s.waiting = false → (∃ s', step tr o s .send = some s') ∨ (∀ now, ∃ s', step tr o s (.work now) = some s') ∨ ∀ ev, ∃ s', step tr o s (.read ev) = some s') ∧
    (s.waiting = true → (unblocks acts).length < s.sent.length ∨ ∃ s', step tr o s .wake = some s') := by
  constructor
  · intro hw
    cases ho : s.outbox with
    | some e =>
      left
      simp only [step, ho]
      split <;> exact ⟨_, rfl⟩
    | none =>
      right
      cases ht : s.todo with
      | nil => exact .inr fun ev => ⟨s.read ev, by simp [step, hs, hw, ho, ht]⟩
      | cons t ts => exact .inl fun now => ⟨({ s with todo := ts } : Source S K).work tr o now t, by simp [step, hs, hw, ho, ht]⟩
  · intro hw
    obtain ⟨n, h1, h2⟩ := (exec_unblock h).1 hs
    rw [hw] at h2
    simp only [if_true] at h2
    cases hq : s.quits with
    | nil => left; rw [h1, hq]; simp; omega
    | cons q qs =>
      right
      cases q <;> exact ⟨_, by simp only [step, hw, hs, hq]; rfl⟩

/-- Once the user has called `unblock(true)`, when awaited, the thread ends at its next action. -/
theorem C36_end {acts : List Act} {s s' : Source S K} (h : Exec tr o c (acts ++ [.unblock true]) s) (hw : s.waiting = true)
    (hr : (unblocks acts).length < s.sent.length) (he : step tr o s .wake = some s') : s'.stopped = true := by
  cases step_change he with
  | quit qs h h1 h2 => rfl
  | orphan h h0 h1 h2 => rfl
  | wake qs hq h1 h2 =>
    obtain ⟨n, j1, j2⟩ := (exec_unblock h).1 h2
    rw [hw] at j2
    simp only [if_true] at j2
    rw [hq, unblocks_append] at j1
    have hl := congrArg List.length j1
    simp [unblocks] at hl
    have hl2 : qs = [] := by
      cases qs with
      | nil => rfl
      | cons q qs => simp [unblocks] at hr; simp at hl; omega
    subst hl2
    have := congrArg List.getLast? j1
    simp [unblocks] at this

example : ∃ s, Exec plainComb {} () (mixedRun ++ [.wake]) s ∧ s.stopped = true ∧ s.sent.length = 3 ∧ unblocks mixedRun = [false, false, true] :=
  ⟨_, runActs_some (by rfl), by decide, by decide, by decide⟩

end Verif.Props
