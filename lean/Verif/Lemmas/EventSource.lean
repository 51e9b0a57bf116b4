import Verif.Spec.EventSource
/-! Invariants of the event source. -/
namespace Verif.Events

variable {S K : Type} {tr : S → RawKey → Option K × S} {o : Options} {c : S}

/-- The event of something to do. -/
def Todo.ev : Todo → RawEvent
  | .replay k => .key k
  | .event e => e

/-- The state of the combiner after ordinary events. -/
def combAfter (tr : S → RawKey → Option K × S) : S → List RawEvent → S
  | c, [] => c
  | c, .key k :: l => combAfter tr (tr c k).2 l
  | c, .mouse _ :: l => combAfter tr c l
  | c, .other _ :: l => combAfter tr c l

theorem combAfter_append : ∀ (l l' : List RawEvent) (c : S), combAfter tr c (l ++ l') = combAfter tr (combAfter tr c l) l'
  | [], _, _ => rfl
  | .key _ :: l, l', _ => combAfter_append l l' _
  | .mouse _ :: l, l', c => combAfter_append l l' c
  | .other _ :: l, l', c => combAfter_append l l' c

theorem keep_append : ∀ (l l' : List RawEvent) (c : S), keep tr o c (l ++ l') = keep tr o c l ++ keep tr o (combAfter tr c l) l'
  | [], _, _ => rfl
  | .key k :: l, l', c => by simp only [List.cons_append, keep, combAfter, keep_append l l', List.append_assoc]
  | .mouse _ :: l, l', c => by simp only [List.cons_append, keep, combAfter, keep_append l l', List.append_assoc]
  | .other _ :: l, l', c => by simp only [List.cons_append, keep, combAfter, keep_append l l']

/-- The work on an event. -/
theorem work_spec (s : Source S K) (t : Todo) (now : Nat) (ho : s.outbox = none) :
    (s.work tr o now t).outbox.toList.map TimedEv.data ++ keep tr o (s.work tr o now t).comb (s.todo.map Todo.ev) =
      keep tr o s.comb (t.ev :: s.todo.map Todo.ev) ∧
    (s.work tr o now t).comb = combAfter tr s.comb [t.ev] := by
  have hkey : ∀ k, (s.workKey tr o now k).outbox.toList.map TimedEv.data ++ keep tr o (s.workKey tr o now k).comb (s.todo.map Todo.ev) =
      keep tr o s.comb (.key k :: s.todo.map Todo.ev) ∧ (s.workKey tr o now k).comb = combAfter tr s.comb [.key k] := by
    intro k
    unfold Source.workKey
    simp only [keep, combAfter]
    by_cases h : o.discardRawKeys = true ∧ (tr s.comb k).1 = none
    · rw [if_pos ⟨h.1, by rw [h.2]; rfl⟩, if_pos h]
      simp [ho]
    · rw [if_neg (by rw [Option.isNone_iff_eq_none]; exact h), if_neg h]
      simp [Source.post, TimedEv.data]
  have hmouse : ∀ m, (s.workMouse o now m).outbox.toList.map TimedEv.data ++ keep tr o (s.workMouse o now m).comb (s.todo.map Todo.ev) =
      keep tr o s.comb (.mouse m :: s.todo.map Todo.ev) ∧ (s.workMouse o now m).comb = combAfter tr s.comb [.mouse m] := by
    intro m
    have hd : Source.discarded o m = true ↔
        (o.discardMouseMove ∧ m.kind = .moved) ∨ (o.discardMouseDrag ∧ m.kind ∈ [RawMouseKind.drag .left, .drag .right, .drag .middle]) := by
      unfold Source.discarded
      cases m.kind with
      | drag b => cases b <;> simp
      | _ => simp
    unfold Source.workMouse
    simp only [keep, combAfter]
    by_cases h : Source.discarded o m = true
    · rw [if_pos h, if_pos (hd.1 h)]
      simp [ho]
    · rw [if_neg h, if_neg (fun h' => h (hd.2 h'))]
      split <;> simp [Source.post, TimedEv.data]
  match t with
  | .replay k => exact hkey k
  | .event (.key k) => exact hkey k
  | .event (.mouse m) => exact hmouse m
  | .event (.other n) => simp [Source.work, Source.post, keep, combAfter, TimedEv.data, Todo.ev]

/-- What the work doesn't change. -/
theorem work_frame (s : Source S K) (t : Todo) (now : Nat) :
    (s.work tr o now t).seq = s.seq ∧ (s.work tr o now t).todo = s.todo ∧ (s.work tr o now t).waiting = s.waiting ∧
    (s.work tr o now t).stopped = s.stopped ∧ (s.work tr o now t).sent = s.sent ∧ (s.work tr o now t).queue = s.queue ∧
    (s.work tr o now t).taken = s.taken ∧ (s.work tr o now t).offered = s.offered ∧ (s.work tr o now t).quits = s.quits ∧
    (s.work tr o now t).sourceAlive = s.sourceAlive ∧ (s.work tr o now t).receiverAlive = s.receiverAlive ∧
    (s.outbox = none → (s.work tr o now t).count = s.count + (s.work tr o now t).outbox.toList.length) := by
  have hkey : ∀ k, let s' := s.workKey tr o now k
      s'.seq = s.seq ∧ s'.todo = s.todo ∧ s'.waiting = s.waiting ∧ s'.stopped = s.stopped ∧ s'.sent = s.sent ∧ s'.queue = s.queue ∧
      s'.taken = s.taken ∧ s'.offered = s.offered ∧ s'.quits = s.quits ∧ s'.sourceAlive = s.sourceAlive ∧ s'.receiverAlive = s.receiverAlive ∧
      (s.outbox = none → s'.count = s.count + s'.outbox.toList.length) := by
    intro k
    unfold Source.workKey
    simp only
    split
    · exact ⟨rfl, rfl, rfl, rfl, rfl, rfl, rfl, rfl, rfl, rfl, rfl, fun h => by simp [h]⟩
    · exact ⟨rfl, rfl, rfl, rfl, rfl, rfl, rfl, rfl, rfl, rfl, rfl, fun h => by simp [Source.post]⟩
  match t with
  | .replay k => exact hkey k
  | .event (.key k) => exact hkey k
  | .event (.mouse m) =>
    unfold Source.work Source.workMouse
    simp only
    split
    · exact ⟨rfl, rfl, rfl, rfl, rfl, rfl, rfl, rfl, rfl, rfl, rfl, fun h => by simp [h]⟩
    · split
      · exact ⟨rfl, rfl, rfl, rfl, rfl, rfl, rfl, rfl, rfl, rfl, rfl, fun h => by simp [Source.post]⟩
      · exact ⟨rfl, rfl, rfl, rfl, rfl, rfl, rfl, rfl, rfl, rfl, rfl, fun h => by simp [Source.post]⟩
  | .event (.other n) => exact ⟨rfl, rfl, rfl, rfl, rfl, rfl, rfl, rfl, rfl, rfl, rfl, fun h => by simp [Source.work, Source.post]⟩

theorem inputs_append (acts acts' : List Act) : inputs (acts ++ acts') = inputs acts ++ inputs acts' := by simp [inputs]

theorem unblocks_append (acts acts' : List Act) : unblocks (acts ++ acts') = unblocks acts ++ unblocks acts' := by simp [unblocks]

theorem isSeqStart_iff (k : RawKey) : isSeqStart k = true ↔ SeqStart k := by
  unfold isSeqStart SeqStart
  simp

theorem isSeqEnd_iff (k : RawKey) : isSeqEnd k = true ↔ SeqEnd k := by
  unfold isSeqEnd SeqEnd
  simp

/-- The place of the thread in the loop. -/
structure Place (s : Source S K) : Prop where
  waiting : s.waiting = true → s.outbox = none
  stopped : s.stopped = true → s.outbox = none
  seq : s.seq.isSome = true → s.todo = [] ∧ s.outbox = none
  alive : s.sourceAlive = true → s.receiverAlive = true

theorem read_frame (s : Source S K) (ev : RawEvent) :
    (s.read ev).comb = s.comb ∧ (s.read ev).lastUp = s.lastUp ∧ (s.read ev).outbox = s.outbox ∧ (s.read ev).waiting = s.waiting ∧
    (s.read ev).stopped = s.stopped ∧ (s.read ev).count = s.count ∧ (s.read ev).sent = s.sent ∧ (s.read ev).taken = s.taken ∧
    (s.read ev).quits = s.quits ∧ (s.read ev).sourceAlive = s.sourceAlive ∧ (s.read ev).receiverAlive = s.receiverAlive := by
  unfold Source.read
  split
  · split
    · split
      · unfold Source.offer
        split <;> exact ⟨rfl, rfl, rfl, rfl, rfl, rfl, rfl, rfl, rfl, rfl, rfl⟩
      · split <;> exact ⟨rfl, rfl, rfl, rfl, rfl, rfl, rfl, rfl, rfl, rfl, rfl⟩
    · exact ⟨rfl, rfl, rfl, rfl, rfl, rfl, rfl, rfl, rfl, rfl, rfl⟩
  · split
    · split <;> exact ⟨rfl, rfl, rfl, rfl, rfl, rfl, rfl, rfl, rfl, rfl, rfl⟩
    · exact ⟨rfl, rfl, rfl, rfl, rfl, rfl, rfl, rfl, rfl, rfl, rfl⟩

/-- An event read when the previous ones are sent: how the cut of the input changes. -/
theorem read_parsed {s : Source S K} {input : List RawEvent} {blocks : List Block} {opening : List RawKey}
    (hp : Parsed input blocks opening) (hseq : s.seq = if opening = [] then none else some opening) (ht : s.todo = []) (ev : RawEvent) :
    ∃ blocks' opening', Parsed (input ++ [ev]) blocks' opening' ∧ ((s.read ev).seq = if opening' = [] then none else some opening') ∧
      blocks'.flatMap Block.ordinary = blocks.flatMap Block.ordinary ++ (s.read ev).todo.map Todo.ev ∧
      (∃ l, (s.read ev).offered = s.offered ++ l ∧ blocks'.filterMap Block.sequence? = blocks.filterMap Block.sequence? ++ l.map (·.1)) ∧
      ((s.read ev).seq.isSome = true → (s.read ev).todo = []) := by
  have add : ∀ b : Block, b.Valid → ∀ e, input ++ e = (blocks ++ [b]).flatMap Block.raw → Parsed (input ++ e) (blocks ++ [b]) [] := by
    intro b hb e he
    refine ⟨by simpa using he, ?_, .inl rfl⟩
    intro b' hb'
    rcases List.mem_append.1 hb' with h | h
    · exact hp.valid b' h
    · simp only [List.mem_singleton] at h; rw [h]; exact hb
  by_cases h0 : opening = []
  · subst h0
    rw [if_pos rfl] at hseq
    have hcut := hp.cut
    simp only [List.map_nil, List.append_nil] at hcut
    have single : (∀ k, ev = .key k → ¬ SeqStart k) → s.read ev = { s with todo := [.event ev] } →
        ∃ blocks' opening', Parsed (input ++ [ev]) blocks' opening' ∧ ((s.read ev).seq = if opening' = [] then none else some opening') ∧
      blocks'.flatMap Block.ordinary = blocks.flatMap Block.ordinary ++ (s.read ev).todo.map Todo.ev ∧
      (∃ l, (s.read ev).offered = s.offered ++ l ∧ blocks'.filterMap Block.sequence? = blocks.filterMap Block.sequence? ++ l.map (·.1)) ∧
      ((s.read ev).seq.isSome = true → (s.read ev).todo = []) := by
      intro hv he
      refine ⟨blocks ++ [.single ev], [], add (.single ev) hv [ev] (by simp [hcut, Block.raw]), ?_⟩
      rw [he]
      refine ⟨by simp [hseq], by simp [Block.ordinary, Todo.ev], ⟨[], by simp, by simp [Block.sequence?]⟩, by simp [hseq]⟩
    cases ev with
    | key k =>
      by_cases hs : isSeqStart k = true
      · have he : s.read (.key k) = { s with seq := some [k] } := by simp [Source.read, hseq, hs]
        refine ⟨blocks, [k], ⟨by simp [hcut], hp.valid, .inr ⟨k, [], rfl, (isSeqStart_iff k).1 hs, by simp⟩⟩, ?_⟩
        rw [he]
        exact ⟨by simp, by simp [ht], ⟨[], by simp, by simp⟩, fun _ => ht⟩
      · refine single ?_ (by simp [Source.read, hseq, hs])
        rintro k' ⟨⟩ h
        exact hs ((isSeqStart_iff k).2 h)
    | mouse m => exact single (by simp) (by simp [Source.read, hseq])
    | other n => exact single (by simp) (by simp [Source.read, hseq])
  · rw [if_neg h0] at hseq
    have hop : Opening opening := hp.opened.resolve_left h0
    have hcut := hp.cut
    have broken : (∀ k, ev = .key k → ¬ SeqEnd k ∧ ¬ SeqKey k) → s.read ev = { s with seq := none, todo := opening.map .replay ++ [.event ev] } →
        ∃ blocks' opening', Parsed (input ++ [ev]) blocks' opening' ∧ ((s.read ev).seq = if opening' = [] then none else some opening') ∧
      blocks'.flatMap Block.ordinary = blocks.flatMap Block.ordinary ++ (s.read ev).todo.map Todo.ev ∧
      (∃ l, (s.read ev).offered = s.offered ++ l ∧ blocks'.filterMap Block.sequence? = blocks.filterMap Block.sequence? ++ l.map (·.1)) ∧
      ((s.read ev).seq.isSome = true → (s.read ev).todo = []) := by
      intro hv he
      refine ⟨blocks ++ [.broken opening ev], [], add (.broken opening ev) ⟨hop, hv⟩ [ev] (by simp [hcut, Block.raw]), ?_⟩
      rw [he]
      refine ⟨by simp, ?_, ⟨[], by simp, by simp [Block.sequence?]⟩, by simp⟩
      simp [Block.ordinary, Todo.ev, List.map_map, Function.comp_def]
    cases ev with
    | key k =>
      by_cases hend : isSeqEnd k = true
      · have he : s.read (.key k) = { s with seq := none }.offer (opening ++ [k]) := by simp [Source.read, hseq, hend]
        have hoff : ∃ b, ({ s with seq := none } : Source S K).offer (opening ++ [k]) =
            { ({ s with seq := none } : Source S K).offer (opening ++ [k]) with seq := none, todo := s.todo, offered := s.offered ++ [(opening ++ [k], b)] } := by
          unfold Source.offer
          split
          · exact ⟨true, rfl⟩
          · exact ⟨false, rfl⟩
        obtain ⟨b, hoff⟩ := hoff
        refine ⟨blocks ++ [.complete (opening ++ [k])], [], add (.complete (opening ++ [k])) ⟨opening, k, rfl, hop, (isSeqEnd_iff k).1 hend⟩ [.key k] (by simp [hcut, Block.raw]), ?_⟩
        rw [he, hoff]
        exact ⟨by simp, by simp [Block.ordinary, ht], ⟨[(opening ++ [k], b)], rfl, by simp [Block.sequence?]⟩, by simp⟩
      · by_cases hk : SeqKey k
        · have he : s.read (.key k) = { s with seq := some (opening ++ [k]) } := by
            simp [Source.read, hseq, hend, hk.1, hk.2]
          obtain ⟨x, mid, hx, h1, h2⟩ := hop
          refine ⟨blocks, opening ++ [k], ⟨by simp [hcut], hp.valid, .inr ⟨x, mid ++ [k], by rw [hx]; simp, h1, ?_⟩⟩, ?_⟩
          · intro y hy
            rcases List.mem_append.1 hy with h | h
            · exact h2 y h
            · simp only [List.mem_singleton] at h; rw [h]; exact hk
          · rw [he]
            exact ⟨by simp, by simp [ht], ⟨[], by simp, by simp⟩, fun _ => ht⟩
        · have hneg : (!(k.alt || k.ctrl)) = false := by
            unfold SeqKey at hk
            cases ha : k.alt <;> cases hc : k.ctrl <;> simp_all
          refine broken ?_ (by simp only [Source.read, hseq, hend, hneg, Bool.false_eq_true, if_false])
          rintro k' ⟨⟩
          exact ⟨fun h => hend ((isSeqEnd_iff k).2 h), hk⟩
    | mouse m => exact broken (by simp) (by simp [Source.read, hseq])
    | other n => exact broken (by simp) (by simp [Source.read, hseq])

/-- The cut of the input and what's sent. -/
structure Faithful (tr : S → RawKey → Option K × S) (o : Options) (c : S) (input : List RawEvent) (blocks : List Block) (opening : List RawKey)
    (s : Source S K) : Prop where
  parsed : Parsed input blocks opening
  seq : s.seq = if opening = [] then none else some opening
  offered : s.offered.map (·.1) = blocks.filterMap Block.sequence?
  comb : combAfter tr s.comb (s.todo.map Todo.ev) = combAfter tr c (blocks.flatMap Block.ordinary)
  running : s.stopped = false → s.sent.map TimedEv.data ++ s.outbox.toList.map TimedEv.data ++ keep tr o s.comb (s.todo.map Todo.ev) =
    keep tr o c (blocks.flatMap Block.ordinary)
  sent : s.sent.map TimedEv.data <+: keep tr o c (blocks.flatMap Block.ordinary)

theorem exec_place {acts : List Act} {s : Source S K} (h : Exec tr o c acts s) : Place s := by
  induction h with
  | init => exact ⟨by simp, by simp, by simp, by simp⟩
  | @step acts s s' a h he ih =>
    cases a with
    | read ev =>
      simp only [step] at he
      split at he
      · rename_i hen
        simp only [Option.some.injEq] at he
        subst he
        obtain ⟨_, _, f3, f4, f5, _, _, _, _, f10, f11⟩ := read_frame s ev
        have hob : s.outbox = none := Option.isNone_iff_eq_none.1 hen.2.2.1
        refine ⟨fun _ => by rw [f3]; exact hob, fun _ => by rw [f3]; exact hob, fun h => ⟨?_, by rw [f3]; exact hob⟩, by rw [f10, f11]; exact ih.alive⟩
        clear f3 f4 f5 f10 f11
        revert h
        unfold Source.read
        split
        · split
          · split
            · unfold Source.offer; split <;> simp
            · split
              · intro _; exact hen.2.2.2
              · simp
          · simp
        · rename_i hs
          split
          · split
            · intro _; exact hen.2.2.2
            · simp [hs]
          · simp [hs]
      · simp at he
    | work now =>
      simp only [step] at he
      split at he
      · simp at he
      · rename_i t ts htodo
        split at he
        · rename_i hen
          simp only [Option.some.injEq] at he
          subst he
          obtain ⟨f1, f2, f3, f4, _, _, _, _, _, f10, f11, _⟩ := work_frame (tr := tr) (o := o) ({ s with todo := ts } : Source S K) t now
          refine ⟨?_, ?_, ?_, by rw [f10, f11]; exact ih.alive⟩
          · intro hw; rw [f3] at hw; rw [show s.waiting = true from hw] at hen; simp at hen
          · intro hw; rw [f4] at hw; rw [show s.stopped = true from hw] at hen; simp at hen
          · intro hs
            rw [f1] at hs
            have := (ih.seq hs).1
            rw [htodo] at this
            simp at this
        · simp at he
    | send =>
      simp only [step] at he
      split at he
      · simp at he
      · rename_i e hob
        have hseq : s.seq.isSome = true → False := fun h => by
          have := (ih.seq h).2; rw [hob] at this; simp at this
        split at he
        · cases he; exact ⟨fun _ => rfl, fun _ => rfl, fun h => absurd h hseq, ih.alive⟩
        · cases he; exact ⟨fun _ => rfl, fun _ => rfl, fun h => absurd h hseq, ih.alive⟩
    | wake =>
      simp only [step] at he
      split at he
      · rename_i hen
        split at he
        · cases he; exact ⟨by simp, ih.stopped, ih.seq, ih.alive⟩
        · cases he; exact ⟨ih.waiting, fun _ => ih.waiting hen.1, ih.seq, ih.alive⟩
        · split at he
          · simp at he
          · cases he; exact ⟨ih.waiting, fun _ => ih.waiting hen.1, ih.seq, ih.alive⟩
      · simp at he
    | unblock q =>
      simp only [step] at he
      split at he
      · cases he; exact ⟨ih.waiting, ih.stopped, ih.seq, ih.alive⟩
      · simp at he
    | take =>
      simp only [step] at he
      split at he
      · simp at he
      · cases he; exact ⟨ih.waiting, ih.stopped, ih.seq, ih.alive⟩
    | dropSource =>
      simp only [step] at he
      split at he
      · cases he; exact ⟨ih.waiting, ih.stopped, ih.seq, by simp⟩
      · simp at he
    | dropReceiver =>
      simp only [step] at he
      split at he
      · rename_i hen
        cases he
        exact ⟨ih.waiting, ih.stopped, ih.seq, fun h => by
          have := hen.1; simp at this; rw [this] at h; simp at h⟩
      · simp at he

theorem exec_faithful {acts : List Act} {s : Source S K} (h : Exec tr o c acts s) :
    ∃ blocks opening, Faithful tr o c (inputs acts) blocks opening s := by
  induction h with
  | init =>
    exact ⟨[], [], ⟨⟨rfl, by simp, .inl rfl⟩, rfl, rfl, rfl, fun _ => rfl, by simp⟩⟩
  | @step acts s s' a h he ih =>
    obtain ⟨blocks, opening, f⟩ := ih
    have hpl := exec_place h
    have same : inputs (acts ++ [a]) = inputs acts → s'.seq = s.seq → s'.offered = s.offered → s'.comb = s.comb → s'.todo = s.todo →
        (s'.stopped = false → s.stopped = false ∧ s'.sent.map TimedEv.data ++ s'.outbox.toList.map TimedEv.data =
          s.sent.map TimedEv.data ++ s.outbox.toList.map TimedEv.data) →
        s'.sent.map TimedEv.data <+: keep tr o c (blocks.flatMap Block.ordinary) →
        ∃ blocks opening, Faithful tr o c (inputs (acts ++ [a])) blocks opening s' := by
      intro h1 h2 h3 h4 h5 h6 h7
      refine ⟨blocks, opening, ⟨by rw [h1]; exact f.parsed, by rw [h2]; exact f.seq, by rw [h3]; exact f.offered, by rw [h4, h5]; exact f.comb, ?_, h7⟩⟩
      intro hs
      obtain ⟨h8, h9⟩ := h6 hs
      rw [h4, h5, h9]
      exact f.running h8
    cases a with
    | read ev =>
      simp only [step] at he
      split at he
      · rename_i hen
        simp only [Option.some.injEq] at he
        subst he
        obtain ⟨f1, f2, f3, f4, f5, f6, f7, _⟩ := read_frame s ev
        have hob : s.outbox = none := Option.isNone_iff_eq_none.1 hen.2.2.1
        have ht := hen.2.2.2
        have hst : s.stopped = false := by simpa using hen.1
        obtain ⟨blocks', opening', p1, p2, p3, ⟨l, p4, p5⟩, _⟩ := read_parsed f.parsed f.seq ht ev
        have hrun := f.running hst
        have hcomb := f.comb
        rw [ht] at hrun hcomb
        rw [hob] at hrun
        simp only [List.map_nil, keep, combAfter, Option.toList_none, List.append_nil] at hrun hcomb
        refine ⟨blocks', opening', ⟨?_, p2, ?_, ?_, ?_, ?_⟩⟩
        · rw [inputs_append]; exact p1
        · rw [p4, p5, List.map_append, f.offered]
        · rw [f1, p3, combAfter_append, hcomb]
        · intro _
          rw [f1, f3, f7, p3, keep_append, ← hcomb, hob, ← hrun]
          simp
        · rw [f7, p3, keep_append, ← hrun]
          exact List.prefix_append _ _
      · simp at he
    | work now =>
      simp only [step] at he
      split at he
      · simp at he
      · rename_i t ts htodo
        split at he
        · rename_i hen
          simp only [Option.some.injEq] at he
          subst he
          have hob : s.outbox = none := Option.isNone_iff_eq_none.1 hen.2.2
          have hst : s.stopped = false := by simpa using hen.1
          obtain ⟨f1, f2, f3, f4, f5, f6, f7, f8, _⟩ := work_frame (tr := tr) (o := o) ({ s with todo := ts } : Source S K) t now
          obtain ⟨w1, w2⟩ := work_spec (tr := tr) (o := o) ({ s with todo := ts } : Source S K) t now hob
          have hrun := f.running hst
          have hcomb := f.comb
          rw [htodo] at hrun hcomb
          rw [hob] at hrun
          simp only [List.map_cons, Option.toList_none, List.map_nil, List.append_nil] at hrun hcomb
          refine ⟨blocks, opening, ⟨?_, by rw [f1]; exact f.seq, by rw [f8]; exact f.offered, ?_, ?_, by rw [f5]; exact f.sent⟩⟩
          · rw [inputs_append]; simpa [inputs] using f.parsed
          · rw [f2, w2, ← combAfter_append]
            exact hcomb
          · intro _
            rw [f2, f5, List.append_assoc, w1]
            exact hrun
        · simp at he
    | send =>
      simp only [step] at he
      split at he
      · simp at he
      · rename_i e hob
        split at he
        · cases he
          have hst : s.stopped = false := by
            cases hs : s.stopped with
            | false => rfl
            | true => have := hpl.stopped hs; rw [hob] at this; simp at this
          have hrun := f.running hst
          refine same (by simp [inputs]) rfl rfl rfl rfl (fun _ => ⟨hst, by simp [hob]⟩) ?_
          rw [← hrun, hob]
          simp
        · cases he
          exact same (by simp [inputs]) rfl rfl rfl rfl (by simp) f.sent
    | wake =>
      simp only [step] at he
      split at he
      · rename_i hen
        have hst : s.stopped = false := by simpa using hen.2
        split at he
        · cases he; exact same (by simp [inputs]) rfl rfl rfl rfl (fun _ => ⟨hst, rfl⟩) f.sent
        · cases he; exact same (by simp [inputs]) rfl rfl rfl rfl (fun _ => ⟨hst, rfl⟩) f.sent
        · split at he
          · simp at he
          · cases he; exact same (by simp [inputs]) rfl rfl rfl rfl (fun _ => ⟨hst, rfl⟩) f.sent
      · simp at he
    | unblock q =>
      simp only [step] at he
      split at he
      · cases he; exact same (by simp [inputs]) rfl rfl rfl rfl (fun h => ⟨h, rfl⟩) f.sent
      · simp at he
    | take =>
      simp only [step] at he
      split at he
      · simp at he
      · cases he; exact same (by simp [inputs]) rfl rfl rfl rfl (fun h => ⟨h, rfl⟩) f.sent
    | dropSource =>
      simp only [step] at he
      split at he
      · cases he; exact same (by simp [inputs]) rfl rfl rfl rfl (fun h => ⟨h, rfl⟩) f.sent
      · simp at he
    | dropReceiver =>
      simp only [step] at he
      split at he
      · cases he; exact same (by simp [inputs]) rfl rfl rfl rfl (fun h => ⟨h, rfl⟩) f.sent
      · simp at he

end Verif.Events
