import Verif.Model.EventSource
/-! Specification vocabulary for the event source. -/
namespace Verif.Events

/-- The events read by the thread. -/
def inputs (acts : List Act) : List RawEvent := acts.filterMap fun | .read ev => some ev | _ => none

/-- The arguments of the calls to `unblock`. -/
def unblocks (acts : List Act) : List Bool := acts.filterMap fun | .unblock b => some b | _ => none

/-- The number of actions of the thread other than reading. -/
def threadActs (acts : List Act) : Nat := acts.countP fun | .work _ => true | .send => true | .wake => true | _ => false

/-- The thread can neither work, nor send, nor be woken: it reads, awaits `unblock`, or has ended. -/
def Idle {S K : Type} (tr : S → RawKey → Option K × S) (o : Options) (s : Source S K) : Prop :=
  (∀ now, step tr o s (.work now) = none) ∧ step tr o s .send = none ∧ step tr o s .wake = none

/-- `ALT-_`. -/
def SeqStart (k : RawKey) : Prop := k.code = .char '_' ∧ k.alt = true ∧ k.shift = false ∧ k.ctrl = false ∧ k.otherMods = 0

/-- `ALT-\`. -/
def SeqEnd (k : RawKey) : Prop := k.code = .char '\\' ∧ k.alt = true ∧ k.shift = false ∧ k.ctrl = false ∧ k.otherMods = 0

/-- The keys which may be in a sequence. -/
def SeqKey (k : RawKey) : Prop := k.alt = false ∧ k.ctrl = false

/-- The start of a sequence. -/
def Opening (keys : List RawKey) : Prop := ∃ k mid, keys = k :: mid ∧ SeqStart k ∧ ∀ x ∈ mid, SeqKey x

/-- The parts of the input: an event out of any sequence, a complete escape sequence, a sequence broken by an event. -/
inductive Block
  | single (ev : RawEvent) | complete (keys : List RawKey) | broken (keys : List RawKey) (ev : RawEvent)

/-- The events of the block. -/
def Block.raw : Block → List RawEvent
  | .single ev => [ev]
  | .complete keys => keys.map .key
  | .broken keys ev => keys.map .key ++ [ev]

/-- The ordinary events of the block: those which aren't in a complete sequence. -/
def Block.ordinary : Block → List RawEvent
  | .single ev => [ev]
  | .complete _ => []
  | .broken keys ev => keys.map .key ++ [ev]

/-- The escape sequence which the block is. -/
def Block.sequence? : Block → Option (List RawKey)
  | .complete keys => some keys
  | _ => none

/-- A single event doesn't start a sequence; a complete sequence ends with `ALT-\`; a broken one is followed by an event which neither ends it nor can be in it. -/
def Block.Valid : Block → Prop
  | .single ev => ∀ k, ev = .key k → ¬ SeqStart k
  | .complete keys => ∃ start e, keys = start ++ [e] ∧ Opening start ∧ SeqEnd e
  | .broken keys ev => Opening keys ∧ ∀ k, ev = .key k → ¬ SeqEnd k ∧ ¬ SeqKey k

/-- The input cut in blocks, followed by the start of a sequence or by nothing. -/
structure Parsed (input : List RawEvent) (blocks : List Block) (opening : List RawKey) : Prop where
  cut : input = blocks.flatMap Block.raw ++ opening.map .key
  valid : ∀ b ∈ blocks, b.Valid
  opened : opening = [] ∨ Opening opening

/-- The events which the options keep among ordinary ones, with the combinations given by a combiner. -/
def keep {S K : Type} (tr : S → RawKey → Option K × S) (o : Options) : S → List RawEvent → List (RawEvent × Option K)
  | _, [] => []
  | c, .key k :: l => (if o.discardRawKeys ∧ (tr c k).1 = none then [] else [(.key k, (tr c k).1)]) ++ keep tr o (tr c k).2 l
  | c, .mouse m :: l =>
    (if (o.discardMouseMove ∧ m.kind = .moved) ∨ (o.discardMouseDrag ∧ m.kind ∈ [RawMouseKind.drag .left, .drag .right, .drag .middle]) then [] else [(.mouse m, none)]) ++ keep tr o c l
  | c, .other n :: l => (.other n, none) :: keep tr o c l

/-- The event and combination of a timed event. -/
def TimedEv.data {K : Type} (e : TimedEv K) : RawEvent × Option K := (e.event, e.comb)

/-- A release of the left button, with its time and cell. -/
def TimedEv.leftUp {K : Type} (e : TimedEv K) : Option (Nat × Nat × Nat) :=
  match e.event with
  | .mouse ⟨.up .left, x, y, _⟩ => some (e.time, x, y)
  | _ => none

/-- A press or release of the left button, on the cell of the last release of this button among the events `before`, less than 700ms after it. -/
def DoubleAfter {K : Type} (before : List (TimedEv K)) (e : TimedEv K) : Prop :=
  ∃ m, e.event = .mouse m ∧ (m.kind = .down .left ∨ m.kind = .up .left) ∧
    ∃ time, (before.filterMap TimedEv.leftUp).getLast? = some (time, m.x, m.y) ∧ e.time - time < 700000000

end Verif.Events
