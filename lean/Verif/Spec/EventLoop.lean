import Verif.Model.EventLoop
import Verif.Spec.EventSource
import Verif.Spec.Editor
/-! Specification vocabulary for the loop on events of an application. -/
namespace Verif.Events

/-- The events handled one after the other, up to the first one on which the application quits: the state, and whether it has quit. -/
def handleAll (handle : σ → TimedEv K → σ × Bool) : σ → List (TimedEv K) → σ × Bool
  | st, [] => (st, false)
  | st, e :: l => if (handle st e).2 then ((handle st e).1, true) else handleAll handle (handle st e).1 l

/-- The events of the terminal which were read. -/
def loopInputs (acts : List LoopAct) : List RawEvent := acts.filterMap fun | .read ev => some ev | _ => none

/-- The number of actions other than reading the terminal. -/
def ownActs (acts : List LoopAct) : Nat := acts.countP fun | .read _ => false | _ => true

/-- The character typed by a key event, when it's a press: `enterCode` is the code of the key of line breaks. -/
def typedChar (enterCode : KeyCode) (ev : RawEvent) : Option Char :=
  match ev with
  | .key k =>
    if k.kind = 0 then
      if k.code = enterCode then some '\n'
      else match k.code with
        | .char c => some c
        | _ => none
    else none
  | _ => none

/-- The text typed on the keyboard. -/
def typedText (enterCode : KeyCode) (input : List RawEvent) : Text := input.filterMap (typedChar enterCode)

/-- A key for a character or for the line break: neither ALT nor CTRL nor any other modifier than shift, which isn't with the line break. The
character isn't a control one converted to a key, and is the shifted one when there's shift. -/
def TypingKey (enterCode : KeyCode) (k : RawKey) : Prop :=
  k.alt = false ∧ k.ctrl = false ∧ k.otherMods = 0 ∧
    (k.code = enterCode ∧ k.shift = false ∨ ∃ c, k.code = .char c ∧ c ≠ '\r' ∧ c ≠ '\n' ∧ c ≠ '\x08' ∧ (k.shift = true → ¬ c.isLower))

/-- The events of someone who types a text with a keyboard (and possibly a mouse): presses of characters or of the key of line breaks, their
releases, mouse events and others. -/
def Typing (enterCode : KeyCode) (ev : RawEvent) : Prop := ∀ k, ev = .key k → TypingKey enterCode k

/-- What is known of the external conversions of keys: a press gives a combination and a release gives none; a character is converted to itself,
with or without shift; the key of line breaks is converted to the declared one, which isn't one of a character. -/
structure PlainKeyboard (tr : S → RawKey → Option KeyComb × S) (into : RawKey → KeyComb) (enter : KeyComb) : Prop where
  press : ∀ c k, k.kind = 0 → (tr c k).1 = some (into k)
  release : ∀ c k, k.kind ≠ 0 → (tr c k).1 = none
  char : ∀ k c, TypingKey enter.code k → k.code = .char c → ∃ mods, into k = ⟨.char c, [], mods⟩ ∧ (mods = .none ∨ mods = .shift)
  lineBreak : ∀ k, TypingKey enter.code k → k.code = enter.code → into k = enter
  notChar : ∀ c, enter.code ≠ .char c

end Verif.Events
