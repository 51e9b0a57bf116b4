import Verif.Model.LiveEdit
/-! Model of the `main` functions of `examples/inputs/main.rs` and `examples/render-input-markdown/main.rs`, which are the same but for the view: what is sent
to the terminal through a buffered writer which may fail, the modes of the terminal, and the loop on events. -/
namespace Verif.AppMain

/-- The commands changing the mode of the terminal, examples/inputs/main.rs 34-43. -/
inductive Control
  | enterAlternate | leaveAlternate | hideCursor | showCursor | enableMouse | disableMouse
  deriving DecidableEq, Repr

/-- What is queued on the writer. See examples/inputs/main.rs 34-42 and 50. -/
inductive OutCmd
  | control (c : Control)
  | app (c : AppCmd)
  deriving DecidableEq, Repr

/-- What a call to the buffered writer does: `n` of the commands which are in the buffer are sent to the terminal, without or with an error. (In the code they're
sent byte by byte, and a command may be cut.) The writer is the `BufWriter` of examples/inputs/main.rs 33 (standard library). -/
inductive Io
  | ok (n : Nat)
  | fail (n : Nat)
  deriving DecidableEq, Repr

/-- The answers of the system: to the calls to the writer and to the changes of the raw mode, in the order in which they're done.
Their uses are in examples/inputs/main.rs 34-43, 51 and 61. -/
structure Answers where
  writes : Nat → Io
  raws : Nat → Bool

/-- What can be seen from outside, in order: the commands received by the terminal, the changes of its raw mode, and the events received by the application.
Not a type of the code: it is for the statements on examples/inputs/main.rs 31-69. -/
inductive Item (ε : Type)
  | out (c : OutCmd)
  | raw (on : Bool)
  | got (e : ε)

/-- The process: what it did, the commands in the buffer of its writer, and the numbers of calls already done.
Simplification: the state of the process running examples/inputs/main.rs 31-69 which matters here. -/
structure Proc (ε : Type) where
  trace : List (Item ε) := []
  buf : List OutCmd := []
  writes : Nat := 0
  raws : Nat := 0

namespace Proc
variable {ε : Type}

/-- The first commands of the buffer are sent to the terminal. What the `BufWriter` (standard library) does. -/
def deliver (p : Proc ε) (n : Nat) : Proc ε := { p with trace := p.trace ++ (p.buf.take n).map .out, buf := p.buf.drop n }

/-- crossterm's `queue` on a `BufWriter`, examples/inputs/main.rs 34, 36-37, 39-40 and 42. The flag tells that there was no error. -/
def queue (io : Answers) (p : Proc ε) (c : OutCmd) : Proc ε × Bool :=
  match io.writes p.writes with
  | .ok n => ({ p with buf := p.buf ++ [c], writes := p.writes + 1 }.deliver n, true)
  | .fail n => ({ p with writes := p.writes + 1 }.deliver n, false)

/-- `BufWriter::flush`, examples/inputs/main.rs 43, 51 and 61. -/
def flush (io : Answers) (p : Proc ε) : Proc ε × Bool :=
  match io.writes p.writes with
  | .ok _ => ({ p with writes := p.writes + 1 }.deliver p.buf.length, true)
  | .fail n => ({ p with writes := p.writes + 1 }.deliver n, false)

/-- The drop of the `BufWriter`: it tries to flush.
It happens at the end of `main`, examples/inputs/main.rs 45, when it returns before with an error, and on a panic (standard library). -/
def abandon (io : Answers) (p : Proc ε) : Proc ε := (p.flush io).1

/-- `enable_raw_mode` and `disable_raw_mode`, examples/inputs/main.rs 35 and 41, src/events/event_source.rs 143 and 307. -/
def setRaw (io : Answers) (p : Proc ε) (on : Bool) : Proc ε × Bool :=
  if io.raws p.raws then ({ p with trace := p.trace ++ [.raw on], raws := p.raws + 1 }, true) else ({ p with raws := p.raws + 1 }, false)

/-- An event is received. The `for` of examples/inputs/main.rs 54. -/
def receive (p : Proc ε) (e : ε) : Proc ε := { p with trace := p.trace ++ [.got e] }

/-- Several commands: the first error stops them. This is `view.queue_on(w)?`, examples/inputs/main.rs 50 and 60. -/
def queueAll (io : Answers) (p : Proc ε) : List AppCmd → Proc ε × Bool
  | [] => (p, true)
  | c :: cs => if (p.queue io (.app c)).2 then (p.queue io (.app c)).1.queueAll io cs else ((p.queue io (.app c)).1, false)

end Proc

/-- The view of an application: how it starts, which events quit, the effect of the other ones (the flag is for a redraw), the commands which
draw it, and those which are queued before the panic when drawing panics. The calls are in examples/inputs/main.rs 49, 50, 57, 59 and 60. -/
structure Program (σ ε : Type) where
  start : Run σ
  quits : ε → Bool
  apply : σ → ε → Run (σ × Bool)
  draw : σ → Run (List AppCmd)
  torn : σ → List AppCmd

/-- How a part of the application stops: waiting for an event, normally, with an error, or by a panic.
The ends of `run_in_alternate`, examples/inputs/main.rs 48-69. -/
inductive Stop (σ : Type)
  | waiting (s : σ)
  | left
  | failed
  | panicked
  deriving DecidableEq, Repr

variable {σ ε : Type}

/-- `view.queue_on(w)?; w.flush()?`, examples/inputs/main.rs 50-51 and 60-61: nothing when all is well. -/
def redraw (prog : Program σ ε) (io : Answers) (p : Proc ε) (s : σ) : Proc ε × Option (Stop σ) :=
  match prog.draw s with
  | none => if (p.queueAll io (prog.torn s)).2 then ((p.queueAll io (prog.torn s)).1, some .panicked) else ((p.queueAll io (prog.torn s)).1, some .failed)
  | some cmds =>
    if (p.queueAll io cmds).2 then
      (if ((p.queueAll io cmds).1.flush io).2 then (((p.queueAll io cmds).1.flush io).1, none) else (((p.queueAll io cmds).1.flush io).1, some .failed))
    else ((p.queueAll io cmds).1, some .failed)

/-- The loop on events, examples/inputs/main.rs 54-67, for the events which come, after which the channel is closed or not. The unblocking of the source is in
`Model/EventLoop.lean`. -/
def loop (prog : Program σ ε) (io : Answers) (closed : Bool) : Proc ε → σ → List ε → Proc ε × Stop σ
  | p, s, [] => if closed then (p, .left) else (p, .waiting s)
  | p, s, e :: es =>
    if prog.quits e then (p.receive e, .left)
    else
      match prog.apply s e with
      | none => (p.receive e, .panicked)
      | some (s', false) => loop prog io closed (p.receive e) s' es
      | some (s', true) =>
        match redraw prog io (p.receive e) s' with
        | (p', none) => loop prog io closed p' s' es
        | (p', some stop) => (p', stop)

/-- `run_in_alternate`, examples/inputs/main.rs 48-69, and examples/render-input-markdown/main.rs 48-69, with the creation of the event source and its drop
when the function is left, which disables the raw mode and panics if it can't (src/events/event_source.rs 143, 305-309). -/
def runInAlternate (prog : Program σ ε) (io : Answers) (p : Proc ε) (es : List ε) (closed : Bool) : Proc ε × Stop σ :=
  match prog.start with
  | none => (p, .panicked)
  | some s =>
    match redraw prog io p s with
    | (p, some stop) => (p, stop)
    | (p, none) =>
      if (p.setRaw io true).2 then
        match loop prog io closed (p.setRaw io true).1 s es with
        | (p, .waiting s) => (p, .waiting s)
        | (p, stop) => if (p.setRaw io false).2 then ((p.setRaw io false).1, stop) else ((p.setRaw io false).1, .panicked)
      else ((p.setRaw io true).1, .failed)

/-- The end of `main`, examples/inputs/main.rs 39-44, when `run_in_alternate` didn't panic. -/
def restore (io : Answers) (p : Proc ε) (stop : Stop σ) : Proc ε × Stop σ :=
  let a := p.queue io (.control .disableMouse)
  if a.2 then
    let b := a.1.queue io (.control .showCursor)
    if b.2 then
      let c := b.1.setRaw io false
      if c.2 then
        let d := c.1.queue io (.control .leaveAlternate)
        if d.2 then
          let e := d.1.flush io
          if e.2 then (e.1, stop) else (e.1.abandon io, .failed)
        else (d.1.abandon io, .failed)
      else (c.1.abandon io, .failed)
    else (b.1.abandon io, .failed)
  else (a.1.abandon io, .failed)

/-- `main`, examples/inputs/main.rs 31-45, and examples/render-input-markdown/main.rs 31-45. The writer is dropped, and flushed if it's possible, when it's left by an error
or a panic. (A panic in the drop of the event source during another panic, which aborts the process without this flush, isn't distinguished.) -/
def main (prog : Program σ ε) (io : Answers) (es : List ε) (closed : Bool) : Proc ε × Stop σ :=
  let a := ({} : Proc ε).queue io (.control .enterAlternate)
  if a.2 then
    let b := a.1.setRaw io true
    if b.2 then
      let c := b.1.queue io (.control .hideCursor)
      if c.2 then
        let d := c.1.queue io (.control .enableMouse)
        if d.2 then
          match runInAlternate prog io d.1 es closed with
          | (p, .waiting s) => (p, .waiting s)
          | (p, .panicked) => (p.abandon io, .panicked)
          | (p, .left) => restore io p .left
          | (p, .failed) => restore io p .failed
        else (d.1.abandon io, .failed)
      else (c.1.abandon io, .failed)
    else (b.1.abandon io, .failed)
  else (a.1.abandon io, .failed)

/-- The key combination `ctrl-q`, examples/inputs/main.rs 57. -/
def keyQuit : KeyComb := ⟨.char 'q', [], modCtrl⟩

/-- `timed_event.is_key(key!(ctrl-q))`, examples/inputs/main.rs 57, examples/render-input-markdown/main.rs 57. -/
def isQuit : Form.View.Event → Bool
  | .key k _ => decide (k = keyQuit)
  | _ => false

/-- The application of `examples/inputs`, in a terminal of the given size. The second part of an event isn't seen by the application.
The calls are in examples/inputs/main.rs 49, 50, 57, 59 and 60. -/
def formProgram {α : Type} (cw : Char → Nat) (ws alnum : Char → Bool) (c : Form.Config) (text : Text) (width height : Nat) (torn : Form.View → List AppCmd) :
    Program Form.View (Form.View.Event × α) where
  start := Form.View.new cw c text ⟨0, 0, width, height⟩
  quits e := isQuit e.1
  apply v e := (v.apply cw ws alnum e.1).map fun r => (r.1, r.2.1)
  draw := Form.View.queueOn cw ws c
  torn

/-- The application of `examples/render-input-markdown`. The calls are in examples/render-input-markdown/main.rs 49, 50, 57, 59 and 60. -/
def liveProgram {α : Type} (cw : Char → Nat) (ws alnum : Char → Bool) (c : LiveEdit.Setup) (text : Text) (width height : Nat)
    (torn : LiveEdit.Editor → List AppCmd) : Program LiveEdit.Editor (Form.View.Event × α) where
  start := LiveEdit.Editor.new cw text ⟨0, 0, width, height⟩
  quits e := isQuit e.1
  apply v e := (v.apply cw alnum e.1).map fun r => (r.1, r.2.1)
  draw := LiveEdit.Editor.queueOn cw ws c
  torn

end Verif.AppMain
