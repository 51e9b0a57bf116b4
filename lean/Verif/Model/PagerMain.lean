import Verif.Model.AppMain
/-! Model of `run_app` of `examples/scrollable/main.rs`: the view of `Model/Pager.lean` with the modes of the terminal, a writer which may fail, and the loop on events. -/
namespace Verif.Pager
open Verif.AppMain
variable {α : Type}

/-- The keys which break the loop, examples/scrollable/main.rs 40-48. -/
def breaks : Event → Bool
  | .key .up => false
  | .key .down => false
  | .key .pageUp => false
  | .key .pageDown => false
  | .key _ => true
  | _ => false

/-- The view with what is queued before its next drawing: the `Clear` of examples/scrollable/main.rs 51 is queued at the end of a turn of the loop and the view at the start of the next one.
Simplification: the `Clear` is here queued after the computation of the new area, which can't fail. `torn` is what is queued before the panic when the drawing of a view panics. The second
part of an event isn't seen by the application. -/
def pagerProgram (cw : Char → Nat) (ws : Char → Bool) (mlines : List MLine) (skin : Skin) (width height : Nat) (torn : MadView → List AppCmd) :
    Program (List AppCmd × MadView) (Event × α) where
  start := (start mlines skin width height).map fun m => ([], m)
  quits e := breaks e.1
  apply s e := (handle cw ws s.2 e.1).map fun
    | none => (s, false)
    | some (more, m) => ((more, m), true)
  draw s := (draw cw ws s.2).map (s.1 ++ ·)
  torn s := s.1 ++ torn s.2

/-- The end of `run_app`, examples/scrollable/main.rs 57-61. The standard output is flushed, if it's possible, at the end of the process. -/
def runRestore {σ ε : Type} (io : Answers) (p : Proc ε) : Proc ε × Stop σ :=
  let a := p.setRaw io false
  if a.2 then
    let b := a.1.queue io (.control .showCursor)
    if b.2 then
      let c := b.1.queue io (.control .leaveAlternate)
      if c.2 then
        let d := c.1.flush io
        if d.2 then (d.1, .left) else (d.1.abandon io, .failed)
      else (c.1.abandon io, .failed)
    else (b.1.abandon io, .failed)
  else (a.1.abandon io, .failed)

/-- `run_app`, examples/scrollable/main.rs 31-62, for the events which come: it never ends but for a key, an error of the writer or a panic, and the modes aren't restored in the last two cases. -/
def runMain {σ ε : Type} (prog : Program σ ε) (io : Answers) (es : List ε) : Proc ε × Stop σ :=
  let a := ({} : Proc ε).queue io (.control .enterAlternate)
  if a.2 then
    let b := a.1.setRaw io true
    if b.2 then
      let c := b.1.queue io (.control .hideCursor)
      if c.2 then
        match prog.start with
        | none => (c.1.abandon io, .panicked)
        | some s =>
          match redraw prog io c.1 s with
          | (p, some stop) => (p.abandon io, stop)
          | (p, none) =>
            match loop prog io false p s es with
            | (p, .waiting s) => (p, .waiting s)
            | (p, .left) => runRestore io p
            | (p, .failed) => (p.abandon io, .failed)
            | (p, .panicked) => (p.abandon io, .panicked)
      else (c.1.abandon io, .failed)
    else (b.1.abandon io, .failed)
  else (a.1.abandon io, .failed)

end Verif.Pager
