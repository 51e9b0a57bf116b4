import Verif.Model.FitApp
import Verif.Spec.PagerMain
import Verif.Spec.Fitter
import Verif.Spec.Lines
/-! Specification of what the application of `examples/fit-width` should show. -/
namespace Verif.Spec
open Verif.Pager

/-- The lines to show, with their alignments: four groups, each with a title. -/
def fitLines (page : FitApp.Page) : List (List Compound × Alignment) :=
  [(page.leftTitle, .left, .left), (page.autoTitle, .left, .unspecified), (page.rightTitle, .left, .right), (page.centerTitle, .left, .center)].flatMap
    fun g => (g.1, g.2.1) :: page.texts.map fun text => (text, g.2.2)

/-- Texts which can be fitted: without empty compounds, and without tokens larger than 3 columns because of only their first and last characters. -/
def FittableTexts (cw : Char → Nat) (ws : Char → Bool) (texts : List (List Compound)) : Prop :=
  ∀ text ∈ texts, (∀ c ∈ text, c.src ≠ []) ∧ ThickTokens cw ws text

/-- The size of the terminal after some events. -/
def sizeAfter (size : Nat × Nat) : List PagerHappening → Nat × Nat
  | [] => size
  | (.resize width height, _) :: es => sizeAfter (width, height) es
  | _ :: es => sizeAfter size es

/-- Rows one under the other at the left of the screen, the first one being the `y`-th row of the screen. -/
def stacked (y : Nat) : List (List Piece) → List (Nat × Nat × List Piece)
  | [] => []
  | ps :: rows => (0, y, ps) :: stacked (y + 1) rows

/-- The rows to show in a terminal of some size: the first lines, each of them written in the width of the terminal, which it fills. -/
def FitRows (cw : Char → Nat) (ws : Char → Bool) (skin : Skin) (page : FitApp.Page) (size : Nat × Nat) (rows : List (List Piece)) : Prop :=
  rows.length = min size.2 (fitLines page).length ∧
  ∀ (j : Nat) (ps : List Piece), rows[j]? = some ps → ∃ md align, (fitLines page)[j]? = some (md, align) ∧
    skin.writeCompositeFill cw ws .paragraph md size.1 align = some ps ∧ piecesCols cw ps = size.1

/-- The event is a key. -/
def IsKeyEvent (e : PagerHappening) : Prop := ∃ k, e.1 = .key k

end Verif.Spec
