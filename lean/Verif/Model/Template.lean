import Verif.Model.Print
/-! Model of `src/macros.rs`: inline templates filled with values. Their parsing and the replacement of one argument are done by minimad. -/
namespace Verif

/-- A part of a `minimad::InlineTemplate` (external): a compound of the template, or the place `$0` to `$9` of an argument, which is a compound too. -/
inductive TemplatePart
  | text (src : Text) (flags : Flags)
  | place (arg : Fin 10) (flags : Flags)
  deriving DecidableEq, Repr

/-- The compound of a part before any replacement. External crate. -/
def TemplatePart.compound : TemplatePart → Compound
  | .text src flags => ⟨src, flags⟩
  | .place arg flags => ⟨['$', Char.ofNat ('0'.toNat + arg)], flags⟩

/-- `minimad::InlineTemplate::raw_composite` (external): what is filled. -/
def rawComposite (parts : List TemplatePart) : List Compound := parts.map TemplatePart.compound

/-- `minimad::InlineTemplate::apply` (external): the compounds which are places of the argument have the value as text. -/
def applyArg (parts : List TemplatePart) (cs : List Compound) (arg : Nat) (value : Text) : List Compound :=
  List.zipWith (fun part c => match part with
    | .text _ _ => c
    | .place a _ => if a.val = arg then { c with src := value } else c) parts cs

/-- The loop on the values, src/macros.rs 28-30 and 62-64. The values have been turned into strings. -/
def fillTemplate (parts : List TemplatePart) (values : List Text) : List Compound :=
  values.zipIdx.foldl (fun cs v => applyArg parts cs v.2 v.1) (rawComposite parts)

/-- `mad_print_inline!`, src/macros.rs 17-33, and `mad_write_inline!`, 52-67, once the template is read. -/
def Skin.printTemplate (skin : Skin) (cw : Char → Nat) (parts : List TemplatePart) (values : List Text) : Run (List TtyCmd) :=
  skin.printComposite cw .paragraph (fillTemplate parts values)

end Verif
