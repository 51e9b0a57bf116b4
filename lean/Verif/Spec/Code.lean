import Verif.Model.Composite
/-! Specification of the justification of code. -/
namespace Verif

/-- A line of code. -/
def IsCodeLine : FmtLine → Prop
  | .normal fc => fc.kind = .code
  | _ => False

instance : DecidablePred IsCodeLine := fun l => by cases l <;> simp only [IsCodeLine] <;> infer_instance

/-- `w` is the length of the longest line. -/
def IsLongest (block : List FmtLine) (w : Nat) : Prop :=
  (∃ l ∈ block, l.visibleLength = w) ∧ ∀ l ∈ block, l.visibleLength ≤ w

/-- `line'` is the line of code `line`, only changed to have the given spacing. -/
def SpacedTo (w : Nat) (line line' : FmtLine) : Prop :=
  ∃ fc, line = .normal fc ∧ line' = .normal { fc with spacing := some ⟨w, .left⟩ }

/-- `lines` is cut in blocks (maximal sequences of code lines) and other lines; other lines are unchanged in `out` and the
lines of a block are spaced to the length of its longest line. -/
inductive Justified : List FmtLine → List FmtLine → Prop
  | nil : Justified [] []
  | other {l lines out} : ¬ IsCodeLine l → Justified lines out → Justified (l :: lines) (l :: out)
  | block {blk blk' lines out w} : blk ≠ [] → (∀ l ∈ blk, IsCodeLine l) →
      (∀ l, lines.head? = some l → ¬ IsCodeLine l) → IsLongest blk w →
      blk'.length = blk.length → (∀ (i : Nat) l l', blk[i]? = some l → blk'[i]? = some l' → SpacedTo w l l') →
      Justified lines out → Justified (blk ++ lines) (blk' ++ out)

end Verif
