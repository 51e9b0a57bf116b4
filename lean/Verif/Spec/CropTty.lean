import Verif.Model.CropTty
import Verif.Spec.Crop
import Verif.Spec.Tty
/-! Specification: what the calls on a crop writer put on a terminal, with which looks. -/
namespace Verif.Spec

/-- The style given to a call which writes something (none for the ones which are said to be unstyled), and what it's asked to write. -/
def cropAsked : CropTty.Op → Option (Option CompoundStyle × CropWriter.Op)
  | .unstyledStr s => some (none, .str s)
  | .str cs s => some (some cs, .str s)
  | .char cs c => some (some cs, .char c)
  | .unstyledChar c => some (none, .unstyledChar c)
  | .unstyledGString s => some (none, .gString s)
  | .gString cs s => some (some cs, .gString s)
  | .fg _ => none
  | .bg _ => none
  | .fill cs c => some (some cs, .fill c)
  | .fillUnstyled c => some (none, .fill c)
  | .fillWithSpace cs => some (some cs, .fill ' ')
  | .repeat_ cs c len => some (some cs, .repeat_ c len)
  | .repeatUnstyled c len => some (none, .repeat_ c len)
  | .setTabReplacement t => some (none, .setTabReplacement t)

/-- Whether a call writes, be it an empty text: strings when something is allowed, characters when they are printed, fillings when
there's at least one character. -/
def cropPrints (cw : Char → Nat) (allowed : Nat) : CropWriter.Op → Prop
  | .str _ => 0 < allowed
  | .char c => cw c < allowed
  | .unstyledChar c => if c = '\t' then 0 < allowed else cw c < allowed
  | .gString _ => 0 < allowed
  | .fill _ => 0 < allowed
  | .repeat_ _ len => 0 < allowed ∧ 0 < len
  | .setTabReplacement _ => False

/-- The replacement of tabulations after a call. -/
def cropTab (tabRepl : Text) : CropTty.Op → Text
  | .setTabReplacement t => t
  | _ => tabRepl

/-- What calls show: `CropShown cw allowed tabRepl pen ops pieces allowed' pen'` says that with `allowed` columns and some replacement of
tabulations and a terminal whose pen is `pen`, the calls `ops` write the `pieces`, one for each writing call, each one with its look on
the terminal, that `allowed'` columns stay allowed, and that the pen is then `pen'`. -/
inductive CropShown (cw : Char → Nat) :
    Nat → Text → CompoundStyle → List CropTty.Op → List Piece → Nat → CompoundStyle → Prop
  | nil (allowed tabRepl pen) : CropShown cw allowed tabRepl pen [] [] allowed pen
  /-- The foreground of a style, if it has one, is the one of what is then written without style. -/
  | fg {allowed tabRepl pen cs ops pieces allowed' pen'} :
    CropShown cw allowed tabRepl { pen with fg := (cs.fg.map penColor).getD pen.fg } ops pieces allowed' pen' →
    CropShown cw allowed tabRepl pen (.fg cs :: ops) pieces allowed' pen'
  /-- The background as well. -/
  | bg {allowed tabRepl pen cs ops pieces allowed' pen'} :
    CropShown cw allowed tabRepl { pen with bg := (cs.bg.map penColor).getD pen.bg } ops pieces allowed' pen' →
    CropShown cw allowed tabRepl pen (.bg cs :: ops) pieces allowed' pen'
  /-- What is written without style has the look of the pen. -/
  | unstyled {allowed tabRepl pen op o text n ops pieces allowed' pen'} : cropAsked op = some (none, o) →
    CropWritten cw allowed tabRepl o text n → n ≤ allowed →
    CropShown cw (allowed - n) (cropTab tabRepl op) pen ops pieces allowed' pen' →
    CropShown cw allowed tabRepl pen (op :: ops) ((pen, text) :: pieces) allowed' pen'
  /-- What is written with a style has the look of this style over the pen, and then the terminal resets what was set. -/
  | styled {allowed tabRepl pen op cs o text n ops pieces allowed' pen'} : cropAsked op = some (some cs, o) →
    CropWritten cw allowed tabRepl o text n → n ≤ allowed → cropPrints cw allowed o →
    CropShown cw (allowed - n) tabRepl (penAfter cs pen) ops pieces allowed' pen' →
    CropShown cw allowed tabRepl pen (op :: ops) ((over cs pen, text) :: pieces) allowed' pen'
  /-- A call which has no room changes nothing. -/
  | nothing {allowed tabRepl pen op cs o ops pieces allowed' pen'} : cropAsked op = some (some cs, o) → ¬ cropPrints cw allowed o →
    CropShown cw allowed tabRepl pen ops pieces allowed' pen' →
    CropShown cw allowed tabRepl pen (op :: ops) pieces allowed' pen'

/-- A call whose style has no color of underline, or has attributes, and which doesn't only set a color. -/
def PlainCall : CropTty.Op → Prop
  | .fg _ | .bg _ => False
  | .str cs _ | .char cs _ | .gString cs _ | .fill cs _ | .fillWithSpace cs | .repeat_ cs _ _ => Tidy cs
  | _ => True

/-- The arguments of a call are as they should be: no backspace, no tabulation in what is printed as it is, characters of one column in
gentle strings and fillings. -/
def GoodCall (cw : Char → Nat) : CropTty.Op → Prop
  | .unstyledStr s | .str _ s => '\x08' ∉ s
  | .char _ c => c ≠ '\t' ∧ c ≠ '\x08'
  | .unstyledChar c => c ≠ '\x08'
  | .unstyledGString s | .gString _ s => ∀ c ∈ s, cw c = 1
  | .fill _ c | .fillUnstyled c | .repeat_ _ c _ | .repeatUnstyled c _ => cw c = 1
  | .setTabReplacement t => '\x08' ∉ t
  | .fg _ | .bg _ | .fillWithSpace _ => True

end Verif.Spec
