import Verif.Spec.Password
import Verif.Lemmas.InputField3
/-! Lemmas on contents seen as their shape: the same widths of characters at the same places. -/
namespace Verif
open InputField Content Spec

/-- Both panic, or both give related results. -/
def RelRun {α β : Type} (R : α → β → Prop) : Run α → Run β → Prop
  | some a, some b => R a b
  | none, none => True
  | _, _ => False

theorem RelRun.bind {α β γ δ : Type} {R : α → β → Prop} {S : γ → δ → Prop} {x : Run α} {y : Run β} {f : α → Run γ} {g : β → Run δ}
    (h : RelRun R x y) (hfg : ∀ a b, R a b → RelRun S (f a) (g b)) : RelRun S (x >>= f) (y >>= g) := by
  cases x <;> cases y <;> simp_all [RelRun]

theorem RelRun.map {α β γ δ : Type} {R : α → β → Prop} {S : γ → δ → Prop} {x : Run α} {y : Run β} {f : α → γ} {g : β → δ}
    (h : RelRun R x y) (hfg : ∀ a b, R a b → S (f a) (g b)) : RelRun S (x.map f) (y.map g) := by
  cases x <;> cases y <;> simp_all [RelRun]

theorem RelRun.ite {α β : Type} {R : α → β → Prop} {p q : Prop} [Decidable p] [Decidable q] {x x' : Run α} {y y' : Run β}
    (h : p ↔ q) (h1 : p → RelRun R x y) (h2 : ¬ p → RelRun R x' y') :
    RelRun R (if p then x else x') (if q then y else y') := by
  by_cases hp : p
  · rw [if_pos hp, if_pos (h.1 hp)]; exact h1 hp
  · rw [if_neg hp, if_neg (fun hq => hp (h.2 hq))]; exact h2 hp

theorem RelRun.rfl_of {α : Type} {R : α → α → Prop} (h : ∀ a, R a a) (x : Run α) : RelRun R x x := by
  cases x <;> simp [RelRun, h]

theorem RelRun.some {α β : Type} {R : α → β → Prop} {a : α} {b : β} (h : R a b) : RelRun R (some a) (some b) := h

theorem RelRun.eq_iff {α : Type} {x y : Run α} : RelRun (· = ·) x y ↔ x = y := by
  cases x <;> cases y <;> simp [RelRun]

/-- The same list seen through a function. -/
def EqVia {α γ : Type} (g : α → γ) (l l' : List α) : Prop := l.map g = l'.map g

namespace EqVia
variable {α γ : Type} {g : α → γ} {l l' m m' : List α}

theorem length (h : EqVia g l l') : l.length = l'.length := by simpa using congrArg List.length h

theorem get (h : EqVia g l l') (i : Nat) : RelRun (fun a b => g a = g b) l[i]? l'[i]? := by
  have : (l.map g)[i]? = (l'.map g)[i]? := by rw [h]
  rw [List.getElem?_map, List.getElem?_map] at this
  cases h1 : l[i]? <;> cases h2 : l'[i]? <;> simp_all [RelRun]

theorem take (h : EqVia g l l') (i : Nat) : EqVia g (l.take i) (l'.take i) := by
  unfold EqVia at *; rw [List.map_take, List.map_take, h]

theorem drop (h : EqVia g l l') (i : Nat) : EqVia g (l.drop i) (l'.drop i) := by
  unfold EqVia at *; rw [List.map_drop, List.map_drop, h]

theorem append (h : EqVia g l l') (h' : EqVia g m m') : EqVia g (l ++ m) (l' ++ m') := by
  unfold EqVia at *; rw [List.map_append, List.map_append, h, h']

theorem cons {a b : α} (hab : g a = g b) (h : EqVia g l l') : EqVia g (a :: l) (b :: l') := by
  unfold EqVia at *; rw [List.map_cons, List.map_cons, h, hab]

theorem refl (l : List α) : EqVia g l l := rfl

theorem set (h : EqVia g l l') (i : Nat) {a b : α} (hab : g a = g b) : EqVia g (l.set i a) (l'.set i b) := by
  unfold EqVia at *; rw [List.map_set, List.map_set, h, hab]

theorem isEmpty (h : EqVia g l l') : l.isEmpty = l'.isEmpty := by
  have := h.length
  cases l <;> cases l' <;> simp_all

theorem splitOff (h : EqVia g l l') (i : Nat) :
    RelRun (fun p q => EqVia g p.1 q.1 ∧ EqVia g p.2 q.2) (vecSplitOff l i) (vecSplitOff l' i) :=
  .ite (by rw [h.length]) (fun _ => ⟨h.take i, h.drop i⟩) fun _ => trivial

theorem insert (h : EqVia g l l') (i : Nat) {a b : α} (hab : g a = g b) : RelRun (EqVia g) (vecInsert l i a) (vecInsert l' i b) :=
  .ite (by rw [h.length]) (fun _ => (h.take i).append (.cons hab (h.drop i))) fun _ => trivial

theorem remove (h : EqVia g l l') (i : Nat) : RelRun (EqVia g) (vecRemove l i) (vecRemove l' i) :=
  .ite (by rw [h.length]) (fun _ => (h.take i).append (h.drop _)) fun _ => trivial

theorem drain (h : EqVia g l l') (i j : Nat) : RelRun (EqVia g) (vecDrain l i j) (vecDrain l' i j) :=
  .ite (by rw [h.length]) (fun _ => (h.take i).append (h.drop _)) fun _ => trivial

theorem vset (h : EqVia g l l') (i : Nat) {a b : α} (hab : g a = g b) : RelRun (EqVia g) (vecSet l i a) (vecSet l' i b) :=
  .ite (by rw [h.length]) (fun _ => h.set i hab) fun _ => trivial

end EqVia

/-- Contents which have the same cursor, the same selection, and characters of the same widths at the same places. -/
structure AlikeContent (cw : Char → Nat) (c d : Content) : Prop where
  pos : c.pos = d.pos
  tail : c.tail = d.tail
  lines : EqVia (List.map (inputCharWidth cw)) c.lines d.lines

/-- The same, with the same boolean. -/
def AlikeB (cw : Char → Nat) (p q : Content × Bool) : Prop := AlikeContent cw p.1 q.1 ∧ p.2 = q.2

section
variable {cw : Char → Nat}

theorem AlikeContent.refl (c : Content) : AlikeContent cw c c := ⟨rfl, rfl, rfl⟩

theorem line_length {l l' : Text} (h : l.map (inputCharWidth cw) = l'.map (inputCharWidth cw)) : l.length = l'.length :=
  EqVia.length (g := inputCharWidth cw) h

theorem colToCharIdxLoop_via (col : Nat) : ∀ (l l' : Text), l.map (inputCharWidth cw) = l'.map (inputCharWidth cw) → ∀ i s,
    colToCharIdxLoop cw col i s l = colToCharIdxLoop cw col i s l' := by
  intro l
  induction l with
  | nil => intro l' h i s; cases l' <;> simp_all
  | cons a l ih =>
    intro l' h i s
    cases l' with
    | nil => simp at h
    | cons b l' =>
      simp only [List.map_cons, List.cons.injEq] at h
      simp only [colToCharIdxLoop, h.1, ih l' h.2]

theorem colToCharIdx_via {l l' : Text} (h : l.map (inputCharWidth cw) = l'.map (inputCharWidth cw)) (col : Nat) :
    colToCharIdx cw l col = colToCharIdx cw l' col := colToCharIdxLoop_via col l l' h 0 0

theorem charIdxToCol_via {l l' : Text} (h : l.map (inputCharWidth cw) = l'.map (inputCharWidth cw)) (i : Nat) :
    charIdxToCol cw l i = charIdxToCol cw l' i := by
  unfold charIdxToCol
  rw [line_length h, List.map_take, List.map_take, h]

theorem lineWidth_via {l l' : Text} (h : l.map (inputCharWidth cw) = l'.map (inputCharWidth cw)) : lineWidth cw l = lineWidth cw l' := by
  unfold lineWidth
  rw [h]

namespace AlikeContent
variable {c d : Content}

theorem len (h : AlikeContent cw c d) : c.lines.length = d.lines.length := h.lines.length

theorem get (h : AlikeContent cw c d) (y : Nat) :
    RelRun (fun a b => a.map (inputCharWidth cw) = b.map (inputCharWidth cw)) c.lines[y]? d.lines[y]? := h.lines.get y

theorem endPos (h : AlikeContent cw c d) : RelRun (· = ·) c.endPos d.endPos := by
  unfold Content.endPos
  rw [h.len]
  refine (RelRun.rfl_of (fun _ => rfl) (csub d.lines.length 1)).bind fun y y' e => ?_
  subst e
  exact (h.get y).bind fun l l' hl => .some (by rw [line_length hl])

theorem makeValidPos (h : AlikeContent cw c d) (p : Pos) : RelRun (· = ·) (c.makeValidPos p) (d.makeValidPos p) := by
  unfold Content.makeValidPos
  refine .ite (by rw [h.len]) (fun _ => h.endPos) fun _ => ?_
  exact (h.get _).bind fun l l' hl => .some (by rw [line_length hl])

theorem setPos (h : AlikeContent cw c d) (p : Pos) : AlikeContent cw { c with pos := p } { d with pos := p } := ⟨rfl, h.tail, h.lines⟩

theorem setTail (h : AlikeContent cw c d) (p : Option Pos) : AlikeContent cw { c with tail := p } { d with tail := p } := ⟨h.pos, rfl, h.lines⟩

theorem setLines (h : AlikeContent cw c d) {ls ls' : List Text} (hl : EqVia (List.map (inputCharWidth cw)) ls ls') :
    AlikeContent cw { c with lines := ls } { d with lines := ls' } := ⟨h.pos, h.tail, hl⟩

theorem setCursorPos (h : AlikeContent cw c d) (p : Pos) : RelRun (AlikeContent cw) (c.setCursorPos p) (d.setCursorPos p) := by
  unfold Content.setCursorPos
  refine (h.makeValidPos p).bind fun a b e => ?_
  subst e
  exact h.setPos a

theorem makeSelection (h : AlikeContent cw c d) : AlikeContent cw c.makeSelection d.makeSelection := by
  unfold Content.makeSelection
  rw [h.tail, h.pos]
  cases d.tail with
  | none => exact ⟨rfl, rfl, h.lines⟩
  | some t => exact h

theorem unselect (h : AlikeContent cw c d) : AlikeContent cw c.unselect d.unselect := ⟨h.pos, rfl, h.lines⟩

theorem fixSelectionTail (h : AlikeContent cw c d) : RelRun (AlikeContent cw) c.fixSelectionTail d.fixSelectionTail := by
  unfold Content.fixSelectionTail
  rw [h.tail]
  cases d.tail with
  | none => exact h
  | some t =>
    refine (h.makeValidPos t).bind fun a b e => ?_
    subst e
    exact h.setTail _

theorem fixSelection (h : AlikeContent cw c d) : RelRun (AlikeContent cw) c.fixSelection d.fixSelection := by
  unfold Content.fixSelection
  rw [h.pos]
  refine (h.makeValidPos _).bind fun a b e => ?_
  subst e
  exact (h.setPos a).fixSelectionTail

theorem fixB (h : AlikeContent cw c d) : RelRun (AlikeB cw) (do let c' ← c.fixSelection; Option.some (c', true))
    (do let c' ← d.fixSelection; Option.some (c', true)) := h.fixSelection.bind fun _ _ h' => ⟨h', rfl⟩

theorem selection (h : AlikeContent cw c d) : c.selection = d.selection := by
  unfold Content.selection
  rw [h.tail, h.pos]

theorem hasWide (h : AlikeContent cw c d) : c.hasWideSelection = d.hasWideSelection := by
  unfold Content.hasWideSelection
  rw [h.tail, h.pos]

theorem charsNext (h : AlikeContent cw c d) (stop pos : Pos) :
    RelRun (fun a b => a.map Prod.snd = b.map Prod.snd) (c.charsNext stop pos) (d.charsNext stop pos) := by
  unfold Content.charsNext
  refine .ite Iff.rfl (fun _ => by simp [RelRun]) fun _ => ?_
  refine (h.get _).bind fun l l' hl => ?_
  have hx := EqVia.get (g := inputCharWidth cw) hl pos.x
  cases h1 : l[pos.x]? <;> cases h2 : l'[pos.x]? <;> rw [h1, h2] at hx <;> simp only [RelRun] at hx
  · rw [h.len]
    exact .some rfl
  · exact .some rfl

theorem charsCollect (h : AlikeContent cw c d) (stop : Pos) : ∀ fuel pos,
    RelRun (fun _ _ => True) (c.charsCollect stop fuel pos) (d.charsCollect stop fuel pos) := by
  intro fuel
  induction fuel with
  | zero => intro pos; trivial
  | succ fuel ih =>
    intro pos
    refine (h.charsNext stop pos).bind fun a b e => ?_
    cases a with
    | none => cases b <;> simp_all [RelRun]
    | some p =>
      cases b with
      | none => simp at e
      | some q =>
        simp only [Option.map_some, Option.some.injEq] at e
        obtain ⟨ch, p⟩ := p
        obtain ⟨ch', q⟩ := q
        simp only at e
        subst e
        exact (ih p).bind fun _ _ _ => .some trivial

theorem size (h : AlikeContent cw c d) : c.size = d.size := by
  have : c.lines.map (fun l => l.length + 1) = d.lines.map (fun l => l.length + 1) := by
    have := congrArg (List.map (fun m => List.length m + 1)) h.lines
    simpa [List.map_map, Function.comp_def] using this
  unfold Content.size
  rw [this]

theorem selectionString (h : AlikeContent cw c d) : RelRun (fun _ _ => True) c.selectionString d.selectionString := by
  unfold Content.selectionString
  rw [h.selection, h.size]
  exact h.charsCollect _ _ _

theorem insertNewLine (h : AlikeContent cw c d) : RelRun (AlikeContent cw) c.insertNewLine d.insertNewLine := by
  unfold Content.insertNewLine
  rw [h.pos]
  refine (h.get _).bind fun l l' hl => ?_
  refine (EqVia.splitOff (g := inputCharWidth cw) hl _).bind fun p q hpq => ?_
  refine (h.lines.vset _ hpq.1).bind fun ls ls' hls => ?_
  refine (hls.insert _ hpq.2).bind fun ls ls' hls => ?_
  exact fixSelection ⟨rfl, h.tail, hls⟩

theorem width_of_cols {a b : Char} (h : inputCols cw [a] = inputCols cw [b]) : inputCharWidth cw a = inputCharWidth cw b := by
  rwa [inputCols_cons, inputCols_cons, inputCols_nil, Nat.add_zero, Nat.add_zero] at h

theorem insertChar (h : AlikeContent cw c d) {a b : Char} (hab : AlikeChar cw a b) : RelRun (AlikeContent cw) (c.insertChar a) (d.insertChar b) := by
  have key : inputCharWidth cw a = inputCharWidth cw b → RelRun (AlikeContent cw)
      (do
        let l ← c.lines[c.pos.y]?
        let l ← vecInsert l c.pos.x a
        let ls ← vecSet c.lines c.pos.y l
        Option.some { c with lines := ls, pos := { c.pos with x := c.pos.x + 1 } })
      (do
        let l ← d.lines[d.pos.y]?
        let l ← vecInsert l d.pos.x b
        let ls ← vecSet d.lines d.pos.y l
        Option.some { d with lines := ls, pos := { d.pos with x := d.pos.x + 1 } }) := by
    intro hw
    rw [h.pos]
    refine (h.get _).bind fun l l' hl => ?_
    refine (EqVia.insert (g := inputCharWidth cw) hl _ hw).bind fun l l' hl => ?_
    refine (h.lines.vset _ hl).bind fun ls ls' hls => ?_
    exact ⟨rfl, h.tail, hls⟩
  unfold Content.insertChar
  rcases hab with rfl | ⟨ha, hb, hw⟩
  · refine .ite Iff.rfl (fun _ => h.insertNewLine) fun _ => ?_
    exact .ite Iff.rfl (fun _ => h) fun _ => key rfl
  · rw [if_neg ha.1, if_neg hb.1, if_neg (by rintro (e | e) <;> first | exact (ha.2.1 e) | exact (ha.2.2 e)),
      if_neg (by rintro (e | e) <;> first | exact (hb.2.1 e) | exact (hb.2.2 e))]
    exact key (width_of_cols hw)

theorem insertStr : ∀ (s t : Text) {c d : Content}, AlikeContent cw c d → AlikeText cw s t → RelRun (AlikeContent cw) (c.insertStr s) (d.insertStr t)
  | [], [], _, _, h, _ => h
  | _ :: s, _ :: t, _, _, h, hst => (h.insertChar hst.1).bind fun _ _ h' => insertStr s t h' hst.2
  | [], _ :: _, _, _, _, hst => hst.elim
  | _ :: _, [], _, _, _, hst => hst.elim

theorem delCharLeft (h : AlikeContent cw c d) : RelRun (AlikeB cw) c.delCharLeft d.delCharLeft := by
  unfold Content.delCharLeft
  rw [h.pos, h.len]
  refine .ite Iff.rfl (fun _ => ?_) fun _ => .ite Iff.rfl (fun _ => ?_) fun _ => ⟨h, rfl⟩
  · refine (h.get _).bind fun l l' hl => ?_
    have hrem : RelRun (EqVia (inputCharWidth cw)) (removeLeft l (d.pos.x - 1)) (removeLeft l' (d.pos.x - 1)) := by
      unfold removeLeft
      exact .ite (by rw [EqVia.isEmpty (g := inputCharWidth cw) hl]) (fun _ => hl) fun _ => EqVia.remove (g := inputCharWidth cw) hl _
    refine hrem.bind fun l l' hl => ?_
    refine (h.lines.vset _ hl).bind fun ls ls' hls => ?_
    refine fixB ⟨rfl, h.tail, hls⟩
  · refine (h.get _).bind fun r r' hr => ?_
    refine (h.lines.remove _).bind fun ls ls' hls => ?_
    refine (hls.get _).bind fun l l' hl => ?_
    refine (hls.vset _ (EqVia.append (g := inputCharWidth cw) hl hr)).bind fun ls ls' hls => ?_
    rw [line_length hl]
    exact fixB ⟨rfl, h.tail, hls⟩

theorem delCharBelow (h : AlikeContent cw c d) : RelRun (AlikeB cw) c.delCharBelow d.delCharBelow := by
  unfold Content.delCharBelow Content.currentLine
  rw [h.pos, h.len]
  refine (h.get _).bind fun l l' hl => ?_
  rw [line_length hl]
  refine .ite Iff.rfl (fun _ => ?_) fun _ => .ite Iff.rfl (fun _ => ?_) fun _ => .ite Iff.rfl (fun _ => ?_) fun _ => ⟨h, rfl⟩
  · refine .ite Iff.rfl (fun _ => ?_) fun _ => ⟨h, rfl⟩
    refine (h.lines.remove _).bind fun ls ls' hls => ?_
    exact fixB ⟨rfl, h.tail, hls⟩
  · refine (EqVia.remove (g := inputCharWidth cw) hl _).bind fun l l' hl => ?_
    refine (h.lines.vset _ hl).bind fun ls ls' hls => ?_
    exact fixB ⟨rfl, h.tail, hls⟩
  · refine (h.get _).bind fun r r' hr => ?_
    refine (h.lines.remove _).bind fun ls ls' hls => ?_
    refine (hls.get _).bind fun l l' hl => ?_
    refine (hls.vset _ (EqVia.append (g := inputCharWidth cw) hl hr)).bind fun ls ls' hls => ?_
    exact fixB ⟨rfl, h.tail, hls⟩

theorem atLeastOneLine_via {ls ls' : List Text} (h : EqVia (List.map (inputCharWidth cw)) ls ls') :
    EqVia (List.map (inputCharWidth cw)) (atLeastOneLine ls) (atLeastOneLine ls') := by
  unfold atLeastOneLine
  rw [h.isEmpty]
  split
  · exact .refl _
  · exact h

theorem delInLine (h : AlikeContent cw c d) (a b : Pos) : RelRun (EqVia (List.map (inputCharWidth cw))) (c.delInLine a b) (d.delInLine a b) := by
  unfold Content.delInLine
  refine (h.get _).bind fun l l' hl => ?_
  rw [line_length hl]
  refine .ite Iff.rfl (fun _ => .ite Iff.rfl (fun _ => ?_) fun _ => ?_) fun _ => ?_
  · exact (h.lines.drain _ _).bind fun ls ls' hls => atLeastOneLine_via hls
  · exact (EqVia.drain (g := inputCharWidth cw) hl _ _).bind fun l l' hl => h.lines.vset _ hl
  · exact (EqVia.drain (g := inputCharWidth cw) hl _ _).bind fun l l' hl => h.lines.vset _ hl

theorem delInLines (h : AlikeContent cw c d) (a b : Pos) : RelRun (EqVia (List.map (inputCharWidth cw))) (c.delInLines a b) (d.delInLines a b) := by
  unfold Content.delInLines
  have h1 : RelRun (fun p q => EqVia (List.map (inputCharWidth cw)) p.1 q.1 ∧ p.2 = q.2) (delFirstLine c.lines a) (delFirstLine d.lines a) := by
    unfold delFirstLine
    refine .ite Iff.rfl (fun _ => ?_) fun _ => ⟨h.lines, rfl⟩
    refine (h.get _).bind fun l l' hl => ?_
    exact (h.lines.vset _ (EqVia.take (g := inputCharWidth cw) hl _)).bind fun ls ls' hls => ⟨hls, rfl⟩
  refine h1.bind fun p q hpq => ?_
  have h2 : RelRun (fun p q => EqVia (List.map (inputCharWidth cw)) p.1 q.1 ∧ p.2 = q.2) (delLastLine p.1 b) (delLastLine q.1 b) := by
    unfold delLastLine
    refine (hpq.1.get _).bind fun l l' hl => ?_
    rw [line_length hl]
    refine .ite Iff.rfl (fun _ => ?_) fun _ => ⟨hpq.1, rfl⟩
    refine (EqVia.drain (g := inputCharWidth cw) hl _ _).bind fun l l' hl => ?_
    refine (hpq.1.vset _ hl).bind fun ls ls' hls => ?_
    exact (RelRun.rfl_of (fun _ => rfl) (csub b.y 1)).bind fun y y' e => ⟨hls, e⟩
  refine h2.bind fun r s hrs => ?_
  rw [hpq.2, hrs.2, hrs.1.length]
  refine .ite Iff.rfl (fun _ => ?_) fun _ => hrs.1
  exact (hrs.1.drain _ _).bind fun ls ls' hls => atLeastOneLine_via hls

theorem delSelection (h : AlikeContent cw c d) : RelRun (AlikeB cw) c.delSelection d.delSelection := by
  unfold Content.delSelection
  rw [h.selection]
  refine .ite Iff.rfl (fun _ => h.delCharBelow) fun _ => ?_
  have hr : RelRun (EqVia (List.map (inputCharWidth cw))) (c.delRange d.selection) (d.delRange d.selection) := by
    unfold Content.delRange
    exact .ite Iff.rfl (fun _ => h.delInLine _ _) fun _ => h.delInLines _ _
  refine hr.bind fun ls ls' hls => ?_
  refine (setCursorPos (h.setLines hls) _).bind fun c' d' h' => ?_
  exact ⟨h'.setTail none, rfl⟩

theorem swapLines (h : AlikeContent cw c d) (a b : Nat) : RelRun (AlikeB cw) (c.swapLines a b) (d.swapLines a b) := by
  unfold Content.swapLines
  rw [h.len]
  refine .ite Iff.rfl (fun _ => ?_) fun _ => ⟨h, rfl⟩
  refine (h.get _).bind fun l l' hl => ?_
  refine (h.get _).bind fun m m' hm => ?_
  exact fixB (h.setLines ((h.lines.set _ hm).set _ hl))

theorem moveCurrentLineUp (h : AlikeContent cw c d) : RelRun (AlikeB cw) c.moveCurrentLineUp d.moveCurrentLineUp := by
  unfold Content.moveCurrentLineUp
  rw [h.pos]
  refine .ite Iff.rfl (fun _ => ?_) fun _ => ⟨h, rfl⟩
  refine (h.swapLines _ _).bind fun p q hpq => ?_
  rw [hpq.2, hpq.1.pos]
  refine .ite Iff.rfl (fun _ => ?_) fun _ => ⟨hpq.1, rfl⟩
  refine (RelRun.rfl_of (fun _ => rfl) (csub q.1.pos.y 1)).bind fun y y' e => ?_
  subst e
  exact fixB (hpq.1.setPos _)

theorem moveCurrentLineDown (h : AlikeContent cw c d) : RelRun (AlikeB cw) c.moveCurrentLineDown d.moveCurrentLineDown := by
  unfold Content.moveCurrentLineDown
  rw [h.pos]
  refine (h.swapLines _ _).bind fun p q hpq => ?_
  rw [hpq.2, hpq.1.pos]
  refine .ite Iff.rfl (fun _ => ?_) fun _ => ⟨hpq.1, rfl⟩
  exact fixB (hpq.1.setPos _)

theorem moveRight (h : AlikeContent cw c d) : RelRun (AlikeB cw) c.moveRight d.moveRight := by
  unfold Content.moveRight
  rw [h.pos, h.len]
  refine (h.get _).bind fun l l' hl => ?_
  rw [line_length hl]
  refine .ite Iff.rfl (fun _ => ⟨h.setPos _, rfl⟩) fun _ => ?_
  refine (RelRun.rfl_of (fun _ => rfl) (csub d.lines.length 1)).bind fun y y' e => ?_
  subst e
  exact .ite Iff.rfl (fun _ => ⟨h.setPos _, rfl⟩) fun _ => ⟨h, rfl⟩

theorem moveLeft (h : AlikeContent cw c d) : RelRun (AlikeB cw) c.moveLeft d.moveLeft := by
  unfold Content.moveLeft
  rw [h.pos]
  refine .ite Iff.rfl (fun _ => ⟨h.setPos _, rfl⟩) fun _ => .ite Iff.rfl (fun _ => ?_) fun _ => ⟨h, rfl⟩
  refine (h.get _).bind fun l l' hl => ?_
  rw [line_length hl]
  exact ⟨h.setPos _, rfl⟩

theorem moveLinesUp (h : AlikeContent cw c d) (n : Nat) : RelRun (AlikeB cw) (c.moveLinesUp cw n) (d.moveLinesUp cw n) := by
  unfold Content.moveLinesUp
  rw [h.pos]
  refine .ite Iff.rfl (fun _ => ?_) fun _ => ⟨h, rfl⟩
  refine (h.get _).bind fun l l' hl => ?_
  rw [charIdxToCol_via hl]
  refine (RelRun.rfl_of (fun _ => rfl) (charIdxToCol cw l' d.pos.x)).bind fun y y' e => ?_
  subst e
  refine (h.get _).bind fun l l' hl => ?_
  rw [colToCharIdx_via hl, line_length hl]
  exact ⟨h.setPos _, rfl⟩

theorem moveLinesDown (h : AlikeContent cw c d) (n : Nat) : RelRun (AlikeB cw) (c.moveLinesDown cw n) (d.moveLinesDown cw n) := by
  unfold Content.moveLinesDown
  rw [h.pos, h.len]
  refine .ite Iff.rfl (fun _ => ?_) fun _ => ⟨h, rfl⟩
  refine (h.get _).bind fun l l' hl => ?_
  rw [charIdxToCol_via hl]
  refine (RelRun.rfl_of (fun _ => rfl) (charIdxToCol cw l' d.pos.x)).bind fun y y' e => ?_
  subst e
  refine (h.get _).bind fun l l' hl => ?_
  rw [colToCharIdx_via hl, line_length hl]
  exact ⟨h.setPos _, rfl⟩

theorem moveToEnd (h : AlikeContent cw c d) : RelRun (AlikeB cw) c.moveToEnd d.moveToEnd := by
  unfold Content.moveToEnd
  refine h.endPos.bind fun p q e => ?_
  subst e
  rw [h.pos]
  exact .ite Iff.rfl (fun _ => ⟨h, rfl⟩) fun _ => ⟨h.setPos _, rfl⟩

theorem moveToStart (h : AlikeContent cw c d) : AlikeB cw c.moveToStart d.moveToStart := by
  unfold Content.moveToStart
  rw [h.pos]
  split
  · exact ⟨h, rfl⟩
  · exact ⟨h.setPos _, rfl⟩

theorem moveToLineEnd (h : AlikeContent cw c d) : RelRun (AlikeB cw) c.moveToLineEnd d.moveToLineEnd := by
  unfold Content.moveToLineEnd
  rw [h.pos]
  refine (h.get _).bind fun l l' hl => ?_
  rw [line_length hl]
  exact .ite Iff.rfl (fun _ => ⟨h.setPos _, rfl⟩) fun _ => ⟨h, rfl⟩

theorem moveToLineStart (h : AlikeContent cw c d) : AlikeB cw c.moveToLineStart d.moveToLineStart := by
  unfold Content.moveToLineStart
  rw [h.pos]
  split
  · exact ⟨h.setPos _, rfl⟩
  · exact ⟨h, rfl⟩

end AlikeContent
end
end Verif
