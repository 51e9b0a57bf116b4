import Verif.Lemmas.SkinRender
import Verif.Props.Table
import Verif.Spec.WholeText
/-! C51: formatting a text keeps its content. -/
namespace Verif.Props
open Verif Spec

theorem blocks_append {α : Type} {R : α → List FmtLine → Prop} : ∀ {a b : List α} {oa ob : List FmtLine}, ReplacedBy R a oa → ReplacedBy R b ob →
    ReplacedBy R (a ++ b) (oa ++ ob) := by
  intro a b oa ob ha hb
  induction ha with
  | nil => exact hb
  | cons h _ ih => rw [List.append_assoc]; exact .cons h ih

theorem blocks_split {α : Type} {R : α → List FmtLine → Prop} : ∀ {a b : List α} {out : List FmtLine}, ReplacedBy R (a ++ b) out →
    ∃ oa ob, out = oa ++ ob ∧ ReplacedBy R a oa ∧ ReplacedBy R b ob := by
  intro a
  induction a with
  | nil => intro b out h; exact ⟨[], out, rfl, .nil, h⟩
  | cons x xs ih =>
    intro b out h
    cases h with
    | cons hx h =>
      obtain ⟨oa, ob, e, h1, h2⟩ := ih h
      exact ⟨_, ob, by rw [e, List.append_assoc], .cons hx h1, h2⟩

theorem blocks_comp {α : Type} {R : α → List FmtLine → Prop} {S : FmtLine → List FmtLine → Prop} : ∀ {a : List α} {b c : List FmtLine},
    ReplacedBy R a b → ReplacedBy S b c → ReplacedBy (fun x out => ∃ mid, R x mid ∧ ReplacedBy S mid out) a c := by
  intro a b c h
  induction h generalizing c with
  | nil => intro h; cases h; exact .nil
  | cons hx _ ih =>
    intro h
    obtain ⟨oa, ob, e, h1, h2⟩ := blocks_split h
    subst e
    exact .cons ⟨_, hx, h1⟩ (ih h2)

theorem blocks_mono {α : Type} {R S : α → List FmtLine → Prop} (hRS : ∀ x b, R x b → S x b) : ∀ {a : List α} {b : List FmtLine},
    ReplacedBy R a b → ReplacedBy S a b := by
  intro a b h
  induction h with
  | nil => exact .nil
  | cons hx _ ih => exact .cons (hRS _ _ hx) ih

theorem blocks_of_map {α : Type} {R : FmtLine → List FmtLine → Prop} {f : α → FmtLine} : ∀ {a : List α} {b : List FmtLine},
    ReplacedBy R (a.map f) b → ReplacedBy (fun x out => R (f x) out) a b := by
  intro a
  induction a with
  | nil => intro b h; cases h; exact .nil
  | cons x xs ih => intro b h; cases h with | cons hx h => exact .cons hx (ih h)

theorem blocks_single {S : FmtLine → List FmtLine → Prop} {l : FmtLine} {out : List FmtLine} (h : ReplacedBy S [l] out) : S l out := by
  cases h with
  | cons hx h => cases h; simpa using hx

/-- Lines related only to themselves. -/
theorem blocks_same {S : FmtLine → List FmtLine → Prop} : ∀ {ls out : List FmtLine}, (∀ l ∈ ls, ∀ b, S l b → b = [l]) → ReplacedBy S ls out → out = ls := by
  intro ls
  induction ls with
  | nil => intro out _ h; cases h; rfl
  | cons l ls ih =>
    intro out hs h
    cases h with
    | cons hx h =>
      rw [hs l (by simp) _ hx, ih (fun l' hl => hs l' (by simp [hl])) h]; rfl

/-- The fixing of the tables, line by line. -/
def TableStep (ws : Char → Bool) (width : Nat) (l : FmtLine) (b : List FmtLine) : Prop :=
  b = [l] ∨ ∃ n, lineColumns l ≤ n ∧ LineKept ws (keptColumns n width) l b

theorem tables_blocks {ws : Char → Bool} {width : Nat} {lines out : List FmtLine}
    (h : TablesFixed (fun tbl tbl' => (tableColumns tbl = 0 ∨ width = 0) ∧ tbl' = tbl ∨
      Blocks (LineKept ws (keptColumns (tableColumns tbl) width)) tbl tbl') lines out) : ReplacedBy (TableStep ws width) lines out := by
  induction h with
  | nil => exact .nil
  | @other l ls out hl _ ih => exact .cons (b := [l]) (.inl rfl) ih
  | @table tbl tbl' ls out hne hl hmax hR _ ih =>
    refine blocks_append ?_ ih
    rcases hR with ⟨hz, e⟩ | hb
    · subst e
      clear hne hl hmax hz
      induction tbl' with
      | nil => exact .nil
      | cons x xs ih' => exact .cons (b := [x]) (.inl rfl) ih'
    · have hle := le_tableColumns tbl
      generalize tableColumns tbl = n at hb hle
      clear hne hl hmax
      induction hb with
      | nil => exact .nil
      | @cons l b ls out hx _ ih' => exact .cons (.inr ⟨n, hle l (by simp), hx⟩) (ih' (fun l' hl' => hle l' (by simp [hl'])))

/-- The justification of code, line by line. -/
def CodeStep (l : FmtLine) (b : List FmtLine) : Prop :=
  b = [l] ∨ ∃ fc sp, l = .normal fc ∧ b = [.normal { fc with spacing := sp }]

theorem code_blocks {lines out : List FmtLine} (h : Justified lines out) : ReplacedBy CodeStep lines out := by
  induction h with
  | nil => exact .nil
  | @other l ls out hl _ ih => exact .cons (b := [l]) (.inl rfl) ih
  | @block blk blk' ls out w hne hc hmax hlong hlen hsp _ ih =>
    refine blocks_append ?_ ih
    clear hne hc hmax hlong ih
    induction blk generalizing blk' with
    | nil =>
      have : blk' = [] := List.length_eq_zero_iff.1 hlen
      subst this; exact .nil
    | cons x xs ihx =>
      cases blk' with
      | nil => simp at hlen
      | cons y ys =>
        obtain ⟨fc, e1, e2⟩ := hsp 0 x y rfl rfl
        refine .cons (b := [y]) (.inr ⟨fc, some ⟨w, .left⟩, e1, by rw [e2]⟩) ?_
        refine ihx (by simpa using hlen) ?_
        intro i l l' h1 h2
        exact hsp (i + 1) l l' (by simpa using h1) (by simpa using h2)

/-- Wrapping, line by line. -/
def WrapStep (ws : Char → Bool) (l : FmtLine) (b : List FmtLine) : Prop :=
  match l with
  | .normal fc => ∃ fcs : List FmtComposite, b = fcs.map .normal ∧ WrappedKinds fc.kind fcs ∧
      ink ws (linesChars fcs) = ink ws (styledChars fc.compounds) ∧ (linesChars fcs).Sublist (styledChars fc.compounds)
  | l => b = [l]

theorem wrapStep_id (ws : Char → Bool) (l : FmtLine) : WrapStep ws l [l] := by
  cases l with
  | normal fc => exact ⟨[fc], rfl, ⟨fc, [], rfl, rfl, by simp⟩, by simp [linesChars], by simp [linesChars]⟩
  | _ => rfl

theorem wrapOne_step {cw : Char → Nat} {ws : Char → Bool} {skin : Skin} {w : Nat} {l : FmtLine} {b : List FmtLine}
    (h : wrapOne cw ws skin w l = some (.ok b)) : WrapStep ws l b := by
  cases l with
  | normal fc =>
    simp only [wrapOne, hardWrapLine_eq, Option.map_eq_some_iff, Option.bind_eq_some_iff] at h
    obtain ⟨r, ⟨ls, _, e3⟩, e4⟩ := h
    cases r with
    | error e => simp [Except.map] at e4
    | ok fcs =>
      simp only [Except.map, Except.ok.injEq] at e4
      subst e4
      split at e3
      · simp only [Option.some.injEq, Except.ok.injEq] at e3
        subst e3
        exact wrapStep_id ws _
      · obtain ⟨h1, h2, _, l0, more, e, h5, _, h7⟩ := hardWrapComposite_text e3
        refine ⟨fcs, rfl, ⟨l0, more, e, h5, ?_⟩, h2, h1⟩
        intro l hl
        have := (h7 l hl).1
        cases hk : fc.kind <;> rw [hk] at this <;> exact this
  | _ =>
    simp only [wrapOne, Option.some.injEq, Except.ok.injEq] at h
    exact h.symm

theorem wrap_blocks {cw : Char → Nat} {ws : Char → Bool} {skin : Skin} {width : Option Nat} {lines out : List FmtLine}
    (h : wrapText cw ws skin width lines = some out) : ReplacedBy (WrapStep ws) lines out := by
  have hid : ∀ ls : List FmtLine, ReplacedBy (WrapStep ws) ls ls := by
    intro ls
    induction ls with
    | nil => exact .nil
    | cons l ls ih => exact .cons (b := [l]) (wrapStep_id ws l) ih
  cases width with
  | none =>
    simp only [wrapText, Option.some.injEq] at h
    subst h; exact hid _
  | some w =>
    simp only [wrapText] at h
    by_cases hw : w ≥ 3
    · rw [if_pos hw] at h
      cases hh : hardWrapLines cw ws skin w lines with
      | none => rw [hh] at h; simp at h
      | some r =>
        cases r with
        | error e => rw [hh] at h; simp at h
        | ok o =>
          rw [hh] at h
          simp only [Option.some.injEq] at h
          subst h
          obtain ⟨e1, e2⟩ := hardWrapLines_ok hh
          rw [e1]
          clear e1 hh
          induction lines with
          | nil => exact .nil
          | cons l ls ih =>
            rw [List.flatMap_cons]
            exact .cons (wrapOne_step (e2 l (by simp))) (ih (fun x hx => e2 x (by simp [hx])))
    · rw [if_neg hw] at h
      simp only [Option.some.injEq] at h
      subst h; exact hid _

theorem keptColumns_cases (n width : Nat) : keptColumns n width = n ∨ keptColumns n width = (width - 1) / 4 := by
  simp only [keptColumns]
  split
  · exact .inl rfl
  · exact .inr rfl

/-- The steps of the formatting give the content of the text. -/
theorem holds_of_steps {cw : Char → Nat} {ws : Char → Bool} {skin : Skin} {mlines : List MLine} {width : Option Nat} {l1 l2 res : List FmtLine}
    (s1 : ReplacedBy (TableStep ws (width.getD usizeMax)) (mlines.map (FmtLine.ofMLine skin cw)) l1) (s2 : ReplacedBy CodeStep l1 l2)
    (s3 : ReplacedBy (WrapStep ws) l2 res) : ReplacedBy (Holds ws width) mlines res := by
  refine blocks_mono ?_ (blocks_comp (blocks_of_map s1) (blocks_comp s2 s3))
  rintro m out ⟨mid, hm, ho⟩
  have htbl : ∀ l : FmtLine, IsTableLine l → ∀ b, (∃ mid, CodeStep l mid ∧ ReplacedBy (WrapStep ws) mid b) → b = [l] := by
    rintro l hl b ⟨mid, hc | ⟨fc, sp, e, _⟩, hb⟩
    · subst hc
      have := blocks_single hb
      cases l with
      | normal fc => exact hl.elim
      | _ => exact this
    · subst e; exact hl.elim
  have hrule : ∀ b, (∃ mid, CodeStep .horizontalRule mid ∧ ReplacedBy (WrapStep ws) mid b) → b = [.horizontalRule] := by
    rintro b ⟨mid, hc | ⟨fc, sp, e, _⟩, hb⟩
    · subst hc
      exact blocks_single hb
    · cases e
  cases m with
  | normal k cs =>
    simp only [FmtLine.ofMLine] at hm
    rcases hm with e | ⟨n, _, e⟩
    · subst e
      obtain ⟨mid', hc, hwr⟩ := blocks_single ho
      rcases hc with e | ⟨fc, sp, e1, e2⟩
      · subst e
        exact blocks_single hwr
      · simp only [FmtLine.normal.injEq] at e1
        subst e1; subst e2
        exact blocks_single hwr
    · exact e.elim
  | tableRow cells =>
    have hcell : ∀ ic, cellChars (cells.map fun c => FmtComposite.ofComposite skin cw c.1 c.2) ic =
        (match cells[ic]? with | some c => styledChars c.2 | none => []) := by
      intro ic
      simp only [cellChars, List.getElem?_map]
      cases cells[ic]? <;> rfl
    simp only [FmtLine.ofMLine] at hm
    rcases hm with e | ⟨n, hn, rows, e1, e2, e3, e4⟩
    · subst e
      have := htbl (.tableRow _) trivial _ (blocks_single ho)
      subst this
      refine ⟨cells.length, [cells.map fun c => FmtComposite.ofComposite skin cw c.1 c.2], rfl, by simp, .inl (Nat.le_refl _), ?_⟩
      intro ic _
      simp only [List.flatMap_cons, List.flatMap_nil, List.append_nil, hcell]
      exact ⟨rfl, List.Sublist.refl _⟩
    · subst e1
      have : out = rows.map .tableRow := by
        refine blocks_same ?_ ho
        intro l hl b hb
        simp only [List.mem_map] at hl
        obtain ⟨r, _, e⟩ := hl
        subst e
        exact htbl (.tableRow _) trivial b hb
      subst this
      refine ⟨keptColumns n (width.getD usizeMax), rows, rfl, e2, ?_, ?_⟩
      · rcases keptColumns_cases n (width.getD usizeMax) with e | e
        · left
          rw [e]
          simpa [lineColumns] using hn
        · exact .inr e
      · intro ic hic
        have := e4 ic hic
        rw [hcell] at this
        exact this
  | tableRule al =>
    simp only [FmtLine.ofMLine] at hm
    rcases hm with e | ⟨n, _, r, e, _⟩
    · subst e
      exact ⟨_, htbl (.tableRule _) trivial _ (blocks_single ho)⟩
    · subst e
      exact ⟨_, htbl (.tableRule _) trivial _ (blocks_single ho)⟩
  | horizontalRule =>
    rcases hm with e | ⟨n, _, e⟩
    · subst e; exact hrule _ (blocks_single ho)
    · exact e.elim
  | codeFence =>
    rcases hm with e | ⟨n, _, e⟩
    · subst e; exact hrule _ (blocks_single ho)
    · exact e.elim

/-- C51: whatever the text, the skin and the width (or without width), the formatted text holds the content of the source, in
order: line by line for what isn't a table, cell by cell for tables, with nothing added and nothing lost but whitespace (and the columns
for which there's no room). -/
theorem C51_content (cw : Char → Nat) (ws : Char → Bool) (skin : Skin) (mlines : List MLine) (width : Option Nat) (t : FmtText)
    (h : FmtText.fromText cw ws skin mlines width = some t) : ReplacedBy (Holds ws width) mlines t.lines := by
  simp only [FmtText.fromText, Option.bind_eq_bind, Option.bind_eq_some_iff, Option.some.injEq] at h
  obtain ⟨l1, h1, l2, h2, h3⟩ := h
  subst h3
  have s1 := tables_blocks (C08_text cw ws skin (width.getD usizeMax) _ l1 h1)
  have s2 := code_blocks (justifyBlocks_spec l1)
  have s3 := wrap_blocks h2
  exact holds_of_steps s1 s2 s3

/-- A case with wrapped lines and cells. -/
example : ((FmtText.fromText (fun _ => 1) (· == ' ') {} [.normal (.listItem 0) [⟨"ab cd ef".toList, {}⟩], .horizontalRule,
      .tableRow [(.paragraph, [⟨"x y z t".toList, {}⟩]), (.paragraph, [⟨"u".toList, {}⟩])]] (some 9)).map fun t => t.lines.map fun l => l.composites.map fun c =>
        ((styledChars c.compounds).map (·.1))) =
    some [["ab cd ".toList], ["ef".toList], [], ["x y".toList, "u".toList], ["z t".toList, []]] := by decide

end Verif.Props
