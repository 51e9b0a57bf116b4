import Verif.Model.AskShow
import Verif.Props.Ask
/-! C38: what is shown to the user when a question is asked. -/
namespace Verif

/-- The functions completing a question. -/
inductive Spec.QuestionOp
  | addAnswer (key md : Text) | setDefault (d : Text)

/-- The call of such a function. -/
def Spec.QuestionOp.exec (q : Ask.Question) : Spec.QuestionOp → Ask.Question
  | .addAnswer key md => q.addAnswer key md
  | .setDefault d => q.setDefault d

/-- The answers which were added, in order. -/
def Spec.addedAnswers : List Spec.QuestionOp → List (Text × Text)
  | [] => []
  | .addAnswer key md :: ops => (key, md) :: Spec.addedAnswers ops
  | .setDefault _ :: ops => Spec.addedAnswers ops

/-- The last default which was set. -/
def Spec.lastDefault : List Spec.QuestionOp → Option Text
  | [] => none
  | .addAnswer _ _ :: ops => Spec.lastDefault ops
  | .setDefault d :: ops => some ((Spec.lastDefault ops).getD d)

namespace Props
open Verif.Ask Verif.Spec

variable {ws : Char → Bool}

private theorem built : ∀ (ops : List QuestionOp) (q : Question),
    (ops.foldl QuestionOp.exec q).md = q.md ∧
    (ops.foldl QuestionOp.exec q).answers = q.answers ++ (addedAnswers ops).map (fun a => ⟨a.1, a.2⟩) ∧
    (ops.foldl QuestionOp.exec q).default = ((lastDefault ops).map some).getD q.default := by
  intro ops
  induction ops with
  | nil => intro q; exact ⟨rfl, by simp [addedAnswers], rfl⟩
  | cons op ops ih =>
    intro q
    obtain ⟨h1, h2, h3⟩ := ih (op.exec q)
    rw [List.foldl_cons, h1, h2, h3]
    cases op with
    | addAnswer key md => exact ⟨rfl, by simp [QuestionOp.exec, Question.addAnswer, addedAnswers], rfl⟩
    | setDefault d => refine ⟨rfl, rfl, ?_⟩; cases h : lastDefault ops <;> simp [QuestionOp.exec, Question.setDefault, lastDefault, h]

private theorem shown_answers (d : Option Text) : ∀ l : List (Text × Text), showAnswers d (l.map fun a => ⟨a.1, a.2⟩) =
    l.flatMap fun a => [.key (d = some a.1) a.1, .text a.2] := by
  intro l
  induction l with
  | nil => rfl
  | cons a l ih => simp only [List.map_cons, showAnswers, List.flatMap_cons, ih]; by_cases h : d = some a.1 <;> simp [h]

/-- C38: whatever the order in which a question was given its answers and its default, asking shows, before any line is read, the text of the
question, then the keys and the texts of all the answers in the order they were added, in bold exactly for the keys which are the last default set; then
there's a message for each line which isn't understood, and nothing else. -/
theorem C38_shown (md : Text) (ops : List QuestionOp) (lines : List Line) :
    ∃ msgs : List Text, msgs.length ≤ lines.length ∧
      (ask ws (ops.foldl QuestionOp.exec (Question.new md)) lines).1 =
        .text md :: (addedAnswers ops).flatMap (fun a => [.key (lastDefault ops = some a.1) a.1, .text a.2]) ++ msgs.map .notUnderstood := by
  obtain ⟨h1, h2, h3⟩ := built ops (Question.new md)
  refine ⟨(askLoop ws (ops.foldl QuestionOp.exec (Question.new md)) lines).1, ?_, ?_⟩
  · generalize ops.foldl QuestionOp.exec (Question.new md) = q
    induction lines with
    | nil => simp [askLoop]
    | cons l lines ih =>
      cases l with
      | error => simp [askLoop]
      | line t =>
        simp only [askLoop]
        split
        · simp
        · split
          · simp
          · simp only [List.length_cons]; omega
  · unfold ask
    simp only [h1, h2, h3]
    have e : ((lastDefault ops).map some).getD (Question.new md).default = lastDefault ops := by cases lastDefault ops <;> rfl
    have e2 : (Question.new md).answers ++ (addedAnswers ops).map (fun a => (⟨a.1, a.2⟩ : Answer)) = (addedAnswers ops).map fun a => ⟨a.1, a.2⟩ := rfl
    rw [e, e2, shown_answers]
    rfl

/-- C38: the answer returned is a key which was shown, or the last default set. -/
theorem C38_was_shown (md : Text) (ops : List QuestionOp) (lines rest : List Line) (k : Text) (shown : List Shown)
    (h : ask ws (ops.foldl QuestionOp.exec (Question.new md)) lines = (shown, some (.answer k, rest))) :
    (∃ bold, .key bold k ∈ shown) ∨ lastDefault ops = some k := by
  obtain ⟨h1, h2, h3⟩ := built ops (Question.new md)
  unfold ask at h
  simp only [Prod.mk.injEq] at h
  obtain ⟨e, h⟩ := h
  obtain ⟨before, t, _, ⟨u, _, hu⟩, _⟩ := (C38_answer _ lines rest k (askLoop ws (ops.foldl QuestionOp.exec (Question.new md)) lines).1).1 (Prod.ext rfl h)
  rcases hu with ⟨_, hd⟩ | ⟨_, rfl, a, ha, hk⟩
  · right
    rw [h3] at hd
    cases hl : lastDefault ops with
    | none => rw [hl] at hd; simp [Question.new] at hd
    | some d => rw [hl] at hd; simpa using hd
  · left
    refine ⟨if (ops.foldl QuestionOp.exec (Question.new md)).default = some a.key then true else false, ?_⟩
    rw [← e, ← hk]
    refine List.mem_append_left _ (List.mem_append_right _ ?_)
    generalize (ops.foldl QuestionOp.exec (Question.new md)).default = d
    revert ha
    generalize (ops.foldl QuestionOp.exec (Question.new md)).answers = l
    intro ha
    induction l with
    | nil => simp at ha
    | cons b l ih =>
      rcases List.mem_cons.1 ha with rfl | ha
      · simp [showAnswers]
      · simp only [showAnswers, List.mem_cons]; exact .inr (.inr (ih ha))

/-- C38: asking a question so built returns for the first acceptable line, given what was added and the last default set; a message has then been shown
for each line before it, with this line trimmed, and nothing else after the answers. -/
theorem C38_asked (md : Text) (ops : List QuestionOp) (lines rest : List Line) (k : Text) (shown : List Shown) :
    ask ws (ops.foldl QuestionOp.exec (Question.new md)) lines = (shown, some (.answer k, rest)) ↔
      ∃ (before : List Text) (t : Text), lines = before.map .line ++ .line t :: rest ∧
        Accepts ws { md, answers := (addedAnswers ops).map (fun a => ⟨a.1, a.2⟩), default := lastDefault ops } t k ∧
        (∀ b ∈ before, ∀ k', ¬ Accepts ws { md, answers := (addedAnswers ops).map (fun a => ⟨a.1, a.2⟩), default := lastDefault ops } b k') ∧
        shown = .text md :: (addedAnswers ops).flatMap (fun a => [.key (lastDefault ops = some a.1) a.1, .text a.2]) ++
          before.map fun b => .notUnderstood (trimEnd ws b) := by
  have hq : ops.foldl QuestionOp.exec (Question.new md) =
      { md, answers := (addedAnswers ops).map (fun a => ⟨a.1, a.2⟩), default := lastDefault ops } := by
    obtain ⟨h1, h2, h3⟩ := built ops (Question.new md)
    generalize ops.foldl QuestionOp.exec (Question.new md) = q at h1 h2 h3
    cases q
    simp only at h1 h2 h3
    subst h1 h2 h3
    cases lastDefault ops <;> rfl
  rw [hq]
  have he : ∀ q : Question, ask ws q lines = ((match q.md with | some md => [Shown.text md] | none => []) ++ showAnswers q.default q.answers ++ (askLoop ws q lines).1.map .notUnderstood, (askLoop ws q lines).2) :=
    fun q => rfl
  rw [he, shown_answers]
  constructor
  · intro h
    rw [Prod.mk.injEq] at h
    obtain ⟨e, h⟩ := h
    obtain ⟨before, t, h1, h2, h3, h4⟩ := (C38_answer _ lines rest k _).1 (Prod.ext rfl h)
    refine ⟨before, t, h1, h2, h3, ?_⟩
    rw [← e, show List.map (fun b => Shown.notUnderstood (trimEnd ws b)) before = (before.map (trimEnd ws)).map .notUnderstood by rw [List.map_map]; rfl, ← h4]
    rfl
  · rintro ⟨before, t, h1, h2, h3, h4⟩
    have := (C38_answer _ lines rest k _).2 ⟨before, t, h1, h2, h3, rfl⟩
    rw [this, h4, List.map_map]
    rfl

/-- C38: a question with two answers, the default being set between them, and an input which isn't understood. -/
example : ask (fun c => c = '\n') ([.addAnswer ['y'] ['Y'], .setDefault ['n'], .addAnswer ['n'] ['N']].foldl QuestionOp.exec (Question.new ['?']))
    [.line ['z', '\n'], .line ['y', '\n']] =
    ([.text ['?'], .key false ['y'], .text ['Y'], .key true ['n'], .text ['N'], .notUnderstood ['z']], some (.answer ['y'], [])) := by decide

end Props
end Verif
