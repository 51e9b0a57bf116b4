import Verif.Spec.Dialog
import Verif.Props.Ask
/-! C99: programs made of chained questions. -/
namespace Verif.Props
open Verif.Ask

variable {ws : Char → Bool} {α : Type}

namespace DialogLemmas

theorem header_eq (q : Question) : header q = ((match q.md with | some md => [Shown.text md] | none => []) ++ showAnswers q.default q.answers).map .shown := by
  have h : ∀ l : List Answer, (showAnswers q.default l).map Seen.shown = l.flatMap fun a => [.shown (.key (q.default = some a.key) a.key), .shown (.text a.md)] := by
    intro l
    induction l with
    | nil => rfl
    | cons a l ih =>
      simp only [showAnswers, List.map_cons, List.flatMap_cons, ih]
      by_cases hd : q.default = some a.key <;> simp [hd]
  rw [List.map_append, h, header]
  cases q.md <;> rfl

theorem trimmed_eq : ∀ {before trimmed : List Text}, trimmed.length = before.length →
    (∀ (i : Nat) (b u : Text), before[i]? = some b → trimmed[i]? = some u → Trimmed ws b u) → trimmed = before.map (trimEnd ws)
  | [], [], _, _ => rfl
  | b :: before, u :: trimmed, hl, h => by
    have ih := trimmed_eq (before := before) (trimmed := trimmed) (by simpa using hl) fun i b' u' hb hu =>
      h (i + 1) b' u' (by simpa using hb) (by simpa using hu)
    rw [List.map_cons, C38_trim_unique (h 0 b u rfl rfl) (C38_trim b), ← ih]

theorem ask_answered (q : Question) (lines rest : List Line) (seen : List Seen) (k : Text) :
    ((Ask.ask ws q lines).1.map Seen.shown = seen ∧ (Ask.ask ws q lines).2 = some (.answer k, rest)) ↔
      ∃ typed : List Text, lines = typed.map .line ++ rest ∧ Answered ws q typed seen k := by
  have e1 : (Ask.ask ws q lines).1.map Seen.shown = header q ++ (askLoop ws q lines).1.map fun u => .shown (.notUnderstood u) := by
    rw [header_eq]
    show List.map _ ((_ ++ _) ++ _) = _
    rw [List.map_append, List.map_map]
    rfl
  rw [e1]
  show (_ ∧ (askLoop ws q lines).2 = _) ↔ _
  constructor
  · rintro ⟨rfl, h⟩
    obtain ⟨before, t, h1, h2, h3, h4⟩ := (C38_answer q lines rest k _).1 (Prod.ext rfl h)
    refine ⟨before ++ [t], by rw [h1]; simp, ⟨before, t, rfl, h2, h3, before.map (trimEnd ws), by simp, ?_, congrArg (fun m => header q ++ List.map (fun u => Seen.shown (.notUnderstood u)) m) h4⟩⟩
    intro i b u hb hu
    rw [List.getElem?_map, hb] at hu
    obtain rfl := Option.some.inj hu
    exact C38_trim b
  · rintro ⟨typed, rfl, ⟨before, t, rfl, h2, h3, trimmed, hl, ht, rfl⟩⟩
    rw [(C38_answer q _ rest k _).2 ⟨before, t, by simp, h2, h3, rfl⟩, trimmed_eq hl ht]
    exact ⟨rfl, rfl⟩

theorem ask_unanswered (q : Question) (lines rest : List Line) (seen : List Seen) :
    ((Ask.ask ws q lines).1.map Seen.shown = seen ∧ (Ask.ask ws q lines).2 = some (.error, rest)) ↔
      ∃ typed : List Text, lines = typed.map .line ++ .error :: rest ∧ Unanswered ws q typed seen := by
  have e1 : (Ask.ask ws q lines).1.map Seen.shown = header q ++ (askLoop ws q lines).1.map fun u => .shown (.notUnderstood u) := by
    rw [header_eq]
    show List.map _ ((_ ++ _) ++ _) = _
    rw [List.map_append, List.map_map]
    rfl
  rw [e1]
  show (_ ∧ (askLoop ws q lines).2 = _) ↔ _
  constructor
  · rintro ⟨rfl, h⟩
    obtain ⟨before, h1, h2, h3⟩ := (C38_error q lines rest _).1 (Prod.ext rfl h)
    refine ⟨before, h1, ⟨h2, before.map (trimEnd ws), by simp, ?_, congrArg (fun m => header q ++ List.map (fun u => Seen.shown (.notUnderstood u)) m) h3⟩⟩
    intro i b u hb hu
    rw [List.getElem?_map, hb] at hu
    obtain rfl := Option.some.inj hu
    exact C38_trim b
  · rintro ⟨typed, rfl, ⟨h2, trimmed, hl, ht, rfl⟩⟩
    rw [(C38_error q _ rest _).2 ⟨typed, rfl, h2, rfl⟩, trimmed_eq hl ht]
    exact ⟨rfl, rfl⟩

theorem answered_key {q : Question} {typed : List Text} {seen : List Seen} {k : Text} (h : Answered ws q typed seen k)
    (hd : ∀ d, q.default = some d → ∃ a ∈ q.answers, a.key = d) : ∃ a ∈ q.answers, a.key = k := by
  obtain ⟨_, _, _, ⟨u, _, h⟩, _⟩ := h.answered
  rcases h with ⟨_, h⟩ | ⟨_, rfl, h⟩
  · exact hd k h
  · exact h

theorem matchKey_first : ∀ (l : List Answer) (k : Text) (j i : Nat), FirstKey l i k → matchKey l k j = .block (i + j)
  | [], _, _, _, h => by obtain ⟨⟨a, ha, _⟩, _⟩ := h; simp at ha
  | a :: l, k, j, 0, h => by
    obtain ⟨⟨b, hb, rfl⟩, _⟩ := h
    simp only [List.getElem?_cons_zero, Option.some.injEq] at hb
    subst hb
    simp [matchKey]
  | a :: l, k, j, i + 1, h => by
    obtain ⟨h1, h2⟩ := h
    have hne : a.key ≠ k := h2 0 a (by omega) rfl
    rw [matchKey, if_neg hne, matchKey_first l k (j + 1) i ⟨by simpa using h1, fun j' b hj hb => h2 (j' + 1) b (by omega) (by simpa using hb)⟩]
    congr 1
    omega

theorem first_exists : ∀ (l : List Answer) (k : Text), (∃ a ∈ l, a.key = k) → ∃ i, FirstKey l i k
  | [], _, h => by simp at h
  | a :: l, k, h => by
    by_cases ha : a.key = k
    · exact ⟨0, ⟨a, rfl, ha⟩, fun j _ hj _ => absurd hj (by omega)⟩
    · obtain ⟨b, hb, hk⟩ := h
      rcases List.mem_cons.1 hb with rfl | hb
      · exact absurd hk ha
      · obtain ⟨i, h1, h2⟩ := first_exists l k ⟨b, hb, hk⟩
        refine ⟨i + 1, by simpa using h1, fun j c hj hc => ?_⟩
        cases j with
        | zero => simp at hc; rwa [← hc]
        | succ j => exact h2 j c (by omega) (by simpa using hc)

theorem first_unique {l : List Answer} {i j : Nat} {k : Text} (h : FirstKey l i k) (h' : FirstKey l j k) : i = j := by
  have := matchKey_first l k 0 i h
  rw [matchKey_first l k 0 j h'] at this
  simpa using this.symm

theorem not_exotic {md : Text} {answers : List Answer} {default : Option Text} (hd : ∀ d, default = some d → ∃ a ∈ answers, a.key = d) :
    ({ md := some md, answers, default } : Question).hasExoticDefault = false := by
  cases h : ({ md := some md, answers, default } : Question).hasExoticDefault with
  | false => rfl
  | true =>
    obtain ⟨d, h1, h2⟩ := (C38_exotic _).1 h
    obtain ⟨a, ha, hk⟩ := hd d h1
    exact absurd hk (h2 a ha)

theorem exotic_not {md : Text} {answers : List Answer} {default : Option Text}
    (h : ({ md := some md, answers, default } : Question).hasExoticDefault = false) : ∀ d, default = some d → ∃ a ∈ answers, a.key = d := by
  intro d hd
  by_cases hk : ∃ a ∈ answers, a.key = d
  · exact hk
  · rw [(C38_exotic _).2 ⟨d, hd, fun a ha e => hk ⟨a, ha, e⟩⟩] at h
    simp at h

end DialogLemmas
open DialogLemmas

/-- C99: a program made of chained questions ends with a value exactly when the first lines typed are the ones of a conversation with it: each question is answered, in the order
of the program, by the first line which is acceptable for it; what is seen is what this conversation shows, and the other lines of the input aren't read. -/
theorem C99_talk (d : Dialog α) : ∀ (lines rest : List Line) (seen : List Seen) (v : α), d.run ws lines = (seen, some (.value v, rest)) ↔
    ∃ typed : List Text, lines = typed.map .line ++ rest ∧ Talk ws d typed seen v := by
  induction d with
  | done v0 =>
    intro lines rest seen v
    simp only [Dialog.run, Prod.mk.injEq, Option.some.injEq, Ending.value.injEq]
    constructor
    · rintro ⟨rfl, rfl, rfl⟩; exact ⟨[], rfl, .done _⟩
    · rintro ⟨_, rfl, h⟩; cases h; exact ⟨rfl, rfl, rfl⟩
  | say t d ih =>
    intro lines rest seen v
    simp only [Dialog.run, Prod.mk.injEq]
    constructor
    · rintro ⟨rfl, h⟩
      obtain ⟨typed, h1, h2⟩ := (ih lines rest _ v).1 (Prod.ext rfl h)
      exact ⟨typed, h1, .say t h2⟩
    · rintro ⟨typed, h1, h⟩
      cases h with
      | say _ h2 =>
        rw [(ih lines rest _ v).2 ⟨typed, h1, h2⟩]
        exact ⟨rfl, rfl⟩
  | ask q next ih =>
    intro lines rest seen v
    constructor
    · intro h
      simp only [Dialog.run] at h
      split at h
      · simp at h
      · simp at h
      · rename_i key rest' ha
        simp only [Prod.mk.injEq] at h
        obtain ⟨rfl, h⟩ := h
        obtain ⟨typed, h1, h2⟩ := (ask_answered q lines rest' _ key).1 ⟨rfl, ha⟩
        obtain ⟨more, h3, h4⟩ := (ih key rest' rest _ v).1 (Prod.ext rfl h)
        exact ⟨typed ++ more, by rw [h1, h3]; simp, .ask h2 h4⟩
    · rintro ⟨_, rfl, h⟩
      cases h with
      | @ask _ _ typed more seen after key _ h1 h2 =>
        obtain ⟨a1, a2⟩ := (ask_answered q _ (more.map .line ++ rest) seen key).2 ⟨typed, rfl, h1⟩
        simp only [Dialog.run, List.map_append, List.append_assoc, a2, a1, (ih key _ rest after v).2 ⟨more, rfl, h2⟩]
  | choose md answers default block ih =>
    intro lines rest seen v
    constructor
    · intro h
      simp only [Dialog.run] at h
      split at h
      · simp at h
      · rename_i hex
        have hd := exotic_not (Bool.eq_false_iff.2 hex)
        split at h
        · simp at h
        · simp at h
        · rename_i key rest' ha
          obtain ⟨typed, h1, h2⟩ := (ask_answered _ lines rest' _ key).1 ⟨rfl, ha⟩
          obtain ⟨i, hi⟩ := first_exists answers key (answered_key h2 hd)
          rw [matchKey_first answers key 0 i hi] at h
          simp only [Nat.add_zero, Prod.mk.injEq] at h
          obtain ⟨rfl, h⟩ := h
          obtain ⟨more, h3, h4⟩ := (ih i rest' rest _ v).1 (Prod.ext rfl h)
          exact ⟨typed ++ more, by rw [h1, h3]; simp, .choose hd h2 hi h4⟩
    · rintro ⟨_, rfl, h⟩
      cases h with
      | @choose _ _ _ _ typed more seen after key i _ hd h1 hi h2 =>
        obtain ⟨a1, a2⟩ := (ask_answered _ _ (more.map .line ++ rest) seen key).2 ⟨typed, rfl, h1⟩
        simp only [Dialog.run, not_exotic hd, List.map_append, List.append_assoc, a2, a1, matchKey_first answers key 0 i hi, Nat.add_zero,
          (ih i _ rest after v).2 ⟨more, rfl, h2⟩]
        rfl

/-- C99: a user who types the key of an answer at each question, in any way through the program, gets the value at the end of this way, with exactly one line read by question. -/
theorem C99_every_way (hn : ws '\n' = true) {d : Dialog α} (hg : GoodDefaults d) {keys : List Text} {v : α} (hw : Way d keys v)
    (hk : ∀ k ∈ keys, ∃ c, k.getLast? = some c ∧ ws c = false) (rest : List Line) :
    ∃ seen, d.run ws (keys.map (fun k => .line (k ++ ['\n'])) ++ rest) = (seen, some (.value v, rest)) := by
  have acc : ∀ (q : Question) (k : Text), (∃ a ∈ q.answers, a.key = k) → (∃ c, k.getLast? = some c ∧ ws c = false) → ∃ seen, Answered ws q [k ++ ['\n']] seen k := by
    rintro q k ha ⟨c, hc, hcw⟩
    refine ⟨header q, ⟨[], k ++ ['\n'], rfl, ⟨k, ⟨['\n'], rfl, by simp [hn], fun c' hc' => ?_⟩, .inr ⟨?_, rfl, ha⟩⟩, by simp, [], rfl, by simp, by simp⟩⟩
    · rw [hc] at hc'; obtain rfl := Option.some.inj hc'; exact hcw
    · rintro ⟨rfl, _⟩; simp at hc
  have key : ∃ seen, Talk ws d (keys.map (· ++ ['\n'])) seen v := by
    induction hw with
    | done v => exact ⟨_, .done v⟩
    | say t _ ih =>
      cases hg with
      | say _ hg =>
        obtain ⟨seen, h⟩ := ih hg hk
        exact ⟨_, .say t h⟩
    | @ask q next a keys v ha _ ih =>
      cases hg with
      | ask _ hg =>
        obtain ⟨seen, h⟩ := ih (hg _) fun k h => hk k (List.mem_cons_of_mem _ h)
        obtain ⟨s1, h1⟩ := acc q a.key ⟨a, ha, rfl⟩ (hk _ List.mem_cons_self)
        exact ⟨_, .ask h1 h⟩
    | @choose md answers default block i key keys v hi _ ih =>
      cases hg with
      | choose _ hd hg =>
        obtain ⟨seen, h⟩ := ih (hg _) fun k h => hk k (List.mem_cons_of_mem _ h)
        obtain ⟨⟨a, ha, hak⟩, _⟩ := id hi
        obtain ⟨s1, h1⟩ := acc { md := some md, answers, default } key ⟨a, List.mem_of_getElem? ha, hak⟩ (hk _ List.mem_cons_self)
        exact ⟨_, .choose hd h1 hi h⟩
  obtain ⟨seen, h⟩ := key
  refine ⟨seen, (C99_talk d _ rest seen v).2 ⟨_, ?_, h⟩⟩
  rw [List.map_map]
  rfl

theorem askLoop_more (q : Question) (more : List Line) : ∀ lines : List Line, (askLoop ws q lines).1 <+: (askLoop ws q (lines ++ more)).1 ∧
    ∀ o rest, (askLoop ws q lines).2 = some (o, rest) → askLoop ws q (lines ++ more) = ((askLoop ws q lines).1, some (o, rest ++ more))
  | [] => ⟨by simp [askLoop], by simp [askLoop]⟩
  | .error :: lines => by
    simp only [askLoop, List.cons_append, Option.some.injEq, Prod.mk.injEq]
    exact ⟨List.prefix_refl _, by rintro _ _ ⟨rfl, rfl⟩; simp⟩
  | .line t :: lines => by
    obtain ⟨i1, i2⟩ := askLoop_more q more lines
    simp only [askLoop, List.cons_append]
    split
    · exact ⟨List.prefix_refl _, by simp only [Option.some.injEq, Prod.mk.injEq]; rintro _ _ ⟨rfl, rfl⟩; simp⟩
    · split
      · exact ⟨List.prefix_refl _, by simp only [Option.some.injEq, Prod.mk.injEq]; rintro _ _ ⟨rfl, rfl⟩; simp⟩
      · refine ⟨List.cons_prefix_cons.2 ⟨rfl, i1⟩, fun o rest h => ?_⟩
        rw [i2 o rest h]

theorem ask_more (q : Question) (more lines : List Line) : (Ask.ask ws q lines).1 <+: (Ask.ask ws q (lines ++ more)).1 ∧
    ∀ o rest, (Ask.ask ws q lines).2 = some (o, rest) → Ask.ask ws q (lines ++ more) = ((Ask.ask ws q lines).1, some (o, rest ++ more)) := by
  obtain ⟨h1, h2⟩ := askLoop_more (ws := ws) q more lines
  constructor
  · obtain ⟨x, hx⟩ := h1
    refine ⟨x.map .notUnderstood, ?_⟩
    simp only [Ask.ask, ← hx, List.map_append, List.append_assoc]
  · intro o rest h
    have := h2 o rest h
    simp only [Ask.ask, this]

/-- C99: what is seen doesn't depend on what is typed after; when the program has ended, the lines which follow aren't read. -/
theorem C99_interactive (d : Dialog α) : ∀ (lines more : List Line), (d.run ws lines).1 <+: (d.run ws (lines ++ more)).1 ∧
    ∀ o rest, (d.run ws lines).2 = some (o, rest) → d.run ws (lines ++ more) = ((d.run ws lines).1, some (o, rest ++ more)) := by
  induction d with
  | done v => intro lines more; simp [Dialog.run]
  | say t d ih =>
    intro lines more
    obtain ⟨h1, h2⟩ := ih lines more
    refine ⟨List.cons_prefix_cons.2 ⟨rfl, h1⟩, fun o rest h => ?_⟩
    simp only [Dialog.run, h2 o rest h]
  | ask q next ih =>
    intro lines more
    obtain ⟨h1, h2⟩ := ask_more (ws := ws) q more lines
    have pre : ∀ s : List Seen, (Ask.ask ws q lines).1.map Seen.shown <+: (Ask.ask ws q (lines ++ more)).1.map Seen.shown ++ s := fun s =>
      List.IsPrefix.trans (h1.map _) (List.prefix_append _ _)
    simp only [Dialog.run]
    cases ha : (Ask.ask ws q lines).2 with
    | none =>
      refine ⟨?_, by simp⟩
      have p0 := pre []
      rw [List.append_nil] at p0
      cases hb : (Ask.ask ws q (lines ++ more)).2 with
      | none => exact p0
      | some p =>
        obtain ⟨o, r⟩ := p
        cases o with
        | error => exact p0
        | answer k => exact pre _
    | some p =>
      obtain ⟨o, r⟩ := p
      have e := h2 o r ha
      cases o with
      | error => simp [e]
      | answer k =>
        obtain ⟨i1, i2⟩ := ih k r more
        simp only [e]
        refine ⟨(List.prefix_append_right_inj _).2 i1, fun o' r' h => ?_⟩
        rw [i2 o' r' h]
  | choose md answers default block ih =>
    intro lines more
    obtain ⟨h1, h2⟩ := ask_more (ws := ws) { md := some md, answers, default } more lines
    have pre : ∀ s : List Seen, (Ask.ask ws { md := some md, answers, default } lines).1.map Seen.shown <+:
        (Ask.ask ws { md := some md, answers, default } (lines ++ more)).1.map Seen.shown ++ s := fun s =>
      List.IsPrefix.trans (h1.map _) (List.prefix_append _ _)
    simp only [Dialog.run]
    by_cases hex : ({ md := some md, answers, default } : Question).hasExoticDefault = true
    · simp [hex]
    simp only [hex]
    cases ha : (Ask.ask ws { md := some md, answers, default } lines).2 with
    | none =>
      refine ⟨?_, by simp⟩
      have p0 := pre []
      rw [List.append_nil] at p0
      cases hb : (Ask.ask ws { md := some md, answers, default } (lines ++ more)).2 with
      | none => exact p0
      | some p =>
        obtain ⟨o, r⟩ := p
        cases o with
        | error => exact p0
        | answer k =>
          simp only
          cases matchKey answers k 0 with
          | panic => exact p0
          | block i => exact pre _
    | some p =>
      obtain ⟨o, r⟩ := p
      have e := h2 o r ha
      cases o with
      | error => simp [e]
      | answer k =>
        simp only [e]
        cases matchKey answers k 0 with
        | panic => simp
        | block i =>
          obtain ⟨i1, i2⟩ := ih i r more
          refine ⟨(List.prefix_append_right_inj _).2 i1, fun o' r' h => ?_⟩
          have e' := i2 o' r' h
          show (_ ++ (Dialog.run ws (block i) (r ++ more)).fst, (Dialog.run ws (block i) (r ++ more)).snd) = _
          rw [e']
          rfl

/-- C99: if the defaults of the macros are among their answers, and the input can be read, the program never panics: it ends with a value, or it's still asking. -/
theorem C99_no_panic {d : Dialog α} (hg : GoodDefaults d) : ∀ (lines : List Line), Line.error ∉ lines →
    (d.run ws lines).2 = none ∨ ∃ v rest, (d.run ws lines).2 = some (.value v, rest) := by
  have sub : ∀ (q : Question) (lines rest : List Line) (k : Text), (Ask.ask ws q lines).2 = some (.answer k, rest) → Line.error ∉ lines → Line.error ∉ rest := by
    intro q lines rest k h he
    obtain ⟨typed, rfl, _⟩ := (ask_answered q lines rest _ k).1 ⟨rfl, h⟩
    exact fun h => he (List.mem_append_right _ h)
  have noerr : ∀ (q : Question) (lines rest : List Line), (Ask.ask ws q lines).2 = some (.error, rest) → Line.error ∈ lines := by
    intro q lines rest h
    have h : (askLoop ws q lines).2 = some (.error, rest) := h
    induction lines with
    | nil => simp [askLoop] at h
    | cons l lines ih =>
      cases l with
      | error => simp
      | line t =>
        simp only [askLoop] at h
        split at h
        · simp at h
        · split at h
          · simp at h
          · exact List.mem_cons_of_mem _ (ih h h)
  induction hg with
  | done v => intro lines _; exact .inr ⟨v, lines, rfl⟩
  | say t _ ih => intro lines he; exact ih lines he
  | ask q _ ih =>
    intro lines he
    simp only [Dialog.run]
    split
    · exact .inl rfl
    · rename_i h; exact absurd (noerr q lines _ h) he
    · rename_i k rest h
      exact ih k rest (sub q lines rest k h he)
  | @choose md answers default block hd _ ih =>
    intro lines he
    simp only [Dialog.run, not_exotic hd]
    split
    · rename_i h; simp at h
    split
    · exact .inl rfl
    · rename_i h; exact absurd (noerr _ lines _ h) he
    · rename_i k rest h
      obtain ⟨typed, _, h2⟩ := (ask_answered _ lines rest _ k).1 ⟨rfl, h⟩
      obtain ⟨i, hi⟩ := first_exists answers k (answered_key h2 hd)
      rw [matchKey_first answers k 0 i hi]
      exact ih _ rest (sub _ lines rest k h he)

/-- C99: when the input can't be read, the program ends at this point, if a question isn't answered: with the error for a call to `Question::ask`, with a panic for
the macro. It ends without value in no other case. -/
theorem C99_input_error {d : Dialog α} (hg : GoodDefaults d) : ∀ (lines rest : List Line) (seen : List Seen) (e : Ending α),
    (d.run ws lines = (seen, some (e, rest)) ∧ ∀ v, e ≠ .value v) ↔ ∃ typed : List Text, lines = typed.map .line ++ .error :: rest ∧ Cut ws d typed seen e := by
  induction hg with
  | done v =>
    intro lines rest seen e
    simp only [Dialog.run, Prod.mk.injEq, Option.some.injEq]
    constructor
    · rintro ⟨⟨_, rfl, _⟩, h⟩; exact absurd rfl (h v)
    · rintro ⟨_, _, h⟩; cases h
  | @say t d _ ih =>
    intro lines rest seen e
    simp only [Dialog.run, Prod.mk.injEq]
    constructor
    · rintro ⟨⟨rfl, h⟩, hv⟩
      obtain ⟨typed, h1, h2⟩ := (ih lines rest _ e).1 ⟨Prod.ext rfl h, hv⟩
      exact ⟨typed, h1, .say t h2⟩
    · rintro ⟨typed, h1, h⟩
      cases h with
      | say _ h2 =>
        obtain ⟨h3, h4⟩ := (ih lines rest _ e).2 ⟨typed, h1, h2⟩
        rw [h3]
        exact ⟨⟨rfl, rfl⟩, h4⟩
  | @ask q next _ ih =>
    intro lines rest seen e
    constructor
    · rintro ⟨h, hv⟩
      simp only [Dialog.run] at h
      split at h
      · simp at h
      · rename_i rest' ha
        simp only [Prod.mk.injEq, Option.some.injEq] at h
        obtain ⟨rfl, rfl, rfl⟩ := h
        obtain ⟨typed, h1, h2⟩ := (ask_unanswered q lines _ _).1 ⟨rfl, ha⟩
        exact ⟨typed, h1, .atAsk h2⟩
      · rename_i key rest' ha
        simp only [Prod.mk.injEq] at h
        obtain ⟨rfl, h⟩ := h
        obtain ⟨typed, h1, h2⟩ := (ask_answered q lines rest' _ key).1 ⟨rfl, ha⟩
        obtain ⟨more, h3, h4⟩ := (ih key rest' rest _ e).1 ⟨Prod.ext rfl h, hv⟩
        exact ⟨typed ++ more, by rw [h1, h3]; simp, .ask h2 h4⟩
    · rintro ⟨_, rfl, h⟩
      cases h with
      | atAsk h1 =>
        obtain ⟨a1, a2⟩ := (ask_unanswered q _ rest seen).2 ⟨_, rfl, h1⟩
        simp only [Dialog.run, a2, a1]
        exact ⟨by trivial, by simp⟩
      | @ask _ _ typed more seen after key _ h1 h2 =>
        obtain ⟨a1, a2⟩ := (ask_answered q _ (more.map .line ++ .error :: rest) seen key).2 ⟨typed, rfl, h1⟩
        obtain ⟨b1, b2⟩ := (ih key _ rest after e).2 ⟨more, rfl, h2⟩
        simp only [Dialog.run, List.map_append, List.append_assoc, a2, a1, b1]
        exact ⟨by trivial, b2⟩
  | @choose md answers default block hd _ ih =>
    intro lines rest seen e
    constructor
    · rintro ⟨h, hv⟩
      simp only [Dialog.run, not_exotic hd] at h
      split at h
      · rename_i hx; simp at hx
      split at h
      · simp at h
      · rename_i rest' ha
        simp only [Prod.mk.injEq, Option.some.injEq] at h
        obtain ⟨rfl, rfl, rfl⟩ := h
        obtain ⟨typed, h1, h2⟩ := (ask_unanswered _ lines _ _).1 ⟨rfl, ha⟩
        exact ⟨typed, h1, .atChoose h2⟩
      · rename_i key rest' ha
        obtain ⟨typed, h1, h2⟩ := (ask_answered _ lines rest' _ key).1 ⟨rfl, ha⟩
        obtain ⟨i, hi⟩ := first_exists answers key (answered_key h2 hd)
        rw [matchKey_first answers key 0 i hi] at h
        simp only [Nat.add_zero, Prod.mk.injEq] at h
        obtain ⟨rfl, h⟩ := h
        obtain ⟨more, h3, h4⟩ := (ih i rest' rest _ e).1 ⟨Prod.ext rfl h, hv⟩
        exact ⟨typed ++ more, by rw [h1, h3]; simp, .choose h2 hi h4⟩
    · rintro ⟨_, rfl, h⟩
      cases h with
      | atChoose h1 =>
        obtain ⟨a1, a2⟩ := (ask_unanswered _ _ rest seen).2 ⟨_, rfl, h1⟩
        simp only [Dialog.run, not_exotic hd, a2, a1]
        exact ⟨rfl, by simp⟩
      | @choose _ _ _ _ typed more seen after key i _ h1 hi h2 =>
        obtain ⟨a1, a2⟩ := (ask_answered _ _ (more.map .line ++ .error :: rest) seen key).2 ⟨typed, rfl, h1⟩
        obtain ⟨b1, b2⟩ := (ih i _ rest after e).2 ⟨more, rfl, h2⟩
        simp only [Dialog.run, not_exotic hd, List.map_append, List.append_assoc, a2, a1, matchKey_first answers key 0 i hi, Nat.add_zero, b1]
        exact ⟨rfl, b2⟩

/-- C99: there's only one conversation for what is typed: neither the lines read, nor what is seen, nor the value can differ. -/
theorem C99_one_talk (d : Dialog α) {typed typed' : List Text} {seen seen' : List Seen} {v v' : α} (h : Talk ws d typed seen v) (h' : Talk ws d typed' seen' v')
    (hp : typed <+: typed') : typed = typed' ∧ seen = seen' ∧ v = v' := by
  obtain ⟨more, rfl⟩ := hp
  have e1 := (C99_talk d ((typed ++ more).map .line) (more.map .line) seen v).2 ⟨typed, by simp, h⟩
  have e2 := (C99_talk d ((typed ++ more).map .line) [] seen' v').2 ⟨typed ++ more, by simp, h'⟩
  rw [e1] at e2
  simp only [Prod.mk.injEq, Option.some.injEq, Ending.value.injEq, List.map_eq_nil_iff] at e2
  obtain ⟨rfl, rfl, rfl⟩ := e2
  exact ⟨by simp, rfl, rfl⟩

/-- A default which isn't a key makes the program panic, even in the block of another question. -/
theorem C99_default_counterexample : ∃ (d : Dialog Nat) (typed : List Text), (d.run (fun c => c = '\n') (typed.map .line)).2 = some (.panic, []) :=
  ⟨.choose "?".toList [⟨"a".toList, "A".toList⟩] none fun _ => .choose "!".toList [⟨"b".toList, "B".toList⟩] (some "c".toList) fun _ => .done 1,
    ["a\n".toList], by decide +kernel⟩

/-- The last questions of examples/ask. -/
def beverage : Dialog String :=
  .choose "What do I serve you ?".toList [⟨"b".toList, "**B**eer".toList⟩, ⟨"w".toList, "**W**ine".toList⟩] none fun
    | 0 => .choose "Really ? We have wine and orange juice too".toList [⟨"oj".toList, "**o**range **j**uice".toList⟩, ⟨"w".toList, "ok for some wine".toList⟩,
        ⟨"b".toList, "I said **beer**".toList⟩, ⟨"2".toList, "Make it **2** beer glasses!".toList⟩] (some "2".toList) fun
      | 0 => .done "orange juice"
      | 1 => .done "wine"
      | 2 => .done "beer"
      | _ => .done "beer x 2"
    | _ => .say "An excellent choice!".toList (.done "wine")

example : GoodDefaults beverage := by
  refine .choose _ (by simp) fun i => ?_
  match i with
  | 0 => exact .choose _ (by simp) fun i => match i with
    | 0 => .done _
    | 1 => .done _
    | 2 => .done _
    | _ + 3 => .done _
  | _ + 1 => exact .say _ (.done _)

example : Way beverage ["b".toList, "oj".toList] "orange juice" :=
  .choose (i := 0) ⟨⟨_, rfl, rfl⟩, fun j _ h _ => absurd h (by omega)⟩ (.choose (i := 0) ⟨⟨_, rfl, rfl⟩, fun j _ h _ => absurd h (by omega)⟩ (.done _))

/-- A line which isn't understood, beer, then the default; the last line isn't read. -/
example : (beverage.run (fun c => c = '\n' ∨ c = ' ') [.line "beer\n".toList, .line "b\n".toList, .line "\n".toList, .line "w\n".toList]).2 =
    some (.value "beer x 2", [.line "w\n".toList]) := by decide +kernel

example : beverage.run (fun c => c = '\n' ∨ c = ' ') [.line "w\n".toList] =
    ([.shown (.text "What do I serve you ?".toList), .shown (.key false "b".toList), .shown (.text "**B**eer".toList), .shown (.key false "w".toList),
      .shown (.text "**W**ine".toList), .said "An excellent choice!".toList], some (.value "wine", [])) := by decide +kernel

/-- An input error after a line which isn't understood: the macro panics, where `Question::ask` returns the error. -/
example : (beverage.run (fun c => c = '\n' ∨ c = ' ') [.line "beer\n".toList, .error, .line "w\n".toList]).2 = some (.panic, [.line "w\n".toList]) ∧
    ((Dialog.ask { md := none, answers := [⟨"y".toList, []⟩], default := none } .done).run (fun c => c = '\n' ∨ c = ' ')
      [.line "n\n".toList, .error, .line "y\n".toList]).2 = some (.error, [.line "y\n".toList]) := by decide +kernel

end Verif.Props
