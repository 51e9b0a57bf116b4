import Verif.Spec.Ask
/-! C38: questions and the `ask!` macro. -/
namespace Verif.Props
open Verif.Ask

variable {ws : Char → Bool}

/-- The trimmed line. -/
theorem C38_trim : ∀ (t : Text), Trimmed ws t (trimEnd ws t)
  | [] => ⟨[], rfl, by simp, by simp [trimEnd]⟩
  | c :: t => by
    obtain ⟨v, h1, h2, h3⟩ := C38_trim t
    simp only [trimEnd]
    cases hu : trimEnd ws t with
    | nil =>
      rw [hu] at h1 h3
      by_cases hc : ws c = true
      · refine ⟨c :: v, by simp [hc, h1], ?_, by simp [hc]⟩
        intro x hx
        rcases List.mem_cons.1 hx with rfl | hx
        · exact hc
        · exact h2 x hx
      · exact ⟨v, by simp [hc, h1], h2, by simp [hc]⟩
    | cons d u =>
      rw [hu] at h1 h3
      refine ⟨v, by simp [h1], h2, ?_⟩
      simpa [List.getLast?_cons_cons] using h3

/-- It's the only one. -/
theorem C38_trim_unique {t u u' : Text} (h : Trimmed ws t u) (h' : Trimmed ws t u') : u = u' := by
  obtain ⟨v, h1, h2, h3⟩ := h
  obtain ⟨v', h1', h2', h3'⟩ := h'
  have key : ∀ {u v u' v' : Text}, u ++ v = u' ++ v' → (∀ c ∈ v, ws c = true) → (∀ c, u'.getLast? = some c → ws c = false) → u'.length ≤ u.length := by
    intro u v u' v' he hv hu'
    rcases Nat.lt_or_ge u.length u'.length with hlt | hge
    · exfalso
      rcases List.eq_nil_or_concat u' with rfl | ⟨w, c, rfl⟩
      · simp at hlt
      · rw [List.concat_eq_append] at *
        have hc := hu' c (by simp)
        have hw : u.length ≤ w.length := by simp at hlt; omega
        have hget : (u ++ v)[w.length]? = some c := by rw [he]; simp
        rw [List.getElem?_append_right hw] at hget
        have := hv c (List.mem_of_getElem? hget)
        rw [hc] at this
        simp at this
    · exact hge
  have l1 := key (h1.symm.trans h1') h2 h3'
  have l2 := key (h1'.symm.trans h1) h2' h3
  exact (List.append_inj (h1.symm.trans h1') (by omega)).1

theorem isKey_iff (l : List Answer) (t : Text) : isKey l t = true ↔ ∃ a ∈ l, a.key = t := by
  induction l with
  | nil => simp [isKey]
  | cons a l ih =>
    simp only [isKey]
    by_cases h : a.key = t <;> simp [h, ih]

/-- The question is answered by the first line which is acceptable, no line being read after it, and a message is written for every line before. -/
theorem C38_answer (q : Question) (lines rest : List Line) (k : Text) (msgs : List Text) :
    askLoop ws q lines = (msgs, some (.answer k, rest)) ↔
      ∃ (before : List Text) (t : Text), lines = before.map .line ++ .line t :: rest ∧ Accepts ws q t k ∧ (∀ b ∈ before, ∀ k', ¬ Accepts ws q b k') ∧ msgs = before.map (trimEnd ws) := by
  have hacc : ∀ t k, Accepts ws q t k ↔ ((trimEnd ws t = [] ∧ q.default = some k) ∨
      (¬ (trimEnd ws t = [] ∧ q.default.isSome) ∧ k = trimEnd ws t ∧ ∃ a ∈ q.answers, a.key = trimEnd ws t)) := by
    intro t k
    constructor
    · rintro ⟨u, hu, h⟩; rw [C38_trim_unique hu (C38_trim t)] at h; exact h
    · intro h; exact ⟨_, C38_trim t, h⟩
  induction lines generalizing msgs with
  | nil => simp [askLoop]
  | cons l lines ih =>
    cases l with
    | error =>
      simp only [askLoop, Prod.mk.injEq, Option.some.injEq, reduceCtorEq, false_and, and_false, false_iff]
      rintro ⟨before, t, h, _⟩
      cases before <;> simp at h
    | line t =>
      simp only [askLoop]
      have first : ∀ k0, Accepts ws q t k0 → ((([] : List Text), some (Outcome.answer k0, lines)) = (msgs, some (.answer k, rest)) ↔
          ∃ (before : List Text) (t' : Text), Line.line t :: lines = before.map .line ++ .line t' :: rest ∧ Accepts ws q t' k ∧
            (∀ b ∈ before, ∀ k', ¬ Accepts ws q b k') ∧ msgs = before.map (trimEnd ws)) := by
        intro k0 h0
        have hk : Accepts ws q t k → k = k0 := by
          intro h
          rw [hacc] at h h0
          rcases h with ⟨a, b⟩ | ⟨a, b, c⟩ <;> rcases h0 with ⟨a', b'⟩ | ⟨a', b', c'⟩
          · rw [b] at b'; exact Option.some.inj b'
          · exact absurd ⟨a, by simp [b]⟩ a'
          · exact absurd ⟨a', by simp [b']⟩ a
          · rw [b, b']
        constructor
        · intro h
          simp only [Prod.mk.injEq, Option.some.injEq, Outcome.answer.injEq] at h
          obtain ⟨rfl, rfl, rfl⟩ := h
          exact ⟨[], t, rfl, h0, by simp, rfl⟩
        · rintro ⟨before, t', h1, h2, h3, h4⟩
          cases before with
          | nil =>
            simp only [List.map_nil, List.nil_append, List.cons.injEq, Line.line.injEq] at h1
            obtain ⟨rfl, rfl⟩ := h1
            rw [h4, hk h2]
            rfl
          | cons b bs =>
            simp only [List.map_cons, List.cons_append, List.cons.injEq, Line.line.injEq] at h1
            obtain ⟨rfl, _⟩ := h1
            exact absurd h0 (h3 _ List.mem_cons_self k0)
      cases hd : (if trimEnd ws t = [] then q.default else none) with
      | some d =>
        simp only
        refine first d ((hacc t d).2 (.inl ?_))
        by_cases h : trimEnd ws t = []
        · rw [if_pos h] at hd; exact ⟨h, hd⟩
        · rw [if_neg h] at hd; simp at hd
      | none =>
        have hnd : ¬ (trimEnd ws t = [] ∧ q.default.isSome = true) := by
          rintro ⟨h1, h2⟩
          rw [if_pos h1] at hd
          rw [hd] at h2
          simp at h2
        by_cases hk : isKey q.answers (trimEnd ws t) = true
        · simp only [hk, if_true]
          exact first _ ((hacc t _).2 (.inr ⟨hnd, rfl, (isKey_iff _ _).1 hk⟩))
        · simp only [hk]
          have hno : ∀ k', ¬ Accepts ws q t k' := by
            intro k' h
            rw [hacc] at h
            rcases h with ⟨a, b⟩ | ⟨a, b, c⟩
            · exact hnd ⟨a, by simp [b]⟩
            · exact hk ((isKey_iff _ _).2 c)
          constructor
          · intro h
            simp only [Bool.false_eq_true, if_false, Prod.mk.injEq] at h
            obtain ⟨h1, h2⟩ := h
            obtain ⟨before, t', g1, g2, g3, g4⟩ := (ih (askLoop ws q lines).1).1 (Prod.ext rfl h2)
            refine ⟨t :: before, t', by simp [g1], g2, ?_, by simp [← h1, g4]⟩
            intro b hb
            rcases List.mem_cons.1 hb with rfl | hb
            · exact hno
            · exact g3 b hb
          · rintro ⟨before, t', h1, h2, h3, h4⟩
            cases before with
            | nil =>
              simp only [List.map_nil, List.nil_append, List.cons.injEq, Line.line.injEq] at h1
              obtain ⟨rfl, rfl⟩ := h1
              exact absurd h2 (hno k)
            | cons b bs =>
              simp only [List.map_cons, List.cons_append, List.cons.injEq, Line.line.injEq] at h1
              obtain ⟨rfl, h1⟩ := h1
              have := (ih (bs.map (trimEnd ws))).2 ⟨bs, t', h1, h2, fun x hx => h3 x (List.mem_cons_of_mem _ hx), rfl⟩
              simp [this, h4]

/-- So the answer is a key of the question, or the default one for a blank line. -/
theorem C38_valid (q : Question) (lines rest : List Line) (k : Text) (msgs : List Text) (h : askLoop ws q lines = (msgs, some (.answer k, rest))) :
    (∃ a ∈ q.answers, a.key = k) ∨ (q.default = some k ∧ ∃ t, Line.line t ∈ lines ∧ ∀ c ∈ t, ws c = true) := by
  obtain ⟨before, t, h1, ⟨u, ⟨v, hv, hw, _⟩, hu⟩, _⟩ := (C38_answer q lines rest k msgs).1 h
  rcases hu with ⟨rfl, hd⟩ | ⟨_, rfl, ha⟩
  · refine .inr ⟨hd, t, by rw [h1]; simp, ?_⟩
    rw [hv]; simpa using hw
  · exact .inl ha

/-- It's still asking exactly when no line is acceptable, and none is an input error. -/
theorem C38_still_asking (q : Question) (lines : List Line) :
    (askLoop ws q lines).2 = none ↔ ∀ l ∈ lines, ∃ t, l = .line t ∧ ∀ k, ¬ Accepts ws q t k := by
  induction lines with
  | nil => simp [askLoop]
  | cons l lines ih =>
    cases l with
    | error =>
      simp only [askLoop, reduceCtorEq, false_iff]
      intro h
      obtain ⟨t, h1, _⟩ := h .error List.mem_cons_self
      simp at h1
    | line t =>
      have hA : (∃ k, Accepts ws q t k) → (askLoop ws q (.line t :: lines)).2 ≠ none := by
        rintro ⟨k, hk⟩
        have := (C38_answer (ws := ws) q (.line t :: lines) lines k []).2 ⟨[], t, rfl, hk, by simp, rfl⟩
        rw [this]; simp
      by_cases hk : ∃ k, Accepts ws q t k
      · refine ⟨fun h => absurd h (hA hk), fun h => ?_⟩
        obtain ⟨t', h1, h2⟩ := h (.line t) List.mem_cons_self
        cases h1
        obtain ⟨k, hk⟩ := hk
        exact absurd hk (h2 k)
      · have hno : ∀ k, ¬ Accepts ws q t k := fun k h => hk ⟨k, h⟩
        have hstep : (askLoop ws q (.line t :: lines)).2 = (askLoop ws q lines).2 := by
          simp only [askLoop]
          cases hd : (if trimEnd ws t = [] then q.default else none) with
          | some d =>
            exfalso
            by_cases h : trimEnd ws t = []
            · rw [if_pos h] at hd; exact hno d ⟨_, C38_trim t, .inl ⟨h, hd⟩⟩
            · rw [if_neg h] at hd; simp at hd
          | none =>
            have hnd : ¬ (trimEnd ws t = [] ∧ q.default.isSome = true) := by
              rintro ⟨h1, h2⟩
              rw [if_pos h1] at hd
              rw [hd] at h2
              simp at h2
            have : isKey q.answers (trimEnd ws t) = false := by
              cases hi : isKey q.answers (trimEnd ws t) with
              | false => rfl
              | true => exact absurd ⟨_, C38_trim t, .inr ⟨hnd, rfl, (isKey_iff _ _).1 hi⟩⟩ (hno _)
            simp [this]
        rw [hstep, ih]
        constructor
        · intro h l hl
          rcases List.mem_cons.1 hl with rfl | hl
          · exact ⟨t, rfl, hno⟩
          · exact h l hl
        · intro h l hl; exact h l (List.mem_cons_of_mem _ hl)

/-- The call fails exactly when an input error comes while no line is acceptable, a message being written for each of them. -/
theorem C38_error (q : Question) (lines rest : List Line) (msgs : List Text) :
    askLoop ws q lines = (msgs, some (.error, rest)) ↔
      ∃ before : List Text, lines = before.map .line ++ .error :: rest ∧ (∀ b ∈ before, ∀ k, ¬ Accepts ws q b k) ∧ msgs = before.map (trimEnd ws) := by
  induction lines generalizing msgs with
  | nil => simp [askLoop]
  | cons l lines ih =>
    cases l with
    | error =>
      simp only [askLoop, Prod.mk.injEq, Option.some.injEq, true_and]
      constructor
      · rintro ⟨rfl, rfl⟩; exact ⟨[], rfl, by simp, rfl⟩
      · rintro ⟨before, h1, _, h3⟩
        cases before with
        | nil =>
          simp only [List.map_nil, List.nil_append, List.cons.injEq, true_and] at h1
          exact ⟨by rw [h3]; rfl, h1⟩
        | cons b bs => simp at h1
    | line t =>
      by_cases hk : ∃ k, Accepts ws q t k
      · obtain ⟨k, hk⟩ := hk
        rw [(C38_answer (ws := ws) q (.line t :: lines) lines k []).2 ⟨[], t, rfl, hk, by simp, rfl⟩]
        simp only [Prod.mk.injEq, Option.some.injEq, reduceCtorEq, false_and, and_false, false_iff]
        rintro ⟨before, h1, h2, _⟩
        cases before with
        | nil => simp at h1
        | cons b bs =>
          simp only [List.map_cons, List.cons_append, List.cons.injEq, Line.line.injEq] at h1
          exact h2 b List.mem_cons_self k (by rw [← h1.1]; exact hk)
      · have hno : ∀ k, ¬ Accepts ws q t k := fun k h => hk ⟨k, h⟩
        have hstep : askLoop ws q (.line t :: lines) = (trimEnd ws t :: (askLoop ws q lines).1, (askLoop ws q lines).2) := by
          simp only [askLoop]
          cases hd : (if trimEnd ws t = [] then q.default else none) with
          | some d =>
            exfalso
            by_cases h : trimEnd ws t = []
            · rw [if_pos h] at hd; exact hno d ⟨_, C38_trim t, .inl ⟨h, hd⟩⟩
            · rw [if_neg h] at hd; simp at hd
          | none =>
            have hnd : ¬ (trimEnd ws t = [] ∧ q.default.isSome = true) := by
              rintro ⟨h1, h2⟩
              rw [if_pos h1] at hd
              rw [hd] at h2
              simp at h2
            have : isKey q.answers (trimEnd ws t) = false := by
              cases hi : isKey q.answers (trimEnd ws t) with
              | false => rfl
              | true => exact absurd ⟨_, C38_trim t, .inr ⟨hnd, rfl, (isKey_iff _ _).1 hi⟩⟩ (hno _)
            simp [this]
        rw [hstep]
        constructor
        · intro h
          simp only [Prod.mk.injEq] at h
          obtain ⟨before, g1, g2, g3⟩ := (ih (askLoop ws q lines).1).1 (Prod.ext rfl h.2)
          refine ⟨t :: before, by simp [g1], ?_, by simp [← h.1, g3]⟩
          intro b hb
          rcases List.mem_cons.1 hb with rfl | hb
          · exact hno
          · exact g2 b hb
        · rintro ⟨before, h1, h2, h3⟩
          cases before with
          | nil => simp at h1
          | cons b bs =>
            simp only [List.map_cons, List.cons_append, List.cons.injEq, Line.line.injEq] at h1
            obtain ⟨rfl, h1⟩ := h1
            rw [(ih (bs.map (trimEnd ws))).2 ⟨bs, h1, fun x hx => h2 x (List.mem_cons_of_mem _ hx), rfl⟩, h3]
            rfl

/-- At the end of the input, without default (and without blank key), it asks again and again. -/
theorem C38_end_of_input_counterexample (q : Question) (h : q.default = none) (hk : ∀ a ∈ q.answers, a.key ≠ []) (n : Nat) :
    (askLoop ws q (List.replicate n (.line []))).2 = none := by
  rw [C38_still_asking]
  intro l hl
  refine ⟨[], List.eq_of_mem_replicate hl, ?_⟩
  rintro k ⟨u, ⟨v, hv, _⟩, hu⟩
  have : u = [] := (List.append_eq_nil_iff.1 hv.symm).1
  subst this
  rcases hu with ⟨_, hd⟩ | ⟨_, _, a, ha, hak⟩
  · rw [h] at hd; simp at hd
  · exact hk a ha hak

/-- A key which ends with a whitespace can't be chosen. -/
theorem C38_blank_key_counterexample (q : Question) (hd : q.default = none) (lines rest : List Line) (k : Text) (c : Char) (hc : ws c = true) (msgs : List Text) :
    askLoop ws q lines ≠ (msgs, some (.answer (k ++ [c]), rest)) := by
  intro h
  obtain ⟨before, t, _, ⟨u, ⟨v, _, _, hu⟩, hu'⟩, _⟩ := (C38_answer q lines rest _ msgs).1 h
  rcases hu' with ⟨_, hd'⟩ | ⟨_, rfl, _⟩
  · rw [hd] at hd'; simp at hd'
  · have := hu c (by simp)
    rw [hc] at this
    simp at this

/-- The default is exotic when it isn't the key of an answer. -/
theorem C38_exotic (q : Question) : q.hasExoticDefault = true ↔ ∃ d, q.default = some d ∧ ∀ a ∈ q.answers, a.key ≠ d := by
  unfold Question.hasExoticDefault
  cases q.default with
  | none => simp
  | some d =>
    simp only [Option.some.injEq, exists_eq_left']
    have : ∀ l : List Answer, Question.hasExoticDefault.go d l = true ↔ ∀ a ∈ l, a.key ≠ d := by
      intro l
      induction l with
      | nil => simp [Question.hasExoticDefault.go]
      | cons a l ih =>
        simp only [Question.hasExoticDefault.go]
        by_cases h : a.key = d <;> simp [h, ih]
    exact this q.answers

theorem matchKey_block : ∀ (l : List Answer) (k : Text) (j : Nat), (∃ a ∈ l, a.key = k) →
    ∃ i, matchKey l k j = .block (j + i) ∧ l[i]?.map (·.key) = some k ∧ ∀ i' < i, l[i']?.map (·.key) ≠ some k
  | [], k, j, h => by simp at h
  | a :: l, k, j, h => by
    by_cases ha : a.key = k
    · exact ⟨0, by simp [matchKey, ha], by simp [ha], by simp⟩
    · have : ∃ a ∈ l, a.key = k := by
        obtain ⟨b, hb, hbk⟩ := h
        rcases List.mem_cons.1 hb with rfl | hb
        · exact absurd hbk ha
        · exact ⟨b, hb, hbk⟩
      obtain ⟨i, h1, h2, h3⟩ := matchKey_block l k (j + 1) this
      refine ⟨i + 1, by simp only [matchKey, ha, if_false, h1]; congr 1; omega, by simpa using h2, ?_⟩
      intro i' hi'
      cases i' with
      | zero => simpa using ha
      | succ i' => simpa using h3 i' (by omega)

/-- The macro runs the block of the first answer whose key is the one returned; its unreachable code isn't reached: it panics only on an input error
or if the default isn't a key. -/
theorem C38_macro (md : Text) (answers : List Answer) (default : Option Text) (lines : List Line) (hd : ∀ d, default = some d → ∃ a ∈ answers, a.key = d)
    (he : Line.error ∉ lines) :
    (askMacro ws md answers default lines = none ∧ (askLoop ws { md := some md, answers, default } lines).2 = none) ∨
    ∃ k rest i, (askLoop ws { md := some md, answers, default } lines).2 = some (.answer k, rest) ∧
      askMacro ws md answers default lines = some (.block i) ∧ answers[i]?.map (·.key) = some k ∧ ∀ j < i, answers[j]?.map (·.key) ≠ some k := by
  have hex : ({ md := some md, answers, default } : Question).hasExoticDefault = false := by
    cases h : ({ md := some md, answers, default } : Question).hasExoticDefault with
    | false => rfl
    | true =>
      obtain ⟨d, h1, h2⟩ := (C38_exotic _).1 h
      obtain ⟨a, ha, hak⟩ := hd d h1
      exact absurd hak (h2 a ha)
  unfold askMacro
  simp only [hex]
  generalize hq : ({ md := some md, answers, default } : Question) = q
  have hqa : q.answers = answers := by rw [← hq]
  have hqd : q.default = default := by rw [← hq]
  cases ho : (askLoop ws q lines).2 with
  | none => exact .inl ⟨rfl, rfl⟩
  | some r =>
    obtain ⟨out, rest⟩ := r
    cases out with
    | error =>
      exfalso
      clear hex hd
      induction lines with
      | nil => simp [askLoop] at ho
      | cons l lines ih =>
        cases l with
        | error => simp at he
        | line t =>
          simp only [askLoop] at ho
          split at ho
          · simp at ho
          · split at ho
            · simp at ho
            · exact ih (fun h => he (List.mem_cons_of_mem _ h)) ho
    | answer k =>
      right
      have hmem : ∃ a ∈ answers, a.key = k := by
        rcases C38_valid q lines rest k _ (Prod.ext rfl ho) with h | ⟨h, _⟩
        · rw [hqa] at h; exact h
        · rw [hqd] at h; exact hd k h
      obtain ⟨i, h1, h2, h3⟩ := matchKey_block answers k 0 hmem
      exact ⟨k, rest, i, rfl, by simp [h1], h2, h3⟩

/-- A question on wine: an unknown answer, then a blank line, which gives the default. -/
def wine : Question := ((Question.new "?".toList).addAnswer "y".toList "yes".toList).addAnswer "n".toList "no".toList |>.setDefault "n".toList

example : askLoop (fun c => c = '\n' ∨ c = ' ') wine [.line "maybe \n".toList, .line " \n".toList, .line "y\n".toList] =
    (["maybe".toList], some (.answer "n".toList, [.line "y\n".toList])) := by decide

example : askMacro (fun c => c = '\n' ∨ c = ' ') "?".toList wine.answers wine.default [.line "y\n".toList] = some (.block 0) := by decide

/-- A default which isn't a key makes the macro panic. -/
theorem C38_macro_counterexample : askMacro (fun c => c = '\n') "?".toList wine.answers (some "maybe".toList) [] = some .panic := by decide

end Verif.Props
