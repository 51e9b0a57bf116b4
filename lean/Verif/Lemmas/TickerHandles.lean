import Verif.Lemmas.Ticker
/-! The handles of the beams which aren't stopped. -/
namespace Verif.Ticks
variable {P : Type}

theorem swapRemove_nodup {l : List Nat} {idx id : Nat} (h : l[idx]? = some id) (hn : l.Nodup) :
    (swapRemove l idx).Nodup ∧ ∀ j ∈ swapRemove l idx, j ∈ l ∧ j ≠ id := by
  unfold swapRemove
  rcases List.eq_nil_or_concat l with rfl | ⟨l', x, rfl⟩
  · simp at h
  · simp only [List.concat_eq_append] at *
    rw [List.getLast?_concat]
    simp only [Option.getD_some]
    have hn' := List.nodup_append.1 hn
    have hx : x ∉ l' := fun hm => hn'.2.2 x hm x (by simp) rfl
    by_cases hlast : idx = l'.length
    · subst hlast
      rw [List.set_append_right _ _ (Nat.le_refl _)]
      simp only [Nat.sub_self, List.set_cons_zero]
      rw [List.dropLast_concat]
      rw [List.getElem?_append_right (Nat.le_refl _)] at h
      simp at h
      subst h
      exact ⟨hn'.1, fun j hj => ⟨by simp [hj], fun e => hx (e ▸ hj)⟩⟩
    · have hidx : idx < (l' ++ [x]).length := by
        rcases Nat.lt_or_ge idx (l' ++ [x]).length with h' | h'
        · exact h'
        · rw [List.getElem?_eq_none h'] at h; simp at h
      have hlt : idx < l'.length := by simp at hidx; omega
      rw [List.set_append_left _ _ hlt, List.dropLast_concat]
      rw [List.getElem?_append_left hlt, List.getElem?_eq_getElem hlt] at h
      cases h
      have hp := hn'.1
      unfold List.Nodup at hp
      rw [List.pairwise_iff_getElem] at hp
      constructor
      · unfold List.Nodup
        rw [List.pairwise_iff_getElem]
        intro i j hi hj hij
        simp only [List.length_set] at hi hj
        rw [List.getElem_set, List.getElem_set]
        have h1 := hp i j hi hj hij
        have h2 : x ≠ l'[j] := fun e => hx (e ▸ List.getElem_mem hj)
        have h3 : l'[i] ≠ x := fun e => hx (e ▸ List.getElem_mem hi)
        split <;> split <;> first | omega | assumption
      · intro j hj
        obtain ⟨n, hlen, rfl⟩ := List.mem_iff_getElem.1 hj
        simp only [List.length_set] at hlen
        rw [List.getElem_set]
        split
        · exact ⟨by simp, fun e => hx (e ▸ List.getElem_mem hlt)⟩
        · rename_i hne
          refine ⟨by simp, fun e => ?_⟩
          rcases Nat.lt_or_gt_of_ne hne with hh | hh
          · exact hp idx n hlt hlen hh e.symm
          · exact hp n idx hlen hlt hh e

/-- The handles are those of distinct beams, without message. -/
def HandlesOk (t : Ticker P) : Prop :=
  t.nextId = t.threads.length ∧ t.handles.Nodup ∧ ∀ i ∈ t.handles, ∃ b, t.threads[i]? = some b ∧ b.inbox = false

theorem handlesOk_set {t : Ticker P} (h : HandlesOk t) {j : Nat} {b b' : Beam P} (hj : t.threads[j]? = some b) (hb : b'.inbox = true → b.inbox = true)
    (ticks : List (Nat × P)) : HandlesOk { t with threads := t.threads.set j b', ticks := ticks } := by
  obtain ⟨h0, h1, h2⟩ := h
  refine ⟨by simpa using h0, h1, fun i hi => ?_⟩
  obtain ⟨c, hc, hin⟩ := h2 i hi
  simp only [List.getElem?_set]
  split
  · rename_i hij
    subst hij
    rw [hj] at hc
    cases hc
    have hlt : j < t.threads.length := by
      rcases Nat.lt_or_ge j t.threads.length with h | h
      · exact h
      · rw [List.getElem?_eq_none h] at hj; simp at hj
    rw [if_pos hlt]
    exact ⟨b', rfl, by cases h : b'.inbox with | false => rfl | true => rw [hb h] at hin; simp at hin⟩
  · exact ⟨c, hc, hin⟩

theorem exec_handles {acts : List (Act P)} {t : Ticker P} (h : Exec acts t) : HandlesOk t := by
  induction h with
  | init => exact ⟨rfl, by simp, by simp⟩
  | @step acts t t' a h he ih =>
    cases a with
    | start p n =>
      simp only [step] at he
      split at he
      · simp at he
      · cases he
        obtain ⟨h0, h1, h2⟩ := ih
        have hlt : ∀ i ∈ t.handles, i < t.threads.length := fun i hi => by
          obtain ⟨b, hb, _⟩ := h2 i hi
          rcases Nat.lt_or_ge i t.threads.length with h | h
          · exact h
          · rw [List.getElem?_eq_none h] at hb; simp at hb
        refine ⟨by simp [Ticker.start, h0], ?_, ?_⟩
        · simp only [Ticker.start]
          refine List.nodup_append.2 ⟨h1, by simp, ?_⟩
          intro a ha b hb
          simp only [List.mem_singleton] at hb
          have := hlt a ha
          omega
        · intro i hi
          simp only [Ticker.start, List.mem_append, List.mem_singleton] at hi ⊢
          rcases hi with hi | hi
          · rw [List.getElem?_append_left (hlt i hi)]
            exact h2 i hi
          · subst hi
            rw [h0, List.getElem?_append_right (Nat.le_refl _)]
            simp
    | stop id =>
      simp only [step] at he
      split at he
      · simp at he
      · cases he
        obtain ⟨h0, h1, h2⟩ := ih
        have hf := stop_frame t id
        refine ⟨by rw [hf.1, hf.2.1]; exact h0, ?_⟩
        unfold Ticker.stop
        split
        · rename_i idx hidx
          have hs := stop_handles hidx
          obtain ⟨s1, s2⟩ := swapRemove_nodup hs h1
          refine ⟨s1, fun i hi => ?_⟩
          obtain ⟨s3, s4⟩ := s2 i hi
          simp only
          rw [List.getD_eq_getElem?_getD, hs, Option.getD_some, interrupt_get, if_neg (Ne.symm s4)]
          exact h2 i s3
        · exact ⟨h1, h2⟩
    | stopAll =>
      simp only [step] at he
      split at he
      · simp at he
      · cases he
        exact ⟨by simp [Ticker.stopAll, interrupts_length, ih.1], by simp [Ticker.stopAll], by simp [Ticker.stopAll]⟩
    | drop =>
      simp only [step] at he
      split at he
      · simp at he
      · cases he
        exact ⟨by simp [Ticker.stopAll, interrupts_length, ih.1], by simp [Ticker.stopAll], by simp [Ticker.stopAll]⟩
    | check j =>
      simp only [step] at he
      split at he
      · rename_i b hb
        split at he
        · cases he
          refine handlesOk_set ih hb (b' := b.check) ?_ t.ticks
          unfold Beam.check
          split <;> exact id
        · simp at he
      · simp at he
    | timeout j =>
      simp only [step] at he
      split at he
      · rename_i b hb
        split at he
        · cases he
          exact handlesOk_set ih hb (b' := { b with phase := .send }) (fun h => h) t.ticks
        · simp at he
      · simp at he
    | stopped j =>
      simp only [step] at he
      split at he
      · rename_i b hb
        split at he
        · cases he
          exact handlesOk_set ih hb (fun h => by simp at h) t.ticks
        · simp at he
      · simp at he
    | send j =>
      simp only [step] at he
      split at he
      · rename_i b hb
        split at he
        · cases he
          exact handlesOk_set ih hb (b' := { b with phase := .check }) (fun h => h) _
        · simp at he
      · simp at he

end Verif.Ticks
