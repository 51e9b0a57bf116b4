import Verif.Model.RawMode
/-! C68: the mode of the terminal. -/
namespace Verif.Props
open Verif.RawMode

/-- C68: when a source is created the terminal is in raw mode, there's one more source, and it combines keys exactly if it was asked for and
the terminal can do it. Other sources are the same. -/
theorem C68_created (w w' : World) (combineKeys : Bool) (c : Calls) (h : w.create combineKeys c = (w', true)) :
    w'.raw = true ∧ w'.sources.length = w.sources.length + 1 ∧
    w'.combines w.sources.length = some (combineKeys && c.combining = some true) ∧
    ∀ i < w.sources.length, w'.combines i = w.combines i := by
  have key : ∀ b : Bool, w' = ⟨true, w.sources ++ [b]⟩ → b = (combineKeys && c.combining = some true) → w'.raw = true ∧ w'.sources.length = w.sources.length + 1 ∧
      w'.combines w.sources.length = some (combineKeys && c.combining = some true) ∧ ∀ i < w.sources.length, w'.combines i = w.combines i := by
    rintro b rfl rfl
    refine ⟨rfl, by simp, by simp [World.combines], ?_⟩
    intro i hi
    simp only [World.combines]
    rw [List.getElem?_append_left hi]
  unfold World.create at h
  cases hr : c.rawOk with
  | false => simp [hr] at h
  | true =>
    cases combineKeys with
    | false =>
      simp only [hr, if_true, Bool.false_eq_true, if_false, Prod.mk.injEq, and_true] at h
      exact key false h.symm (by simp)
    | true =>
      cases hc : c.combining with
      | none => simp [hr, hc] at h
      | some b =>
        simp only [hr, hc, if_true, Prod.mk.injEq, and_true] at h
        have := key b h.symm (by cases b <;> simp [hc])
        rwa [hc] at this

/-- C68: a creation which fails because raw mode can't be enabled changes nothing. -/
theorem C68_not_created (w : World) (combineKeys : Bool) (c : Calls) (h : c.rawOk = false) : w.create combineKeys c = (w, false) := by
  simp [World.create, h]

/-- C68: once a source is dropped, the terminal isn't in raw mode. -/
theorem C68_dropped (w w' : World) (i : Nat) (ok : Bool) (h : w.drop i ok = some w') :
    w'.raw = false ∧ w'.sources.length + 1 = w.sources.length := by
  unfold World.drop at h
  split at h
  · rename_i hi
    split at h
    · cases h; exact ⟨rfl, by simp only [List.length_eraseIdx, hi, if_true]; omega⟩
    · simp at h
  · simp at h

/-- The actions of a program which has at most a source at a time, given the number of sources it has, and which meets no error when keys are
combined. -/
def _root_.Verif.Spec.OneSource : Nat → List Act → Prop
  | _, [] => True
  | n, .create combineKeys c :: acts => n = 0 ∧ (c.rawOk = true → combineKeys = true → c.combining ≠ none) ∧ Spec.OneSource (if c.rawOk then 1 else 0) acts
  | n, .drop _ _ :: acts => Spec.OneSource (n - 1) acts

private theorem one_source : ∀ (acts : List Act) (w w' : World), w.run acts = some w' → ∀ n, w.sources.length = n → n ≤ 1 → w.raw = decide (0 < n) →
    Spec.OneSource n acts → w'.raw = decide (0 < w'.sources.length) ∧ w'.sources.length ≤ 1 := by
  intro acts
  induction acts with
  | nil =>
    intro w w' h n hn h1 hr _
    cases h
    rw [hn]; exact ⟨hr, h1⟩
  | cons a acts ih =>
    intro w w' h n hn h1 hr ho
    simp only [World.run] at h
    split at h
    · rename_i v hv
      cases a with
      | create combineKeys c =>
        obtain ⟨h0, hc, ho⟩ := ho
        subst h0
        simp only [World.step, Option.some.injEq] at hv
        cases hraw : c.rawOk with
        | false =>
          rw [C68_not_created w combineKeys c hraw] at hv
          subst hv
          exact ih _ _ h 0 hn (by omega) hr (by simpa [hraw] using ho)
        | true =>
          have hok : (w.create combineKeys c).2 = true := by
            unfold World.create
            cases combineKeys with
            | false => simp [hraw]
            | true =>
              cases hcc : c.combining with
              | none => exact absurd hcc (hc hraw rfl)
              | some b => simp [hraw]
          obtain ⟨e1, e2, _⟩ := C68_created w v combineKeys c (by rw [← hv, ← hok])
          refine ih v _ h 1 (by omega) (by omega) (by simpa using e1) (by simpa [hraw] using ho)
      | drop i ok =>
        obtain ⟨e1, e2⟩ := C68_dropped w v i ok hv
        have : n = 1 := by omega
        subst this
        exact ih v _ h 0 (by omega) (by omega) (by simpa using e1) ho
    · simp at h

/-- C68: in a program which creates a source only when it has none, the terminal is in raw mode exactly when there's a source, and the mode is thus restored
when the source is dropped, whatever the number of sources created one after the other and of creations which failed because raw mode
couldn't be enabled. -/
theorem C68_restored (acts : List Act) (w : World) (h : World.run {} acts = some w) (ho : Spec.OneSource 0 acts) :
    w.raw = true ↔ w.sources ≠ [] := by
  obtain ⟨h1, h2⟩ := one_source acts {} w h 0 rfl (by omega) rfl ho
  rw [h1]
  cases w.sources <;> simp

/-- C68: such a program. -/
example : World.run {} [.create true ⟨true, some false⟩, .drop 0 true, .create true ⟨false, none⟩, .create false ⟨true, none⟩] =
      some { raw := true, sources := [false] } ∧
    Spec.OneSource 0 [.create true ⟨true, some false⟩, .drop 0 true, .create true ⟨false, none⟩, .create false ⟨true, none⟩] :=
  ⟨by decide, by simp [Spec.OneSource]⟩

/-- C68: when the combination of keys meets an error, no source is returned, and the terminal is left in raw mode. -/
theorem C68_error_counterexample : (World.create {} true ⟨true, none⟩) = ({ raw := true, sources := [] }, false) := by decide

/-- C68: when one of two sources is dropped, the terminal isn't in raw mode anymore though there's another source. -/
theorem C68_two_counterexample : World.run {} [.create false ⟨true, none⟩, .create false ⟨true, none⟩, .drop 1 true] =
    some { raw := false, sources := [false] } := by decide

end Verif.Props
