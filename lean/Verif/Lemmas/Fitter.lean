import Verif.Model.Fitter
import Verif.Spec.Fitter
import Verif.Lemmas.Bytes
import Verif.Lemmas.Wrap
/-! Lemmas on the fitting of composites. -/
namespace Verif

/-! ### `Elided` -/

theorem Elided.refl : ∀ s, Elided s s
  | [] => .nil
  | _ :: s => .keep (Elided.refl s)

theorem Elided.append {a b c d : List (Char × Flags)} (h : Elided a b) (h' : Elided c d) : Elided (a ++ c) (b ++ d) := by
  induction h with
  | nil => exact h'
  | keep _ ih => exact .keep ih
  | @cut r s t hr _ ih => rw [List.append_assoc]; exact .cut hr ih

theorem Elided.one {r : List (Char × Flags)} (h : r ≠ []) : Elided r [dots] := by
  have := Elided.cut (s := []) (t := []) h .nil
  simpa using this

theorem Elided.split {s t : List (Char × Flags)} (h : Elided s t) : ∀ r t', t = r ++ t' →
    ∃ s1 s2, s = s1 ++ s2 ∧ Elided s1 r ∧ Elided s2 t' := by
  induction h with
  | nil =>
    intro r t' he
    have := List.append_eq_nil_iff.1 he.symm
    rw [this.1, this.2]
    exact ⟨[], [], rfl, .nil, .nil⟩
  | @keep x s t h ih =>
    intro r t' he
    cases r with
    | nil => simp only [List.nil_append] at he; subst he; exact ⟨[], x :: s, rfl, .nil, .keep h⟩
    | cons y r =>
      simp only [List.cons_append, List.cons.injEq] at he
      obtain ⟨rfl, he⟩ := he
      obtain ⟨s1, s2, rfl, h1, h2⟩ := ih r t' he
      exact ⟨x :: s1, s2, rfl, .keep h1, h2⟩
  | @cut q s t hq h ih =>
    intro r t' he
    cases r with
    | nil => simp only [List.nil_append] at he; subst he; exact ⟨[], q ++ s, rfl, .nil, .cut hq h⟩
    | cons y r =>
      simp only [List.cons_append, List.cons.injEq] at he
      obtain ⟨rfl, he⟩ := he
      obtain ⟨s1, s2, rfl, h1, h2⟩ := ih r t' he
      exact ⟨q ++ s1, s2, by simp, .cut hq h1, h2⟩

theorem Elided.ne_nil {s t : List (Char × Flags)} (h : Elided s t) (ht : t ≠ []) : s ≠ [] := by
  cases h with
  | nil => exact absurd rfl ht
  | keep _ => simp
  | cut hr _ => intro h; exact hr (List.append_eq_nil_iff.1 h).1

theorem Elided.trans {s t u : List (Char × Flags)} (h : Elided s t) (h' : Elided t u) : Elided s u := by
  induction h' generalizing s with
  | nil => exact h
  | @keep x t' u' h2 ih =>
    obtain ⟨s1, s2, rfl, h3, h4⟩ := h.split [x] t' rfl
    cases h3 with
    | keep h5 =>
      cases h5
      exact .keep (ih h4)
    | cut hr h5 =>
      cases h5
      rw [List.append_nil]
      exact .cut hr (ih h4)
  | @cut r t' u' hr h2 ih =>
    obtain ⟨s1, s2, rfl, h3, h4⟩ := h.split r t' rfl
    exact .cut (h3.ne_nil hr) (ih h4)

/-! ### Positions of characters -/

theorem Elided.mem {s t : List (Char × Flags)} (h : Elided s t) : ∀ x ∈ t, x ∈ s ∨ x = dots := by
  induction h with
  | nil => intro x hx; exact .inl hx
  | keep _ ih =>
    intro x hx
    rcases List.mem_cons.1 hx with rfl | hx
    · exact .inl (by simp)
    · rcases ih x hx with h | h
      · exact .inl (by simp [h])
      · exact .inr h
  | cut _ _ ih =>
    intro x hx
    rcases List.mem_cons.1 hx with rfl | hx
    · exact .inr rfl
    · rcases ih x hx with h | h
      · exact .inl (by simp [h])
      · exact .inr h

theorem charInfosFrom_length (cw : Char → Nat) : ∀ (t : Text) (i : Nat), (charInfosFrom cw i t).length = t.length := by
  intro t
  induction t with
  | nil => intro i; rfl
  | cons c t ih => intro i; simp [charInfosFrom, ih]

theorem charInfos_length (cw : Char → Nat) (t : Text) : (charInfos cw t).length = t.length := charInfosFrom_length _ _ _

theorem charInfosFrom_get (cw : Char → Nat) : ∀ (t : Text) (idx i : Nat) (h : i < t.length),
    (charInfosFrom cw idx t)[i]? = some ⟨idx + byteLen (t.take i), cw t[i]⟩ := by
  intro t
  induction t with
  | nil => intro idx i h; simp at h
  | cons c t ih =>
    intro idx i h
    cases i with
    | zero => simp [charInfosFrom, byteLen]
    | succ i =>
      simp only [List.length_cons] at h
      simp only [charInfosFrom, List.getElem?_cons_succ, ih _ i (by omega), List.take_succ_cons, byteLen,
        List.getElem_cons_succ, Option.some.injEq, CharInfo.mk.injEq, and_true]
      omega

theorem charInfos_get (cw : Char → Nat) (t : Text) (i : Nat) (h : i < t.length) :
    (charInfos cw t)[i]? = some ⟨byteLen (t.take i), cw t[i]⟩ := by
  rw [charInfos, charInfosFrom_get cw t 0 i h]; simp

/-- Characters from index `i` to index `j` (excluded). -/
def seg (t : Text) (i j : Nat) : Text := (t.take j).drop i

theorem take_seg (t : Text) (i j : Nat) (h : i ≤ j) : t.take j = t.take i ++ seg t i j := by
  have := (List.take_append_drop i (t.take j)).symm
  rw [List.take_take, Nat.min_eq_left h] at this
  exact this

theorem seg_split (t : Text) (i j : Nat) (h : i ≤ j) : t = t.take i ++ seg t i j ++ t.drop j := by
  rw [← take_seg t i j h, List.take_append_drop]

theorem interior_eq (t : Text) : interior t = seg t 1 (t.length - 1) := by
  cases t with
  | nil => rfl
  | cons c t =>
    cases t with
    | nil => rfl
    | cons d t => simp [interior, seg, List.dropLast_eq_take]

/-! ### Cutting a zone -/

/-- A zone which is the part `t` of a compound. -/
structure ZoneAt (cw : Char → Nat) (cs : List Compound) (z : Zone) (pre post : List Compound) (c : Compound)
    (a t b : Text) : Prop where
  place : cs = pre ++ c :: post
  idx : z.compoundIdx = pre.length
  text : c.src = a ++ t ++ b
  start : z.byteStart = byteLen a
  infos : z.infos = charInfos cw t
  removable : 2 ≤ z.removableWidth
  len : 2 ≤ t.length
  inside : 1 ≤ textWidth cw (interior t)

variable {cw : Char → Nat} {ws : Char → Bool}

theorem removedWidth_ok {s a t b : Text} {z : Zone} (hs : s = a ++ t ++ b) (h1 : z.byteStart = byteLen a)
    (h2 : z.infos = charInfos cw t) (i j : Nat) (hij : i ≤ j) (hj : j < t.length) :
    removedWidth cw s z i j = some (textWidth cw (seg t i j)) := by
  have e : s = (a ++ t.take i) ++ seg t i j ++ (t.drop j ++ b) := by
    rw [hs]
    conv => lhs; rw [seg_split t i j hij]
    simp
  have e1 : byteLen a + byteLen (t.take i) = byteLen (a ++ t.take i) := by simp
  have e2 : byteLen a + byteLen (t.take j) = byteLen (a ++ t.take i) + byteLen (seg t i j) := by
    rw [take_seg t i j hij]; simp; omega
  simp only [removedWidth, h2, charInfos_get cw t i (by omega), charInfos_get cw t j hj, Option.bind_eq_bind,
    Option.bind_some, h1, e1, e2]
  rw [e, sliceBytes_mid]
  rfl

theorem seg_right (t : Text) (i j : Nat) (hij : i ≤ j) (hj : j < t.length) :
    textWidth cw (seg t i (j + 1)) = textWidth cw (seg t i j) + cw t[j] := by
  unfold seg
  rw [List.take_succ_eq_append_getElem hj, List.drop_append_of_le_length (by rw [List.length_take]; omega), textWidth_append]
  simp [textWidth]

theorem seg_left (t : Text) (i j : Nat) (hi : 1 ≤ i) (hij : i ≤ j) (hj : j < t.length) :
    textWidth cw (seg t (i - 1) j) = cw t[i - 1] + textWidth cw (seg t i j) := by
  unfold seg
  rw [List.drop_eq_getElem_cons (i := i - 1) (by rw [List.length_take]; omega), List.getElem_take, show i - 1 + 1 = i by omega]
  simp [textWidth]

theorem cutLoop_ok {s a t b : Text} {z : Zone} (hs : s = a ++ t ++ b) (h1 : z.byteStart = byteLen a)
    (h2 : z.infos = charInfos cw t) (n : Nat) : ∀ fuel i j r, 1 ≤ i → i ≤ t.length / 2 → t.length / 2 ≤ j → j + 1 ≤ t.length →
    (j + i = 2 * (t.length / 2) ∨ j + i = 2 * (t.length / 2) + 1) → r = textWidth cw (seg t i j) →
    t.length < fuel + (j - i) → r < n →
    ∃ i' j' r', cutLoop cw s z n fuel i j r = some (i', j', r') ∧ 1 ≤ i' ∧ i' ≤ j' ∧ j' + 1 ≤ t.length ∧
      r' = textWidth cw (seg t i' j') ∧ (n ≤ r' ∨ i' = 1 ∧ j' = t.length - 1) ∧
      (j' + i' = 2 * (t.length / 2) ∨ j' + i' = 2 * (t.length / 2) + 1) ∧
      ∀ k, (∀ c ∈ t, cw c ≤ k) → r' < n + k := by
  have hl : z.infos.length = t.length := by rw [h2, charInfos_length]
  intro fuel
  induction fuel with
  | zero => intro i j r hi him hmj hj hp hr hf hn; omega
  | succ fuel ih =>
    intro i j r hi him hmj hj hp hr hf hn
    simp only [cutLoop, hl]
    by_cases hpar : (j - i) % 2 = 0
    · rw [if_pos hpar]
      by_cases hend : j + 1 ≥ t.length
      · rw [if_pos hend]
        exact ⟨i, j, r, rfl, hi, by omega, hj, hr, .inr (by omega), hp, fun k _ => by omega⟩
      · rw [if_neg hend, removedWidth_ok hs h1 h2 i (j + 1) (by omega) (by omega)]
        simp only [Option.bind_eq_bind, Option.bind_some]
        split
        · rename_i hge
          refine ⟨i, j + 1, _, rfl, hi, by omega, by omega, rfl, .inl hge, by omega, fun k hk => ?_⟩
          rw [seg_right t i j (by omega) (by omega), ← hr]
          have := hk t[j] (List.getElem_mem _)
          omega
        · exact ih i (j + 1) _ hi him (by omega) (by omega) (by omega) rfl (by omega) (by omega)
    · rw [if_neg hpar]
      by_cases hend : i ≤ 1
      · rw [if_pos hend]
        exact ⟨i, j, r, rfl, hi, by omega, hj, hr, .inr (by omega), hp, fun k _ => by omega⟩
      · rw [if_neg hend, removedWidth_ok hs h1 h2 (i - 1) j (by omega) (by omega)]
        simp only [Option.bind_eq_bind, Option.bind_some]
        split
        · rename_i hge
          refine ⟨i - 1, j, _, rfl, by omega, by omega, by omega, rfl, .inl hge, by omega, fun k hk => ?_⟩
          rw [seg_left t i j (by omega) (by omega) (by omega), ← hr]
          have := hk (t[i - 1]'(by omega)) (List.getElem_mem _)
          omega
        · exact ih (i - 1) j _ (by omega) (by omega) hmj hj (by omega) rfl (by omega) (by omega)

theorem cut_ok {cs pre post : List Compound} {z : Zone} {c : Compound} {a t b : Text}
    (hz : ZoneAt cw cs z pre post c a t b) (n : Nat) (hn : 1 ≤ n) :
    ∃ i j g, z.cut cw cs n = some (pre ++ { c with src := a ++ t.take i } :: Compound.raw ellipsisText ::
        { c with src := t.drop j ++ b } :: post, g) ∧
      1 ≤ i ∧ i < j ∧ j + 1 ≤ t.length ∧ g + 1 = textWidth cw (seg t i j) ∧ (n ≤ g + 1 ∨ i = 1 ∧ j = t.length - 1) ∧
      (j + i = 2 * (t.length / 2) ∨ j + i = 2 * (t.length / 2) + 1) ∧
      ∀ k, (∀ c ∈ t, cw c ≤ k) → g + 1 < n + k := by
  obtain ⟨hp, hi, ht, hs, hin, hr, hl, hw⟩ := hz
  obtain ⟨i, j, r, c1, c2, c3, c4, c5, c6, c8, c7⟩ := cutLoop_ok ht hs hin n (t.length + 1) (t.length / 2) (t.length / 2) 0
    (by omega) (by omega) (by omega) (by omega) (by omega) (by simp [seg]) (by omega) (by omega)
  have hr1 : 1 ≤ r := by
    rcases c6 with h | ⟨rfl, rfl⟩
    · omega
    · rw [c5, ← interior_eq]; exact hw
  have hlt : i < j := by
    rcases Nat.lt_or_ge i j with h | h
    · exact h
    · have : i = j := by omega
      subst this
      simp [seg] at c5
      omega
  refine ⟨i, j, r - 1, ?_, c2, hlt, c4, by omega, by omega, c8, fun k hk => by have := c7 k hk; omega⟩
  have e1 : byteLen a + byteLen (t.take i) = byteLen (a ++ t.take i) := by simp
  have e2 : byteLen a + byteLen (t.take j) = byteLen (a ++ t.take j) := by simp
  have f1 : c.src = (a ++ t.take i) ++ (t.drop i ++ b) := by
    rw [ht, List.append_assoc, List.append_assoc, ← List.append_assoc (t.take i), List.take_append_drop]
  have f2 : c.src = (a ++ t.take j) ++ (t.drop j ++ b) := by
    rw [ht, List.append_assoc, List.append_assoc, ← List.append_assoc (t.take j), List.take_append_drop]
  have g1 : takeBytes c.src (byteLen (a ++ t.take i)) = some (a ++ t.take i) := by rw [f1, takeBytes_prefix]
  have g2 : dropBytes c.src (byteLen (a ++ t.take j)) = some (t.drop j ++ b) := by rw [f2, dropBytes_prefix]
  have hget : cs[z.compoundIdx]? = some c := by rw [hp, hi]; simp
  have htake : cs.take z.compoundIdx = pre := by rw [hp, hi]; simp
  have hdrop : cs.drop (z.compoundIdx + 1) = post := by rw [hp, hi]; simp
  simp only [Zone.cut]
  rw [if_neg (by omega), hget]
  simp only [Option.bind_eq_bind, Option.bind_some, hin, charInfos_length, c1, charInfos_get cw t i (by omega),
    charInfos_get cw t j (by omega), hs, e1, e2, g1, g2, csub, hr1, if_true, htake, hdrop]

/-! ### Finding the zones -/

/-- What is known of a zone found in a compound. -/
def ZoneIn (cw : Char → Nat) (idx : Nat) (s : Text) (z : Zone) (a t b : Text) : Prop :=
  s = a ++ t ++ b ∧ z.compoundIdx = idx ∧ z.byteStart = byteLen a ∧ z.infos = charInfos cw t

theorem tokenZone_ok {s a t b : Text} (hs : s = a ++ t ++ b) (minW idx : Nat) :
    ∃ zs, tokenZone cw s minW idx (byteLen a) (byteLen (a ++ t)) = some zs ∧
      ∀ z ∈ zs, ZoneIn cw idx s z a t b ∧ z.removableWidth = textWidth cw t ∧ minW ≤ textWidth cw t ∧ minW + 2 ≤ byteLen t := by
  unfold tokenZone
  split
  · rename_i h
    rw [byteLen_append] at h ⊢
    rw [hs, sliceBytes_mid]
    refine ⟨_, rfl, ?_⟩
    intro z hz
    split at hz
    · simp only [List.mem_singleton] at hz
      subst hz
      exact ⟨⟨rfl, rfl, rfl, rfl⟩, rfl, by omega, by omega⟩
    · simp at hz
  · exact ⟨[], rfl, by simp⟩

theorem tokenZonesLoop_ok (s : Text) (minW idx : Nat) : ∀ (rest : Text) (st : Option Nat) (pre : Text),
    s = pre ++ rest →
    (match st with
      | none => ∀ c, pre.getLast? = some c → ws c = true
      | some start => ∃ a t, pre = a ++ t ∧ start = byteLen a ∧ t ≠ [] ∧ (∀ c ∈ t, ws c = false) ∧
          ∀ c, a.getLast? = some c → ws c = true) →
    ∃ zs, tokenZonesLoop cw ws s minW idx (byteLen pre) st rest = some zs ∧
      ∀ z ∈ zs, ∃ a t b, ZoneIn cw idx s z a t b ∧ z.removableWidth = textWidth cw t ∧ minW ≤ textWidth cw t ∧
        minW + 2 ≤ byteLen t ∧ t ≠ [] ∧ (∀ c ∈ t, ws c = false) ∧ (∀ c, a.getLast? = some c → ws c = true) ∧
        (∀ c, b.head? = some c → ws c = true) := by
  intro rest
  induction rest with
  | nil =>
    intro st pre hs hst
    cases st with
    | none => exact ⟨[], rfl, by simp⟩
    | some start =>
      obtain ⟨a, t, rfl, rfl, h1, h2, h3⟩ := hst
      have e : s = a ++ t ++ [] := hs
      obtain ⟨zs, z1, z2⟩ := tokenZone_ok (cw := cw) e minW idx
      refine ⟨zs, ?_, ?_⟩
      · simp only [tokenZonesLoop]
        rw [← z1, hs]
        simp
      · intro z hz
        obtain ⟨q1, q2, q3, q4⟩ := z2 z hz
        exact ⟨a, t, [], q1, q2, q3, q4, h1, h2, h3, by simp⟩
  | cons c rest ih =>
    intro st pre hs hst
    have e1 : byteLen pre + c.utf8Size = byteLen (pre ++ [c]) := by simp [byteLen]
    have e2 : s = (pre ++ [c]) ++ rest := by simp [hs]
    cases st with
    | none =>
      simp only [tokenZonesLoop, e1]
      cases hc : ws c with
      | true =>
        simp only [if_true]
        refine ih none _ e2 ?_
        intro x hx
        simp at hx
        subst hx
        exact hc
      | false =>
        simp only [Bool.false_eq_true, if_false]
        exact ih (some (byteLen pre)) _ e2 ⟨pre, [c], rfl, rfl, by simp, by simp [hc], hst⟩
    | some start =>
      obtain ⟨a, t, rfl, rfl, h1, h2, h3⟩ := hst
      simp only [tokenZonesLoop, e1]
      cases hc : ws c with
      | true =>
        simp only [if_true]
        obtain ⟨zs, z1, z2⟩ := tokenZone_ok (cw := cw) hs minW idx
        obtain ⟨zs', z3, z4⟩ := ih none _ e2 (by
          intro x hx
          simp at hx
          subst hx
          exact hc)
        refine ⟨zs ++ zs', by simp only [z1, z3, Option.bind_eq_bind, Option.bind_some], ?_⟩
        intro z hz
        simp only [List.mem_append] at hz
        rcases hz with hz | hz
        · obtain ⟨q1, q2, q3, q4⟩ := z2 z hz
          exact ⟨a, t, c :: rest, q1, q2, q3, q4, h1, h2, h3, by simp [hc]⟩
        · exact z4 z hz
      | false =>
        simp only [Bool.false_eq_true, if_false]
        refine ih (some (byteLen a)) _ e2 ⟨a, t ++ [c], by simp, rfl, by simp, ?_, h3⟩
        intro x hx
        simp only [List.mem_append, List.mem_singleton] at hx
        rcases hx with hx | rfl
        · exact h2 x hx
        · exact hc

theorem tokenZones_ok (minW : Nat) : ∀ (cs : List Compound) (idx : Nat),
    ∃ zs, tokenZones cw ws minW idx cs = some zs ∧ ∀ z ∈ zs, ∃ pre post c a t b, cs = pre ++ c :: post ∧
      ZoneIn cw (idx + pre.length) c.src z a t b ∧ z.removableWidth = textWidth cw t ∧ minW ≤ textWidth cw t ∧
      minW + 2 ≤ byteLen t ∧ t ≠ [] ∧ (∀ c ∈ t, ws c = false) ∧ (∀ c, a.getLast? = some c → ws c = true) ∧
      (∀ c, b.head? = some c → ws c = true) := by
  intro cs
  induction cs with
  | nil => intro idx; exact ⟨[], rfl, by simp⟩
  | cons c cs ih =>
    intro idx
    obtain ⟨zs', z3, z4⟩ := ih (idx + 1)
    have h1 : ∃ zs, compoundTokenZones cw ws minW idx c.src = some zs ∧ ∀ z ∈ zs, ∃ a t b, ZoneIn cw idx c.src z a t b ∧
        z.removableWidth = textWidth cw t ∧ minW ≤ textWidth cw t ∧
        minW + 2 ≤ byteLen t ∧ t ≠ [] ∧ (∀ c ∈ t, ws c = false) ∧ (∀ c, a.getLast? = some c → ws c = true) ∧
        (∀ c, b.head? = some c → ws c = true) := by
      unfold compoundTokenZones
      split
      · exact ⟨[], rfl, by simp⟩
      · have := tokenZonesLoop_ok (cw := cw) (ws := ws) c.src minW idx c.src none [] (by simp) (by simp)
        simpa [byteLen] using this
    obtain ⟨zs, z1, z2⟩ := h1
    refine ⟨zs ++ zs', by simp [tokenZones, z1, z3], ?_⟩
    intro z hz
    simp only [List.mem_append] at hz
    rcases hz with hz | hz
    · obtain ⟨a, t, b, q⟩ := z2 z hz
      exact ⟨[], cs, c, a, t, b, rfl, q⟩
    · obtain ⟨pre, post, c', a, t, b, rfl, q1, q2⟩ := z4 z hz
      refine ⟨c :: pre, post, c', a, t, b, rfl, ?_, q2⟩
      have : idx + (c :: pre).length = idx + 1 + pre.length := by simp; omega
      rw [this]; exact q1

theorem length_of_bytes {t : Text} (h : 5 ≤ byteLen t) : 2 ≤ t.length := by
  match t, h with
  | [], h => simp [byteLen] at h
  | [c], h =>
    have := c.utf8Size_le_four
    simp [byteLen] at h; omega
  | _ :: _ :: _, _ => simp

/-- The zones found by an elision loop can be cut. -/
def GoodZones (cw : Char → Nat) (cs : List Compound) (zs : List Zone) : Prop :=
  ∀ z ∈ zs, ∃ pre post c a t b, ZoneAt cw cs z pre post c a t b

theorem tokenZones_good {cs : List Compound} (h : ThickTokens cw ws cs) :
    ∃ zs, tokenZones cw ws 3 0 cs = some zs ∧ ∀ z ∈ zs, ∃ pre post c a t b, ZoneAt cw cs z pre post c a t b ∧
      t ≠ [] ∧ (∀ c ∈ t, ws c = false) ∧ (∀ c, a.getLast? = some c → ws c = true) ∧
      (∀ c, b.head? = some c → ws c = true) := by
  obtain ⟨zs, h1, h2⟩ := tokenZones_ok (cw := cw) (ws := ws) 3 cs 0
  refine ⟨zs, h1, ?_⟩
  intro z hz
  obtain ⟨pre, post, c, a, t, b, q1, ⟨q2, q3, q4, q5⟩, q6, q7, q8, q9, q10, q11, q12⟩ := h2 z hz
  have hl := length_of_bytes q8
  refine ⟨pre, post, c, a, t, b, ⟨q1, by omega, q2, q4, q5, by omega, hl, ?_⟩, q9, q10, q11, q12⟩
  exact h c (by simp [q1]) t ⟨q9, q10, a, b, q2, q11, q12⟩ hl q7

theorem compoundZones_good : ∀ (cs : List Compound) (idx : Nat),
    ∃ zs, compoundZones cw 2 idx cs = some zs ∧ ∀ z ∈ zs, ∃ pre post c, cs = pre ++ c :: post ∧
      z.compoundIdx = idx + pre.length ∧ z.byteStart = 0 ∧ z.infos = charInfos cw c.src ∧ 2 ≤ z.removableWidth ∧
      4 ≤ c.src.length ∧ z.removableWidth = textWidth cw (interior c.src) := by
  intro cs
  induction cs with
  | nil => intro idx; exact ⟨[], rfl, by simp⟩
  | cons c cs ih =>
    intro idx
    obtain ⟨zs', z3, z4⟩ := ih (idx + 1)
    have h1 : ∃ z, compoundZone cw 2 idx c.src = some z ∧ ∀ z' ∈ z.toList, z'.compoundIdx = idx ∧ z'.byteStart = 0 ∧
        z'.infos = charInfos cw c.src ∧ 2 ≤ z'.removableWidth ∧
        4 ≤ c.src.length ∧ z'.removableWidth = textWidth cw (interior c.src) := by
      simp only [compoundZone, charInfos_length]
      split
      · exact ⟨none, rfl, by simp⟩
      · rename_i hlen
        rw [charInfos_get cw c.src 1 (by omega)]
        simp only [Option.bind_eq_bind, Option.bind_some, csub]
        rw [if_pos (by omega)]
        simp only [Option.bind_some]
        rw [charInfos_get cw c.src (c.src.length - 1) (by omega)]
        simp only [Option.bind_some]
        have e : c.src = c.src.take 1 ++ seg c.src 1 (c.src.length - 1) ++ c.src.drop (c.src.length - 1) :=
          seg_split _ _ _ (by omega)
        have e2 : byteLen (c.src.take (c.src.length - 1)) = byteLen (c.src.take 1) + byteLen (seg c.src 1 (c.src.length - 1)) := by
          conv => lhs; rw [take_seg c.src 1 (c.src.length - 1) (by omega)]
          simp
        have e3 : sliceBytes c.src (byteLen (c.src.take 1)) (byteLen (c.src.take (c.src.length - 1))) =
            some (interior c.src) := by
          rw [e2, interior_eq]
          conv => lhs; arg 1; rw [e]
          rw [sliceBytes_mid]
        rw [e3]
        simp only [Option.bind_some]
        split
        · exact ⟨none, rfl, by simp⟩
        · refine ⟨_, rfl, ?_⟩
          intro z' hz'
          simp only [Option.toList_some, List.mem_singleton] at hz'
          subst hz'
          exact ⟨rfl, rfl, rfl, by simp; omega, by omega, rfl⟩
    obtain ⟨z, z1, z2⟩ := h1
    refine ⟨z.toList ++ zs', by simp [compoundZones, z1, z3], ?_⟩
    intro z' hz
    simp only [List.mem_append] at hz
    rcases hz with hz | hz
    · exact ⟨[], cs, c, rfl, z2 z' hz⟩
    · obtain ⟨pre, post, c', rfl, q1, q2⟩ := z4 z' hz
      refine ⟨c :: pre, post, c', rfl, ?_, q2⟩
      simp; omega

theorem biggestZone_mem {zs : List Zone} {z : Zone} (h : biggestZone zs = some z) : z ∈ zs := by
  have : ∀ (l : List Zone) (acc : Option Zone) (P : Zone → Prop), (∀ m, acc = some m → P m) → (∀ m ∈ l, P m) →
      ∀ z, l.foldl (fun acc z =>
        match acc with
        | none => some z
        | some m => if m.removableWidth ≤ z.removableWidth then some z else some m) acc = some z → P z := by
    intro l
    induction l with
    | nil => intro acc P h1 _ z h; exact h1 z h
    | cons x l ih =>
      intro acc P h1 h2 z h
      refine ih _ P ?_ (fun m hm => h2 m (by simp [hm])) z h
      intro m hm
      cases acc with
      | none => simp only [Option.some.injEq] at hm; subst hm; exact h2 x (by simp)
      | some y =>
        simp only at hm
        split at hm
        · simp only [Option.some.injEq] at hm; subst hm; exact h2 x (by simp)
        · simp only [Option.some.injEq] at hm; subst hm; exact h1 y rfl
  exact this zs none (· ∈ zs) (by simp) (fun m hm => hm) z h

/-! ### Elision loops -/

theorem zoneAt_chars {cs pre post : List Compound} {z : Zone} {c : Compound} {a t b : Text}
    (hz : ZoneAt cw cs z pre post c a t b) (i j : Nat) (hij : i < j) (hj : j ≤ t.length) :
    Elided (styledChars cs) (styledChars (pre ++ { c with src := a ++ t.take i } :: Compound.raw ellipsisText ::
        { c with src := t.drop j ++ b } :: post)) := by
  have hdots : (Compound.raw ellipsisText).src.map (fun ch => (ch, (Compound.raw ellipsisText).flags)) = [dots] := rfl
  have h1 := Elided.refl (a.map fun ch => (ch, c.flags))
  have h2 := Elided.refl ((t.take i).map fun ch => (ch, c.flags))
  have h3 := Elided.one (r := (seg t i j).map fun ch => (ch, c.flags)) (by
    intro h0
    have := congrArg List.length h0
    simp [seg] at this
    omega)
  have h4 := Elided.refl ((t.drop j).map fun ch => (ch, c.flags))
  have h5 := Elided.refl (b.map fun ch => (ch, c.flags))
  have e : c.src = a ++ (t.take i ++ seg t i j ++ t.drop j) ++ b := by
    rw [hz.text, ← seg_split t i j (by omega)]
  rw [hz.place]
  simp only [styledChars_append, styledChars_cons, hdots, e, List.map_append, List.append_assoc]
  exact (Elided.refl _).append (h1.append (h2.append (h3.append (h4.append (h5.append (Elided.refl _))))))

theorem zoneAt_width {cs pre post : List Compound} {z : Zone} {c : Compound} {a t b : Text}
    (hz : ZoneAt cw cs z pre post c a t b) (he : cw '…' = 1) (i j g : Nat) (hij : i < j)
    (hg : g + 1 = textWidth cw (seg t i j)) :
    compoundsWidth cw (pre ++ { c with src := a ++ t.take i } :: Compound.raw ellipsisText ::
        { c with src := t.drop j ++ b } :: post) + g = compoundsWidth cw cs := by
  have e : textWidth cw c.src = textWidth cw a + (textWidth cw (t.take i) + textWidth cw (seg t i j) +
      textWidth cw (t.drop j)) + textWidth cw b := by
    rw [hz.text]
    conv => lhs; rw [seg_split t i j (by omega)]
    simp only [textWidth_append]
  rw [hz.place]
  simp only [compoundsWidth, List.map_append, List.sum_append, List.map_cons, List.sum_cons, e, textWidth_append,
    Compound.raw, ellipsisText, textWidth, he]
  omega

theorem elideLoop_ok {zones : List Compound → Run (List Zone)} {Inv : List Compound → Prop} (he : cw '…' = 1)
    (hz : ∀ cs, Inv cs → ∃ zs, zones cs = some zs ∧ ∀ z ∈ zs, ∃ pre post c a t b, ZoneAt cw cs z pre post c a t b ∧
      Inv (pre ++ { c with src := a ++ t.take 1 } :: Compound.raw ellipsisText ::
        { c with src := t.drop (t.length - 1) ++ b } :: post)) :
    ∀ fuel excess cs, Inv cs → excess ≤ fuel →
    ∃ cs' e', elideLoop cw zones fuel excess cs = some (cs', e') ∧ Elided (styledChars cs) (styledChars cs') ∧
      e' ≤ excess ∧ compoundsWidth cw cs' + excess ≤ compoundsWidth cw cs + e' ∧
      ((∀ c ∈ cs, c.src ≠ []) → ∀ c ∈ cs', c.src ≠ []) ∧
      (∀ k, 1 ≤ k → (∀ x ∈ styledChars cs, cw x.1 ≤ k) →
        compoundsWidth cw cs ≤ compoundsWidth cw cs' + (excess - e') + (if excess = 0 ∨ e' ≠ 0 then 0 else k - 1)) := by
  intro fuel
  induction fuel with
  | zero =>
    intro excess cs hi hf
    have : excess = 0 := by omega
    subst this
    exact ⟨cs, 0, rfl, .refl _, Nat.le_refl _, by omega, fun h => h, fun k _ _ => by simp⟩
  | succ fuel ih =>
    intro excess cs hi hf
    cases excess with
    | zero => exact ⟨cs, 0, rfl, .refl _, Nat.le_refl _, by omega, fun h => h, fun k _ _ => by simp⟩
    | succ excess =>
      obtain ⟨zs, h1, h2⟩ := hz cs hi
      simp only [elideLoop, h1, Option.bind_eq_bind, Option.bind_some]
      cases hb : biggestZone zs with
      | none => exact ⟨cs, excess + 1, rfl, .refl _, Nat.le_refl _, by omega, fun h => h, fun k _ _ => by simp⟩
      | some z =>
        obtain ⟨pre, post, c, a, t, b, h3, h4⟩ := h2 z (biggestZone_mem hb)
        obtain ⟨i, j, g, c1, c2, c3, c4, c5, c6, _, c7⟩ := cut_ok h3 (excess + 2) (by omega)
        have hk7 : ∀ k, (∀ x ∈ styledChars cs, cw x.1 ≤ k) → g ≤ excess + k := by
          intro k hk
          have := c7 k (fun ch hch => by
            refine hk (ch, c.flags) ?_
            rw [h3.place, styledChars_append]
            refine List.mem_append_right _ ?_
            simp only [styledChars, List.flatMap_cons, h3.text]
            refine List.mem_append_left _ (List.mem_map_of_mem ?_)
            simp [hch])
          omega
        simp only [c1, Option.bind_some]
        have hE := zoneAt_chars h3 i j c3 (by omega)
        have hW := zoneAt_width h3 he i j g c3 c5
        have hN : (∀ c ∈ cs, c.src ≠ []) → ∀ x ∈ (pre ++ { c with src := a ++ t.take i } :: Compound.raw ellipsisText ::
            { c with src := t.drop j ++ b } :: post), x.src ≠ [] := by
          intro hne x hx
          rw [h3.place] at hne
          simp only [List.mem_append, List.mem_cons] at hx
          rcases hx with hx | rfl | rfl | rfl | hx
          · exact hne x (by simp [hx])
          · intro h0
            have := congrArg List.length (List.append_eq_nil_iff.1 h0).2
            rw [List.length_take, List.length_nil] at this; omega
          · simp [Compound.raw, ellipsisText]
          · intro h0
            have := congrArg List.length (List.append_eq_nil_iff.1 h0).1
            rw [List.length_drop, List.length_nil] at this; omega
          · exact hne x (by simp [hx])
        by_cases hg0 : g = 0
        · rw [if_pos hg0]
          exact ⟨_, _, rfl, hE, Nat.le_refl _, by omega, hN, fun k _ _ => by omega⟩
        · rw [if_neg hg0]
          by_cases hge : excess + 1 ≤ g
          · have : excess + 1 - min g (excess + 1) = 0 := by omega
            rw [this]
            refine ⟨_, 0, ?_, hE, by omega, by omega, hN, fun k h1 hk => ?_⟩
            · cases fuel <;> rfl
            · have := hk7 k hk
              rw [if_neg (by omega)]
              omega
          · have hfull : i = 1 ∧ j = t.length - 1 := by omega
            obtain ⟨rfl, rfl⟩ := hfull
            obtain ⟨cs', e', d1, d2, d3, d4, d5, d6⟩ := ih (excess + 1 - min g (excess + 1)) _ h4 (by omega)
            refine ⟨cs', e', d1, hE.trans d2, by omega, by omega, fun h => d5 (hN h), fun k h1 hk => ?_⟩
            have := d6 k h1 (fun x hx => by
              rcases hE.mem x hx with h | h
              · exact hk x h
              · rw [h]; simp only [dots, he]; exact h1)
            split at this <;> split <;> omega

theorem thick_cut {cs pre post : List Compound} {c : Compound} {a t b : Text} (h : ThickTokens cw ws cs)
    (hp : cs = pre ++ c :: post) (ht : c.src = a ++ t ++ b) (hl : 2 ≤ t.length) (h2 : ∀ c ∈ t, ws c = false)
    (h3 : ∀ c, a.getLast? = some c → ws c = true) (h4 : ∀ c, b.head? = some c → ws c = true) :
    ThickTokens cw ws (pre ++ { c with src := a ++ t.take 1 } :: Compound.raw ellipsisText ::
        { c with src := t.drop (t.length - 1) ++ b } :: post) := by
  intro x hx tok htok hlen hw
  obtain ⟨k1, k2, before, after, k3, k4, k5⟩ := htok
  simp only [List.mem_append, List.mem_cons] at hx
  rcases hx with hx | rfl | rfl | rfl | hx
  · exact h x (by simp [hp, hx]) tok ⟨k1, k2, before, after, k3, k4, k5⟩ hlen hw
  · -- head
    cases t with
    | nil => simp at hl
    | cons t0 t1 =>
      simp only [List.take_succ_cons, List.take_zero] at k3
      have ht0 := h2 t0 (by simp)
      rcases List.eq_nil_or_concat after with rfl | ⟨after', y, rfl⟩
      · rcases List.eq_nil_or_concat tok with rfl | ⟨tok', y, rfl⟩
        · exact absurd rfl k1
        · simp only [List.concat_eq_append, List.append_nil] at k3 k2 hlen
          rw [← List.append_assoc] at k3
          have := List.append_inj' k3 rfl
          obtain ⟨rfl, _⟩ := this
          rcases List.eq_nil_or_concat tok' with rfl | ⟨tok'', y', rfl⟩
          · simp at hlen
          · exfalso
            have e1 := h3 y' (by simp)
            have e2 := k2 y' (by simp)
            rw [e1] at e2; cases e2
      · simp only [List.concat_eq_append] at k3 k5
        rw [← List.append_assoc] at k3
        have := List.append_inj' k3 rfl
        obtain ⟨rfl, hy⟩ := this
        simp only [List.cons.injEq, and_true] at hy
        subst hy
        cases after' with
        | nil =>
          exfalso
          have e1 := k5 t0 (by simp)
          rw [e1] at ht0; cases ht0
        | cons w after' =>
          refine h c (by simp [hp]) tok ⟨k1, k2, before, (w :: after') ++ t0 :: t1 ++ b, by simp [ht], k4, ?_⟩ hlen hw
          intro q hq
          exact k5 q (by simpa using hq)
  · -- ellipsis
    exfalso
    simp only [Compound.raw, ellipsisText] at k3
    have := congrArg List.length k3
    simp at this
    omega
  · -- tail
    rcases List.eq_nil_or_concat t with rfl | ⟨t1, t0, rfl⟩
    · simp at hl
    · simp only [List.concat_eq_append] at k3 h2 ht hl
      have e0 : List.drop ((t1 ++ [t0]).length - 1) (t1 ++ [t0]) = [t0] := by simp
      rw [e0] at k3
      have ht0 := h2 t0 (by simp)
      cases before with
      | nil =>
        cases tok with
        | nil => exact absurd rfl k1
        | cons y tok =>
          simp only [List.nil_append, List.cons_append, List.cons.injEq] at k3
          obtain ⟨rfl, rfl⟩ := k3
          cases tok with
          | nil => simp at hlen
          | cons z tok =>
            exfalso
            have e1 := h4 z (by simp)
            have e2 := k2 z (by simp)
            rw [e1] at e2; cases e2
      | cons y before =>
        simp only [List.nil_append, List.cons_append, List.cons.injEq] at k3
        obtain ⟨rfl, rfl⟩ := k3
        rcases List.eq_nil_or_concat before with rfl | ⟨before', w, rfl⟩
        · exfalso
          have e1 := k4 t0 (by simp)
          rw [e1] at ht0; cases ht0
        · simp only [List.concat_eq_append] at ht k4
          refine h c (by simp [hp]) tok ⟨k1, k2, a ++ (t1 ++ [t0]) ++ (before' ++ [w]), after, by simp [ht], ?_, k5⟩ hlen hw
          intro q hq
          refine k4 q ?_
          rw [← List.append_assoc, List.getLast?_append] at hq
          rw [← List.cons_append, List.getLast?_append]
          simpa using hq
  · exact h x (by simp [hp, hx]) tok ⟨k1, k2, before, after, k3, k4, k5⟩ hlen hw

theorem elideTokens_ok (he : cw '…' = 1) (f : Fitter) (excess : Nat) (cs : List Compound)
    (h : f.midToken = true → ThickTokens cw ws cs) :
    ∃ cs' e', f.elideTokens cw ws excess cs = some (cs', e') ∧ Elided (styledChars cs) (styledChars cs') ∧
      e' ≤ excess ∧ compoundsWidth cw cs' + excess ≤ compoundsWidth cw cs + e' ∧
      ((∀ c ∈ cs, c.src ≠ []) → ∀ c ∈ cs', c.src ≠ []) ∧
      (∀ k, 1 ≤ k → (∀ x ∈ styledChars cs, cw x.1 ≤ k) →
        compoundsWidth cw cs ≤ compoundsWidth cw cs' + (excess - e') + (if excess = 0 ∨ e' ≠ 0 then 0 else k - 1)) ∧ (f.midToken = false → cs' = cs ∧ e' = excess) := by
  unfold Fitter.elideTokens
  cases hm : f.midToken with
  | false => exact ⟨cs, excess, rfl, .refl _, Nat.le_refl _, by omega, fun h => h, fun k _ _ => by omega, fun _ => ⟨rfl, rfl⟩⟩
  | true =>
    obtain ⟨cs', e', d1, d2, d3, d4, d5, d6⟩ := elideLoop_ok (cw := cw) (zones := tokenZones cw ws 3 0) (Inv := ThickTokens cw ws) he (by
      intro cs hcs
      obtain ⟨zs, z1, z2⟩ := tokenZones_good hcs
      refine ⟨zs, z1, ?_⟩
      intro z hz
      obtain ⟨pre, post, c, a, t, b, q1, q2, q3, q4, q5⟩ := z2 z hz
      exact ⟨pre, post, c, a, t, b, q1, thick_cut hcs q1.place q1.text q1.len q3 q4 q5⟩) excess excess cs (h hm) (Nat.le_refl _)
    exact ⟨cs', e', d1, d2, d3, d4, d5, d6, by simp⟩

theorem elideCompounds_ok (he : cw '…' = 1) (f : Fitter) (excess : Nat) (cs : List Compound) :
    ∃ cs' e', f.elideCompounds cw excess cs = some (cs', e') ∧ Elided (styledChars cs) (styledChars cs') ∧
      e' ≤ excess ∧ compoundsWidth cw cs' + excess ≤ compoundsWidth cw cs + e' ∧
      ((∀ c ∈ cs, c.src ≠ []) → ∀ c ∈ cs', c.src ≠ []) ∧
      (∀ k, 1 ≤ k → (∀ x ∈ styledChars cs, cw x.1 ≤ k) →
        compoundsWidth cw cs ≤ compoundsWidth cw cs' + (excess - e') + (if excess = 0 ∨ e' ≠ 0 then 0 else k - 1)) ∧ (f.midCompound = false → cs' = cs ∧ e' = excess) := by
  unfold Fitter.elideCompounds
  cases hm : f.midCompound with
  | false => exact ⟨cs, excess, rfl, .refl _, Nat.le_refl _, by omega, fun h => h, fun k _ _ => by omega, fun _ => ⟨rfl, rfl⟩⟩
  | true =>
    obtain ⟨cs', e', d1, d2, d3, d4, d5, d6⟩ := elideLoop_ok (cw := cw) (zones := compoundZones cw 2 0) (Inv := fun _ => True) he (by
      intro cs hcs
      obtain ⟨zs, z1, z2⟩ := compoundZones_good (cw := cw) cs 0
      refine ⟨zs, z1, ?_⟩
      intro z hz
      obtain ⟨pre, post, c, q1, q2, q3, q4, q5, q6, q7⟩ := z2 z hz
      exact ⟨pre, post, c, [], c.src, [], ⟨q1, by omega, by simp, by simp [q3, byteLen], q4, q5, by omega, by omega⟩, trivial⟩)
      excess excess cs trivial (Nat.le_refl _)
    exact ⟨cs', e', d1, d2, d3, d4, d5, d6, by simp⟩

/-! ### Truncations -/

theorem leftLoop_ok (e : Nat) : ∀ (t : Text) (b idx removed : Nat), t ≠ [] →
    ∃ p q k, leftLoop e idx removed (charInfosFrom cw b t) = some (k, removed + textWidth cw p) ∧ t = p ++ q ∧
      k + 1 = idx + p.length ∧ p ≠ [] ∧ (e ≤ removed + textWidth cw p ∨ q = []) ∧
      (removed < e → removed + textWidth cw p.dropLast < e) := by
  intro t
  induction t with
  | nil => intro b idx removed h; exact absurd rfl h
  | cons c t ih =>
    intro b idx removed _
    simp only [charInfosFrom, leftLoop, charInfosFrom_length]
    by_cases h : removed + cw c ≥ e ∨ t.length = 0
    · rw [if_pos h]
      refine ⟨[c], t, idx, by simp [textWidth], rfl, by simp, by simp, ?_, by simp⟩
      rcases h with h | h
      · left; simp only [textWidth]; omega
      · right; exact List.eq_nil_of_length_eq_zero h
    · rw [if_neg h]
      obtain ⟨p, q, k, h1, h2, h3, h4, h5, h6⟩ := ih (b + c.utf8Size) (idx + 1) (removed + cw c) (by
        intro h0; subst h0; simp at h)
      refine ⟨c :: p, q, k, ?_, by simp [h2], ?_, by simp, ?_, ?_⟩
      · rw [h1]; simp [textWidth]; omega
      · simp; omega
      · simp only [textWidth]
        rcases h5 with h5 | h5
        · left; omega
        · right; exact h5
      · intro _
        rw [List.dropLast_cons_of_ne_nil h4]
        simp only [textWidth]
        have := h6 (by omega)
        omega

/-- Number of columns of styled characters. -/
def colsOf (cw : Char → Nat) (l : List (Char × Flags)) : Nat := (l.map fun p => cw p.1).sum

theorem colsOf_append (a b : List (Char × Flags)) : colsOf cw (a ++ b) = colsOf cw a + colsOf cw b := by
  simp [colsOf]

theorem colsOf_map (t : Text) (f : Flags) : colsOf cw (t.map fun ch => (ch, f)) = textWidth cw t := by
  induction t with
  | nil => rfl
  | cons c t ih =>
    simp only [colsOf, List.map_cons, List.sum_cons, textWidth] at ih ⊢
    omega

theorem leftTrunc_ok : ∀ (cs : List Compound) (e : Nat), (∀ c ∈ cs, c.src ≠ []) →
    ∃ cs' r, leftTrunc cw e cs = some cs' ∧ styledChars cs = r ++ styledChars cs' ∧
      (∀ c ∈ cs', c.src ≠ []) ∧ (cs' = [] ∨ e ≤ colsOf cw r) ∧ (r = [] ∨ colsOf cw r.dropLast < e) := by
  intro cs
  induction cs with
  | nil =>
    intro e _
    refine ⟨[], [], ?_, rfl, by simp, .inl rfl, .inl rfl⟩
    cases e <;> rfl
  | cons c cs ih =>
    intro e hne
    cases e with
    | zero => exact ⟨c :: cs, [], rfl, rfl, hne, .inr (Nat.zero_le _), .inl rfl⟩
    | succ e =>
      obtain ⟨p, q, k, h1, h2, h3, h4, h5, h6⟩ := leftLoop_ok (cw := cw) (e + 1) c.src 0 0 0 (hne c (by simp))
      simp only [leftTrunc, charInfos_length]
      rw [charInfos, h1]
      simp only [Option.bind_eq_bind, Option.bind_some]
      by_cases hk : k + 1 = c.src.length
      · rw [if_pos hk]
        have hq : q = [] := by
          have := congrArg List.length h2
          simp at this
          exact List.eq_nil_of_length_eq_zero (by omega)
        subst hq
        rw [List.append_nil] at h2
        obtain ⟨cs', r, d1, d2, d3, d4, d5⟩ := ih (e + 1 - min (0 + textWidth cw p) (e + 1)) (fun x hx => hne x (by simp [hx]))
        refine ⟨cs', c.src.map (fun ch => (ch, c.flags)) ++ r, d1, ?_, d3, ?_, .inr ?_⟩
        · rw [styledChars_cons, d2, List.append_assoc]
        · rcases d4 with d4 | d4
          · exact .inl d4
          · right
            rw [colsOf_append, colsOf_map, h2]
            omega
        · by_cases hr : r = []
          · subst hr
            rw [List.append_nil, ← List.map_dropLast, colsOf_map, h2]
            have := h6 (by omega)
            omega
          · rw [List.dropLast_append_of_ne_nil hr, colsOf_append, colsOf_map, h2]
            have := d5.resolve_left hr
            omega
      · rw [if_neg hk]
        have hlen := congrArg List.length h2
        simp only [List.length_append] at hlen
        have hq : q ≠ [] := by
          intro h0
          subst h0
          simp at hlen
          omega
        have hk2 : k + 1 = p.length := by omega
        have hql : 0 < q.length := List.length_pos_iff.2 hq
        have hg := charInfos_get cw c.src (k + 1) (by omega)
        rw [charInfos] at hg
        rw [hg]
        simp only [Option.bind_some]
        have e1 : c.src.take (k + 1) = p := by rw [h2, hk2]; simp
        rw [e1]
        have e2 : dropBytes c.src (byteLen p) = some q := by rw [h2, dropBytes_prefix]
        rw [e2]
        refine ⟨_, p.map (fun ch => (ch, c.flags)), rfl, ?_, ?_, .inr ?_, .inr ?_⟩
        · rw [styledChars_cons, styledChars_cons, h2]
          simp
        · intro x hx
          simp only [List.mem_cons] at hx
          rcases hx with rfl | hx
          · exact hq
          · exact hne x (by simp [hx])
        · rw [colsOf_map]
          rcases h5 with h5 | h5
          · omega
          · exact absurd h5 hq
        · rw [← List.map_dropLast, colsOf_map]
          have := h6 (by omega)
          omega

theorem charInfosFrom_append (a b : Text) (i : Nat) :
    charInfosFrom cw i (a ++ b) = charInfosFrom cw i a ++ charInfosFrom cw (i + byteLen a) b := by
  induction a generalizing i with
  | nil => simp [charInfosFrom, byteLen]
  | cons c a ih => simp only [List.cons_append, charInfosFrom, ih, byteLen, Nat.add_assoc]

theorem tail_lt {e : Nat} {q : Text} (h : q = [] ∨ textWidth cw q < e) : q = [] ∨ textWidth cw q.tail < e := by
  rcases h with h | h
  · exact .inl h
  · right
    cases q with
    | nil => exact h
    | cons c q => simp only [textWidth, List.tail_cons] at *; omega

theorem rightLoop_ok (e : Nat) (he : 0 < e) (s : Text) : ∀ (n : Nat) (p q : Text), p.length = n → s = p ++ q →
    (q = [] ∨ textWidth cw q < e) →
    ∃ p' q', rightLoop e (byteLen p) (textWidth cw q) (charInfos cw p).reverse = (byteLen p', textWidth cw q') ∧ s = p' ++ q' ∧
      (e ≤ textWidth cw q' ∨ p' = []) ∧ (q' = [] ∨ textWidth cw q'.tail < e) := by
  intro n
  induction n with
  | zero =>
    intro p q hp hs hq
    have := List.eq_nil_of_length_eq_zero hp
    subst this
    exact ⟨[], q, rfl, hs, .inr rfl, tail_lt hq⟩
  | succ n ih =>
    intro p q hp hs hq
    rcases List.eq_nil_or_concat p with rfl | ⟨p', c, rfl⟩
    · simp at hp
    · simp only [List.concat_eq_append] at hp hs ⊢
      have e1 : (charInfos cw (p' ++ [c])).reverse = ⟨byteLen p', cw c⟩ :: (charInfos cw p').reverse := by
        simp [charInfos, charInfosFrom_append, charInfosFrom]
      have e2 : textWidth cw q + cw c = textWidth cw (c :: q) := by simp only [textWidth]; omega
      rw [e1]
      simp only [rightLoop, e2]
      split
      · rename_i h
        refine ⟨p', c :: q, rfl, by simp [hs], .inl h, .inr ?_⟩
        rcases hq with rfl | hq
        · simpa using he
        · exact hq
      · rename_i h
        exact ih p' (c :: q) (by simp at hp; omega) (by simp [hs]) (.inr (by omega))

theorem rightTruncRev_ok : ∀ (cs : List Compound) (e : Nat),
    ∃ cs' r, rightTruncRev cw e cs = some cs' ∧ styledChars cs.reverse = styledChars cs'.reverse ++ r ∧
      (cs' = [] ∨ e ≤ colsOf cw r) ∧ ((∀ c ∈ cs, c.src ≠ []) → ∀ c ∈ cs', c.src ≠ []) ∧
      (r = [] ∨ colsOf cw r.tail < e) := by
  intro cs
  induction cs with
  | nil =>
    intro e
    refine ⟨[], [], ?_, rfl, .inl rfl, fun h => h, .inl rfl⟩
    cases e <;> rfl
  | cons c cs ih =>
    intro e
    cases e with
    | zero => exact ⟨c :: cs, [], rfl, by simp, .inr (Nat.zero_le _), fun h => h, .inl rfl⟩
    | succ e =>
      obtain ⟨p, q, h1, h2, h3, h4⟩ := rightLoop_ok (cw := cw) (e + 1) (by omega) c.src _ c.src [] rfl (by simp) (.inl rfl)
      simp only [textWidth_nil] at h1
      simp only [rightTruncRev, h1]
      by_cases hp : byteLen p = 0
      · rw [if_pos hp]
        have hp' := byteLen_eq_zero.1 hp
        subst hp'
        rw [List.nil_append] at h2
        subst h2
        obtain ⟨cs', r, d1, d2, d3, d4, d5⟩ := ih (e + 1 - min (textWidth cw c.src) (e + 1))
        refine ⟨cs', r ++ c.src.map (fun ch => (ch, c.flags)), d1, ?_, ?_, fun h => d4 (fun x hx => h x (by simp [hx])), ?_⟩
        · rw [List.reverse_cons, styledChars_append, d2, styledChars_cons, styledChars_nil]
          simp
        · rcases d3 with d3 | d3
          · exact .inl d3
          · right
            rw [colsOf_append, colsOf_map]
            omega
        · cases r with
          | nil =>
            rw [List.nil_append, ← List.map_tail, colsOf_map]
            rcases h4 with h4 | h4
            · left; rw [h4]; rfl
            · right; exact h4
          | cons x r =>
            have := d5.resolve_left (by simp)
            right
            rw [List.cons_append, List.tail_cons, colsOf_append, colsOf_map]
            rw [List.tail_cons] at this
            omega
      · rw [if_neg hp]
        have hpn : p ≠ [] := fun h => hp (byteLen_eq_zero.2 h)
        have e2 : takeBytes c.src (byteLen p) = some p := by rw [h2, takeBytes_prefix]
        rw [e2]
        simp only [Option.bind_eq_bind, Option.bind_some]
        refine ⟨_, q.map (fun ch => (ch, c.flags)), rfl, ?_, .inr ?_, ?_, ?_⟩
        · simp only [List.reverse_cons, styledChars_append, styledChars_cons, styledChars_nil]
          conv => lhs; rw [h2]
          simp
        · rw [colsOf_map]
          rcases h3 with h3 | h3
          · exact h3
          · exact absurd h3 hpn
        · intro h x hx
          simp only [List.mem_cons] at hx
          rcases hx with rfl | hx
          · exact hpn
          · exact h x (by simp [hx])
        · rw [← List.map_tail, colsOf_map]
          rcases h4 with h4 | h4
          · left; rw [h4]; rfl
          · right; exact h4

theorem truncateLeft_ok (e : Nat) (cs : List Compound) (hne : ∀ c ∈ cs, c.src ≠ []) (he : 0 < e) :
    ∃ cs' r u, truncateLeft cw e cs = some cs' ∧ styledChars cs = r ++ u ∧ styledChars cs' = dots :: u ∧
      (u = [] ∨ e ≤ colsOf cw r) ∧ (r = [] ∨ colsOf cw r.dropLast < e) := by
  obtain ⟨cs', r, h1, h2, h3, h4, h5⟩ := leftTrunc_ok (cw := cw) cs e hne
  refine ⟨Compound.raw ellipsisText :: cs', r, styledChars cs', by simp [truncateLeft, he, h1], h2, rfl, ?_, h5⟩
  rcases h4 with rfl | h4
  · exact .inl rfl
  · exact .inr h4

theorem truncateRight_ok (e : Nat) (cs : List Compound) (he : 0 < e) :
    ∃ cs' r u, truncateRight cw e cs = some cs' ∧ styledChars cs = u ++ r ∧ styledChars cs' = u ++ [dots] ∧
      (u = [] ∨ e ≤ colsOf cw r) ∧ (r = [] ∨ colsOf cw r.tail < e) := by
  obtain ⟨cs', r, h1, h2, h3, _, h5⟩ := rightTruncRev_ok (cw := cw) cs.reverse e
  rw [List.reverse_reverse] at h2
  refine ⟨cs'.reverse ++ [Compound.raw ellipsisText], r, styledChars cs'.reverse, by simp [truncateRight, he, h1], h2, ?_, ?_, h5⟩
  · rw [styledChars_append]; rfl
  · rcases h3 with rfl | h3
    · exact .inl rfl
    · exact .inr h3

end Verif
