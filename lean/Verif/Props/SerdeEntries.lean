import Verif.Spec.SerdeEntries
import Verif.Props.Serde
/-! What a user can give for a skin, and what becomes of it (C40). -/
namespace Verif
open Spec

namespace Props

theorem bind_ok_iff {α : Type} (r : Except SkinError α) (f : α → Skin) : (∃ z, (r >>= fun x => .ok (f x)) = .ok z) ↔ ∃ x, r = .ok x := by
  cases r with
  | error e => exact ⟨fun ⟨_, h⟩ => (by cases h), fun ⟨_, h⟩ => (by cases h)⟩
  | ok x => exact ⟨fun _ => ⟨x, rfl⟩, fun _ => ⟨f x, rfl⟩⟩

theorem readStyle_ok {k : Classes} {v : DataValue} : (∃ x, readStyle k v = .ok x) ↔ ∃ s, v = .str s ∧ ReadsAsStyle k s := by
  cases v with
  | str s =>
    simp only [readStyle, parseCompoundStyle, ReadsAsStyle, DataValue.str.injEq, exists_eq_left']
    cases h : parseStyleTokens k s <;> simp [ofParsing, bind, Except.bind]
  | _ => simp [readStyle]

theorem readChar_ok {k : Classes} {v : DataValue} : (∃ x, readChar k v = .ok x) ↔ ∃ s, v = .str s ∧ ReadsAsStyle k s := by
  cases v with
  | str s =>
    simp only [readChar, parseStyledChar, ReadsAsStyle, DataValue.str.injEq, exists_eq_left']
    cases h : parseStyleTokens k s <;> simp [ofParsing, bind, Except.bind]
  | _ => simp [readChar]

theorem readLine_ok {k : Classes} {v : DataValue} : (∃ x, readLine k v = .ok x) ↔ ∃ s, v = .str s ∧ ReadsAsStyle k s := by
  cases v with
  | str s =>
    simp only [readLine, parseLineStyle, ReadsAsStyle, DataValue.str.injEq, exists_eq_left']
    cases h : parseStyleTokens k s <;> simp [ofParsing, bind, Except.bind]
  | _ => simp [readLine]

theorem readLines_ok {k : Classes} (l : List Text) : (∃ x, readLines k l = .ok x) ↔ ∀ s ∈ l, ReadsAsStyle k s := by
  induction l with
  | nil => simp [readLines]
  | cons s l ih =>
    have h1 : (∃ x, readLine k (.str s) = .ok x) ↔ ReadsAsStyle k s := by rw [readLine_ok]; simp
    rw [List.forall_mem_cons, ← h1, ← ih]
    simp only [readLines, bind, Except.bind]
    cases readLine k (.str s) <;> cases readLines k l <;> simp

theorem uniqueField_ok {m : List (String × Text)} {key : String} {t : Text} :
    uniqueField m key = .ok t ↔ m.filter (·.1 == key) = [(key, t)] := by
  unfold uniqueField
  have hk : ∀ e ∈ m.filter (fun e => e.1 == key), e.1 = key := by
    intro e he; simpa using (List.mem_filter.mp he).2
  generalize m.filter (fun e => e.1 == key) = l at hk
  match l with
  | [] => simp
  | [e] =>
    have := hk e (List.mem_singleton.mpr rfl)
    obtain ⟨a, b⟩ := e
    subst this
    simp
  | _ :: _ :: _ => simp

theorem readScrollbar_ok {k : Classes} {v : DataValue} : (∃ x, readScrollbar k v = .ok x) ↔
    (∃ s, v = .str s ∧ ReadsAsStyle k s) ∨ ∃ track thumb, ReadsAsStyle k track ∧ ReadsAsStyle k thumb ∧
      (v = .list [track, thumb] ∨ ∃ m, v = .map m ∧ m.filter (·.1 == "track") = [("track", track)] ∧ m.filter (·.1 == "thumb") = [("thumb", thumb)]) := by
  have h1 : ∀ s, (∃ x, readChar k (.str s) = .ok x) ↔ ReadsAsStyle k s := fun s => by rw [readChar_ok]; simp
  have two : ∀ a b, (∃ x, (do let track ← readChar k (.str a); let thumb ← readChar k (.str b); (.ok (.rich track thumb) : Except SkinError ScrollBarStyleDef)) = .ok x) ↔
      ReadsAsStyle k a ∧ ReadsAsStyle k b := by
    intro a b
    rw [← h1 a, ← h1 b]
    cases readChar k (.str a) <;> cases readChar k (.str b) <;> simp [bind, Except.bind]
  cases v with
  | str s =>
    have := h1 s
    simp only [readScrollbar, DataValue.str.injEq, exists_eq_left', reduceCtorEq, false_and, exists_false, or_false, and_false]
    rw [← this]
    cases readChar k (.str s) <;> simp [bind, Except.bind]
  | other => simp [readScrollbar]
  | list l =>
    match l with
    | [] => simp [readScrollbar]
    | [_] => simp [readScrollbar]
    | _ :: _ :: _ :: _ => simp [readScrollbar]
    | [a, b] =>
      simp only [readScrollbar]
      rw [two]
      simp only [reduceCtorEq, false_and, exists_false, or_false, false_or, DataValue.list.injEq, List.cons.injEq, and_true]
      exact ⟨fun h => ⟨a, b, h.1, h.2, rfl, rfl⟩, fun ⟨_, _, h1, h2, e1, e2⟩ => by subst e1; subst e2; exact ⟨h1, h2⟩⟩
  | map m =>
    simp only [readScrollbar, reduceCtorEq, false_and, exists_false, false_or, DataValue.map.injEq, exists_eq_left']
    constructor
    · intro ⟨x, hx⟩
      cases ht : uniqueField m "track" with
      | error e => rw [ht] at hx; cases hx
      | ok a =>
        cases hb : uniqueField m "thumb" with
        | error e => rw [ht, hb] at hx; cases hx
        | ok b =>
          rw [ht, hb] at hx
          have := (two a b).mp ⟨x, hx⟩
          exact ⟨a, b, this.1, this.2, uniqueField_ok.mp ht, uniqueField_ok.mp hb⟩
    · intro ⟨a, b, ha, hb, h1, h2⟩
      rw [uniqueField_ok.mpr h1, uniqueField_ok.mpr h2]
      exact (two a b).mpr ⟨ha, hb⟩

theorem setEntry_mainKey (k : Classes) (z : Skin) (key : String) (v : DataValue) : z.setEntry k (mainKey key) v = z.setEntry k key v := by
  unfold mainKey
  by_cases h1 : key = "inline-code"
  · subst h1; rfl
  by_cases h2 : key = "quote" ∨ key = "quote-mark"
  · rcases h2 with rfl | rfl <;> rfl
  by_cases h3 : key = "rule" ∨ key = "horizontal-rule"
  · rcases h3 with rfl | rfl <;> rfl
  by_cases h4 : key = "code-block"
  · subst h4; rfl
  by_cases h5 : key = "table-border-chars"
  · subst h5; rfl
  rw [if_neg h1, if_neg h2, if_neg h3, if_neg h4, if_neg h5]

/-- C40: the entries which have several names can be given under any of them. -/
theorem C40_aliases (k : Classes) (entries : List (String × DataValue)) :
    Skin.deserialize k (entries.map fun e => (mainKey e.1, e.2)) = Skin.deserialize k entries := by
  unfold Skin.deserialize
  rw [List.foldl_map]
  simp only [setEntry_mainKey]

example : Skin.deserialize asciiClasses [("rule", .str "red +".toList), ("quote-mark", .str "blue >".toList)] =
    Skin.deserialize asciiClasses [("horizontal_rule", .str "red +".toList), ("quote_mark", .str "blue >".toList)] :=
  (C40_aliases _ _).symm

theorem setEntry_ok {k : Classes} {z : Skin} {key : String} {v : DataValue} : (∃ z', z.setEntry k key v = .ok z') ↔ AcceptedEntry k key v := by
  have style : ∀ key', mainKey key' ∈ styleKeys → key' ≠ "headers" → key' ≠ "scrollbar" →
      ((∃ s, v = .str s ∧ ReadsAsStyle k s) ↔ AcceptedEntry k key' v) := by
    intro key' h1 h2 h3
    simp only [AcceptedEntry, h1, h2, h3, false_and, or_false, forall_const]
  unfold Skin.setEntry
  by_cases h0 : key = "bold"
  · rw [if_pos h0, bind_ok_iff, readStyle_ok]; subst h0; exact style _ (by decide) (by decide) (by decide)
  rw [if_neg h0]
  by_cases h1 : key = "italic"
  · rw [if_pos h1, bind_ok_iff, readStyle_ok]; subst h1; exact style _ (by decide) (by decide) (by decide)
  rw [if_neg h1]
  by_cases h2 : key = "strikeout"
  · rw [if_pos h2, bind_ok_iff, readStyle_ok]; subst h2; exact style _ (by decide) (by decide) (by decide)
  rw [if_neg h2]
  by_cases h3 : key = "inline_code" ∨ key = "inline-code"
  · rw [if_pos h3, bind_ok_iff, readStyle_ok]; rcases h3 with rfl | rfl <;> exact style _ (by decide) (by decide) (by decide)
  rw [if_neg h3]
  by_cases h4 : key = "ellipsis"
  · rw [if_pos h4, bind_ok_iff, readStyle_ok]; subst h4; exact style _ (by decide) (by decide) (by decide)
  rw [if_neg h4]
  by_cases h5 : key = "bullet"
  · rw [if_pos h5, bind_ok_iff, readChar_ok]; subst h5; exact style _ (by decide) (by decide) (by decide)
  rw [if_neg h5]
  by_cases h6 : key = "quote_mark" ∨ key = "quote" ∨ key = "quote-mark"
  · rw [if_pos h6, bind_ok_iff, readChar_ok]; rcases h6 with rfl | rfl | rfl <;> exact style _ (by decide) (by decide) (by decide)
  rw [if_neg h6]
  by_cases h7 : key = "horizontal_rule" ∨ key = "horizontal-rule" ∨ key = "rule"
  · rw [if_pos h7, bind_ok_iff, readChar_ok]; rcases h7 with rfl | rfl | rfl <;> exact style _ (by decide) (by decide) (by decide)
  rw [if_neg h7]
  by_cases h8 : key = "scrollbar"
  · rw [if_pos h8, bind_ok_iff, readScrollbar_ok]; subst h8
    have : mainKey "scrollbar" ∈ styleKeys := by decide
    have e : ("scrollbar" = "headers") ↔ False := by decide
    simp only [AcceptedEntry, this, forall_const, true_and, e, false_and, false_or]
  rw [if_neg h8]
  by_cases h9 : key = "paragraph"
  · rw [if_pos h9, bind_ok_iff, readLine_ok]; subst h9; exact style _ (by decide) (by decide) (by decide)
  rw [if_neg h9]
  by_cases h10 : key = "code_block" ∨ key = "code-block"
  · rw [if_pos h10, bind_ok_iff, readLine_ok]; rcases h10 with rfl | rfl <;> exact style _ (by decide) (by decide) (by decide)
  rw [if_neg h10]
  by_cases h11 : key = "table"
  · rw [if_pos h11, bind_ok_iff, readLine_ok]; subst h11; exact style _ (by decide) (by decide) (by decide)
  rw [if_neg h11]
  by_cases h12 : key = "headers"
  · rw [if_pos h12]; subst h12
    have hm : mainKey "headers" ∈ styleKeys := by decide
    have e : ("headers" = "scrollbar") ↔ False := by decide
    simp only [AcceptedEntry, hm, forall_const, true_and, e, false_and, or_false]
    cases v with
    | str s =>
      unfold Skin.readHeaders
      rw [bind_ok_iff, readLine_ok]; simp
    | list l =>
      unfold Skin.readHeaders
      rw [bind_ok_iff, readLines_ok]; simp
    | map m => simp [Skin.readHeaders]
    | other => simp [Skin.readHeaders]
  rw [if_neg h12]
  have other : mainKey key ∉ styleKeys → ((∃ s, v = .str s) ↔ AcceptedEntry k key v) := by
    intro h
    simp only [AcceptedEntry, h, h8, h12, false_and, or_false, false_implies, and_true]
  by_cases h13 : key = "table_border_chars" ∨ key = "table-border-chars"
  · rw [if_pos h13, ← other (by rcases h13 with rfl | rfl <;> decide)]
    cases v with
    | str s => dsimp only; cases TableBorderChars.byKey s <;> simp
    | _ => simp
  rw [if_neg h13, ← other ?_]
  · cases v <;> simp
  · unfold mainKey styleKeys
    rw [not_or] at h3 h10 h13
    rw [not_or, not_or] at h6 h7
    rw [if_neg h3.2, if_neg (by rw [not_or]; exact h6.2), if_neg (by rw [not_or]; exact ⟨h7.2.2, h7.2.1⟩), if_neg h10.2, if_neg h13.2]
    simp only [List.mem_cons, List.not_mem_nil, or_false, not_or]
    exact ⟨h0, h1, h2, h3.1, h4, h5, h6.1, h7.1, h8, h9, h10.1, h11, h12⟩

theorem entries_error (k : Classes) (x : SkinError) (l : List (String × DataValue)) :
    l.foldl (fun r e => r.bind fun s => s.setEntry k e.1 e.2) (Except.error x) = (.error x : Except SkinError Skin) := by
  induction l with
  | nil => rfl
  | cons _ _ ih => rw [List.foldl_cons]; exact ih

/-- C40: a skin is read exactly when every entry is accepted, whatever their order. -/
theorem C40_accepted (k : Classes) (entries : List (String × DataValue)) :
    (∃ skin, Skin.deserialize k entries = .ok skin) ↔ ∀ e ∈ entries, AcceptedEntry k e.1 e.2 := by
  have gen : ∀ (l : List (String × DataValue)) (z : Skin),
      (∃ skin, l.foldl (fun r e => r.bind fun s => s.setEntry k e.1 e.2) (Except.ok (ε := SkinError) z) = .ok skin) ↔ ∀ e ∈ l, AcceptedEntry k e.1 e.2 := by
    intro l
    induction l with
    | nil => intro z; simp
    | cons e l ih =>
      intro z
      rw [List.foldl_cons, List.forall_mem_cons, show (Except.ok (ε := SkinError) z).bind (fun s => s.setEntry k e.1 e.2) = z.setEntry k e.1 e.2 from rfl]
      cases hz : z.setEntry k e.1 e.2 with
      | error x =>
        rw [entries_error]
        have : ¬ AcceptedEntry k e.1 e.2 := fun h => by
          obtain ⟨z', h⟩ := setEntry_ok (z := z).mpr h
          rw [hz] at h; cases h
        simp [this]
      | ok z' =>
        rw [ih z']
        exact ⟨fun h => ⟨setEntry_ok.mp ⟨z', hz⟩, h⟩, fun h => h.2⟩
  exact gen entries _

theorem rest_same {k : Classes} (l : List (String × DataValue)) (z skin : Skin)
    (h : l.foldl (fun r e => r.bind fun s => s.setEntry k e.1 e.2) (Except.ok (ε := SkinError) z) = .ok skin) : SameBut (l.map (·.1)) z skin := by
  induction l generalizing z with
  | nil => injection h with h; subst h; exact sameBut_refl _ _
  | cons e l ih =>
    rw [List.foldl_cons, show (Except.ok (ε := SkinError) z).bind (fun s => s.setEntry k e.1 e.2) = z.setEntry k e.1 e.2 from rfl] at h
    cases hz : z.setEntry k e.1 e.2 with
    | error x => rw [hz, entries_error] at h; cases h
    | ok z' => rw [hz] at h; exact SameBut.trans (setEntry_same hz) (ih z' h)

theorem at_entry {k : Classes} {before after : List (String × DataValue)} {key : String} {v : DataValue} {skin : Skin}
    (h : Skin.deserialize k (before ++ (key, v) :: after) = .ok skin) :
    ∃ z z' : Skin, z.setEntry k (mainKey key) v = .ok z' ∧ SameBut (after.map (·.1)) z' skin := by
  unfold Skin.deserialize at h
  rw [List.foldl_append, List.foldl_cons] at h
  cases hb : before.foldl (fun r e => r.bind fun s => s.setEntry k e.1 e.2) (Except.ok (ε := SkinError) Skin.default) with
  | error x =>
    rw [hb, show (Except.error x : Except SkinError Skin).bind (fun sk => sk.setEntry k (key, v).1 (key, v).2) = .error x from rfl, entries_error] at h
    cases h
  | ok z =>
    rw [hb, show (Except.ok z : Except SkinError Skin).bind (fun sk => sk.setEntry k (key, v).1 (key, v).2) = z.setEntry k key v from rfl] at h
    cases hz : z.setEntry k key v with
    | error x => rw [hz, entries_error] at h; cases h
    | ok z' =>
      rw [hz] at h
      exact ⟨z, z', by rw [setEntry_mainKey]; exact hz, rest_same _ _ _ h⟩

theorem not_later {after : List (String × DataValue)} {main : String} (ha : ∀ e ∈ after, mainKey e.1 ≠ main) :
    ∀ key ∈ after.map (·.1), mainKey key ≠ main := by
  intro key hk
  obtain ⟨e, he, rfl⟩ := List.mem_map.mp hk
  exact ha e he

theorem bind_style {k : Classes} {v : DataValue} {f : CompoundStyle → Skin} {z' : Skin} (h : (readStyle k v >>= fun x => .ok (f x)) = .ok z') :
    ∃ s x, v = .str s ∧ parseCompoundStyle k s = .ok x ∧ z' = f x := by
  cases v with
  | str s =>
    simp only [readStyle] at h
    cases hp : parseCompoundStyle k s with
    | error e => rw [hp] at h; cases h
    | ok x => rw [hp] at h; injection h with h; exact ⟨s, x, rfl, hp, h.symm⟩
  | _ => cases h

theorem bind_char {k : Classes} {v : DataValue} {f : StyledChar → Skin} {z' : Skin} (h : (readChar k v >>= fun x => .ok (f x)) = .ok z') :
    ∃ s x, v = .str s ∧ parseStyledChar k s '*' = .ok x ∧ z' = f x := by
  cases v with
  | str s =>
    simp only [readChar] at h
    cases hp : parseStyledChar k s '*' with
    | error e => rw [hp] at h; cases h
    | ok x => rw [hp] at h; injection h with h; exact ⟨s, x, rfl, hp, h.symm⟩
  | _ => cases h

theorem bind_line {k : Classes} {v : DataValue} {f : LineStyle → Skin} {z' : Skin} (h : (readLine k v >>= fun x => .ok (f x)) = .ok z') :
    ∃ s x, v = .str s ∧ parseLineStyle k s = .ok x ∧ z' = f x := by
  cases v with
  | str s =>
    simp only [readLine] at h
    cases hp : parseLineStyle k s with
    | error e => rw [hp] at h; cases h
    | ok x => rw [hp] at h; injection h with h; exact ⟨s, x, rfl, hp, h.symm⟩
  | _ => cases h

/-- C40: the value given last for a field, under any of its names, is the one of the skin. -/
theorem C40_last {k : Classes} (before after : List (String × DataValue)) (key : String) (v : DataValue) (skin : Skin)
    (h : Skin.deserialize k (before ++ (key, v) :: after) = .ok skin) (ha : ∀ e ∈ after, mainKey e.1 ≠ mainKey key) :
    (∀ get, (mainKey key, get) ∈ compoundFields → ∃ s, v = .str s ∧ parseCompoundStyle k s = .ok (get skin)) ∧
    (∀ get, (mainKey key, get) ∈ charFields → ∃ s, v = .str s ∧ parseStyledChar k s '*' = .ok (get skin)) ∧
    (∀ get, (mainKey key, get) ∈ lineFields → ∃ s, v = .str s ∧ parseLineStyle k s = .ok (get skin)) := by
  obtain ⟨z, z', hz, hs⟩ := at_entry h
  have hl := not_later ha
  generalize mainKey key = main at *
  refine ⟨fun get hg => ?_, fun get hg => ?_, fun get hg => ?_⟩
  · simp only [compoundFields, List.mem_cons, List.not_mem_nil, or_false, Prod.mk.injEq] at hg
    rcases hg with ⟨rfl, rfl⟩ | ⟨rfl, rfl⟩ | ⟨rfl, rfl⟩ | ⟨rfl, rfl⟩ | ⟨rfl, rfl⟩
    · obtain ⟨s, x, hv, hp, rfl⟩ := bind_style (f := fun x => { z with bold := x }) hz
      refine ⟨s, hv, ?_⟩
      dsimp only
      rw [hs.bold (by rintro _ hk rfl; exact hl _ hk rfl)]; exact hp
    · obtain ⟨s, x, hv, hp, rfl⟩ := bind_style (f := fun x => { z with italic := x }) hz
      refine ⟨s, hv, ?_⟩
      dsimp only
      rw [hs.italic (by rintro _ hk rfl; exact hl _ hk rfl)]; exact hp
    · obtain ⟨s, x, hv, hp, rfl⟩ := bind_style (f := fun x => { z with strikeout := x }) hz
      refine ⟨s, hv, ?_⟩
      dsimp only
      rw [hs.strikeout (by rintro _ hk rfl; exact hl _ hk rfl)]; exact hp
    · obtain ⟨s, x, hv, hp, rfl⟩ := bind_style (f := fun x => { z with inlineCode := x }) hz
      refine ⟨s, hv, ?_⟩
      dsimp only
      rw [hs.inlineCode (by rintro _ hk (rfl | rfl) <;> exact hl _ hk rfl)]; exact hp
    · obtain ⟨s, x, hv, hp, rfl⟩ := bind_style (f := fun x => { z with ellipsis := x }) hz
      refine ⟨s, hv, ?_⟩
      dsimp only
      rw [hs.ellipsis (by rintro _ hk rfl; exact hl _ hk rfl)]; exact hp
  · simp only [charFields, List.mem_cons, List.not_mem_nil, or_false, Prod.mk.injEq] at hg
    rcases hg with ⟨rfl, rfl⟩ | ⟨rfl, rfl⟩ | ⟨rfl, rfl⟩
    · obtain ⟨s, x, hv, hp, rfl⟩ := bind_char (f := fun x => { z with bullet := x }) hz
      refine ⟨s, hv, ?_⟩
      dsimp only
      rw [hs.bullet (by rintro _ hk rfl; exact hl _ hk rfl)]; exact hp
    · obtain ⟨s, x, hv, hp, rfl⟩ := bind_char (f := fun x => { z with quoteMark := x }) hz
      refine ⟨s, hv, ?_⟩
      dsimp only
      rw [hs.quoteMark (by rintro _ hk (rfl | rfl | rfl) <;> exact hl _ hk rfl)]; exact hp
    · obtain ⟨s, x, hv, hp, rfl⟩ := bind_char (f := fun x => { z with horizontalRule := x }) hz
      refine ⟨s, hv, ?_⟩
      dsimp only
      rw [hs.horizontalRule (by rintro _ hk (rfl | rfl | rfl) <;> exact hl _ hk rfl)]; exact hp
  · simp only [lineFields, List.mem_cons, List.not_mem_nil, or_false, Prod.mk.injEq] at hg
    rcases hg with ⟨rfl, rfl⟩ | ⟨rfl, rfl⟩ | ⟨rfl, rfl⟩
    · obtain ⟨s, x, hv, hp, rfl⟩ := bind_line (f := fun x => { z with paragraph := x }) hz
      refine ⟨s, hv, ?_⟩
      dsimp only
      rw [hs.paragraph (by rintro _ hk rfl; exact hl _ hk rfl)]; exact hp
    · obtain ⟨s, x, hv, hp, rfl⟩ := bind_line (f := fun x => { z with codeBlock := x }) hz
      refine ⟨s, hv, ?_⟩
      dsimp only
      rw [hs.codeBlock (by rintro _ hk (rfl | rfl) <;> exact hl _ hk rfl)]; exact hp
    · obtain ⟨s, x, hv, hp, rfl⟩ := bind_line (f := fun x => { z with table := x }) hz
      refine ⟨s, hv, ?_⟩
      dsimp only
      rw [hs.table (by rintro _ hk rfl; exact hl _ hk rfl)]; exact hp

theorem readLines_at {k : Classes} {l : List Text} {levels : List LineStyle} (h : readLines k l = .ok levels) :
    levels.length = l.length ∧ ∀ (i : Nat) (s : Text) (x : LineStyle), l[i]? = some s → levels[i]? = some x → parseLineStyle k s = .ok x := by
  induction l generalizing levels with
  | nil => injection h with h; subst h; simp
  | cons s l ih =>
    simp only [readLines, readLine] at h
    cases hp : parseLineStyle k s with
    | error e => rw [hp] at h; cases h
    | ok x =>
      rw [hp] at h
      cases hr : readLines k l with
      | error e => rw [hr] at h; cases h
      | ok rest =>
        rw [hr] at h
        injection h with h
        subst h
        obtain ⟨h1, h2⟩ := ih hr
        refine ⟨by simp [h1], fun i s' x' hs hx => ?_⟩
        cases i with
        | zero => simp at hs hx; subst hs; subst hx; exact hp
        | succ i => exact h2 i s' x' (by simpa using hs) (by simpa using hx)

/-- C40: the levels of headers given in the last list are those of the skin (at most 8 of them); the next ones aren't changed by it. -/
theorem C40_levels {k : Classes} (before after : List (String × DataValue)) (l : List Text) (skin : Skin)
    (h : Skin.deserialize k (before ++ ("headers", .list l) :: after) = .ok skin) (ha : ∀ e ∈ after, e.1 ≠ "headers") :
    (∀ (i : Fin 8) (s : Text), l[i.val]? = some s → parseLineStyle k s = .ok (skin.headers i)) ∧
    ∀ skin', Skin.deserialize k (before ++ after) = .ok skin' → ∀ i : Fin 8, l.length ≤ i.val → skin.headers i = skin'.headers i := by
  unfold Skin.deserialize at h ⊢
  rw [List.foldl_append, List.foldl_cons] at h
  rw [List.foldl_append]
  have hl : ∀ key ∈ after.map (·.1), ¬ key = "headers" := by
    intro key hk e
    obtain ⟨x, hx, rfl⟩ := List.mem_map.mp hk
    exact ha x hx e
  cases hb : before.foldl (fun r e => r.bind fun s => s.setEntry k e.1 e.2) (Except.ok (ε := SkinError) Skin.default) with
  | error x =>
    rw [hb, show (Except.error x : Except SkinError Skin).bind (fun sk => sk.setEntry k ("headers", DataValue.list l).1 ("headers", DataValue.list l).2) = .error x from rfl,
      entries_error] at h
    cases h
  | ok z =>
    rw [hb, show (Except.ok z : Except SkinError Skin).bind (fun sk => sk.setEntry k ("headers", DataValue.list l).1 ("headers", DataValue.list l).2) =
      z.readHeaders k (.list l) from rfl] at h
    simp only [Skin.readHeaders] at h
    cases hr : readLines k l with
    | error e =>
      rw [hr] at h
      rw [show ((Except.error e : Except SkinError (List LineStyle)) >>= fun levels =>
        (.ok { z with headers := fun i => (levels[i.val]?).getD (z.headers i) } : Except SkinError Skin)) = .error e from rfl, entries_error] at h
      cases h
    | ok levels =>
      rw [hr] at h
      obtain ⟨h1, h2⟩ := readLines_at hr
      have hs := (rest_same _ _ _ h).headers hl
      refine ⟨fun i s hi => ?_, fun skin' h' i hi => ?_⟩
      · have hlt : i.val < levels.length := by rw [h1]; exact (List.getElem?_eq_some_iff.mp hi).1
        have := h2 i.val s levels[i.val] hi (List.getElem?_eq_getElem hlt)
        rw [hs]
        dsimp only
        rw [List.getElem?_eq_getElem hlt]
        exact this
      · rw [hs, (rest_same _ _ _ h').headers hl]
        dsimp only
        rw [List.getElem?_eq_none (by omega)]
        rfl

/-- C40: the last scrollbar given is the one of the skin: the character and the colors of the thumb and of the track when it's a string, or
both styled chars. -/
theorem C40_scrollbar {k : Classes} (before after : List (String × DataValue)) (v : DataValue) (skin : Skin)
    (h : Skin.deserialize k (before ++ ("scrollbar", v) :: after) = .ok skin) (ha : ∀ e ∈ after, e.1 ≠ "scrollbar") :
    (∀ s, v = .str s → ∃ sc, parseStyledChar k s '*' = .ok sc ∧
      skin.scrollbar.thumb = StyledChar.fromFgChar (sc.style.fg.getD (gray 21)) sc.char ∧
      skin.scrollbar.track = StyledChar.fromFgChar (sc.style.bg.getD (gray 5)) sc.char) ∧
    (∀ track thumb, v = .list [track, thumb] ∨ v = .map [("track", track), ("thumb", thumb)] ∨ v = .map [("thumb", thumb), ("track", track)] →
      parseStyledChar k track '*' = .ok skin.scrollbar.track ∧ parseStyledChar k thumb '*' = .ok skin.scrollbar.thumb) := by
  obtain ⟨z, z', hz, hs⟩ := at_entry h
  have hsb := hs.scrollbar (by
    intro key hk e
    obtain ⟨x, hx, rfl⟩ := List.mem_map.mp hk
    exact ha x hx e)
  have hz : (readScrollbar k v >>= fun x => .ok { z with scrollbar := x.toStyle }) = (.ok z' : Except SkinError Skin) := hz
  refine ⟨fun s hv => ?_, fun track thumb hv => ?_⟩
  · subst hv
    simp only [readScrollbar, readChar] at hz
    cases hp : parseStyledChar k s '*' with
    | error e => rw [hp] at hz; cases hz
    | ok sc =>
      rw [hp] at hz
      injection hz with hz
      subst hz
      rw [hsb]
      exact ⟨sc, rfl, rfl, rfl⟩
  · have hz : ((do let a ← readChar k (.str track); let b ← readChar k (.str thumb); (.ok (.rich a b) : Except SkinError ScrollBarStyleDef)) >>= fun x =>
        .ok { z with scrollbar := x.toStyle }) = (.ok z' : Except SkinError Skin) := by
      rcases hv with rfl | rfl | rfl <;> exact hz
    simp only [readChar] at hz
    cases hp : parseStyledChar k track '*' with
    | error e => rw [hp] at hz; cases hz
    | ok a =>
      cases hq : parseStyledChar k thumb '*' with
      | error e => rw [hp, hq] at hz; cases hz
      | ok b =>
        rw [hp, hq] at hz
        injection hz with hz
        subst hz
        rw [hsb]
        exact ⟨rfl, rfl⟩

/-- A skin whose bold is given twice, with an alias for the code blocks: the last bold is taken. -/
def givenEntries : List (String × DataValue) :=
  [("bold", .str "red".toList), ("code-block", .str "2 3".toList), ("bold", .str "blue".toList), ("headers", .list ["center".toList, "red".toList]),
    ("scrollbar", .list ["red |".toList, "blue #".toList]), ("unknown", .str "whatever(".toList)]

example : ∃ skin, Skin.deserialize asciiClasses givenEntries = .ok skin ∧ skin.bold.fg = some .blue ∧ skin.codeBlock.leftMargin = 2 ∧
    (skin.headers 1).style.fg = some .red ∧ skin.scrollbar.thumb.char = '#' := by
  refine ⟨_, rfl, ?_, ?_, ?_, ?_⟩ <;> decide +kernel

/-- An invalid style, or an unknown entry which isn't a string, makes the deserialization fail. -/
example : (Skin.deserialize asciiClasses [("bold", .str "red".toList), ("table", .str "gray(99)".toList)]).toOption.isNone = true ∧
    (Skin.deserialize asciiClasses [("unknown", .list [])]).toOption.isNone = true := by
  decide +kernel

end Props
end Verif
