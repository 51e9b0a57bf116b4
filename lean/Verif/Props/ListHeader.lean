import Verif.Props.ListViewDisplay
/-! C47: the styles of the title line and of the rule of a list view. -/
namespace Verif.Props
open Verif Spec ListView

variable {T : Type}

private theorem titles_styles (v : ListView T) (skin : Skin) : ∀ (tt : List (List Nat)) (first : Bool) (ps : List Piece),
    v.writeTitles skin first tt = some ps → ∃ texts : List Text, texts.length = tt.length ∧
      ps = (if first then [] else texts.head?.toList.map fun _ => (skin.table.style, ['│'])) ++
        (texts.map fun t => ((skin.headers 0).style, t)).intersperse (skin.table.style, ['│']) := by
  intro tt
  induction tt with
  | nil => intro first ps h; simp only [writeTitles, Option.some.injEq] at h; exact ⟨[], rfl, by subst h; simp⟩
  | cons t tt ih =>
    intro first ps h
    simp only [writeTitles, Option.bind_eq_bind, Option.bind_eq_some_iff, Option.some.injEq] at h
    obtain ⟨sum, _, width, _, i, _, c, _, more, hm, rfl⟩ := h
    obtain ⟨texts, hl, rfl⟩ := ih false more hm
    refine ⟨(Spacing.mk width .center).writeStr c.title :: texts, by simp [hl], ?_⟩
    have e : (StyledChar.new skin.table.style '│').display = [(skin.table.style, ['│'])] := rfl
    rw [e]
    cases texts with
    | nil => cases first <;> simp
    | cons a texts => cases first <;> simp

private theorem rule_styles (v : ListView T) (skin : Skin) : ∀ (tt : List (List Nat)) (first : Bool) (ps : List Piece),
    v.writeRule skin first tt = some ps → ∀ p ∈ ps, p.1 = skin.table.style := by
  have one : ∀ ch, ∀ p ∈ (StyledChar.new skin.table.style ch).display, p.1 = skin.table.style := by
    intro ch p hp
    rw [show (StyledChar.new skin.table.style ch).display = [(skin.table.style, [ch])] from rfl] at hp
    simp only [List.mem_cons, List.not_mem_nil, or_false] at hp
    rw [hp]
  have title : ∀ (t : List Nat) (first : Bool) (ps : List Piece), v.writeTitleRule skin first t = some ps → ∀ p ∈ ps, p.1 = skin.table.style := by
    intro t
    induction t with
    | nil => intro first ps h p hp; simp only [writeTitleRule, Option.some.injEq] at h; subst h; cases hp
    | cons i t ih =>
      intro first ps h p hp
      simp only [writeTitleRule, Option.bind_eq_bind, Option.bind_eq_some_iff, Option.some.injEq] at h
      obtain ⟨w, _, more, hm, rfl⟩ := h
      simp only [List.mem_append] at hp
      rcases hp with (hp | hp) | hp
      · split at hp
        · cases hp
        · exact one _ p hp
      · obtain ⟨l, hl, hp⟩ := List.mem_flatten.1 hp
        rw [List.eq_of_mem_replicate hl] at hp
        exact one _ p hp
      · exact ih false more hm p hp
  intro tt
  induction tt with
  | nil => intro first ps h p hp; simp only [writeRule, Option.some.injEq] at h; subst h; cases hp
  | cons t tt ih =>
    intro first ps h p hp
    simp only [writeRule, Option.bind_eq_bind, Option.bind_eq_some_iff, Option.some.injEq] at h
    obtain ⟨r, hr, more, hm, rfl⟩ := h
    simp only [List.mem_append] at hp
    rcases hp with (hp | hp) | hp
    · split at hp
      · cases hp
      · exact one _ p hp
    · exact title t true r hr p hp
    · exact ih false more hm p hp

/-- C47: titles are in the style of the headers of level 1, the bars between them and the rule in the style of the tables. -/
theorem C47_header_styles (v : ListView T) (skin : Skin) (w : Written) (hw : v.writeOn skin = some w) :
    (∃ titles : List Text, titles.length = v.titles.length ∧
      w.titles.pieces = (titles.map fun t => ((skin.headers 0).style, t)).intersperse (skin.table.style, ['│'])) ∧
    ∀ p ∈ w.rule.pieces, p.1 = skin.table.style := by
  simp only [writeOn, Option.bind_eq_bind, Option.bind_eq_some_iff, Option.some.injEq] at hw
  obtain ⟨sx, _, titles, ht, y1, _, rule, hr, bar, _, body, _, rfl⟩ := hw
  refine ⟨?_, rule_styles v skin _ _ _ hr⟩
  obtain ⟨texts, hl, rfl⟩ := titles_styles v skin _ _ _ ht
  exact ⟨texts, hl, by simp⟩

/-- C47: the titles of the list of the examples. -/
example : ∃ w, (listOf ⟨0, 0, 12, 5⟩ displayColumns [0, 1, 2, 3, 4]).writeOn {} = some w ∧
    w.titles.pieces = [((({} : Skin).headers 0).style, "key ".toList), (({} : Skin).table.style, ['│']), ((({} : Skin).headers 0).style, "  v   ".toList)] :=
  ⟨_, rfl, by decide⟩

end Verif.Props
