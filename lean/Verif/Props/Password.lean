import Verif.Lemmas.PasswordField
import Verif.Props.InputField
/-! C77: nothing of the characters of a password field is shown but their number and their widths. -/
namespace Verif.Props
open Verif.InputField Verif.Content Verif.Spec

private instance decSeen : DecidableEq (Option (Run (List Row × Option (Nat × Nat)))) := inferInstance
private instance decSeenBools : DecidableEq (Option (Run (List Row × Option (Nat × Nat))) × List Bool) :=
  @instDecidableEqProd _ _ decSeen inferInstance

theorem seen_alike {cw : Char → Nat} (bar : Char × Char) {f g : InputField} (h : AlikeField cw f g) : seenIn cw bar f = seenIn cw bar g := by
  unfold seenIn
  rw [h.password]
  by_cases hp : g.passwordMode = true
  · rw [if_pos hp, if_pos hp]
    have hl : f.content.lines.map List.length = g.content.lines.map List.length := by
      have := congrArg (List.map List.length) h.content.lines
      simpa [List.map_map, Function.comp_def] using this
    have hf : f = { g with content := { g.content with lines := f.content.lines } } := by
      obtain ⟨⟨hpos, htail, -⟩, ha, hpw, hfo, hsc, hk, -⟩ := h
      cases f with
      | mk c a p fo sc k =>
        cases c with
        | mk pos tail lines =>
          cases hpos; cases htail; cases ha; cases hpw; cases hfo; cases hsc; cases hk
          rfl
    rw [hf]
    exact congrArg some (C27_password cw bar hp _ hl)
  · rw [if_neg hp, if_neg hp]

/-- C77: after two histories made of the same gestures (keys, edits, selections, clicks, drags, resizes...) but with other characters
of the same widths, the same thing is seen on a password field, and the calls return the same booleans, and they panic together. As the
beginnings of alike histories are alike, it's so at every moment. -/
theorem C77_history (cw : Char → Nat) (alnum : Char → Bool) (bar : Char × Char) {f : InputField}
    (hk : ∀ k ∈ f.newLineKeys, ¬ TypesChar k) {ops ops' : List FieldOp} (h : AlikeOps cw ops ops') :
    seenAfter cw alnum bar f ops = seenAfter cw alnum bar f ops' := by
  have hr := AlikeField.execAll alnum (AlikeField.refl (cw := cw) hk) h
  unfold seenAfter
  cases h1 : Spec.execAll cw alnum f ops with
  | none =>
    cases h2 : Spec.execAll cw alnum f ops' with
    | none => rfl
    | some q => rw [h1, h2] at hr; exact hr.elim
  | some p =>
    cases h2 : Spec.execAll cw alnum f ops' with
    | none => rw [h1, h2] at hr; exact hr.elim
    | some q =>
      rw [h1, h2] at hr
      obtain ⟨ha, hb⟩ := hr
      show some (seenIn cw bar p.1, p.2) = some (seenIn cw bar q.1, q.2)
      rw [seen_alike bar ha, hb]

/-- C77: two passwords of the same length, without characters of special widths or roles, can't be told apart when they're typed. -/
theorem C77_typed (cw : Char → Nat) (alnum : Char → Bool) (bar : Char × Char) {f : InputField}
    (hk : ∀ k ∈ f.newLineKeys, ¬ TypesChar k) {s t : Text} (hlen : s.length = t.length)
    (hs : ∀ c ∈ s ++ t, Ordinary c ∧ inputCols cw [c] = 1) :
    seenAfter cw alnum bar f (s.map typed) = seenAfter cw alnum bar f (t.map typed) := by
  refine C77_history cw alnum bar hk ?_
  induction s generalizing t with
  | nil =>
    cases t with
    | nil => trivial
    | cons _ _ => simp at hlen
  | cons a s ih =>
    cases t with
    | nil => simp at hlen
    | cons b t =>
      have ha := hs a (by simp)
      have hb := hs b (by simp)
      refine ⟨Or.inr ⟨⟨⟨a, rfl⟩, rfl, Or.inl rfl⟩, ⟨⟨b, rfl⟩, rfl, Or.inl rfl⟩, Or.inr ⟨ha.1, hb.1, by rw [ha.2, hb.2]⟩, rfl⟩, ?_⟩
      refine ih (by simpa using hlen) fun c hc => hs c ?_
      rcases List.mem_append.1 hc with h | h
      · simp [h]
      · simp [h]

example : AlikeOps (fun _ => 1) ("secret".toList.map typed ++ [.key ⟨.left, [], .shift⟩, .wrapped .delSelection])
    ("public".toList.map typed ++ [.key ⟨.left, [], .shift⟩, .wrapped .delSelection]) := by
  simp [AlikeOps, AlikeOp, AlikeCode, AlikeChar, Ordinary, TypesChar, LooksAtText, typed, inputCols]

example : seenAfter (fun _ => 1) (fun _ => true) ('#', '|') { InputField.new ⟨0, 0, 5, 1⟩ with passwordMode := true } ("sec".toList.map typed) =
    some (some (some ([⟨0, 0, [(.normal, ['*']), (.normal, ['*']), (.normal, ['*']), (.cursor, [' ']), (.normal, [' '])]⟩], some (3, 0))),
      [true, true, true]) := by decide +kernel

/-- The characters a password field can show. -/
private def Mask (bar : Char × Char) (c : Char) : Prop := c = '*' ∨ c = ' ' ∨ c = '…' ∨ c = bar.1 ∨ c = bar.2

private def Masked (bar : Char × Char) (ps : List CellPiece) : Prop := ∀ p ∈ ps, ∀ c ∈ p.2, Mask bar c

private theorem Masked.append {bar : Char × Char} {a b : List CellPiece} (ha : Masked bar a) (hb : Masked bar b) : Masked bar (a ++ b) := by
  intro p hp
  rcases List.mem_append.1 hp with h | h
  · exact ha p h
  · exact hb p h

private theorem Masked.one {bar : Char × Char} {s : CellStyle} {c : Char} (h : Mask bar c) : Masked bar [(s, [c])] := by
  intro p hp x hx
  rw [List.mem_singleton.1 hp] at hx
  rw [List.mem_singleton.1 hx]
  exact h

private theorem drawCell_piece {f : InputField} {sel : Bool} {ch : Char} {d j : Nat} {p : CellPiece × Option (Nat × Nat)}
    (h : f.drawCell sel ch d j = some p) : ∃ s, p.1 = (s, [ch]) := by
  unfold drawCell at h
  split at h
  · obtain ⟨q, -, h⟩ := Option.bind_eq_some_iff.1 h
    cases h
    exact ⟨_, rfl⟩
  · cases h
    exact ⟨_, rfl⟩

private theorem drawChars_masked (bar : Char × Char) {cw : Char → Nat} {f : InputField} (hp : f.passwordMode = true) {sel : Range}
    {y j skip width : Nat} : ∀ (cs : Text) (i skipped displayed : Nat) (cur : Option (Nat × Nat)) (d : Drawn),
    f.drawChars cw sel y j skip width i cs skipped displayed cur = some d → Masked bar d.pieces
  | [], _, _, _, _, _, h => by
    cases h
    intro p hp; cases hp
  | c :: rest, i, skipped, displayed, cur, d, h => by
    unfold drawChars at h
    simp only [hp, if_true] at h
    split at h
    · exact drawChars_masked bar hp rest _ _ _ _ _ h
    · split at h
      · obtain ⟨q, hq, h⟩ := Option.bind_eq_some_iff.1 h
        cases h
        obtain ⟨s, hs⟩ := drawCell_piece hq
        show Masked bar [q.1]
        rw [hs]
        exact .one (by simp [Mask])
      · obtain ⟨q, hq, h⟩ := Option.bind_eq_some_iff.1 h
        obtain ⟨s, hs⟩ := drawCell_piece hq
        have hm : Masked bar [q.1] := by rw [hs]; exact .one (by simp [Mask])
        split at h
        · cases h
          exact hm
        · obtain ⟨r, hr, h⟩ := Option.bind_eq_some_iff.1 h
          cases h
          exact hm.append (b := r.pieces) (drawChars_masked bar hp rest _ _ _ _ _ hr)

private theorem spaces_masked (bar : Char × Char) (n : Nat) : Masked bar (List.replicate n (.normal, [' '])) := by
  intro p hp c hc
  rw [List.eq_of_mem_replicate hp] at hc
  rw [List.mem_singleton.1 hc]
  simp [Mask]

private theorem drawEnd_masked {bar : Char × Char} {f : InputField} {b : Bool} {width j : Nat} {d e : Drawn} (hd : Masked bar d.pieces)
    (h : f.drawEnd b width j d = some e) : Masked bar e.pieces := by
  unfold drawEnd at h
  split at h
  · obtain ⟨q, -, h⟩ := Option.bind_eq_some_iff.1 h
    cases h
    exact hd.append (.append (a := [(.cursor, [' '])]) (.one (by simp [Mask])) (spaces_masked bar _))
  · cases h
    exact hd.append (spaces_masked bar _)

private theorem drawRow_masked {bar : Char × Char} {cw : Char → Nat} {f : InputField} (hp : f.passwordMode = true) {width j : Nat}
    {cur : Option (Nat × Nat)} {d : Drawn} (h : f.drawRow cw width j cur = some d) : Masked bar d.pieces := by
  unfold drawRow at h
  cases hl : f.content.lines[f.scroll.y + j]? with
  | none =>
    rw [hl] at h
    unfold drawEmpty at h
    obtain ⟨chunks, hq, h⟩ := Option.bind_eq_some_iff.1 h
    cases h
    obtain ⟨chunks', hq', hf⟩ := filling_queue ' ' width
    intro p hp c hc
    obtain ⟨t, ht, rfl⟩ := List.mem_map.1 hp
    rw [hq] at hq'
    cases hq'
    have : c ∈ chunks.flatten := List.mem_flatten.2 ⟨t, ht, hc⟩
    rw [hf] at this
    rw [List.eq_of_mem_replicate this]
    simp [Mask]
  | some chars =>
    rw [hl] at h
    unfold drawLine at h
    dsimp only at h
    split at h
    · obtain ⟨d1, h1, h⟩ := Option.bind_eq_some_iff.1 h
      obtain ⟨d2, h2, h⟩ := Option.bind_eq_some_iff.1 h
      cases h
      exact .append (a := [(.normal, ['…'])]) (.one (by simp [Mask])) (drawEnd_masked (drawChars_masked bar hp _ _ _ _ _ _ h1) h2)
    · obtain ⟨d1, h1, h⟩ := Option.bind_eq_some_iff.1 h
      exact drawEnd_masked (drawChars_masked bar hp _ _ _ _ _ _ h1) h

private theorem drawRows_masked {bar : Char × Char} {cw : Char → Nat} {f : InputField} (hp : f.passwordMode = true) {width : Nat}
    {sb : Option (Nat × Nat)} : ∀ (n j : Nat) (cur : Option (Nat × Nat)) (r : List Row × Option (Nat × Nat)),
    f.drawRows cw bar width sb n j cur = some r → ∀ row ∈ r.1, Masked bar row.pieces
  | 0, _, _, _, h => by
    cases h
    intro row hr; cases hr
  | n + 1, j, cur, r, h => by
    unfold drawRows at h
    obtain ⟨y, -, h⟩ := Option.bind_eq_some_iff.1 h
    obtain ⟨d, hd, h⟩ := Option.bind_eq_some_iff.1 h
    obtain ⟨rest, hr, h⟩ := Option.bind_eq_some_iff.1 h
    cases h
    intro row hrow
    rcases List.mem_cons.1 hrow with rfl | hrow
    · refine (drawRow_masked hp hd).append ?_
      unfold drawBar
      cases sb with
      | none => intro p hp; cases hp
      | some tb =>
        dsimp only
        split
        · exact .one (by simp [Mask])
        · exact .one (by simp [Mask])
    · exact drawRows_masked hp n (j + 1) d.cursor rest hr row hrow

/-- C77: a password field shows stars, spaces, ellipses, and the characters of the scrollbar, and nothing else. -/
theorem C77_chars (cw : Char → Nat) (bar : Char × Char) {f : InputField} (hp : f.passwordMode = true) {rows : List Row}
    {cur : Option (Nat × Nat)} (h : f.displayOn cw bar = some (rows, cur)) :
    ∀ row ∈ rows, ∀ c ∈ cellsText row.pieces, c = '*' ∨ c = ' ' ∨ c = '…' ∨ c = bar.1 ∨ c = bar.2 := by
  unfold displayOn at h
  obtain ⟨sb, -, h⟩ := Option.bind_eq_some_iff.1 h
  obtain ⟨w, -, h⟩ := Option.bind_eq_some_iff.1 h
  intro row hr c hc
  obtain ⟨t, ht, hc⟩ := List.mem_flatten.1 hc
  obtain ⟨p, hp', rfl⟩ := List.mem_map.1 ht
  exact drawRows_masked hp _ _ _ _ h row hr p hp' c hc

example : ∃ (f : InputField) (rows : List Row) (cur : Option (Nat × Nat)), f.passwordMode = true ∧
    f.displayOn (fun _ => 1) ('#', '|') = some (rows, cur) ∧ (rows.map fun r => String.ofList (cellsText r.pieces)) = ["…*** |", "…**  #"] :=
  ⟨{ area := ⟨0, 0, 6, 2⟩, passwordMode := true, scroll := ⟨1, 1⟩, content := ⟨⟨1, 0⟩, none, [[], "abcde".toList, "abcd".toList]⟩ },
    _, _, rfl, rfl, by decide⟩

/-- C77: a double click selects a word, and the selection is shown: it tells where the words are. -/
theorem C77_double_click_counterexample : ∃ (f : InputField) (s t : Text), f.passwordMode = true ∧ s.length = t.length ∧
    (∀ c ∈ s ++ t, Ordinary c) ∧
    seenAfter (fun _ => 1) (· ≠ ' ') ('#', '|') f (s.map typed ++ [.mouse .upLeft 0 0 .none true]) ≠
    seenAfter (fun _ => 1) (· ≠ ' ') ('#', '|') f (t.map typed ++ [.mouse .upLeft 0 0 .none true]) :=
  ⟨{ InputField.new ⟨0, 0, 9, 1⟩ with passwordMode := true }, "ab cd".toList, "abxcd".toList, by decide, by decide,
    by unfold Ordinary; decide, by decide +kernel⟩

/-- C77: although stars have all the same width, the field is scrolled according to the widths of the hidden characters. -/
theorem C77_width_counterexample : ∃ (cw : Char → Nat) (f : InputField) (s t : Text), f.passwordMode = true ∧ s.length = t.length ∧
    (∀ c ∈ s ++ t, Ordinary c) ∧
    seenAfter cw (fun _ => true) ('#', '|') f (s.map typed) ≠ seenAfter cw (fun _ => true) ('#', '|') f (t.map typed) :=
  ⟨fun c => if c = '日' then 2 else 1, { InputField.new ⟨0, 0, 5, 1⟩ with passwordMode := true }, "日日日".toList, "abc".toList,
    by decide, by decide, by unfold Ordinary; decide, by decide +kernel⟩

/-- C77: setting the whole content does nothing for the content already there, so the cursor tells whether it's the same. -/
theorem C77_set_str_counterexample : ∃ (f : InputField) (s t : Text), f.passwordMode = true ∧ s.length = t.length ∧
    (∀ c ∈ s ++ t, Ordinary c) ∧
    seenAfter (fun _ => 1) (fun _ => true) ('#', '|') f [.setStr s] ≠ seenAfter (fun _ => 1) (fun _ => true) ('#', '|') f [.setStr t] :=
  ⟨{ InputField.new ⟨0, 0, 5, 1⟩ with passwordMode := true, content := ⟨⟨0, 0⟩, none, ["abc".toList]⟩ }, "abc".toList, "abd".toList,
    by decide, by decide, by unfold Ordinary; decide, by decide +kernel⟩

end Verif.Props
