import Verif.Props.Fitter
/-! C75: the elisions of a fitter are in the middle of the longest word. -/
namespace Verif.Props
open Verif

variable {cw : Char → Nat} {ws : Char → Bool}

/-- The zones found in a part `b` of a text `p ++ b ++ y` are those of the tokens of `b`, when no token goes on in `y`. -/
private theorem loop_part (minW idx : Nat) {s p b y : Text} (hs : s = p ++ b ++ y)
    (hy : y = [] ∨ ∀ c, b.getLast? = some c → ws c = true) : ∀ (rest x : Text) (st : Option Nat), b = x ++ rest →
    (match st with
      | none => ∀ c, x.getLast? = some c → ws c = true
      | some start => ∃ u t, x = u ++ t ∧ start = byteLen (p ++ u) ∧ t ≠ [] ∧ (∀ c ∈ t, ws c = false) ∧
          ∀ c, u.getLast? = some c → ws c = true) →
    ∃ zs, tokenZonesLoop cw ws s minW idx (byteLen (p ++ x)) st (rest ++ y) =
        (tokenZonesLoop cw ws s minW idx (byteLen (p ++ b)) none y).map (zs ++ ·) ∧
      ∀ z ∈ zs, ∃ t, IsToken ws t b ∧ z.removableWidth = textWidth cw t ∧ minW ≤ textWidth cw t ∧ minW + 2 ≤ byteLen t := by
  intro rest
  induction rest with
  | nil =>
    intro x st hb hst
    have hx : x = b := by simpa using hb.symm
    subst hx
    cases st with
    | none =>
      refine ⟨[], ?_, by simp⟩
      rw [List.nil_append]
      cases h : tokenZonesLoop cw ws s minW idx (byteLen (p ++ x)) none y <;> rfl
    | some start =>
      obtain ⟨u, t, rfl, rfl, h1, h2, h3⟩ := hst
      have hy' : y = [] := by
        rcases hy with h | h
        · exact h
        · have hl : (u ++ t).getLast? = some (t.getLast h1) := by
            rw [List.getLast?_append, List.getLast?_eq_some_getLast h1]; rfl
          have := h _ hl
          rw [h2 _ (List.getLast_mem h1)] at this
          cases this
      subst hy'
      have e : s = (p ++ u) ++ t ++ [] := by simp [hs]
      obtain ⟨zs, z1, z2⟩ := tokenZone_ok (cw := cw) e minW idx
      refine ⟨zs, ?_, ?_⟩
      · simp only [tokenZonesLoop, Option.map_some, List.append_nil]
        rw [← z1, hs]
        simp
      · intro z hz
        obtain ⟨_, q2, q3, q4⟩ := z2 z hz
        exact ⟨t, ⟨h1, h2, u, [], by simp, h3, by simp⟩, q2, q3, q4⟩
  | cons c rest ih =>
    intro x st hb hst
    have e1 : byteLen (p ++ x) + c.utf8Size = byteLen (p ++ (x ++ [c])) := by simp [byteLen, Nat.add_assoc]
    have e2 : b = (x ++ [c]) ++ rest := by simp [hb]
    cases st with
    | none =>
      simp only [List.cons_append, tokenZonesLoop, e1]
      cases hc : ws c with
      | true =>
        simp only [if_true]
        refine ih _ none e2 ?_
        intro d hd
        simp at hd
        subst hd
        exact hc
      | false =>
        simp only [Bool.false_eq_true, if_false]
        exact ih _ (some (byteLen (p ++ x))) e2 ⟨x, [c], rfl, rfl, by simp, by simp [hc], hst⟩
    | some start =>
      obtain ⟨u, t, rfl, rfl, h1, h2, h3⟩ := hst
      simp only [List.cons_append, tokenZonesLoop, e1]
      cases hc : ws c with
      | true =>
        simp only [if_true]
        have e : s = (p ++ u) ++ t ++ (c :: rest ++ y) := by simp [hs, hb]
        obtain ⟨zs, z1, z2⟩ := tokenZone_ok (cw := cw) e minW idx
        rw [List.append_assoc] at z1
        obtain ⟨zs', z3, z4⟩ := ih _ none e2 (by
          intro d hd
          simp at hd
          subst hd
          exact hc)
        refine ⟨zs ++ zs', ?_, ?_⟩
        · rw [z1, Option.bind_eq_bind, Option.bind_some, z3]
          cases tokenZonesLoop cw ws s minW idx (byteLen (p ++ b)) none y <;> simp
        · intro z hz
          simp only [List.mem_append] at hz
          rcases hz with hz | hz
          · obtain ⟨_, q2, q3, q4⟩ := z2 z hz
            exact ⟨t, ⟨h1, h2, u, c :: rest, by simp [hb], h3, by simp [hc]⟩, q2, q3, q4⟩
          · exact z4 z hz
      | false =>
        simp only [Bool.false_eq_true, if_false]
        refine ih _ (some (byteLen (p ++ u))) e2 ⟨u, t ++ [c], by simp, rfl, by simp, ?_, h3⟩
        intro d hd
        simp only [List.mem_append, List.mem_singleton] at hd
        rcases hd with hd | rfl
        · exact h2 d hd
        · exact hc

/-- The characters of a token don't end it. -/
private theorem loop_in (s : Text) (minW idx start : Nat) (y : Text) : ∀ (t : Text) (pos : Nat), (∀ c ∈ t, ws c = false) →
    tokenZonesLoop cw ws s minW idx pos (some start) (t ++ y) = tokenZonesLoop cw ws s minW idx (pos + byteLen t) (some start) y
  | [], pos, _ => by simp [byteLen]
  | c :: t, pos, h => by
    have hc := h c (by simp)
    simp only [List.cons_append, tokenZonesLoop, hc, Bool.false_eq_true, if_false]
    rw [loop_in s minW idx start y t _ fun d hd => h d (by simp [hd])]
    simp [byteLen, Nat.add_assoc]

theorem byteLen_ge (t : Text) : t.length ≤ byteLen t := by
  induction t with
  | nil => simp [byteLen]
  | cons c t ih =>
    have := c.utf8Size_pos
    simp [byteLen]; omega

/-- The zones of a compound with a token of at least five characters. -/
private theorem compound_zones (idx : Nat) {a t b : Text} (ht : 5 ≤ t.length) (hw : 3 ≤ textWidth cw t) (h1 : ∀ c ∈ t, ws c = false)
    (h2 : ∀ c, a.getLast? = some c → ws c = true) (h3 : ∀ c, b.head? = some c → ws c = true) :
    ∃ zs1 zs2, compoundTokenZones cw ws 3 idx (a ++ t ++ b) = some (zs1 ++ ⟨idx, byteLen a, charInfos cw t, textWidth cw t⟩ :: zs2) ∧
      (∀ z ∈ zs1, ∃ t, IsToken ws t a ∧ z.removableWidth = textWidth cw t) ∧
      (∀ z ∈ zs2, ∃ t, IsToken ws t b ∧ z.removableWidth = textWidth cw t) := by
  have hbl := byteLen_ge t
  obtain ⟨zs1, p1, p2⟩ := loop_part (cw := cw) (ws := ws) 3 idx (s := a ++ t ++ b) (p := []) (b := a) (y := t ++ b) (by simp) (.inr h2) a [] none rfl (by simp)
  have hz : tokenZone cw (a ++ t ++ b) 3 idx (byteLen a) (byteLen a + byteLen t) = some [⟨idx, byteLen a, charInfos cw t, textWidth cw t⟩] := by
    unfold tokenZone
    rw [if_pos (by omega), sliceBytes_mid]
    simp only [Option.bind_eq_bind, Option.bind_some]
    rw [if_pos hw]
  have hrest : ∃ zs2, tokenZonesLoop cw ws (a ++ t ++ b) 3 idx (byteLen a) none (t ++ b) =
      some (⟨idx, byteLen a, charInfos cw t, textWidth cw t⟩ :: zs2) ∧ ∀ z ∈ zs2, ∃ t, IsToken ws t b ∧ z.removableWidth = textWidth cw t := by
    obtain ⟨c, t', rfl⟩ : ∃ c t', t = c :: t' := by
      cases t with
      | nil => simp at ht
      | cons c t' => exact ⟨c, t', rfl⟩
    have hc := h1 c (by simp)
    rw [List.cons_append, tokenZonesLoop]
    simp only [hc, Bool.false_eq_true, if_false]
    rw [loop_in _ 3 idx _ b t' _ fun d hd => h1 d (by simp [hd])]
    have e : byteLen a + c.utf8Size + byteLen t' = byteLen a + byteLen (c :: t') := by simp [byteLen, Nat.add_assoc]
    rw [e]
    cases b with
    | nil =>
      refine ⟨[], ?_, by simp⟩
      simp only [tokenZonesLoop]
      rw [← hz]
      simp
    | cons w b' =>
      have hw' := h3 w rfl
      obtain ⟨zs2, q1, q2⟩ := loop_part (cw := cw) (ws := ws) 3 idx (s := a ++ c :: t' ++ w :: b') (p := a ++ c :: t') (b := w :: b') (y := []) (by simp)
        (.inl rfl) b' [w] none rfl (by simp [hw'])
      refine ⟨zs2, ?_, ?_⟩
      · simp only [tokenZonesLoop, hw', if_true, hz, Option.bind_eq_bind, Option.bind_some]
        have e2 : byteLen a + byteLen (c :: t') + w.utf8Size = byteLen (a ++ c :: t' ++ [w]) := by simp [byteLen]; omega
        rw [e2]
        simp only [List.append_nil] at q1
        rw [q1]
        simp [tokenZonesLoop]
      · intro z hz
        obtain ⟨t, k1, k2, _⟩ := q2 z hz
        exact ⟨t, k1, k2⟩
  obtain ⟨zs2, r1, r2⟩ := hrest
  refine ⟨zs1, zs2, ?_, ?_, r2⟩
  · unfold compoundTokenZones
    rw [if_neg (by simp; omega)]
    rw [List.append_nil, List.nil_append, show byteLen [] = 0 from rfl, r1] at p1
    rw [show tokenZonesLoop cw ws (a ++ t ++ b) 3 idx 0 none (a ++ t ++ b) = tokenZonesLoop cw ws (a ++ t ++ b) 3 idx 0 none (a ++ (t ++ b)) by
      rw [List.append_assoc a t b], p1]
    rfl
  · intro z hz
    obtain ⟨t, k1, k2, _⟩ := p2 z hz
    exact ⟨t, k1, k2⟩

private theorem tokenZones_append (minW : Nat) (rest : List Compound) : ∀ (pre : List Compound) (idx : Nat),
    tokenZones cw ws minW idx (pre ++ rest) =
      (tokenZones cw ws minW idx pre).bind fun z1 => (tokenZones cw ws minW (idx + pre.length) rest).bind fun z2 => some (z1 ++ z2)
  | [], idx => by
    simp only [List.nil_append, tokenZones, Option.bind_some, List.length_nil, Nat.add_zero]
    cases tokenZones cw ws minW idx rest <;> rfl
  | c :: pre, idx => by
    simp only [List.cons_append, tokenZones, tokenZones_append minW rest pre (idx + 1), Option.bind_eq_bind, List.length_cons]
    rw [show idx + 1 + pre.length = idx + (pre.length + 1) by omega]
    cases compoundTokenZones cw ws minW idx c.src with
    | none => rfl
    | some z =>
      cases tokenZones cw ws minW (idx + 1) pre with
      | none => rfl
      | some zs =>
        cases tokenZones cw ws minW (idx + (pre.length + 1)) rest <;> simp

/-- The last of the biggest zones. -/
private theorem biggestZone_at (z : Zone) : ∀ (zs1 zs2 : List Zone), (∀ y ∈ zs1, y.removableWidth ≤ z.removableWidth) →
    (∀ y ∈ zs2, y.removableWidth < z.removableWidth) → biggestZone (zs1 ++ z :: zs2) = some z := by
  intro zs1 zs2 h1 h2
  have after : ∀ l : List Zone, (∀ y ∈ l, y.removableWidth < z.removableWidth) →
      l.foldl (fun acc z =>
        match acc with
        | none => some z
        | some m => if m.removableWidth ≤ z.removableWidth then some z else some m) (some z) = some z := by
    intro l
    induction l with
    | nil => intro _; rfl
    | cons y l ih =>
      intro h
      have := h y (by simp)
      simp only [List.foldl_cons]
      rw [if_neg (by omega)]
      exact ih fun x hx => h x (by simp [hx])
  have before : ∀ (l : List Zone) (acc : Option Zone), (∀ m, acc = some m → m.removableWidth ≤ z.removableWidth) →
      (∀ y ∈ l, y.removableWidth ≤ z.removableWidth) →
      ∀ m, l.foldl (fun acc z =>
        match acc with
        | none => some z
        | some m => if m.removableWidth ≤ z.removableWidth then some z else some m) acc = some m → m.removableWidth ≤ z.removableWidth := by
    intro l
    induction l with
    | nil => intro acc h _ m hm; exact h m hm
    | cons y l ih =>
      intro acc h h' m hm
      simp only [List.foldl_cons] at hm
      refine ih _ ?_ (fun x hx => h' x (by simp [hx])) m hm
      intro k hk
      cases acc with
      | none => simp at hk; subst hk; exact h' _ (by simp)
      | some q =>
        simp only at hk
        split at hk
        · simp at hk; subst hk; exact h' _ (by simp)
        · simp at hk; subst hk; exact h _ rfl
  unfold biggestZone
  rw [List.foldl_append, List.foldl_cons]
  generalize hb : List.foldl _ none zs1 = acc
  cases acc with
  | none => exact after zs2 h2
  | some m =>
    have := before zs1 none (by simp) h1 m hb
    show List.foldl _ (if m.removableWidth ≤ z.removableWidth then some z else some m) zs2 = some z
    rw [if_pos this]
    exact after zs2 h2

theorem textWidth_ones : ∀ {t : Text}, (∀ c ∈ t, cw c = 1) → textWidth cw t = t.length
  | [], _ => rfl
  | c :: t, h => by
    rw [textWidth, textWidth_ones fun d hd => h d (by simp [hd]), h c (by simp), List.length_cons]
    omega

/-- The cut of a zone of single column characters, when it's enough. -/
private theorem cut_middle {cs pre post : List Compound} {z : Zone} {c : Compound} {a t b : Text} (hz : ZoneAt cw cs z pre post c a t b)
    (hone : ∀ ch ∈ t, cw ch = 1) (e : Nat) (he : e + 3 ≤ t.length) :
    ∃ head mid tail, z.cut cw cs (e + 1) = some (pre ++ { c with src := a ++ head } :: Compound.raw ellipsisText ::
        { c with src := tail ++ b } :: post, e) ∧ t = head ++ mid ++ tail ∧ mid.length = e + 1 ∧ head ≠ [] ∧ tail ≠ [] ∧
      head.length ≤ tail.length + 1 ∧ tail.length ≤ head.length + 1 := by
  obtain ⟨i, j, g, c1, c2, c3, c4, c5, c6, c8, c7⟩ := cut_ok hz (e + 1) (by omega)
  have hseg : textWidth cw (seg t i j) = j - i := by
    rw [textWidth_ones]
    · simp [seg]; omega
    · intro ch hch
      exact hone ch (List.mem_of_mem_take (List.mem_of_mem_drop hch))
  have := c7 1 fun c hc => by rw [hone c hc]; omega
  have hg : g = e := by omega
  subst hg
  refine ⟨t.take i, seg t i j, t.drop j, c1, seg_split t i j (by omega), by simp [seg]; omega, ?_, ?_, by simp; omega, by simp; omega⟩
  · intro h
    have := congrArg List.length h
    rw [List.length_take, List.length_nil] at this
    omega
  · intro h
    have := congrArg List.length h
    rw [List.length_drop, List.length_nil] at this
    omega

/-- A fitter for which an elision is enough. -/
private theorem fit_of_cut {f : Fitter} {skin : Skin} {fc : FmtComposite} {maxWidth : Nat} (h2 : 2 ≤ maxWidth) (hgt : maxWidth < fc.visibleLength)
    {cs' : List Compound} {e : Nat}
    (h1 : (f.elideTokens cw ws (fc.visibleLength - maxWidth) fc.compounds = some (cs', e) ∧ f.elideCompounds cw e cs' = some (cs', 0)) ∨
      f.elideTokens cw ws (fc.visibleLength - maxWidth) fc.compounds = some (fc.compounds, fc.visibleLength - maxWidth) ∧
        f.elideCompounds cw (fc.visibleLength - maxWidth) fc.compounds = some (cs', 0)) :
    f.fit cw ws fc maxWidth skin = some (FmtComposite.recomputeWidth skin cw { fc with compounds := cs' }) := by
  simp only [Fitter.fit]
  rw [if_neg (by omega), if_neg (by omega), if_neg (by omega)]
  rcases h1 with ⟨k1, k2⟩ | ⟨k1, k2⟩ <;> simp [k1, k2, Fitter.truncate]

/-- C75: when a fitter which elides in words has a word which is at least as wide as the others, wider than those after it, and long enough to
absorb what is too much, only this word is changed: the middle of it is replaced by an ellipsis, as many characters, or one more, being kept
before as after. -/
theorem C75_word (cw : Char → Nat) (ws : Char → Bool) (skin : Skin) (f : Fitter) (hf : f.midToken = true) (fc : FmtComposite) (maxWidth : Nat)
    (h2 : 2 ≤ maxWidth) (hgt : maxWidth < fc.visibleLength) {pre post : List Compound} {c : Compound} (hcs : fc.compounds = pre ++ c :: post)
    {a t b : Text} (hsrc : c.src = a ++ t ++ b) (htok : ∀ ch ∈ t, ws ch = false) (ha : ∀ ch, a.getLast? = some ch → ws ch = true)
    (hb : ∀ ch, b.head? = some ch → ws ch = true) (hlen : 5 ≤ t.length) (hone : ∀ ch ∈ t, cw ch = 1)
    (henough : fc.visibleLength - maxWidth + 3 ≤ t.length)
    (hbefore : ∀ s ∈ pre.map Compound.src ++ [a], ∀ t', IsToken ws t' s → textWidth cw t' ≤ t.length)
    (hafter : ∀ s ∈ b :: post.map Compound.src, ∀ t', IsToken ws t' s → textWidth cw t' < t.length) :
    ∃ fc' head mid tail, f.fit cw ws fc maxWidth skin = some fc' ∧ t = head ++ mid ++ tail ∧ mid.length = fc.visibleLength - maxWidth + 1 ∧
      head ≠ [] ∧ tail ≠ [] ∧ head.length ≤ tail.length + 1 ∧ tail.length ≤ head.length + 1 ∧ fc'.kind = fc.kind ∧ fc'.spacing = fc.spacing ∧
      styledChars fc'.compounds = styledChars pre ++ ((a ++ head).map fun ch => (ch, c.flags)) ++ dots ::
        ((tail ++ b).map fun ch => (ch, c.flags)) ++ styledChars post := by
  have hw : textWidth cw t = t.length := textWidth_ones hone
  obtain ⟨zp, p1, p2⟩ := tokenZones_ok (cw := cw) (ws := ws) 3 pre 0
  obtain ⟨zs1, zs2, q1, q2, q3⟩ := compound_zones (cw := cw) (ws := ws) pre.length hlen (by omega) htok ha hb
  obtain ⟨zq, r1, r2⟩ := tokenZones_ok (cw := cw) (ws := ws) 3 post (pre.length + 1)
  have hall : tokenZones cw ws 3 0 fc.compounds = some ((zp ++ zs1) ++ ⟨pre.length, byteLen a, charInfos cw t, textWidth cw t⟩ :: (zs2 ++ zq)) := by
    rw [hcs, tokenZones_append, p1, Option.bind_some, Nat.zero_add, tokenZones, hsrc, q1, r1]
    simp
  have hbig : biggestZone ((zp ++ zs1) ++ ⟨pre.length, byteLen a, charInfos cw t, textWidth cw t⟩ :: (zs2 ++ zq)) =
      some ⟨pre.length, byteLen a, charInfos cw t, textWidth cw t⟩ := by
    refine biggestZone_at _ _ _ ?_ ?_
    · intro y hy
      simp only [hw]
      rcases List.mem_append.1 hy with hy | hy
      · obtain ⟨pre', post', c', a', t', b', k1, ⟨k2, _⟩, k3, _, _, k4, k5, k6, k7⟩ := p2 y hy
        rw [k3]
        exact hbefore c'.src (by simp [k1]) t' ⟨k4, k5, a', b', k2, k6, k7⟩
      · obtain ⟨t', k1, k2⟩ := q2 y hy
        rw [k2]
        exact hbefore a (by simp) t' k1
    · intro y hy
      simp only [hw]
      rcases List.mem_append.1 hy with hy | hy
      · obtain ⟨t', k1, k2⟩ := q3 y hy
        rw [k2]
        exact hafter b (by simp) t' k1
      · obtain ⟨pre', post', c', a', t', b', k1, ⟨k2, _⟩, k3, _, _, k4, k5, k6, k7⟩ := r2 y hy
        rw [k3]
        exact hafter c'.src (by simp [k1]) t' ⟨k4, k5, a', b', k2, k6, k7⟩
  have hzone : ZoneAt cw fc.compounds ⟨pre.length, byteLen a, charInfos cw t, textWidth cw t⟩ pre post c a t b := by
    refine ⟨hcs, rfl, hsrc, rfl, rfl, by simp only [hw]; omega, by omega, ?_⟩
    rw [textWidth_ones]
    · simp [interior]; omega
    · intro ch hch
      exact hone ch (List.mem_of_mem_tail (List.dropLast_subset _ hch))
  obtain ⟨head, mid, tail, k1, k2, k3, k4, k5, k6, k7⟩ := cut_middle hzone hone (fc.visibleLength - maxWidth) henough
  obtain ⟨e, hexc⟩ : ∃ e, fc.visibleLength - maxWidth = e + 1 := ⟨fc.visibleLength - maxWidth - 1, by omega⟩
  have hel : f.elideTokens cw ws (fc.visibleLength - maxWidth) fc.compounds = some (pre ++ { c with src := a ++ head } :: Compound.raw ellipsisText ::
        { c with src := tail ++ b } :: post, 0) := by
    rw [hexc] at k1 ⊢
    simp only [Fitter.elideTokens, hf, if_true, elideLoop, hall, Option.bind_eq_bind, Option.bind_some, hbig, k1]
    rw [if_neg (by omega), Nat.min_self, Nat.sub_self]
    cases e <;> rfl
  refine ⟨_, head, mid, tail, fit_of_cut h2 hgt (.inl ⟨hel, ?_⟩), k2, k3, k4, k5, k6, k7, rfl, rfl, ?_⟩
  · simp only [Fitter.elideCompounds, elideLoop]
    split <;> rfl
  · simp [FmtComposite.recomputeWidth, styledChars, Compound.raw, ellipsisText, dots]

private theorem compoundZones_append (minW : Nat) (rest : List Compound) : ∀ (pre : List Compound) (idx : Nat),
    compoundZones cw minW idx (pre ++ rest) =
      (compoundZones cw minW idx pre).bind fun z1 => (compoundZones cw minW (idx + pre.length) rest).bind fun z2 => some (z1 ++ z2)
  | [], idx => by
    simp only [List.nil_append, compoundZones, Option.bind_some, List.length_nil, Nat.add_zero]
    cases compoundZones cw minW idx rest <;> rfl
  | c :: pre, idx => by
    simp only [List.cons_append, compoundZones, compoundZones_append minW rest pre (idx + 1), Option.bind_eq_bind, List.length_cons]
    rw [show idx + 1 + pre.length = idx + (pre.length + 1) by omega]
    cases compoundZone cw minW idx c.src with
    | none => rfl
    | some z =>
      cases compoundZones cw minW (idx + 1) pre with
      | none => rfl
      | some zs =>
        cases compoundZones cw minW (idx + (pre.length + 1)) rest <;> simp

private theorem compound_zone (idx : Nat) {s : Text} (hlen : 4 ≤ s.length) (hw : 2 ≤ textWidth cw (interior s)) :
    compoundZone cw 2 idx s = some (some ⟨idx, 0, charInfos cw s, textWidth cw (interior s)⟩) := by
  simp only [compoundZone, charInfos_length]
  rw [if_neg (by omega), charInfos_get cw s 1 (by omega)]
  simp only [Option.bind_eq_bind, Option.bind_some, csub]
  rw [if_pos (by omega)]
  simp only [Option.bind_some]
  rw [charInfos_get cw s (s.length - 1) (by omega)]
  simp only [Option.bind_some]
  have e : s = s.take 1 ++ seg s 1 (s.length - 1) ++ s.drop (s.length - 1) := seg_split _ _ _ (by omega)
  have e2 : byteLen (s.take (s.length - 1)) = byteLen (s.take 1) + byteLen (seg s 1 (s.length - 1)) := by
    conv => lhs; rw [take_seg s 1 (s.length - 1) (by omega)]
    simp
  have e3 : sliceBytes s (byteLen (s.take 1)) (byteLen (s.take (s.length - 1))) = some (interior s) := by
    rw [e2, interior_eq]
    conv => lhs; arg 1; rw [e]
    rw [sliceBytes_mid]
  rw [e3]
  simp only [Option.bind_some]
  rw [if_neg (by omega)]

/-- C75: when a fitter elides in styled parts, and not in words (because it's not asked to or because no word takes five bytes and three columns),
the same is true of the widest part. -/
theorem C75_part (cw : Char → Nat) (ws : Char → Bool) (skin : Skin) (f : Fitter) (hf : f.midCompound = true) (fc : FmtComposite) (maxWidth : Nat)
    (h2 : 2 ≤ maxWidth) (hgt : maxWidth < fc.visibleLength)
    (hwords : f.midToken = false ∨ ∀ c ∈ fc.compounds, ∀ t, IsToken ws t c.src → byteLen t < 5 ∨ textWidth cw t < 3)
    {pre post : List Compound} {c : Compound} (hcs : fc.compounds = pre ++ c :: post) (hone : ∀ ch ∈ c.src, cw ch = 1)
    (henough : fc.visibleLength - maxWidth + 3 ≤ c.src.length)
    (hbefore : ∀ c' ∈ pre, textWidth cw (interior c'.src) ≤ c.src.length - 2) (hafter : ∀ c' ∈ post, textWidth cw (interior c'.src) < c.src.length - 2) :
    ∃ fc' head mid tail, f.fit cw ws fc maxWidth skin = some fc' ∧ c.src = head ++ mid ++ tail ∧ mid.length = fc.visibleLength - maxWidth + 1 ∧
      head ≠ [] ∧ tail ≠ [] ∧ head.length ≤ tail.length + 1 ∧ tail.length ≤ head.length + 1 ∧ fc'.kind = fc.kind ∧ fc'.spacing = fc.spacing ∧
      styledChars fc'.compounds = styledChars pre ++ (head.map fun ch => (ch, c.flags)) ++ dots ::
        (tail.map fun ch => (ch, c.flags)) ++ styledChars post := by
  have hint : textWidth cw (interior c.src) = c.src.length - 2 := by
    rw [textWidth_ones]
    · simp [interior]; omega
    · intro ch hch
      exact hone ch (List.mem_of_mem_tail (List.dropLast_subset _ hch))
  obtain ⟨zp, p1, p2⟩ := compoundZones_good (cw := cw) pre 0
  obtain ⟨zq, r1, r2⟩ := compoundZones_good (cw := cw) post (pre.length + 1)
  have hz := compound_zone (cw := cw) pre.length (s := c.src) (by omega) (by omega)
  rw [hint] at hz
  have hall : compoundZones cw 2 0 fc.compounds = some (zp ++ ⟨pre.length, 0, charInfos cw c.src, c.src.length - 2⟩ :: zq) := by
    rw [hcs, compoundZones_append, p1, Option.bind_some, Nat.zero_add, compoundZones, hz, r1]
    simp
  have hbig : biggestZone (zp ++ ⟨pre.length, 0, charInfos cw c.src, c.src.length - 2⟩ :: zq) =
      some ⟨pre.length, 0, charInfos cw c.src, c.src.length - 2⟩ := by
    refine biggestZone_at _ _ _ ?_ ?_
    · intro y hy
      obtain ⟨pre', post', c', k1, _, _, _, _, _, k2⟩ := p2 y hy
      rw [k2]
      exact hbefore c' (by simp [k1])
    · intro y hy
      obtain ⟨pre', post', c', k1, _, _, _, _, _, k2⟩ := r2 y hy
      rw [k2]
      exact hafter c' (by simp [k1])
  have hzone : ZoneAt cw fc.compounds ⟨pre.length, 0, charInfos cw c.src, c.src.length - 2⟩ pre post c [] c.src [] := by
    refine ⟨hcs, rfl, by simp, rfl, rfl, ?_, by omega, by omega⟩
    show 2 ≤ c.src.length - 2
    omega
  obtain ⟨head, mid, tail, k1, k2, k3, k4, k5, k6, k7⟩ := cut_middle hzone hone (fc.visibleLength - maxWidth) henough
  simp only [List.nil_append, List.append_nil] at k1
  obtain ⟨e, hexc⟩ : ∃ e, fc.visibleLength - maxWidth = e + 1 := ⟨fc.visibleLength - maxWidth - 1, by omega⟩
  have htok : f.elideTokens cw ws (fc.visibleLength - maxWidth) fc.compounds = some (fc.compounds, fc.visibleLength - maxWidth) := by
    simp only [Fitter.elideTokens]
    split
    · rename_i hm
      have hno := hwords.resolve_left (by simp [hm])
      obtain ⟨zs, z1, z2⟩ := tokenZones_ok (cw := cw) (ws := ws) 3 fc.compounds 0
      have hnil : zs = [] := by
        cases zs with
        | nil => rfl
        | cons z zs =>
          obtain ⟨pre', post', c', a', t', b', k1, ⟨k2, _⟩, k3, k8, k9, k4, k5, k6, k7⟩ := z2 z (by simp)
          have := hno c' (by simp [k1]) t' ⟨k4, k5, a', b', k2, k6, k7⟩
          omega
      subst hnil
      rw [hexc]
      simp only [elideLoop, z1, Option.bind_eq_bind, Option.bind_some]
      rfl
    · rfl
  have hel : f.elideCompounds cw (fc.visibleLength - maxWidth) fc.compounds = some (pre ++ { c with src := head } :: Compound.raw ellipsisText ::
        { c with src := tail } :: post, 0) := by
    rw [hexc] at k1 ⊢
    simp only [Fitter.elideCompounds, hf, if_true, elideLoop, hall, Option.bind_eq_bind, Option.bind_some, hbig, k1]
    rw [if_neg (by omega), Nat.min_self, Nat.sub_self]
    cases e <;> rfl
  refine ⟨_, head, mid, tail, fit_of_cut (e := 0) h2 hgt (.inr ⟨htok, hel⟩), k2, k3, k4, k5, k6, k7, rfl, rfl, ?_⟩
  simp [FmtComposite.recomputeWidth, styledChars, Compound.raw, ellipsisText, dots]

/-! ### Concrete cases -/

/-- A text with a long word in a bold part, fitted in 20 columns instead of 26. -/
def middleExample : FmtComposite :=
  FmtComposite.ofComposite {} fitCw .paragraph [⟨"some ".toList, {}⟩, ⟨"a longlonglong b".toList, { bold := true }⟩, ⟨" word".toList, {}⟩]

example : ∃ fc' head mid tail, ({} : Fitter).fit fitCw fitWs middleExample 20 {} = some fc' ∧ "longlonglong".toList = head ++ mid ++ tail ∧
    mid.length = 7 ∧ head = "lon".toList ∧ tail = "ng".toList ∧
      fc'.compounds.map (fun c => String.ofList c.src) = ["some ", "a lon", "…", "ng b", " word"] := by
  refine ⟨_, "lon".toList, "glonglo".toList, "ng".toList, rfl, by decide, by decide, rfl, rfl, by decide⟩

/-- All the hypotheses of `C75_word` are met. -/
example : ∃ fc' head mid tail, ({} : Fitter).fit fitCw fitWs middleExample 20 {} = some fc' ∧ "longlonglong".toList = head ++ mid ++ tail ∧
    head.length ≤ tail.length + 1 := by
  have tok : ∀ (s : Text) (t : Text), IsToken fitWs t s → (∀ c ∈ s, fitCw c = 1) → s.length < 12 → textWidth fitCw t < 12 := by
    rintro s t ⟨_, _, p, q, rfl, _⟩ h1 h2
    rw [textWidth_ones fun c hc => h1 c (by simp [hc])]
    simp at h2
    omega
  obtain ⟨fc', head, mid, tail, h1, h2, _, _, _, h3, _⟩ := C75_word fitCw fitWs {} {} rfl middleExample 20 (by decide) (by decide)
    (pre := [⟨"some ".toList, {}⟩]) (c := ⟨"a longlonglong b".toList, { bold := true }⟩) (post := [⟨" word".toList, {}⟩]) rfl
    (a := "a ".toList) (t := "longlonglong".toList) (b := " b".toList) (by decide) (by decide) (by decide) (by decide) (by decide) (by decide) (by decide)
    (by
      intro s hs t ht
      simp at hs
      rcases hs with rfl | rfl
      · exact Nat.le_of_lt (tok _ t ht (by decide) (by decide))
      · exact Nat.le_of_lt (tok _ t ht (by decide) (by decide)))
    (by
      intro s hs t ht
      simp at hs
      rcases hs with rfl | rfl
      · exact tok _ t ht (by decide) (by decide)
      · exact tok _ t ht (by decide) (by decide))
  exact ⟨fc', head, mid, tail, h1, h2, h3⟩

/-- Words are too short to be cut in: a part is. -/
example : (({} : Fitter).fit fitCw fitWs (FmtComposite.ofComposite {} fitCw .paragraph [⟨"to be or ".toList, {}⟩, ⟨"not".toList, { bold := true }⟩]) 9 {}).map
    (fun fc => fc.compounds.map (fun c => String.ofList c.src)) = some ["to", "…", "or ", "not"] := by decide

/-- When the longest word isn't enough, another one is cut, then the end of the text. -/
example : (({} : Fitter).fit fitCw fitWs (FmtComposite.ofComposite {} fitCw .paragraph [⟨"abcdefgh ijklm".toList, {}⟩]) 5 {}).map
    (fun fc => fc.compounds.map (fun c => String.ofList c.src)) = some ["a", "…", "h ", "…"] := by decide

end Verif.Props
