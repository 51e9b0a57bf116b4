import Verif.Spec.SkinHistory
import Verif.Props.SkinRender
/-! C94: the parts of a skin have the last colors they were given, whatever was done with the skin. -/
namespace Verif.Props
open Verif Spec

private def applied (now : Option Color) : Option ColorChange → Option Color
  | none => now
  | some ch => colorAfter now [ch]

private theorem after_step (start : Option Color) (call : Option ColorChange) (rest : List ColorChange) :
    colorAfter start (call.toList ++ rest) = colorAfter (applied start call) rest := by
  cases call <;> simp [applied, colorAfter]

private theorem call_style (skin : Skin) (call : SkinCall) (p : SkinPart) :
    p.style (call.run skin) = (p.style skin).map fun s => { s with fg := applied s.fg (call.fg p), bg := applied s.bg (call.bg p) } := by
  cases call with
  | method op =>
    cases op <;> cases p <;>
      simp [SkinPart.style, SkinCall.run, SkinOp.run, SkinCall.fg, SkinCall.bg, applied, colorAfter, Skin.setFg, Skin.setBg, Skin.setHeadersFg,
        Skin.setHeadersBg, Skin.setGlobalBg, Skin.limitToAscii, LineStyle.setFg, LineStyle.setBg, CompoundStyle.setFg, CompoundStyle.setBg,
        StyledChar.setFg, StyledChar.setBg, StyledChar.setChar, ScrollBarStyle.setBg, Function.comp_def]
  | blendWith mix =>
    cases p <;>
      simp [SkinPart.style, SkinCall.run, SkinCall.fg, SkinCall.bg, applied, colorAfter, Skin.blendWith, LineStyle.blendWith,
        CompoundStyle.blendWith, StyledChar.blendWith, Function.comp_def]
  | partFg q c =>
    cases q <;> cases p <;>
      simp [SkinPart.style, SkinCall.run, SkinCall.fg, SkinCall.bg, applied, colorAfter, Skin.changePart, LineStyle.setFg, CompoundStyle.setFg,
        StyledChar.setFg] <;> first | rfl | (split <;> simp_all [Function.comp_def])
  | partBg q c =>
    cases q <;> cases p <;>
      simp [SkinPart.style, SkinCall.run, SkinCall.fg, SkinCall.bg, applied, colorAfter, Skin.changePart, LineStyle.setBg, CompoundStyle.setBg,
        StyledChar.setBg] <;> first | rfl | (split <;> simp_all [Function.comp_def])

/-- C94: whatever is called on a skin, in any order, the foreground and the background of each part are what the calls made of them, in order,
and its attributes don't change. No part appears or disappears. -/
theorem C94_colors (skin : Skin) (calls : List SkinCall) (p : SkinPart) :
    p.style (calls.foldl SkinCall.run skin) = (p.style skin).map fun s =>
      { s with fg := colorAfter s.fg (calls.filterMap (·.fg p)), bg := colorAfter s.bg (calls.filterMap (·.bg p)) } := by
  induction calls generalizing skin with
  | nil => show p.style skin = _; cases p.style skin <;> rfl
  | cons call calls ih =>
    rw [List.foldl_cons, ih, call_style, Option.map_map]
    have hf : ∀ (l : List SkinCall) (g : SkinCall → Option ColorChange), (call :: l).filterMap g = (g call).toList ++ l.filterMap g := by
      intro l g; cases h : g call <;> simp [h]
    simp only [hf, after_step]
    rfl

theorem colorAfter_append (start : Option Color) (a b : List ColorChange) : colorAfter start (a ++ b) = colorAfter (colorAfter start a) b := by
  simp [colorAfter]

/-- C94: the last color given is the one of the part: what was done before doesn't matter, nor what is done after on other parts or
on the other color. -/
theorem C94_last (skin : Skin) (before after : List SkinCall) (call : SkinCall) (p : SkinPart) (c : Color) (s : CompoundStyle)
    (hs : p.style ((before ++ call :: after).foldl SkinCall.run skin) = some s) :
    (call.fg p = some (.set c) → (∀ a ∈ after, a.fg p = none) → s.fg = some c) ∧
    (call.bg p = some (.set c) → (∀ a ∈ after, a.bg p = none) → s.bg = some c) := by
  rw [C94_colors, Option.map_eq_some_iff] at hs
  obtain ⟨s0, _, rfl⟩ := hs
  have key : ∀ (g : SkinCall → Option ColorChange) start, g call = some (.set c) → (∀ a ∈ after, g a = none) →
      colorAfter start ((before ++ call :: after).filterMap g) = some c := by
    intro g start h1 h2
    have h3 : after.filterMap g = [] := by simpa using h2
    rw [List.filterMap_append, colorAfter_append, List.filterMap_cons_some h1, h3]
    simp [colorAfter]
  exact ⟨key (·.fg p) s0.fg, key (·.bg p) s0.bg⟩

/-- C94: a part which isn't reached keeps its colors. -/
theorem C94_kept (skin : Skin) (calls : List SkinCall) (p : SkinPart) (s s' : CompoundStyle) (hs : p.style skin = some s)
    (hs' : p.style (calls.foldl SkinCall.run skin) = some s') :
    ((∀ a ∈ calls, a.fg p = none) → s'.fg = s.fg) ∧ ((∀ a ∈ calls, a.bg p = none) → s'.bg = s.bg) ∧ s'.attrs = s.attrs ∧ s'.underline = s.underline := by
  rw [C94_colors, hs, Option.map_some, Option.some.injEq] at hs'
  subst hs'
  refine ⟨?_, ?_, rfl, rfl⟩ <;> intro h
  · have : calls.filterMap (·.fg p) = [] := by simpa using h
    simp [this, colorAfter]
  · have : calls.filterMap (·.bg p) = [] := by simpa using h
    simp [this, colorAfter]

/-- C94: only the order of the calls reaching the same color of the same part matters. -/
theorem C94_order (skin : Skin) (calls calls' : List SkinCall) (p : SkinPart)
    (hf : calls.filterMap (·.fg p) = calls'.filterMap (·.fg p)) (hb : calls.filterMap (·.bg p) = calls'.filterMap (·.bg p)) :
    p.style (calls.foldl SkinCall.run skin) = p.style (calls'.foldl SkinCall.run skin) := by
  rw [C94_colors, C94_colors, hf, hb]

/-- Some calls: the bold is first red, then blue with the other parts, then green; its background isn't changed by what is done on headers. -/
private def exCalls : List SkinCall :=
  [.partFg .bold .red, .method (.setHeadersBg .cyan), .method (.setFg .blue), .method .limitToAscii, .partFg .bold .green, .partBg .table .white]

/-- C94: the colors after these calls. -/
example : SkinPart.bold.style (exCalls.foldl SkinCall.run .default) = some { CompoundStyle.withAttr .bold with fg := some .green } ∧
    SkinPart.italic.style (exCalls.foldl SkinCall.run .default) = some { CompoundStyle.withAttr .italic with fg := some .blue } ∧
    (SkinPart.header 3).style (exCalls.foldl SkinCall.run .default) =
      some { CompoundStyle.withAttr .underlined with fg := some .blue, bg := some .cyan } ∧
    SkinPart.table.style (exCalls.foldl SkinCall.run .default) = some { fg := some (gray 7), bg := some .white } ∧
    (SkinPart.special ⟨['x'], {}⟩).style (exCalls.foldl SkinCall.run .default) = none := by decide

/-- C94: `C94_last` applies with the calls before and after the one giving its color to the italic. -/
example : ∃ before after, exCalls = before ++ .method (.setFg .blue) :: after ∧ (SkinCall.method (.setFg .blue)).fg .italic = some (.set .blue) ∧
    ∀ a ∈ after, a.fg .italic = none :=
  ⟨exCalls.take 2, exCalls.drop 3, rfl, rfl, by simp [exCalls, SkinCall.fg]⟩

/-- C94: the order of calls reaching the same color of the same part matters. -/
theorem C94_order_counterexample :
    SkinPart.bold.style ([SkinCall.partFg .bold .red, .method (.setFg .blue)].foldl SkinCall.run .default) ≠
    SkinPart.bold.style ([SkinCall.method (.setFg .blue), .partFg .bold .red].foldl SkinCall.run .default) := by decide

/-- C94: but it doesn't between foregrounds and backgrounds, or between parts. -/
example : ∀ p : SkinPart, p.style ([SkinCall.method (.setBg .red), .method (.setFg .blue)].foldl SkinCall.run .default) =
    p.style ([SkinCall.method (.setFg .blue), .method (.setBg .red)].foldl SkinCall.run .default) := by
  intro p
  exact C94_order _ _ _ p (by cases p <;> rfl) (by cases p <;> rfl)

/-! ### What is displayed -/

/-- The part isn't for code. -/
def NotCode (p : SkinPart) : Prop := p ≠ .inlineCode ∧ p ≠ .codeBlock

/-- What a displayed text without code takes from the skin has a color. -/
private structure Reached (color : CompoundStyle → Option Color) (except : SkinPart → Prop) (skin : Skin) (c : Color) : Prop where
  style : ∀ p, NotCode p → ¬ except p → ∀ s, p.style skin = some s → color s = some c
  bullet : color skin.bullet.drawn.1 = some c
  quoteMark : color skin.quoteMark.drawn.1 = some c
  special : ∀ cp sc, skin.specialChars cp = some sc → color sc.drawn.1 = some c

private theorem setBg_reached (skin : Skin) (c : Color) : Reached (·.bg) (fun _ => False) (skin.setBg c) c := by
  refine ⟨?_, rfl, rfl, ?_⟩
  · intro p hp _ s hs
    have := call_style skin (.method (.setBg c)) p
    simp only [SkinCall.run, SkinOp.run] at this
    rw [this, Option.map_eq_some_iff] at hs
    obtain ⟨s0, _, rfl⟩ := hs
    simp [SkinCall.bg, hp.1, hp.2, applied, colorAfter]
  · intro cp sc h
    simp only [Skin.setBg, Option.map_eq_some_iff] at h
    obtain ⟨_, _, rfl⟩ := h
    rfl

private theorem setFg_reached (skin : Skin) (c : Color) :
    Reached (·.fg) (fun p => p = .table ∨ p = .track ∨ p = .thumb) (skin.setFg c) c := by
  refine ⟨?_, rfl, rfl, ?_⟩
  · intro p hp hx s hs
    have := call_style skin (.method (.setFg c)) p
    simp only [SkinCall.run, SkinOp.run] at this
    rw [this, Option.map_eq_some_iff] at hs
    obtain ⟨s0, _, rfl⟩ := hs
    simp only [SkinCall.fg]
    rw [if_neg (by simp only [not_or] at hx ⊢; exact ⟨hp.1, hp.2, hx⟩)]
    simp [applied, colorAfter]
  · intro cp sc h
    simp only [Skin.setFg, Option.map_eq_some_iff] at h
    obtain ⟨_, _, rfl⟩ := h
    rfl

private theorem bg_kept {except : SkinPart → Prop} {skin : Skin} {c : Color} (h : Reached (·.bg) except skin c) (hb : ¬ except .bullet) (hq : ¬ except .quoteMark)
    (hsp : ∀ cp, ¬ except (.special cp)) (call : SkinCall) (hc : ∀ p, call.bg p = none) : Reached (·.bg) except (call.run skin) c := by
  have hbs : skin.bullet.style.bg = some c := h.style .bullet (by simp [NotCode]) hb _ rfl
  have hqs : skin.quoteMark.style.bg = some c := h.style .quoteMark (by simp [NotCode]) hq _ rfl
  have hss : ∀ cp sc, skin.specialChars cp = some sc → sc.style.bg = some c := fun cp sc e =>
    h.style (.special cp) (by simp [NotCode]) (hsp cp) _ (by simp [SkinPart.style, e])
  refine ⟨?_, ?_, ?_, ?_⟩
  · intro p hp hx s hs
    rw [call_style, Option.map_eq_some_iff] at hs
    obtain ⟨s0, h0, rfl⟩ := hs
    simp only [hc p, applied]
    exact h.style p hp hx s0 h0
  · cases call with
    | method op =>
      cases op with
      | setBg d => exact absurd (hc .bullet) (by simp [SkinCall.bg])
      | setFg d => exact hbs
      | limitToAscii => exact hbs
      | _ => exact h.bullet
    | blendWith mix => exact h.bullet
    | partFg q d => cases q <;> first | exact h.bullet | exact hbs
    | partBg q d => exact absurd (hc q) (by simp [SkinCall.bg])
  · cases call with
    | method op =>
      cases op with
      | setBg d => exact absurd (hc .bullet) (by simp [SkinCall.bg])
      | setFg d => exact hqs
      | limitToAscii => exact hqs
      | _ => exact h.quoteMark
    | blendWith mix => exact h.quoteMark
    | partFg q d => cases q <;> first | exact h.quoteMark | exact hqs
    | partBg q d => exact absurd (hc q) (by simp [SkinCall.bg])
  · intro cp sc e
    cases call with
    | method op =>
      cases op with
      | setBg d => exact absurd (hc .bullet) (by simp [SkinCall.bg])
      | setFg d =>
        simp only [SkinCall.run, SkinOp.run, Skin.setFg, Option.map_eq_some_iff] at e
        obtain ⟨sc0, e0, rfl⟩ := e
        exact hss cp sc0 e0
      | _ => exact h.special cp sc e
    | blendWith mix => exact h.special cp sc e
    | partFg q d =>
      cases q with
      | special q =>
        simp only [SkinCall.run, Skin.changePart] at e
        split at e
        · simp only [Option.map_eq_some_iff] at e
          obtain ⟨sc0, e0, rfl⟩ := e
          exact hss cp sc0 e0
        · exact h.special cp sc e
      | _ => exact h.special cp sc e
    | partBg q d => exact absurd (hc q) (by simp [SkinCall.bg])

private theorem fg_kept {except : SkinPart → Prop} {skin : Skin} {c : Color} (h : Reached (·.fg) except skin c) (hb : ¬ except .bullet) (hq : ¬ except .quoteMark)
    (hsp : ∀ cp, ¬ except (.special cp)) (call : SkinCall) (hc : ∀ p, call.fg p = none) : Reached (·.fg) except (call.run skin) c := by
  have hbs : skin.bullet.style.fg = some c := h.style .bullet (by simp [NotCode]) hb _ rfl
  have hqs : skin.quoteMark.style.fg = some c := h.style .quoteMark (by simp [NotCode]) hq _ rfl
  have hss : ∀ cp sc, skin.specialChars cp = some sc → sc.style.fg = some c := fun cp sc e =>
    h.style (.special cp) (by simp [NotCode]) (hsp cp) _ (by simp [SkinPart.style, e])
  refine ⟨?_, ?_, ?_, ?_⟩
  · intro p hp hx s hs
    rw [call_style, Option.map_eq_some_iff] at hs
    obtain ⟨s0, h0, rfl⟩ := hs
    simp only [hc p, applied]
    exact h.style p hp hx s0 h0
  · cases call with
    | method op =>
      cases op with
      | setFg d => exact absurd (hc .bullet) (by simp [SkinCall.fg])
      | setBg d => exact hbs
      | limitToAscii => exact hbs
      | _ => exact h.bullet
    | blendWith mix => exact h.bullet
    | partBg q d => cases q <;> first | exact h.bullet | exact hbs
    | partFg q d => exact absurd (hc q) (by simp [SkinCall.fg])
  · cases call with
    | method op =>
      cases op with
      | setFg d => exact absurd (hc .bullet) (by simp [SkinCall.fg])
      | setBg d => exact hqs
      | limitToAscii => exact hqs
      | _ => exact h.quoteMark
    | blendWith mix => exact h.quoteMark
    | partBg q d => cases q <;> first | exact h.quoteMark | exact hqs
    | partFg q d => exact absurd (hc q) (by simp [SkinCall.fg])
  · intro cp sc e
    cases call with
    | method op =>
      cases op with
      | setFg d => exact absurd (hc .bullet) (by simp [SkinCall.fg])
      | setBg d =>
        simp only [SkinCall.run, SkinOp.run, Skin.setBg, Option.map_eq_some_iff] at e
        obtain ⟨sc0, e0, rfl⟩ := e
        exact hss cp sc0 e0
      | _ => exact h.special cp sc e
    | blendWith mix => exact h.special cp sc e
    | partBg q d =>
      cases q with
      | special q =>
        simp only [SkinCall.run, Skin.changePart] at e
        split at e
        · simp only [Option.map_eq_some_iff] at e
          obtain ⟨sc0, e0, rfl⟩ := e
          exact hss cp sc0 e0
        · exact h.special cp sc e
      | _ => exact h.special cp sc e
    | partFg q d => exact absurd (hc q) (by simp [SkinCall.fg])

private theorem compound_reached {color : CompoundStyle → Option Color} (hcol : color = (·.fg) ∨ color = (·.bg)) {except : SkinPart → Prop} {skin : Skin} {c : Color}
    (h : Reached color except skin c) (hx : ∀ p, except p → p = .table ∨ p = .track ∨ p = .thumb) {ls : LineStyle} (hls : color ls.style = some c)
    (cp : Compound) (hc : cp.flags.code = false) : color (skin.compoundStyle ls cp) = some c := by
  have hn : ∀ p : SkinPart, p ≠ .table → p ≠ .track → p ≠ .thumb → NotCode p → ∀ s, p.style skin = some s → color s = some c := by
    intro p h1 h2 h3 h4 s hs
    refine h.style p h4 (fun e => ?_) s hs
    rcases hx p e with e | e | e
    · exact h1 e
    · exact h2 e
    · exact h3 e
  by_cases he : cp.src = ['…']
  · simp only [Skin.compoundStyle, he]
    exact hn .ellipsis (by simp) (by simp) (by simp) (by simp [NotCode]) _ rfl
  · have hb := hn .bold (by simp) (by simp) (by simp) (by simp [NotCode]) _ rfl
    have hi := hn .italic (by simp) (by simp) (by simp) (by simp [NotCode]) _ rfl
    have hs := hn .strikeout (by simp) (by simp) (by simp) (by simp [NotCode]) _ rfl
    rcases hcol with rfl | rfl
    · show (skin.compoundStyle ls cp).fg = some c
      rw [(C41_compound_colors _ ls cp he).1]
      simp only at hls hb hi hs
      simp only [layers, topmost, hc]
      cases cp.flags.italic <;> cases cp.flags.strikeout <;> cases cp.flags.bold <;> simp [hls, hb, hi, hs]
    · show (skin.compoundStyle ls cp).bg = some c
      rw [(C41_compound_colors _ ls cp he).2]
      simp only at hls hb hi hs
      simp only [layers, topmost, hc]
      cases cp.flags.italic <;> cases cp.flags.strikeout <;> cases cp.flags.bold <;> simp [hls, hb, hi, hs]

private theorem shown_reached {color : CompoundStyle → Option Color} (hcol : color = (·.fg) ∨ color = (·.bg)) {except : SkinPart → Prop} {skin : Skin} {c : Color}
    (hr : Reached color except skin c) (hx : ∀ p, except p → p = .table ∨ p = .track ∨ p = .thumb)
    {cw : Char → Nat} {ws : Char → Bool} {mlines : List MLine} {width : Option Nat} {drawn : List (List Piece)}
    (hnc : ∀ m ∈ mlines, NoCodeSource m) (h : shownPieces cw ws skin mlines width = some drawn) :
    ∀ ps ∈ drawn, ∀ p ∈ ps, ∀ ch ∈ p.2, color p.1 = some c ∨ (p.1 = skin.table.style ∧ ch ∈ skin.tableBorderChars.all) := by
  have hn : ∀ p : SkinPart, p ≠ .table → p ≠ .track → p ≠ .thumb → NotCode p → ∀ s, p.style skin = some s → color s = some c := by
    intro p h1 h2 h3 h4 s hs
    refine hr.style p h4 (fun e => ?_) s hs
    rcases hx p e with e | e | e
    · exact h1 e
    · exact h2 e
    · exact h3 e
  have hpar : color skin.paragraph.style = some c := hn .paragraph (by simp) (by simp) (by simp) (by simp [NotCode]) _ rfl
  have hrule : color skin.horizontalRule.style = some c := hn .horizontalRule (by simp) (by simp) (by simp) (by simp [NotCode]) _ rfl
  have hhead : ∀ i, color (skin.headers i).style = some c := fun i => hn (.header i) (by simp) (by simp) (by simp) (by simp [NotCode]) _ rfl
  obtain ⟨t, ht, hd⟩ := shown_lines h
  intro ps hps p hp ch hch
  obtain ⟨l, hl, hw⟩ := hd ps hps
  rcases writeFmtLine_pieces hw p hp with ⟨fc, hfc, ls, hls, hpc⟩ | ⟨_, he⟩ | ⟨hb, he, _⟩ | ⟨⟨n, he⟩, _⟩
  · left
    obtain ⟨hk, hcode⟩ := noCode_lines ht hnc l hl fc hfc
    have hlsc : color ls.style = some c := by
      rcases lineStyle_cases hls hk with e | ⟨i, e⟩ <;> rw [e]
      · exact hpar
      · exact hhead i
    rcases hpc with ⟨_, he | he⟩ | ⟨he, _⟩ | ⟨he, _⟩ | ⟨cp, hcp, he⟩
    · rw [he]; exact hpar
    · rw [he]; exact hlsc
    · rw [mem_display he]; exact hr.bullet
    · rw [mem_display he]; exact hr.quoteMark
    · simp only [Skin.writeCompound] at he
      split at he
      · rename_i sc hsc
        rw [mem_display he]; exact hr.special _ _ hsc
      · simp only [List.mem_singleton] at he
        subst he
        exact compound_reached hcol hr hx hlsc cp (hcode _ (char_flag hcp hch))
  · left; rw [he]; exact hpar
  · exact .inr ⟨he, hb ch hch⟩
  · left; rw [mem_repeated he]; exact hrule

/-- C94: whatever was done before `set_bg`, and whatever is done after it but giving a background to something, all the characters displayed for a text
without code have this background. -/
theorem C94_shown_bg (cw : Char → Nat) (ws : Char → Bool) (skin : Skin) (before after : List SkinCall) (c : Color)
    (hafter : ∀ a ∈ after, ∀ p, a.bg p = none) (mlines : List MLine) (width : Option Nat) (drawn : List (List Piece))
    (hnc : ∀ m ∈ mlines, NoCodeSource m)
    (h : shownPieces cw ws ((before ++ .method (.setBg c) :: after).foldl SkinCall.run skin) mlines width = some drawn) :
    ∀ ps ∈ drawn, ∀ p ∈ ps, ∀ ch ∈ p.2, p.1.bg = some c := by
  have hr : Reached (·.bg) (fun _ => False) ((before ++ .method (.setBg c) :: after).foldl SkinCall.run skin) c := by
    rw [List.foldl_append, List.foldl_cons]
    generalize before.foldl SkinCall.run skin = s0
    have h0 : Reached (·.bg) (fun _ => False) (SkinCall.run s0 (.method (.setBg c))) c := setBg_reached s0 c
    clear h
    generalize SkinCall.run s0 (.method (.setBg c)) = s1 at h0
    induction after generalizing s1 with
    | nil => exact h0
    | cons a as ih =>
      rw [List.foldl_cons]
      exact ih (fun x hx => hafter x (by simp [hx])) _ (bg_kept h0 (fun x => x) (fun x => x) (fun _ x => x) a (hafter a (by simp)))
  intro ps hps p hp ch hch
  rcases shown_reached (.inr rfl) hr (fun _ e => e.elim) hnc h ps hps p hp ch hch with e | ⟨e, _⟩
  · exact e
  · rw [e]
    exact hr.style .table (by simp [NotCode]) (fun x => x) _ rfl

/-- C94: whatever was done before `set_fg`, and whatever is done after it but giving or mixing a foreground, all the characters displayed for a text
without code have this foreground, but those of the borders of tables, which have the style of the table. -/
theorem C94_shown_fg (cw : Char → Nat) (ws : Char → Bool) (skin : Skin) (before after : List SkinCall) (c : Color)
    (hafter : ∀ a ∈ after, ∀ p, a.fg p = none) (mlines : List MLine) (width : Option Nat) (drawn : List (List Piece))
    (hnc : ∀ m ∈ mlines, NoCodeSource m) (final : Skin) (hf : final = (before ++ .method (.setFg c) :: after).foldl SkinCall.run skin)
    (h : shownPieces cw ws final mlines width = some drawn) :
    ∀ ps ∈ drawn, ∀ p ∈ ps, ∀ ch ∈ p.2, p.1.fg = some c ∨ (p.1 = final.table.style ∧ ch ∈ final.tableBorderChars.all) := by
  have hr : Reached (·.fg) (fun p => p = .table ∨ p = .track ∨ p = .thumb) final c := by
    rw [hf, List.foldl_append, List.foldl_cons]
    clear hf h
    generalize before.foldl SkinCall.run skin = s0
    have h0 : Reached (·.fg) (fun p => p = .table ∨ p = .track ∨ p = .thumb) (SkinCall.run s0 (.method (.setFg c))) c := setFg_reached s0 c
    generalize SkinCall.run s0 (.method (.setFg c)) = s1 at h0
    induction after generalizing s1 with
    | nil => exact h0
    | cons a as ih =>
      rw [List.foldl_cons]
      exact ih (fun x hx => hafter x (by simp [hx])) _ (fg_kept h0 (by simp) (by simp) (by simp) a (hafter a (by simp)))
  exact shown_reached (.inl rfl) hr (fun _ e => e) hnc h

/-- C94: some calls and a text meeting the hypotheses: a list item, a header and a table, with bold words. -/
example : ∃ drawn, shownPieces (fun _ => 1) (· == ' ')
    (([.partBg .bold .red, .method (.setGlobalBg .blue)] ++
      .method (.setBg .green) :: [.method (.setFg .white), .blendWith (fun _ => .black), .method .limitToAscii] : List SkinCall).foldl
      SkinCall.run .default)
    [.normal (.listItem 0) [⟨"ab".toList, { bold := true }⟩, ⟨" c".toList, {}⟩], .normal (.header 1) [⟨"d".toList, {}⟩],
      .tableRow [(.paragraph, [⟨"e".toList, {}⟩])]] (some 20) = some drawn ∧ drawn.length = 3 ∧
    (∀ ps ∈ drawn, ∀ p ∈ ps, p.2 ≠ [] → p.1.bg = some .green) ∧ ∃ ps ∈ drawn, ∃ p ∈ ps, p.2 = "ab".toList := by
  refine ⟨_, rfl, by decide +kernel, by decide +kernel, by decide +kernel⟩

/-- C94: none of the calls after `set_bg` in this example gives a background. -/
example : ∀ a ∈ ([.method (.setFg .white), .blendWith (fun _ => .black), .method .limitToAscii] : List SkinCall), ∀ p, a.bg p = none := by
  simp [SkinCall.bg]

end Verif.Props
