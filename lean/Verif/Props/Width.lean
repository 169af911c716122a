import Verif.Width
import Verif.Props.GString

/-! Properties C34-C36: widths of graphemes and strings. -/

namespace Uax
open Width

/-! ### Specification -/

/-- The emoji tables are there: one for each of the six classes. -/
def EmojiReady (W : WidthTables) : Prop := 6 ≤ W.emoji.length

/-- The rune is an emoji, that is, in one of the six tables. -/
def IsEmoji (W : WidthTables) (r : Int) : Prop := ∃ (c : Nat) (f : Int → Bool), c < 6 ∧ W.emoji[c]? = some (some f) ∧ f r = true

/-- Wide in every context. -/
def AlwaysWide (W : WidthTables) (r : Int) : Prop := IsEmoji W r ∨ W.kind r = .wide ∨ W.kind r = .fullwidth

/-- Wide in an East Asian context only. -/
def WideInEastAsia (W : WidthTables) (r : Int) : Prop := W.kind r = .neutral ∨ W.kind r = .ambiguous

/-- The call returns this width. -/
def HasWidth (W : WidthTables) (b : List Nat) (ctx : Option Context) (w : Int) : Prop :=
  ∃ N, ∀ n, N ≤ n → ∃ ctx', width W n b ctx = .returns (w, ctx')

/-! ### Lemmas -/

theorem emojiLoop_eq (tables : List (Option (Int → Bool))) (r : Int) : ∀ (n c : Nat), c + n ≤ tables.length →
    ∃ k, emojiLoop tables r n c = some k ∧
      (0 ≤ k ↔ ∃ (i : Nat) (f : Int → Bool), c ≤ i ∧ i < c + n ∧ tables[i]? = some (some f) ∧ f r = true) := by
  intro n
  induction n with
  | zero =>
    intro c _
    refine ⟨-1, rfl, ⟨fun h => absurd h (by decide), ?_⟩⟩
    rintro ⟨i, f, h1, h2, _⟩
    omega
  | succ n ih =>
    intro c hc
    have hlt : c < tables.length := by omega
    unfold emojiLoop
    rw [List.getElem?_eq_getElem hlt]
    simp only
    by_cases h : (match tables[c] with | none => false | some f => f r) = true
    · refine ⟨c, if_pos h, ⟨fun _ => ?_, fun _ => Int.natCast_nonneg c⟩⟩
      cases ht : tables[c] with
      | none => rw [ht] at h; cases h
      | some f => rw [ht] at h; exact ⟨c, f, Nat.le_refl _, by omega, by rw [List.getElem?_eq_getElem hlt, ht], h⟩
    · obtain ⟨k, h1, h2⟩ := ih (c + 1) (by omega)
      refine ⟨k, (if_neg h).trans h1, ?_⟩
      rw [h2]
      constructor
      · rintro ⟨i, f, a, b, d⟩; exact ⟨i, f, by omega, by omega, d⟩
      · rintro ⟨i, f, a, b, d, e⟩
        refine ⟨i, f, ?_, by omega, d, e⟩
        rcases Nat.lt_or_ge c i with h' | h'
        · exact h'
        · exfalso
          have : i = c := by omega
          subst this
          rw [List.getElem?_eq_getElem hlt] at d
          have d' := Option.some.inj d
          rw [d'] at h
          exact h e

theorem emojiClass_ready (W : WidthTables) (hW : EmojiReady W) (r : Int) :
    ∃ k, emojiClass W r = some k ∧ (0 ≤ k ↔ IsEmoji W r) := by
  obtain ⟨k, h1, h2⟩ := emojiLoop_eq W.emoji r 6 0 (by unfold EmojiReady at hW; omega)
  refine ⟨k, h1, h2.trans ?_⟩
  constructor
  · rintro ⟨i, f, _, b, d⟩; exact ⟨i, f, by omega, d⟩
  · rintro ⟨i, f, b, d⟩; exact ⟨i, f, by omega, by omega, d⟩

/-- The policy of a context. -/
def isWidePolicy (W : WidthTables) (ctx : Option Context) : Bool := (usedContext W ctx).resolve == some .toWide

theorem findResolver_some (W : WidthTables) (l : String) (ctx : Context) : (findResolver W l ctx).resolve ≠ none := by
  unfold findResolver
  by_cases h1 : (if ctx.script = "Zzzz" then { ctx with script := W.scriptOf l } else ctx).script ∈ wideScripts
  · simp only [h1, if_true]; simp
  · simp only [h1, if_false]
    by_cases h2 : W.matchesEA l = false
    · rw [if_pos h2]; simp
    · rw [if_neg h2]; simp

theorem used_some (W : WidthTables) (ctx : Option Context) : (usedContext W ctx).resolve ≠ none := by
  cases ctx with
  | none => simp [usedContext, latinContext]
  | some c =>
    unfold usedContext
    simp only
    split
    · unfold evaluateContext
      split
      · simp
      · exact findResolver_some W _ _
    · assumption

open Classical in
/-- The width of a grapheme in one formula. -/
noncomputable def widthOf (W : WidthTables) (wide : Bool) (r : Int) : Int :=
  if AlwaysWide W r ∨ (wide = true ∧ WideInEastAsia W r) then 2 else 1

theorem widthOf_two (W : WidthTables) (wide : Bool) (r : Int) :
    widthOf W wide r = 2 ↔ AlwaysWide W r ∨ (wide = true ∧ WideInEastAsia W r) := by
  unfold widthOf
  split
  · rename_i h; exact ⟨fun _ => h, fun _ => rfl⟩
  · rename_i h; exact ⟨fun h' => absurd h' (by decide), fun h' => absurd h' h⟩

theorem widthOf_vals (W : WidthTables) (wide : Bool) (r : Int) : widthOf W wide r = 1 ∨ widthOf W wide r = 2 := by
  unfold widthOf
  split
  · exact Or.inr rfl
  · exact Or.inl rfl

theorem widthOf_one {W : WidthTables} {wide : Bool} {r : Int} (h : ¬ (AlwaysWide W r ∨ (wide = true ∧ WideInEastAsia W r))) :
    widthOf W wide r = 1 := (widthOf_vals W wide r).resolve_right fun h2 => h ((widthOf_two W wide r).mp h2)

theorem widthOf_mono (W : WidthTables) (wide : Bool) (r : Int) :
    widthOf W false r ≤ widthOf W wide r ∧ widthOf W wide r ≤ widthOf W true r := by
  have v1 := widthOf_vals W false r
  have v2 := widthOf_vals W true r
  cases wide
  · refine ⟨Int.le_refl _, ?_⟩
    rcases v1 with e | e
    · omega
    · rw [e, (widthOf_two W true r).mpr]
      · decide
      · rcases (widthOf_two W false r).mp e with h | ⟨h, _⟩
        · exact Or.inl h
        · cases h
  · refine ⟨?_, Int.le_refl _⟩
    rcases v1 with e | e
    · omega
    · rw [e, (widthOf_two W true r).mpr]
      · decide
      · rcases (widthOf_two W false r).mp e with h | ⟨h, _⟩
        · exact Or.inl h
        · cases h

theorem graphemeWidth_eq (W : WidthTables) (hW : EmojiReady W) (b : List Nat) (ctx : Option Context) :
    graphemeWidth W b (usedContext W ctx) = .returns (widthOf W (isWidePolicy W ctx) ((Utf8.decode b).1 : Nat)) := by
  obtain ⟨k, h1, h2⟩ := emojiClass_ready W hW ((Utf8.decode b).1 : Nat)
  have hs := used_some W ctx
  unfold graphemeWidth
  simp only [h1]
  generalize (((Utf8.decode b).1 : Nat) : Int) = r at *
  by_cases hk : k ≥ 0
  · rw [if_pos hk, (widthOf_two W _ r).mpr (Or.inl (Or.inl (h2.mp hk)))]
  · rw [if_neg hk]
    have hE : ¬ IsEmoji W r := fun h => hk (h2.mpr h)
    cases hr : (usedContext W ctx).resolve with
    | none => exact absurd hr hs
    | some f =>
      have hp : isWidePolicy W ctx = (f == .toWide) := by unfold isWidePolicy; rw [hr]; cases f <;> rfl
      rw [hp]
      by_cases hw : f.apply (W.kind r) = .wide
      · simp only [hw, if_true]
        rw [(widthOf_two W _ r).mpr]
        cases f <;> cases hkind : W.kind r <;>
          simp [Resolver.apply, AlwaysWide, WideInEastAsia, hkind] at hw ⊢
      · simp only [hw, if_false]
        rw [widthOf_one]
        cases f <;> cases hkind : W.kind r <;>
          simp [Resolver.apply, AlwaysWide, WideInEastAsia, hkind, hE] at hw ⊢

theorem width_legal (W : WidthTables) (hW : EmojiReady W) (c : Char) (hc : c ≠ replacement) (rest : List Nat) (ctx : Option Context)
    (n : Nat) (hn : 1 ≤ n) :
    width W n (utf8 [c] ++ rest) ctx = .returns (widthOf W (isWidePolicy W ctx) c.toNat, leftContext W ctx) := by
  unfold width
  rw [if_neg (by
    rw [List.length_append]
    have := utf8_length [c]
    rw [List.length_singleton] at this
    omega), first_legal c hc rest n hn]
  simp only [Run.andThen, ne_eq, not_true_eq_false, if_false]
  rw [graphemeWidth_eq W hW]
  simp only
  rw [utf8_one, Utf8.decode_encode _ (Utf8.char_scalar c)]

/-! ### C34 -/

/-- The width of a grapheme that begins with a legal character is 1 or 2; it is 2 exactly for emojis,
(full-)wide characters, and in East Asian contexts also neutral and ambiguous ones. -/
theorem C34_legal (W : WidthTables) (hW : EmojiReady W) (c : Char) (hc : c ≠ replacement) (rest : List Nat) (ctx : Option Context) :
    ∃ w, HasWidth W (utf8 [c] ++ rest) ctx w ∧ (w = 1 ∨ w = 2) ∧
      (w = 2 ↔ AlwaysWide W c.toNat ∨ (isWidePolicy W ctx = true ∧ WideInEastAsia W c.toNat)) := by
  exact ⟨_, ⟨1, fun n hn => ⟨_, width_legal W hW c hc rest ctx n hn⟩⟩, widthOf_vals W _ _, widthOf_two W _ _⟩

/-- Width 0 is for input that is empty or does not begin with a legal character, and only for it. The call
returns unless the first byte is a continuation byte, when it never ends. -/
theorem C34_zero_partial (W : WidthTables) (hW : EmojiReady W) (b : List Nat) (ctx : Option Context) :
    (HasWidth W b ctx 0 ↔ NoLegalStart b ∧ ¬ ∃ x rest, b = x :: rest ∧ 0x80 ≤ x ∧ x < 0xC0) ∧
    ((∀ n, width W n b ctx = .running) ↔ ∃ x rest, b = x :: rest ∧ 0x80 ≤ x ∧ x < 0xC0) := by
  by_cases hb : NoLegalStart b
  · have hd := (decode_noLegal b).mpr hb
    by_cases hx : ∃ x rest, b = x :: rest ∧ 0x80 ≤ x ∧ x < 0xC0
    · have hrun : ∀ n, width W n b ctx = .running := by
        intro n
        unfold width
        rw [(C33_position_partial b).2.mpr hx n]
        obtain ⟨x, rest, rfl, -⟩ := hx
        rfl
      refine ⟨⟨?_, fun h => absurd hx h.2⟩, ⟨fun _ => hx, fun _ => hrun⟩⟩
      rintro ⟨N, hN⟩
      obtain ⟨ctx', h⟩ := hN N (Nat.le_refl _)
      rw [hrun] at h; cases h
    · have hret : ∀ n, 1 ≤ n → width W n b ctx = .returns (0, ctx) := by
        intro n hn
        obtain ⟨m, rfl⟩ : ∃ m, n = m + 1 := ⟨n - 1, by omega⟩
        unfold width
        cases b with
        | nil => rfl
        | cons x rest =>
          rw [if_neg (by simp)]
          unfold positionOfFirstLegalRune firstLegalLoop
          simp only [List.getElem?_cons_zero]
          rw [if_pos (by
            unfold Utf8.runeStart
            simp
            apply Classical.byContradiction
            intro h2
            exact hx ⟨x, rest, rfl, by omega, by omega⟩)]
          rw [List.drop_zero, if_neg (by simp [hd])]
          rfl
      refine ⟨⟨fun _ => ⟨hb, hx⟩, fun _ => ⟨1, fun n hn => ⟨ctx, hret n hn⟩⟩⟩, ⟨fun h => ?_, fun h => absurd h hx⟩⟩
      have := hret 1 (Nat.le_refl _)
      rw [h 1] at this; cases this
  · have hb' := hb
    unfold NoLegalStart at hb'
    simp only [ne_eq, Classical.not_forall, Classical.not_not] at hb'
    obtain ⟨c, rest, hc, rfl⟩ := hb'
    have hw := width_legal W hW c hc rest ctx
    refine ⟨⟨?_, fun h => absurd h.1 hb⟩, ⟨fun h => ?_, ?_⟩⟩
    · rintro ⟨N, hN⟩
      obtain ⟨ctx', h⟩ := hN (N + 1) (by omega)
      rw [hw (N + 1) (by omega)] at h
      have h0 := (Prod.mk.inj (Run.returns.inj h)).1
      have := widthOf_vals W (isWidePolicy W ctx) c.toNat
      omega
    · have := hw 1 (Nat.le_refl _)
      rw [h 1] at this; cases this
    · rintro ⟨x, r', e, h3, h4⟩
      exfalso
      obtain ⟨p0, t, he, hs⟩ := Utf8.encodeNat_start c.toNat (Utf8.char_scalar c)
      rw [utf8_one, he, List.cons_append] at e
      have : p0 = x := (List.cons.inj e).1
      subst this
      unfold Utf8.runeStart at hs
      simp at hs
      omega

/-- The East Asian context never gives a smaller width than the Latin one, nor does any context give one
outside of these two. -/
theorem C34_east_asian_not_smaller (W : WidthTables) (hW : EmojiReady W) (b : List Nat) (ctx : Option Context) (l w e : Int)
    (hl : HasWidth W b (some latinContext) l) (hw : HasWidth W b ctx w) (he : HasWidth W b (some eastAsianContext) e) :
    l ≤ w ∧ w ≤ e := by
  by_cases hb : NoLegalStart b
  · have hz : ∀ ctx w, HasWidth W b ctx w → w = 0 := by
      rintro ctx w ⟨N, hN⟩
      have h0 : HasWidth W b ctx 0 := by
        apply (C34_zero_partial W hW b ctx).1.mpr
        refine ⟨hb, fun hx => ?_⟩
        obtain ⟨c', h⟩ := hN N (Nat.le_refl _)
        rw [(C34_zero_partial W hW b ctx).2.mpr hx] at h
        cases h
      obtain ⟨M, hM⟩ := h0
      obtain ⟨c1, e1⟩ := hN (max N M) (Nat.le_max_left _ _)
      obtain ⟨c2, e2⟩ := hM (max N M) (Nat.le_max_right _ _)
      rw [e1] at e2
      cases e2; rfl
    rw [hz _ _ hl, hz _ _ hw, hz _ _ he]
    exact ⟨Int.le_refl _, Int.le_refl _⟩
  · unfold NoLegalStart at hb
    simp only [ne_eq, Classical.not_forall, Classical.not_not] at hb
    obtain ⟨c, rest, hc, rfl⟩ := hb
    have hv : ∀ ctx w, HasWidth W (utf8 [c] ++ rest) ctx w → w = widthOf W (isWidePolicy W ctx) c.toNat := by
      rintro ctx w ⟨N, hN⟩
      obtain ⟨c1, e1⟩ := hN (N + 1) (by omega)
      rw [width_legal W hW c hc rest ctx (N + 1) (by omega)] at e1
      exact (Prod.mk.inj (Run.returns.inj e1)).1.symm
    rw [hv _ _ hl, hv _ _ hw, hv _ _ he]
    rw [show isWidePolicy W (some latinContext) = false from rfl, show isWidePolicy W (some eastAsianContext) = true from rfl]
    exact widthOf_mono W _ _

/-- Example tables: U+4E16 is wide, U+1F600 and the digits are emojis (as in the table `Emoji` of
emojiclasses.go:53-54), U+00B1 is ambiguous, zero width joiner is neutral, all else is narrow. -/
def someWidths : WidthTables where
  kind r := if r = 0x4E16 then .wide else if r = 0xB1 then .ambiguous else if r = 0x200D then .neutral else .narrow
  emoji := [some fun r => decide (48 ≤ r ∧ r ≤ 57) || r == 0x1F600, none, none, none, none, some fun r => r == 0x1F600]
  scriptOf l := if l = "zh" then "Hans" else "Latn"
  matchesEA l := l == "zh" || l == "vi"

example : EmojiReady someWidths := by unfold EmojiReady; decide

/-- World, A and a smiley in Latin context; plus-minus in both. -/
example : (width someWidths 3 (utf8 [Char.ofNat 0x4E16]) none, width someWidths 3 [65] none, width someWidths 3 (utf8 [Char.ofNat 0x1F600]) none) =
      (.returns (2, none), .returns (1, none), .returns (2, none)) ∧
    width someWidths 3 (utf8 [Char.ofNat 0xB1]) (some latinContext) = .returns (1, some latinContext) ∧
    width someWidths 3 (utf8 [Char.ofNat 0xB1]) (some eastAsianContext) = .returns (2, some eastAsianContext) := by
  decide +kernel

/-- Against the documentation ("or just a zero width rune, a width of 0 is returned"), zero width
runes have width 1 or 2. The digits, which are emojis for Unicode, have width 2. A continuation byte
at the start lets the call run forever, and without `SetupEmojisClasses` it panics. -/
theorem C34_violated :
    HasWidth someWidths (utf8 [Char.ofNat 0x200D]) none 1 ∧ HasWidth someWidths [49] none 2 ∧
    (∀ n, width someWidths n [128] none = .running) ∧
    ∀ n, 1 ≤ n → width { someWidths with emoji := [] } n [65] none = .panics := by
  refine ⟨⟨1, fun n hn => ⟨none, ?_⟩⟩, ⟨1, fun n hn => ⟨none, ?_⟩⟩, ?_, ?_⟩
  · obtain ⟨m, rfl⟩ : ∃ m, n = m + 1 := ⟨n - 1, by omega⟩; rfl
  · obtain ⟨m, rfl⟩ : ∃ m, n = m + 1 := ⟨n - 1, by omega⟩; rfl
  · exact (C34_zero_partial someWidths (by unfold EmojiReady; decide) [128] none).2.mpr ⟨128, [], rfl, by decide, by decide⟩
  · intro n hn
    obtain ⟨m, rfl⟩ : ∃ m, n = m + 1 := ⟨n - 1, by omega⟩; rfl

/-! ### C35 -/

/-- `Width` of each grapheme `Nth(i)`, summed up. -/
def WidthsAre (W : WidthTables) (g : GString) (ctx : Option Context) (ws : List Int) : Prop :=
  (ws.length : Int) = g.len ∧
  ∀ (i : Nat) w, ws[i]? = some w → ∃ nth, g.nth i = some nth ∧ HasWidth W nth ctx w

theorem sumLoop_eq (W : WidthTables) (hW : EmojiReady W) (g : GString) (ctx : Option Context) :
    ∀ (n i : Nat) (acc : Int) (nths : List (List Nat)), nths.length = n →
      (∀ j, j < n → g.nth ((i + j : Nat) : Int) = nths[j]?) →
      sumLoop W g (usedContext W ctx) n i acc =
        .returns (acc + (nths.map fun b => widthOf W (isWidePolicy W ctx) ((Utf8.decode b).1 : Nat)).sum) := by
  intro n
  induction n with
  | zero =>
    intro i acc nths hl _
    rw [List.length_eq_zero_iff.mp hl]
    simp [sumLoop]
  | succ n ih =>
    intro i acc nths hl h
    cases nths with
    | nil => cases hl
    | cons b nths =>
      have h0 := h 0 (by omega)
      rw [Nat.add_zero] at h0
      unfold sumLoop
      rw [h0]
      simp only [List.getElem?_cons_zero]
      rw [graphemeWidth_eq W hW]
      simp only [Run.andThen]
      rw [ih (i + 1) _ nths (by simpa using hl) (by
        intro j hj
        have := h (j + 1) (by omega)
        rw [List.getElem?_cons_succ] at this
        rw [← this]
        congr 2
        omega)]
      rw [List.map_cons, List.sum_cons]
      congr 1
      omega

theorem nths_of (g : GString) (h : ∀ n : Int, g.nth n = none ↔ n < 0 ∨ n > max (g.len - 1) 0) :
    ∃ nths : List (List Nat), nths.length = g.len.toNat ∧ ∀ j, j < g.len.toNat → g.nth (j : Int) = nths[j]? := by
  refine ⟨(List.range g.len.toNat).map fun (j : Nat) => (g.nth (j : Int)).getD [], by simp, ?_⟩
  intro j hj
  rw [List.getElem?_map, List.getElem?_range hj]
  have : g.nth (j : Int) ≠ none := by
    rw [ne_eq, h]
    omega
  rw [Option.map_some]
  cases hn : g.nth (j : Int) with
  | none => exact absurd hn this
  | some b => rfl

theorem len_nonneg (g : GString) : 0 ≤ g.len := by unfold GString.len; split <;> omega

theorem stringWidth_eq (W : WidthTables) (hW : EmojiReady W) (g : GString) (ctx : Option Context)
    (h : ∀ n : Int, g.nth n = none ↔ n < 0 ∨ n > max (g.len - 1) 0) :
    ∃ nths : List (List Nat), nths.length = g.len.toNat ∧ (∀ j, j < g.len.toNat → g.nth (j : Int) = nths[j]?) ∧
      ∃ ctx', stringWidth W g ctx =
        .returns ((nths.map fun b => widthOf W (isWidePolicy W ctx) ((Utf8.decode b).1 : Nat)).sum, ctx') := by
  obtain ⟨nths, h1, h2⟩ := nths_of g h
  refine ⟨nths, h1, h2, ?_⟩
  unfold stringWidth
  by_cases h0 : g.len = 0
  · rw [if_pos h0]
    have : nths = [] := List.length_eq_zero_iff.mp (by rw [h1, h0]; rfl)
    subst this
    exact ⟨_, rfl⟩
  · rw [if_neg h0, sumLoop_eq W hW g ctx _ 0 0 nths h1 (by intro j hj; rw [Nat.zero_add]; exact h2 j hj)]
    exact ⟨_, by rw [Int.zero_add]; rfl⟩

/-- The width of a string is the sum of the widths of its graphemes, as `Width` gives them. (For
strings whose graphemes have a width at all; see C30 for these.) -/
theorem C35_additive (W : WidthTables) (hW : EmojiReady W) (T : GTables) (b : List Nat) (g : GString) (hg : Returns T b g)
    (ctx : Option Context) (ws : List Int) (hw : WidthsAre W g ctx ws)
    (hl : ∀ (i : Nat) nth, g.nth i = some nth → (i : Int) < g.len → ¬ NoLegalStart nth) :
    ∃ ctx', stringWidth W g ctx = .returns (ws.sum, ctx') := by
  obtain ⟨nths, h1, h2, ctx', h3⟩ := stringWidth_eq W hW g ctx (fun n => C31_nth_range T b g hg n)
  refine ⟨ctx', ?_⟩
  rw [h3]
  suffices he : (nths.map fun b => widthOf W (isWidePolicy W ctx) ((Utf8.decode b).1 : Nat)) = ws by rw [he]
  have hlen := len_nonneg g
  have hws := hw.1
  apply List.ext_getElem?
  intro i
  by_cases hi : i < ws.length
  · have hi' : i < nths.length := by omega
    obtain ⟨nth, n1, N, hN⟩ := hw.2 i ws[i] (List.getElem?_eq_getElem hi)
    have n2 := h2 i (by omega)
    rw [n1, List.getElem?_eq_getElem hi'] at n2
    rw [List.getElem?_map, List.getElem?_eq_getElem hi', List.getElem?_eq_getElem hi, Option.map_some]
    rw [← Option.some.inj n2]
    have hno := hl i nth n1 (by omega)
    unfold NoLegalStart at hno
    simp only [ne_eq, Classical.not_forall, Classical.not_not] at hno
    obtain ⟨c, rest, hc, e⟩ := hno
    obtain ⟨c', hN⟩ := hN (N + 1) (by omega)
    rw [e, width_legal W hW c hc rest ctx (N + 1) (by omega)] at hN
    rw [e, utf8_one, Utf8.decode_encode _ (Utf8.char_scalar c)]
    exact congrArg some (Prod.mk.inj (Run.returns.inj hN)).1
  · rw [List.getElem?_eq_none (by rw [List.length_map]; omega), List.getElem?_eq_none (by omega)]

/-- The width of a string lies between the number of its graphemes and twice this number. -/
theorem C35_bounds (W : WidthTables) (hW : EmojiReady W) (T : GTables) (b : List Nat) (g : GString) (hg : Returns T b g)
    (ctx : Option Context) :
    ∃ w ctx', stringWidth W g ctx = .returns (w, ctx') ∧ g.len ≤ w ∧ w ≤ 2 * g.len := by
  obtain ⟨nths, h1, h2, ctx', h3⟩ := stringWidth_eq W hW g ctx (fun n => C31_nth_range T b g hg n)
  refine ⟨_, ctx', h3, ?_⟩
  have hlen := len_nonneg g
  have hg' : g.len = nths.length := by omega
  rw [hg']
  clear h1 h2 h3 hg' hlen
  induction nths with
  | nil => simp
  | cons b l ih =>
    rw [List.map_cons, List.sum_cons, List.length_cons]
    have := widthOf_vals W (isWidePolicy W ctx) ((Utf8.decode b).1 : Nat)
    omega

/-- For a text without long clusters (see C30), the width is the sum of what the first characters of the clusters
have: nothing else counts. -/
theorem C35_text (W : WidthTables) (hW : EmojiReady W) (T : GTables) (t : List Char) (h0 : t ≠ []) (ht : replacement ∉ t)
    (hz : Char.ofNat 0 ∉ t) (hl : (utf8 t).length < 65535)
    (hc : ∀ c ∈ clusters false (Graph.classOf T) (codes t), c.length ≤ 4096) (ctx : Option Context) :
    ∃ g ws, Returns T (utf8 t) g ∧ WidthsAre W g ctx ws ∧ ∃ ctx', stringWidth W g ctx = .returns (ws.sum, ctx') := by
  obtain ⟨g, parts, hg, -, hflat, hne, -, hlen, hnth, -⟩ := C30_graphemes_partial T t h0 ht hz hl hc
  have hlegal : ∀ p ∈ parts, ∃ c p', p = c :: p' ∧ c ≠ replacement := by
    intro p hp
    obtain ⟨c, p', rfl⟩ := List.exists_cons_of_ne_nil (hne p hp)
    refine ⟨c, p', rfl, fun e => ht ?_⟩
    rw [← hflat, ← e]
    exact List.mem_flatten.mpr ⟨_, hp, List.mem_cons_self⟩
  have hw : WidthsAre W g ctx (parts.map fun p => widthOf W (isWidePolicy W ctx) (((p.headD replacement).toNat : Nat) : Int)) := by
    refine ⟨by rw [List.length_map, hlen], ?_⟩
    intro i w hi
    rw [List.getElem?_map] at hi
    obtain ⟨p, hp, rfl⟩ := Option.map_eq_some_iff.mp hi
    obtain ⟨c, p', rfl, hcr⟩ := hlegal p (List.mem_of_getElem? hp)
    refine ⟨_, (hnth i _ hp).1, 1, fun n hn => ⟨leftContext W ctx, ?_⟩⟩
    rw [show utf8 (c :: p') = utf8 [c] ++ utf8 p' by rw [utf8_cons, utf8_one]]
    exact width_legal W hW c hcr _ ctx n hn
  refine ⟨g, _, hg, hw, C35_additive W hW T (utf8 t) g hg ctx _ hw ?_⟩
  intro i nth hn hi
  rw [hlen] at hi
  have hi' : i < parts.length := by omega
  have := (hnth i _ (List.getElem?_eq_getElem hi')).1
  rw [hn] at this
  obtain ⟨c, p', e, hcr⟩ := hlegal _ (List.getElem_mem hi')
  rw [e] at this
  rw [Option.some.inj this]
  intro hno
  exact hno c (utf8 p') hcr (by rw [utf8_cons, utf8_one])

/-- World and A: width 3. -/
example : stringWidth someWidths ⟨utf8 [Char.ofNat 0x4E16, Char.ofNat 65], [0, 3, 4]⟩ (some latinContext) = .returns (3, some latinContext) := by
  decide +kernel

example : stringFromString markTables 6 (utf8 [Char.ofNat 0x4E16, Char.ofNat 65]) =
    .returns ⟨utf8 [Char.ofNat 0x4E16, Char.ofNat 65], [0, 3, 4]⟩ := by decide +kernel

/-! ### C36 -/

/-- The script of a context: the given one, or else that of the locale. -/
def scriptFor (W : WidthTables) (ctx : Context) : String := if ctx.script = "Zzzz" then W.scriptOf ctx.locale else ctx.script

/-- Does the context ask for East Asian widths? -/
def AsksForWide (W : WidthTables) (ctx : Context) : Prop :=
  ctx.forceEastAsian = true ∨ scriptFor W ctx ∈ wideScripts ∨ W.matchesEA ctx.locale = true

/-- How an unresolved context is resolved, and what becomes of its script. -/
theorem C36_resolution (W : WidthTables) (ctx : Context) (h : ctx.resolve = none) :
    (isWidePolicy W (some ctx) = true ↔ AsksForWide W ctx) ∧
    (ctx.forceEastAsian = false → (usedContext W (some ctx)).script = scriptFor W ctx) ∧
    (usedContext W (some ctx)).locale = ctx.locale ∧ (usedContext W (some ctx)).forceEastAsian = ctx.forceEastAsian := by
  unfold isWidePolicy AsksForWide scriptFor usedContext
  simp only [h, if_true]
  unfold evaluateContext findResolver
  cases hf : ctx.forceEastAsian
  · simp only [Bool.false_eq_true, if_false, false_or]
    by_cases hs : ctx.script = "Zzzz" <;> simp only [hs, if_true, if_false]
    · by_cases hm : W.scriptOf ctx.locale ∈ wideScripts
      · simp [hm]
      · cases he : W.matchesEA ctx.locale <;> simp [hm]
    · by_cases hm : ctx.script ∈ wideScripts
      · simp [hm, hf]
      · cases he : W.matchesEA ctx.locale <;> simp [hm, hf]
  · simp [hf]

/-- Widths are those of the resolved policy: a width in an unresolved context that asks for East Asian
widths is that of the East Asian context, otherwise that of the Latin one. -/
theorem C36_widths (W : WidthTables) (hW : EmojiReady W) (ctx : Context) (h : ctx.resolve = none) (b : List Nat) (w : Int) :
    (AsksForWide W ctx → (HasWidth W b (some ctx) w ↔ HasWidth W b (some eastAsianContext) w)) ∧
    (¬ AsksForWide W ctx → (HasWidth W b (some ctx) w ↔ HasWidth W b (some latinContext) w)) := by
  have key : ∀ c1 c2 : Context, isWidePolicy W (some c1) = isWidePolicy W (some c2) →
      HasWidth W b (some c1) w → HasWidth W b (some c2) w := by
    rintro c1 c2 hp ⟨N, hN⟩
    refine ⟨N, fun n hn => ?_⟩
    obtain ⟨c', h1⟩ := hN n hn
    unfold width at h1 ⊢
    by_cases hz : b.length = 0
    · rw [if_pos hz] at h1 ⊢
      cases h1
      exact ⟨_, rfl⟩
    · rw [if_neg hz] at h1 ⊢
      cases hpos : positionOfFirstLegalRune n b with
      | panics => rw [hpos] at h1; cases h1
      | running => rw [hpos] at h1; cases h1
      | returns x =>
        rw [hpos] at h1
        simp only [Run.andThen] at h1 ⊢
        by_cases hs : x.1 ≠ 0
        · rw [if_pos hs] at h1 ⊢
          cases h1
          exact ⟨_, rfl⟩
        · rw [if_neg hs] at h1 ⊢
          rw [graphemeWidth_eq W hW] at h1 ⊢
          simp only at h1 ⊢
          rw [← hp]
          cases h1
          exact ⟨_, rfl⟩
  have hr := (C36_resolution W ctx h).1
  constructor
  · intro ha
    have hp : isWidePolicy W (some ctx) = isWidePolicy W (some eastAsianContext) := hr.mpr ha
    exact ⟨key _ _ hp, key _ _ hp.symm⟩
  · intro ha
    have hp : isWidePolicy W (some ctx) = isWidePolicy W (some latinContext) := by
      rw [show isWidePolicy W (some latinContext) = false from rfl]
      cases hh : isWidePolicy W (some ctx)
      · rfl
      · exact absurd (hr.mp hh) ha
    exact ⟨key _ _ hp, key _ _ hp.symm⟩

/-- A context's resolution is fixed by its first use: a call on a grapheme with a legal start leaves the context
resolved, and whatever is written to its public fields afterwards, it gives the widths of the same policy. -/
theorem C36_fixed_by_first_use (W : WidthTables) (hW : EmojiReady W) (ctx : Context) (c : Char) (hc : c ≠ replacement) (rest : List Nat)
    (n : Nat) (hn : 1 ≤ n) :
    ∃ w ctx', width W n (utf8 [c] ++ rest) (some ctx) = .returns (w, some ctx') ∧
      ∀ (force : Bool) (script locale : String),
        isWidePolicy W (some { ctx' with forceEastAsian := force, script := script, locale := locale }) = isWidePolicy W (some ctx) := by
  refine ⟨_, _, width_legal W hW c hc rest (some ctx) n hn, ?_⟩
  intro force script locale
  have hs := used_some W (some ctx)
  have key : ∀ u : Context, u.resolve ≠ none →
      (usedContext W (some { u with forceEastAsian := force, script := script, locale := locale })).resolve = u.resolve := by
    intro u hu
    unfold usedContext
    simp only [hu, if_false]
  unfold isWidePolicy
  rw [key _ hs]

/-- The context from the environment is resolved by the locale alone. -/
theorem C36_environment (W : WidthTables) (l : String) :
    isWidePolicy W (some (contextFor W l)) = true ↔ AsksForWide W ⟨false, "Zzzz", l, none⟩ := by
  have hs := findResolver_some W l ⟨false, W.scriptOf l, l, none⟩
  have e1 : isWidePolicy W (some (contextFor W l)) = ((contextFor W l).resolve == some .toWide) := by
    have hs' : (contextFor W l).resolve ≠ none := hs
    unfold isWidePolicy usedContext
    simp only [hs', if_false]
  rw [e1]
  unfold AsksForWide scriptFor contextFor findResolver
  simp only [if_true, Bool.false_eq_true, false_or]
  have hz : (if W.scriptOf l = "Zzzz" then ({ forceEastAsian := false, script := W.scriptOf l, locale := l, resolve := none } : Context)
      else ⟨false, W.scriptOf l, l, none⟩) = ⟨false, W.scriptOf l, l, none⟩ := ite_self _
  rw [hz]
  by_cases hm : W.scriptOf l ∈ wideScripts
  · simp [hm]
  · cases he : W.matchesEA l <;> simp [hm, he]

/-- Unspecified Chinese, as in the documentation: the script becomes Hans. Vietnamese is wide by the match of
its language, English is not. -/
example : usedContext someWidths (some ⟨false, "Zzzz", "zh", none⟩) = ⟨false, "Hans", "zh", some .toWide⟩ ∧
    usedContext someWidths (some ⟨false, "Zzzz", "vi", none⟩) = ⟨false, "Latn", "vi", some .toWide⟩ ∧
    usedContext someWidths (some ⟨false, "Zzzz", "en", none⟩) = ⟨false, "Latn", "en", some .toNarrow⟩ := by decide +kernel

end Uax
