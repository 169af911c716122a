import Verif.Props.Ascii
import Verif.Props.Width

/-! C59: the width of ASCII strings, with the emoji tables of /repo. -/

namespace Uax
open Width

/-- `rangeFromEmojisClass` after set-up. -/
def realEmoji : List (Option (Int → Bool)) := eClasses.map fun c => some fun r => inRanges (eTable c) r

/-- The printable ASCII characters are narrow for `width.LookupRune` (EastAsianWidth.txt: 0020..007E Na). -/
def AsciiNarrow (W : WidthTables) : Prop := ∀ r : Int, 0x20 ≤ r → r ≤ 0x7e → W.kind r = .narrow

/-- The characters `#` and `*` and the digits, from which keycap emojis are made. -/
def isKeycap (x : Nat) : Bool := x == 0x23 || x == 0x2a || (decide (0x30 ≤ x) && decide (x ≤ 0x39))

theorem isEmoji_real (W : WidthTables) (hW : W.emoji = realEmoji) (r : Int) : IsEmoji W r ↔ ∃ c : EClass, Listed (eTable c) r := by
  unfold IsEmoji
  rw [hW]
  constructor
  · rintro ⟨c, f, -, hf, hr⟩
    unfold realEmoji at hf
    rw [List.getElem?_map] at hf
    cases he : eClasses[c]? with
    | none => rw [he] at hf; cases hf
    | some e =>
      rw [he] at hf
      cases hf
      exact ⟨e, (inRanges_iff _ _).mp hr⟩
  · rintro ⟨c, hc⟩
    have : ∃ i : Nat, i < 6 ∧ eClasses[i]? = some c := by
      cases c
      · exact ⟨0, by decide, rfl⟩
      · exact ⟨1, by decide, rfl⟩
      · exact ⟨2, by decide, rfl⟩
      · exact ⟨3, by decide, rfl⟩
      · exact ⟨4, by decide, rfl⟩
      · exact ⟨5, by decide, rfl⟩
    obtain ⟨i, hi, hg⟩ := this
    exact ⟨i, _, hi, by unfold realEmoji; rw [List.getElem?_map, hg]; rfl, (inRanges_iff _ _).mpr hc⟩

theorem emoji_ascii (x : Nat) (hx : x < 128) : (∃ c : EClass, Listed (eTable c) (x : Int)) ↔ isKeycap x = true := by
  have hall : ∀ c : EClass, sortedB (eTable c) = true ∧ (eTable c).length < 3000 := by intro c; cases c <;> decide +kernel
  have key : ∀ x : Nat, x < 128 → (eClasses.any fun c => inRanges (lowPart (eTable c)) x) = isKeycap x := by decide +kernel
  rw [← key x hx, List.any_eq_true]
  constructor
  · rintro ⟨c, hc⟩
    exact ⟨c, by cases c <;> decide, by rw [← lowPart_eq (hall c).1 (hall c).2 x hx]; exact (inRanges_iff _ _).mpr hc⟩
  · rintro ⟨c, -, hc⟩
    rw [← lowPart_eq (hall c).1 (hall c).2 x hx] at hc
    exact ⟨c, (inRanges_iff _ _).mp hc⟩

/-- C59 for single characters, in every context: width 1, but for `#`, `*` and digits. Missing: these, which have
width 2 (`C59_violated`). -/
theorem C59_character_partial (W : WidthTables) (hW : W.emoji = realEmoji) (hk : AsciiNarrow W) (ctx : Option Context) (x : Nat)
    (h1 : 0x20 ≤ x) (h2 : x ≤ 0x7e) : HasWidth W [x] ctx (if isKeycap x then 2 else 1) := by
  have hready : EmojiReady W := by unfold EmojiReady; rw [hW]; decide
  have hnat : ∀ x : Nat, x < 128 → (Char.ofNat x).toNat = x := by decide +kernel
  have hne : Char.ofNat x ≠ replacement := by
    intro e
    have := congrArg Char.toNat e
    rw [hnat x (by omega)] at this
    have h3 : replacement.toNat = 0xFFFD := by decide
    omega
  obtain ⟨w, hw, h12, hiff⟩ := C34_legal W hready (Char.ofNat x) hne [] ctx
  have hu := ascii_utf8 [x] (by simp; omega)
  rw [List.map_cons, List.map_nil] at hu
  rw [hu, List.append_nil] at hw
  rw [hnat x (by omega)] at hiff
  have hkind := hk x (by omega) (by omega)
  have h3 : w = 2 ↔ isKeycap x = true := by
    rw [hiff, ← emoji_ascii x (by omega), ← isEmoji_real W hW]
    unfold AlwaysWide WideInEastAsia
    rw [hkind]
    simp
  have : w = if isKeycap x then 2 else 1 := by
    split
    · exact h3.mpr ‹_›
    · rcases h12 with h | h
      · exact h
      · exact absurd (h3.mp h) ‹_›
  rw [← this]
  exact hw

/-- C59 for strings: the width is the number of characters plus the number of `#`, `*` and digits. -/
theorem C59_string_partial (W : WidthTables) (hW : W.emoji = realEmoji) (hk : AsciiNarrow W) (ctx : Option Context) (b : List Nat) (h0 : b ≠ [])
    (hb : ∀ x ∈ b, 0x20 ≤ x ∧ x ≤ 0x7e) (hl : b.length < 65535) :
    ∃ g ctx', Returns realG b g ∧ stringWidth W g ctx = .returns ((b.length : Int) + (b.filter isKeycap).length, ctx') := by
  have hready : EmojiReady W := by unfold EmojiReady; rw [hW]; decide
  obtain ⟨g, h1, h2, h3, h4⟩ := C58_strings b h0 (fun x hx => by have := hb x hx; omega) hl
  have hws : WidthsAre W g ctx (b.map fun x => if isKeycap x then (2 : Int) else 1) := by
    refine ⟨by rw [List.length_map, h3], ?_⟩
    intro i w hw
    rw [List.getElem?_map] at hw
    cases hx : b[i]? with
    | none => rw [hx] at hw; cases hw
    | some x =>
      rw [hx] at hw
      cases hw
      have := hb x (List.mem_of_getElem? hx)
      exact ⟨[x], h4 i x hx, C59_character_partial W hW hk ctx x this.1 this.2⟩
  obtain ⟨ctx', h5⟩ := C35_additive W hready realG b g h1 ctx _ hws (by
    intro i nth hn hi
    rw [h3] at hi
    have hx : b[i]? = some b[i] := List.getElem?_eq_getElem (by omega)
    rw [h4 i _ hx] at hn
    cases hn
    have := hb _ (List.getElem_mem (show i < b.length by omega))
    intro hno
    have hd := (decode_noLegal _).mpr hno
    have hsm : ∀ x : Nat, x < 128 → (Utf8.decode [x]).1 ≠ Utf8.runeError := by decide +kernel
    exact hsm _ (by omega) hd)
  refine ⟨g, ctx', h1, ?_⟩
  rw [h5]
  congr 2
  clear hws h5 h4 h3 h2 h1 hl hb h0
  induction b with
  | nil => rfl
  | cons x b ih =>
    rw [List.map_cons, List.sum_cons, ih, List.filter_cons, List.length_cons]
    by_cases hx : isKeycap x = true
    · simp only [hx, if_true, List.length_cons]; omega
    · simp only [hx, if_false, Bool.false_eq_true]; omega

/-- C59 does not hold: digits count twice, so that "A4" is three cells wide. -/
theorem C59_violated (W : WidthTables) (hW : W.emoji = realEmoji) (hk : AsciiNarrow W) :
    HasWidth W [0x34] (some latinContext) 2 ∧
    ∃ g ctx', Returns realG [0x41, 0x34] g ∧ stringWidth W g (some latinContext) = .returns (3, ctx') := by
  refine ⟨C59_character_partial W hW hk _ 0x34 (by decide) (by decide), ?_⟩
  exact C59_string_partial W hW hk _ [0x41, 0x34] (by decide) (by decide) (by decide)

/-- The zero width joiner is two cells wide, whatever its kind. -/
theorem C59_joiner_violated (W : WidthTables) (hW : W.emoji = realEmoji) (ctx : Option Context) :
    HasWidth W (utf8 [Char.ofNat 0x200D]) ctx 2 := by
  have hready : EmojiReady W := by unfold EmojiReady; rw [hW]; decide
  obtain ⟨w, hw, h12, hiff⟩ := C34_legal W hready (Char.ofNat 0x200D) (by decide) [] ctx
  rw [List.append_nil] at hw
  have : w = 2 := by
    rw [hiff]
    left; left
    rw [isEmoji_real W hW]
    exact ⟨.Component, by decide +kernel⟩
  rw [← this]; exact hw

/-- Such tables exist. -/
example : ∃ W : WidthTables, W.emoji = realEmoji ∧ AsciiNarrow W :=
  ⟨{ someWidths with emoji := realEmoji }, rfl, by
    intro r h1 h2
    show (if r = 0x4E16 then Kind.wide else if r = 0xB1 then .ambiguous else if r = 0x200D then .neutral else .narrow) = .narrow
    rw [if_neg (by omega), if_neg (by omega), if_neg (by omega)]⟩

end Uax
