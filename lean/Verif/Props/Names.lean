import Verif.Names
import Verif.BidiWhole
import Std.Data.String.ToNat
import Std.Data.String.ToInt

/-! Property C74: what String returns for classes, kinds of tokens, resolved levels and runs. -/

namespace Uax
open Bidi Names

/-- The constants of type GraphemeClass and their names. -/
def graphemeNames : List (Int × List Char) :=
  [(0, "CRClass".toList), (1, "LFClass".toList), (2, "PrependClass".toList), (3, "ControlClass".toList), (4, "ExtendClass".toList),
   (5, "Regional_IndicatorClass".toList), (6, "SpacingMarkClass".toList), (7, "LClass".toList), (8, "VClass".toList), (9, "TClass".toList),
   (10, "LVClass".toList), (11, "LVTClass".toList), (12, "ZWJClass".toList), (999, "Any".toList), (1000, "sot".toList), (1001, "eot".toList)]

/-- The constants of type UAX29Class and their names. -/
def wordNames : List (Int × List Char) :=
  [(0, "ALetterClass".toList), (1, "CRClass".toList), (2, "Double_QuoteClass".toList), (3, "ExtendClass".toList), (4, "ExtendNumLetClass".toList),
   (5, "FormatClass".toList), (6, "Hebrew_LetterClass".toList), (7, "KatakanaClass".toList), (8, "LFClass".toList), (9, "MidLetterClass".toList),
   (10, "MidNumClass".toList), (11, "MidNumLetClass".toList), (12, "NewlineClass".toList), (13, "NumericClass".toList),
   (14, "Regional_IndicatorClass".toList), (15, "Single_QuoteClass".toList), (16, "WSegSpaceClass".toList), (17, "ZWJClass".toList),
   (999, "Other".toList), (1000, "sot".toList), (1001, "eot".toList)]

/-- The constants of type EmojisClass and their names. -/
def emojiNames : List (Int × List Char) :=
  [(0, "EmojiClass".toList), (1, "Emoji_PresentationClass".toList), (2, "Emoji_ModifierClass".toList), (3, "Emoji_Modifier_BaseClass".toList),
   (4, "Emoji_ComponentClass".toList), (5, "Extended_PictographicClass".toList)]

/-- The constants of type TokenType and their names. -/
def tokenNames : List (Int × List Char) :=
  [(0, "undefined".toList), (1, "eof".toList), (2, "emptyDocument".toList), (3, "docRoot".toList), (4, "singleDataItem".toList), (5, "rangeDataItem".toList)]

/-- The bidi classes of golang.org/x/text/unicode/bidi and those of scanner.go, and their names. -/
def bidiNames : List (Nat × List Char) :=
  [(cL, "L".toList), (cR, "R".toList), (cEN, "EN".toList), (cES, "ES".toList), (cET, "ET".toList), (cAN, "AN".toList), (cCS, "CS".toList),
   (cB, "B".toList), (cS, "S".toList), (cWS, "WS".toList), (cON, "ON".toList), (cBN, "BN".toList), (cNSM, "NSM".toList), (cAL, "AL".toList),
   (14, "Control".toList), (15, "Num".toList), (16, "LRO".toList), (17, "RLO".toList), (18, "LRE".toList), (19, "RLE".toList), (20, "PDF".toList),
   (cLRI, "LRI".toList), (cRLI, "RLI".toList), (cFSI, "FSI".toList), (cPDI, "PDI".toList), (cBRACKO, "BRACKO".toList), (cBRACKC, "BRACKC".toList),
   (cNI, "NI".toList), (cMAX, "<max>".toList), (cNULL, "cNULL".toList)]

/-- The name of `c`, or the name of the type with the number in decimal notation. -/
def nameOrNumber (names : List (Int × List Char)) (typ : List Char) (c : Int) : List Char :=
  (names.lookup c).getD (typ ++ '(' :: (c.repr.toList ++ [')']))

/-- The same for bidi classes. -/
def bidiNameOf (c : Nat) : List Char := (bidiNames.lookup c).getD ("bidi_class(".toList ++ (c.repr.toList ++ [')']))

theorem lookup_ne {α : Type} {k : Int} : ∀ {l : List (Int × α)}, (∀ x ∈ l, x.1 ≠ k) → l.lookup k = none
  | [], _ => rfl
  | (a, b) :: l, h => by
    rw [List.lookup_cons, beq_eq_false_iff_ne.mpr (Ne.symm (h _ (List.mem_cons_self ..)))]
    exact lookup_ne fun x hx => h x (List.mem_cons_of_mem _ hx)

theorem mem_lookup {α β : Type} [BEq α] [LawfulBEq α] {k : α} {b : β} : ∀ {l : List (α × β)}, l.lookup k = some b → (k, b) ∈ l
  | [], h => by cases h
  | (a, c) :: l, h => by
    rw [List.lookup_cons] at h
    cases e : k == a with
    | true =>
      rw [e] at h
      cases h
      rw [eq_of_beq e]
      exact List.mem_cons_self ..
    | false =>
      rw [e] at h
      exact List.mem_cons_of_mem _ (mem_lookup h)

/-- String of every GraphemeClass, whatever its number is, does not panic and returns the name of the constant, if there is one. -/
theorem C74_grapheme (c : Int) : graphemeString c = some (nameOrNumber graphemeNames "GraphemeClass".toList c) := by
  by_cases h : (0 ≤ c ∧ c < 13) ∨ c = 999 ∨ c = 1000 ∨ c = 1001
  · have : c = 0 ∨ c = 1 ∨ c = 2 ∨ c = 3 ∨ c = 4 ∨ c = 5 ∨ c = 6 ∨ c = 7 ∨ c = 8 ∨ c = 9 ∨ c = 10 ∨ c = 11 ∨ c = 12 ∨ c = 999 ∨ c = 1000 ∨ c = 1001 := by omega
    rcases this with rfl | rfl | rfl | rfl | rfl | rfl | rfl | rfl | rfl | rfl | rfl | rfl | rfl | rfl | rfl | rfl <;> decide +kernel
  · have hn : graphemeNames.lookup c = none := lookup_ne (by
      intro x hx
      have : (0 ≤ x.1 ∧ x.1 < 13) ∨ x.1 = 999 ∨ x.1 = 1000 ∨ x.1 = 1001 := by
        revert x
        decide +kernel
      omega)
    unfold nameOrNumber graphemeString
    rw [hn, if_neg (by omega), if_neg (by omega), if_neg (by omega), if_pos (by change c < 0 ∨ c ≥ (13 : Int); omega)]
    rfl

/-- String of every UAX29Class, whatever its number is, does not panic and returns the name of the constant, if there is one. -/
theorem C74_word (c : Int) : wordString c = some (nameOrNumber wordNames "UAX29Class".toList c) := by
  by_cases h : (0 ≤ c ∧ c < 18) ∨ c = 999 ∨ c = 1000 ∨ c = 1001
  · have hd : ∀ n : Nat, n ∈ List.range 18 ++ [999, 1000, 1001] → wordString (Int.ofNat n) = some (nameOrNumber wordNames "UAX29Class".toList (Int.ofNat n)) := by decide +kernel
    have hc : Int.ofNat c.toNat = c := Int.toNat_of_nonneg (by omega)
    have hm : c.toNat ∈ List.range 18 ++ [999, 1000, 1001] := by
      simp only [List.mem_append, List.mem_range, List.mem_cons, List.not_mem_nil, or_false]
      omega
    have := hd _ hm
    rwa [hc] at this
  · have hn : wordNames.lookup c = none := lookup_ne (by
      intro x hx
      have : (0 ≤ x.1 ∧ x.1 < 18) ∨ x.1 = 999 ∨ x.1 = 1000 ∨ x.1 = 1001 := by
        revert x
        decide +kernel
      omega)
    unfold nameOrNumber wordString
    rw [hn, if_neg (by omega), if_neg (by omega), if_neg (by omega), if_pos (by change c < 0 ∨ c ≥ (18 : Int); omega)]
    rfl

/-- String of every EmojisClass, whatever its number is, does not panic and returns the name of the constant, if there is one. -/
theorem C74_emoji (c : Int) : emojiString c = some (nameOrNumber emojiNames "EmojisClass".toList c) := by
  by_cases h : 0 ≤ c ∧ c < 6
  · have : c = 0 ∨ c = 1 ∨ c = 2 ∨ c = 3 ∨ c = 4 ∨ c = 5 := by omega
    rcases this with rfl | rfl | rfl | rfl | rfl | rfl <;> decide +kernel
  · have hn : emojiNames.lookup c = none := lookup_ne (by
      intro x hx
      have : 0 ≤ x.1 ∧ x.1 < 6 := by
        revert x
        decide +kernel
      omega)
    unfold nameOrNumber emojiString
    rw [hn, if_pos (by change c < 0 ∨ c ≥ (6 : Int); omega)]
    rfl

/-- String of every TokenType, whatever its number is, does not panic and returns the name of the constant, if there is one. -/
theorem C74_token (c : Int) : tokenString c = some (nameOrNumber tokenNames "TokenType".toList c) := by
  by_cases h : 0 ≤ c ∧ c < 6
  · have : c = 0 ∨ c = 1 ∨ c = 2 ∨ c = 3 ∨ c = 4 ∨ c = 5 := by omega
    rcases this with rfl | rfl | rfl | rfl | rfl | rfl <;> decide +kernel
  · have hn : tokenNames.lookup c = none := lookup_ne (by
      intro x hx
      have : 0 ≤ x.1 ∧ x.1 < 6 := by
        revert x
        decide +kernel
      omega)
    unfold nameOrNumber tokenString
    rw [hn, if_pos (by change c < 0 ∨ c ≥ (6 : Int); omega)]
    rfl

/-- Different numbers have different names, if the names of constants differ and have no parentheses. -/
theorem name_inj {names : List (Int × List Char)} {typ : List Char} (h1 : ∀ x ∈ names, ∀ y ∈ names, x.2 = y.2 → x.1 = y.1) (h2 : ∀ x ∈ names, '(' ∉ x.2) {c d : Int}
    (h : nameOrNumber names typ c = nameOrNumber names typ d) : c = d := by
  unfold nameOrNumber at h
  cases e1 : names.lookup c with
  | some n =>
    rw [e1] at h
    cases e2 : names.lookup d with
    | some m =>
      rw [e2] at h
      exact h1 _ (mem_lookup e1) _ (mem_lookup e2) h
    | none =>
      rw [e2] at h
      change n = _ at h
      exact absurd (by rw [h]; simp) (h2 _ (mem_lookup e1))
  | none =>
    rw [e1] at h
    cases e2 : names.lookup d with
    | some m =>
      rw [e2] at h
      change _ = m at h
      exact absurd (by rw [← h]; simp) (h2 _ (mem_lookup e2))
    | none =>
      rw [e2] at h
      have h := List.append_cancel_left h
      rw [List.cons.injEq] at h
      have h := List.append_cancel_right h.2
      exact Int.repr_injective (String.toList_inj.mp h)

/-- Different values of these types are never printed the same. -/
theorem C74_distinct (c d : Int) : (graphemeString c = graphemeString d → c = d) ∧ (wordString c = wordString d → c = d) ∧ (emojiString c = emojiString d → c = d) ∧
    (tokenString c = tokenString d → c = d) := by
  refine ⟨fun h => ?_, fun h => ?_, fun h => ?_, fun h => ?_⟩
  · rw [C74_grapheme, C74_grapheme, Option.some.injEq] at h
    exact name_inj (by decide +kernel) (by decide +kernel) h
  · rw [C74_word, C74_word, Option.some.injEq] at h
    exact name_inj (by decide +kernel) (by decide +kernel) h
  · rw [C74_emoji, C74_emoji, Option.some.injEq] at h
    exact name_inj (by decide +kernel) (by decide +kernel) h
  · rw [C74_token, C74_token, Option.some.injEq] at h
    exact name_inj (by decide +kernel) (by decide +kernel) h

example : graphemeString 5 = some "Regional_IndicatorClass".toList ∧ graphemeString (-3) = some "GraphemeClass(-3)".toList ∧
    wordString 16 = some "WSegSpaceClass".toList ∧ emojiString 7 = some "EmojisClass(7)".toList := by decide +kernel

/-- Every bidi class has a name. -/
theorem bidi_named (c : Nat) : bidiString c = some (bidiNameOf c) := by
  by_cases h : c < 29 ∨ c = 999
  · have h : c ∈ List.range 29 ++ [999] := by simpa using h
    have : ∀ x ∈ List.range 29 ++ [999], bidiString x = some (bidiNameOf x) := by decide +kernel
    exact this c h
  · have hn : bidiNames.lookup c = none := by
      cases e : bidiNames.lookup c with
      | none => rfl
      | some n =>
        have hm := mem_lookup e
        have : ∀ x ∈ bidiNames, x.1 < 29 ∨ x.1 = 999 := by decide +kernel
        exact absurd (this _ hm) h
    unfold bidiNameOf bidiString
    rw [hn, if_neg (by change ¬ c = 999; omega), if_pos (by change c > 24; omega), if_neg (by change ¬ (c > 24 ∧ c ≤ 28); omega)]
    rfl

/-- What is printed for a piece of the resolved levels. -/
def pieceString (s : Scrap) : List Char := '[' :: (s.l.repr.toList ++ '-' :: (bidiNameOf s.clz ++ '-' :: (s.r.repr.toList ++ [']', ' '])))

/-- What is printed for a piece of a run. -/
def partString (s : Scrap) : List Char := ' ' :: (s.l.repr.toList ++ '…' :: (s.r.repr.toList ++ '|' :: bidiNameOf s.clz))

theorem foldlM_strings {g : Scrap → List Char} {f : List Char → Scrap → Option (List Char)} (hf : ∀ b s, f b s = some (b ++ g s)) : ∀ (l : List Scrap) (b : List Char),
    l.foldlM f b = some (b ++ l.flatMap g)
  | [], b => by simp
  | s :: l, b => by
    rw [List.foldlM_cons, hf]
    change l.foldlM f (b ++ g s) = _
    rw [foldlM_strings hf l]
    simp

/-- String of every value of type ResolvedLevels does not panic and lists its pieces with their bounds and classes. -/
theorem C74_levels (rl : Levels) : levelsString rl = some (rl.scraps.flatMap pieceString) := by
  unfold levelsString
  rw [foldlM_strings (g := pieceString)]
  · simp
  · intro b s
    rw [bidi_named]
    unfold pieceString
    simp [formatInt, Int.repr]

/-- String of every value of type Run does not panic and lists its direction, its length and its pieces. -/
theorem C74_run (r : VRun) : runString r = some ('(' :: ((if r.dir = .ltr then "L2R".toList else "R2L".toList) ++ ' ' :: (r.length.repr.toList ++ (r.scraps.flatMap partString ++ [')'])))) := by
  unfold runString
  rw [foldlM_strings (g := partString)]
  · cases r.dir <;> simp [dirString, formatInt, Int.repr]
  · intro b s
    rw [bidi_named]
    unfold partString
    simp [formatInt, Int.repr]

theorem digits_only {n : Nat} {c : Char} (h : c ∈ n.repr.toList) : c.isDigit = true := by
  rw [Nat.toList_repr] at h
  exact Nat.isDigit_of_mem_toDigits (by decide) (by decide) h

theorem cut_at {x : Char} : ∀ {a b r s : List Char}, x ∉ a → x ∉ b → a ++ x :: r = b ++ x :: s → a = b ∧ r = s
  | [], [], _, _, _, _, h => by simpa using h
  | [], y :: b, _, _, _, hb, h => by
    simp at h
    exact absurd (by rw [h.1]; exact List.mem_cons_self ..) hb
  | y :: a, [], _, _, ha, _, h => by
    simp at h
    exact absurd (by rw [h.1]; exact List.mem_cons_self ..) ha
  | y :: a, z :: b, r, s, ha, hb, h => by
    simp only [List.cons_append, List.cons.injEq] at h
    obtain ⟨k1, k2⟩ := cut_at (fun m => ha (List.mem_cons_of_mem _ m)) (fun m => hb (List.mem_cons_of_mem _ m)) h.2
    exact ⟨by rw [h.1, k1], k2⟩

theorem bidiName_chars (c : Nat) : ∀ x ∈ bidiNameOf c, x ≠ '-' ∧ x ≠ ' ' := by
  unfold bidiNameOf
  cases e : bidiNames.lookup c with
  | some n =>
    have : ∀ p ∈ bidiNames, ∀ x ∈ p.2, x ≠ '-' ∧ x ≠ ' ' := by decide +kernel
    exact this _ (mem_lookup e)
  | none =>
    intro x hx
    simp only [Option.getD_none, List.mem_append, List.mem_singleton] at hx
    rcases hx with h | h | h
    · revert x
      decide +kernel
    · have := digits_only h
      constructor <;> (rintro rfl; exact absurd this (by decide))
    · subst h
      decide

theorem bidiName_inj {c d : Nat} (h : bidiNameOf c = bidiNameOf d) : c = d := by
  have h2 : ∀ x ∈ bidiNames, '(' ∉ x.2 := by decide +kernel
  have h1 : ∀ x ∈ bidiNames, ∀ y ∈ bidiNames, x.2 = y.2 → x.1 = y.1 := by decide +kernel
  have hp : ∀ l : List Char, '(' ∈ "bidi_class(".toList ++ l := by
    intro l
    rw [List.mem_append]
    left
    decide +kernel
  unfold bidiNameOf at h
  cases e1 : bidiNames.lookup c with
  | some n =>
    rw [e1] at h
    cases e2 : bidiNames.lookup d with
    | some m =>
      rw [e2] at h
      exact h1 _ (mem_lookup e1) _ (mem_lookup e2) h
    | none =>
      rw [e2, Option.getD_some, Option.getD_none] at h
      exact absurd (h ▸ hp _) (h2 _ (mem_lookup e1))
  | none =>
    rw [e1] at h
    cases e2 : bidiNames.lookup d with
    | some m =>
      rw [e2, Option.getD_some, Option.getD_none] at h
      exact absurd (h ▸ hp _) (h2 _ (mem_lookup e2))
    | none =>
      rw [e2] at h
      have h := List.append_cancel_right (List.append_cancel_left h)
      exact Nat.repr_injective (String.toList_inj.mp h)

theorem nat_inj {m n : Nat} (h : m.repr.toList = n.repr.toList) : m = n := Nat.repr_injective (String.toList_inj.mp h)

theorem notDigit {n : Nat} {c : Char} (h : c.isDigit = false) : c ∉ n.repr.toList := fun m => by rw [digits_only m] at h; cases h

theorem pieces_inj : ∀ (l m : List Scrap), l.flatMap pieceString = m.flatMap pieceString → l.map (fun s => (s.clz, s.l, s.r)) = m.map (fun s => (s.clz, s.l, s.r))
  | [], [], _ => rfl
  | [], s :: m, h => by simp [pieceString] at h
  | s :: l, [], h => by simp [pieceString] at h
  | s :: l, t :: m, h => by
    simp only [List.flatMap_cons, pieceString, List.cons_append, List.append_assoc, List.cons.injEq, true_and] at h
    obtain ⟨k1, h⟩ := cut_at (notDigit (by decide)) (notDigit (by decide)) h
    obtain ⟨k2, h⟩ := cut_at (fun m => (bidiName_chars _ _ m).1 rfl) (fun m => (bidiName_chars _ _ m).1 rfl) h
    obtain ⟨k3, h⟩ := cut_at (notDigit (by decide)) (notDigit (by decide)) h
    simp only [List.nil_append, List.cons.injEq, true_and] at h
    rw [List.map_cons, List.map_cons, pieces_inj l m h, nat_inj k1, bidiName_inj k2, nat_inj k3]

theorem cut_end {a b r s : List Char} (ha : ∀ x ∈ a, x ≠ ' ') (hb : ∀ x ∈ b, x ≠ ' ') (hr : r = [] ∨ r.head? = some ' ') (hs : s = [] ∨ s.head? = some ' ')
    (h : a ++ r = b ++ s) : a = b ∧ r = s := by
  rcases hr with rfl | hr <;> rcases hs with rfl | hs
  · simpa using h
  · cases s with
    | nil => cases hs
    | cons x s =>
      cases hs
      rw [List.append_nil] at h
      exact absurd rfl (ha ' ' (by rw [h]; simp))
  · cases r with
    | nil => cases hr
    | cons x r =>
      cases hr
      rw [List.append_nil] at h
      exact absurd rfl (hb ' ' (by rw [← h]; simp))
  · cases r with
    | nil => cases hr
    | cons x r =>
      cases hr
      cases s with
      | nil => cases hs
      | cons y s =>
        cases hs
        obtain ⟨k1, k2⟩ := cut_at (fun m => ha _ m rfl) (fun m => hb _ m rfl) h
        exact ⟨k1, by rw [k2]⟩

theorem parts_head (l : List Scrap) : l.flatMap partString = [] ∨ (l.flatMap partString).head? = some ' ' := by
  cases l with
  | nil => exact Or.inl rfl
  | cons s l => right; simp [partString]

theorem parts_inj : ∀ (l m : List Scrap), l.flatMap partString = m.flatMap partString → l.map (fun s => (s.clz, s.l, s.r)) = m.map (fun s => (s.clz, s.l, s.r))
  | [], [], _ => rfl
  | [], s :: m, h => by simp [partString] at h
  | s :: l, [], h => by simp [partString] at h
  | s :: l, t :: m, h => by
    simp only [List.flatMap_cons, partString, List.cons_append, List.append_assoc, List.cons.injEq, true_and] at h
    obtain ⟨k1, h⟩ := cut_at (notDigit (by decide)) (notDigit (by decide)) h
    obtain ⟨k2, h⟩ := cut_at (notDigit (by decide)) (notDigit (by decide)) h
    obtain ⟨k3, h⟩ := cut_end (fun x m => (bidiName_chars _ x m).2) (fun x m => (bidiName_chars _ x m).2) (parts_head l) (parts_head m) h
    rw [List.map_cons, List.map_cons, parts_inj l m h, nat_inj k1, nat_inj k2, bidiName_inj k3]

/-- What is printed can be read back: resolved levels which are printed the same have the same pieces (bounds and classes), so
that DirectionAt is the same everywhere. -/
theorem C74_levels_distinct (a b : Levels) (h : levelsString a = levelsString b) :
    a.scraps.map (fun s => (s.clz, s.l, s.r)) = b.scraps.map (fun s => (s.clz, s.l, s.r)) ∧ ∀ pos, a.directionAt pos = b.directionAt pos := by
  rw [C74_levels, C74_levels, Option.some.injEq] at h
  have e := pieces_inj _ _ h
  refine ⟨e, fun pos => ?_⟩
  have key : ∀ l m : List Scrap, l.map (fun s => (s.clz, s.l, s.r)) = m.map (fun s => (s.clz, s.l, s.r)) →
      (match l.find? (fun s => s.l ≤ pos && pos < s.r) with | some s => directionOf s .ltr | none => .ltr) =
      (match m.find? (fun s => s.l ≤ pos && pos < s.r) with | some s => directionOf s .ltr | none => .ltr) := by
    intro l
    induction l with
    | nil =>
      intro m hm
      cases m with
      | nil => rfl
      | cons _ _ => cases hm
    | cons s l ih =>
      intro m hm
      cases m with
      | nil => cases hm
      | cons t m =>
        simp only [List.map_cons, List.cons.injEq, Prod.mk.injEq] at hm
        obtain ⟨⟨k1, k2, k3⟩, k4⟩ := hm
        simp only [List.find?_cons, k2, k3]
        cases decide (t.l ≤ pos) && decide (pos < t.r) with
        | true => simp only [directionOf, k1]
        | false => exact ih m k4
  exact key _ _ e

/-- The same for runs: also their directions and lengths are the same. -/
theorem C74_run_distinct (a b : VRun) (h : runString a = runString b) :
    a.dir = b.dir ∧ a.length = b.length ∧ a.scraps.map (fun s => (s.clz, s.l, s.r)) = b.scraps.map (fun s => (s.clz, s.l, s.r)) := by
  rw [C74_run, C74_run, Option.some.injEq, List.cons.injEq] at h
  have h := h.2
  have hd : ∀ d : Dir, ' ' ∉ (if d = .ltr then "L2R".toList else "R2L".toList) := by
    intro d
    cases d <;> decide +kernel
  obtain ⟨k1, h⟩ := cut_at (hd _) (hd _) h
  rw [← List.append_assoc, ← List.append_assoc] at h
  have h := List.append_cancel_right h
  obtain ⟨k2, h⟩ := cut_end (fun x m => by rintro rfl; exact notDigit (by decide) m) (fun x m => by rintro rfl; exact notDigit (by decide) m) (parts_head _) (parts_head _) h
  refine ⟨?_, nat_inj k2, parts_inj _ _ h⟩
  cases e1 : a.dir <;> cases e2 : b.dir <;> first | rfl | (rw [e1, e2] at k1; exact absurd k1 (by decide +kernel))

example : levelsString ⟨.ltr, [{ l := 0, r := 5, clz := cL }, { l := 5, r := 12, clz := cR }, { l := 12, r := 12, clz := cPDI }]⟩ = some "[0-L-5] [5-R-12] [12-PDI-12] ".toList ∧
    runString ⟨.rtl, 7, [{ l := 5, r := 12, clz := cR }]⟩ = some "(R2L 7 5…12|R)".toList := by decide +kernel

end Uax
