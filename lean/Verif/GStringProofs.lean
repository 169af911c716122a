import Verif.GString
import Verif.SpecGString
import Verif.Utf8Proofs

/-! Reading of grapheme strings. -/

namespace Uax
open Utf8

theorem utf8_cons (c : Char) (t : List Char) : utf8 (c :: t) = encodeNat c.toNat ++ utf8 t := by
  rw [encodeNat_char]; rfl

theorem utf8_append (t u : List Char) : utf8 (t ++ u) = utf8 t ++ utf8 u := List.flatMap_append

theorem utf8_one (c : Char) : utf8 [c] = encodeNat c.toNat := by rw [utf8_cons]; exact List.append_nil _

theorem utf8_length (t : List Char) : t.length ≤ (utf8 t).length := by
  induction t with
  | nil => exact Nat.le_refl _
  | cons c t ih =>
    rw [utf8_cons, List.length_append, List.length_cons]
    have := List.length_pos_iff.mpr (encodeNat_ne c.toNat)
    omega

theorem utf8_ne {t : List Char} (h : t ≠ []) : utf8 t ≠ [] := by
  cases t with
  | nil => exact absurd rfl h
  | cons c t => rw [utf8_cons]; simp [encodeNat_ne]

theorem bytesOf_codes (t : List Char) : bytesOf (codes t) = utf8 t := by
  induction t with
  | nil => rfl
  | cons c t ih =>
    rw [utf8_cons, ← ih]
    unfold bytesOf codes
    rw [List.map_cons, List.flatMap_cons, encode_nat]

theorem toNat_replacement (c : Char) : c.toNat = runeError ↔ c = replacement := by
  constructor
  · intro h
    have : c = Char.ofNat c.toNat := (Char.ofNat_toNat c).symm
    rw [this, h]; rfl
  · rintro rfl; rfl

/-- Decoding fails exactly where there is no legal start. -/
theorem decode_noLegal (b : List Nat) : (decode b).1 = runeError ↔ NoLegalStart b := by
  constructor
  · intro h c rest hc hb
    rw [utf8_one] at hb
    rw [hb, decode_encode _ (char_scalar c)] at h
    exact hc ((toNat_replacement c).mp h)
  · intro h
    rcases decode_cases b with ⟨_, e⟩ | ⟨_, e⟩ | ⟨r, rest, hs, hb, e⟩
    · rw [e]
    · rw [e]
    · rw [e]
      by_cases hr : r = runeError
      · exact hr
      · exfalso
        have hv : r.isValidChar := by unfold Nat.isValidChar; unfold Scalar at hs; omega
        have hn : (Char.ofNat r).toNat = r := by
          unfold Char.ofNat
          rw [dif_pos hv]
          rfl
        refine h (Char.ofNat r) rest ?_ (by rw [utf8_one, hn]; exact hb)
        intro hc
        apply hr
        rw [← hn, hc]; rfl

/-- A byte string is a text without U+FFFD and a rest without a legal start. -/
theorem split_bytes (b : List Nat) : ∃ t rest, b = utf8 t ++ rest ∧ replacement ∉ t ∧ NoLegalStart rest := by
  suffices h : ∀ (n : Nat) (b : List Nat), b.length ≤ n → ∃ t rest, b = utf8 t ++ rest ∧ replacement ∉ t ∧ NoLegalStart rest from
    h b.length b (Nat.le_refl _)
  intro n
  induction n with
  | zero =>
    intro b hb
    have : b = [] := List.length_eq_zero_iff.mp (by omega)
    subst this
    exact ⟨[], [], rfl, by simp, (decode_noLegal []).mp rfl⟩
  | succ n ih =>
    intro b hb
    by_cases h : NoLegalStart b
    · exact ⟨[], b, rfl, by simp, h⟩
    · unfold NoLegalStart at h
      simp only [ne_eq, Classical.not_forall, Classical.not_not] at h
      obtain ⟨c, rest, hc, rfl⟩ := h
      have hl : rest.length ≤ n := by
        rw [List.length_append] at hb
        have := utf8_length [c]
        rw [List.length_singleton] at this
        omega
      obtain ⟨t, r', rfl, h1, h2⟩ := ih rest hl
      refine ⟨c :: t, r', by rw [← List.append_assoc, ← utf8_append]; rfl, ?_, h2⟩
      rw [List.mem_cons, not_or]
      exact ⟨fun e => hc e.symm, h1⟩

/-- Reading a character. -/
theorem readRune_char (c : Char) (hc : c ≠ replacement) (rest : List Nat) :
    readRune (encodeNat c.toNat ++ rest) = some ((c.toNat : Int), (encodeNat c.toNat).length, rest) := by
  unfold readRune
  rw [decode_encode _ (char_scalar c)]
  simp only
  rw [if_neg (fun h => hc ((toNat_replacement c).mp h)), List.drop_left]

/-- What the reader delivers. -/
theorem readAll_text : ∀ (t : List Char) (rest : List Nat) (n : Nat), replacement ∉ t → NoLegalStart rest →
    (utf8 t ++ rest).length ≤ n → readAll n (utf8 t ++ rest) = t.map fun c => ((c.toNat : Int), (utf8 [c]).length) := by
  intro t
  induction t with
  | nil =>
    intro rest n _ h _
    cases n with
    | zero => rfl
    | succ n =>
      have : readRune (utf8 [] ++ rest) = none := by
        unfold readRune
        exact if_pos ((decode_noLegal rest).mpr h)
      simp only [readAll, this]
      rfl
  | cons c t ih =>
    intro rest n ht h hn
    rw [List.mem_cons, not_or] at ht
    rw [utf8_cons, List.append_assoc, List.length_append] at hn
    have := List.length_pos_iff.mpr (encodeNat_ne c.toNat)
    cases n with
    | zero => omega
    | succ n =>
      rw [utf8_cons, List.append_assoc]
      simp only [readAll]
      rw [readRune_char c (fun e => ht.1 e.symm)]
      simp only
      rw [ih rest n ht.2 h (by omega), List.map_cons, utf8_one]

/-- `PositionOfFirstLegalRune` on a legal start. -/
theorem first_legal (c : Char) (hc : c ≠ replacement) (rest : List Nat) (n : Nat) (hn : 1 ≤ n) :
    positionOfFirstLegalRune n (utf8 [c] ++ rest) = .returns (0, []) := by
  obtain ⟨m, rfl⟩ : ∃ m, n = m + 1 := ⟨n - 1, by omega⟩
  obtain ⟨p0, t, he, hs⟩ := encodeNat_start c.toNat (char_scalar c)
  have hd : (decode (utf8 [c] ++ rest)).1 ≠ runeError := by
    rw [utf8_one, decode_encode _ (char_scalar c)]
    exact fun h => hc ((toNat_replacement c).mp h)
  unfold positionOfFirstLegalRune firstLegalLoop
  rw [utf8_one] at hd ⊢
  rw [he] at hd ⊢
  simp only [List.cons_append, List.getElem?_cons_zero, hs, if_true, List.drop_zero]
  rw [List.cons_append] at hd
  rw [if_pos hd]
  rfl

/-- The segmenter is prepared for the legal prefix of the input. -/
theorem prepare_text (t : List Char) (rest : List Nat) (h0 : t ≠ []) (ht : replacement ∉ t) (hr : NoLegalStart rest)
    (n : Nat) (hn : 1 ≤ n) :
    prepareBreaking n (utf8 t ++ rest) =
      .returns ((Seg.new [Graph.new]).initReader (t.map fun c => ((c.toNat : Int), (utf8 [c]).length)) none) := by
  obtain ⟨c, t', rfl⟩ := List.exists_cons_of_ne_nil h0
  have hc : c ≠ replacement := fun e => ht (by rw [e]; exact List.mem_cons_self)
  unfold prepareBreaking
  rw [show utf8 (c :: t') ++ rest = utf8 [c] ++ (utf8 t' ++ rest) by rw [utf8_cons, utf8_one, List.append_assoc],
    first_legal c hc _ n hn,
    show utf8 [c] ++ (utf8 t' ++ rest) = utf8 (c :: t') ++ rest by rw [utf8_one, utf8_cons, List.append_assoc]]
  simp only [Run.andThen]
  rw [if_neg (by omega)]
  simp only [Int.toNat_zero, List.drop_zero]
  rw [readAll_text _ _ _ ht hr (Nat.le_refl _)]

/-! ### Offsets -/

theorem bytesOf_append (a b : List Int) : bytesOf (a ++ b) = bytesOf a ++ bytesOf b := List.flatMap_append

theorem offsets_length (m : Nat) : ∀ (segs : List (List Int)) (br : Nat), (offsets m br segs).length = segs.length := by
  intro segs
  induction segs with
  | nil => intro br; rfl
  | cons a segs ih => intro br; rw [offsets, List.length_cons, List.length_cons, ih]

/-- As long as nothing overflows, the offsets are the true ones. -/
theorem offsets_get (m : Nat) : ∀ (segs : List (List Int)) (br i : Nat), br + (bytesOf segs.flatten).length < m → i ≤ segs.length →
    (br :: offsets m br segs)[i]? = some (br + (bytesOf (segs.take i).flatten).length) := by
  intro segs
  induction segs with
  | nil =>
    intro br i _ hi
    have : i = 0 := by simpa using hi
    subst this
    rfl
  | cons a segs ih =>
    intro br i hb hi
    cases i with
    | zero => rfl
    | succ i =>
      rw [List.flatten_cons, bytesOf_append, List.length_append] at hb
      rw [List.getElem?_cons_succ, offsets, Nat.mod_eq_of_lt (by omega),
        ih _ i (by omega) (by simpa using hi), List.take_succ_cons, List.flatten_cons, bytesOf_append, List.length_append]
      congr 1
      omega

/-- A built grapheme string. -/
theorem built (m : Nat) (content : List Nat) (segs : List (List Int)) (hc : content.length < m)
    (hb : (bytesOf segs.flatten).length ≤ content.length) :
    let g : GString := ⟨content, 0 :: offsets m 0 segs⟩
    g.len = segs.length ∧
    (∀ i, i ≤ segs.length → g.breaks[i]? = some (bytesOf (segs.take i).flatten).length) ∧
    g.breaks.length = segs.length + 1 ∧
    (∀ (i : Nat) seg, segs[i]? = some seg → g.nth i = some ((content.drop (bytesOf (segs.take i).flatten).length).take (bytesOf seg).length)) ∧
    (segs = [] → g.nth 0 = some []) ∧
    (∀ n : Int, g.nth n = none ↔ n < 0 ∨ n > max (g.len - 1) 0) := by
  intro g
  have hl : g.breaks.length = segs.length + 1 := by
    show (0 :: offsets m 0 segs).length = _
    rw [List.length_cons, offsets_length]
  have hlen : g.len = segs.length := by
    unfold GString.len
    rw [hl]
    split <;> omega
  have hget : ∀ i, i ≤ segs.length → g.breaks[i]? = some (bytesOf (segs.take i).flatten).length := by
    intro i hi
    have := offsets_get m segs 0 i (by omega) hi
    rw [Nat.zero_add] at this
    exact this
  have hnth : ∀ (i : Nat) seg, segs[i]? = some seg →
      g.nth i = some ((content.drop (bytesOf (segs.take i).flatten).length).take (bytesOf seg).length) := by
    intro i seg hi
    obtain ⟨hi', he⟩ := List.getElem?_eq_some_iff.mp hi
    unfold GString.nth
    rw [if_neg (by rw [hl]; omega), if_neg (by rw [hl]; omega), Int.toNat_natCast, hget i (by omega), hget (i + 1) (by omega)]
    have h1 : (bytesOf (segs.take (i + 1)).flatten).length = (bytesOf (segs.take i).flatten).length + (bytesOf seg).length := by
      rw [List.take_succ_eq_append_getElem hi', he, List.flatten_append, bytesOf_append, List.length_append]
      simp
    have h2 : (bytesOf (segs.take (i + 1)).flatten).length ≤ (bytesOf segs.flatten).length := by
      conv => rhs; rw [← List.take_append_drop (i + 1) segs, List.flatten_append, bytesOf_append, List.length_append]
      omega
    simp only
    rw [if_pos ⟨by omega, by show _ ≤ content.length; omega⟩, h1, Nat.add_sub_cancel_left]
  have hnil : segs = [] → g.nth 0 = some [] := by
    intro h
    unfold GString.nth
    rw [if_neg (by omega), if_pos (by rw [hl, h]; decide)]
  refine ⟨hlen, hget, hl, hnth, hnil, ?_⟩
  intro n
  constructor
  · intro h
    apply Classical.byContradiction
    intro hn
    rw [hlen] at hn
    by_cases h0 : segs.length = 0
    · have : n = 0 := by omega
      subst this
      rw [hnil (List.length_eq_zero_iff.mp h0)] at h
      cases h
    · have hi : n.toNat < segs.length := by omega
      have := hnth n.toNat segs[n.toNat] (List.getElem?_eq_getElem hi)
      rw [show ((n.toNat : Nat) : Int) = n by omega, h] at this
      cases this
  · intro h
    unfold GString.nth
    rw [if_pos (by rw [hl]; rw [hlen] at h; omega)]

end Uax
