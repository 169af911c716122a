import Verif.SpecUcd
import Mathlib.Data.List.Forall2

/-! Lemmas on the parser of UCD files. -/

namespace Uax.Ucd

theorem width_pos (r : Nat) : 0 < width r := by
  unfold width Utf8.encodeNat
  split
  · simp
  · split
    · simp
    · split
      · simp
      · split <;> simp

theorem size_cons (r : Nat) (l : Line) : size (r :: l) = width r + size l := by simp [size, bytes, width]

theorem size_append (a b : Line) : size (a ++ b) = size a + size b := by simp [size, bytes]

@[simp] theorem size_nil : size [] = 0 := rfl

theorem size_eq_zero {l : Line} : size l = 0 ↔ l = [] := by
  cases l with
  | nil => simp [size, bytes]
  | cons r l =>
    have := width_pos r
    rw [size_cons]
    simp
    omega

theorem fromByte_append (a b : Line) : fromByte (a ++ b) (size a) = b := by
  induction a with
  | nil => cases b <;> rfl
  | cons r a ih =>
    have := width_pos r
    rw [size_cons]
    obtain ⟨n, hn⟩ : ∃ n, width r + size a = n + 1 := ⟨width r + size a - 1, by omega⟩
    rw [hn, List.cons_append]
    show fromByte (a ++ b) (n + 1 - width r) = b
    have e : n + 1 - width r = size a := by omega
    rw [e, ih]

/-! ### The buffer inside of a line -/

/-- The buffer when `pre` was consumed and `suf` is left of line `pre ++ suf`. -/
def posn (pre suf : Line) (ls : List Line) (k : Nat) : Buf :=
  ⟨suf.headD 10, pre.length + (if suf = [] then 0 else 1), size pre + (match suf with | [] => 0 | r :: _ => width r), k, ls, false,
    pre ++ suf, some (pre ++ suf), suf.tail, 0, none⟩

theorem posn_atEof (pre suf : Line) (ls : List Line) (k : Nat) (h : pre ++ suf ≠ []) : (posn pre suf ls k).atEof = some false := by
  unfold Buf.atEof posn
  simp only [Option.map_some]
  rw [if_neg (by decide)]
  have : size (pre ++ suf) ≠ 0 := fun e => h (size_eq_zero.mp e)
  simp [this]

theorem advanceCursor_posn (pre : Line) (r : Nat) (suf : Line) (ls : List Line) (k : Nat) :
    (posn pre (r :: suf) ls k).advanceCursor = (posn (pre ++ [r]) suf ls k, none) := by
  unfold Buf.advanceCursor
  rw [if_neg (by simp [posn])]
  cases suf with
  | nil =>
    rw [if_pos (by simp [posn, size_append, size_cons])]
    simp [posn, size_append, size_cons, eolMarker]
  | cons s suf =>
    have := width_pos s
    rw [if_neg (by simp [posn, size_append, size_cons]; omega)]
    simp [posn, size_append, size_cons]

theorem matchRune_posn (pre : Line) (r : Nat) (suf : Line) (ls : List Line) (k : Nat) (hr : r ≠ 10) :
    (posn pre (r :: suf) ls k).matchRune = posn (pre ++ [r]) suf ls k := by
  unfold Buf.matchRune
  rw [posn_atEof _ _ _ _ (by simp), if_neg (by simp [posn]), if_neg (by simpa [posn, eolMarker] using hr), advanceCursor_posn]
  simp

theorem skip_posn (p : Nat → Bool) (hp : p 10 = false) (ls : List Line) (k : Nat) : ∀ (suf pre : Line) (n : Nat), suf.length < n →
    skip p n (posn pre suf ls k) = some (posn (pre ++ suf.takeWhile p) (suf.dropWhile p) ls k) := by
  intro suf
  induction suf with
  | nil =>
    intro pre n hn
    obtain ⟨m, rfl⟩ : ∃ m, n = m + 1 := ⟨n - 1, by simp at hn; omega⟩
    unfold skip
    rw [if_neg (by simp [posn, hp])]
    simp
  | cons r suf ih =>
    intro pre n hn
    obtain ⟨m, rfl⟩ : ∃ m, n = m + 1 := ⟨n - 1, by simp at hn; omega⟩
    unfold skip
    have hl : (posn pre (r :: suf) ls k).lookahead = r := rfl
    rw [hl]
    cases h : p r with
    | false => simp [h]
    | true =>
      have hr : r ≠ 10 := by rintro rfl; rw [hp] at h; cases h
      rw [if_pos rfl, matchRune_posn _ _ _ _ _ hr, ih _ _ (by simp at hn; omega), List.takeWhile_cons_of_pos h, List.dropWhile_cons_of_pos h]
      simp

theorem slice_posn (pre suf : Line) (ls : List Line) (k lo hi : Nat) : slice (posn pre suf ls k) lo hi = ((bytes (pre ++ suf)).take hi).drop lo := rfl

theorem remainder_posn (pre suf : Line) (ls : List Line) (k : Nat) (h : pre ++ suf ≠ []) :
    (posn pre suf ls k).readLineRemainder.1 = if suf = [] then [10] else suf := by
  unfold Buf.readLineRemainder
  rw [posn_atEof _ _ _ _ h]
  simp only
  rw [if_neg (by decide)]
  cases suf with
  | nil => simp [posn]
  | cons r suf =>
    cases suf with
    | nil => simp [posn, size_append, size_cons]
    | cons s suf =>
      have := width_pos s
      have h1 : (posn pre (r :: s :: suf) ls k).byteCursor = size (pre ++ [r]) := by simp [posn, size_append, size_cons]
      have h2 : (posn pre (r :: s :: suf) ls k).line.getD [] = (pre ++ [r]) ++ s :: suf := by simp [posn]
      have h3 : (posn pre (r :: s :: suf) ls k).text = (pre ++ [r]) ++ s :: suf := by simp [posn]
      rw [h1, h2, h3, if_neg (by rw [size_append (pre ++ [r]), size_cons s]; omega), if_neg (by rw [size_append (pre ++ [r])]; omega), fromByte_append]
      simp [posn]

/-! ### From line to line -/

/-- The lines which are skipped, the first data line, and those after it. -/
def firstData : List Line → Option (Nat × Line × List Line)
  | [] => none
  | l :: ls => if ignored l then (firstData ls).map fun x => (x.1 + 1, x.2) else some (0, l, ls)

theorem ignored_nil : ignored [] = true := rfl

theorem readLines_eq : ∀ (ls : List Line) (b : Buf), b.failing = false → b.isEof = 0 → b.cursor = 0 → b.byteCursor = 0 →
    match firstData ls with
    | none => ∃ b', readLines ls b = (b', some .eof) ∧ b'.atEof = some true
    | some (n, l, ls') => readLines ls b = ({ posn [] l ls' (b.currentLine + n + 1) with lastError := b.lastError }, none) := by
  intro ls
  induction ls with
  | nil =>
    intro b h1 h2 h3 h4
    refine ⟨_, by unfold readLines; rw [if_neg (by simp [h1])], ?_⟩
    simp [Buf.atEof]
  | cons l ls ih =>
    intro b h1 h2 h3 h4
    unfold firstData
    cases hi : ignored l with
    | true =>
      rw [if_pos rfl]
      have := ih { b with currentLine := b.currentLine + 1, input := ls, text := l } h1 h2 h3 h4
      unfold readLines
      simp only [hi, if_true]
      cases hf : firstData ls with
      | none => rw [hf] at this; exact this
      | some x =>
        rw [hf] at this
        simp only [Option.map_some]
        rw [this]
        have e : b.currentLine + 1 + x.1 + 1 = b.currentLine + (x.1 + 1) + 1 := by omega
        simp only [e]
    | false =>
      rw [if_neg (by simp)]
      unfold readLines
      simp only [hi]
      rw [if_neg (by simp)]
      cases l with
      | nil => rw [ignored_nil] at hi; cases hi
      | cons r l =>
        unfold Buf.advanceCursor
        simp only [h2, h4]
        have := width_pos r
        rw [if_neg (by omega), if_neg (by simp [size_cons]; omega)]
        simp [posn, h1, h3]

theorem advanceLine_eq (b : Buf) (h1 : b.failing = false) (h2 : b.isEof = 0) :
    match firstData b.input with
    | none => ∃ b', b.advanceLine = (b', some .eof) ∧ b'.atEof = some true
    | some (n, l, ls') => b.advanceLine = ({ posn [] l ls' (b.currentLine + n + 1) with lastError := b.lastError }, none) := by
  have := readLines_eq b.input { b with cursor := 0, byteCursor := 0 } h1 h2 rfl rfl
  have e : b.advanceLine = readLines b.input { b with cursor := 0, byteCursor := 0 } := by
    unfold Buf.advanceLine
    simp [h2]
  rw [e]
  exact this

theorem firstData_some {ls : List Line} {n : Nat} {l : Line} {ls' : List Line} (h : firstData ls = some (n, l, ls')) : ignored l = false ∧ l ≠ [] := by
  induction ls generalizing n with
  | nil => cases h
  | cons x ls ih =>
    unfold firstData at h
    split at h
    · cases hf : firstData ls with
      | none => rw [hf] at h; cases h
      | some y =>
        rw [hf] at h
        obtain ⟨m, l', ls''⟩ := y
        cases h
        exact ih hf
    · rename_i hx
      cases h
      refine ⟨by simpa using hx, ?_⟩
      rintro rfl
      exact hx ignored_nil

/-! ### One line -/

theorem hex_eol (nd : Nat → Bool) : isHexDigit nd 10 = false := by simp [isHexDigit]

/-- What `ScanRuneRange` does with a line. -/
theorem scanRuneRange_posn (nd : Nat → Bool) (t : Token) (l : Line) (ls : List Line) (k : Nat) :
    ∃ t' pre suf, scanRuneRange nd t (posn [] l ls k) = .next t' (posn pre suf ls k) ∧ pre ++ suf = l ∧ t'.lineNo = t.lineNo := by
  unfold scanRuneRange
  have hu : ∀ pre suf : Line, suf.length < (posn pre suf ls k).unread.length + 2 := by
    intro pre suf
    show suf.length < suf.tail.length + 2
    simp
    omega
  simp only
  rw [skip_posn _ (hex_eol nd) _ _ _ _ _ (hu _ _)]
  simp only [List.nil_append]
  cases hexWord ((posn [] l ls k).byteCursor - 1) (posn (l.takeWhile (isHexDigit nd)) (l.dropWhile (isHexDigit nd)) ls k) with
  | none => exact ⟨_, _, _, rfl, List.takeWhile_append_dropWhile, rfl⟩
  | some w =>
    have ht1 : ∀ w : Option Nat, (match w with | some n => { t with runeFrom := n, runeTo := n } | none => t : Token).lineNo = t.lineNo := by
      intro w; cases w <;> rfl
    simp only
    rw [skip_posn _ (by decide) _ _ _ _ _ (hu _ _)]
    simp only
    split
    · exact ⟨_, _, _, rfl, by rw [List.append_assoc, List.takeWhile_append_dropWhile, List.takeWhile_append_dropWhile], ht1 w⟩
    · rw [skip_posn _ (hex_eol nd) _ _ _ _ _ (hu _ _)]
      simp only
      split
      · exact ⟨_, _, _, rfl, by rw [List.append_assoc, List.append_assoc, List.takeWhile_append_dropWhile, List.takeWhile_append_dropWhile,
          List.takeWhile_append_dropWhile], ht1 w⟩
      · rename_i w' _
        refine ⟨_, _, _, rfl, by rw [List.append_assoc, List.append_assoc, List.takeWhile_append_dropWhile, List.takeWhile_append_dropWhile,
          List.takeWhile_append_dropWhile], ?_⟩
        cases w' <;> exact ht1 w

/-- What is left after a data line: the beginning of the next one, or the end of the file. -/
inductive After (ls : List Line) (k : Nat) (b : Buf) : Prop where
  | eof (h : firstData ls = none) (h' : b.atEof = some true)
  | line (n : Nat) (l : Line) (ls' : List Line) (h : firstData ls = some (n, l, ls')) (h' : b = posn [] l ls' (k + n + 1))

theorem after_advance (b : Buf) (ls : List Line) (k : Nat) (h1 : b.failing = false) (h2 : b.isEof = 0) (h3 : b.input = ls) (h4 : b.currentLine = k)
    (h5 : b.lastError = none) : After ls k b.advanceLine.1 := by
  have := advanceLine_eq b h1 h2
  rw [h3, h4] at this
  cases hf : firstData ls with
  | none =>
    rw [hf] at this
    obtain ⟨b', e, h⟩ := this
    exact .eof hf (by rw [e]; exact h)
  | some x =>
    rw [hf] at this
    obtain ⟨n, l, ls'⟩ := x
    simp only at this
    refine .line n l ls' hf ?_
    rw [this, h5]
    rfl

theorem after_remainder (pre suf : Line) (ls : List Line) (k : Nat) : After ls k (posn pre suf ls k).readLineRemainder.2 := by
  have := advanceLine_eq (posn pre suf ls k) rfl rfl
  have e : (posn pre suf ls k).readLineRemainder.2 = { (posn pre suf ls k).advanceLine.1 with lastError := (posn pre suf ls k).advanceLine.2 } := rfl
  have hi : (posn pre suf ls k).input = ls := rfl
  have hk : (posn pre suf ls k).currentLine = k := rfl
  rw [hi, hk] at this
  rw [e]
  cases hf : firstData ls with
  | none =>
    rw [hf] at this
    obtain ⟨b', e, h⟩ := this
    refine .eof hf ?_
    rw [e]
    exact h
  | some x =>
    rw [hf] at this
    obtain ⟨n, l, ls'⟩ := x
    simp only at this
    refine .line n l ls' hf ?_
    rw [this]
    rfl

/-- A line gives a token. -/
theorem next_line (nd : Nat → Bool) (l : Line) (hl : l ≠ []) (ls : List Line) (k : Nat) (e : Option TokenErr) :
    ∃ t b e', Scanner.next nd ⟨posn [] l ls k, false, e⟩ = .token t ⟨b, false, e'⟩ ∧ After ls k b ∧ t.lineNo = k ∧
      (t.error = none → e' = e) ∧ (t.error ≠ none → e' = t.error) := by
  unfold Scanner.next
  simp only
  rw [posn_atEof _ _ _ _ (by simpa using hl)]
  simp only
  obtain ⟨t', pre, suf, h1, h2, h3⟩ := scanRuneRange_posn nd (newToken (posn [] l ls k).currentLine (posn [] l ls k).cursor) l ls k
  rw [h1]
  simp only
  rw [if_neg (by simp)]
  by_cases he : t'.error = none
  · rw [if_neg (by simp [he])]
    refine ⟨_, _, e, rfl, after_remainder pre suf ls k, ?_, fun _ => rfl, fun h => absurd ?_ h⟩
    · unfold scanItemBody
      simp only
      split <;> exact h3
    · unfold scanItemBody
      simp only
      split <;> exact he
  · rw [if_pos he]
    exact ⟨_, _, _, rfl, after_advance _ ls k rfl rfl rfl rfl rfl, h3, fun h => absurd h he, fun _ => rfl⟩

/-! ### Rows -/

theorem encode_ascii {c : Nat} (h : c < 128) : Utf8.encodeNat c = [c] := by unfold Utf8.encodeNat; rw [if_pos h]

theorem width_ascii {c : Nat} (h : c < 128) : width c = 1 := by unfold width; rw [encode_ascii h]; rfl

theorem hex_lt {c : Nat} (h : IsHex c) : c < 128 := by unfold IsHex at h; omega

theorem bytes_hex {d : Line} (h : ∀ c ∈ d, IsHex c) : bytes d = d := by
  induction d with
  | nil => rfl
  | cons c d ih =>
    unfold bytes at ih ⊢
    rw [List.flatMap_cons, ih fun x hx => h x (by simp [hx]), encode_ascii (hex_lt (h c (by simp)))]
    rfl

theorem size_hex {d : Line} (h : ∀ c ∈ d, IsHex c) : size d = d.length := by unfold size; rw [bytes_hex h]

theorem digitValue_hex {c : Nat} (h : IsHex c) : digitValue c = some (hexDigit c) := by
  unfold IsHex at h
  unfold digitValue hexDigit
  split
  · rw [if_pos (by omega)]
  · split
    · rw [if_neg (by omega), if_neg (by omega)]
    · split
      · rw [if_neg (by omega), if_pos (by omega)]
      · omega

theorem foldlM_hex {d : Line} (h : ∀ c ∈ d, IsHex c) (n : Nat) :
    d.foldlM (fun (n : Nat) c => (digitValue c).map fun d => 16 * n + d) n = some (d.foldl (fun n c => 16 * n + hexDigit c) n) := by
  induction d generalizing n with
  | nil => rfl
  | cons c d ih =>
    rw [List.foldlM_cons, digitValue_hex (h c (by simp))]
    exact ih (fun x hx => h x (by simp [hx])) _

theorem parseHex_hex {d : Line} (h0 : d ≠ []) (h : ∀ c ∈ d, IsHex c) (hv : hexValue d < 0x80000000) : parseHex d = some (hexValue d) := by
  unfold parseHex
  rw [if_neg h0, foldlM_hex h]
  show (if hexValue d < 0x80000000 then some (hexValue d) else none) = _
  rw [if_pos hv]

theorem hexWord_posn (pre d : Line) (c : Nat) (s : Line) (ls : List Line) (k : Nat) (h0 : d ≠ []) (h : ∀ c ∈ d, IsHex c)
    (hv : hexValue d < 0x80000000) (hc : c < 128) : hexWord (size pre) (posn (pre ++ d) (c :: s) ls k) = some (some (hexValue d)) := by
  unfold hexWord
  have hp : (posn (pre ++ d) (c :: s) ls k).byteCursor - 1 = size pre + d.length := by
    show size (pre ++ d) + width c - 1 = _
    rw [size_append, size_hex h, width_ascii hc]
    omega
  have hd : 0 < d.length := List.length_pos_iff.mpr h0
  simp only [hp]
  rw [if_pos (by omega), slice_posn]
  have e : ((bytes (pre ++ d ++ c :: s)).take (size pre + d.length)).drop (size pre) = d := by
    have e1 : bytes (pre ++ d ++ c :: s) = bytes pre ++ (d ++ bytes (c :: s)) := by
      have := bytes_hex h
      unfold bytes at this ⊢
      rw [List.flatMap_append, List.flatMap_append, this, List.append_assoc]
    have e2 : size pre = (bytes pre).length := rfl
    rw [e1, e2, List.take_length_add_append, List.drop_left, List.take_left]
  rw [e, parseHex_hex h0 h hv]
  rfl

theorem isHexDigit_hex (nd : Nat → Bool) {c : Nat} (h : IsHex c) : isHexDigit nd c = true := by
  have := hex_lt h
  unfold IsHex at h
  unfold isHexDigit
  rw [if_pos (by omega)]
  simp only [Bool.or_eq_true, Bool.and_eq_true, decide_eq_true_eq]
  omega

theorem isHexDigit_low (nd : Nat → Bool) {c : Nat} (h : ¬ IsHex c) (hc : c < 128) : isHexDigit nd c = false := by
  unfold IsHex at h
  unfold isHexDigit
  rw [if_pos (by omega), Bool.eq_false_iff]
  simp only [ne_eq, Bool.or_eq_true, Bool.and_eq_true, decide_eq_true_eq]
  omega

/-- The part of a row after the code points. -/
def Row.body (r : Row) : Line := r.gap ++ 59 :: (joinFields r.fields ++ match r.comment with | some c => 35 :: c | none => [])

theorem body_head {r : Row} (h : r.Valid) : ∃ c s, r.body = c :: s ∧ c < 128 ∧ ¬ IsHex c ∧ c ≠ 46 := by
  unfold Row.body
  cases hg : r.gap with
  | nil => exact ⟨59, _, rfl, by decide, by decide, by decide⟩
  | cons c g =>
    rcases h.gap c (by rw [hg]; simp) with rfl | rfl
    · exact ⟨32, _, rfl, by decide, by decide, by decide⟩
    · exact ⟨9, _, rfl, by decide, by decide, by decide⟩

theorem row_line (r : Row) : r.line = r.first ++ ((match r.last with | some h => 46 :: 46 :: h | none => []) ++ r.body) := by
  unfold Row.line Row.body
  cases r.last <;> cases r.comment <;> simp [List.append_assoc]

theorem takeWhile_stop (p : Nat → Bool) (a : Line) (c : Nat) (s : Line) (ha : ∀ x ∈ a, p x = true) (hc : p c = false) :
    (a ++ c :: s).takeWhile p = a ∧ (a ++ c :: s).dropWhile p = c :: s := by
  constructor
  · rw [List.takeWhile_append_of_pos ha, List.takeWhile_cons_of_neg (by simp [hc]), List.append_nil]
  · rw [List.dropWhile_append_of_pos ha, List.dropWhile_cons_of_neg (by simp [hc])]

theorem scan_row (nd : Nat → Bool) (t : Token) (r : Row) (h : r.Valid) (ls : List Line) (k : Nat) :
    ∃ ty pre, scanRuneRange nd t (posn [] r.line ls k) =
      .next { t with runeFrom := r.range.1, runeTo := r.range.2, type := ty } (posn pre r.body ls k) := by
  obtain ⟨h1, h2, h3⟩ := h.first
  obtain ⟨c, s, hb, hc1, hc2, hc3⟩ := body_head h
  have hu : ∀ pre suf : Line, suf.length < (posn pre suf ls k).unread.length + 2 := by
    intro pre suf
    show suf.length < suf.tail.length + 2
    simp
    omega
  have hm : (posn [] r.line ls k).byteCursor - 1 = size [] := by
    rw [row_line]
    cases hf : r.first with
    | nil => exact absurd hf h1
    | cons x y =>
      have : x < 128 := hex_lt (h2 x (by rw [hf]; simp))
      show 0 + width x - 1 = 0
      rw [width_ascii this]
  unfold scanRuneRange
  rw [skip_posn _ (hex_eol nd) _ _ _ _ _ (hu _ _)]
  simp only [List.nil_append]
  rw [hm]
  cases hl : r.last with
  | none =>
    have e := takeWhile_stop (isHexDigit nd) r.first c s (fun x hx => isHexDigit_hex nd (h2 x hx)) (isHexDigit_low nd hc2 hc1)
    have e0 : r.line = r.first ++ c :: s := by rw [row_line, hl, hb]; rfl
    rw [e0, e.1, e.2]
    have := hexWord_posn [] r.first c s ls k h1 h2 h3 hc1
    rw [List.nil_append] at this
    rw [this]
    simp only
    rw [skip_posn _ (by decide) _ _ _ _ _ (hu _ _)]
    simp only
    rw [if_pos (by simpa [posn] using hc3), List.takeWhile_cons_of_neg (by simpa using hc3), List.dropWhile_cons_of_neg (by simpa using hc3),
      List.append_nil, ← hb]
    refine ⟨.singleDataItem, r.first, ?_⟩
    simp [Row.range, hl]
  | some d =>
    obtain ⟨g1, g2, g3⟩ := h.last d (by rw [hl]; rfl)
    have e0 : r.line = r.first ++ 46 :: (46 :: (d ++ c :: s)) := by rw [row_line, hl, hb]; simp
    have e := takeWhile_stop (isHexDigit nd) r.first 46 (46 :: (d ++ c :: s)) (fun x hx => isHexDigit_hex nd (h2 x hx))
      (isHexDigit_low nd (by decide) (by decide))
    rw [e0, e.1, e.2]
    have := hexWord_posn [] r.first 46 (46 :: (d ++ c :: s)) ls k h1 h2 h3 (by decide)
    rw [List.nil_append] at this
    rw [this]
    simp only
    rw [skip_posn _ (by decide) _ _ _ _ _ (hu _ _)]
    simp only
    rw [if_neg (by simp [posn])]
    obtain ⟨x, d', rfl⟩ := List.exists_cons_of_ne_nil g1
    have hx : x ≠ 46 := by
      have := g2 x (by simp)
      unfold IsHex at this
      omega
    have e2 := takeWhile_stop (· == 46) [46, 46] x (d' ++ c :: s) (by simp) (by simpa using hx)
    have e3 : (46 :: 46 :: (x :: d' ++ c :: s) : Line) = [46, 46] ++ x :: (d' ++ c :: s) := by simp
    rw [e3, e2.1, e2.2, skip_posn _ (hex_eol nd) _ _ _ _ _ (hu _ _)]
    simp only
    have e4 := takeWhile_stop (isHexDigit nd) (x :: d') c s (fun x hx => isHexDigit_hex nd (g2 x hx)) (isHexDigit_low nd hc2 hc1)
    have e5 : (x :: (d' ++ c :: s) : Line) = x :: d' ++ c :: s := by simp
    rw [e5, e4.1, e4.2]
    have hm2 : (posn (r.first ++ [46, 46]) (x :: d' ++ c :: s) ls k).byteCursor - 1 = size (r.first ++ [46, 46]) := by
      show size (r.first ++ [46, 46]) + width x - 1 = _
      rw [width_ascii (hex_lt (g2 x (by simp)))]
      omega
    rw [hm2, hexWord_posn _ _ _ _ _ _ g1 g2 g3 hc1, ← hb]
    refine ⟨.rangeDataItem, r.first ++ [46, 46] ++ (x :: d'), ?_⟩
    simp [Row.range, hl]

/-! ### Fields -/

theorem split_none {sep : Nat} {l : Line} (h : sep ∉ l) : split sep l = [l] := by
  induction l with
  | nil => rfl
  | cons r l ih =>
    unfold split
    rw [if_neg (fun e => h (by simp [e])), ih fun e => h (by simp [e])]

theorem split_append {sep : Nat} {a : Line} (h : sep ∉ a) (b : Line) : split sep (a ++ sep :: b) = a :: split sep b := by
  induction a with
  | nil => simp [split]
  | cons r a ih =>
    rw [List.cons_append, split, if_neg (fun e => h (by simp [e])), ih fun e => h (by simp [e])]

theorem split_join : ∀ fs : List Line, fs ≠ [] → (∀ f ∈ fs, 59 ∉ f) → split 59 (joinFields fs) = fs := by
  intro fs
  induction fs with
  | nil => intro h; exact absurd rfl h
  | cons f fs ih =>
    intro _ h
    cases fs with
    | nil => exact split_none (h f (by simp))
    | cons g gs =>
      show split 59 (f ++ 59 :: joinFields (g :: gs)) = _
      rw [split_append (h f (by simp)), ih (by simp) fun x hx => h x (by simp [hx])]

/-- Without white space at the end. -/
def rtrim (l : Line) : Line := (l.reverse.dropWhile isSpace).reverse

theorem trimSpace_eq (l : Line) : trimSpace l = rtrim (l.dropWhile isSpace) := rfl

theorem rtrim_append (a : Line) (s : Nat) (b : Line) (hs : isSpace s = false) : rtrim (a ++ s :: b) = a ++ s :: rtrim b := by
  unfold rtrim
  rw [List.reverse_append, List.reverse_cons, List.append_assoc]
  induction b.reverse with
  | nil => simp [hs]
  | cons x l ih =>
    rw [List.cons_append]
    cases hx : isSpace x with
    | true => rw [List.dropWhile_cons_of_pos hx, List.dropWhile_cons_of_pos hx]; exact ih
    | false => rw [List.dropWhile_cons_of_neg (by simp [hx]), List.dropWhile_cons_of_neg (by simp [hx])]; simp

theorem rtrim_mem {l : Line} {x : Nat} (h : x ∈ rtrim l) : x ∈ l := by
  unfold rtrim at h
  rw [List.mem_reverse] at h
  exact List.mem_reverse.mp ((List.dropWhile_sublist _).subset h)

/-- The fields, the last one without white space at its end. -/
def trimLast : List Line → List Line
  | [] => []
  | [f] => [rtrim f]
  | f :: fs => f :: trimLast fs

theorem rtrim_join : ∀ fs : List Line, fs ≠ [] → rtrim (joinFields fs) = joinFields (trimLast fs) := by
  intro fs
  induction fs with
  | nil => intro h; exact absurd rfl h
  | cons f fs ih =>
    intro _
    cases fs with
    | nil => rfl
    | cons g gs =>
      show rtrim (f ++ 59 :: joinFields (g :: gs)) = _
      rw [rtrim_append _ _ _ (by decide), ih (by simp)]
      show _ = joinFields (f :: trimLast (g :: gs))
      cases ht : trimLast (g :: gs) with
      | nil => cases gs <;> simp [trimLast] at ht
      | cons x xs => rfl

theorem trimLast_ne {fs : List Line} (h : fs ≠ []) : trimLast fs ≠ [] := by
  cases fs with
  | nil => exact absurd rfl h
  | cons f fs => cases fs <;> simp [trimLast]

theorem trimLast_mem : ∀ (fs : List Line) (f : Line), f ∈ trimLast fs → ∃ g ∈ fs, ∀ x ∈ f, x ∈ g := by
  intro fs
  induction fs with
  | nil => intro f h; cases h
  | cons g fs ih =>
    intro f h
    cases fs with
    | nil =>
      simp only [trimLast, List.mem_singleton] at h
      subst h
      exact ⟨g, by simp, fun x hx => rtrim_mem hx⟩
    | cons g' gs =>
      simp only [trimLast, List.mem_cons] at h
      rcases h with rfl | h
      · exact ⟨f, by simp, fun x hx => hx⟩
      · obtain ⟨y, hy, hy'⟩ := ih f (by simpa using h)
        exact ⟨y, by simp [List.mem_cons.mp hy], hy'⟩

theorem trim_rtrim (l : Line) : trimSpace (rtrim l) = trimSpace l := by
  have key : ∀ l : Line, rtrim (rtrim l) = rtrim l := by
    intro l
    unfold rtrim
    rw [List.reverse_reverse]
    congr 1
    induction l.reverse with
    | nil => rfl
    | cons x m ih =>
      cases hx : isSpace x with
      | true => rw [List.dropWhile_cons_of_pos hx]; exact ih
      | false => rw [List.dropWhile_cons_of_neg (by simp [hx]), List.dropWhile_cons_of_neg (by simp [hx])]
  rw [trimSpace_eq, trimSpace_eq]
  induction l with
  | nil => rfl
  | cons x l ih =>
    cases hx : isSpace x with
    | false =>
      have e : ∀ m, rtrim (x :: m) = x :: rtrim m := fun m => rtrim_append [] x m hx
      rw [e, List.dropWhile_cons_of_neg (by simp [hx]), List.dropWhile_cons_of_neg (by simp [hx]), e, e, key]
    | true =>
      rw [List.dropWhile_cons_of_pos hx, ← ih]
      by_cases hl : ∃ y ∈ l, isSpace y = false
      · obtain ⟨y, hy, hs⟩ := hl
        obtain ⟨a, b, rfl⟩ := List.append_of_mem hy
        rw [show x :: (a ++ y :: b) = (x :: a) ++ y :: b from rfl, rtrim_append _ _ _ hs, rtrim_append _ _ _ hs, List.cons_append,
          List.dropWhile_cons_of_pos hx]
      · have hall : ∀ m : Line, (∀ y ∈ m, isSpace y = true) → rtrim m = [] := by
          intro m hm
          unfold rtrim
          have : m.reverse.dropWhile isSpace = [] := by
            have hm' : ∀ y ∈ m.reverse, isSpace y = true := by simpa using hm
            revert hm'
            induction m.reverse with
            | nil => intro _; rfl
            | cons x m ih => intro hm'; rw [List.dropWhile_cons_of_pos (hm' x (by simp))]; exact ih fun y hy => hm' y (by simp [hy])
          rw [this]
          rfl
        have h1 : ∀ y ∈ l, isSpace y = true := fun y hy => by
          cases hs : isSpace y with
          | true => rfl
          | false => exact absurd ⟨y, hy, hs⟩ hl
        rw [hall (x :: l) (by simpa [hx] using h1), hall l h1]

theorem trimLast_length (fs : List Line) : (trimLast fs).length = fs.length := by
  induction fs with
  | nil => rfl
  | cons f fs ih =>
    cases fs with
    | nil => rfl
    | cons g gs => show (f :: trimLast (g :: gs)).length = _; rw [List.length_cons, ih]; rfl

theorem trimLast_get (fs : List Line) (i : Nat) (f : Line) (h : fs[i]? = some f) : ∃ g, (trimLast fs)[i]? = some g ∧ SameField g f := by
  induction fs generalizing i with
  | nil => cases h
  | cons f' fs ih =>
    cases fs with
    | nil =>
      cases i with
      | zero => cases h; exact ⟨_, rfl, trim_rtrim _⟩
      | succ i => cases h
    | cons g gs =>
      cases i with
      | zero => cases h; exact ⟨_, rfl, rfl⟩
      | succ i => exact ih i h

theorem space_gap {r : Row} (h : r.Valid) : ∀ c ∈ r.gap, isSpace c = true := by
  intro c hc
  rcases h.gap c hc with rfl | rfl <;> rfl

theorem gap_plain {r : Row} (h : r.Valid) : 35 ∉ r.gap := by
  intro hc
  rcases h.gap _ hc with h | h <;> cases h

theorem join_plain {x : Nat} (hx : x ≠ 59) : ∀ fs : List Line, (∀ f ∈ fs, x ∉ f) → x ∉ joinFields fs := by
  intro fs
  induction fs with
  | nil => intro _; simp [joinFields]
  | cons f fs ih =>
    intro h
    cases fs with
    | nil => exact h f (by simp)
    | cons g gs =>
      show x ∉ f ++ 59 :: joinFields (g :: gs)
      simp only [List.mem_append, List.mem_cons, not_or]
      exact ⟨h f (by simp), hx, ih fun y hy => h y (by simp [List.mem_cons.mp hy])⟩

theorem join_head {fs : List Line} (h0 : fs ≠ []) (h : ∀ f ∈ fs, 59 ∉ f) (hh : 1 < fs.length → fs.head? ≠ some []) :
    (joinFields (trimLast fs)).dropWhile (· == 59) = joinFields (trimLast fs) := by
  have key : ∀ l : Line, l.head? ≠ some 59 → l.dropWhile (· == 59) = l := by
    intro l hl
    cases l with
    | nil => rfl
    | cons x l => rw [List.dropWhile_cons_of_neg (by simpa using hl)]
  apply key
  cases fs with
  | nil => exact absurd rfl h0
  | cons f fs =>
    cases fs with
    | nil =>
      show (rtrim f).head? ≠ some 59
      intro e
      exact h f (by simp) (rtrim_mem (List.mem_of_mem_head? e))
    | cons g gs =>
      have e : joinFields (trimLast (f :: g :: gs)) = f ++ 59 :: joinFields (trimLast (g :: gs)) := by
        show joinFields (f :: trimLast (g :: gs)) = _
        cases ht : trimLast (g :: gs) with
        | nil => exact absurd ht (trimLast_ne (by simp))
        | cons x xs => rfl
      rw [e]
      cases f with
      | nil => exact absurd rfl (hh (by simp))
      | cons x f =>
        intro e
        simp only [List.cons_append, List.head?_cons, Option.some.injEq] at e
        exact h (x :: f) (by simp) (by simp [e])

theorem body_fields {r : Row} (h : r.Valid) :
    split 59 ((trimSpace (r.gap ++ 59 :: joinFields r.fields)).dropWhile (· == 59)) = trimLast r.fields := by
  have h59 : ∀ f ∈ r.fields, 59 ∉ f := fun f hf => (h.fields.2 f hf).1
  rw [trimSpace_eq, (takeWhile_stop isSpace r.gap 59 _ (space_gap h) (by decide)).2]
  have := rtrim_append [] 59 (joinFields r.fields) (by decide)
  rw [List.nil_append, List.nil_append] at this
  rw [this, List.dropWhile_cons_of_pos (by decide), rtrim_join _ h.fields.1, join_head h.fields.1 h59 h.head]
  apply split_join _ (trimLast_ne h.fields.1)
  intro f hf hx
  obtain ⟨g, hg, hsub⟩ := trimLast_mem _ _ hf
  exact h59 g hg (hsub _ hx)

theorem scan_body (t : Token) (r : Row) (h : r.Valid) (ht : t.comment = []) (pre : Line) (ls : List Line) (k : Nat) :
    (scanItemBody t (posn pre r.body ls k)).1 = { t with fields := trimLast r.fields, comment := trimSpace (r.comment.getD []) } := by
  have hne : pre ++ r.body ≠ [] := by simp [Row.body]
  have hr : (posn pre r.body ls k).readLineRemainder.1 = r.body := by
    rw [remainder_posn _ _ _ _ hne, if_neg (by simp [Row.body])]
  have h35 : 35 ∉ r.gap ++ 59 :: joinFields r.fields := by
    simp only [List.mem_append, List.mem_cons, not_or]
    exact ⟨gap_plain h, by decide, join_plain (by decide) _ fun f hf => (h.fields.2 f hf).2⟩
  unfold scanItemBody
  simp only
  rw [hr]
  cases hc : r.comment with
  | none =>
    have e : split 35 r.body = [r.gap ++ 59 :: joinFields r.fields] := by
      have : r.body = r.gap ++ 59 :: joinFields r.fields := by simp [Row.body, hc]
      rw [this, split_none h35]
    rw [e]
    simp only [List.headD_cons]
    rw [body_fields h]
    cases t
    simp only at ht
    subst ht
    rfl
  | some c =>
    have e : split 35 r.body = [r.gap ++ 59 :: joinFields r.fields, c] := by
      have : r.body = (r.gap ++ 59 :: joinFields r.fields) ++ 35 :: c := by simp [Row.body, hc]
      rw [this, split_append h35, split_none (h.comment c (by simp [hc]))]
    rw [e]
    simp only [List.headD_cons]
    rw [body_fields h]
    rfl

/-- A row gives a token that tells what it says. -/
theorem next_row (nd : Nat → Bool) (r : Row) (h : r.Valid) (ls : List Line) (k : Nat) (e : Option TokenErr) :
    ∃ t b, Scanner.next nd ⟨posn [] r.line ls k, false, e⟩ = .token t ⟨b, false, e⟩ ∧ After ls k b ∧ Tells t k r ∧
      t.fields = trimLast r.fields := by
  obtain ⟨ty, pre, h1⟩ := scan_row nd (newToken k (posn [] r.line ls k).cursor) r h ls k
  have hne : [] ++ r.line ≠ [] := by
    rw [row_line]
    have := h.first.1
    simp [this]
  refine ⟨(scanItemBody { newToken k (posn [] r.line ls k).cursor with runeFrom := r.range.1, runeTo := r.range.2, type := ty }
      (posn pre r.body ls k)).1, _, ?_, after_remainder pre r.body ls k, ?_⟩
  · unfold Scanner.next
    simp only
    rw [posn_atEof _ _ _ _ hne]
    simp only
    rw [if_neg (by simp)]
    have hk : (posn [] r.line ls k).currentLine = k := rfl
    rw [hk, h1]
    simp only
    rw [if_neg (by simp [newToken])]
    rfl
  · rw [scan_body _ r h (by rfl)]
    refine ⟨⟨rfl, rfl, rfl, ?_, ?_, rfl⟩, rfl⟩
    · intro i f hf
      obtain ⟨g, hg, hs⟩ := trimLast_get r.fields i f hf
      refine ⟨g, ?_, hs⟩
      have hi : i < (trimLast r.fields).length := by
        rcases Nat.lt_or_ge i (trimLast r.fields).length with h | h
        · exact h
        · rw [List.getElem?_eq_none h] at hg; cases hg
      unfold Token.field
      simp only
      rw [if_pos ⟨by omega, by omega⟩, if_neg (by omega), ← hg]
      congr 1
      omega
    · unfold Token.field
      simp only
      rw [if_neg (by rw [trimLast_length]; omega)]

/-! ### Documents -/

theorem mem_takeWhile_imp' {p : Nat → Bool} {l : Line} {c : Nat} (h : c ∈ l.takeWhile p) : p c = true := by
  induction l with
  | nil => cases h
  | cons x l ih =>
    cases hx : p x with
    | false => rw [List.takeWhile_cons_of_neg (by simp [hx])] at h; cases h
    | true =>
      rw [List.takeWhile_cons_of_pos hx, List.mem_cons] at h
      rcases h with rfl | h
      · exact hx
      · exact ih h

theorem skipped_iff (l : Line) : ignored l = true ↔ Skipped l := by
  have hb : ∀ c, isBlank c = true ↔ (c = 9 ∨ c = 10 ∨ c = 12 ∨ c = 13 ∨ c = 32) := by
    intro c
    simp [isBlank, or_assoc]
  unfold ignored
  constructor
  · intro h
    refine ⟨l.takeWhile isBlank, fun c hc => (hb c).mp (mem_takeWhile_imp' hc), ?_⟩
    have e := List.takeWhile_append_dropWhile (p := isBlank) (l := l)
    cases hd : l.dropWhile isBlank with
    | nil => rw [hd, List.append_nil] at e; exact .inl e.symm
    | cons r m =>
      rw [hd] at h e
      have : r = 35 := by simpa using h
      subst this
      exact .inr ⟨m, e.symm⟩
  · rintro ⟨ws, hw, rfl | ⟨c, rfl⟩⟩
    · have : ∀ m : Line, (∀ c ∈ m, isBlank c = true) → m.dropWhile isBlank = [] := by
        intro m
        induction m with
        | nil => intro _; rfl
        | cons x m ih => intro hm; rw [List.dropWhile_cons_of_pos (hm x (by simp))]; exact ih fun y hy => hm y (by simp [hy])
      rw [this l fun c hc => (hb c).mpr (hw c hc)]
    · rw [(takeWhile_stop isBlank ws 35 c (fun x hx => (hb x).mpr (hw x hx)) (by decide)).2]
      rfl

/-- The data lines with their numbers. -/
def dataLines : Nat → List Line → List (Nat × Line)
  | _, [] => []
  | n, l :: ls => if ignored l then dataLines (n + 1) ls else (n + 1, l) :: dataLines (n + 1) ls

theorem dataLines_cons (n : Nat) (l : Line) (ls : List Line) :
    dataLines n (l :: ls) = if ignored l then dataLines (n + 1) ls else (n + 1, l) :: dataLines (n + 1) ls := rfl

theorem dataLines_first (ls : List Line) (k : Nat) :
    dataLines k ls = match firstData ls with | none => [] | some (n, l, ls') => (k + n + 1, l) :: dataLines (k + n + 1) ls' := by
  induction ls generalizing k with
  | nil => rfl
  | cons l ls ih =>
    rw [dataLines_cons, firstData]
    cases h : ignored l with
    | true =>
      rw [if_pos rfl, if_pos rfl, ih]
      cases firstData ls with
      | none => rfl
      | some x =>
        simp only [Option.map_some]
        have e : k + 1 + x.1 + 1 = k + (x.1 + 1) + 1 := by omega
        rw [e]
    | false => simp

theorem dataLines_mem (ls : List Line) (k i : Nat) (l : Line) :
    (i, l) ∈ dataLines k ls ↔ k < i ∧ ls[i - 1 - k]? = some l ∧ ignored l = false := by
  induction ls generalizing k with
  | nil => simp [dataLines]
  | cons x ls ih =>
    have key : (k < i ∧ (x :: ls)[i - 1 - k]? = some l ∧ ignored l = false) ↔
        (i = k + 1 ∧ x = l ∧ ignored l = false) ∨ (k + 1 < i ∧ ls[i - 1 - (k + 1)]? = some l ∧ ignored l = false) := by
      by_cases hi : i = k + 1
      · subst hi; simp
      · by_cases h : k + 1 < i
        · obtain ⟨j, hj⟩ : ∃ j, i - 1 - k = j + 1 := ⟨i - 1 - k - 1, by omega⟩
          have hj' : i - 1 - (k + 1) = j := by omega
          rw [hj, hj', List.getElem?_cons_succ]
          simp [hi, h]
          omega
        · simp [hi, h]
          omega
    rw [key, ← ih]
    rw [dataLines_cons]
    cases h : ignored x with
    | true =>
      rw [if_pos rfl]
      constructor
      · exact .inr
      · rintro (⟨_, rfl, h'⟩ | h')
        · rw [h] at h'; cases h'
        · exact h'
    | false =>
      rw [if_neg (by simp), List.mem_cons, Prod.mk.injEq]
      constructor
      · rintro (⟨rfl, rfl⟩ | h')
        · exact .inl ⟨rfl, rfl, h⟩
        · exact .inr h'
      · rintro (⟨rfl, rfl, _⟩ | h')
        · exact .inl ⟨rfl, rfl⟩
        · exact .inr h'

theorem dataLines_sorted (ls : List Line) (k : Nat) : ((dataLines k ls).map Prod.fst).Pairwise (· < ·) := by
  induction ls generalizing k with
  | nil => exact List.Pairwise.nil
  | cons x ls ih =>
    rw [dataLines_cons]
    split
    · exact ih _
    · rw [List.map_cons, List.pairwise_cons]
      refine ⟨?_, ih _⟩
      intro i hi
      obtain ⟨⟨j, l⟩, hm, rfl⟩ := List.mem_map.mp hi
      exact ((dataLines_mem _ _ _ _).mp hm).1

theorem dataLines_length (ls : List Line) (k : Nat) : (dataLines k ls).length ≤ ls.length := by
  induction ls generalizing k with
  | nil => exact Nat.le_refl _
  | cons x ls ih =>
    rw [dataLines_cons]
    split
    · exact Nat.le_succ_of_le (ih _)
    · exact Nat.succ_le_succ (ih _)

/-- What a data line and its token have to do with each other. -/
structure Fits (d : Nat × Line) (t : Token) : Prop where
  line : t.lineNo = d.1
  row : ∀ r : Row, r.Valid → d.2 = r.line → Tells t d.1 r ∧ t.fields = trimLast r.fields

theorem next_fits (nd : Nat → Bool) (l : Line) (hl : l ≠ []) (ls : List Line) (k : Nat) (e : Option TokenErr) :
    ∃ t b e', Scanner.next nd ⟨posn [] l ls k, false, e⟩ = .token t ⟨b, false, e'⟩ ∧ After ls k b ∧ Fits (k, l) t ∧
      (e' = none ↔ t.error = none ∧ e = none) := by
  obtain ⟨t, b, e', h1, h2, h3, h4, h5⟩ := next_line nd l hl ls k e
  refine ⟨t, b, e', h1, h2, ⟨h3, ?_⟩, ?_⟩
  · rintro r hr rfl
    obtain ⟨t', b', g1, g2, g3, g4⟩ := next_row nd r hr ls k e
    rw [h1] at g1
    cases g1
    exact ⟨g3, g4⟩
  · by_cases h : t.error = none
    · rw [h4 h]; simp [h]
    · rw [h5 h]; simp [h]

theorem tokens_after (nd : Nat → Bool) : ∀ (n : Nat) (ls : List Line) (k : Nat) (b : Buf) (e : Option TokenErr), After ls k b →
    (dataLines k ls).length < n → ∃ ts err, tokens nd n ⟨b, false, e⟩ = (ts, .returned err) ∧ List.Forall₂ Fits (dataLines k ls) ts ∧
      (err = none ↔ e = none ∧ ∀ t ∈ ts, t.error = none) := by
  intro n
  induction n with
  | zero => intro ls k b e _ h; omega
  | succ n ih =>
    intro ls k b e ha hn
    unfold tokens
    cases ha with
    | eof h h' =>
      have hd : dataLines k ls = [] := by rw [dataLines_first, h]
      refine ⟨[], e, ?_, by rw [hd]; exact .nil, by simp⟩
      unfold Scanner.next
      simp only [h']
    | line m l ls' h h' =>
      obtain ⟨_, hl⟩ := firstData_some h
      obtain ⟨t, b', e', h1, h2, h3, h4⟩ := next_fits nd l hl ls' (k + m + 1) e
      have hd : dataLines k ls = (k + m + 1, l) :: dataLines (k + m + 1) ls' := by rw [dataLines_first, h]
      rw [hd, List.length_cons] at hn
      obtain ⟨ts, err, g1, g2, g3⟩ := ih ls' (k + m + 1) b' e' h2 (by omega)
      refine ⟨t :: ts, err, ?_, by rw [hd]; exact .cons h3 g2, ?_⟩
      · rw [h', h1]
        simp only [g1]
      · rw [g3, h4]
        simp only [List.mem_cons, forall_eq_or_imp]
        constructor
        · rintro ⟨⟨a, b⟩, c⟩; exact ⟨b, a, c⟩
        · rintro ⟨b, a, c⟩; exact ⟨⟨a, b⟩, c⟩

theorem newBuf_after (ls : List Line) : After ls 0 (newBuf ls false) := by
  have := advanceLine_eq ⟨0, 0, 0, 0, ls, false, [], none, [], 0, none⟩ rfl rfl
  unfold newBuf
  simp only at this ⊢
  cases hf : firstData ls with
  | none =>
    rw [hf] at this
    obtain ⟨b', e, h⟩ := this
    exact .eof hf (by rw [e]; exact h)
  | some x =>
    rw [hf] at this
    obtain ⟨n, l, ls'⟩ := x
    simp only at this
    exact .line n l ls' hf (by rw [this]; rfl)

/-- The tokens of a document. -/
theorem parse_document (nd : Nat → Bool) (lines : List Line) (n : Nat) (hn : (dataLines 0 lines).length + 2 ≤ n) :
    (dataLines 0 lines = [] → parse nd n lines false = ([], .returned none)) ∧
    (∀ k l rest, dataLines 0 lines = (k, l) :: rest →
      (l.head? ≠ some 32 → ∃ root ts err, parse nd n lines false = (root :: ts, .returned err) ∧ root.fields = [] ∧ root.error = none ∧
        root.type = .docRoot ∧ List.Forall₂ Fits (dataLines 0 lines) ts ∧ (err = none ↔ ∀ t ∈ ts, t.error = none)) ∧
      (l.head? = some 32 → ∃ root ts err, parse nd n lines false = (root :: ts, .returned (some err)) ∧ root.fields = [] ∧
        root.error = some .indented ∧ root.type = .docRoot ∧ List.Forall₂ Fits rest ts)) := by
  obtain ⟨n, rfl⟩ : ∃ m, n = m + 1 := ⟨n - 1, by omega⟩
  have ha := newBuf_after lines
  unfold parse tokens newScanner
  cases ha with
  | eof h h' =>
    refine ⟨fun _ => ?_, fun k l rest hd => ?_⟩
    · unfold Scanner.next
      simp only [h']
    · rw [dataLines_first, h] at hd
      cases hd
  | line m l ls' h h' =>
    obtain ⟨_, hl⟩ := firstData_some h
    have hd : dataLines 0 lines = (0 + m + 1, l) :: dataLines (0 + m + 1) ls' := by rw [dataLines_first, h]
    refine ⟨fun hd' => (by rw [hd] at hd'; cases hd'), ?_⟩
    intro k' l' rest hd'
    rw [hd'] at hd
    obtain ⟨hd1, rfl⟩ := List.cons.inj hd
    obtain ⟨rfl, rfl⟩ := Prod.mk.inj hd1
    have hlook : (posn [] l' ls' (0 + m + 1)).lookahead = l'.headD 10 := rfl
    constructor
    · intro h32
      obtain ⟨ts, err, g1, g2, g3⟩ := tokens_after nd n lines 0 (newBuf lines false) none (.line m l' ls' h h') (by omega)
      refine ⟨{ newToken (0 + m + 1) (posn [] l' ls' (0 + m + 1)).cursor with type := .docRoot }, ts, err, ?_, rfl, rfl, rfl, g2,
        by simpa using g3⟩
      · unfold Scanner.next
        rw [h', posn_atEof _ _ _ _ (by simpa using hl)]
        simp only
        rw [if_pos trivial, if_neg (by rw [hlook]; cases l' with | nil => exact absurd rfl hl | cons x y => simpa using h32)]
        rw [h'] at g1
        simp only [g1]
        rfl
    · intro h32
      obtain ⟨ts, err, g1, g2, g3⟩ := tokens_after nd n ls' (0 + m + 1) (posn [] l' ls' (0 + m + 1)).advanceLine.1 (some .indented)
        (after_advance _ _ _ rfl rfl rfl rfl rfl) (by rw [hd', List.length_cons] at hn; omega)
      have he : err ≠ none := by rw [ne_eq, g3]; simp
      obtain ⟨err', rfl⟩ := Option.ne_none_iff_exists'.mp he
      refine ⟨{ newToken (0 + m + 1) (posn [] l' ls' (0 + m + 1)).cursor with type := .docRoot, error := some .indented }, ts, err', ?_,
        rfl, rfl, rfl, g2⟩
      · unfold Scanner.next
        rw [h', posn_atEof _ _ _ _ (by simpa using hl)]
        simp only
        rw [if_pos trivial, if_pos (by rw [hlook]; cases l' with | nil => exact absurd rfl hl | cons x y => simpa using h32)]
        simp only [g1]
        rfl

end Uax.Ucd
