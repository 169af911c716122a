import Verif.Malformed
import Verif.Props.Segment
import Verif.Props.Grapheme
import Verif.Props.Word
import Verif.Props.Line
import Verif.Props.SimpleWord
import Verif.Props.SegmentMixed

/-! Property C80: the bytes of the segments are the bytes of the text.

`ReadsAs b t k` (SpecMalformed.lean) says that the bytes `b` are read as the text `t`, with `k` malformed bytes, each of which is read as U+FFFD. -/

namespace Uax
open Seg Bidi Bidi.Spec

/-- The runes and sizes which Go's `strings.Reader`, `bytes.Reader` and `bufio.Reader` deliver (not part of /repo; see their documentation of ReadRune, and
segment.go:396): a malformed byte is U+FFFD, of size 1. The number of bytes bounds the recursion. -/
def byteReader : Nat → List Nat → List (Int × Nat)
  | 0, _ => []
  | _ + 1, [] => []
  | n + 1, x :: b => (((Utf8.decode (x :: b)).1 : Int), (Utf8.decode (x :: b)).2) :: byteReader n ((x :: b).drop (Utf8.decode (x :: b)).2)

/-- A reader for these bytes. -/
def readerFor (b : List Nat) : List (Int × Nat) := byteReader b.length b

theorem byteReader_reads {b : List Nat} {t : List Char} {k : Nat} (h : ReadsAs b t k) : ∀ n, b.length ≤ n → (byteReader n b).map (·.1) = codes t := by
  induction h with
  | none => intro n _; cases n <;> rfl
  | @char b t k c h ih =>
    intro n hn
    obtain ⟨x, xs, hx⟩ := List.exists_cons_of_ne_nil (l := utf8 [c]) (by rw [utf8_one]; exact Utf8.encodeNat_ne c.toNat)
    have hd := decode_char c b
    rw [List.length_append] at hn
    have hp : 0 < (utf8 [c]).length := by rw [hx]; simp
    obtain ⟨n, rfl⟩ : ∃ k, n = k + 1 := ⟨n - 1, by omega⟩
    have e : utf8 [c] ++ b = x :: (xs ++ b) := by rw [hx]; rfl
    rw [e, byteReader, ← e, hd, List.drop_left, List.map_cons, ih n (by omega)]
    rfl
  | @malformed b t k x hx h ih =>
    intro n hn
    rw [List.length_cons] at hn
    obtain ⟨n, rfl⟩ : ∃ k, n = k + 1 := ⟨n - 1, by omega⟩
    rw [byteReader, decode_malformed hx, List.map_cons, List.drop_succ_cons, List.drop_zero, ih n (by omega)]
    rfl

theorem readerFor_runes {b : List Nat} {t : List Char} {k : Nat} (h : ReadsAs b t k) : (readerFor b).map (·.1) = codes t := byteReader_reads h _ (Nat.le_refl _)

theorem readerFor_length {b : List Nat} {t : List Char} {k : Nat} (h : ReadsAs b t k) : (readerFor b).length = t.length := by
  have := congrArg List.length (readerFor_runes h)
  simpa [codes] using this

theorem bytes_codes (t : List Char) : bytesOf (codes t) = utf8 t := by
  induction t with
  | nil => rfl
  | cons c t ih =>
    rw [utf8_cons, ← ih]
    show Utf8.encode (c.toNat : Int) ++ bytesOf (codes t) = _
    rw [Utf8.encode_nat]

theorem bytes_flatten (segs : List (List Int)) : (segs.map bytesOf).flatten = bytesOf segs.flatten := by
  induction segs with
  | nil => rfl
  | cons s segs ih =>
    rw [List.map_cons, List.flatten_cons, ih, List.flatten_cons]
    exact (List.flatMap_append).symm

theorem codes_ne {t : List Char} (h : '\u0000' ∉ t) : ∀ x ∈ codes t, x ≠ 0 := by
  intro x hx e
  obtain ⟨c, hc, rfl⟩ := List.mem_map.mp hx
  have : c.toNat = 0 := by omega
  have hz : c = '\u0000' := Char.ext (UInt32.toNat_inj.mp this)
  exact h (hz ▸ hc)

/-- Any breakers, any calls of Next and BoundedNext, any bytes: what Bytes() returned after the successful calls, put together, is the beginning of the text with U+FFFD for each
malformed byte, or all of it with the end mark NUL (see C01). -/
theorem C80_history {β : Type} (B : Breaker β) {s : Seg β} (hr : Reachable B s) {b : List Nat} {t : List Char} {k : Nat} (h : ReadsAs b t k)
    (hlen : t.length < s.room) (cs : List SegCall) :
    ∃ segs, (s.initReader (readerFor b) none).history B cs = some segs ∧ (segs.map bytesOf).flatten <+: utf8 t ++ [0] := by
  obtain ⟨segs, h1, rest, h2⟩ := C01_segments_are_consecutive B hr (readerFor b) none (by rw [readerFor_length h]; exact hlen) cs
  refine ⟨segs, h1, bytesOf rest, ?_⟩
  rw [bytes_flatten]
  have := congrArg bytesOf h2
  rw [readerFor_runes h, if_pos rfl] at this
  unfold bytesOf at this ⊢
  rw [List.flatMap_append, List.flatMap_append] at this
  rw [this]
  show bytesOf (codes t) ++ _ = _
  rw [bytes_codes]
  rfl

/-- Graphemes: the bytes of all of the segments are those of the text. For a text in UTF-8 this is the input (`C78_wellformed`). Missing: malformed bytes, see
`C80_malformed_violated`; for NUL and clusters of more than 4096 runes see C22 and C09. -/
theorem C80_graphemes_partial (T : GTables) (past : List Int) (hp : CompletePast past) {s : Seg Graph.GBrk}
    (hr : Reachable (Graph.breaker T) s) (hb : s.brk = [(Graph.breaker T).run Graph.new past]) {b : List Nat} {t : List Char} {k : Nat} (h : ReadsAs b t k)
    (h0 : '\u0000' ∉ t) (hlen : ∀ c ∈ clusters false (Graph.classOf T) (codes t), c.length ≤ s.room) (n : Nat) (hn : t.length + 1 < n) :
    ∃ segs, (s.initReader (readerFor b) none).collect (Graph.breaker T) n = some (segs, true) ∧
      segs.map (·.runes) = clusters false (Graph.classOf T) (codes t) ∧ (segs.map fun g => bytesOf g.runes).flatten = utf8 t := by
  have hm := readerFor_runes h
  obtain ⟨segs, h1, h2⟩ := C22_clusters_without_GB9b_partial T past hp hr hb (readerFor b)
    (fun x hx => codes_ne h0 x.1 (by rw [← hm]; exact List.mem_map_of_mem hx)) (by rw [hm]; exact hlen) n (by rw [readerFor_length h]; exact hn)
  rw [hm] at h2
  refine ⟨segs, h1, h2, ?_⟩
  rw [show (segs.map fun g => bytesOf g.runes) = (segs.map (·.runes)).map bytesOf by rw [List.map_map]; rfl, bytes_flatten, h2]
  rw [C22_clusters_cover_text, bytes_codes]

/-- Words. Missing: as above. -/
theorem C80_words_partial (T : WTables) (past : List Int) (hp : CompletePast past) {s : Seg Word.WBrk}
    (hr : Reachable (Word.breaker T) s) (hb : s.brk = [(Word.breaker T).run Word.new past]) (hz : s.zero0 = false) {b : List Nat} {t : List Char} {k : Nat} (h : ReadsAs b t k)
    (h0 : '\u0000' ∉ t) (hlen : t.length ≤ s.room) (n : Nat) (hn : t.length + 1 < n) :
    ∃ segs, (s.initReader (readerFor b) none).collect (Word.breaker T) n = some (segs, true) ∧
      segs.map (·.runes) = words false (wordCharSeen T) (codes t) ∧ (segs.map fun g => bytesOf g.runes).flatten = utf8 t := by
  have hm := readerFor_runes h
  obtain ⟨segs, h1, h2⟩ := C26_words_near_partial T past hp hr hb hz (readerFor b)
    (fun x hx => codes_ne h0 x.1 (by rw [← hm]; exact List.mem_map_of_mem hx)) (by rw [readerFor_length h]; exact hlen) n (by rw [readerFor_length h]; exact hn)
  rw [hm] at h2
  refine ⟨segs, h1, h2, ?_⟩
  rw [show (segs.map fun g => bytesOf g.runes) = (segs.map (·.runes)).map bytesOf by rw [List.map_map]; rfl, bytes_flatten, h2]
  rw [C26_words_cover_text, bytes_codes]

/-- Lines. Missing: as above. -/
theorem C80_lines_partial (T : LTables) (past : List Int) (hp : CompletePast past) {s : Seg Line.LBrk}
    (hr : Reachable (Line.breaker T) s) (hb : s.brk = [(Line.breaker T).run Line.new past]) {b : List Nat} {t : List Char} {k : Nat} (h : ReadsAs b t k)
    (h0 : '\u0000' ∉ t) (hlen : t.length ≤ s.room) (n : Nat) (hn : t.length + 1 < n) :
    ∃ segs, (s.initReader (readerFor b) none).collect (Line.breaker T) n = some (segs, true) ∧
      segs.map (·.runes) = lines false (Line.raw T) (codes t) ∧ (segs.map fun g => bytesOf g.runes).flatten = utf8 t := by
  have hm := readerFor_runes h
  obtain ⟨segs, h1, h2⟩ := C29_lines_near_partial T past hp hr hb (readerFor b)
    (fun x hx => codes_ne h0 x.1 (by rw [← hm]; exact List.mem_map_of_mem hx)) (by rw [readerFor_length h]; exact hlen) n (by rw [readerFor_length h]; exact hn)
  rw [hm] at h2
  refine ⟨segs, h1, h2, ?_⟩
  rw [show (segs.map fun g => bytesOf g.runes) = (segs.map (·.runes)).map bytesOf by rw [List.map_map]; rfl, bytes_flatten, h2]
  rw [C29_lines_cover_text, bytes_codes]

/-- Runs of white space and of other characters (the simple word breaker). Missing: as above. -/
theorem C80_runs_partial (isSpace : Int → Bool) (hz : isSpace 0 = false) {b : List Nat} {t : List Char} {k : Nat} (h : ReadsAs b t k)
    (h0 : '\u0000' ∉ t) (hlen : t.length < 4096) (n : Nat) (hn : t.length + 1 < n) :
    ∃ segs, ((Seg.new [SWB.new]).initReader (readerFor b) none).collect (SWB.breaker isSpace) n = some (segs, true) ∧
      segs.map (·.runes) = (codes t).splitBy (fun a c => isSpace a == isSpace c) ∧ (segs.map fun g => bytesOf g.runes).flatten = utf8 t := by
  have hm := readerFor_runes h
  have h1 := C21_reader_gives_runs isSpace hz (readerFor b)
    (fun x hx => codes_ne h0 x.1 (by rw [← hm]; exact List.mem_map_of_mem hx)) (by rw [readerFor_length h]; exact hlen) n (by rw [readerFor_length h]; exact hn)
  rw [hm] at h1
  refine ⟨_, h1, ?_, ?_⟩
  · unfold wordRuns
    rw [List.map_map]
    exact List.map_id _
  · rw [show ((wordRuns isSpace (codes t)).map fun g => bytesOf g.runes) = ((wordRuns isSpace (codes t)).map (·.runes)).map bytesOf by rw [List.map_map]; rfl, bytes_flatten,
      C21_runs_cover_text, bytes_codes]

/-- A text in UTF-8, byte by byte: the bytes of its graphemes are the input. -/
theorem C80_wellformed (T : GTables) (t : List Char) (h0 : '\u0000' ∉ t) (hlen : ∀ c ∈ clusters false (Graph.classOf T) (codes t), c.length ≤ 4096) :
    ∃ segs, ((Seg.new [Graph.new]).initReader (readerFor (utf8 t)) none).collect (Graph.breaker T) (t.length + 2) = some (segs, true) ∧
      (segs.map fun g => bytesOf g.runes).flatten = utf8 t := by
  obtain ⟨segs, h1, -, h2⟩ := C80_graphemes_partial T [] (Or.inl rfl) (Reachable.new _) rfl (reads_text t) h0 hlen (t.length + 2) (by omega)
  exact ⟨segs, h1, h2⟩

/-- The bytes of the segments are not always those of the input: a malformed byte comes back as the three bytes of U+FFFD, for graphemes and for words. -/
theorem C80_malformed_violated :
    (((Seg.new [Graph.new]).initReader (readerFor [0x61, 0xff, 0x62]) none).collect (Graph.breaker realG) 5).map (·.1.map fun g => bytesOf g.runes) =
      some [[0x61], [0xef, 0xbf, 0xbd], [0x62]] ∧
    (((Seg.new [Word.new]).initReader (readerFor [0x61, 0xff, 0x62]) none).collect (Word.breaker realW) 5).map (·.1.map fun g => bytesOf g.runes) =
      some [[0x61], [0xef, 0xbf, 0xbd], [0x62]] := by decide +kernel

/-- "né" with a combining accent, and a truncated letter after it: the sizes, the text and its graphemes. -/
example : readerFor [0x6e, 0x65, 0xcc, 0x81, 0xc3] = [(0x6e, 1), (0x65, 1), (0x301, 2), (0xfffd, 1)] ∧
    clusters false (Graph.classOf realG) (codes ['n', 'e', '\u0301', '�']) = [[0x6e], [0x65, 0x301], [0xfffd]] ∧
    (((Seg.new [Graph.new]).initReader (readerFor [0x6e, 0x65, 0xcc, 0x81, 0xc3]) none).collect (Graph.breaker realG) 6).map (·.1.map fun g => bytesOf g.runes) =
      some [[0x6e], [0x65, 0xcc, 0x81], [0xef, 0xbf, 0xbd]] := by decide +kernel

end Uax
