import Verif.GStringProofs
import Verif.Props.Grapheme

/-! Properties C30-C33: grapheme strings. -/

namespace Uax
open Seg Graph

/-! ### Building -/

theorem room_new : (Seg.new [Graph.new]).room = 4096 := by rfl

theorem src_codes (t : List Char) : (t.map fun c => ((c.toNat : Int), (utf8 [c]).length)).map (·.1) = codes t := by
  rw [List.map_map]; rfl

/-- The character of a code point. -/
def charOf (x : Int) : Char := Char.ofNat x.toNat

theorem charOf_codes (t : List Char) : (codes t).map charOf = t := by
  unfold codes
  rw [List.map_map]
  conv => rhs; rw [← List.map_id t]
  apply List.map_congr_left
  intro c _
  show Char.ofNat ((c.toNat : Int)).toNat = c
  rw [Int.toNat_natCast]
  exact Char.ofNat_toNat c

theorem codes_charOf (t : List Char) (l : List Int) (h : ∀ x ∈ l, x ∈ codes t) : codes (l.map charOf) = l := by
  unfold codes
  rw [List.map_map]
  conv => rhs; rw [← List.map_id l]
  apply List.map_congr_left
  intro x hx
  obtain ⟨c, _, rfl⟩ := List.mem_map.mp (h x hx)
  show (((Char.ofNat ((c.toNat : Int)).toNat)).toNat : Int) = (c.toNat : Int)
  rw [Int.toNat_natCast, Char.ofNat_toNat]

/-- Pieces of a text's code points are the code points of pieces of the text. -/
theorem parts_of (t : List Char) (ps : List (List Int)) (h : ps.flatten = codes t) :
    (ps.map (·.map charOf)).flatten = t ∧ (ps.map (·.map charOf)).map codes = ps := by
  constructor
  · rw [← List.map_flatten, h, charOf_codes]
  · rw [List.map_map]
    conv => rhs; rw [← List.map_id ps]
    apply List.map_congr_left
    intro p hp
    exact codes_charOf t p fun x hx => by rw [← h]; exact List.mem_flatten.mpr ⟨p, hp, hx⟩

theorem taken_bytes (k : Nat) : ∀ segs : List (List Int),
    (bytesOf (segs.map (·.take k)).flatten).length ≤ (bytesOf segs.flatten).length := by
  intro segs
  induction segs with
  | nil => exact Nat.le_refl _
  | cons a segs ih =>
    rw [List.map_cons, List.flatten_cons, List.flatten_cons, bytesOf_append, bytesOf_append, List.length_append, List.length_append]
    have : (bytesOf (a.take k)).length ≤ (bytesOf a).length := by
      conv => rhs; rw [← List.take_append_drop k a, bytesOf_append, List.length_append]
      omega
    omega

/-- The number of values of the offsets' type. -/
def sizeFor (b : List Nat) : Nat := if b.length < 255 then 256 else 65536

/-- Building a string, when the segmenter's result is known. -/
theorem build_text (T : GTables) (t : List Char) (rest : List Nat) (h0 : t ≠ []) (ht : replacement ∉ t) (hr : NoLegalStart rest)
    (hl : (utf8 t ++ rest).length < 65535) (segs : List (List Int)) (n : Nat) (hn : 1 ≤ n)
    (hs : ∃ ss, ((Seg.new [Graph.new]).initReader (t.map fun c => ((c.toNat : Int), (utf8 [c]).length)) none).collect (breaker T) n =
      some (ss, true) ∧ ss.map (·.runes) = segs) :
    stringFromString T n (utf8 t ++ rest) = .returns ⟨utf8 t ++ rest, 0 :: offsets (sizeFor (utf8 t ++ rest)) 0 segs⟩ := by
  obtain ⟨ss, h1, rfl⟩ := hs
  have key : ∀ m, makeString T m n (utf8 t ++ rest) = .returns ⟨utf8 t ++ rest, 0 :: offsets m 0 (ss.map (·.runes))⟩ := by
    intro m
    unfold makeString
    rw [prepare_text t rest h0 ht hr n hn]
    simp only [Run.andThen]
    rw [h1]
  unfold stringFromString sizeFor
  by_cases h : (utf8 t ++ rest).length < 255
  · rw [if_pos h, if_pos h]; exact key _
  · rw [if_neg h, if_neg h, if_pos hl]; exact key _

theorem sizeFor_lt (b : List Nat) (h : b.length < 65535) : b.length < sizeFor b := by
  unfold sizeFor; split <;> omega

/-- Any text (with a rest that is not legal): there are pieces such that the string has the
offsets of these pieces, cut off after 4096 runes. -/
theorem build_pieces (T : GTables) (t : List Char) (rest : List Nat) (h0 : t ≠ []) (ht : replacement ∉ t) (hr : NoLegalStart rest)
    (hl : (utf8 t ++ rest).length < 65535) :
    ∃ cut : Nat → Bool, (cutAfter cut (codes t)).flatten = codes t ∧
      ∀ n, t.length + 1 < n → stringFromString T n (utf8 t ++ rest) = .returns ⟨utf8 t ++ rest,
        0 :: offsets (sizeFor (utf8 t ++ rest)) 0 ((cutAfter cut (codes t)).map (·.take 4096))⟩ := by
  obtain ⟨cut, h1, h2⟩ := reader_pieces T [] (Or.inl rfl) (Reachable.new [Graph.new]) rfl
    (t.map fun c => ((c.toNat : Int), (utf8 [c]).length))
  rw [src_codes, room_new, List.length_map] at h2
  rw [List.length_map] at h1
  refine ⟨cut, cutAfter_flatten cut _ (fun i hi => h1 i (by unfold codes at hi; rwa [List.length_map] at hi)), ?_⟩
  intro n hn
  exact build_text T t rest h0 ht hr hl _ n (by omega) (h2 n hn)

/-- A text without NUL: the pieces are the clusters. -/
theorem build_clusters (T : GTables) (t : List Char) (rest : List Nat) (h0 : t ≠ []) (ht : replacement ∉ t)
    (hz : Char.ofNat 0 ∉ t) (hr : NoLegalStart rest) (hl : (utf8 t ++ rest).length < 65535) (n : Nat) (hn : t.length + 1 < n) :
    stringFromString T n (utf8 t ++ rest) = .returns ⟨utf8 t ++ rest,
      0 :: offsets (sizeFor (utf8 t ++ rest)) 0 ((clusters false (classOf T) (codes t)).map (·.take 4096))⟩ := by
  have hnz : ∀ x ∈ t.map fun c => ((c.toNat : Int), (utf8 [c]).length), x.1 ≠ 0 := by
    intro x hx
    obtain ⟨c, hc, rfl⟩ := List.mem_map.mp hx
    intro h
    apply hz
    have : c.toNat = 0 := by simpa using h
    rw [← this, Char.ofNat_toNat]
    exact hc
  obtain ⟨ss, h1, h2⟩ := reader_clusters T [] (Or.inl rfl) (Reachable.new [Graph.new]) rfl _ hnz n
    (by rw [List.length_map]; exact hn)
  rw [src_codes, room_new] at h2
  exact build_text T t rest h0 ht hr hl _ n (by omega) ⟨ss, h1, h2⟩

/-- A grapheme string whose segments are all there. -/
theorem built_parts (t : List Char) (rest : List Nat) (parts : List (List Char)) (hp : parts.flatten = t)
    (hl : (utf8 t ++ rest).length < 65535) :
    let g : GString := ⟨utf8 t ++ rest, 0 :: offsets (sizeFor (utf8 t ++ rest)) 0 (parts.map codes)⟩
    g.len = parts.length ∧ (∀ (i : Nat) p, parts[i]? = some p → g.nth i = some (utf8 p)) ∧
      g.breaks = (List.range (parts.length + 1)).map fun i => (utf8 (parts.take i).flatten).length := by
  intro g
  have hf : ∀ ps : List (List Char), bytesOf (ps.map codes).flatten = utf8 ps.flatten := by
    intro ps
    rw [← bytesOf_codes]
    congr 1
    unfold codes
    exact List.map_flatten.symm
  obtain ⟨h1, h2, h3, h4, -, -⟩ := built (sizeFor (utf8 t ++ rest)) (utf8 t ++ rest) (parts.map codes) (sizeFor_lt _ hl)
    (by rw [hf, hp, List.length_append]; omega)
  rw [List.length_map] at h1 h2 h3
  refine ⟨h1, ?_, ?_⟩
  · intro i p hi
    obtain ⟨hi', he⟩ := List.getElem?_eq_some_iff.mp hi
    rw [h4 i (codes p) (by rw [List.getElem?_map, hi]; rfl), ← List.map_take, hf, bytesOf_codes]
    congr 1
    have ht : utf8 t ++ rest = utf8 (parts.take i).flatten ++ (utf8 p ++ (utf8 (parts.drop (i + 1)).flatten ++ rest)) := by
      rw [← List.append_assoc, ← List.append_assoc, ← utf8_append, ← utf8_append]
      congr 2
      rw [← hp]
      conv => lhs; rw [← List.take_append_drop i parts, List.flatten_append, List.drop_eq_getElem_cons hi', he, List.flatten_cons]
      rw [List.append_assoc]
    rw [ht, List.drop_left, List.take_left]
  · apply List.ext_getElem?
    intro i
    by_cases hi : i ≤ parts.length
    · rw [h2 i hi, List.getElem?_map, List.getElem?_range (by omega), ← List.map_take, hf]
      rfl
    · rw [List.getElem?_eq_none (by rw [h3]; omega), List.getElem?_eq_none (by simp; omega)]

/-! ### C30 -/

/-- The call of `StringFromString` returns `g` (for every sufficient number of loop rounds). -/
def Returns (T : GTables) (b : List Nat) (g : GString) : Prop := ∃ N, ∀ n, N ≤ n → stringFromString T n b = .returns g

/-- Text without U+FFFD and NUL, below the size limit, without a cluster of more than 4096 runes:
the graphemes are the clusters of the text (see C22 for what these are), which concatenate to the text,
and the segments that a segmenter delivers. Missing: longer clusters, see `C30_violated`. -/
theorem C30_graphemes_partial (T : GTables) (t : List Char) (h0 : t ≠ []) (ht : replacement ∉ t) (hz : Char.ofNat 0 ∉ t)
    (hl : (utf8 t).length < 65535) (hc : ∀ c ∈ clusters false (classOf T) (codes t), c.length ≤ 4096) :
    ∃ (g : GString) (parts : List (List Char)), Returns T (utf8 t) g ∧ g.str = utf8 t ∧
      parts.flatten = t ∧ (∀ p ∈ parts, p ≠ []) ∧ parts.map codes = clusters false (classOf T) (codes t) ∧
      g.len = parts.length ∧ (∀ (i : Nat) p, parts[i]? = some p → g.nth i = some (utf8 p) ∧ utf8 p ≠ []) ∧
      ∀ n, t.length + 1 < n → ∃ segs, ((Seg.new [Graph.new]).initSlice (codes t)).collect (breaker T) n = some (segs, true) ∧
        segs.map (·.runes) = parts.map codes := by
  have hb := build_clusters T t [] h0 ht hz ((decode_noLegal []).mp rfl) (by rw [List.append_nil]; exact hl)
  have hcut : (clusters false (classOf T) (codes t)).map (·.take 4096) = clusters false (classOf T) (codes t) := by
    conv => rhs; rw [← List.map_id (clusters false (classOf T) (codes t))]
    exact List.map_congr_left fun c h => List.take_of_length_le (hc c h)
  rw [hcut] at hb
  have hflat : (clusters false (classOf T) (codes t)).flatten = codes t := C22_clusters_cover_text _ _ _
  obtain ⟨p1, p2⟩ := parts_of t _ hflat
  rw [← p2] at hb
  simp only [List.append_nil] at hb
  obtain ⟨b1, b2, -⟩ := built_parts t [] _ p1 (by rw [List.append_nil]; exact hl)
  simp only [List.append_nil] at b1 b2
  have hne : ∀ p ∈ (clusters false (classOf T) (codes t)).map (·.map charOf), p ≠ [] := by
    intro p hp
    obtain ⟨q, hq, rfl⟩ := List.mem_map.mp hp
    intro h
    exact (cutAfter_lengths _ _ q hq).1 (List.map_eq_nil_iff.mp h)
  refine ⟨_, _, ⟨t.length + 2, fun n hn => hb n (by omega)⟩, rfl, p1, hne, p2, b1, ?_, ?_⟩
  · intro i p hi
    exact ⟨b2 i p hi, utf8_ne (hne p (List.mem_of_getElem? hi))⟩
  · intro n hn
    rw [p2]
    refine C22_slice_clusters_without_GB9b_partial T [] (Or.inl rfl) (Reachable.new [Graph.new]) rfl (codes t) ?_ n
      (by unfold codes; rw [List.length_map]; exact hn)
    intro x hx h
    obtain ⟨c, hc', rfl⟩ := List.mem_map.mp hx
    apply hz
    have : c.toNat = 0 := by simpa using h
    rw [← this, Char.ofNat_toNat]
    exact hc'

/-- Any bytes that begin with a legal character, if there are at most 4096 characters: the
graphemes are non-empty parts of the text before the first illegal position (or U+FFFD), which concatenate
to this text. `String()` is all of the input. -/
theorem C30_legal_prefix_partial (T : GTables) (t : List Char) (rest : List Nat) (h0 : t ≠ []) (ht : replacement ∉ t)
    (hr : NoLegalStart rest) (hl : (utf8 t ++ rest).length < 65535) (h4 : t.length ≤ 4096) :
    ∃ (g : GString) (parts : List (List Char)), Returns T (utf8 t ++ rest) g ∧ g.str = utf8 t ++ rest ∧ parts.flatten = t ∧ (∀ p ∈ parts, p ≠ []) ∧
      g.len = parts.length ∧ ∀ (i : Nat) p, parts[i]? = some p → g.nth i = some (utf8 p) := by
  obtain ⟨cut, hflat, hb⟩ := build_pieces T t rest h0 ht hr hl
  rw [cutAfter_take _ _ _ (by unfold codes; rw [List.length_map]; exact h4)] at hb
  obtain ⟨p1, p2⟩ := parts_of t _ hflat
  rw [← p2] at hb
  obtain ⟨b1, b2, -⟩ := built_parts t rest _ p1 hl
  refine ⟨_, _, ⟨t.length + 2, fun n hn => hb n (by omega)⟩, rfl, p1, ?_, b1, b2⟩
  intro p hp
  obtain ⟨q, hq, rfl⟩ := List.mem_map.mp hp
  intro h
  exact (cutAfter_lengths _ _ q hq).1 (List.map_eq_nil_iff.mp h)

/-- A text without an inner boundary is one piece. -/
theorem cutAfter_one (cut : Nat → Bool) (text : List Int) (h0 : text ≠ []) (h : ∀ i, i + 1 < text.length → cut i = false)
    (hl : ∀ i, i + 1 = text.length → cut i = true) : cutAfter cut text = [text] := by
  have key : ∀ (l acc : List (Int × Bool)), l ≠ [] → (∀ i x, l[i]? = some x → (i + 1 < l.length → x.2 = false) ∧ (i + 1 = l.length → x.2 = true)) →
      pieces (·.2) acc l = [acc ++ l] := by
    intro l
    induction l with
    | nil => intro acc h; exact absurd rfl h
    | cons a l ih =>
      intro acc _ hl
      have h0 := hl 0 a rfl
      cases l with
      | nil => rw [pieces, if_pos (h0.2 rfl), pieces]
      | cons b l =>
        rw [pieces, if_neg (by rw [h0.1 (by simp)]; simp), ih _ (by simp) ?_, List.append_assoc]
        · rfl
        · intro i x hx
          have := hl (i + 1) x (by rw [List.getElem?_cons_succ]; exact hx)
          simpa using this
  unfold cutAfter
  rw [key _ [] (by simpa using h0) ?_, List.nil_append, List.map_singleton]
  · congr 1
    apply List.ext_getElem?
    intro i
    rw [List.getElem?_map, List.getElem?_mapIdx]
    cases text[i]? <;> rfl
  · intro i x hx
    rw [List.getElem?_mapIdx] at hx
    rw [List.length_mapIdx]
    cases ht : text[i]? with
    | none => rw [ht] at hx; cases hx
    | some y =>
      rw [ht] at hx
      simp only [Option.map_some, Option.some.injEq] at hx
      rw [← hx]
      exact ⟨h i, hl i⟩

/-- All of a text may be one cluster. -/
theorem one_cluster (cls : Int → GClass) (x y : Int) (k : Nat) (hx : (cls x).isCtl = false) (hy : cls y = .Extend) :
    clusters false cls (x :: List.replicate k y) = [x :: List.replicate k y] := by
  rw [clusters_eq]
  apply cutAfter_one
  · simp
  · intro i hi
    have hi : i < k := by simpa using hi
    have hx' : cls x ≠ .CR := by intro h; rw [h] at hx; cases hx
    unfold cutG
    rw [List.take_succ_cons, List.drop_succ_cons, List.map_cons, List.reverse_cons, List.take_replicate, List.drop_replicate,
      List.map_replicate, List.map_replicate, List.reverse_replicate]
    obtain ⟨m, hm⟩ : ∃ m, k - i = m + 1 := ⟨k - i - 1, by omega⟩
    rw [hm, List.replicate_succ, hy]
    cases hj : min i k with
    | zero =>
      rw [List.replicate_zero, List.nil_append, gBoundary]
      rw [if_neg (by simp), if_neg (by rw [hx]; simp), if_neg (by decide), if_neg (by simp), if_neg (by simp),
        if_neg (by simp), if_pos (by simp)]
    | succ j =>
      rw [List.replicate_succ, List.cons_append, gBoundary]
      rw [if_neg (by simp), if_neg (by decide), if_neg (by decide), if_neg (by simp), if_neg (by simp), if_neg (by simp), if_pos (by simp)]
  · intro i hi
    unfold cutG
    rw [List.drop_of_length_le (by omega)]
    cases ((((x :: List.replicate k y).take (i + 1)).map cls).reverse) <;> rfl

theorem lost_mark (T : GTables) (h1 : (classOf T 97).isCtl = false) (h2 : classOf T 768 = .Extend) (k j : Nat) (hj : k = j + 1)
    (hk : k = 4096) :
    ∃ g, Returns T (utf8 (Char.ofNat 97 :: List.replicate k (Char.ofNat 768))) g ∧ g.len = 1 ∧
      g.nth 0 = some (utf8 (Char.ofNat 97 :: List.replicate j (Char.ofNat 768))) ∧
      clusters false (classOf T) (codes (Char.ofNat 97 :: List.replicate k (Char.ofNat 768))) =
        [codes (Char.ofNat 97 :: List.replicate k (Char.ofNat 768))] := by
  have hcodes : ∀ k, codes (Char.ofNat 97 :: List.replicate k (Char.ofNat 768)) = (97 : Int) :: List.replicate k 768 := by
    intro k
    unfold codes
    rw [List.map_cons, List.map_replicate]
    rfl
  have hcl := one_cluster (classOf T) 97 768 k h1 h2
  rw [← hcodes] at hcl
  have hlen : ∀ k, (utf8 (List.replicate k (Char.ofNat 768))).length = 2 * k := by
    intro k
    induction k with
    | zero => rfl
    | succ k ih =>
      rw [List.replicate_succ, utf8_cons, List.length_append, ih, show (Utf8.encodeNat (Char.ofNat 768).toNat).length = 2 from rfl]
      omega
  have hlen' : ∀ k, (utf8 (Char.ofNat 97 :: List.replicate k (Char.ofNat 768))).length = 1 + 2 * k := by
    intro k
    rw [utf8_cons, List.length_append, hlen]; rfl
  have hl := hlen' k
  have hb := build_clusters T (Char.ofNat 97 :: List.replicate k (Char.ofNat 768)) [] (by simp)
    (by rw [List.mem_cons, List.mem_replicate]; rintro (h | ⟨-, h⟩) <;> revert h <;> decide)
    (by rw [List.mem_cons, List.mem_replicate]; rintro (h | ⟨-, h⟩) <;> revert h <;> decide)
    ((decode_noLegal []).mp rfl) (by rw [List.append_nil, hl]; omega)
  have htake : (codes (Char.ofNat 97 :: List.replicate k (Char.ofNat 768))).take 4096 = codes (Char.ofNat 97 :: List.replicate j (Char.ofNat 768)) := by
    rw [hcodes, hcodes, ← hk, hj, List.take_succ_cons, List.take_replicate, Nat.min_eq_left (by omega)]
  rw [hcl, List.map_singleton, htake, List.append_nil] at hb
  obtain ⟨g1, -, -, g2, -, -⟩ := built (sizeFor (utf8 (Char.ofNat 97 :: List.replicate k (Char.ofNat 768))))
    (utf8 (Char.ofNat 97 :: List.replicate k (Char.ofNat 768))) [codes (Char.ofNat 97 :: List.replicate j (Char.ofNat 768))]
    (sizeFor_lt _ (by rw [hl]; omega))
    (by
      rw [hl, List.flatten_cons, List.flatten_nil, List.append_nil, bytesOf_codes, hlen']
      omega)
  refine ⟨_, ⟨_, fun n hn => hb n hn⟩, g1, ?_, hcl⟩
  have := g2 0 _ rfl
  rw [show ((0 : Nat) : Int) = 0 from rfl] at this
  rw [this, bytesOf_codes, List.take_zero, List.flatten_nil]
  congr 1
  rw [show (bytesOf []).length = 0 from rfl, List.drop_zero, hj,
    show List.replicate (j + 1) (Char.ofNat 768) = List.replicate j (Char.ofNat 768) ++ [Char.ofNat 768] from List.replicate_succ',
    ← List.cons_append, utf8_append, List.take_left]

/-- Text that is lost: a letter with 4096 combining marks is one grapheme, as it should be, but
`Nth(0)`, and with it all that the string has to offer, is without the last mark. -/
theorem C30_violated (T : GTables) (h1 : (classOf T 97).isCtl = false) (h2 : classOf T 768 = .Extend) :
    ∃ g, Returns T (utf8 (Char.ofNat 97 :: List.replicate 4096 (Char.ofNat 768))) g ∧ g.len = 1 ∧
      g.nth 0 = some (utf8 (Char.ofNat 97 :: List.replicate 4095 (Char.ofNat 768))) ∧
      clusters false (classOf T) (codes (Char.ofNat 97 :: List.replicate 4096 (Char.ofNat 768))) =
        [codes (Char.ofNat 97 :: List.replicate 4096 (Char.ofNat 768))] :=
  lost_mark T h1 h2 4096 4095 rfl rfl

/-- Tables as in `C30_violated` exist, and others where the classes are those of the example. -/
def markTables : GTables := ⟨fun c r => c == .Extend && r == 768, fun _ => false⟩

example : (classOf markTables 97).isCtl = false ∧ classOf markTables 768 = .Extend := by decide

/-- The hypotheses of `C30_graphemes_partial` can be met: e, combining grave, x. -/
example : let t := [Char.ofNat 101, Char.ofNat 768, Char.ofNat 120]
    clusters false (classOf markTables) (codes t) = [[101, 768], [120]] ∧ replacement ∉ t ∧ Char.ofNat 0 ∉ t ∧ utf8 t = [101, 204, 128, 120] := by
  decide +kernel

example : (stringFromString markTables 9 [101, 204, 128, 120]) = .returns ⟨[101, 204, 128, 120], [0, 3, 4]⟩ := by decide +kernel

/-- A rest without legal start: a lone byte. -/
example : NoLegalStart [255, 97] := (decode_noLegal _).mp (by decide)

/-! ### C31 -/

/-- The stored offsets never overflow: they are the totals of the lengths of what the segmenter's
`Bytes()` delivers, for every input below the limit which begins with a legal character. -/
theorem C31_no_overflow (T : GTables) (t : List Char) (rest : List Nat) (h0 : t ≠ []) (ht : replacement ∉ t)
    (hr : NoLegalStart rest) (hl : (utf8 t ++ rest).length < 65535) :
    ∃ (g : GString) (delivered : List (List Int)), Returns T (utf8 t ++ rest) g ∧
      (∀ n, t.length + 1 < n → ∃ segs,
        ((Seg.new [Graph.new]).initReader (t.map fun c => ((c.toNat : Int), (utf8 [c]).length)) none).collect (breaker T) n =
          some (segs, true) ∧ segs.map (·.runes) = delivered) ∧
      g.breaks = (List.range (delivered.length + 1)).map fun i => (bytesOf (delivered.take i).flatten).length := by
  obtain ⟨cut, h1, h2⟩ := reader_pieces T [] (Or.inl rfl) (Reachable.new [Graph.new]) rfl
    (t.map fun c => ((c.toNat : Int), (utf8 [c]).length))
  rw [src_codes, room_new, List.length_map] at h2
  rw [List.length_map] at h1
  have hflat : (cutAfter cut (codes t)).flatten = codes t :=
    cutAfter_flatten cut _ (fun i hi => h1 i (by unfold codes at hi; rwa [List.length_map] at hi))
  have hbytes : (bytesOf ((cutAfter cut (codes t)).map (·.take 4096)).flatten).length ≤ (utf8 t ++ rest).length := by
    refine Nat.le_trans (taken_bytes 4096 _) ?_
    rw [hflat, bytesOf_codes, List.length_append]
    omega
  obtain ⟨-, g2, g3, -, -, -⟩ := built (sizeFor (utf8 t ++ rest)) (utf8 t ++ rest) _ (sizeFor_lt _ hl) hbytes
  refine ⟨_, _, ⟨t.length + 2, fun n hn => build_text T t rest h0 ht hr hl _ n (by omega) (h2 n (by omega))⟩, h2, ?_⟩
  apply List.ext_getElem?
  intro i
  by_cases hi : i ≤ ((cutAfter cut (codes t)).map (·.take 4096)).length
  · rw [g2 i hi, List.getElem?_map, List.getElem?_range (by omega)]; rfl
  · rw [List.getElem?_eq_none (by rw [g3]; omega), List.getElem?_eq_none (by simp at hi ⊢; omega)]

/-- The stored offsets are those of the clusters, from 0 to the length of the text. Missing: clusters of
more than 4096 runes, see `C30_violated`. -/
theorem C31_offsets_partial (T : GTables) (t : List Char) (h0 : t ≠ []) (ht : replacement ∉ t) (hz : Char.ofNat 0 ∉ t)
    (hl : (utf8 t).length < 65535) (hc : ∀ c ∈ clusters false (classOf T) (codes t), c.length ≤ 4096) :
    ∃ (g : GString) (parts : List (List Char)), Returns T (utf8 t) g ∧ parts.map codes = clusters false (classOf T) (codes t) ∧
      parts.flatten = t ∧
      g.breaks = (List.range (parts.length + 1)).map fun i => (utf8 (parts.take i).flatten).length := by
  have hb := build_clusters T t [] h0 ht hz ((decode_noLegal []).mp rfl) (by rw [List.append_nil]; exact hl)
  have hcut : (clusters false (classOf T) (codes t)).map (·.take 4096) = clusters false (classOf T) (codes t) := by
    conv => rhs; rw [← List.map_id (clusters false (classOf T) (codes t))]
    exact List.map_congr_left fun c h => List.take_of_length_le (hc c h)
  rw [hcut] at hb
  have hflat : (clusters false (classOf T) (codes t)).flatten = codes t := C22_clusters_cover_text _ _ _
  obtain ⟨p1, p2⟩ := parts_of t _ hflat
  rw [← p2] at hb
  simp only [List.append_nil] at hb
  obtain ⟨-, -, b3⟩ := built_parts t [] _ p1 (by rw [List.append_nil]; exact hl)
  simp only [List.append_nil] at b3
  exact ⟨_, _, ⟨t.length + 2, fun n hn => hb n (by omega)⟩, p2, p1, b3⟩

/-- The call panics, or it never ends. -/
def Panics (T : GTables) (b : List Nat) : Prop := ∃ N, ∀ n, N ≤ n → stringFromString T n b = .panics
def Hangs (T : GTables) (b : List Nat) : Prop := ∀ n, stringFromString T n b = .running

/-- A legal start and less than 65535 bytes: the call returns, and `Nth` panics exactly out of its range. -/
theorem returns_legal (T : GTables) (c : Char) (hc : c ≠ replacement) (rest : List Nat) (hl : (utf8 [c] ++ rest).length < 65535) :
    ∃ g, Returns T (utf8 [c] ++ rest) g ∧ g.str = utf8 [c] ++ rest ∧ 1 ≤ g.len ∧
      ∀ n : Int, g.nth n = none ↔ n < 0 ∨ n > max (g.len - 1) 0 := by
  obtain ⟨t, r', hb, ht, hr⟩ := split_bytes (utf8 [c] ++ rest)
  have h0 : t ≠ [] := by
    rintro rfl
    exact hr c rest hc hb.symm
  rw [hb] at hl ⊢
  obtain ⟨cut, hflat, hret⟩ := build_pieces T t r' h0 ht hr hl
  have hbytes : (bytesOf ((cutAfter cut (codes t)).map (·.take 4096)).flatten).length ≤ (utf8 t ++ r').length := by
    refine Nat.le_trans (taken_bytes 4096 _) ?_
    rw [hflat, bytesOf_codes, List.length_append]
    omega
  obtain ⟨g1, -, -, -, -, g6⟩ := built (sizeFor (utf8 t ++ r')) (utf8 t ++ r') _ (sizeFor_lt _ hl) hbytes
  refine ⟨_, ⟨t.length + 2, fun n hn => hret n (by omega)⟩, rfl, ?_, g6⟩
  rw [g1, List.length_map]
  cases hcut : cutAfter cut (codes t) with
  | nil =>
    rw [hcut] at hflat
    have : t = [] := by
      cases t with
      | nil => rfl
      | cons a t => cases hflat
    exact absurd this h0
  | cons a l => rw [List.length_cons]; omega

/-- `StringFromString` panics for a byte string with a legal start exactly if it has 65535 bytes or more. -/
theorem C31_limit (T : GTables) (c : Char) (hc : c ≠ replacement) (rest : List Nat) :
    (Panics T (utf8 [c] ++ rest) ↔ 65535 ≤ (utf8 [c] ++ rest).length) ∧
    ((∃ g, Returns T (utf8 [c] ++ rest) g) ↔ (utf8 [c] ++ rest).length < 65535) := by
  have hp : 65535 ≤ (utf8 [c] ++ rest).length → ∀ n, stringFromString T n (utf8 [c] ++ rest) = .panics := by
    intro h n
    unfold stringFromString
    rw [if_neg (by omega), if_neg (by omega)]
  by_cases hl : (utf8 [c] ++ rest).length < 65535
  · obtain ⟨g, ⟨N, hN⟩, -⟩ := returns_legal T c hc rest hl
    refine ⟨⟨?_, fun h => by omega⟩, ⟨fun _ => hl, fun _ => ⟨g, N, hN⟩⟩⟩
    rintro ⟨M, hM⟩
    have h1 := hN (max N M) (Nat.le_max_left _ _)
    have h2 := hM (max N M) (Nat.le_max_right _ _)
    rw [h1] at h2
    cases h2
  · have hp := hp (by omega)
    refine ⟨⟨fun _ => by omega, fun _ => ⟨0, fun n _ => hp n⟩⟩, ⟨?_, fun h => absurd h hl⟩⟩
    rintro ⟨g, N, hN⟩
    have := hN N (Nat.le_refl _)
    rw [hp] at this
    cases this

/-- For every string that `StringFromString` returns, `Nth` panics exactly for indices below 0 and
above the last one (where index 0 is always allowed). -/
theorem C31_nth_range (T : GTables) (b : List Nat) (g : GString) (h : Returns T b g) (n : Int) :
    g.nth n = none ↔ n < 0 ∨ n > max (g.len - 1) 0 := by
  obtain ⟨N, hN⟩ := h
  have h1 := hN (N + 1) (by omega)
  by_cases hb : NoLegalStart b
  · exfalso
    have hd := (decode_noLegal b).mpr hb
    have hpos : positionOfFirstLegalRune (N + 1) b = .running ∨ ∃ p, positionOfFirstLegalRune (N + 1) b = .returns (-1, p) := by
      unfold positionOfFirstLegalRune
      have : ∀ n, firstLegalLoop b n 0 = .running ∨ ∃ p, firstLegalLoop b n 0 = .returns (-1, p) := by
        intro n
        induction n with
        | zero => exact Or.inl rfl
        | succ n ih =>
          unfold firstLegalLoop
          split
          · exact Or.inr ⟨_, rfl⟩
          · split
            · rw [List.drop_zero, if_neg (by simp [hd])]; exact Or.inr ⟨_, rfl⟩
            · exact ih
      exact this _
    have hm : ∀ m, makeString T m (N + 1) b = .panics ∨ makeString T m (N + 1) b = .running := by
      intro m
      unfold makeString prepareBreaking
      rcases hpos with e | ⟨p, e⟩
      · rw [e]; exact Or.inr rfl
      · rw [e]; exact Or.inl rfl
    unfold stringFromString at h1
    split at h1
    · rcases hm 256 with e | e <;> rw [e] at h1 <;> cases h1
    split at h1
    · rcases hm 65536 with e | e <;> rw [e] at h1 <;> cases h1
    · cases h1
  · unfold NoLegalStart at hb
    simp only [ne_eq, Classical.not_forall, Classical.not_not] at hb
    obtain ⟨c, rest, hc, rfl⟩ := hb
    have hl : (utf8 [c] ++ rest).length < 65535 := ((C31_limit T c hc rest).2.mp ⟨g, N, hN⟩)
    obtain ⟨g', ⟨M, hM⟩, -, -, h6⟩ := returns_legal T c hc rest hl
    have e1 := hN (max N M) (Nat.le_max_left _ _)
    have e2 := hM (max N M) (Nat.le_max_right _ _)
    rw [e1] at e2
    cases e2
    exact h6 n

/-- Both limits occur: lengths 254 and 255 use different types for the offsets. -/
example : sizeFor (List.replicate 254 97) = 256 ∧ sizeFor (List.replicate 255 97) = 65536 := by
  constructor <;> (unfold sizeFor; rw [List.length_replicate]; rfl)

/-! ### C32 -/

/-- What `StringFromString` does with every byte string below the size limit: it returns exactly
if the input begins with a legal character (other than U+FFFD), never ends if the first byte is a
continuation byte, and panics otherwise. Missing for the full property: it should always return. -/
theorem C32_outcome_partial (T : GTables) (b : List Nat) (hl : b.length < 65535) :
    ((∃ g, Returns T b g ∧ g.str = b ∧ 1 ≤ g.len) ↔ ¬ NoLegalStart b) ∧
    (Hangs T b ↔ ∃ x rest, b = x :: rest ∧ 0x80 ≤ x ∧ x < 0xC0) ∧
    (Panics T b ↔ NoLegalStart b ∧ ¬ ∃ x rest, b = x :: rest ∧ 0x80 ≤ x ∧ x < 0xC0) := by
  have uniq : ∀ {g}, Returns T b g → ¬ Hangs T b ∧ ¬ Panics T b := by
    rintro g ⟨N, hN⟩
    refine ⟨fun h => ?_, ?_⟩
    · have := hN N (Nat.le_refl _); rw [h N] at this; cases this
    · rintro ⟨M, hM⟩
      have h1 := hN (max N M) (Nat.le_max_left _ _)
      have h2 := hM (max N M) (Nat.le_max_right _ _)
      rw [h1] at h2; cases h2
  by_cases hb : NoLegalStart b
  · have hd := (decode_noLegal b).mpr hb
    by_cases hx : ∃ x rest, b = x :: rest ∧ 0x80 ≤ x ∧ x < 0xC0
    · have hang : Hangs T b := by
        obtain ⟨x, rest, rfl, h1, h2⟩ := hx
        intro n
        have hpos : positionOfFirstLegalRune n (x :: rest) = .running := by
          unfold positionOfFirstLegalRune
          induction n with
          | zero => rfl
          | succ n ih =>
            unfold firstLegalLoop
            simp only [List.getElem?_cons_zero]
            rw [if_neg (by unfold Utf8.runeStart; simp; omega)]
            exact ih
        have hm : ∀ m, makeString T m n (x :: rest) = .running := by
          intro m
          unfold makeString prepareBreaking
          rw [hpos]; rfl
        unfold stringFromString
        rw [hm, hm, if_pos hl, ite_self]
      have nr : ∀ {g}, ¬ Returns T b g := fun h => (uniq h).1 hang
      refine ⟨⟨fun ⟨g, h, _⟩ => absurd h nr, fun h => absurd hb h⟩, ⟨fun _ => hx, fun _ => hang⟩, ⟨?_, fun h => absurd hx h.2⟩⟩
      rintro ⟨N, hN⟩
      have := hN N (Nat.le_refl _)
      rw [hang N] at this; cases this
    · have pan : ∀ n, 1 ≤ n → stringFromString T n b = .panics := by
        intro n hn
        obtain ⟨m, rfl⟩ : ∃ m, n = m + 1 := ⟨n - 1, by omega⟩
        have hpos : ∃ p, positionOfFirstLegalRune (m + 1) b = .returns (-1, p) := by
          unfold positionOfFirstLegalRune firstLegalLoop
          cases b with
          | nil => exact ⟨_, rfl⟩
          | cons x rest =>
            simp only [List.getElem?_cons_zero]
            rw [if_pos (by
              unfold Utf8.runeStart
              simp
              apply Classical.byContradiction
              intro h2
              exact hx ⟨x, rest, rfl, by omega, by omega⟩)]
            rw [List.drop_zero, if_neg (by simp [hd])]
            exact ⟨_, rfl⟩
        obtain ⟨p, hp⟩ := hpos
        have hm : ∀ k, makeString T k (m + 1) b = .panics := by
          intro k
          unfold makeString prepareBreaking
          rw [hp]; rfl
        unfold stringFromString
        rw [hm, hm, if_pos hl, ite_self]
      have hpan : Panics T b := ⟨1, pan⟩
      have nr : ∀ {g}, ¬ Returns T b g := fun h => (uniq h).2 hpan
      refine ⟨⟨fun ⟨g, h, _⟩ => absurd h nr, fun h => absurd hb h⟩, ⟨?_, fun h => absurd h hx⟩, ⟨fun _ => ⟨hb, hx⟩, fun _ => hpan⟩⟩
      intro h
      have := pan 1 (Nat.le_refl _)
      rw [h 1] at this; cases this
  · have hb' := hb
    unfold NoLegalStart at hb'
    simp only [ne_eq, Classical.not_forall, Classical.not_not] at hb'
    obtain ⟨c, rest, hc, rfl⟩ := hb'
    obtain ⟨g, hg, h1, h2, -⟩ := returns_legal T c hc rest hl
    refine ⟨⟨fun _ => hb, fun _ => ⟨g, hg, h1, h2⟩⟩, ⟨fun h => absurd h (uniq hg).1, ?_⟩, ⟨fun h => absurd h (uniq hg).2, fun h => absurd h.1 hb⟩⟩
    rintro ⟨x, r', e, h3, h4⟩
    exfalso
    obtain ⟨p0, t, he, hs⟩ := Utf8.encodeNat_start c.toNat (Utf8.char_scalar c)
    rw [utf8_one, he, List.cons_append] at e
    have : p0 = x := (List.cons.inj e).1
    subst this
    unfold Utf8.runeStart at hs
    simp at hs
    omega

/-- The three outcomes: a letter, the empty string and a byte that never occurs in UTF-8, a continuation byte. -/
theorem C32_violated (T : GTables) : (∃ g, Returns T [97] g) ∧ Panics T [] ∧ Panics T [255, 97] ∧ Hangs T [128, 97] := by
  have nl : ∀ b, (Utf8.decode b).1 = Utf8.runeError → NoLegalStart b := fun b h => (decode_noLegal b).mp h
  refine ⟨?_, ?_, ?_, ?_⟩
  · obtain ⟨g, h, -⟩ := (C32_outcome_partial T [97] (by decide)).1.mpr (fun h => h (Char.ofNat 97) [] (by decide) rfl)
    exact ⟨g, h⟩
  · exact (C32_outcome_partial T [] (by decide)).2.2.mpr ⟨nl _ (by decide), by rintro ⟨x, r, h, _⟩; cases h⟩
  · refine (C32_outcome_partial T [255, 97] (by decide)).2.2.mpr ⟨nl _ (by decide), ?_⟩
    rintro ⟨x, r, h, h1, h2⟩
    cases h
    omega
  · exact (C32_outcome_partial T [128, 97] (by decide)).2.1.mpr ⟨128, [97], rfl, by decide, by decide⟩

/-! ### C33 -/

/-- Where the text begins with a legal character, this is found. -/
theorem C33_legal_start_partial (c : Char) (hc : c ≠ replacement) (rest : List Nat) (n : Nat) (hn : 1 ≤ n) :
    positionOfFirstLegalRune n (utf8 [c] ++ rest) = .returns (0, []) := first_legal c hc rest n hn

/-- If a position is returned, it is the first legal one, and the prefix is what comes before it; the
call ends unless the first byte is a continuation byte. Missing: if -1 is returned, there need not be a
lack of legal positions, and with a continuation byte the call does not end. -/
theorem C33_position_partial (s : List Nat) :
    (∀ n k p, positionOfFirstLegalRune n s = .returns (k, p) → 0 ≤ k →
      p = s.take k.toNat ∧ ¬ NoLegalStart (s.drop k.toNat) ∧ ∀ j, j < k.toNat → NoLegalStart (s.drop j)) ∧
    ((∀ n, positionOfFirstLegalRune n s = .running) ↔ ∃ x rest, s = x :: rest ∧ 0x80 ≤ x ∧ x < 0xC0) := by
  constructor
  · intro n k p h hk
    unfold positionOfFirstLegalRune at h
    induction n with
    | zero => cases h
    | succ n ih =>
      unfold firstLegalLoop at h
      split at h
      · cases h; omega
      · split at h
        · split at h
          · rename_i hd
            cases h
            refine ⟨rfl, fun hno => hd ((decode_noLegal _).mpr hno), fun j hj => absurd hj (by simp)⟩
          · cases h; omega
        · exact ih h
  · constructor
    · intro h
      have := h 1
      unfold positionOfFirstLegalRune firstLegalLoop at this
      cases s with
      | nil => cases this
      | cons x rest =>
        simp only [List.getElem?_cons_zero] at this
        split at this
        · split at this <;> cases this
        · rename_i hs
          unfold Utf8.runeStart at hs
          simp at hs
          exact ⟨x, rest, rfl, by omega, by omega⟩
    · rintro ⟨x, rest, rfl, h1, h2⟩ n
      unfold positionOfFirstLegalRune
      induction n with
      | zero => rfl
      | succ n ih =>
        unfold firstLegalLoop
        simp only [List.getElem?_cons_zero]
        rw [if_neg (by unfold Utf8.runeStart; simp; omega)]
        exact ih

/-- The legal character after an illegal byte is not found, and a continuation byte is never skipped. -/
theorem C33_violated :
    (∀ n, 1 ≤ n → positionOfFirstLegalRune n [255, 97] = .returns (-1, [])) ∧ ¬ NoLegalStart ([255, 97].drop 1) ∧
    (∀ n, positionOfFirstLegalRune n [128, 97] = .running) ∧ ¬ NoLegalStart ([128, 97].drop 1) := by
  refine ⟨?_, fun h => h (Char.ofNat 97) [] (by decide) rfl, ?_, fun h => h (Char.ofNat 97) [] (by decide) rfl⟩
  · intro n hn
    obtain ⟨m, rfl⟩ : ∃ m, n = m + 1 := ⟨n - 1, by omega⟩
    rfl
  · exact (C33_position_partial [128, 97]).2.mpr ⟨128, [97], rfl, by decide, by decide⟩

end Uax
