import Verif.UcdLines
import Verif.UcdTests
import Verif.TablesBracketFile
import Verif.BidiBrackets

/-!
C61: files of the Unicode Character Database are read completely. C62: test files are read completely.
-/

namespace Uax

open Uax.Ucd

theorem Ucd.forall₂_line {d : List (Nat × Line)} {ts : List Token} (h : List.Forall₂ Fits d ts) : ts.map Token.lineNo = d.map Prod.fst := by
  induction h with
  | nil => rfl
  | cons h _ ih => rw [List.map_cons, List.map_cons, ih, h.line]

theorem Ucd.forall₂_mem {d : List (Nat × Line)} {ts : List Token} (h : List.Forall₂ Fits d ts) {t : Token} (ht : t ∈ ts) : ∃ x ∈ d, Fits x t := by
  induction h with
  | nil => cases ht
  | cons h _ ih =>
    rcases List.mem_cons.mp ht with rfl | ht
    · exact ⟨_, by simp, h⟩
    · obtain ⟨x, hx, hf⟩ := ih ht
      exact ⟨x, by simp [hx], hf⟩

/-- **C61**: whatever the lines of a file are (and unless the first data line is indented), `Parse` returns; the callback gets a token without
fields for the file, and then exactly one token for each line that is neither blank nor a comment, in the order of the lines; the token of
a row tells what the row says, whatever the other lines are; and `Parse` returns an error exactly if one of the tokens has one. -/
theorem C61_document_partial (nd : Nat → Bool) (lines : List Line) (h : NotIndented lines) (hd : ∃ l ∈ lines, ¬ Skipped l) (n : Nat)
    (hn : lines.length + 2 ≤ n) :
    ∃ root ts err, parse nd n lines false = (root :: ts, .returned err) ∧ root.fields = [] ∧ root.error = none ∧
      (ts.map Token.lineNo).Pairwise (· < ·) ∧
      (∀ i : Nat, i ∈ ts.map Token.lineNo ↔ 0 < i ∧ ∃ l, lines[i - 1]? = some l ∧ ¬ Skipped l) ∧
      (∀ t ∈ ts, ∀ r : Row, r.Valid → lines[t.lineNo - 1]? = some r.line → Tells t t.lineNo r) ∧
      (err = none ↔ ∀ t ∈ ts, t.error = none) := by
  have hlen := dataLines_length lines 0
  have hs : ∀ l, ignored l = false ↔ ¬ Skipped l := fun l => by rw [← skipped_iff]; simp
  obtain ⟨l, hl, hl'⟩ := hd
  cases hd : dataLines 0 lines with
  | nil =>
    obtain ⟨i, hi⟩ := List.mem_iff_getElem?.mp hl
    have := (dataLines_mem lines 0 (i + 1) l).mpr ⟨by omega, hi, (hs l).mpr hl'⟩
    rw [hd] at this
    cases this
  | cons x rest =>
    obtain ⟨k, l0⟩ := x
    have h32 : l0.head? ≠ some 32 := by
      have hm := (dataLines_mem lines 0 k l0).mp (by rw [hd]; simp)
      obtain ⟨hk, hg, hi⟩ := hm
      have hlt : k - 1 - 0 < lines.length := by
        rcases Nat.lt_or_ge (k - 1 - 0) lines.length with h | h
        · exact h
        · rw [List.getElem?_eq_none h] at hg; cases hg
      have hsplit := List.take_append_drop (k - 1 - 0) lines
      rw [List.drop_eq_getElem_cons hlt] at hsplit
      have hg' : lines[k - 1 - 0] = l0 := by rw [List.getElem?_eq_getElem hlt] at hg; exact Option.some.inj hg
      rw [hg'] at hsplit
      refine h _ l0 _ hsplit.symm ?_ ((hs l0).mp hi)
      intro y hy
      apply (skipped_iff y).mp
      cases hiy : ignored y with
      | true => rfl
      | false =>
        exfalso
        obtain ⟨j, hj⟩ := List.mem_iff_getElem?.mp hy
        have hjlt : j < k - 1 - 0 := by
          rcases Nat.lt_or_ge j (k - 1 - 0) with h | h
          · exact h
          · rw [List.getElem?_eq_none (by simp; omega)] at hj; cases hj
        rw [List.getElem?_take_of_lt hjlt] at hj
        have := (dataLines_mem lines 0 (j + 1) y).mpr ⟨by omega, by simpa using hj, hiy⟩
        have hso := dataLines_sorted lines 0
        rw [hd] at this hso
        rcases List.mem_cons.mp this with e | e
        · have := (Prod.mk.inj e).1; omega
        · rw [List.map_cons, List.pairwise_cons] at hso
          have := hso.1 (j + 1) (List.mem_map.mpr ⟨_, e, rfl⟩)
          simp only at this
          omega
    obtain ⟨root, ts, err, g1, g2, g3, _, g4, g5⟩ := ((parse_document nd lines n (by omega)).2 k l0 rest hd).1 h32
    refine ⟨root, ts, err, g1, g2, g3, ?_, ?_, ?_, g5⟩
    · rw [forall₂_line g4]; exact dataLines_sorted lines 0
    · intro i
      rw [forall₂_line g4, List.mem_map]
      constructor
      · rintro ⟨⟨j, l'⟩, hm, rfl⟩
        obtain ⟨a, b, c⟩ := (dataLines_mem lines 0 j l').mp hm
        exact ⟨a, l', by simpa using b, (hs l').mp c⟩
      · rintro ⟨hi, l', h1, h2⟩
        exact ⟨(i, l'), (dataLines_mem lines 0 i l').mpr ⟨hi, by simpa using h1, (hs l').mpr h2⟩, rfl⟩
    · intro t ht r hr hl
      obtain ⟨⟨j, l'⟩, hx, hf⟩ := forall₂_mem g4 ht
      have hj := hf.line
      simp only at hj
      rw [hj] at hl ⊢
      have hm := ((dataLines_mem lines 0 j l').mp hx).2.1
      rw [Nat.sub_zero, hl] at hm
      exact (hf.row r hr (Option.some.inj hm).symm).1

theorem Ucd.dataLines_nil {lines : List Line} (h : ∀ l ∈ lines, Skipped l) (k : Nat) : dataLines k lines = [] := by
  induction lines generalizing k with
  | nil => rfl
  | cons l ls ih =>
    rw [dataLines_cons, if_pos ((skipped_iff l).mpr (h l (by simp)))]
    exact ih (fun x hx => h x (by simp [hx])) _

/-- A file without data gives no token. -/
theorem C61_no_data (nd : Nat → Bool) (lines : List Line) (h : ∀ l ∈ lines, Skipped l) (n : Nat) (hn : lines.length + 2 ≤ n) :
    parse nd n lines false = ([], .returned none) := by
  have := dataLines_length lines 0
  exact (parse_document nd lines n (by omega)).1 (dataLines_nil h 0)

/-- Without an error of the reader, `Parse` always returns. -/
theorem C61_returns (nd : Nat → Bool) (lines : List Line) (n : Nat) (hn : lines.length + 2 ≤ n) :
    ∃ ts err, parse nd n lines false = (ts, .returned err) := by
  have := dataLines_length lines 0
  have hp := parse_document nd lines n (by omega)
  cases hd : dataLines 0 lines with
  | nil => exact ⟨_, _, hp.1 hd⟩
  | cons x rest =>
    obtain ⟨k, l0⟩ := x
    by_cases h32 : l0.head? = some 32
    · obtain ⟨_, _, _, h, _⟩ := (hp.2 k l0 rest hd).2 h32
      exact ⟨_, _, h⟩
    · obtain ⟨_, _, _, h, _⟩ := (hp.2 k l0 rest hd).1 h32
      exact ⟨_, _, h⟩

/-- The lines of a file are found, whether they end with LF, CR LF or CR, and however the file comes in pieces. -/
theorem C61_lines (items : List (List Nat × Term)) (h : WellEnded items) (chunks : List (List Nat)) (hc : chunks.flatten = document items) :
    linesOf chunks = items.map Prod.fst := linesOf_eq items chunks h hc

/-- From pieces of a file to its rows. -/
theorem C61_file_partial (nd : Nat → Bool) (items : List (Line × Term)) (h : WellEnded (items.map fun x => (bytes x.1, x.2))) (chunks : List (List Nat))
    (hc : chunks.flatten = document (items.map fun x => (bytes x.1, x.2))) :
    linesOf chunks = (items.map Prod.fst).map bytes ∧
    (NotIndented (items.map Prod.fst) → (∃ l ∈ items.map Prod.fst, ¬ Skipped l) → ∀ n, items.length + 2 ≤ n →
      ∃ root ts err, parse nd n (items.map Prod.fst) false = (root :: ts, .returned err) ∧
        ∀ (i : Nat) (r : Row), r.Valid → (items.map Prod.fst)[i]? = some r.line → ∃ t ∈ ts, Tells t (i + 1) r) := by
  refine ⟨by rw [C61_lines _ h chunks hc]; simp, ?_⟩
  intro h1 h2 n hn
  obtain ⟨root, ts, err, g1, _, _, _, g2, g3, _⟩ := C61_document_partial nd _ h1 h2 n (by simpa using hn)
  refine ⟨root, ts, err, g1, ?_⟩
  intro i r hr hi
  have hns : ¬ Skipped r.line := by
    rw [← skipped_iff, row_line]
    obtain ⟨x, y, hx⟩ := List.exists_cons_of_ne_nil hr.first.1
    have hh := hr.first.2.1 x (by rw [hx]; simp)
    rw [hx]
    have hb : isBlank x = false := by unfold IsHex at hh; simp [isBlank]; omega
    unfold ignored
    rw [List.cons_append, List.dropWhile_cons_of_neg (by simp [hb])]
    unfold IsHex at hh
    simp
    omega
  have := (g2 (i + 1)).mpr ⟨by omega, r.line, by simpa using hi, hns⟩
  obtain ⟨t, ht, hl⟩ := List.mem_map.mp this
  have := g3 t ht r hr (by rw [hl]; simpa using hi)
  rw [hl] at this
  exact ⟨t, ht, this⟩

/-! ### Tables -/

theorem Ucd.row_first {r : Row} (h : r.Valid) : ∃ x y, r.line = x :: y ∧ IsHex x := by
  obtain ⟨x, y, hx⟩ := List.exists_cons_of_ne_nil h.first.1
  have := row_line r
  rw [hx, List.cons_append] at this
  exact ⟨x, _, this, h.first.2.1 x (by rw [hx]; simp)⟩

theorem Ucd.row_data {r : Row} (h : r.Valid) : ignored r.line = false := by
  obtain ⟨x, y, e, hh⟩ := row_first h
  have hb : isBlank x = false := by unfold IsHex at hh; simp [isBlank]; omega
  unfold ignored
  rw [e, List.dropWhile_cons_of_neg (by simp [hb])]
  unfold IsHex at hh
  simp
  omega

/-- The data lines of a file of rows. -/
theorem Ucd.dataLines_rows (items : List Item) (h : ∀ i ∈ items, i.Valid) (k : Nat) :
    (dataLines k (items.map Item.line)).map Prod.snd = (rowsIn items).map Row.line := by
  induction items generalizing k with
  | nil => rfl
  | cons i items ih =>
    have ih := ih (fun x hx => h x (by simp [hx])) (k + 1)
    have hi := h i (by simp)
    rw [List.map_cons, dataLines_cons]
    cases i with
    | other l =>
      have : ignored (Item.other l).line = true := (skipped_iff l).mpr hi
      rw [this, if_pos rfl, ih]
      rfl
    | row r =>
      have : ignored (Item.row r).line = false := row_data hi
      rw [this, if_neg (by simp), List.map_cons, ih]
      rfl

theorem Ucd.rowsIn_valid {items : List Item} (h : ∀ i ∈ items, i.Valid) : ∀ r ∈ rowsIn items, r.Valid := by
  intro r hr
  obtain ⟨i, hi, e⟩ := List.mem_filterMap.mp hr
  cases i with
  | other l => cases e
  | row r' => cases e; exact h _ hi

/-- The tokens of a file of rows: the root, and one for each row. -/
theorem Ucd.parse_rows (nd : Nat → Bool) (items : List Item) (h : ∀ i ∈ items, i.Valid) (n : Nat) (hn : items.length + 2 ≤ n) :
    ∃ roots ts, parse nd n (items.map Item.line) false = (roots ++ ts, .returned none) ∧ (∀ t ∈ roots, t.fields = []) ∧
      List.Forall₂ (fun (r : Row) (t : Token) => (∃ k, Tells t k r) ∧ t.fields = trimLast r.fields) (rowsIn items) ts := by
  have hlen := dataLines_length (items.map Item.line) 0
  rw [List.length_map] at hlen
  have hp := parse_document nd (items.map Item.line) n (by omega)
  have hr := dataLines_rows items h 0
  have hv := rowsIn_valid h
  have key : ∀ (d : List (Nat × Line)) (ts : List Token) (rs : List Row), List.Forall₂ Fits d ts → d.map Prod.snd = rs.map Row.line → (∀ r ∈ rs, r.Valid) →
      List.Forall₂ (fun (r : Row) (t : Token) => (∃ k, Tells t k r) ∧ t.fields = trimLast r.fields) rs ts := by
    intro d ts rs hf
    induction hf generalizing rs with
    | nil =>
      intro e _
      cases rs with
      | nil => exact .nil
      | cons r rs => cases e
    | cons h _ ih =>
      intro e hv
      cases rs with
      | nil => cases e
      | cons r rs =>
        rw [List.map_cons, List.map_cons] at e
        obtain ⟨e1, e2⟩ := List.cons.inj e
        have := h.row r (hv r (by simp)) e1
        exact .cons ⟨⟨_, this.1⟩, this.2⟩ (ih rs e2 fun x hx => hv x (by simp [hx]))
  cases hd : dataLines 0 (items.map Item.line) with
  | nil =>
    rw [hd] at hr
    refine ⟨[], [], hp.1 hd, by simp, ?_⟩
    cases hri : rowsIn items with
    | nil => exact .nil
    | cons r rs => rw [hri] at hr; cases hr
  | cons x rest =>
    obtain ⟨k, l0⟩ := x
    have h32 : l0.head? ≠ some 32 := by
      rw [hd] at hr
      cases hri : rowsIn items with
      | nil => rw [hri] at hr; cases hr
      | cons r rs =>
        rw [hri] at hr
        simp only [List.map_cons] at hr
        obtain ⟨e1, _⟩ := List.cons.inj hr
        obtain ⟨x, y, e, hh⟩ := row_first (hv r (by rw [hri]; simp))
        rw [e1, e]
        unfold IsHex at hh
        simp
        omega
    obtain ⟨root, ts, err, g1, g2, g3, _, g4, g5⟩ := (hp.2 k l0 rest hd).1 h32
    have hf := key _ _ _ g4 hr hv
    have he : err = none := by
      rw [g5]
      intro t ht
      obtain ⟨r, _, hx⟩ : ∃ r ∈ rowsIn items, (∃ k, Tells t k r) ∧ t.fields = trimLast r.fields := by
        clear g4 g5 g1 hr hv key
        revert ht
        generalize rowsIn items = rs at hf
        intro ht
        induction hf with
        | nil => cases ht
        | cons h _ ih =>
          rcases List.mem_cons.mp ht with rfl | ht
          · exact ⟨_, by simp, h⟩
          · obtain ⟨r, hr, hx⟩ := ih ht; exact ⟨r, by simp [hr], hx⟩
      obtain ⟨⟨_, hx⟩, _⟩ := hx
      exact hx.error
    subst he
    exact ⟨[root], ts, g1, by simpa using g2, hf⟩

theorem Ucd.category_row {r : Row} {t : Token} {k : Nat} (h : Tells t k r) (hf : t.fields = trimLast r.fields) (i : Nat) :
    category (i + 2) t = some ((r.fields[i]?).bind fun f => if trimSpace f = [] then none else some (trimSpace f, r.range)) := by
  unfold category
  have e : ((i : Int) + 2 - 1) = (i : Int) + 1 := by omega
  rw [e, h.range]
  cases hi : r.fields[i]? with
  | some f =>
    obtain ⟨g, h1, h2⟩ := h.fields i f hi
    rw [h1, Option.map_some]
    have h2 : trimSpace g = trimSpace f := h2
    rw [h2]
    rfl
  | none =>
    have hl : r.fields.length ≤ i := List.getElem?_eq_none_iff.mp hi
    have : t.field ((i : Int) + 1) = some [] := by
      unfold Token.field
      rw [if_neg (by rw [hf, trimLast_length]; omega)]
    rw [this]
    rfl

/-- **C61**, for the generator of tables: with category field `i + 2`, the collector of a category gets the ranges of exactly the rows
which name this category in field `i + 1` after the code points, in the order of the file. -/
theorem C61_tables_partial (nd : Nat → Bool) (items : List Item) (h : ∀ i ∈ items, i.Valid) (n : Nat) (hn : items.length + 2 ≤ n) (i : Nat) (cat : Line)
    (hc : cat ≠ []) :
    rowsOf (i + 2) cat (parse nd n (items.map Item.line) false).1 =
      some (((rowsIn items).filter fun r => decide ((r.fields[i]?).map trimSpace = some cat)).map Row.range) := by
  obtain ⟨roots, ts, g1, g2, g3⟩ := parse_rows nd items h n hn
  rw [g1]
  simp only
  have hroots : roots.mapM (category (i + 2)) = some (roots.map fun _ => none) := by
    clear g1
    induction roots with
    | nil => rfl
    | cons t roots ih =>
      rw [List.mapM_cons, ih fun x hx => g2 x (by simp [hx])]
      have : category (i + 2) t = some none := by
        unfold category Token.field
        rw [g2 t (by simp), if_neg (by simp)]
        rfl
      rw [this]
      rfl
  have hts : ∀ (rs : List Row) (ts : List Token), List.Forall₂ (fun (r : Row) (t : Token) => (∃ k, Tells t k r) ∧ t.fields = trimLast r.fields) rs ts →
      ts.mapM (category (i + 2)) = some (rs.map fun r => (r.fields[i]?).bind fun f => if trimSpace f = [] then none else some (trimSpace f, r.range)) := by
    intro rs ts hf
    induction hf with
    | nil => rfl
    | cons h _ ih =>
      obtain ⟨⟨k, hk⟩, hf⟩ := h
      rw [List.mapM_cons, ih, category_row hk hf]
      rfl
  unfold rowsOf
  rw [List.mapM_append, hroots, hts _ _ g3]
  simp only [Option.bind_eq_bind, Option.bind_some, Option.pure_def, Option.map_some, List.filterMap_append]
  have h1 : (roots.map fun _ => (none : Option (Line × (Nat × Nat)))).filterMap (fun o => o.bind fun p => if p.1 = cat then some p.2 else none) = [] := by
    induction roots with
    | nil => rfl
    | cons t roots ih => simp
  rw [h1, List.nil_append]
  congr 1
  induction rowsIn items with
  | nil => rfl
  | cons r rs ih =>
    rw [List.map_cons, List.filterMap_cons]
    cases hi : r.fields[i]? with
    | none => simp [hi, ih]
    | some f =>
      by_cases hf : trimSpace f = cat
      · have hne : trimSpace f ≠ [] := by rw [hf]; exact hc
        simp [hi, ih, hf, hc]
      · by_cases h0 : trimSpace f = []
        · have h0' : ([] : Line) ≠ cat := fun e => hc e.symm
          simp [hi, ih, h0, h0']
        · simp [hi, ih, hf, h0]

/-- **C61**, for the generator of the pairs of brackets: it gets exactly the rows of opening brackets, each with the code point of the
field after it. -/
theorem C61_brackets_partial (nd : Nat → Bool) (items : List Item) (h : ∀ i ∈ items, i.Valid) (n : Nat) (hn : items.length + 2 ≤ n)
    (hx : ∀ r ∈ rowsIn items, ∀ f ∈ r.fields[0]?, trimSpace f ≠ [] ∧ ∀ c ∈ trimSpace f, IsHex c) :
    bracketPairs (parse nd n (items.map Item.line) false).1 =
      ((rowsIn items).filter fun r => decide ((r.fields[1]?).map trimSpace = some [111])).map
        fun r => (hexValue r.first, hexValue (trimSpace ((r.fields[0]?).getD []))) := by
  obtain ⟨roots, ts, g1, g2, g3⟩ := parse_rows nd items h n hn
  rw [g1]
  simp only
  unfold bracketPairs
  rw [List.filterMap_append]
  have h1 : roots.filterMap (fun t : Token => if (t.field 2).map trimSpace = some [111] then some (t.runeFrom, readHexRune ((t.field 1).getD [])) else none) = [] := by
    rw [List.filterMap_eq_nil_iff]
    intro t ht
    rw [if_neg]
    unfold Token.field
    rw [g2 t ht, if_neg (by simp)]
    decide
  rw [h1, List.nil_append]
  clear h1 g1
  generalize rowsIn items = rs at g3 hx
  induction g3 with
  | nil => rfl
  | cons h _ ih =>
    rename_i r t rs ts _
    obtain ⟨⟨k, hk⟩, hf⟩ := h
    rw [List.filterMap_cons, ih fun r hr => hx r (by simp [hr])]
    have hfield : (t.field 2).map trimSpace = some [111] ↔ (r.fields[1]?).map trimSpace = some [111] := by
      cases hi : r.fields[1]? with
      | some f =>
        obtain ⟨g, e1, e2⟩ := hk.fields 1 f hi
        have e1 : t.field 2 = some g := e1
        have e2 : trimSpace g = trimSpace f := e2
        rw [e1, Option.map_some, Option.map_some, e2]
      | none =>
        have hl : r.fields.length ≤ 1 := List.getElem?_eq_none_iff.mp hi
        have : t.field 2 = some [] := by
          unfold Token.field
          rw [if_neg (by rw [hf, trimLast_length]; omega)]
        rw [this]
        simp
        decide
    by_cases hd : (r.fields[1]?).map trimSpace = some [111]
    · rw [if_pos (hfield.mpr hd), List.filter_cons_of_pos (by simpa using hd), List.map_cons]
      simp only
      congr 2
      · exact congrArg Prod.fst hk.range
      · have h0 : ∃ f, r.fields[0]? = some f := by
          cases hi : r.fields[1]? with
          | none => rw [hi] at hd; cases hd
          | some g =>
            have : 1 < r.fields.length := by
              rcases Nat.lt_or_ge 1 r.fields.length with h | h
              · exact h
              · rw [List.getElem?_eq_none h] at hi; cases hi
            exact ⟨_, List.getElem?_eq_getElem (by omega)⟩
        obtain ⟨f, hf0⟩ := h0
        obtain ⟨g, e1, e2⟩ := hk.fields 0 f hf0
        have e1 : t.field 1 = some g := e1
        have e2 : trimSpace g = trimSpace f := e2
        obtain ⟨hne, hhex⟩ := hx r (by simp) f hf0
        rw [e1, hf0]
        unfold readHexRune
        simp only [Option.getD_some]
        rw [e2]
        split
        · rename_i e; exact absurd e hne
        · rename_i s _
          rw [foldlM_hex hhex]
          rfl
    · rw [if_neg (fun e => hd (hfield.mp e)), List.filter_cons_of_neg (by simpa using hd)]

/-- A row of a line, for lines like those of BidiBrackets.txt. -/
def Ucd.readRow (l : Line) : Item :=
  if ignored l then .other l
  else
    let body := l.takeWhile (· != 35)
    .row ⟨l.takeWhile fun c => decide (IsHex c), none, [], (split 59 body).tail, if body.length < l.length then some (l.drop (body.length + 1)) else none⟩

/-- The pairs of brackets of package bidi are exactly those which the generator makes from the file BidiBrackets.txt of the repository. -/
theorem C61_bracket_file (nd : Nat → Bool) (n : Nat) (hn : 200 ≤ n) :
    bracketPairs (parse nd n bracketFile false).1 = Bidi.bracketPairs := by
  have hl : (bracketFile.map readRow).map Item.line = bracketFile := by decide +kernel
  have hlen : (bracketFile.map readRow).length + 2 ≤ n := by
    have : (bracketFile.map readRow).length + 2 ≤ 200 := by decide +kernel
    omega
  have hv : ∀ i ∈ bracketFile.map readRow, i.Valid := by
    have : (bracketFile.map readRow).all (fun i => match i with
      | .other l => ignored l
      | .row r => decide (r.first ≠ [] ∧ (∀ c ∈ r.first, IsHex c) ∧ hexValue r.first < 0x80000000) && decide (r.last = none) && decide (r.gap = []) &&
          decide (r.fields ≠ [] ∧ ∀ f ∈ r.fields, 59 ∉ f ∧ 35 ∉ f) && decide (r.fields.head? ≠ some []) && decide (35 ∉ r.comment.getD [])) = true := by
      decide +kernel
    intro i hi
    have := List.all_eq_true.mp this i hi
    cases i with
    | other l => exact (skipped_iff l).mp this
    | row r =>
      simp only [Bool.and_eq_true, decide_eq_true_eq] at this
      obtain ⟨⟨⟨⟨⟨h1, h2⟩, h3⟩, h4⟩, h5⟩, h6⟩ := this
      have g2 : ∀ h ∈ r.last, h ≠ [] ∧ (∀ c ∈ h, IsHex c) ∧ hexValue h < 0x80000000 := by
        rw [h2]
        exact fun h e => nomatch e
      have g6 : ∀ c ∈ r.comment, 35 ∉ c := by
        intro c hc
        rw [show r.comment = some c from hc] at h6
        exact h6
      exact ⟨h1, g2, by rw [h3]; simp, h4, fun _ => h5, g6⟩
  have := C61_brackets_partial nd (bracketFile.map readRow) hv n hlen (by decide +kernel)
  rw [hl] at this
  rw [this]
  decide +kernel

theorem Ucd.rowsIn_spelled {rs : List Row} {ts : List Token}
    (h : List.Forall₂ (fun (r : Row) (t : Token) => (∃ k, Tells t k r) ∧ t.fields = trimLast r.fields) rs ts) (hv : ∀ r ∈ rs, r.Valid) (cat s : Line) (hc : trimSpace s = cat)
    (hs : ∀ r ∈ rs, ∀ f ∈ r.fields[0]?, trimSpace f = cat → r.fields = [s]) (c : Nat) :
    c ∈ classRunes ts (rtrim s) ↔ ∃ r ∈ rs, (r.fields[0]?).map trimSpace = some cat ∧ r.range.1 ≤ c ∧ c ≤ r.range.2 := by
  induction h with
  | nil => simp [classRunes]
  | cons h _ ih =>
    rename_i r t rs ts _
    obtain ⟨⟨k, hk⟩, hf⟩ := h
    have ih := ih (fun r hr => hv r (by simp [hr])) fun r hr => hs r (by simp [hr])
    have hcons : classRunes (t :: ts) (rtrim s) =
        (if t.field 1 = some (rtrim s) then List.range' t.runeFrom (t.runeTo + 1 - t.runeFrom) else []) ++ classRunes ts (rtrim s) := rfl
    rw [hcons, List.mem_append, ih]
    have hkey : t.field 1 = some (rtrim s) ∧ r.fields ≠ [] ↔ (r.fields[0]?).map trimSpace = some cat := by
      constructor
      · rintro ⟨h1, h2⟩
        obtain ⟨f, hf0⟩ : ∃ f, r.fields[0]? = some f := by
          cases hr : r.fields with
          | nil => exact absurd hr h2
          | cons f fs => exact ⟨f, rfl⟩
        obtain ⟨g, e1, e2⟩ := hk.fields 0 f hf0
        have e1 : t.field 1 = some g := e1
        have e2 : trimSpace g = trimSpace f := e2
        rw [h1] at e1
        rw [hf0, Option.map_some, ← e2, ← Option.some.inj e1, trim_rtrim, hc]
      · intro h
        cases hr : r.fields[0]? with
        | none => rw [hr] at h; cases h
        | some f =>
          rw [hr, Option.map_some, Option.some.injEq] at h
          have e := hs r (by simp) f (by rw [hr]; rfl) h
          refine ⟨?_, by rw [e]; simp⟩
          unfold Token.field
          rw [hf, e]
          rfl
    have hrange : (∃ x ∈ r :: rs, (x.fields[0]?).map trimSpace = some cat ∧ x.range.1 ≤ c ∧ c ≤ x.range.2) ↔
        ((r.fields[0]?).map trimSpace = some cat ∧ r.range.1 ≤ c ∧ c ≤ r.range.2) ∨
          ∃ x ∈ rs, (x.fields[0]?).map trimSpace = some cat ∧ x.range.1 ≤ c ∧ c ≤ x.range.2 := by
      simp
    rw [hrange]
    refine or_congr ?_ Iff.rfl
    rw [← hkey, ← hk.range]
    unfold Token.range
    by_cases h1 : t.field 1 = some (rtrim s)
    · rw [if_pos h1, List.mem_range'_1]
      have hne : r.fields ≠ [] := (hv r (by simp)).fields.1
      simp only [h1, hne, true_and, ne_eq, not_false_eq_true]
      omega
    · rw [if_neg h1]
      simp [h1]

/-- **C61**, for the generators of classes: if a class is spelled in the same way in all of its rows and these have no other field, then
there is one list with exactly the code points of these rows. -/
theorem C61_classes_partial (nd : Nat → Bool) (items : List Item) (h : ∀ i ∈ items, i.Valid) (n : Nat) (hn : items.length + 2 ≤ n) (cat s : Line)
    (hc : trimSpace s = cat) (h0 : cat ≠ []) (hs : ∀ r ∈ rowsIn items, ∀ f ∈ r.fields[0]?, trimSpace f = cat → r.fields = [s]) :
    ∃ key, trimSpace key = cat ∧ ∀ c : Nat, c ∈ classRunes (parse nd n (items.map Item.line) false).1 key ↔
      ∃ r ∈ rowsIn items, (r.fields[0]?).map trimSpace = some cat ∧ r.range.1 ≤ c ∧ c ≤ r.range.2 := by
  obtain ⟨roots, ts, g1, g2, g3⟩ := parse_rows nd items h n hn
  refine ⟨rtrim s, by rw [trim_rtrim, hc], ?_⟩
  intro c
  rw [g1, ← rowsIn_spelled g3 (rowsIn_valid h) cat s hc hs c]
  have hr : classRunes roots (rtrim s) = [] := by
    unfold classRunes
    rw [List.flatMap_eq_nil_iff]
    intro t ht
    rw [if_neg]
    unfold Token.field
    rw [g2 t ht, if_neg (by simp)]
    intro e
    have : trimSpace (rtrim s) = trimSpace [] := by rw [← Option.some.inj e]
    rw [trim_rtrim, hc] at this
    exact h0 this
  have : classRunes (roots ++ ts) (rtrim s) = classRunes roots (rtrim s) ++ classRunes ts (rtrim s) := List.flatMap_append
  rw [this, hr]
  rfl

/-! ### What goes wrong -/

/-- If the first data line is indented by a space, it gets lost (and `Parse` returns an error). -/
theorem C61_indented_violated (nd : Nat → Bool) (before : List Line) (l : Line) (after : List Line) (hb : ∀ x ∈ before, Skipped x)
    (hl : ¬ Skipped l) (h32 : l.head? = some 32) (n : Nat) (hn : before.length + after.length + 3 ≤ n) :
    ∃ root ts err, parse nd n (before ++ l :: after) false = (root :: ts, .returned (some err)) ∧ root.fields = [] ∧
      ∀ t ∈ ts, before.length + 1 < t.lineNo := by
  have hd : ∀ k, dataLines k (before ++ l :: after) = (k + before.length + 1, l) :: dataLines (k + before.length + 1) after := by
    clear hn
    induction before with
    | nil =>
      intro k
      rw [List.nil_append, dataLines_cons, if_neg (by rw [skipped_iff]; exact hl)]
      simp
    | cons x before ih =>
      intro k
      rw [List.cons_append, dataLines_cons, if_pos ((skipped_iff x).mpr (hb x (by simp))), ih fun y hy => hb y (by simp [hy])]
      have e : k + 1 + before.length + 1 = k + (x :: before).length + 1 := by simp; omega
      rw [e]
  have hlen := dataLines_length (before ++ l :: after) 0
  simp only [List.length_append, List.length_cons] at hlen
  obtain ⟨root, ts, err, g1, g2, _, _, g3⟩ := ((parse_document nd _ n (by omega)).2 _ _ _ (hd 0)).2 h32
  refine ⟨root, ts, err, g1, g2, ?_⟩
  intro t ht
  obtain ⟨⟨j, l'⟩, hm, hf⟩ := forall₂_mem g3 ht
  have := ((dataLines_mem _ _ j l').mp hm).1
  rw [hf.line]
  simp only at this ⊢
  omega

/-- Runes of an ASCII string. -/
def Ucd.ascii (s : String) : Line := s.toList.map Char.toNat

/-- An empty first field gets lost: the fields of "0041;;Foo" are empty and "Foo", the token has "Foo" only. -/
theorem C61_empty_field_violated (nd : Nat → Bool) :
    ∃ root t, parse nd 3 [ascii "0041;;Foo"] false = ([root, t], .returned none) ∧ t.fields = [ascii "Foo"] := ⟨_, _, rfl, rfl⟩

/-- A code point at the end of a line loses its last digit: "0041" is read as code point 4. -/
theorem C61_last_digit_violated (nd : Nat → Bool) :
    ∃ root t, parse nd 3 [ascii "0041"] false = ([root, t], .returned none) ∧ t.range = (4, 4) := ⟨_, _, rfl, rfl⟩

/-- A comment ends at a second number sign. -/
theorem C61_comment_violated (nd : Nat → Bool) :
    ∃ root t, parse nd 3 [ascii "0041;A # b # c"] false = ([root, t], .returned none) ∧ t.comment = ascii "b" := ⟨_, _, rfl, rfl⟩

/-- The scanner after an error of the reader. -/
def Ucd.stuck (k : Nat) : Scanner :=
  ⟨⟨59, 0, 0, k, [], true, ascii "0041;A", some (ascii "0041;A"), [65], 0, some .io⟩, false, none⟩

theorem Ucd.stuck_next (nd : Nat → Bool) (k : Nat) : ∃ t, (stuck k).next nd = .token t (stuck (k + 1)) := ⟨_, rfl⟩

theorem Ucd.stuck_tokens (nd : Nat → Bool) (n k : Nat) : (tokens nd n (stuck k)).2 = .unfinished ∧ (tokens nd n (stuck k)).1.length = n := by
  induction n generalizing k with
  | zero => exact ⟨rfl, rfl⟩
  | succ n ih =>
    obtain ⟨t, ht⟩ := stuck_next nd k
    rw [tokens, ht]
    exact ⟨(ih (k + 1)).1, by simp [(ih (k + 1)).2]⟩

/-- When the reader fails after a first line, `Parse` never returns: it calls the callback again and again. -/
theorem C61_reader_error_violated (nd : Nat → Bool) (n : Nat) :
    (parse nd n [ascii "0041;A"] true).2 = .unfinished ∧ (parse nd n [ascii "0041;A"] true).1.length = n := by
  match n with
  | 0 => exact ⟨rfl, rfl⟩
  | 1 => exact ⟨rfl, rfl⟩
  | n + 2 =>
    have h1 : ∃ t sc, (newScanner [ascii "0041;A"] true).next nd = .token t sc ∧ ∃ t', sc.next nd = .token t' (stuck 2) := ⟨_, _, rfl, _, rfl⟩
    obtain ⟨t, sc, h1, t', h2⟩ := h1
    unfold parse
    rw [tokens, h1]
    simp only
    rw [tokens, h2]
    exact ⟨(stuck_tokens nd n 2).1, by simp [(stuck_tokens nd n 2).2]⟩

/-- When the reader fails before the first line, `Parse` panics. -/
theorem C61_reader_panic_violated (nd : Nat → Bool) (n : Nat) : parse nd (n + 1) [] true = ([], .panicked) := rfl

/-- The generator of tables panics for category field 1, the code points. -/
theorem C61_field_violated (nd : Nat → Bool) (cat : Line) : rowsOf 1 cat (parse nd 3 [ascii "0041;A"] false).1 = none := rfl

/-- The generators of classes always make a list for the empty class, with U+0000, from the token for the file; so the
Go source they write has a table without a name. -/
theorem C61_classes_violated (nd : Nat → Bool) : classRunes (parse nd 3 [ascii "000D ; CR # c"] false).1 [] = [0] := rfl

/-! ### Test files -/

/-- **C62**: a file of comments and test cases, in any layout, gives exactly its test cases, in order: the text of each one, and its
segments. -/
theorem C62_cases_partial (ls : List TestLine) (h : ∀ l ∈ ls, l.Valid) (n : Nat) (hn : ls.length < n) :
    runTests n (openTestFile (ls.map TestLine.line)) = testCases ls := runTests_eq ls n _ h rfl hn

/-- One test case. -/
theorem C62_segments_partial (c : TestCase) (h : c.Valid) (text : Line) (ht : Spaced text c.words) : breakTestInput text = c.meaning :=
  breakTestInput_words c h text (spaced_words ht)

/-- For a blank line, the test before it is run again. -/
theorem C62_blank_violated (c : TestCase) (h : c.Valid) (text : Line) (cm : Option Line) (ht : Spaced text c.words) :
    runTests 3 (openTestFile [(TestLine.test c text cm).line, []]) = [c.meaning, c.meaning] := by
  obtain ⟨tf', h1, h2, h3⟩ := scan_go_test c text cm [[]] (openTestFile [(TestLine.test c text cm).line, []]) ⟨h, ht⟩
  have e : (openTestFile [(TestLine.test c text cm).line, []]).scan = (tf', true) := h1
  rw [runTests, e]
  simp only
  rw [breakTestInput_words c h _ h3]
  have e2 : tf'.scan = ({ tf' with input := [] }, true) := by
    unfold TestFile.scan
    rw [h2]
    rfl
  rw [runTests, e2]
  simp only
  rw [breakTestInput_words c h tf'.text h3]
  rfl

/-- Without ÷ at its end, the last segment of a text gets lost. -/
theorem C62_end_violated : breakTestInput (0xf7 :: ascii " 0041 " ++ 0xf7 :: ascii " 0042") = ([65, 66], [[65]]) := rfl

/-! ### Examples -/

/-- A file with two comments, a blank line and three rows; the last one has no comment. -/
def Ucd.exampleItems : List Item :=
  [.other (ascii "# LineBreak.txt"), .other [],
   .row ⟨ascii "0041", some (ascii "005A"), ascii "   ", [ascii " AL "], some (ascii " Lu [26] LATIN CAPITAL LETTER A..Z")⟩,
   .other (ascii "  # more"),
   .row ⟨ascii "1F600", none, [], [ascii " ID ", ascii "x"], some []⟩,
   .row ⟨ascii "00a0", none, [32], [ascii "GL"], none⟩]

theorem Ucd.exampleItems_valid : ∀ i ∈ exampleItems, i.Valid := by
  have hv : ∀ f : Line, f ∈ [ascii "0041", ascii "005A", ascii "1F600", ascii "00a0"] → f ≠ [] ∧ (∀ c ∈ f, IsHex c) ∧ hexValue f < 0x80000000 := by decide
  intro i hi
  simp only [exampleItems, List.mem_cons, List.not_mem_nil, or_false] at hi
  rcases hi with rfl | rfl | rfl | rfl | rfl | rfl
  · exact ⟨[], by simp, .inr ⟨ascii " LineBreak.txt", rfl⟩⟩
  · exact ⟨[], by simp, .inl rfl⟩
  · exact ⟨hv _ (by decide), fun h e => hv h (by cases e; decide), by decide, by decide, by decide, fun c e => by cases e; decide⟩
  · exact ⟨[32, 32], by decide, .inr ⟨ascii " more", rfl⟩⟩
  · exact ⟨hv _ (by decide), (fun h e => nomatch e), by decide, by decide, by decide, fun c e => by cases e; decide⟩
  · exact ⟨hv _ (by decide), (fun h e => nomatch e), by decide, by decide, by decide, (fun c e => nomatch e)⟩

example (nd : Nat → Bool) : rowsOf 2 (ascii "AL") (parse nd 8 (exampleItems.map Item.line) false).1 = some [(0x41, 0x5a)] := by
  rw [show (2 : Int) = ((0 : Nat) : Int) + 2 from rfl, C61_tables_partial nd exampleItems exampleItems_valid 8 (by decide) 0 (ascii "AL") (by decide)]
  decide

example : NotIndented (exampleItems.map Item.line) ∧ ∃ l ∈ exampleItems.map Item.line, ¬ Skipped l := by
  constructor
  · intro before l after e _ hs
    have hm : l ∈ exampleItems.map Item.line := by rw [e]; simp
    simp only [exampleItems, List.map_cons, List.map_nil, List.mem_cons, List.not_mem_nil, or_false] at hm
    rcases hm with rfl | rfl | rfl | rfl | rfl | rfl
    · decide
    · decide
    · decide
    · exact absurd ⟨[32, 32], by decide, .inr ⟨ascii " more", rfl⟩⟩ hs
    · decide
    · decide
  · exact ⟨Row.line ⟨ascii "00a0", none, [32], [ascii "GL"], none⟩, by simp [exampleItems, Item.line], by rw [← skipped_iff]; decide⟩

/-- Brackets. -/
example (nd : Nat → Bool) : bracketPairs (parse nd 4 [ascii "0028; 0029; o # (", ascii "0029; 0028; c # )"] false).1 = [(0x28, 0x29)] := by
  have h := C61_brackets_partial nd [.row ⟨ascii "0028", none, [], [ascii " 0029", ascii " o "], some (ascii " (")⟩,
    .row ⟨ascii "0029", none, [], [ascii " 0028", ascii " c "], some (ascii " )")⟩] (by
      intro i hi
      simp only [List.mem_cons, List.not_mem_nil, or_false] at hi
      rcases hi with rfl | rfl
      · exact ⟨by decide, (fun h e => nomatch e), by decide, by decide, by decide, fun c e => by cases e; decide⟩
      · exact ⟨by decide, (fun h e => nomatch e), by decide, by decide, by decide, fun c e => by cases e; decide⟩) 4 (by decide) (by decide)
  exact h

/-- Lines with three kinds of ends, in pieces which split CR LF. -/
example : linesOf [[65, 13], [10, 66], [], [13, 67, 10, 68]] = [[65], [66], [67], [68]] :=
  C61_lines [([65], .crlf), ([66], .cr), ([67], .lf), ([68], .eof)] (by simp [WellEnded, document, Term.bytes]) _ rfl

/-- A test file with a comment and two tests. -/
example : runTests 4 (openTestFile [ascii "# c", 0xf7 :: ascii " 0041 " ++ 0xd7 :: ascii " 0308 " ++ 0xf7 :: ascii " 0020 " ++ 0xf7 :: ascii "\t# [0.2]",
    0xd7 :: ascii " 1F600 " ++ [0xf7]]) = [([0x41, 0x308, 0x20], [[0x41, 0x308], [0x20]]), ([0x1f600], [[0x1f600]])] := by
  have hcp : ∀ w : Line, w ∈ [ascii "0041", ascii "0308", ascii "0020", ascii "1F600"] → CodePoint w := by
    intro w hw
    simp only [List.mem_cons, List.not_mem_nil, or_false] at hw
    unfold CodePoint
    rcases hw with rfl | rfl | rfl | rfl <;> decide
  refine C62_cases_partial [.comment (ascii " c"),
    .test ⟨0xf7, [[ascii "0041", ascii "0308"], [ascii "0020"]]⟩ (0xf7 :: ascii " 0041 " ++ 0xd7 :: ascii " 0308 " ++ 0xf7 :: ascii " 0020 " ++ 0xf7 :: [9])
      (some (ascii " [0.2]")),
    .test ⟨0xd7, [[ascii "1F600"]]⟩ (0xd7 :: ascii " 1F600 " ++ [0xf7]) none] ?_ 4 (by decide)
  intro l hl
  simp only [List.mem_cons, List.not_mem_nil, or_false] at hl
  rcases hl with rfl | rfl | rfl
  · trivial
  · refine ⟨⟨.inl rfl, ?_⟩, ?_⟩
    · intro s hs
      simp only [List.mem_cons, List.not_mem_nil, or_false] at hs
      rcases hs with rfl | rfl
      · exact ⟨by simp, fun w hw => hcp w (by revert w; decide)⟩
      · exact ⟨by simp, fun w hw => hcp w (by revert w; decide)⟩
    · refine .word [] [0xf7] 32 _ _ (by simp) (by decide) rfl ?_
      refine .word [32] (ascii "0041") 32 _ _ (by decide) (by decide) rfl ?_
      refine .word [32] [0xd7] 32 _ _ (by decide) (by decide) rfl ?_
      refine .word [32] (ascii "0308") 32 _ _ (by decide) (by decide) rfl ?_
      refine .word [32] [0xf7] 32 _ _ (by decide) (by decide) rfl ?_
      refine .word [32] (ascii "0020") 32 _ _ (by decide) (by decide) rfl ?_
      refine .word [32] [0xf7] 9 _ _ (by decide) (by decide) rfl ?_
      exact .blank _ (by decide)
  · refine ⟨⟨.inr rfl, ?_⟩, ?_⟩
    · intro s hs
      simp only [List.mem_cons, List.not_mem_nil, or_false] at hs
      subst hs
      exact ⟨by simp, fun w hw => hcp w (by revert w; decide)⟩
    · refine .word [] [0xd7] 32 _ _ (by simp) (by decide) rfl ?_
      refine .word [32] (ascii "1F600") 32 _ _ (by decide) (by decide) rfl ?_
      exact .last [32] [0xf7] (by decide) (by decide)

end Uax
