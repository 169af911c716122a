/-
Model of the rule dictionary of the bidi resolver: the packed hash trie of
/repo/bidi/trie/hashtrie.go and its use in /repo/bidi/resolver.go.

Conventions: `pointer` (uint8) and `category` (int8) are bytes, that is natural
numbers below 256 with explicit wrap-around; an index out of range and an
explicit panic are `none`.
-/
namespace Uax.Bidi

/-- bidi.Class of golang.org/x/text/unicode/bidi, a number, used as in scanner.go:414-420. -/
abbrev Class := Nat

/- The classes of golang.org/x/text/unicode/bidi in the order of their
numbers, and the classes added in /repo/bidi/scanner.go:414-420. -/
def cL : Class := 0
def cR : Class := 1
def cEN : Class := 2
def cES : Class := 3
def cET : Class := 4
def cAN : Class := 5
def cCS : Class := 6
def cB : Class := 7
def cS : Class := 8
def cWS : Class := 9
def cON : Class := 10
def cBN : Class := 11
def cNSM : Class := 12
def cAL : Class := 13
def cLRI : Class := 21
def cRLI : Class := 22
def cFSI : Class := 23
def cPDI : Class := 24
/-- scanner.go:414-420, and the classes of x/text/unicode/bidi. -/
def cBRACKO : Class := 25
/-- scanner.go:414-420, and the classes of x/text/unicode/bidi. -/
def cBRACKC : Class := 26
/-- scanner.go:414-420, and the classes of x/text/unicode/bidi. -/
def cNI : Class := 27
/-- scanner.go:414-420, and the classes of x/text/unicode/bidi. -/
def cMAX : Class := 28
/-- scanner.go:414-420, and the classes of x/text/unicode/bidi. -/
def cNULL : Class := 999

/-- TinyHashTrie, /repo/bidi/trie/hashtrie.go:19-29 -/
structure Trie where
  frozen : Bool
  headercode : Nat
  span : Nat
  alpha : Nat
  size : Nat
  catcnt : Nat
  link : List Nat
  sibling : List Nat
  ch : List Nat
deriving DecidableEq, Repr

/-- NewTinyHashTrie with setInitialValues, hashtrie.go:33-61.
`math.Round(0.61803 * size)` is computed with integers. -/
def Trie.new (size catcnt : Nat) : Option Trie :=
  if catcnt > 50 then none
  else
    let n := catcnt + 1
    some {
      frozen := false
      headercode := n + 1
      span := size - 2 * n
      alpha := (61803 * size + 50000) / 100000
      size := size
      catcnt := n
      link := List.replicate size 0
      sibling := (List.range size).map fun i =>
        if i = 0 then n else if i ≤ n then i - 1 else 0
      ch := (List.range size).map fun i =>
        if i = 0 then n + 1 else if i ≤ n then i else 0 }

/-- trie.correct, hashtrie.go:222-227; `c` is a byte. -/
def Trie.correct (t : Trie) (c : Nat) : Nat := if c = 0 then t.catcnt - 1 else c

/-- Next trial header location of insertFirstbornChildAndProgress,
hashtrie.go:109-113 -/
def Trie.nextTrial (t : Trie) (h : Nat) : Nat :=
  if h = t.size - t.catcnt then t.catcnt + 1 else (h + 1) % 256

/-- The search loop of insertFirstbornChildAndProgress, hashtrie.go:106-123;
the first argument counts the remaining trys. -/
def Trie.findHome (t : Trie) (c : Nat) : Nat → Nat → Option Nat
  | 0, _ => none
  | k + 1, h => do
    let h := t.nextTrial h
    let a ← t.ch[h]?
    let b ← t.ch[(h + c) % 256]?
    if a = 0 ∧ b = 0 then pure h else t.findHome c k h

/-- `h = x + pointer(catcnt) + 1` with the check of the invariant,
hashtrie.go:101-105 -/
def Trie.nominal (t : Trie) (n : Nat) : Option Nat :=
  let x := (n % 256) * t.alpha % 256 % t.span
  let h := (x + t.catcnt + 1) % 256
  if h ≤ t.catcnt ∨ h > t.size + t.catcnt then none else some h

/-- Store at an index, as in hashtrie.go:120-190; panics when out of range. -/
def put (l : List Nat) (i v : Nat) : Option (List Nat) :=
  if i < l.length then some (l.set i v) else none

/-- insertFirstbornChildAndProgress, hashtrie.go:99-130 -/
def Trie.insertFirst (t : Trie) (p c n : Nat) : Option (Nat × Trie) := do
  let h ← t.nominal n
  let h ← t.findHome c 60 h
  let link ← put t.link p h
  let link ← put link h p
  let q := (h + c) % 256
  let ch ← put t.ch h t.headercode
  let ch ← put ch q c
  let sibling ← put t.sibling h q
  let sibling ← put sibling q h
  let link ← put link q 0
  pure (q, { t with link := link, ch := ch, sibling := sibling })

/-- The search loop of insertChildIntoFamily, hashtrie.go:134-137; the fuel is
the table size, which no chain of descending siblings exceeds. -/
def Trie.findElder (t : Trie) (q : Nat) : Nat → Nat → Option Nat
  | 0, _ => none
  | k + 1, h => do
    let s ← t.sibling[h]?
    if s > q then t.findElder q k s else pure h

/-- insertChildIntoFamily, hashtrie.go:133-143 -/
def Trie.insertChild (t : Trie) (p q c : Nat) : Option (Nat × Trie) := do
  let h ← t.link[p]?
  let h ← t.findElder q (t.size + 1) h
  let s ← t.sibling[h]?
  let sibling ← put t.sibling q s
  let sibling ← put sibling h q
  let ch ← put t.ch q c
  let link ← put t.link q 0
  pure (q, { t with link := link, ch := ch, sibling := sibling })

/-- The walk over the family in moveFamily, hashtrie.go:175-178 -/
def Trie.fitLoop (t : Trie) (head delta : Nat) : Nat → Nat → Option Nat
  | 0, _ => none
  | k + 1, r => do
    let a ← t.ch[(r + delta) % 256]?
    let s ← t.sibling[r]?
    if a = 0 ∧ s ≠ head then t.fitLoop head delta k s else pure r

/-- The search for a new home in moveFamily, hashtrie.go:160-186 -/
def Trie.moveHome (t : Trie) (p c : Nat) : Nat → Nat → Option Nat
  | 0, _ => none
  | k + 1, h => do
    let h := if h < t.size - t.catcnt then h + 1 else t.catcnt + 1
    let a ← t.ch[(h + c) % 256]?
    if a ≠ 0 then t.moveHome p c k h
    else
      let head ← t.link[p]?
      let delta := (h + 256 - head) % 256
      let r ← t.fitLoop head delta (t.size + 1) head
      let b ← t.ch[(r + delta) % 256]?
      if b = 0 then pure h else t.moveHome p c k h

/-- The move of the members of a family, hashtrie.go:190-202 -/
def Trie.moveLoop (delta : Nat) : Nat → Trie → Nat → Option Trie
  | 0, _, _ => none
  | k + 1, t, r => do
    let d := (r + delta) % 256
    let s ← t.sibling[r]?
    let sibling ← put t.sibling d ((s + delta) % 256)
    let c ← t.ch[r]?
    let ch ← put t.ch d c
    let ch ← put ch r 0
    let l ← t.link[r]?
    let link ← put t.link d l
    let link ← if l ≠ 0 then put link l d else pure link
    let t := { t with sibling := sibling, ch := ch, link := link }
    let r ← t.sibling[r]?
    let c ← t.ch[r]?
    if c = 0 then pure t else Trie.moveLoop delta k t r

/-- moveFamily, hashtrie.go:145-204 -/
def Trie.moveFamily (t : Trie) (p c n : Nat) : Option (Nat × Nat × Trie) := do
  let h ← t.nominal n
  let h ← t.moveHome p c 60 h
  let head ← t.link[p]?
  let t ← Trie.moveLoop ((h + 256 - head) % 256) (t.size + 1) t head
  pure (p, (h + c) % 256, t)

/-- advanceToChild, hashtrie.go:77-97 -/
def Trie.advance (t : Trie) (p c n : Nat) : Option (Nat × Trie) := do
  let l ← t.link[p]?
  if l = 0 then
    if t.frozen then pure (0, t) else t.insertFirst p c n
  else
    let q := (l + c) % 256
    let a ← t.ch[q]?
    if a ≠ c then
      if t.frozen then pure (0, t)
      else if a ≠ 0 then
        let (p, q, t) ← t.moveFamily p c n
        t.insertChild p q c
      else t.insertChild p q c
    else pure (q, t)

/-- The loop of AllocPositionForWord, hashtrie.go:68-73 -/
def Trie.allocLoop (t : Trie) (p n : Nat) : List Nat → Option (Nat × Trie)
  | [] => some (p, t)
  | b :: rest => do
    let (p, t) ← t.advance p (t.correct b) n
    t.allocLoop p (n + 1) rest

/-- AllocPositionForWord, hashtrie.go:65-75 -/
def Trie.alloc (t : Trie) : List Nat → Option (Nat × Trie)
  | [] => none
  | b :: rest => t.allocLoop (t.correct b) 1 rest

/-- Freeze, hashtrie.go:207-210; the siblings are dropped there, no lookup
reads them. -/
def Trie.freeze (t : Trie) : Trie := { t with frozen := true, sibling := [] }

/-- Iterator, hashtrie.go:232-236; `trie = nil` is `ended`. -/
structure Iter where
  trie : Trie
  position : Nat
  started : Bool
  ended : Bool

/-- TinyHashTrie.Iterator, hashtrie.go:214-220 -/
def Trie.iterator (t : Trie) : Iter := ⟨t, 0, false, false⟩

/-- Iterator.Next, hashtrie.go:240-256; `c` is the byte of the class. -/
def Iter.next (it : Iter) (c : Nat) : Option (Nat × Iter) := do
  if it.ended then pure (0, it)
  else if !it.started then
    let p := it.trie.correct c
    let a ← it.trie.ch[p]?
    pure (a, { it with position := p, started := true })
  else
    let (p, t) ← it.trie.advance it.position (it.trie.correct c) 1
    pure (p, { it with trie := t, position := p, ended := p = 0 })

/-! ### The rules and their left-hand sides -/

/-- The rules of /repo/bidi/actions.go in the order of their allocation in
/repo/bidi/resolver.go:507-554. -/
inductive Rule
  | W4_1 | W4_2 | W4_3 | W5_1 | W5_2 | W6_1 | W6_2 | W6_3 | W6x | W7
  | N1_1 | N1_2 | N1_3 | N1_4 | N1_5 | N1_6 | N1_7 | N1_8 | N1_9 | N1_10
  | N2 | LL | RR
deriving DecidableEq, Repr

/-- The order of allocation, resolver.go:507-554 -/
def allRules : List Rule :=
  [.W4_1, .W4_2, .W4_3, .W5_1, .W5_2, .W6_1, .W6_2, .W6_3, .W6x, .W7,
   .N1_1, .N1_2, .N1_3, .N1_4, .N1_5, .N1_6, .N1_7, .N1_8, .N1_9, .N1_10,
   .N2, .LL, .RR]

/-- The left-hand sides given to makeLHS in /repo/bidi/actions.go:70-284 -/
def Rule.lhs : Rule → List Class
  | .W4_1 => [cEN, cES, cEN]
  | .W4_2 => [cEN, cCS, cEN]
  | .W4_3 => [cAN, cCS, cAN]
  | .W5_1 => [cET, cEN]
  | .W5_2 => [cEN, cET]
  | .W6_1 => [cET]
  | .W6_2 => [cES]
  | .W6_3 => [cCS]
  | .W6x => [cNI, cNI]
  | .W7 => [cEN]
  | .N1_1 => [cL, cNI, cL]
  | .N1_2 => [cR, cNI, cR]
  | .N1_3 => [cR, cNI, cAN]
  | .N1_4 => [cR, cNI, cEN]
  | .N1_5 => [cAN, cNI, cR]
  | .N1_6 => [cAN, cNI, cAN]
  | .N1_7 => [cAN, cNI, cEN]
  | .N1_8 => [cEN, cNI, cR]
  | .N1_9 => [cEN, cNI, cAN]
  | .N1_10 => [cEN, cNI, cEN]
  | .N2 => [cNI]
  | .LL => [cL, cL]
  | .RR => [cR, cR]

/-- rules, the array of resolver.go:491 -/
abbrev RuleArray := List (Option Rule)

/-- allocRule, resolver.go:565-570 -/
def allocRule (s : Trie × RuleArray) (r : Rule) : Option (Trie × RuleArray) := do
  let (p, t) ← s.1.alloc (r.lhs.map (· % 256))
  if p < s.2.length then pure (t, s.2.set p (some r)) else none

/-- resolver.go:500-560: allocation of a list of rules. -/
def allocRules : Trie × RuleArray → List Rule → Option (Trie × RuleArray)
  | s, [] => some s
  | s, r :: rs => do allocRules (← allocRule s r) rs

/-- dictsize, resolver.go:489 -/
def dictsize : Nat := 103

/-- prepareRulesTrie, resolver.go:495-563: the frozen trie and the rules. -/
def prepareRules : Option (Trie × RuleArray) := do
  let t ← Trie.new dictsize cMAX
  let (t, rs) ← allocRules (t, List.replicate dictsize none) allRules
  pure (t.freeze, rs)

/-- The loop of matchRulesLHS, resolver.go:371-382; `k` counts the scraps. -/
def matchLoop (minlen : Nat) : Iter → Nat → Nat → Nat → List Class → Option (Nat × Nat)
  | _, _, entry, short, [] => some (entry, short)
  | it, k, entry, short, c :: rest => do
    let (p, it) ← it.next (c % 256)
    if p = 0 then pure (entry, short)
    else if k = 0 then matchLoop minlen it (k + 1) entry p rest
    else if k + 1 ≥ minlen then matchLoop minlen it (k + 1) p short rest
    else matchLoop minlen it (k + 1) entry short rest

/-- matchRulesLHS, resolver.go:367-399, on the classes of the scraps: the long
rule and the short rule. (`rules[0]` is looked up for entry = 0 but discarded
in the branches of lines 390-398.) -/
def matchRules (t : Trie) (rs : RuleArray) (cs : List Class) (minlen : Nat) :
    Option (Option Rule × Option Rule) := do
  let (entry, short) ← matchLoop minlen t.iterator 0 0 0 cs
  let rule ← rs[entry]?
  let shortrule ← rs[short]?
  pure (if entry = 0 then none else rule, if short = 0 then none else shortrule)

end Uax.Bidi
