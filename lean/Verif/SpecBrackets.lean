import Verif.SpecBidiText

/-
Specification: rule BD16 of UAX#9, the pairs of brackets of an isolating run
sequence.
-/
namespace Uax.Bidi.Spec

/-- The paired brackets of Unicode (BidiBrackets.txt, before version 14). -/
def pairedBrackets : List (Nat × Nat) :=
  [(0x28, 0x29), (0x5B, 0x5D), (0x7B, 0x7D), (0xF3A, 0xF3B), (0xF3C, 0xF3D), (0x169B, 0x169C), (0x2045, 0x2046),
   (0x207D, 0x207E), (0x208D, 0x208E), (0x2308, 0x2309), (0x230A, 0x230B), (0x2329, 0x232A), (0x2768, 0x2769),
   (0x276A, 0x276B), (0x276C, 0x276D), (0x276E, 0x276F), (0x2770, 0x2771), (0x2772, 0x2773), (0x2774, 0x2775),
   (0x27C5, 0x27C6), (0x27E6, 0x27E7), (0x27E8, 0x27E9), (0x27EA, 0x27EB), (0x27EC, 0x27ED), (0x27EE, 0x27EF),
   (0x2983, 0x2984), (0x2985, 0x2986), (0x2987, 0x2988), (0x2989, 0x298A), (0x298B, 0x298C), (0x298D, 0x2990),
   (0x298F, 0x298E), (0x2991, 0x2992), (0x2993, 0x2994), (0x2995, 0x2996), (0x2997, 0x2998), (0x29D8, 0x29D9),
   (0x29DA, 0x29DB), (0x29FC, 0x29FD), (0x2E22, 0x2E23), (0x2E24, 0x2E25), (0x2E26, 0x2E27), (0x2E28, 0x2E29),
   (0x3008, 0x3009), (0x300A, 0x300B), (0x300C, 0x300D), (0x300E, 0x300F), (0x3010, 0x3011), (0x3014, 0x3015),
   (0x3016, 0x3017), (0x3018, 0x3019), (0x301A, 0x301B), (0xFE59, 0xFE5A), (0xFE5B, 0xFE5C), (0xFE5D, 0xFE5E),
   (0xFF08, 0xFF09), (0xFF3B, 0xFF3D), (0xFF5B, 0xFF5D), (0xFF5F, 0xFF60), (0xFF62, 0xFF63)]

/-- The tables know exactly these brackets. -/
def BracketTable (T : Tables) : Prop := ∀ r,
  (T.bracket r = some true ↔ ∃ c, (r, c) ∈ pairedBrackets) ∧ (T.bracket r = some false ↔ ∃ p, (p, r) ∈ pairedBrackets)

/-- A bracket of a text, with its position. An opening one comes with the closing
bracket that belongs to it. -/
inductive Bracket
  | opening (closer pos : Nat)
  | closing (r pos : Nat)
deriving DecidableEq, Repr

/-- The brackets of a text that begins at a byte position. -/
def bracketsOf (T : Tables) (o : Options) : Nat → List Char → List Bracket
  | _, [] => []
  | pos, c :: t =>
    let rest := bracketsOf T o (pos + (utf8 [c]).length) t
    if charClass T o c = cBRACKO then
      (match pairedBrackets.find? (fun p => p.1 == c.toNat) with
       | some p => .opening p.2 pos :: rest
       | none => rest)
    else if charClass T o c = cBRACKC then .closing c.toNat pos :: rest
    else rest

/-- The canonical equivalents of U+2329 and U+232A. -/
def canonical (r : Nat) : Nat := if r = 0x2329 then 0x3008 else if r = 0x232A then 0x3009 else r

/-- The pairs of positions. The stack has the nearest opening bracket first and is
for 63 entries. An opening bracket is pushed; if there is no room, processing ends.
A closing bracket is paired with the nearest opening one that it matches, which
is popped with all nearer ones.
With `std = false` opening brackets are skipped while there is no room, and
canonical equivalents do not match. -/
def bd16 (std : Bool) : List (Nat × Nat) → List Bracket → List (Nat × Nat)
  | _, [] => []
  | stack, .opening c pos :: rest =>
    if stack.length < 63 then bd16 std ((c, pos) :: stack) rest
    else if std then [] else bd16 std stack rest
  | stack, .closing r pos :: rest =>
    match stack.dropWhile (fun x => if std then canonical x.1 ≠ canonical r else x.1 ≠ r) with
    | (_, p) :: below => (p, pos) :: bd16 std below rest
    | [] => bd16 std stack rest

/-- There is always room on the stack. -/
def NeverFull : List (Nat × Nat) → List Bracket → Prop
  | _, [] => True
  | stack, .opening c pos :: rest => stack.length < 63 ∧ NeverFull ((c, pos) :: stack) rest
  | stack, .closing r _ :: rest =>
    match stack.dropWhile (fun x => x.1 ≠ r) with
    | _ :: below => NeverFull below rest
    | [] => NeverFull stack rest

/-- A bracket, an isolate initiator or a PDI of a text. -/
inductive Mark
  | bracket (b : Bracket)
  | initiator (pos : Nat)
  | pdi (pos : Nat)
deriving DecidableEq, Repr

/-- The marks of a text that begins at a byte position. -/
def marksOf (T : Tables) (o : Options) : Nat → List Char → List Mark
  | _, [] => []
  | pos, c :: t =>
    let here := if charClass T o c ∈ [cLRI, cRLI, cFSI] then [.initiator pos]
      else if charClass T o c = cPDI then [.pdi pos]
      else (bracketsOf T o pos [c]).map .bracket
    here ++ marksOf T o (pos + (utf8 [c]).length) t

/-- The brackets of a text, each with the number of its isolating run sequence (BD13). The
sequence outside of all isolates is number 0; others are numbered in the order of their
initiators. `n` is the next number, and `open` are the sequences which have not ended, with the
present one first. -/
def numbered : Nat → List Nat → List Mark → List (Nat × Bracket)
  | _, _, [] => []
  | n, k :: ks, .bracket b :: rest => (k, b) :: numbered n (k :: ks) rest
  | n, ks, .initiator _ :: rest => numbered (n + 1) (n :: ks) rest
  | n, _ :: k :: ks, .pdi _ :: rest => numbered n (k :: ks) rest
  | n, ks, _ :: rest => numbered n ks rest

/-- The brackets of a sequence. -/
def sequence (k : Nat) (l : List (Nat × Bracket)) : List Bracket := (l.filter fun x => x.1 == k).map (·.2)

/-- The brackets of the k-th isolating run sequence of a text. -/
def sequenceOf (T : Tables) (o : Options) (t : List Char) (k : Nat) : List Bracket := sequence k (numbered 1 [0] (marksOf T o 0 t))

/-- The number of initiators. -/
def initiators : List Mark → Nat
  | [] => 0
  | .initiator _ :: rest => initiators rest + 1
  | _ :: rest => initiators rest

/-- Every PDI has an initiator before it; `d` are open. -/
def PdiMatched : Nat → List Mark → Prop
  | _, [] => True
  | d, .initiator _ :: rest => PdiMatched (d + 1) rest
  | d, .pdi _ :: rest => 0 < d ∧ PdiMatched (d - 1) rest
  | d, .bracket _ :: rest => PdiMatched d rest

/-- U+2329 and U+232A do not occur. -/
def NoAngle (t : List Char) : Prop := ∀ c ∈ t, c.toNat ≠ 0x2329 ∧ c.toNat ≠ 0x232A

end Uax.Bidi.Spec
