import Verif.Bidi

/-
Model of /repo/bidi/brackets.go and bracketpairs.go: the pairs of brackets of
an isolating run sequence, rule BD16 of UAX#9.
-/
namespace Uax.Bidi

/-- uax9BracketPairs, bracketpairs.go:11-72: opening and closing code point. -/
def bracketPairs : List (Nat × Nat) :=
  [(0x0028, 0x0029), (0x005B, 0x005D), (0x007B, 0x007D), (0x0F3A, 0x0F3B),
   (0x0F3C, 0x0F3D), (0x169B, 0x169C), (0x2045, 0x2046), (0x207D, 0x207E),
   (0x208D, 0x208E), (0x2308, 0x2309), (0x230A, 0x230B), (0x2329, 0x232A),
   (0x2768, 0x2769), (0x276A, 0x276B), (0x276C, 0x276D), (0x276E, 0x276F),
   (0x2770, 0x2771), (0x2772, 0x2773), (0x2774, 0x2775), (0x27C5, 0x27C6),
   (0x27E6, 0x27E7), (0x27E8, 0x27E9), (0x27EA, 0x27EB), (0x27EC, 0x27ED),
   (0x27EE, 0x27EF), (0x2983, 0x2984), (0x2985, 0x2986), (0x2987, 0x2988),
   (0x2989, 0x298A), (0x298B, 0x298C), (0x298D, 0x2990), (0x298F, 0x298E),
   (0x2991, 0x2992), (0x2993, 0x2994), (0x2995, 0x2996), (0x2997, 0x2998),
   (0x29D8, 0x29D9), (0x29DA, 0x29DB), (0x29FC, 0x29FD), (0x2E22, 0x2E23),
   (0x2E24, 0x2E25), (0x2E26, 0x2E27), (0x2E28, 0x2E29), (0x3008, 0x3009),
   (0x300A, 0x300B), (0x300C, 0x300D), (0x300E, 0x300F), (0x3010, 0x3011),
   (0x3014, 0x3015), (0x3016, 0x3017), (0x3018, 0x3019), (0x301A, 0x301B),
   (0xFE59, 0xFE5A), (0xFE5B, 0xFE5C), (0xFE5D, 0xFE5E), (0xFF08, 0xFF09),
   (0xFF3B, 0xFF3D), (0xFF5B, 0xFF5D), (0xFF5F, 0xFF60), (0xFF62, 0xFF63)]

/-- brktpos, brackets.go:78-82 -/
structure BrktPos where
  opening : Scrap
  pair : Nat × Nat
deriving Repr, Inhabited

/-- pairing, brackets.go:86-89 -/
structure Pairing where
  opening : Scrap
  pair : Nat × Nat
  closing : Scrap
deriving Repr, Inhabited

/-- bracketPairHandler, brackets.go:67-74, without its mutex. Handlers are kept
in a list, `next` is an index into it. The top of the bracket stack is the last
element. -/
structure Handler where
  stack : List BrktPos := []
  pairings : List Pairing := []
  next : Option Nat := none
  firstpos : Nat := 0
  lastpos : Nat := 0
deriving Repr, Inhabited

/-- BD16MaxNesting, brackets.go:9 -/
def maxNesting : Nat := 63

/-- bracketStack.push, brackets.go:135-152 -/
def pushStack (bs : List BrktPos) (r : Nat) (s : Scrap) : Bool × List BrktPos :=
  if bs.length ≥ maxNesting then (false, bs)
  else if s.clz ≠ cBRACKO then (false, bs)
  else match bracketPairs.find? (fun p => p.1 == r) with
    | some p => (true, bs ++ [⟨s, p⟩])
    | none => (false, bs)

/-- The loop of bracketStack.popWith, brackets.go:161-170, with the stack given
from its top: the entry found and what is below it. -/
def popLoop (b : Nat) : List BrktPos → Option (BrktPos × List BrktPos)
  | [] => none
  | t :: below => if t.pair.2 = b then some (t, below) else popLoop b below

/-- bracketStack.popWith, brackets.go:156-171 -/
def popWith (bs : List BrktPos) (b : Nat) : Option (BrktPos × List BrktPos) :=
  (popLoop b bs.reverse).map fun (t, below) => (t, below.reverse)

/-- The index computed by the loop of findPair, brackets.go:123-130 -/
def insertIndex (opening : Nat) : Nat → Nat → List Pairing → Nat
  | inx, _, [] => inx
  | inx, i, p :: rest => insertIndex opening (if opening < p.opening.l then i else inx) (i + 1) rest

/-- pushOpening, brackets.go:108-112 -/
def Handler.pushOpening (h : Handler) (r : Nat) (s : Scrap) : Handler :=
  { h with stack := (pushStack h.stack r s).2 }

/-- findPair, brackets.go:114-133 -/
def Handler.findPair (h : Handler) (r : Nat) (s : Scrap) : Handler :=
  match popWith h.stack r with
  | none => h
  | some (b, stack) =>
    let inx := insertIndex b.opening.l 0 0 h.pairings
    { h with
      stack := stack
      pairings := h.pairings.take inx ++ (⟨b.opening, b.pair, s⟩ :: h.pairings.drop inx) }

/-- FindBracketPairing, brackets.go:174-189 -/
def Handler.find (h : Handler) (s : Scrap) : Option Pairing :=
  h.pairings.find? fun p => if s.clz = cBRACKO then p.opening.l == s.l else p.closing.l == s.l

/-- changeOpeningBracketClass, brackets.go:194-202 -/
def Handler.changeOpening (h : Handler) (s : Scrap) : Handler :=
  { h with pairings := h.pairings.map fun p =>
      if p.opening.l = s.l then { p with opening := { p.opening with clz := s.clz } } else p }

/- UpdateClosingBrackets, brackets.go:209-220, changes copies of the pairings
only and has no effect; it is left out. -/

end Uax.Bidi
