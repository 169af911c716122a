import Verif.Bidi

/-
Specification: the rules W1 to W7, N1, N2, I1 and I2 of UAX#9 for the characters
of one isolating run sequence, taken from the text of the standard. It does not
use the model. (Only the names of the bidi classes are shared with it.)

A text is the list of the classes of its characters; `e` is the embedding
direction, L or R, which is also the direction at both ends of the sequence.
-/
namespace Uax.Bidi.Spec

/-- W1: a nonspacing mark gets the type of the previous character; after an
isolate initiator or PDI it becomes ON. -/
def w1 (prev : Class) : List Class → List Class
  | [] => []
  | c :: cs =>
    let c' := if c = cNSM then (if prev ∈ [cLRI, cRLI, cFSI, cPDI] then cON else prev) else c
    c' :: w1 c' cs

/-- The strong type after a character. -/
def strongAfter (strong c : Class) : Class := if c = cL ∨ c = cR ∨ c = cAL then c else strong

/-- W2: a European number becomes an Arabic one if the last strong type is AL. -/
def w2 (strong : Class) : List Class → List Class
  | [] => []
  | c :: cs => (if c = cEN ∧ strong = cAL then cAN else c) :: w2 (strongAfter strong c) cs

/-- W3: AL becomes R. -/
def w3 (cs : List Class) : List Class := cs.map fun c => if c = cAL then cR else c

/-- W4: a single European separator between two European numbers becomes a
European number, a single common separator between two numbers of the same type
becomes that type. -/
def w4 (prev : Class) : List Class → List Class
  | [] => []
  | c :: cs =>
    (if c = cES ∧ prev = cEN ∧ cs.head? = some cEN then cEN
     else if c = cCS ∧ (prev = cEN ∨ prev = cAN) ∧ cs.head? = some prev then prev
     else c) :: w4 c cs

/-- W5: a sequence of European terminators adjacent to European numbers changes
to European numbers. `prev` is the previous character after the change. -/
def w5 (prev : Class) : List Class → List Class
  | [] => []
  | c :: cs =>
    let c' := if c = cET ∧ (prev = cEN ∨ (cs.dropWhile (· = cET)).head? = some cEN) then cEN else c
    c' :: w5 c' cs

/-- W6: the other separators and terminators become ON. -/
def w6 (cs : List Class) : List Class := cs.map fun c => if c = cES ∨ c = cET ∨ c = cCS then cON else c

/-- W7: a European number becomes L if the last strong type is L. -/
def w7 (strong : Class) : List Class → List Class
  | [] => []
  | c :: cs => (if c = cEN ∧ strong = cL then cL else c) :: w7 (strongAfter strong c) cs

/-- Neutral characters and isolate formatting characters -/
def neutral (c : Class) : Bool := c ∈ [cB, cS, cWS, cON, cLRI, cRLI, cFSI, cPDI]

/-- The direction of a character which is not neutral, for N1: numbers count as R. -/
def side (c : Class) : Class := if c = cL then cL else cR

/-- The direction of the text that begins here, for N1. -/
def sideOf (e : Class) (cs : List Class) : Class :=
  match cs.dropWhile neutral with
  | [] => e
  | c :: _ => side c

/-- N1 and N2: neutrals take the direction of the surrounding text if that is
the same on both sides, otherwise the embedding direction. `before` is the
direction of the text before. -/
def n12 (e before : Class) : List Class → List Class
  | [] => []
  | c :: cs =>
    if neutral c then (if before = sideOf e cs then before else e) :: n12 e before cs
    else c :: n12 e (side c) cs

/-- The types of the characters after the rules W1 to W7. -/
def weak (e : Class) (cs : List Class) : List Class :=
  w7 e (w6 (w5 cON (w4 cON (w3 (w2 e (w1 e cs))))))

/-- The types after W1 to W7, N1 and N2. -/
def resolved (e : Class) (cs : List Class) : List Class := n12 e e (weak e cs)

/-- I1 and I2: the embedding level of a character in a run of level 0 (for `e` = L)
or 1 (for `e` = R). -/
def level (e c : Class) : Nat :=
  if e = cL then (if c = cR then 1 else if c = cAN ∨ c = cEN then 2 else 0)
  else (if c = cL ∨ c = cEN ∨ c = cAN then 2 else 1)

/-- The directions of the characters: even levels are from left to right. -/
def directions (e : Class) (cs : List Class) : List Dir :=
  (resolved e cs).map fun c => if level e c % 2 = 0 then .ltr else .rtl

/-- Scraps which follow each other without gaps, from one position to another. -/
def Tiles (l r : Nat) : List Scrap → Prop
  | [] => l = r
  | s :: rest => s.l = l ∧ Tiles s.r r rest

/-! ### Texts for which the properties are proved -/

/-- The last strong type of a text, which may be the one before it. -/
def lastStrong (e : Class) (cs : List Class) : Class := cs.foldl strongAfter e

/-- The European numbers of a text stand in left-to-right context: the last
strong character before each is L (`e`, if there is none), and there is no
Arabic letter before it. -/
def NumbersLTR (e : Class) (cs : List Class) : Prop :=
  ∀ pre post, cs = pre ++ cEN :: post → lastStrong e pre = cL ∧ cAL ∉ pre

/-- There are no isolate initiators and no PDI. -/
def NoIsolates (cs : List Class) : Prop := ∀ c ∈ cs, c ∉ [cLRI, cRLI, cFSI, cPDI]

end Uax.Bidi.Spec
