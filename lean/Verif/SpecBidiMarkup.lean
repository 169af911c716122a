import Verif.BidiParser

/-
Specification of out-of-line markup: a text with delimiters of isolates between its
characters, which have no length.
-/
namespace Uax.Bidi.Spec

/-- The delimiters U+2066 LRI, U+2067 RLI and U+2069 PDI. -/
def uLRI : Nat := 0x2066
def uRLI : Nat := 0x2067
def uPDI : Nat := 0x2069

/-- The answers of a markup function which stand for delimiters: MarkupLRI, MarkupRLI,
MarkupPDI, MarkupPDILRI and MarkupPDIRLI (the classes LRI, RLI and PDI are 21, 22 and 24 in
golang.org/x/text/unicode/bidi). -/
def answers : List (Nat × List Nat) :=
  [(0, []), (21 * 256, [uLRI]), (22 * 256, [uRLI]), (24, [uPDI]), (24 + 21 * 256, [uPDI, uLRI]), (24 + 22 * 256, [uPDI, uRLI])]

/-- The markup function has one of these answers everywhere. -/
def ValidMarkup (m : Nat → Nat) : Prop := ∀ p, ∃ ds, (m p, ds) ∈ answers

/-- The delimiters an answer stands for. -/
def delimiters (answer : Nat) : List Nat := ((answers.find? fun a => a.1 == answer).map (·.2)).getD []

/-- The runes of a text with their lengths, and the delimiters which a markup function asks
for before each of them and at the end. -/
def marked (m : Nat → Nat) : Nat → List (Nat × Nat) → List (Nat × Nat)
  | pos, [] => (delimiters (m pos)).map fun d => (d, 0)
  | pos, (r, n) :: rest => (delimiters (m pos)).map (fun d => (d, 0)) ++ (r, n) :: marked m (pos + n) rest

/-- The tables know the delimiters, and nothing is wrong with U+0000. -/
structure KnownDelimiters (T : Tables) : Prop where
  lri : T.cls uLRI = cLRI
  rli : T.cls uRLI = cRLI
  pdi : T.cls uPDI = cPDI
  brackets : ∀ d ∈ [uLRI, uRLI, uPDI], T.bracket d = none
  upper : ∀ d ∈ [0, uLRI, uRLI, uPDI], T.upper d = false

/-- ResolveParagraph for a text which is given as runes with their lengths. -/
def resolveRunes (T : Tables) (o : Options) (sched : Nat → Nat) (runes : List (Nat × Nat)) (n : Nat) :
    PRun (Scanner × Nat) Levels :=
  resolveIn (scannerEnv T o sched) o ({ input := runes, current := initialOuterScrap o false }, 0) n

/-- What ResolveParagraph returns, without the state it ends in. -/
def outcome {σ : Type} (x : PRun σ Levels) : Run Levels := x.andThen fun y => .returns y.1

end Uax.Bidi.Spec
