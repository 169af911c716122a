import Verif.BidiScanner

/-
Model of the options of ResolveParagraph, /repo/bidi/scanner.go:446-514.
-/
namespace Uax.Bidi

/-- scanner.go:460-513: a call of one of the functions which make options. -/
inductive Opt
  | recognizeLegacy (b : Bool) | defaultDirection (d : Dir) | testMode (b : Bool) | ignoreParagraphSeparators (b : Bool)
deriving DecidableEq, Repr

/-- The options as functions on the scanner, scanner.go:462-509. A call of DefaultDirection with
LeftToRight gives nil, which newScanner skips (lines 56-60). RecognizeLegacy sets a flag nobody
looks at. The condition `!has && b || has && !b` is that of the code. -/
def Opt.apply (o : Options) : Opt → Options
  | .recognizeLegacy _ => o
  | .defaultDirection .rtl => { o with outerR2L := true }
  | .defaultDirection .ltr => o
  | .testMode b => if (!o.testing && b) || (o.testing && !b) then { o with testing := true } else o
  | .ignoreParagraphSeparators b => if (!o.ignoreParSep && b) || (o.ignoreParSep && !b) then { o with ignoreParSep := true } else o

/-- The loop over the options in newScanner, scanner.go:56-60. -/
def optionsOf (markup : Option (Nat → Nat)) (opts : List Opt) : Options := opts.foldl Opt.apply { markup := markup }

end Uax.Bidi
