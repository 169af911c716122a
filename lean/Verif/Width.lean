import Verif.GString

/-
Model of /repo/uax11/width.go and of /repo/emoji/emoji.go:35-43, the widths of graphemes.

Parameters: `width.LookupRune(r).Kind()`, the script of a locale (`language.Make(l).Script()`), whether
the matcher `eaMatch` (lines 200-210) finds a match for a locale with a confidence above `No`,
and the slice of emoji range tables, which is empty (nil) before `SetupEmojisClasses` has been called.
Scripts are their four-letter codes; the zero `language.Script` is "Zzzz". A context is changed in
place; the calls below return it as it is afterwards. The resolver functions (lines 140-154) ignore
their first argument. Not modelled: `ContextFromEnvironment`'s query of the environment; its result
is the parameter of `contextFor`.
-/

namespace Uax

/-- `width.Kind` of golang.org/x/text, used in width.go:140-154. -/
inductive Kind where
  | neutral | ambiguous | wide | narrow | fullwidth | halfwidth
deriving DecidableEq, Repr

/-- The tables that width.go:22-101 and 200-230 look at, see above. -/
structure WidthTables where
  kind : Int → Kind
  emoji : List (Option (Int → Bool))
  scriptOf : String → String
  matchesEA : String → Bool

namespace Width

/-- width.go:138-154: `resolveToNarrow` and `resolveToWide`. -/
inductive Resolver where
  | toNarrow | toWide
deriving DecidableEq, Repr

/-- width.go:140-154. -/
def Resolver.apply : Resolver → Kind → Kind
  | .toNarrow, .wide => .wide
  | .toNarrow, .fullwidth => .wide
  | .toNarrow, _ => .narrow
  | .toWide, .neutral => .wide
  | .toWide, .ambiguous => .wide
  | .toWide, .wide => .wide
  | .toWide, .fullwidth => .wide
  | .toWide, _ => .narrow

/-- width.go:104-109, `Context`. -/
structure Context where
  forceEastAsian : Bool
  script : String
  locale : String
  resolve : Option Resolver
deriving DecidableEq, Repr

/-- width.go:112-135. -/
def eastAsianContext : Context := ⟨true, "Hant", "zh-Hant", some .toWide⟩
/-- width.go:112-135. -/
def latinContext : Context := ⟨false, "Latn", "en-US", some .toNarrow⟩

/-- width.go:175-186. -/
def wideScripts : List String :=
  ["Bopo", "Hanb", "Hani", "Hans", "Hant", "Hang", "Hira", "Kana", "Lana", "Kitl", "Kits", "Nkdb", "Nkgb", "Plrd",
   "Batk", "Beng", "Bugi", "Mymr", "Cham", "Java", "Khmr", "Laoo", "Lisu", "Mtei", "Thai", "Yiii", "Bali", "Khar",
   "Rjng", "Roro", "Tglg", "Wole", "Buhd", "Tagb"]

/-- width.go:168-197, `findResolver`. -/
def findResolver (W : WidthTables) (locale : String) (ctx : Context) : Context :=
  let ctx := if ctx.script = "Zzzz" then { ctx with script := W.scriptOf locale } else ctx
  if ctx.script ∈ wideScripts then { ctx with resolve := some .toWide }
  else if W.matchesEA locale = false then { ctx with resolve := some .toNarrow }
  else { ctx with resolve := some .toWide }

/-- width.go:158-166, `evaluateContext`. -/
def evaluateContext (W : WidthTables) (ctx : Context) : Context :=
  if ctx.forceEastAsian then { ctx with resolve := some .toWide } else findResolver W ctx.locale ctx

/-- width.go:216-234, `ContextFromEnvironment`, for a detected locale (or the default `en-US`). -/
def contextFor (W : WidthTables) (locale : String) : Context :=
  findResolver W locale ⟨false, W.scriptOf locale, locale, none⟩

/-- emoji.go:36-43: the loop over the classes 0 … 5. `none`: panic, index out of range. -/
def emojiLoop (tables : List (Option (Int → Bool))) (r : Int) : Nat → Nat → Option Int
  | 0, _ => some (-1)
  | n + 1, c =>
    match tables[c]? with
    | none => none
    | some t => if (match t with | none => false | some f => f r) then some (c : Int) else emojiLoop tables r n (c + 1)

/-- emoji.go:35-43, `EmojisClassForRune`. -/
def emojiClass (W : WidthTables) (r : Int) : Option Int := emojiLoop W.emoji r 6 0

/-- width.go:67-81, `graphemeWidth`. A nil resolver would panic. -/
def graphemeWidth (W : WidthTables) (grphm : List Nat) (ctx : Context) : Run Int :=
  let r : Int := (Utf8.decode grphm).1
  match emojiClass W r with
  | none => .panics
  | some c =>
    if c ≥ 0 then .returns 2
    else match ctx.resolve with
      | none => .panics
      | some f => if f.apply (W.kind r) = .wide then .returns 2 else .returns 1

/-- width.go:31-35 and 53-57: the context that is used; a nil context is replaced. -/
def usedContext (W : WidthTables) : Option Context → Context
  | none => latinContext
  | some ctx => if ctx.resolve = none then evaluateContext W ctx else ctx

/-- width.go:31-35 and 53-57: the caller's context afterwards. -/
def leftContext (W : WidthTables) (ctx : Option Context) : Option Context := ctx.map fun c => usedContext W (some c)

/-- width.go:22-37, `Width`, with at most `n` rounds of the loop in `PositionOfFirstLegalRune`. -/
def width (W : WidthTables) (n : Nat) (grphm : List Nat) (ctx : Option Context) : Run (Int × Option Context) :=
  if grphm.length = 0 then .returns (0, ctx)
  else (positionOfFirstLegalRune n grphm).andThen fun (start, _) =>
    if start ≠ 0 then .returns (0, ctx)
    else (graphemeWidth W grphm (usedContext W ctx)).andThen fun w => .returns (w, leftContext W ctx)

/-- width.go:59-62: the loop of `StringWidth`, for the graphemes from `i` on. -/
def sumLoop (W : WidthTables) (s : GString) (ctx : Context) : Nat → Nat → Int → Run Int
  | 0, _, w => .returns w
  | n + 1, i, w =>
    match s.nth i with
    | none => .panics
    | some nth => (graphemeWidth W nth ctx).andThen fun x => sumLoop W s ctx n (i + 1) (w + x)

/-- width.go:48-64, `StringWidth`. -/
def stringWidth (W : WidthTables) (s : GString) (ctx : Option Context) : Run (Int × Option Context) :=
  if s.len = 0 then .returns (0, ctx)
  else (sumLoop W s (usedContext W ctx) s.len.toNat 0 0).andThen fun w => .returns (w, leftContext W ctx)

end Width
end Uax
