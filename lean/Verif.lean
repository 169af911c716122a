import Verif.Props.Deque
import Verif.Props.Publisher
import Verif.Props.Segment
import Verif.Props.SegmentCalls
import Verif.Props.SimpleWord
import Verif.Props.SegmentExamples
import Verif.Props.Grapheme
import Verif.Props.Word
import Verif.Props.Line
import Verif.Props.GString
import Verif.Props.Width
import Verif.Props.BidiRules
import Verif.Props.BidiReorder
import Verif.Props.BidiResolve
import Verif.Props.BidiBrackets
import Verif.Props.BidiScan
import Verif.Props.BidiDirections
import Verif.Props.BidiVisual
import Verif.Props.SegmentBuffer
import Verif.Props.Trie
import Verif.Props.BidiOneDirection
import Verif.BidiSim
import Verif.SpecBidiMarkup
import Verif.BidiMarkup
import Verif.BidiOptions
import Verif.Props.BidiMarkup
import Verif.BidiIso
import Verif.BidiIsoWhole
import Verif.BidiIsoText
import Verif.BidiTwin
import Verif.BidiTwinScan
import Verif.BidiIsoScan
import Verif.SpecIsolates
import Verif.SpecNested
import Verif.BidiIsoResolve
import Verif.BidiUnlike
import Verif.BidiHeaded
import Verif.BidiNestBody
import Verif.BidiNest
import Verif.BidiReturns
import Verif.BidiIsoEndless
import Verif.BidiIsoOwn
import Verif.Props.BidiIsolates
import Verif.Props.BidiNested
import Verif.BidiNestOut
import Verif.BidiNestSeq
import Verif.Props.BidiOutside
import Verif.BidiNestDirections
import Verif.Props.BidiOwnNested
import Verif.SpecIsoVisual
import Verif.BidiIsoVisual
import Verif.BidiIsoShown
import Verif.BidiIsoPlace
import Verif.BidiIsoLevels
import Verif.BidiIsoOrder
import Verif.Props.BidiIsoVisual
import Verif.Props.BidiOwn
import Verif.BidiHouse
import Verif.BidiHouseSim
import Verif.BidiSequences
import Verif.Props.BidiSequences
import Verif.RangeTable
import Verif.TableGen
import Verif.ClassTables
import Verif.Props.Shaping
import Verif.Props.ClassTables
import Verif.TablesGrapheme
import Verif.TablesWord
import Verif.TablesEmoji
import Verif.TablesArabic
import Verif.TablesPositional
import Verif.TablesSyllabic
import Verif.Props.Ascii
import Verif.Props.AsciiWidth
import Verif.Setup
import Verif.Props.Setup
import Verif.Ucd
import Verif.SpecUcd
import Verif.UcdLines
import Verif.UcdProofs
import Verif.UcdTests
import Verif.TablesBracketFile
import Verif.Props.Ucd
import Verif.SpecByLine
import Verif.ByLine
import Verif.Props.ByLine
import Verif.Regroup
import Verif.RegroupLine
import Verif.Props.Regroup
import Verif.SpecN0
import Verif.BidiN0Scan
import Verif.BidiN0
import Verif.Props.BidiN0
import Verif.SpecSplit
import Verif.BidiSplitLines
import Verif.Props.BidiSplit
import Verif.BidiPaint
import Verif.BidiPairs
import Verif.BidiPairsResolve
import Verif.Props.BidiPairs
import Verif.Props.BidiPairsVisual
import Verif.Names
import Verif.Props.Names
import Verif.SegmentRest
import Verif.Props.SegmentRest
import Verif.Props.SegmentMixed
import Verif.Props.Malformed
import Verif.Props.BidiSeparators
import Verif.Props.Invisible
import Verif.Props.SegmentBytes
import Verif.SpecInside
import Verif.Inside
import Verif.Props.Inside
import Verif.SpecInsideLine
import Verif.InsideLine
import Verif.Props.InsideLine
import Verif.TwoBreakers
import Verif.Props.TwoBreakers
import Verif.Props.TwoSimple
import Verif.BidiLetters
import Verif.Props.BidiLetters
import Verif.BidiDigits
import Verif.Props.BidiDigits
