/-
Generated by tools/gentables.py from /repo/bidi/internal/gen/BidiBrackets.txt: the lines of the file as lists of runes.
-/

namespace Uax.Ucd

/-- /repo/bidi/internal/gen/BidiBrackets.txt:1-16. -/
def bracketFile1 : List (List Nat) := [
  [35, 32, 66, 105, 100, 105, 66, 114, 97, 99, 107, 101, 116, 115, 45, 49, 50, 46, 49, 46, 48, 46, 116, 120, 116],
  [35, 32, 68, 97, 116, 101, 58, 32, 50, 48, 49, 57, 45, 48, 51, 45, 48, 56, 44, 32, 50, 51, 58, 53, 57, 58, 48, 48, 32, 71, 77, 84, 32, 91, 65, 71, 44, 32, 76, 73, 44, 32, 75, 87, 93],
  [35, 32, 169, 32, 50, 48, 49, 57, 32, 85, 110, 105, 99, 111, 100, 101, 174, 44, 32, 73, 110, 99, 46],
  [35, 32, 85, 110, 105, 99, 111, 100, 101, 32, 97, 110, 100, 32, 116, 104, 101, 32, 85, 110, 105, 99, 111, 100, 101, 32, 76, 111, 103, 111, 32, 97, 114, 101, 32, 114, 101, 103, 105, 115, 116, 101, 114, 101, 100, 32, 116, 114, 97, 100, 101, 109, 97, 114, 107, 115, 32, 111, 102, 32, 85, 110, 105, 99, 111, 100, 101, 44, 32, 73, 110, 99, 46, 32, 105, 110, 32, 116, 104, 101, 32, 85, 46, 83, 46, 32, 97, 110, 100, 32, 111, 116, 104, 101, 114, 32, 99, 111, 117, 110, 116, 114, 105, 101, 115, 46],
  [35, 32, 70, 111, 114, 32, 116, 101, 114, 109, 115, 32, 111, 102, 32, 117, 115, 101, 44, 32, 115, 101, 101, 32, 104, 116, 116, 112, 58, 47, 47, 119, 119, 119, 46, 117, 110, 105, 99, 111, 100, 101, 46, 111, 114, 103, 47, 116, 101, 114, 109, 115, 95, 111, 102, 95, 117, 115, 101, 46, 104, 116, 109, 108],
  [35],
  [35, 32, 85, 110, 105, 99, 111, 100, 101, 32, 67, 104, 97, 114, 97, 99, 116, 101, 114, 32, 68, 97, 116, 97, 98, 97, 115, 101],
  [35, 32, 70, 111, 114, 32, 100, 111, 99, 117, 109, 101, 110, 116, 97, 116, 105, 111, 110, 44, 32, 115, 101, 101, 32, 104, 116, 116, 112, 58, 47, 47, 119, 119, 119, 46, 117, 110, 105, 99, 111, 100, 101, 46, 111, 114, 103, 47, 114, 101, 112, 111, 114, 116, 115, 47, 116, 114, 52, 52, 47],
  [35],
  [35, 32, 66, 105, 100, 105, 95, 80, 97, 105, 114, 101, 100, 95, 66, 114, 97, 99, 107, 101, 116, 32, 97, 110, 100, 32, 66, 105, 100, 105, 95, 80, 97, 105, 114, 101, 100, 95, 66, 114, 97, 99, 107, 101, 116, 95, 84, 121, 112, 101, 32, 80, 114, 111, 112, 101, 114, 116, 105, 101, 115],
  [35],
  [35, 32, 84, 104, 105, 115, 32, 102, 105, 108, 101, 32, 105, 115, 32, 97, 32, 110, 111, 114, 109, 97, 116, 105, 118, 101, 32, 99, 111, 110, 116, 114, 105, 98, 117, 116, 111, 114, 121, 32, 100, 97, 116, 97, 32, 102, 105, 108, 101, 32, 105, 110, 32, 116, 104, 101, 32, 85, 110, 105, 99, 111, 100, 101],
  [35, 32, 67, 104, 97, 114, 97, 99, 116, 101, 114, 32, 68, 97, 116, 97, 98, 97, 115, 101, 46],
  [35],
  [35, 32, 66, 105, 100, 105, 95, 80, 97, 105, 114, 101, 100, 95, 66, 114, 97, 99, 107, 101, 116, 32, 105, 115, 32, 97, 32, 110, 111, 114, 109, 97, 116, 105, 118, 101, 32, 112, 114, 111, 112, 101, 114, 116, 121, 32, 111, 102, 32, 116, 121, 112, 101, 32, 77, 105, 115, 99, 101, 108, 108, 97, 110, 101, 111, 117, 115, 44],
  [35, 32, 119, 104, 105, 99, 104, 32, 101, 115, 116, 97, 98, 108, 105, 115, 104, 101, 115, 32, 97, 32, 109, 97, 112, 112, 105, 110, 103, 32, 98, 101, 116, 119, 101, 101, 110, 32, 99, 104, 97, 114, 97, 99, 116, 101, 114, 115, 32, 116, 104, 97, 116, 32, 97, 114, 101, 32, 116, 114, 101, 97, 116, 101, 100, 32, 97, 115]]

/-- /repo/bidi/internal/gen/BidiBrackets.txt:17-32. -/
def bracketFile2 : List (List Nat) := [
  [35, 32, 98, 114, 97, 99, 107, 101, 116, 32, 112, 97, 105, 114, 115, 32, 98, 121, 32, 116, 104, 101, 32, 85, 110, 105, 99, 111, 100, 101, 32, 66, 105, 100, 105, 114, 101, 99, 116, 105, 111, 110, 97, 108, 32, 65, 108, 103, 111, 114, 105, 116, 104, 109, 46],
  [35],
  [35, 32, 66, 105, 100, 105, 95, 80, 97, 105, 114, 101, 100, 95, 66, 114, 97, 99, 107, 101, 116, 95, 84, 121, 112, 101, 32, 105, 115, 32, 97, 32, 110, 111, 114, 109, 97, 116, 105, 118, 101, 32, 112, 114, 111, 112, 101, 114, 116, 121, 32, 111, 102, 32, 116, 121, 112, 101, 32, 69, 110, 117, 109, 101, 114, 97, 116, 105, 111, 110, 44],
  [35, 32, 119, 104, 105, 99, 104, 32, 99, 108, 97, 115, 115, 105, 102, 105, 101, 115, 32, 99, 104, 97, 114, 97, 99, 116, 101, 114, 115, 32, 105, 110, 116, 111, 32, 111, 112, 101, 110, 105, 110, 103, 32, 97, 110, 100, 32, 99, 108, 111, 115, 105, 110, 103, 32, 112, 97, 105, 114, 101, 100, 32, 98, 114, 97, 99, 107, 101, 116, 115],
  [35, 32, 102, 111, 114, 32, 116, 104, 101, 32, 112, 117, 114, 112, 111, 115, 101, 115, 32, 111, 102, 32, 116, 104, 101, 32, 85, 110, 105, 99, 111, 100, 101, 32, 66, 105, 100, 105, 114, 101, 99, 116, 105, 111, 110, 97, 108, 32, 65, 108, 103, 111, 114, 105, 116, 104, 109, 46],
  [35],
  [35, 32, 84, 104, 105, 115, 32, 102, 105, 108, 101, 32, 108, 105, 115, 116, 115, 32, 116, 104, 101, 32, 115, 101, 116, 32, 111, 102, 32, 99, 111, 100, 101, 32, 112, 111, 105, 110, 116, 115, 32, 119, 105, 116, 104, 32, 66, 105, 100, 105, 95, 80, 97, 105, 114, 101, 100, 95, 66, 114, 97, 99, 107, 101, 116, 95, 84, 121, 112, 101],
  [35, 32, 112, 114, 111, 112, 101, 114, 116, 121, 32, 118, 97, 108, 117, 101, 115, 32, 79, 112, 101, 110, 32, 97, 110, 100, 32, 67, 108, 111, 115, 101, 46, 32, 84, 104, 101, 32, 115, 101, 116, 32, 105, 115, 32, 100, 101, 114, 105, 118, 101, 100, 32, 102, 114, 111, 109, 32, 116, 104, 101, 32, 99, 104, 97, 114, 97, 99, 116, 101, 114],
  [35, 32, 112, 114, 111, 112, 101, 114, 116, 105, 101, 115, 32, 71, 101, 110, 101, 114, 97, 108, 95, 67, 97, 116, 101, 103, 111, 114, 121, 32, 40, 103, 99, 41, 44, 32, 66, 105, 100, 105, 95, 67, 108, 97, 115, 115, 32, 40, 98, 99, 41, 44, 32, 66, 105, 100, 105, 95, 77, 105, 114, 114, 111, 114, 101, 100, 32, 40, 66, 105, 100, 105, 95, 77, 41, 44],
  [35, 32, 97, 110, 100, 32, 66, 105, 100, 105, 95, 77, 105, 114, 114, 111, 114, 105, 110, 103, 95, 71, 108, 121, 112, 104, 32, 40, 98, 109, 103, 41, 44, 32, 97, 115, 32, 102, 111, 108, 108, 111, 119, 115, 58, 32, 116, 119, 111, 32, 99, 104, 97, 114, 97, 99, 116, 101, 114, 115, 44, 32, 65, 32, 97, 110, 100, 32, 66, 44],
  [35, 32, 102, 111, 114, 109, 32, 97, 32, 98, 114, 97, 99, 107, 101, 116, 32, 112, 97, 105, 114, 32, 105, 102, 32, 65, 32, 104, 97, 115, 32, 103, 99, 61, 80, 115, 32, 97, 110, 100, 32, 66, 32, 104, 97, 115, 32, 103, 99, 61, 80, 101, 44, 32, 98, 111, 116, 104, 32, 104, 97, 118, 101, 32, 98, 99, 61, 79, 78, 32, 97, 110, 100],
  [35, 32, 66, 105, 100, 105, 95, 77, 61, 89, 44, 32, 97, 110, 100, 32, 98, 109, 103, 32, 111, 102, 32, 65, 32, 105, 115, 32, 66, 46, 32, 66, 105, 100, 105, 95, 80, 97, 105, 114, 101, 100, 95, 66, 114, 97, 99, 107, 101, 116, 32, 40, 98, 112, 98, 41, 32, 109, 97, 112, 115, 32, 65, 32, 116, 111, 32, 66, 32, 97, 110, 100],
  [35, 32, 118, 105, 99, 101, 32, 118, 101, 114, 115, 97, 44, 32, 97, 110, 100, 32, 116, 104, 101, 105, 114, 32, 66, 105, 100, 105, 95, 80, 97, 105, 114, 101, 100, 95, 66, 114, 97, 99, 107, 101, 116, 95, 84, 121, 112, 101, 32, 40, 98, 112, 116, 41, 32, 112, 114, 111, 112, 101, 114, 116, 121, 32, 118, 97, 108, 117, 101, 115, 32, 97, 114, 101],
  [35, 32, 79, 112, 101, 110, 32, 40, 111, 41, 32, 97, 110, 100, 32, 67, 108, 111, 115, 101, 32, 40, 99, 41, 44, 32, 114, 101, 115, 112, 101, 99, 116, 105, 118, 101, 108, 121, 46],
  [35],
  [35, 32, 84, 104, 101, 32, 98, 114, 97, 99, 107, 101, 116, 115, 32, 119, 105, 116, 104, 32, 116, 105, 99, 107, 115, 32, 85, 43, 50, 57, 56, 68, 32, 76, 69, 70, 84, 32, 83, 81, 85, 65, 82, 69, 32, 66, 82, 65, 67, 75, 69, 84, 32, 87, 73, 84, 72, 32, 84, 73, 67, 75, 32, 73, 78, 32, 84, 79, 80, 32, 67, 79, 82, 78, 69, 82]]

/-- /repo/bidi/internal/gen/BidiBrackets.txt:33-48. -/
def bracketFile3 : List (List Nat) := [
  [35, 32, 116, 104, 114, 111, 117, 103, 104, 32, 85, 43, 50, 57, 57, 48, 32, 82, 73, 71, 72, 84, 32, 83, 81, 85, 65, 82, 69, 32, 66, 82, 65, 67, 75, 69, 84, 32, 87, 73, 84, 72, 32, 84, 73, 67, 75, 32, 73, 78, 32, 84, 79, 80, 32, 67, 79, 82, 78, 69, 82, 32, 97, 114, 101, 32, 112, 97, 105, 114, 101, 100, 32, 116, 104, 101],
  [35, 32, 115, 97, 109, 101, 32, 119, 97, 121, 32, 116, 104, 101, 105, 114, 32, 103, 108, 121, 112, 104, 115, 32, 102, 111, 114, 109, 32, 109, 105, 114, 114, 111, 114, 32, 112, 97, 105, 114, 115, 44, 32, 97, 99, 99, 111, 114, 100, 105, 110, 103, 32, 116, 111, 32, 116, 104, 101, 105, 114, 32, 98, 109, 103, 32, 112, 114, 111, 112, 101, 114, 116, 121],
  [35, 32, 118, 97, 108, 117, 101, 115, 46, 32, 84, 104, 101, 121, 32, 97, 114, 101, 32, 110, 111, 116, 32, 112, 97, 105, 114, 101, 100, 32, 111, 110, 32, 116, 104, 101, 32, 98, 97, 115, 105, 115, 32, 111, 102, 32, 97, 32, 100, 105, 97, 103, 111, 110, 97, 108, 32, 111, 114, 32, 97, 110, 116, 105, 100, 105, 97, 103, 111, 110, 97, 108],
  [35, 32, 109, 97, 116, 99, 104, 105, 110, 103, 32, 111, 102, 32, 116, 104, 101, 32, 99, 111, 114, 110, 101, 114, 32, 116, 105, 99, 107, 115, 32, 105, 110, 102, 101, 114, 114, 101, 100, 32, 102, 114, 111, 109, 32, 99, 111, 100, 101, 32, 112, 111, 105, 110, 116, 32, 111, 114, 100, 101, 114, 46],
  [35],
  [35, 32, 70, 111, 114, 32, 108, 101, 103, 97, 99, 121, 32, 114, 101, 97, 115, 111, 110, 115, 44, 32, 116, 104, 101, 32, 99, 104, 97, 114, 97, 99, 116, 101, 114, 115, 32, 85, 43, 70, 68, 51, 69, 32, 79, 82, 78, 65, 84, 69, 32, 76, 69, 70, 84, 32, 80, 65, 82, 69, 78, 84, 72, 69, 83, 73, 83, 32, 97, 110, 100],
  [35, 32, 85, 43, 70, 68, 51, 70, 32, 79, 82, 78, 65, 84, 69, 32, 82, 73, 71, 72, 84, 32, 80, 65, 82, 69, 78, 84, 72, 69, 83, 73, 83, 32, 100, 111, 32, 110, 111, 116, 32, 109, 105, 114, 114, 111, 114, 32, 105, 110, 32, 98, 105, 100, 105, 114, 101, 99, 116, 105, 111, 110, 97, 108, 32, 100, 105, 115, 112, 108, 97, 121],
  [35, 32, 97, 110, 100, 32, 116, 104, 101, 114, 101, 102, 111, 114, 101, 32, 100, 111, 32, 110, 111, 116, 32, 102, 111, 114, 109, 32, 97, 32, 98, 114, 97, 99, 107, 101, 116, 32, 112, 97, 105, 114, 46],
  [35],
  [35, 32, 84, 104, 101, 32, 85, 110, 105, 99, 111, 100, 101, 32, 112, 114, 111, 112, 101, 114, 116, 121, 32, 118, 97, 108, 117, 101, 32, 115, 116, 97, 98, 105, 108, 105, 116, 121, 32, 112, 111, 108, 105, 99, 121, 32, 103, 117, 97, 114, 97, 110, 116, 101, 101, 115, 32, 116, 104, 97, 116, 32, 99, 104, 97, 114, 97, 99, 116, 101, 114, 115],
  [35, 32, 119, 104, 105, 99, 104, 32, 104, 97, 118, 101, 32, 98, 112, 116, 61, 111, 32, 111, 114, 32, 98, 112, 116, 61, 99, 32, 97, 108, 115, 111, 32, 104, 97, 118, 101, 32, 98, 99, 61, 79, 78, 32, 97, 110, 100, 32, 66, 105, 100, 105, 95, 77, 61, 89, 46, 32, 65, 115, 32, 97, 32, 114, 101, 115, 117, 108, 116, 44, 32, 97, 110],
  [35, 32, 105, 109, 112, 108, 101, 109, 101, 110, 116, 97, 116, 105, 111, 110, 32, 99, 97, 110, 32, 111, 112, 116, 105, 109, 105, 122, 101, 32, 116, 104, 101, 32, 108, 111, 111, 107, 117, 112, 32, 111, 102, 32, 116, 104, 101, 32, 66, 105, 100, 105, 95, 80, 97, 105, 114, 101, 100, 95, 66, 114, 97, 99, 107, 101, 116, 95, 84, 121, 112, 101],
  [35, 32, 112, 114, 111, 112, 101, 114, 116, 121, 32, 118, 97, 108, 117, 101, 115, 32, 79, 112, 101, 110, 32, 97, 110, 100, 32, 67, 108, 111, 115, 101, 32, 98, 121, 32, 114, 101, 115, 116, 114, 105, 99, 116, 105, 110, 103, 32, 116, 104, 101, 32, 112, 114, 111, 99, 101, 115, 115, 105, 110, 103, 32, 116, 111, 32, 99, 104, 97, 114, 97, 99, 116, 101, 114, 115],
  [35, 32, 119, 105, 116, 104, 32, 98, 99, 61, 79, 78, 46],
  [35],
  [35, 32, 84, 104, 101, 32, 102, 111, 114, 109, 97, 116, 32, 111, 102, 32, 116, 104, 101, 32, 102, 105, 108, 101, 32, 105, 115, 32, 116, 104, 114, 101, 101, 32, 102, 105, 101, 108, 100, 115, 32, 115, 101, 112, 97, 114, 97, 116, 101, 100, 32, 98, 121, 32, 97, 32, 115, 101, 109, 105, 99, 111, 108, 111, 110, 46]]

/-- /repo/bidi/internal/gen/BidiBrackets.txt:49-64. -/
def bracketFile4 : List (List Nat) := [
  [35, 32, 70, 105, 101, 108, 100, 32, 48, 58, 32, 85, 110, 105, 99, 111, 100, 101, 32, 99, 111, 100, 101, 32, 112, 111, 105, 110, 116, 32, 118, 97, 108, 117, 101, 44, 32, 114, 101, 112, 114, 101, 115, 101, 110, 116, 101, 100, 32, 97, 115, 32, 97, 32, 104, 101, 120, 97, 100, 101, 99, 105, 109, 97, 108, 32, 118, 97, 108, 117, 101],
  [35, 32, 70, 105, 101, 108, 100, 32, 49, 58, 32, 66, 105, 100, 105, 95, 80, 97, 105, 114, 101, 100, 95, 66, 114, 97, 99, 107, 101, 116, 32, 112, 114, 111, 112, 101, 114, 116, 121, 32, 118, 97, 108, 117, 101, 44, 32, 97, 32, 99, 111, 100, 101, 32, 112, 111, 105, 110, 116, 32, 118, 97, 108, 117, 101, 32, 111, 114, 32, 60, 110, 111, 110, 101, 62],
  [35, 32, 70, 105, 101, 108, 100, 32, 50, 58, 32, 66, 105, 100, 105, 95, 80, 97, 105, 114, 101, 100, 95, 66, 114, 97, 99, 107, 101, 116, 95, 84, 121, 112, 101, 32, 112, 114, 111, 112, 101, 114, 116, 121, 32, 118, 97, 108, 117, 101, 44, 32, 111, 110, 101, 32, 111, 102, 32, 116, 104, 101, 32, 102, 111, 108, 108, 111, 119, 105, 110, 103, 58],
  [35, 32, 32, 32, 111, 32, 79, 112, 101, 110],
  [35, 32, 32, 32, 99, 32, 67, 108, 111, 115, 101],
  [35, 32, 32, 32, 110, 32, 78, 111, 110, 101],
  [35, 32, 84, 104, 101, 32, 110, 97, 109, 101, 115, 32, 111, 102, 32, 116, 104, 101, 32, 99, 104, 97, 114, 97, 99, 116, 101, 114, 115, 32, 105, 110, 32, 102, 105, 101, 108, 100, 32, 48, 32, 97, 114, 101, 32, 103, 105, 118, 101, 110, 32, 105, 110, 32, 99, 111, 109, 109, 101, 110, 116, 115, 32, 97, 116, 32, 116, 104, 101, 32, 101, 110, 100],
  [35, 32, 111, 102, 32, 101, 97, 99, 104, 32, 108, 105, 110, 101, 46],
  [35],
  [35, 32, 70, 111, 114, 32, 105, 110, 102, 111, 114, 109, 97, 116, 105, 111, 110, 32, 111, 110, 32, 98, 105, 100, 105, 114, 101, 99, 116, 105, 111, 110, 97, 108, 32, 112, 97, 105, 114, 101, 100, 32, 98, 114, 97, 99, 107, 101, 116, 115, 44, 32, 115, 101, 101, 32, 85, 65, 88, 32, 35, 57, 58, 32, 85, 110, 105, 99, 111, 100, 101],
  [35, 32, 66, 105, 100, 105, 114, 101, 99, 116, 105, 111, 110, 97, 108, 32, 65, 108, 103, 111, 114, 105, 116, 104, 109, 44, 32, 97, 116, 32, 104, 116, 116, 112, 58, 47, 47, 119, 119, 119, 46, 117, 110, 105, 99, 111, 100, 101, 46, 111, 114, 103, 47, 117, 110, 105, 99, 111, 100, 101, 47, 114, 101, 112, 111, 114, 116, 115, 47, 116, 114, 57, 47],
  [35],
  [35, 32, 84, 104, 105, 115, 32, 102, 105, 108, 101, 32, 119, 97, 115, 32, 111, 114, 105, 103, 105, 110, 97, 108, 108, 121, 32, 99, 114, 101, 97, 116, 101, 100, 32, 98, 121, 32, 65, 110, 100, 114, 101, 119, 32, 71, 108, 97, 115, 115, 32, 97, 110, 100, 32, 76, 97, 117, 114, 101, 110, 116, 105, 117, 32, 73, 97, 110, 99, 117],
  [35, 32, 102, 111, 114, 32, 85, 110, 105, 99, 111, 100, 101, 32, 54, 46, 51, 46],
  [],
  [48, 48, 50, 56, 59, 32, 48, 48, 50, 57, 59, 32, 111, 32, 35, 32, 76, 69, 70, 84, 32, 80, 65, 82, 69, 78, 84, 72, 69, 83, 73, 83]]

/-- /repo/bidi/internal/gen/BidiBrackets.txt:65-80. -/
def bracketFile5 : List (List Nat) := [
  [48, 48, 50, 57, 59, 32, 48, 48, 50, 56, 59, 32, 99, 32, 35, 32, 82, 73, 71, 72, 84, 32, 80, 65, 82, 69, 78, 84, 72, 69, 83, 73, 83],
  [48, 48, 53, 66, 59, 32, 48, 48, 53, 68, 59, 32, 111, 32, 35, 32, 76, 69, 70, 84, 32, 83, 81, 85, 65, 82, 69, 32, 66, 82, 65, 67, 75, 69, 84],
  [48, 48, 53, 68, 59, 32, 48, 48, 53, 66, 59, 32, 99, 32, 35, 32, 82, 73, 71, 72, 84, 32, 83, 81, 85, 65, 82, 69, 32, 66, 82, 65, 67, 75, 69, 84],
  [48, 48, 55, 66, 59, 32, 48, 48, 55, 68, 59, 32, 111, 32, 35, 32, 76, 69, 70, 84, 32, 67, 85, 82, 76, 89, 32, 66, 82, 65, 67, 75, 69, 84],
  [48, 48, 55, 68, 59, 32, 48, 48, 55, 66, 59, 32, 99, 32, 35, 32, 82, 73, 71, 72, 84, 32, 67, 85, 82, 76, 89, 32, 66, 82, 65, 67, 75, 69, 84],
  [48, 70, 51, 65, 59, 32, 48, 70, 51, 66, 59, 32, 111, 32, 35, 32, 84, 73, 66, 69, 84, 65, 78, 32, 77, 65, 82, 75, 32, 71, 85, 71, 32, 82, 84, 65, 71, 83, 32, 71, 89, 79, 78],
  [48, 70, 51, 66, 59, 32, 48, 70, 51, 65, 59, 32, 99, 32, 35, 32, 84, 73, 66, 69, 84, 65, 78, 32, 77, 65, 82, 75, 32, 71, 85, 71, 32, 82, 84, 65, 71, 83, 32, 71, 89, 65, 83],
  [48, 70, 51, 67, 59, 32, 48, 70, 51, 68, 59, 32, 111, 32, 35, 32, 84, 73, 66, 69, 84, 65, 78, 32, 77, 65, 82, 75, 32, 65, 78, 71, 32, 75, 72, 65, 78, 71, 32, 71, 89, 79, 78],
  [48, 70, 51, 68, 59, 32, 48, 70, 51, 67, 59, 32, 99, 32, 35, 32, 84, 73, 66, 69, 84, 65, 78, 32, 77, 65, 82, 75, 32, 65, 78, 71, 32, 75, 72, 65, 78, 71, 32, 71, 89, 65, 83],
  [49, 54, 57, 66, 59, 32, 49, 54, 57, 67, 59, 32, 111, 32, 35, 32, 79, 71, 72, 65, 77, 32, 70, 69, 65, 84, 72, 69, 82, 32, 77, 65, 82, 75],
  [49, 54, 57, 67, 59, 32, 49, 54, 57, 66, 59, 32, 99, 32, 35, 32, 79, 71, 72, 65, 77, 32, 82, 69, 86, 69, 82, 83, 69, 68, 32, 70, 69, 65, 84, 72, 69, 82, 32, 77, 65, 82, 75],
  [50, 48, 52, 53, 59, 32, 50, 48, 52, 54, 59, 32, 111, 32, 35, 32, 76, 69, 70, 84, 32, 83, 81, 85, 65, 82, 69, 32, 66, 82, 65, 67, 75, 69, 84, 32, 87, 73, 84, 72, 32, 81, 85, 73, 76, 76],
  [50, 48, 52, 54, 59, 32, 50, 48, 52, 53, 59, 32, 99, 32, 35, 32, 82, 73, 71, 72, 84, 32, 83, 81, 85, 65, 82, 69, 32, 66, 82, 65, 67, 75, 69, 84, 32, 87, 73, 84, 72, 32, 81, 85, 73, 76, 76],
  [50, 48, 55, 68, 59, 32, 50, 48, 55, 69, 59, 32, 111, 32, 35, 32, 83, 85, 80, 69, 82, 83, 67, 82, 73, 80, 84, 32, 76, 69, 70, 84, 32, 80, 65, 82, 69, 78, 84, 72, 69, 83, 73, 83],
  [50, 48, 55, 69, 59, 32, 50, 48, 55, 68, 59, 32, 99, 32, 35, 32, 83, 85, 80, 69, 82, 83, 67, 82, 73, 80, 84, 32, 82, 73, 71, 72, 84, 32, 80, 65, 82, 69, 78, 84, 72, 69, 83, 73, 83],
  [50, 48, 56, 68, 59, 32, 50, 48, 56, 69, 59, 32, 111, 32, 35, 32, 83, 85, 66, 83, 67, 82, 73, 80, 84, 32, 76, 69, 70, 84, 32, 80, 65, 82, 69, 78, 84, 72, 69, 83, 73, 83]]

/-- /repo/bidi/internal/gen/BidiBrackets.txt:81-96. -/
def bracketFile6 : List (List Nat) := [
  [50, 48, 56, 69, 59, 32, 50, 48, 56, 68, 59, 32, 99, 32, 35, 32, 83, 85, 66, 83, 67, 82, 73, 80, 84, 32, 82, 73, 71, 72, 84, 32, 80, 65, 82, 69, 78, 84, 72, 69, 83, 73, 83],
  [50, 51, 48, 56, 59, 32, 50, 51, 48, 57, 59, 32, 111, 32, 35, 32, 76, 69, 70, 84, 32, 67, 69, 73, 76, 73, 78, 71],
  [50, 51, 48, 57, 59, 32, 50, 51, 48, 56, 59, 32, 99, 32, 35, 32, 82, 73, 71, 72, 84, 32, 67, 69, 73, 76, 73, 78, 71],
  [50, 51, 48, 65, 59, 32, 50, 51, 48, 66, 59, 32, 111, 32, 35, 32, 76, 69, 70, 84, 32, 70, 76, 79, 79, 82],
  [50, 51, 48, 66, 59, 32, 50, 51, 48, 65, 59, 32, 99, 32, 35, 32, 82, 73, 71, 72, 84, 32, 70, 76, 79, 79, 82],
  [50, 51, 50, 57, 59, 32, 50, 51, 50, 65, 59, 32, 111, 32, 35, 32, 76, 69, 70, 84, 45, 80, 79, 73, 78, 84, 73, 78, 71, 32, 65, 78, 71, 76, 69, 32, 66, 82, 65, 67, 75, 69, 84],
  [50, 51, 50, 65, 59, 32, 50, 51, 50, 57, 59, 32, 99, 32, 35, 32, 82, 73, 71, 72, 84, 45, 80, 79, 73, 78, 84, 73, 78, 71, 32, 65, 78, 71, 76, 69, 32, 66, 82, 65, 67, 75, 69, 84],
  [50, 55, 54, 56, 59, 32, 50, 55, 54, 57, 59, 32, 111, 32, 35, 32, 77, 69, 68, 73, 85, 77, 32, 76, 69, 70, 84, 32, 80, 65, 82, 69, 78, 84, 72, 69, 83, 73, 83, 32, 79, 82, 78, 65, 77, 69, 78, 84],
  [50, 55, 54, 57, 59, 32, 50, 55, 54, 56, 59, 32, 99, 32, 35, 32, 77, 69, 68, 73, 85, 77, 32, 82, 73, 71, 72, 84, 32, 80, 65, 82, 69, 78, 84, 72, 69, 83, 73, 83, 32, 79, 82, 78, 65, 77, 69, 78, 84],
  [50, 55, 54, 65, 59, 32, 50, 55, 54, 66, 59, 32, 111, 32, 35, 32, 77, 69, 68, 73, 85, 77, 32, 70, 76, 65, 84, 84, 69, 78, 69, 68, 32, 76, 69, 70, 84, 32, 80, 65, 82, 69, 78, 84, 72, 69, 83, 73, 83, 32, 79, 82, 78, 65, 77, 69, 78, 84],
  [50, 55, 54, 66, 59, 32, 50, 55, 54, 65, 59, 32, 99, 32, 35, 32, 77, 69, 68, 73, 85, 77, 32, 70, 76, 65, 84, 84, 69, 78, 69, 68, 32, 82, 73, 71, 72, 84, 32, 80, 65, 82, 69, 78, 84, 72, 69, 83, 73, 83, 32, 79, 82, 78, 65, 77, 69, 78, 84],
  [50, 55, 54, 67, 59, 32, 50, 55, 54, 68, 59, 32, 111, 32, 35, 32, 77, 69, 68, 73, 85, 77, 32, 76, 69, 70, 84, 45, 80, 79, 73, 78, 84, 73, 78, 71, 32, 65, 78, 71, 76, 69, 32, 66, 82, 65, 67, 75, 69, 84, 32, 79, 82, 78, 65, 77, 69, 78, 84],
  [50, 55, 54, 68, 59, 32, 50, 55, 54, 67, 59, 32, 99, 32, 35, 32, 77, 69, 68, 73, 85, 77, 32, 82, 73, 71, 72, 84, 45, 80, 79, 73, 78, 84, 73, 78, 71, 32, 65, 78, 71, 76, 69, 32, 66, 82, 65, 67, 75, 69, 84, 32, 79, 82, 78, 65, 77, 69, 78, 84],
  [50, 55, 54, 69, 59, 32, 50, 55, 54, 70, 59, 32, 111, 32, 35, 32, 72, 69, 65, 86, 89, 32, 76, 69, 70, 84, 45, 80, 79, 73, 78, 84, 73, 78, 71, 32, 65, 78, 71, 76, 69, 32, 81, 85, 79, 84, 65, 84, 73, 79, 78, 32, 77, 65, 82, 75, 32, 79, 82, 78, 65, 77, 69, 78, 84],
  [50, 55, 54, 70, 59, 32, 50, 55, 54, 69, 59, 32, 99, 32, 35, 32, 72, 69, 65, 86, 89, 32, 82, 73, 71, 72, 84, 45, 80, 79, 73, 78, 84, 73, 78, 71, 32, 65, 78, 71, 76, 69, 32, 81, 85, 79, 84, 65, 84, 73, 79, 78, 32, 77, 65, 82, 75, 32, 79, 82, 78, 65, 77, 69, 78, 84],
  [50, 55, 55, 48, 59, 32, 50, 55, 55, 49, 59, 32, 111, 32, 35, 32, 72, 69, 65, 86, 89, 32, 76, 69, 70, 84, 45, 80, 79, 73, 78, 84, 73, 78, 71, 32, 65, 78, 71, 76, 69, 32, 66, 82, 65, 67, 75, 69, 84, 32, 79, 82, 78, 65, 77, 69, 78, 84]]

/-- /repo/bidi/internal/gen/BidiBrackets.txt:97-112. -/
def bracketFile7 : List (List Nat) := [
  [50, 55, 55, 49, 59, 32, 50, 55, 55, 48, 59, 32, 99, 32, 35, 32, 72, 69, 65, 86, 89, 32, 82, 73, 71, 72, 84, 45, 80, 79, 73, 78, 84, 73, 78, 71, 32, 65, 78, 71, 76, 69, 32, 66, 82, 65, 67, 75, 69, 84, 32, 79, 82, 78, 65, 77, 69, 78, 84],
  [50, 55, 55, 50, 59, 32, 50, 55, 55, 51, 59, 32, 111, 32, 35, 32, 76, 73, 71, 72, 84, 32, 76, 69, 70, 84, 32, 84, 79, 82, 84, 79, 73, 83, 69, 32, 83, 72, 69, 76, 76, 32, 66, 82, 65, 67, 75, 69, 84, 32, 79, 82, 78, 65, 77, 69, 78, 84],
  [50, 55, 55, 51, 59, 32, 50, 55, 55, 50, 59, 32, 99, 32, 35, 32, 76, 73, 71, 72, 84, 32, 82, 73, 71, 72, 84, 32, 84, 79, 82, 84, 79, 73, 83, 69, 32, 83, 72, 69, 76, 76, 32, 66, 82, 65, 67, 75, 69, 84, 32, 79, 82, 78, 65, 77, 69, 78, 84],
  [50, 55, 55, 52, 59, 32, 50, 55, 55, 53, 59, 32, 111, 32, 35, 32, 77, 69, 68, 73, 85, 77, 32, 76, 69, 70, 84, 32, 67, 85, 82, 76, 89, 32, 66, 82, 65, 67, 75, 69, 84, 32, 79, 82, 78, 65, 77, 69, 78, 84],
  [50, 55, 55, 53, 59, 32, 50, 55, 55, 52, 59, 32, 99, 32, 35, 32, 77, 69, 68, 73, 85, 77, 32, 82, 73, 71, 72, 84, 32, 67, 85, 82, 76, 89, 32, 66, 82, 65, 67, 75, 69, 84, 32, 79, 82, 78, 65, 77, 69, 78, 84],
  [50, 55, 67, 53, 59, 32, 50, 55, 67, 54, 59, 32, 111, 32, 35, 32, 76, 69, 70, 84, 32, 83, 45, 83, 72, 65, 80, 69, 68, 32, 66, 65, 71, 32, 68, 69, 76, 73, 77, 73, 84, 69, 82],
  [50, 55, 67, 54, 59, 32, 50, 55, 67, 53, 59, 32, 99, 32, 35, 32, 82, 73, 71, 72, 84, 32, 83, 45, 83, 72, 65, 80, 69, 68, 32, 66, 65, 71, 32, 68, 69, 76, 73, 77, 73, 84, 69, 82],
  [50, 55, 69, 54, 59, 32, 50, 55, 69, 55, 59, 32, 111, 32, 35, 32, 77, 65, 84, 72, 69, 77, 65, 84, 73, 67, 65, 76, 32, 76, 69, 70, 84, 32, 87, 72, 73, 84, 69, 32, 83, 81, 85, 65, 82, 69, 32, 66, 82, 65, 67, 75, 69, 84],
  [50, 55, 69, 55, 59, 32, 50, 55, 69, 54, 59, 32, 99, 32, 35, 32, 77, 65, 84, 72, 69, 77, 65, 84, 73, 67, 65, 76, 32, 82, 73, 71, 72, 84, 32, 87, 72, 73, 84, 69, 32, 83, 81, 85, 65, 82, 69, 32, 66, 82, 65, 67, 75, 69, 84],
  [50, 55, 69, 56, 59, 32, 50, 55, 69, 57, 59, 32, 111, 32, 35, 32, 77, 65, 84, 72, 69, 77, 65, 84, 73, 67, 65, 76, 32, 76, 69, 70, 84, 32, 65, 78, 71, 76, 69, 32, 66, 82, 65, 67, 75, 69, 84],
  [50, 55, 69, 57, 59, 32, 50, 55, 69, 56, 59, 32, 99, 32, 35, 32, 77, 65, 84, 72, 69, 77, 65, 84, 73, 67, 65, 76, 32, 82, 73, 71, 72, 84, 32, 65, 78, 71, 76, 69, 32, 66, 82, 65, 67, 75, 69, 84],
  [50, 55, 69, 65, 59, 32, 50, 55, 69, 66, 59, 32, 111, 32, 35, 32, 77, 65, 84, 72, 69, 77, 65, 84, 73, 67, 65, 76, 32, 76, 69, 70, 84, 32, 68, 79, 85, 66, 76, 69, 32, 65, 78, 71, 76, 69, 32, 66, 82, 65, 67, 75, 69, 84],
  [50, 55, 69, 66, 59, 32, 50, 55, 69, 65, 59, 32, 99, 32, 35, 32, 77, 65, 84, 72, 69, 77, 65, 84, 73, 67, 65, 76, 32, 82, 73, 71, 72, 84, 32, 68, 79, 85, 66, 76, 69, 32, 65, 78, 71, 76, 69, 32, 66, 82, 65, 67, 75, 69, 84],
  [50, 55, 69, 67, 59, 32, 50, 55, 69, 68, 59, 32, 111, 32, 35, 32, 77, 65, 84, 72, 69, 77, 65, 84, 73, 67, 65, 76, 32, 76, 69, 70, 84, 32, 87, 72, 73, 84, 69, 32, 84, 79, 82, 84, 79, 73, 83, 69, 32, 83, 72, 69, 76, 76, 32, 66, 82, 65, 67, 75, 69, 84],
  [50, 55, 69, 68, 59, 32, 50, 55, 69, 67, 59, 32, 99, 32, 35, 32, 77, 65, 84, 72, 69, 77, 65, 84, 73, 67, 65, 76, 32, 82, 73, 71, 72, 84, 32, 87, 72, 73, 84, 69, 32, 84, 79, 82, 84, 79, 73, 83, 69, 32, 83, 72, 69, 76, 76, 32, 66, 82, 65, 67, 75, 69, 84],
  [50, 55, 69, 69, 59, 32, 50, 55, 69, 70, 59, 32, 111, 32, 35, 32, 77, 65, 84, 72, 69, 77, 65, 84, 73, 67, 65, 76, 32, 76, 69, 70, 84, 32, 70, 76, 65, 84, 84, 69, 78, 69, 68, 32, 80, 65, 82, 69, 78, 84, 72, 69, 83, 73, 83]]

/-- /repo/bidi/internal/gen/BidiBrackets.txt:113-128. -/
def bracketFile8 : List (List Nat) := [
  [50, 55, 69, 70, 59, 32, 50, 55, 69, 69, 59, 32, 99, 32, 35, 32, 77, 65, 84, 72, 69, 77, 65, 84, 73, 67, 65, 76, 32, 82, 73, 71, 72, 84, 32, 70, 76, 65, 84, 84, 69, 78, 69, 68, 32, 80, 65, 82, 69, 78, 84, 72, 69, 83, 73, 83],
  [50, 57, 56, 51, 59, 32, 50, 57, 56, 52, 59, 32, 111, 32, 35, 32, 76, 69, 70, 84, 32, 87, 72, 73, 84, 69, 32, 67, 85, 82, 76, 89, 32, 66, 82, 65, 67, 75, 69, 84],
  [50, 57, 56, 52, 59, 32, 50, 57, 56, 51, 59, 32, 99, 32, 35, 32, 82, 73, 71, 72, 84, 32, 87, 72, 73, 84, 69, 32, 67, 85, 82, 76, 89, 32, 66, 82, 65, 67, 75, 69, 84],
  [50, 57, 56, 53, 59, 32, 50, 57, 56, 54, 59, 32, 111, 32, 35, 32, 76, 69, 70, 84, 32, 87, 72, 73, 84, 69, 32, 80, 65, 82, 69, 78, 84, 72, 69, 83, 73, 83],
  [50, 57, 56, 54, 59, 32, 50, 57, 56, 53, 59, 32, 99, 32, 35, 32, 82, 73, 71, 72, 84, 32, 87, 72, 73, 84, 69, 32, 80, 65, 82, 69, 78, 84, 72, 69, 83, 73, 83],
  [50, 57, 56, 55, 59, 32, 50, 57, 56, 56, 59, 32, 111, 32, 35, 32, 90, 32, 78, 79, 84, 65, 84, 73, 79, 78, 32, 76, 69, 70, 84, 32, 73, 77, 65, 71, 69, 32, 66, 82, 65, 67, 75, 69, 84],
  [50, 57, 56, 56, 59, 32, 50, 57, 56, 55, 59, 32, 99, 32, 35, 32, 90, 32, 78, 79, 84, 65, 84, 73, 79, 78, 32, 82, 73, 71, 72, 84, 32, 73, 77, 65, 71, 69, 32, 66, 82, 65, 67, 75, 69, 84],
  [50, 57, 56, 57, 59, 32, 50, 57, 56, 65, 59, 32, 111, 32, 35, 32, 90, 32, 78, 79, 84, 65, 84, 73, 79, 78, 32, 76, 69, 70, 84, 32, 66, 73, 78, 68, 73, 78, 71, 32, 66, 82, 65, 67, 75, 69, 84],
  [50, 57, 56, 65, 59, 32, 50, 57, 56, 57, 59, 32, 99, 32, 35, 32, 90, 32, 78, 79, 84, 65, 84, 73, 79, 78, 32, 82, 73, 71, 72, 84, 32, 66, 73, 78, 68, 73, 78, 71, 32, 66, 82, 65, 67, 75, 69, 84],
  [50, 57, 56, 66, 59, 32, 50, 57, 56, 67, 59, 32, 111, 32, 35, 32, 76, 69, 70, 84, 32, 83, 81, 85, 65, 82, 69, 32, 66, 82, 65, 67, 75, 69, 84, 32, 87, 73, 84, 72, 32, 85, 78, 68, 69, 82, 66, 65, 82],
  [50, 57, 56, 67, 59, 32, 50, 57, 56, 66, 59, 32, 99, 32, 35, 32, 82, 73, 71, 72, 84, 32, 83, 81, 85, 65, 82, 69, 32, 66, 82, 65, 67, 75, 69, 84, 32, 87, 73, 84, 72, 32, 85, 78, 68, 69, 82, 66, 65, 82],
  [50, 57, 56, 68, 59, 32, 50, 57, 57, 48, 59, 32, 111, 32, 35, 32, 76, 69, 70, 84, 32, 83, 81, 85, 65, 82, 69, 32, 66, 82, 65, 67, 75, 69, 84, 32, 87, 73, 84, 72, 32, 84, 73, 67, 75, 32, 73, 78, 32, 84, 79, 80, 32, 67, 79, 82, 78, 69, 82],
  [50, 57, 56, 69, 59, 32, 50, 57, 56, 70, 59, 32, 99, 32, 35, 32, 82, 73, 71, 72, 84, 32, 83, 81, 85, 65, 82, 69, 32, 66, 82, 65, 67, 75, 69, 84, 32, 87, 73, 84, 72, 32, 84, 73, 67, 75, 32, 73, 78, 32, 66, 79, 84, 84, 79, 77, 32, 67, 79, 82, 78, 69, 82],
  [50, 57, 56, 70, 59, 32, 50, 57, 56, 69, 59, 32, 111, 32, 35, 32, 76, 69, 70, 84, 32, 83, 81, 85, 65, 82, 69, 32, 66, 82, 65, 67, 75, 69, 84, 32, 87, 73, 84, 72, 32, 84, 73, 67, 75, 32, 73, 78, 32, 66, 79, 84, 84, 79, 77, 32, 67, 79, 82, 78, 69, 82],
  [50, 57, 57, 48, 59, 32, 50, 57, 56, 68, 59, 32, 99, 32, 35, 32, 82, 73, 71, 72, 84, 32, 83, 81, 85, 65, 82, 69, 32, 66, 82, 65, 67, 75, 69, 84, 32, 87, 73, 84, 72, 32, 84, 73, 67, 75, 32, 73, 78, 32, 84, 79, 80, 32, 67, 79, 82, 78, 69, 82],
  [50, 57, 57, 49, 59, 32, 50, 57, 57, 50, 59, 32, 111, 32, 35, 32, 76, 69, 70, 84, 32, 65, 78, 71, 76, 69, 32, 66, 82, 65, 67, 75, 69, 84, 32, 87, 73, 84, 72, 32, 68, 79, 84]]

/-- /repo/bidi/internal/gen/BidiBrackets.txt:129-144. -/
def bracketFile9 : List (List Nat) := [
  [50, 57, 57, 50, 59, 32, 50, 57, 57, 49, 59, 32, 99, 32, 35, 32, 82, 73, 71, 72, 84, 32, 65, 78, 71, 76, 69, 32, 66, 82, 65, 67, 75, 69, 84, 32, 87, 73, 84, 72, 32, 68, 79, 84],
  [50, 57, 57, 51, 59, 32, 50, 57, 57, 52, 59, 32, 111, 32, 35, 32, 76, 69, 70, 84, 32, 65, 82, 67, 32, 76, 69, 83, 83, 45, 84, 72, 65, 78, 32, 66, 82, 65, 67, 75, 69, 84],
  [50, 57, 57, 52, 59, 32, 50, 57, 57, 51, 59, 32, 99, 32, 35, 32, 82, 73, 71, 72, 84, 32, 65, 82, 67, 32, 71, 82, 69, 65, 84, 69, 82, 45, 84, 72, 65, 78, 32, 66, 82, 65, 67, 75, 69, 84],
  [50, 57, 57, 53, 59, 32, 50, 57, 57, 54, 59, 32, 111, 32, 35, 32, 68, 79, 85, 66, 76, 69, 32, 76, 69, 70, 84, 32, 65, 82, 67, 32, 71, 82, 69, 65, 84, 69, 82, 45, 84, 72, 65, 78, 32, 66, 82, 65, 67, 75, 69, 84],
  [50, 57, 57, 54, 59, 32, 50, 57, 57, 53, 59, 32, 99, 32, 35, 32, 68, 79, 85, 66, 76, 69, 32, 82, 73, 71, 72, 84, 32, 65, 82, 67, 32, 76, 69, 83, 83, 45, 84, 72, 65, 78, 32, 66, 82, 65, 67, 75, 69, 84],
  [50, 57, 57, 55, 59, 32, 50, 57, 57, 56, 59, 32, 111, 32, 35, 32, 76, 69, 70, 84, 32, 66, 76, 65, 67, 75, 32, 84, 79, 82, 84, 79, 73, 83, 69, 32, 83, 72, 69, 76, 76, 32, 66, 82, 65, 67, 75, 69, 84],
  [50, 57, 57, 56, 59, 32, 50, 57, 57, 55, 59, 32, 99, 32, 35, 32, 82, 73, 71, 72, 84, 32, 66, 76, 65, 67, 75, 32, 84, 79, 82, 84, 79, 73, 83, 69, 32, 83, 72, 69, 76, 76, 32, 66, 82, 65, 67, 75, 69, 84],
  [50, 57, 68, 56, 59, 32, 50, 57, 68, 57, 59, 32, 111, 32, 35, 32, 76, 69, 70, 84, 32, 87, 73, 71, 71, 76, 89, 32, 70, 69, 78, 67, 69],
  [50, 57, 68, 57, 59, 32, 50, 57, 68, 56, 59, 32, 99, 32, 35, 32, 82, 73, 71, 72, 84, 32, 87, 73, 71, 71, 76, 89, 32, 70, 69, 78, 67, 69],
  [50, 57, 68, 65, 59, 32, 50, 57, 68, 66, 59, 32, 111, 32, 35, 32, 76, 69, 70, 84, 32, 68, 79, 85, 66, 76, 69, 32, 87, 73, 71, 71, 76, 89, 32, 70, 69, 78, 67, 69],
  [50, 57, 68, 66, 59, 32, 50, 57, 68, 65, 59, 32, 99, 32, 35, 32, 82, 73, 71, 72, 84, 32, 68, 79, 85, 66, 76, 69, 32, 87, 73, 71, 71, 76, 89, 32, 70, 69, 78, 67, 69],
  [50, 57, 70, 67, 59, 32, 50, 57, 70, 68, 59, 32, 111, 32, 35, 32, 76, 69, 70, 84, 45, 80, 79, 73, 78, 84, 73, 78, 71, 32, 67, 85, 82, 86, 69, 68, 32, 65, 78, 71, 76, 69, 32, 66, 82, 65, 67, 75, 69, 84],
  [50, 57, 70, 68, 59, 32, 50, 57, 70, 67, 59, 32, 99, 32, 35, 32, 82, 73, 71, 72, 84, 45, 80, 79, 73, 78, 84, 73, 78, 71, 32, 67, 85, 82, 86, 69, 68, 32, 65, 78, 71, 76, 69, 32, 66, 82, 65, 67, 75, 69, 84],
  [50, 69, 50, 50, 59, 32, 50, 69, 50, 51, 59, 32, 111, 32, 35, 32, 84, 79, 80, 32, 76, 69, 70, 84, 32, 72, 65, 76, 70, 32, 66, 82, 65, 67, 75, 69, 84],
  [50, 69, 50, 51, 59, 32, 50, 69, 50, 50, 59, 32, 99, 32, 35, 32, 84, 79, 80, 32, 82, 73, 71, 72, 84, 32, 72, 65, 76, 70, 32, 66, 82, 65, 67, 75, 69, 84],
  [50, 69, 50, 52, 59, 32, 50, 69, 50, 53, 59, 32, 111, 32, 35, 32, 66, 79, 84, 84, 79, 77, 32, 76, 69, 70, 84, 32, 72, 65, 76, 70, 32, 66, 82, 65, 67, 75, 69, 84]]

/-- /repo/bidi/internal/gen/BidiBrackets.txt:145-160. -/
def bracketFile10 : List (List Nat) := [
  [50, 69, 50, 53, 59, 32, 50, 69, 50, 52, 59, 32, 99, 32, 35, 32, 66, 79, 84, 84, 79, 77, 32, 82, 73, 71, 72, 84, 32, 72, 65, 76, 70, 32, 66, 82, 65, 67, 75, 69, 84],
  [50, 69, 50, 54, 59, 32, 50, 69, 50, 55, 59, 32, 111, 32, 35, 32, 76, 69, 70, 84, 32, 83, 73, 68, 69, 87, 65, 89, 83, 32, 85, 32, 66, 82, 65, 67, 75, 69, 84],
  [50, 69, 50, 55, 59, 32, 50, 69, 50, 54, 59, 32, 99, 32, 35, 32, 82, 73, 71, 72, 84, 32, 83, 73, 68, 69, 87, 65, 89, 83, 32, 85, 32, 66, 82, 65, 67, 75, 69, 84],
  [50, 69, 50, 56, 59, 32, 50, 69, 50, 57, 59, 32, 111, 32, 35, 32, 76, 69, 70, 84, 32, 68, 79, 85, 66, 76, 69, 32, 80, 65, 82, 69, 78, 84, 72, 69, 83, 73, 83],
  [50, 69, 50, 57, 59, 32, 50, 69, 50, 56, 59, 32, 99, 32, 35, 32, 82, 73, 71, 72, 84, 32, 68, 79, 85, 66, 76, 69, 32, 80, 65, 82, 69, 78, 84, 72, 69, 83, 73, 83],
  [51, 48, 48, 56, 59, 32, 51, 48, 48, 57, 59, 32, 111, 32, 35, 32, 76, 69, 70, 84, 32, 65, 78, 71, 76, 69, 32, 66, 82, 65, 67, 75, 69, 84],
  [51, 48, 48, 57, 59, 32, 51, 48, 48, 56, 59, 32, 99, 32, 35, 32, 82, 73, 71, 72, 84, 32, 65, 78, 71, 76, 69, 32, 66, 82, 65, 67, 75, 69, 84],
  [51, 48, 48, 65, 59, 32, 51, 48, 48, 66, 59, 32, 111, 32, 35, 32, 76, 69, 70, 84, 32, 68, 79, 85, 66, 76, 69, 32, 65, 78, 71, 76, 69, 32, 66, 82, 65, 67, 75, 69, 84],
  [51, 48, 48, 66, 59, 32, 51, 48, 48, 65, 59, 32, 99, 32, 35, 32, 82, 73, 71, 72, 84, 32, 68, 79, 85, 66, 76, 69, 32, 65, 78, 71, 76, 69, 32, 66, 82, 65, 67, 75, 69, 84],
  [51, 48, 48, 67, 59, 32, 51, 48, 48, 68, 59, 32, 111, 32, 35, 32, 76, 69, 70, 84, 32, 67, 79, 82, 78, 69, 82, 32, 66, 82, 65, 67, 75, 69, 84],
  [51, 48, 48, 68, 59, 32, 51, 48, 48, 67, 59, 32, 99, 32, 35, 32, 82, 73, 71, 72, 84, 32, 67, 79, 82, 78, 69, 82, 32, 66, 82, 65, 67, 75, 69, 84],
  [51, 48, 48, 69, 59, 32, 51, 48, 48, 70, 59, 32, 111, 32, 35, 32, 76, 69, 70, 84, 32, 87, 72, 73, 84, 69, 32, 67, 79, 82, 78, 69, 82, 32, 66, 82, 65, 67, 75, 69, 84],
  [51, 48, 48, 70, 59, 32, 51, 48, 48, 69, 59, 32, 99, 32, 35, 32, 82, 73, 71, 72, 84, 32, 87, 72, 73, 84, 69, 32, 67, 79, 82, 78, 69, 82, 32, 66, 82, 65, 67, 75, 69, 84],
  [51, 48, 49, 48, 59, 32, 51, 48, 49, 49, 59, 32, 111, 32, 35, 32, 76, 69, 70, 84, 32, 66, 76, 65, 67, 75, 32, 76, 69, 78, 84, 73, 67, 85, 76, 65, 82, 32, 66, 82, 65, 67, 75, 69, 84],
  [51, 48, 49, 49, 59, 32, 51, 48, 49, 48, 59, 32, 99, 32, 35, 32, 82, 73, 71, 72, 84, 32, 66, 76, 65, 67, 75, 32, 76, 69, 78, 84, 73, 67, 85, 76, 65, 82, 32, 66, 82, 65, 67, 75, 69, 84],
  [51, 48, 49, 52, 59, 32, 51, 48, 49, 53, 59, 32, 111, 32, 35, 32, 76, 69, 70, 84, 32, 84, 79, 82, 84, 79, 73, 83, 69, 32, 83, 72, 69, 76, 76, 32, 66, 82, 65, 67, 75, 69, 84]]

/-- /repo/bidi/internal/gen/BidiBrackets.txt:161-176. -/
def bracketFile11 : List (List Nat) := [
  [51, 48, 49, 53, 59, 32, 51, 48, 49, 52, 59, 32, 99, 32, 35, 32, 82, 73, 71, 72, 84, 32, 84, 79, 82, 84, 79, 73, 83, 69, 32, 83, 72, 69, 76, 76, 32, 66, 82, 65, 67, 75, 69, 84],
  [51, 48, 49, 54, 59, 32, 51, 48, 49, 55, 59, 32, 111, 32, 35, 32, 76, 69, 70, 84, 32, 87, 72, 73, 84, 69, 32, 76, 69, 78, 84, 73, 67, 85, 76, 65, 82, 32, 66, 82, 65, 67, 75, 69, 84],
  [51, 48, 49, 55, 59, 32, 51, 48, 49, 54, 59, 32, 99, 32, 35, 32, 82, 73, 71, 72, 84, 32, 87, 72, 73, 84, 69, 32, 76, 69, 78, 84, 73, 67, 85, 76, 65, 82, 32, 66, 82, 65, 67, 75, 69, 84],
  [51, 48, 49, 56, 59, 32, 51, 48, 49, 57, 59, 32, 111, 32, 35, 32, 76, 69, 70, 84, 32, 87, 72, 73, 84, 69, 32, 84, 79, 82, 84, 79, 73, 83, 69, 32, 83, 72, 69, 76, 76, 32, 66, 82, 65, 67, 75, 69, 84],
  [51, 48, 49, 57, 59, 32, 51, 48, 49, 56, 59, 32, 99, 32, 35, 32, 82, 73, 71, 72, 84, 32, 87, 72, 73, 84, 69, 32, 84, 79, 82, 84, 79, 73, 83, 69, 32, 83, 72, 69, 76, 76, 32, 66, 82, 65, 67, 75, 69, 84],
  [51, 48, 49, 65, 59, 32, 51, 48, 49, 66, 59, 32, 111, 32, 35, 32, 76, 69, 70, 84, 32, 87, 72, 73, 84, 69, 32, 83, 81, 85, 65, 82, 69, 32, 66, 82, 65, 67, 75, 69, 84],
  [51, 48, 49, 66, 59, 32, 51, 48, 49, 65, 59, 32, 99, 32, 35, 32, 82, 73, 71, 72, 84, 32, 87, 72, 73, 84, 69, 32, 83, 81, 85, 65, 82, 69, 32, 66, 82, 65, 67, 75, 69, 84],
  [70, 69, 53, 57, 59, 32, 70, 69, 53, 65, 59, 32, 111, 32, 35, 32, 83, 77, 65, 76, 76, 32, 76, 69, 70, 84, 32, 80, 65, 82, 69, 78, 84, 72, 69, 83, 73, 83],
  [70, 69, 53, 65, 59, 32, 70, 69, 53, 57, 59, 32, 99, 32, 35, 32, 83, 77, 65, 76, 76, 32, 82, 73, 71, 72, 84, 32, 80, 65, 82, 69, 78, 84, 72, 69, 83, 73, 83],
  [70, 69, 53, 66, 59, 32, 70, 69, 53, 67, 59, 32, 111, 32, 35, 32, 83, 77, 65, 76, 76, 32, 76, 69, 70, 84, 32, 67, 85, 82, 76, 89, 32, 66, 82, 65, 67, 75, 69, 84],
  [70, 69, 53, 67, 59, 32, 70, 69, 53, 66, 59, 32, 99, 32, 35, 32, 83, 77, 65, 76, 76, 32, 82, 73, 71, 72, 84, 32, 67, 85, 82, 76, 89, 32, 66, 82, 65, 67, 75, 69, 84],
  [70, 69, 53, 68, 59, 32, 70, 69, 53, 69, 59, 32, 111, 32, 35, 32, 83, 77, 65, 76, 76, 32, 76, 69, 70, 84, 32, 84, 79, 82, 84, 79, 73, 83, 69, 32, 83, 72, 69, 76, 76, 32, 66, 82, 65, 67, 75, 69, 84],
  [70, 69, 53, 69, 59, 32, 70, 69, 53, 68, 59, 32, 99, 32, 35, 32, 83, 77, 65, 76, 76, 32, 82, 73, 71, 72, 84, 32, 84, 79, 82, 84, 79, 73, 83, 69, 32, 83, 72, 69, 76, 76, 32, 66, 82, 65, 67, 75, 69, 84],
  [70, 70, 48, 56, 59, 32, 70, 70, 48, 57, 59, 32, 111, 32, 35, 32, 70, 85, 76, 76, 87, 73, 68, 84, 72, 32, 76, 69, 70, 84, 32, 80, 65, 82, 69, 78, 84, 72, 69, 83, 73, 83],
  [70, 70, 48, 57, 59, 32, 70, 70, 48, 56, 59, 32, 99, 32, 35, 32, 70, 85, 76, 76, 87, 73, 68, 84, 72, 32, 82, 73, 71, 72, 84, 32, 80, 65, 82, 69, 78, 84, 72, 69, 83, 73, 83],
  [70, 70, 51, 66, 59, 32, 70, 70, 51, 68, 59, 32, 111, 32, 35, 32, 70, 85, 76, 76, 87, 73, 68, 84, 72, 32, 76, 69, 70, 84, 32, 83, 81, 85, 65, 82, 69, 32, 66, 82, 65, 67, 75, 69, 84]]

/-- /repo/bidi/internal/gen/BidiBrackets.txt:177-185. -/
def bracketFile12 : List (List Nat) := [
  [70, 70, 51, 68, 59, 32, 70, 70, 51, 66, 59, 32, 99, 32, 35, 32, 70, 85, 76, 76, 87, 73, 68, 84, 72, 32, 82, 73, 71, 72, 84, 32, 83, 81, 85, 65, 82, 69, 32, 66, 82, 65, 67, 75, 69, 84],
  [70, 70, 53, 66, 59, 32, 70, 70, 53, 68, 59, 32, 111, 32, 35, 32, 70, 85, 76, 76, 87, 73, 68, 84, 72, 32, 76, 69, 70, 84, 32, 67, 85, 82, 76, 89, 32, 66, 82, 65, 67, 75, 69, 84],
  [70, 70, 53, 68, 59, 32, 70, 70, 53, 66, 59, 32, 99, 32, 35, 32, 70, 85, 76, 76, 87, 73, 68, 84, 72, 32, 82, 73, 71, 72, 84, 32, 67, 85, 82, 76, 89, 32, 66, 82, 65, 67, 75, 69, 84],
  [70, 70, 53, 70, 59, 32, 70, 70, 54, 48, 59, 32, 111, 32, 35, 32, 70, 85, 76, 76, 87, 73, 68, 84, 72, 32, 76, 69, 70, 84, 32, 87, 72, 73, 84, 69, 32, 80, 65, 82, 69, 78, 84, 72, 69, 83, 73, 83],
  [70, 70, 54, 48, 59, 32, 70, 70, 53, 70, 59, 32, 99, 32, 35, 32, 70, 85, 76, 76, 87, 73, 68, 84, 72, 32, 82, 73, 71, 72, 84, 32, 87, 72, 73, 84, 69, 32, 80, 65, 82, 69, 78, 84, 72, 69, 83, 73, 83],
  [70, 70, 54, 50, 59, 32, 70, 70, 54, 51, 59, 32, 111, 32, 35, 32, 72, 65, 76, 70, 87, 73, 68, 84, 72, 32, 76, 69, 70, 84, 32, 67, 79, 82, 78, 69, 82, 32, 66, 82, 65, 67, 75, 69, 84],
  [70, 70, 54, 51, 59, 32, 70, 70, 54, 50, 59, 32, 99, 32, 35, 32, 72, 65, 76, 70, 87, 73, 68, 84, 72, 32, 82, 73, 71, 72, 84, 32, 67, 79, 82, 78, 69, 82, 32, 66, 82, 65, 67, 75, 69, 84],
  [],
  [35, 32, 69, 79, 70]]

/-- /repo/bidi/internal/gen/BidiBrackets.txt. -/
def bracketFile : List (List Nat) :=
  bracketFile1 ++ bracketFile2 ++ bracketFile3 ++ bracketFile4 ++ bracketFile5 ++ bracketFile6 ++ bracketFile7 ++ bracketFile8 ++ bracketFile9 ++ bracketFile10 ++ bracketFile11 ++ bracketFile12

end Uax.Ucd
