import Verif.Model.ViewMem

/-
What programs with string views do according to the standard: variables hold strings. `VLegal` are the preconditions the standard
states, and one more.
-/
namespace Dart.Spec
open SView (VOp VAns Vars setVar)

/-- A memory range. -/
def part (m : Bytes) (p n : Nat) : Bytes := (m.drop p).take n

/-- The characters before the first NUL. -/
def untilNul (s : Bytes) : Bytes := s.takeWhile (· != 0)

/-- Three-way lexicographic comparison of characters as unsigned numbers. -/
def lexCompare : Bytes → Bytes → Int
  | [], [] => 0
  | [], _ :: _ => -1
  | _ :: _, [] => 1
  | a :: s, b :: t => if a.toNat < b.toNat then -1 else if b.toNat < a.toNat then 1 else lexCompare s t

/-- What may be asked for: ranges that exist, C strings that end, characters that are there, no more removed than there is. -/
def VLegal (m : Bytes) (e : Vars Bytes) : VOp → Prop
  | .range _ p n => p + n ≤ m.length
  | .cstr _ p => ∃ q, p ≤ q ∧ m[q]? = some 0
  | .removePrefix x n => n ≤ (e x).length
  | .removeSuffix x n => n ≤ (e x).length
  | .idx x i => i < (e x).length
  | .front x => e x ≠ []
  | .back x => e x ≠ []
  -- the standard throws for an offset past the end
  | .compareCstr x offset _ p => offset ≤ (e x).length ∧ ∃ q, p ≤ q ∧ m[q]? = some 0
  | _ => True

/-- One statement on strings. -/
def vspec (m : Bytes) (e : Vars Bytes) : VOp → Vars Bytes × VAns
  | .null x => (setVar e x [], .none)
  | .range x p n => (setVar e x (part m p n), .none)
  | .cstr x p => (setVar e x (untilNul (m.drop p)), .none)
  | .assign x y => (setVar e x (e y), .none)
  | .swap x y => (setVar (setVar e x (e y)) y (e x), .none)
  | .substr x y offset count =>
    if offset ≤ (e y).length then (setVar e x (part (e y) offset count), .none) else (e, .threw .outOfRange)
  | .removePrefix x n => (setVar e x ((e x).drop n), .none)
  | .removeSuffix x n => (setVar e x ((e x).take ((e x).length - n)), .none)
  | .size x => (e, .num (e x).length)
  | .at x i => (e, match (e x)[i]? with | some c => .char c | none => .threw .outOfRange)
  | .idx x i => (e, match (e x)[i]? with | some c => .char c | none => .none)
  | .front x => (e, match (e x).head? with | some c => .char c | none => .none)
  | .back x => (e, match (e x).getLast? with | some c => .char c | none => .none)
  | .copy x count offset => (e, if offset ≤ (e x).length then .chars (part (e x) offset count) else .threw .outOfRange)
  | .toString x => (e, .chars (e x))
  | .forward x => (e, .chars (e x))
  | .backward x => (e, .chars (e x).reverse)
  | .compare x y => (e, .num (lexCompare (e x) (e y)))
  | .compareAt x offset count y =>
    (e, if offset ≤ (e x).length then .num (lexCompare (part (e x) offset count) (e y)) else .threw .outOfRange)
  | .compareCstr x offset count p =>
    (e, if offset ≤ (e x).length then .num (lexCompare (part (e x) offset count) (untilNul (m.drop p))) else .threw .outOfRange)

/-- A program on strings. -/
def vspecRun (m : Bytes) (e : Vars Bytes) : List VOp → Vars Bytes × List VAns
  | [] => (e, [])
  | op :: ops => ((vspecRun m (vspec m e op).1 ops).1, (vspec m e op).2 :: (vspecRun m (vspec m e op).1 ops).2)

/-- All statements of a program are legal. -/
def VLegalRun (m : Bytes) (e : Vars Bytes) : List VOp → Prop
  | [] => True
  | op :: ops => VLegal m e op ∧ VLegalRun m (vspec m e op).1 ops

end Dart.Spec
