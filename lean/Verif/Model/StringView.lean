import Verif.Model.Buffer

/-
The library's own `string_view`, used where the standard library has none. A view is the list of its
characters (one byte each, `basic_string_view<char>`); positions and lengths are `size_t`, which is
taken to have 64 bits, and arithmetic on them wraps around. Overloads that make a view from a character,
a pointer and a length, or a C string, and forward, are not repeated.
-/
namespace Dart.SView

/-- `npos`, include/dart/support/string_view.h 37. -/
def npos : Nat := 2 ^ 64 - 1

/-- Leaving a `noexcept` function by an exception terminates the program; there is no result. -/
def noexcept {α : Type} : Res α → Res α
  | .throw _ => .ub
  | r => r

/-- `at`, include/dart/support/string_view.tcc 56-59. -/
def atIdx (s : Bytes) (idx : Nat) : Res UInt8 :=
  if idx ≥ s.length then .throw .outOfRange else Res.ofRead s[idx]?

/-- `front`, include/dart/support/string_view.tcc 62-67: no check. -/
def front (s : Bytes) : Res UInt8 := Res.ofRead s[0]?

/-- `back`, include/dart/support/string_view.tcc 70-76: no check. -/
def back (s : Bytes) : Res UInt8 := Res.ofRead s[(s.length + (2 ^ 64 - 1)) % 2 ^ 64]?

/-- `copy`, include/dart/support/string_view.tcc 129-136: the characters written. -/
def copy (s : Bytes) (count offset : Nat) : Res Bytes :=
  if offset > s.length then .throw .outOfRange else .ok ((s.drop offset).take (min count (s.length - offset)))

/-- `substr`, include/dart/support/string_view.tcc 139-145. -/
def substr (s : Bytes) (offset count : Nat) : Res Bytes :=
  if offset > s.length then .throw .outOfRange else .ok ((s.drop offset).take (min count (s.length - offset)))

/-- `std::char_traits<char>::compare` of the first `n` characters. -/
def traitsCompare : Bytes → Bytes → Nat → Int
  | a :: s, b :: t, n + 1 => if a < b then -1 else if b < a then 1 else traitsCompare s t n
  | _, _, _ => 0

/-- `compare`, include/dart/support/string_view.tcc 148-156. -/
def compare (s t : Bytes) : Int :=
  let rlen := min s.length t.length
  let comp := traitsCompare s t rlen
  if comp ≠ 0 then comp else if s.length < t.length then -1 else if s.length > t.length then 1 else 0

/-- `compare(offset, count, other)`, include/dart/support/string_view.tcc 159-162. -/
def compareAt (s : Bytes) (offset count : Nat) (t : Bytes) : Res Int :=
  (substr s offset count).bind fun x => .ok (compare x t)

/-- `compare` with two ranges, include/dart/support/string_view.tcc 165-168. -/
def compareRanges (s : Bytes) (o₁ c₁ : Nat) (t : Bytes) (o₂ c₂ : Nat) : Res Int :=
  (substr s o₁ c₁).bind fun x => (substr t o₂ c₂).bind fun y => .ok (compare x y)

/-- `starts_with`, include/dart/support/string_view.tcc 188-190. -/
def startsWith (s t : Bytes) : Res Bool :=
  if s.length ≥ t.length then noexcept ((compareAt s 0 t.length t).bind fun c => .ok (c == 0)) else .ok false

/-- `starts_with` a character, include/dart/support/string_view.tcc 193-195. -/
def startsWithChar (s : Bytes) (c : UInt8) : Res Bool :=
  if s.length = 0 then .ok false else (front s).bind fun x => .ok (x == c)

/-- `ends_with`, include/dart/support/string_view.tcc 203-205. -/
def endsWith (s t : Bytes) : Res Bool :=
  if s.length ≥ t.length then noexcept ((compareAt s (s.length - t.length) npos t).bind fun c => .ok (c == 0))
  else .ok false

/-- `ends_with` a character, include/dart/support/string_view.tcc 208-210. -/
def endsWithChar (s : Bytes) (c : UInt8) : Res Bool :=
  if s.length = 0 then .ok false else (back s).bind fun x => .ok (x == c)

/-- The loop of `find`, include/dart/support/string_view.tcc 224-229. `fuel` bounds the number of
rounds; it is never used up. -/
def findLoop (s t : Bytes) : Nat → Nat → Res Nat
  | 0, _ => .ub
  | fuel + 1, offset =>
    if (offset + t.length) % 2 ^ 64 ≤ s.length then
      (compareAt s offset t.length t).bind fun c =>
        if c = 0 then .ok offset else findLoop s t fuel ((offset + 1) % 2 ^ 64)
    else .ok npos

/-- `find`, include/dart/support/string_view.tcc 218-230. -/
def find (s t : Bytes) (offset : Nat) : Res Nat :=
  if (t.length + offset) % 2 ^ 64 > s.length then .ok npos else noexcept (findLoop s t (s.length + 2) offset)

/-- `find` a character, include/dart/support/string_view.tcc 233-237. -/
def findChar (s : Bytes) (c : UInt8) (offset : Nat) : Res Nat := find s [c] offset

/-- The loop of `rfind`, include/dart/support/string_view.tcc 261-265. The condition does not change
while the loop runs, so the only ways out are finding the target and an exception; below position 0
the position wraps around to `npos`, where `substr` throws. -/
def rfindLoop (s t : Bytes) : Nat → Res Nat
  | 0 => (compareAt s 0 t.length t).bind fun c =>
      if c = 0 then .ok 0 else (compareAt s npos t.length t).bind fun _ => .ub
  | offset + 1 => (compareAt s (offset + 1) t.length t).bind fun c =>
      if c = 0 then .ok (offset + 1) else rfindLoop s t offset

/-- `rfind`, include/dart/support/string_view.tcc 254-266. -/
def rfind (s t : Bytes) (offset : Nat) : Res Nat :=
  let safe := min offset s.length
  if (safe : Int) - t.length ≥ 0 then noexcept (rfindLoop s t offset) else .ok npos

/-- `rfind` a character, include/dart/support/string_view.tcc 269-273. -/
def rfindChar (s : Bytes) (c : UInt8) (offset : Nat) : Res Nat := rfind s [c] offset

/-- The default position of `rfind` for a string view and for a character,
include/dart/support/string_view.h 127, 128. -/
def rfindDefault : Nat := npos
@[inherit_doc rfindDefault] def rfindCharDefault : Nat := 0

/-- `target.find(c) != npos`, the test used below. -/
def has (t : Bytes) (c : UInt8) : Bool := findChar t c 0 != .ok npos

/-- `find_first_of`, include/dart/support/string_view.tcc 291-302. -/
def findFirstOf (s t : Bytes) (offset : Nat) : Nat :=
  if offset ≥ s.length then npos
  else match (s.drop offset).findIdx? (has t) with
    | some j => offset + j
    | none => npos

/-- `find_last_of`, include/dart/support/string_view.tcc 329-341. The search starts `offset` characters
before the end. The default for `offset` is 0 (string_view.h 137). -/
def findLastOf (s t : Bytes) (offset : Nat) : Nat :=
  if offset ≥ s.length then npos
  else match (s.reverse.drop offset).findIdx? (has t) with
    | some j => s.length - (offset + j) - 1
    | none => npos

/-- `find_first_not_of`, include/dart/support/string_view.tcc 366-378: the difference of the iterators
is taken the wrong way round and converted to an unsigned number. -/
def findFirstNotOf (s t : Bytes) (offset : Nat) : Nat :=
  if offset ≥ s.length then npos
  else match (s.drop offset).findIdx? (fun c => !has t c) with
    | some j => (2 ^ 64 - (offset + j)) % 2 ^ 64
    | none => npos

/-- `find_last_not_of`, include/dart/support/string_view.tcc 405-417: likewise, and counted from the
end. -/
def findLastNotOf (s t : Bytes) (offset : Nat) : Nat :=
  if offset ≥ s.length then npos
  else match (s.reverse.drop offset).findIdx? (fun c => !has t c) with
    | some j => (2 ^ 64 - (offset + j)) % 2 ^ 64
    | none => npos

/-- The relational operators, include/dart/support/string_view.tcc 11-28. -/
def eq (s t : Bytes) : Bool := compare s t == 0
@[inherit_doc eq] def ne (s t : Bytes) : Bool := compare s t != 0
@[inherit_doc eq] def lt (s t : Bytes) : Bool := decide (compare s t < 0)
@[inherit_doc eq] def le (s t : Bytes) : Bool := decide (compare s t ≤ 0)
@[inherit_doc eq] def gt (s t : Bytes) : Bool := decide (compare s t > 0)
@[inherit_doc eq] def ge (s t : Bytes) : Bool := decide (compare s t ≥ 0)

end Dart.SView
