import Verif.Model.StringView

/-
The library's own `string_view` as it is: a pointer and a length. Memory is one array of characters; reading outside of it, or through a
null pointer, is undefined. Statements work on numbered variables.
-/
namespace Dart.SView

/-- The members, include/dart/support/string_view.h 167-170; `none` is the null pointer. -/
structure Vw where
  base : Option Nat
  len : Nat
  deriving DecidableEq, Repr

/-- The default constructor, include/dart/support/string_view.h 41-44. -/
def Vw.null : Vw := ⟨none, 0⟩

/-- `basic_string_view(s, count)`, include/dart/support/string_view.h 60. -/
def Vw.range (p n : Nat) : Vw := ⟨some p, n⟩

/-- `std::char_traits<char>::length`: the characters up to the next NUL, of which there must be one. -/
def cstrAt (m : Bytes) (p : Nat) : Option Bytes :=
  let s := (m.drop p).takeWhile (· != 0)
  if p + s.length < m.length then some s else none

/-- `basic_string_view(s)`, include/dart/support/string_view.h 61. -/
def Vw.cstr (m : Bytes) (p : Nat) : Res Vw := (Res.ofRead (cstrAt m p)).bind fun s => .ok ⟨some p, s.length⟩

/-- Reading `n` characters `off` behind the pointer. -/
def Vw.read (m : Bytes) (v : Vw) (off n : Nat) : Res Bytes :=
  if n = 0 then .ok [] else Res.ofRead (v.base.bind fun p => readBytes m (p + off) n)

/-- `operator []`, include/dart/support/string_view.tcc 34-40: no check. -/
def Vw.idx (m : Bytes) (v : Vw) (i : Nat) : Res UInt8 := (v.read m i 1).bind fun s => Res.ofRead s[0]?

/-- `at`, include/dart/support/string_view.tcc 55-59. -/
def Vw.at (m : Bytes) (v : Vw) (i : Nat) : Res UInt8 := if i ≥ v.len then .throw .outOfRange else v.idx m i

/-- `front` and `back`, include/dart/support/string_view.tcc 61-76: no checks. -/
def Vw.front (m : Bytes) (v : Vw) : Res UInt8 := v.idx m 0
@[inherit_doc Vw.front] def Vw.back (m : Bytes) (v : Vw) : Res UInt8 := v.idx m ((v.len + (2 ^ 64 - 1)) % 2 ^ 64)

/-- `size` and `length`, include/dart/support/string_view.tcc 87-95; `empty`, 102-105. -/
def Vw.size (v : Vw) : Nat := v.len

/-- `remove_prefix`, include/dart/support/string_view.tcc 107-112: no check, the length wraps around. -/
def Vw.removePrefix (v : Vw) (n : Nat) : Vw := ⟨v.base.map (· + n), (v.len + (2 ^ 64 - n)) % 2 ^ 64⟩

/-- `remove_suffix`, include/dart/support/string_view.tcc 114-118. -/
def Vw.removeSuffix (v : Vw) (n : Nat) : Vw := ⟨v.base, (v.len + (2 ^ 64 - n)) % 2 ^ 64⟩

/-- `copy`, include/dart/support/string_view.tcc 128-136: the characters written. -/
def Vw.copy (m : Bytes) (v : Vw) (count offset : Nat) : Res Bytes :=
  if offset > v.len then .throw .outOfRange else v.read m offset (min count (v.len - offset))

/-- `substr`, include/dart/support/string_view.tcc 138-145. -/
def Vw.substr (v : Vw) (offset count : Nat) : Res Vw :=
  if offset > v.len then .throw .outOfRange else .ok ⟨v.base.map (· + offset), min count (v.len - offset)⟩

/-- `compare`, include/dart/support/string_view.tcc 147-156. -/
def Vw.compare (m : Bytes) (v w : Vw) : Res Int :=
  let rlen := min v.len w.len
  (v.read m 0 rlen).bind fun a => (w.read m 0 rlen).bind fun b =>
    let comp := traitsCompare a b rlen
    .ok (if comp ≠ 0 then comp else if v.len < w.len then -1 else if v.len > w.len then 1 else 0)

/-- `compare(offset, count, other)`, include/dart/support/string_view.tcc 158-162. -/
def Vw.compareAt (m : Bytes) (v : Vw) (offset count : Nat) (w : Vw) : Res Int :=
  (v.substr offset count).bind fun u => Vw.compare m u w

/-- `compare(offset, count, other)` with a C string, include/dart/support/string_view.tcc 175-179: `noexcept`, although `substr`
throws. -/
def Vw.compareCstr (m : Bytes) (v : Vw) (offset count p : Nat) : Res Int :=
  noexcept ((v.substr offset count).bind fun u => (Vw.cstr m p).bind fun w => Vw.compare m u w)

/-- `operator std::basic_string`, include/dart/support/string_view.tcc 48-52. -/
def Vw.toString (m : Bytes) (v : Vw) : Res Bytes := v.read m 0 v.len

/-- Iterating from `begin()` to `end()`, and from `rbegin()` to `rend()`, include/dart/support/string_view.tcc 439-477. -/
def Vw.forward (m : Bytes) (v : Vw) : Res Bytes := v.read m 0 v.len
@[inherit_doc Vw.forward] def Vw.backward (m : Bytes) (v : Vw) : Res Bytes := (v.read m 0 v.len).bind fun s => .ok s.reverse

/-- `operator <<`, include/dart/support/string_view.h 204-209: the pointer is streamed as a C string. -/
def Vw.stream (m : Bytes) (v : Vw) : Res Bytes := Res.ofRead (v.base.bind (cstrAt m))

/-! ### Programs -/

/-- Statements; `x` is the variable that is changed or asked. -/
inductive VOp
  | null (x : Nat) | range (x p n : Nat) | cstr (x p : Nat)
  | assign (x y : Nat) | swap (x y : Nat) | substr (x y offset count : Nat)
  | removePrefix (x n : Nat) | removeSuffix (x n : Nat)
  | size (x : Nat) | at (x i : Nat) | idx (x i : Nat) | front (x : Nat) | back (x : Nat)
  | copy (x count offset : Nat) | toString (x : Nat) | forward (x : Nat) | backward (x : Nat)
  | compare (x y : Nat) | compareAt (x offset count y : Nat) | compareCstr (x offset count p : Nat)
  deriving DecidableEq, Repr

/-- What a statement returns. -/
inductive VAns
  | none | num (n : Int) | char (c : UInt8) | chars (s : Bytes) | threw (e : Exc)
  deriving DecidableEq, Repr

/-- The variables. -/
abbrev Vars (α : Type) := Nat → α

/-- Changing one. -/
def setVar {α : Type} (e : Vars α) (x : Nat) (v : α) : Vars α := fun y => if y = x then v else e y

/-- A call that answers and changes nothing; an exception is an answer. -/
def ask {α : Type} (e : Vars Vw) (r : Res α) (f : α → VAns) : Option (Vars Vw × VAns) :=
  match r with
  | .ok a => some (e, f a)
  | .throw ex => some (e, .threw ex)
  | .ub => Option.none

/-- A call whose result is assigned to a variable. -/
def assignTo (e : Vars Vw) (x : Nat) (r : Res Vw) : Option (Vars Vw × VAns) :=
  match r with
  | .ok v => some (setVar e x v, .none)
  | .throw ex => some (e, .threw ex)
  | .ub => Option.none

/-- One statement; `none` is undefined behaviour or the end of the program. -/
def vstep (m : Bytes) (e : Vars Vw) : VOp → Option (Vars Vw × VAns)
  | .null x => assignTo e x (.ok Vw.null)
  | .range x p n => assignTo e x (.ok (Vw.range p n))
  | .cstr x p => assignTo e x (Vw.cstr m p)
  | .assign x y => assignTo e x (.ok (e y))
  -- `swap`, include/dart/support/string_view.tcc 120-126
  | .swap x y => some (if x = y then e else setVar (setVar e x (e y)) y (e x), .none)
  | .substr x y offset count => assignTo e x ((e y).substr offset count)
  | .removePrefix x n => assignTo e x (.ok ((e x).removePrefix n))
  | .removeSuffix x n => assignTo e x (.ok ((e x).removeSuffix n))
  | .size x => ask e (.ok (e x).size) fun n => .num n
  | .at x i => ask e ((e x).at m i) .char
  | .idx x i => ask e ((e x).idx m i) .char
  | .front x => ask e ((e x).front m) .char
  | .back x => ask e ((e x).back m) .char
  | .copy x count offset => ask e ((e x).copy m count offset) .chars
  | .toString x => ask e ((e x).toString m) .chars
  | .forward x => ask e ((e x).forward m) .chars
  | .backward x => ask e ((e x).backward m) .chars
  | .compare x y => ask e (Vw.compare m (e x) (e y)) .num
  | .compareAt x offset count y => ask e ((e x).compareAt m offset count (e y)) .num
  | .compareCstr x offset count p => ask e ((e x).compareCstr m offset count p) .num

/-- A program and its answers. -/
def vrun (m : Bytes) (e : Vars Vw) : List VOp → Option (Vars Vw × List VAns)
  | [] => some (e, [])
  | op :: ops => do
    let (e, a) ← vstep m e op
    let (e, as) ← vrun m e ops
    some (e, a :: as)

end Dart.SView
