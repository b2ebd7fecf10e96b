import Verif.Model.Read

/-
How a dynamic value stores a string: in place if it is short, in an allocation of its own otherwise.
-/
namespace Dart

/-- The two alternatives for strings, include/dart/common.h 307-330. `inl` has the bytes of an
`inline_string_layout`: `buffer`, followed by `left`, 24 in all on 64-bit targets. `dyn` has what `ptr`
points to, and `len`. -/
inductive StrRep where
  | inl (bytes : Bytes)
  | dyn (chars : Bytes) (len : Nat)
  deriving DecidableEq

namespace StrRep

/-- `basic_heap(string_tag, base, app)`, include/dart/heap/string.tcc 45-86. `junk` is what the memory of
the layout contains at first. The terminator is written before `left`, and may be written to the same
byte. Reads and writes beyond the memory are `none`. -/
def make (junk base app : Bytes) : Option StrRep :=
  let len := base.length + app.length
  match identifyString (base ++ app) with
  | .smallString => do
    let m ← writeBytes junk 0 base
    let m ← writeBytes m base.length app
    let m ← writeBytes m len [0]
    let m ← writeBytes m ssoBytes [UInt8.ofNat ssoBytes - UInt8.ofNat len]
    some (.inl m)
  | _ => do
    let m ← writeBytes (zeros (len + 1)) 0 base
    let m ← writeBytes m base.length app
    let m ← writeBytes m len [0]
    some (.dyn m len)

/-- What `str()` points to, include/dart/heap/string.tcc 18-20. -/
def chars : StrRep → Bytes
  | .inl m => m
  | .dyn m _ => m

/-- `strv`, include/dart/heap/string.tcc 28-38; `size_t` arithmetic wraps around. -/
def strv : StrRep → Option Bytes
  | .inl m => do
    let left ← readU m 1 ssoBytes
    readBytes m 0 ((ssoBytes + (2 ^ 64 - left)) % 2 ^ 64)
  | .dyn m len => readBytes m 0 len

/-- `!strcmp(a, b)`: reads both up to the first difference or the terminator. -/
def strcmpEq : Bytes → Bytes → Option Bool
  | x :: a, y :: b => if x ≠ y then some false else if x = 0 then some true else strcmpEq a b
  | _, _ => none

/-- `operator ==` of the layouts, include/dart/common.h 308-311 and 320-323; the two alternatives do not
compare with each other, so `typeless_comparator` (include/dart/common.tcc 127-138) says no. -/
def eq : StrRep → StrRep → Option Bool
  | .inl m, .inl m' => do
    let l ← readU m 1 ssoBytes
    let l' ← readU m' 1 ssoBytes
    if l ≠ l' then some false else strcmpEq m m'
  | .dyn m len, .dyn m' len' => if len ≠ len' then some false else strcmpEq m m'
  | _, _ => some false

end StrRep
end Dart
