import Verif.Model.Buffer

/-
The search of Model/Read.lean once more, now with the list of the table entries it compares the key
with, in order. One such comparison reads the entry and at most the one stored key it points to; nothing
else in the search depends on the size of the object.
-/
namespace Dart

/-- The binary search loop of `object::get_key`, include/dart/object.tcc 645-676, with the entries looked
at. -/
def searchKeyN (signed : Bool) (m : Bytes) (base : Nat) (key : Bytes) :
    Nat → Int → Int → Option (Option (Nat × RawType × Nat)) × List Nat
  | 0, _, _ => (none, [])
  | fuel + 1, low, high =>
    if high < low then (some none, [])
    else
      let mid := (low + high).tdiv 2
      match searchCompare signed m base key mid.toNat with
      | none => (none, [mid.toNat])
      | some c =>
        if c = 0 then
          ((do
            let t ← entType m base mid.toNat
            let off ← entOff m base mid.toNat
            some (some (mid.toNat, t, base + off))), [mid.toNat])
        else if c > 0 then
          let r := searchKeyN signed m base key fuel (mid + 1) high
          (r.1, mid.toNat :: r.2)
        else
          let r := searchKeyN signed m base key fuel low (mid - 1)
          (r.1, mid.toNat :: r.2)

/-- `object::get_key`, include/dart/object.tcc 633-678, with the entries looked at. -/
def getKeyN (signed : Bool) (m : Bytes) (base : Nat) (key : Bytes) :
    Option (Option (Nat × RawType × Nat)) × List Nat :=
  match numElems m base with
  | none => (none, [])
  | some n => searchKeyN signed m base key (n + 1) 0 (toInt32 n - 1)

/-- The entries a `get`, `at` or `has_key` of a buffer looks at; each of them searches once,
include/dart/buffer/object.tcc 130-133, 160-163, 206-210, include/dart/object.tcc 694-703, 751-774. -/
def Buf.looked (signed : Bool) (b : Buf) (key : Bytes) : List Nat :=
  match b.object with
  | .ok p => (getKeyN signed b.mem p key).2
  | _ => []

end Dart
