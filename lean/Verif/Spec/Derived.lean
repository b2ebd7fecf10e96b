import Verif.Model.Buffer

/-
Which buffers a client can obtain from a given one by reading.
-/
namespace Dart

/-- `b` can be obtained from `root` by any number of lookups, index accesses, `front`/`back` and
iterations over values or keys. -/
inductive Derived (signed : Bool) (root : Buf) : Buf → Prop
  | root : Derived signed root root
  | get {b b' : Buf} {key : Bytes} : Derived signed root b → b.get signed key = .ok b' → Derived signed root b'
  | at {b b' : Buf} {key : Bytes} : Derived signed root b → b.at signed key = .ok b' → Derived signed root b'
  | getIdx {b b' : Buf} {i : Nat} : Derived signed root b → b.getIdx i = .ok b' → Derived signed root b'
  | atIdx {b b' : Buf} {i : Nat} : Derived signed root b → b.atIdx i = .ok b' → Derived signed root b'
  | front {b b' : Buf} : Derived signed root b → b.front = .ok b' → Derived signed root b'
  | back {b b' : Buf} : Derived signed root b → b.back = .ok b' → Derived signed root b'
  | values {b b' : Buf} {bs : List Buf} :
      Derived signed root b → b.values = .ok bs → b' ∈ bs → Derived signed root b'
  | keys {b b' : Buf} {bs : List Buf} :
      Derived signed root b → b.keys = .ok bs → b' ∈ bs → Derived signed root b'

/-- The kind of a value as the API reports it. -/
def Val.ty : Val → Ty
  | .null => .null
  | .bool _ => .boolean
  | .int _ => .integer
  | .dec _ => .decimal
  | .str _ => .string
  | .arr _ => .array
  | .obj _ => .object

end Dart
