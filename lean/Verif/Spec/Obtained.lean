import Verif.Model.Builder
import Verif.Spec.Derived
import Verif.Spec.Json
import Verif.Spec.JsonText
import Verif.Spec.Sajson
import Verif.Model.Lower
import Verif.Spec.Value

/-
Which finalized buffers a client can come by at all.
-/
namespace Dart

open Spec

/-- `b` was parsed from a JSON text: one of less than 512 MiB for an object, with any of the format's extensions, without
repeated names, with names of at most 65535 bytes and whole numbers of 64 signed bits. `sort` is what `std::sort` does
and `fill` the content of the memory allocated. With sajson as the parser, moreover, sajson hands over the members in the
order of their names, and no name has a NUL byte. -/
inductive Parsed : Buf → Prop
  | text {sort : List (Bytes × Json) → List (Bytes × Json)} {fill : Nat → Bytes} {x : Extensions} {t : Bytes}
      {fs : List (Bytes × Json)} {b : Buf} : Sorts sort → (∀ n, (fill n).length = n) → IsText x t (.obj fs) →
      t.length < 2 ^ 29 → Within (.obj fs) → DistinctNames (.obj fs) → Buf.fromJson sort fill t.length (.obj fs) = .ok b →
      Parsed b
  | sajson {fill : Nat → Bytes} {x : Extensions} {t : Bytes} {w : Int → Prop} {j : Json} {hs : List (Bytes × SDoc)}
      {b : Buf} : (∀ n, (fill n).length = n) → IsText x t j → Delivers w j (.obj hs) → t.length < 2 ^ 29 →
      Within (SDoc.obj hs).json → DistinctNames (SDoc.obj hs).json → InOrder (SDoc.obj hs).json →
      NoNulNames (SDoc.obj hs).json → Buf.fromSajson fill t.length (.obj hs) = .ok b → Parsed b

/-- `b` was obtained by finalizing a dynamic object, by parsing JSON, by reading from a buffer that was obtained, by
injecting into or projecting one, or by building one from dynamic values and obtained buffers. New allocations are
smaller than 4 GiB. With `exact`, no JSON was parsed: memory for parsed JSON is not cleared, so that the unused bytes
between the parts are arbitrary, whereas otherwise they are zero. -/
inductive Obtained (signed exact : Bool) : Buf → Prop
  | finalized {v : Val} {m : Bytes} : v.WF → finalize v = .ok m → Obtained signed exact (Buf.ofBytes m)
  | parsed {b : Buf} : exact = false → Parsed b → Obtained signed exact b
  | read {r b : Buf} : Obtained signed exact r → Derived signed r b → Obtained signed exact b
  | merged {b c d : Buf} : Obtained signed exact b → Obtained signed exact c → b.merge c = .ok d →
      d.mem.length < 2 ^ 32 → Obtained signed exact d
  | projected {b d : Buf} {ks : List Bytes} : Obtained signed exact b → b.project ks = .ok d → Obtained signed exact d
  | made {args : List Pkt} {d : Buf} : (∀ b, Pkt.buf b ∈ args → Obtained signed exact b) →
      (∀ v, Pkt.heap v ∈ args → v.WF) → Buf.makeObject args = .ok d → d.mem.length < 2 ^ 32 →
      Obtained signed exact d

/-- An argument of `make_object` or `inject` the client can have: a well formed dynamic value that
can be laid out on its own (at most 4 GiB), or an obtained buffer. -/
def Pkt.Usable (signed exact : Bool) : Pkt → Prop
  | .heap v => v.WF ∧ ∃ n, Dart.upperBound v = some n
  | .buf b => Obtained signed exact b

/-- The value an argument stands for. -/
def Pkt.value : Pkt → Option Val
  | .heap v => some v
  | .buf b => b.value

end Dart
