import Verif.Model.KeyAccess
import Verif.Spec.Container
import Verif.Spec.Packet

/-
What looking something up by a key that is itself a value should do.
-/
namespace Dart.Spec

/-- What may be found in `s` under the key `k`: a string finds a field of an object, an integer that is not negative an
element of an array; `none` if there is nothing there. -/
def AtKey (signed : Bool) (s : PState) (k : Val) (r : Option Val) : Prop :=
  match s.value, k with
  | .obj fs, .str key => Found signed s.finalized fs key r
  | .arr es, .int i => r = if 0 ≤ i.toInt then es[i.toInt.toNat]? else none
  | _, _ => r = none

/-- The key is one that can be used: a string for an object, an integer for an array. -/
def Matching (v k : Val) : Bool :=
  match v, k with
  | .obj _, .str _ => true
  | .arr _, .int _ => true
  | _, _ => false

/-- An array has less than 2^63 elements. -/
def Addressable : Val → Prop
  | .arr es => es.length < 2 ^ 63
  | _ => True

/-- The outcome of a call, as a client sees it. -/
def Gives (x : Res Pkt) : Except Exc PState → Prop
  | .ok s => ∃ p, x = .ok p ∧ InState p s
  | .error e => x = .throw e

end Dart.Spec
