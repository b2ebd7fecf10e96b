import Verif.Model.Json
import Verif.Spec.Heap
import Verif.Spec.KeyOrder

/-
JSON documents by their meaning.
-/
namespace Dart.Spec

/-- The last member of that name. -/
def lastOf (fs : List (Bytes × Json)) (k : Bytes) : Option Json := (fs.reverse.find? (·.1 == k)).map (·.2)

/-- The value a document stands for: of members with the same name the last counts, and the order of members does
not matter. -/
inductive Means : Json → Val → Prop
  | null : Means .null .null
  | bool (b : Bool) : Means (.bool b) (.bool b)
  | num {n : Int} {i : BitVec 64} : i.toInt = n → Means (.num n) (.int i)
  | dbl (d : BitVec 64) : Means (.dbl d) (.dec d)
  | str (s : Bytes) : Means (.str s) (.str s)
  | arr {js : List Json} {vs : List Val} : js.length = vs.length →
      (∀ i (h1 : i < js.length) (h2 : i < vs.length), Means js[i] vs[i]) → Means (.arr js) (.arr vs)
  | obj {fs : List (Bytes × Json)} {gs : List (Bytes × Val)} : gs.Pairwise (fun a b => KeyBefore a.1 b.1) →
      (∀ k, (lookup gs k).isSome = (lastOf fs k).isSome) →
      (∀ k j w, lastOf fs k = some j → lookup gs k = some w → Means j w) → Means (.obj fs) (.obj gs)

mutual
/-- Names have at most 65535 bytes, arrays at most 2^58 elements, and whole numbers fit in 64 signed bits. -/
def Within : Json → Prop
  | .arr es => es.length ≤ 2 ^ 58 ∧ WithinElems es
  | .obj fs => WithinFields fs
  | .num n => -2 ^ 63 ≤ n ∧ n < 2 ^ 63
  | _ => True
def WithinElems : List Json → Prop
  | [] => True
  | j :: es => Within j ∧ WithinElems es
def WithinFields : List (Bytes × Json) → Prop
  | [] => True
  | (k, j) :: fs => k.length ≤ 65535 ∧ Within j ∧ WithinFields fs
end

mutual
/-- No object of the document has two members of the same name. -/
def DistinctNames : Json → Prop
  | .arr es => DistinctElems es
  | .obj fs => (fs.map (·.1)).Nodup ∧ DistinctFields fs
  | _ => True
def DistinctElems : List Json → Prop
  | [] => True
  | j :: es => DistinctNames j ∧ DistinctElems es
def DistinctFields : List (Bytes × Json) → Prop
  | [] => True
  | (_, j) :: fs => DistinctNames j ∧ DistinctFields fs
end

mutual
/-- Some name in the document has more than 65535 bytes. -/
def LongName : Json → Prop
  | .arr es => LongNameElems es
  | .obj fs => LongNameFields fs
  | _ => False
def LongNameElems : List Json → Prop
  | [] => False
  | j :: es => LongName j ∨ LongNameElems es
def LongNameFields : List (Bytes × Json) → Prop
  | [] => False
  | (k, j) :: fs => 65535 < k.length ∨ LongName j ∨ LongNameFields fs
end

mutual
/-- The other limits of `Within`: on arrays, and whole numbers within what RapidJSON delivers as such. -/
def OtherLimits : Json → Prop
  | .arr es => es.length ≤ 2 ^ 58 ∧ OtherLimitsElems es
  | .obj fs => OtherLimitsFields fs
  | .num n => -2 ^ 63 ≤ n ∧ n < 2 ^ 64
  | _ => True
def OtherLimitsElems : List Json → Prop
  | [] => True
  | j :: es => OtherLimits j ∧ OtherLimitsElems es
def OtherLimitsFields : List (Bytes × Json) → Prop
  | [] => True
  | (_, j) :: fs => OtherLimits j ∧ OtherLimitsFields fs
end

mutual
/-- Arrays have at most 2^58 elements (`std::vector` cannot have more). -/
def ArraysFit : Val → Prop
  | .arr es => es.length ≤ 2 ^ 58 ∧ ArraysFitElems es
  | .obj fs => ArraysFitFields fs
  | _ => True
def ArraysFitElems : List Val → Prop
  | [] => True
  | j :: es => ArraysFit j ∧ ArraysFitElems es
def ArraysFitFields : List (Bytes × Val) → Prop
  | [] => True
  | (_, j) :: fs => ArraysFit j ∧ ArraysFitFields fs
end

/-- How an event written comes back when the text is parsed: the reader chooses the handler of an integer by its
value. -/
def deliver : Event → Event
  | .int64 i => intEvent i.toInt
  | e => e

/-- Parsing what has been written. -/
def reread (es : List Event) : Res Val := (Parser.start.run (es.map deliver)).bind fun s => .ok s.currObj

end Dart.Spec
