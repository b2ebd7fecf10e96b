import Verif.Model.Sajson
import Verif.Spec.JsonText

/-
What sajson may be expected to hand over, and conditions on documents.
-/
namespace Dart

mutual
/-- The same document, in the form used for the other parser. -/
def SDoc.json : SDoc → Json
  | .null => .null
  | .bool b => .bool b
  | .int i => .num i.toInt
  | .dbl d => .dbl d
  | .str s => .str s
  | .arr es => .arr (jsonElems es)
  | .obj fs => .obj (jsonFields fs)
def jsonElems : List SDoc → List Json
  | [] => []
  | d :: es => d.json :: jsonElems es
def jsonFields : List (Bytes × SDoc) → List (Bytes × Json)
  | [] => []
  | (k, d) :: fs => (k, d.json) :: jsonFields fs
end

namespace Spec

mutual
/-- `Delivers w j d`: for a text of the document `j` sajson hands over `d`. Which whole numbers come as integers is up to
`w`; the others come as some `double`. The members of an object may come in any order. -/
inductive Delivers (w : Int → Prop) : Json → SDoc → Prop
  | null : Delivers w .null .null
  | bool (b : Bool) : Delivers w (.bool b) (.bool b)
  | int (i : BitVec 32) : w i.toInt → Delivers w (.num i.toInt) (.int i)
  | large (n : Int) (d : BitVec 64) : ¬ w n → Delivers w (.num n) (.dbl d)
  | dbl (d : BitVec 64) : Delivers w (.dbl d) (.dbl d)
  | str (s : Bytes) : Delivers w (.str s) (.str s)
  | arr {js : List Json} {ds : List SDoc} : DeliversElems w js ds → Delivers w (.arr js) (.arr ds)
  | obj {fs : List (Bytes × Json)} {gs hs : List (Bytes × SDoc)} : DeliversMembers w fs gs → hs.Perm gs →
      Delivers w (.obj fs) (.obj hs)
inductive DeliversElems (w : Int → Prop) : List Json → List SDoc → Prop
  | nil : DeliversElems w [] []
  | cons {j : Json} {d : SDoc} {js : List Json} {ds : List SDoc} : Delivers w j d → DeliversElems w js ds →
      DeliversElems w (j :: js) (d :: ds)
inductive DeliversMembers (w : Int → Prop) : List (Bytes × Json) → List (Bytes × SDoc) → Prop
  | nil : DeliversMembers w [] []
  | cons {k : Bytes} {j : Json} {d : SDoc} {fs : List (Bytes × Json)} {gs : List (Bytes × SDoc)} : Delivers w j d →
      DeliversMembers w fs gs → DeliversMembers w ((k, j) :: fs) ((k, d) :: gs)
end

mutual
/-- The members of every object are in the order of their names: shorter names first, then by their bytes. -/
def InOrder : Json → Prop
  | .arr es => InOrderElems es
  | .obj fs => (fs.Pairwise fun a b => ¬ KeyBefore b.1 a.1) ∧ InOrderFields fs
  | _ => True
def InOrderElems : List Json → Prop
  | [] => True
  | j :: es => InOrder j ∧ InOrderElems es
def InOrderFields : List (Bytes × Json) → Prop
  | [] => True
  | (_, j) :: fs => InOrder j ∧ InOrderFields fs
end

mutual
/-- No name contains a NUL byte. -/
def NoNulNames : Json → Prop
  | .arr es => NoNulElems es
  | .obj fs => NoNulFields fs
  | _ => True
def NoNulElems : List Json → Prop
  | [] => True
  | j :: es => NoNulNames j ∧ NoNulElems es
def NoNulFields : List (Bytes × Json) → Prop
  | [] => True
  | (k, j) :: fs => 0 ∉ k ∧ NoNulNames j ∧ NoNulFields fs
end

mutual
/-- All whole numbers in the document are of a kind. -/
def WholeNumbers (w : Int → Prop) : Json → Prop
  | .arr es => WholeElems w es
  | .obj fs => WholeFields w fs
  | .num n => w n
  | _ => True
def WholeElems (w : Int → Prop) : List Json → Prop
  | [] => True
  | j :: es => WholeNumbers w j ∧ WholeElems w es
def WholeFields (w : Int → Prop) : List (Bytes × Json) → Prop
  | [] => True
  | (_, j) :: fs => WholeNumbers w j ∧ WholeFields w fs
end

end Spec
end Dart
