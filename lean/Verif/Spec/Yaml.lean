import Verif.Model.Yaml
import Verif.Spec.Json
import Verif.Spec.JsonText

/-
What YAML documents mean: scalars are resolved, mappings with scalar keys are objects.
-/
namespace Dart.Spec

/-- A plus sign, a minus sign, or nothing. -/
def Sign (t : Bytes) : Prop := t = [] ∨ t = [0x2b] ∨ t = [0x2d]

/-- The number with its sign. -/
def withSign (sign : Bytes) (n : Nat) : Int := if sign = [0x2d] then -(n : Int) else n

/-- Octal digits and the number they stand for. -/
def OctalDigits (t : Bytes) : Prop := ∀ c ∈ t, 0x30 ≤ c ∧ c ≤ 0x37
def octalValue (t : Bytes) : Nat := t.foldl (fun n c => 8 * n + (c.toNat - 0x30)) 0

/-- Hexadecimal digits and the number they stand for. -/
def HexDigits (t : Bytes) : Prop := t ≠ [] ∧ ∀ c ∈ t, (hexDigit c).isSome
def hexValue (t : Bytes) : Nat := t.foldl (fun n c => 16 * n + (hexDigit c).getD 0) 0

/-- A whole number without sign: decimal, octal after a zero, or hexadecimal after `0x`. -/
def WholeText (t : Bytes) (n : Nat) : Prop :=
  (Digits t ∧ t.head? ≠ some 0x30 ∧ n = digitsValue t) ∨
  (∃ ds, OctalDigits ds ∧ t = 0x30 :: ds ∧ n = octalValue ds) ∨
  ∃ x ds, (x = 0x78 ∨ x = 0x58) ∧ HexDigits ds ∧ t = 0x30 :: x :: ds ∧ n = hexValue ds

/-- An integer (YAML 1.1, without underscores, binary and base 60). -/
def YamlInt (t : Bytes) (n : Int) : Prop := ∃ s u m, Sign s ∧ WholeText u m ∧ t = s ++ u ∧ n = withSign s m

/-- A point and perhaps digits, or nothing. -/
def PointText (t : Bytes) : Prop := t = [] ∨ ∃ ds, (∀ c ∈ ds, 0x30 ≤ c ∧ c ≤ 0x39) ∧ t = 0x2e :: ds

/-- A decimal number with sign `s`, whole part `i`, fraction `f` and exponent `e`; not an integer. -/
def FloatParts (t s i f e : Bytes) : Prop :=
  Sign s ∧ Digits i ∧ PointText f ∧ ExpText e ∧ f ++ e ≠ [] ∧ t = s ++ (i ++ (f ++ e))
def FloatText (t : Bytes) : Prop := ∃ s i f e, FloatParts t s i f e

/-- What a plain scalar stands for: null, a boolean, an integer or decimal number, otherwise a string. Numbers that cannot
be represented are strings. The value of a decimal number is what `strtod` says. -/
inductive Resolves (strtod : Strtod) : Bytes → Json → Prop
  | null : Resolves strtod [0x6e, 0x75, 0x6c, 0x6c] .null
  | true : Resolves strtod [0x74, 0x72, 0x75, 0x65] (.bool true)
  | false : Resolves strtod [0x66, 0x61, 0x6c, 0x73, 0x65] (.bool false)
  | int {t : Bytes} {n : Int} : YamlInt t n → -2 ^ 63 ≤ n → n < 2 ^ 63 → Resolves strtod t (.num n)
  | big {t : Bytes} {n : Int} : YamlInt t n → (n < -2 ^ 63 ∨ 2 ^ 63 ≤ n) → Resolves strtod t (.str t)
  | float {t : Bytes} {d : BitVec 64} : FloatText t → (strtod t).1 = some d → Resolves strtod t (.dbl d)
  | range {t : Bytes} : FloatText t → (strtod t).1 = none → Resolves strtod t (.str t)
  | str {t : Bytes} : t ≠ [0x6e, 0x75, 0x6c, 0x6c] → t ≠ [0x74, 0x72, 0x75, 0x65] → t ≠ [0x66, 0x61, 0x6c, 0x73, 0x65] →
      (∀ n, ¬ YamlInt t n) → ¬ FloatText t → Resolves strtod t (.str t)

mutual
/-- The document as a JSON document: quoted scalars are strings, plain ones are resolved, mappings with scalar keys are
objects. -/
inductive AsJson (strtod : Strtod) : Yaml → Json → Prop
  | quoted (t : Bytes) : AsJson strtod (.scalar true t) (.str t)
  | plain {t : Bytes} {j : Json} : Resolves strtod t j → AsJson strtod (.scalar false t) j
  | seq {es : List Yaml} {js : List Json} : AsElems strtod es js → AsJson strtod (.seq es) (.arr js)
  | map {fs : List (Yaml × Yaml)} {ms : List (Bytes × Json)} : AsMembers strtod fs ms → AsJson strtod (.map fs) (.obj ms)
/-- All elements. -/
inductive AsElems (strtod : Strtod) : List Yaml → List Json → Prop
  | nil : AsElems strtod [] []
  | cons {y : Yaml} {j : Json} {es : List Yaml} {js : List Json} : AsJson strtod y j → AsElems strtod es js →
      AsElems strtod (y :: es) (j :: js)
/-- All members. -/
inductive AsMembers (strtod : Strtod) : List (Yaml × Yaml) → List (Bytes × Json) → Prop
  | nil : AsMembers strtod [] []
  | cons {q : Bool} {k : Bytes} {y : Yaml} {j : Json} {fs : List (Yaml × Yaml)} {ms : List (Bytes × Json)} :
      AsJson strtod y j → AsMembers strtod fs ms → AsMembers strtod ((.scalar q k, y) :: fs) ((k, j) :: ms)
end

/-- What the C standard says of `strtod`: it reads all of a decimal number; if it reads all of something, this is a
decimal number with or without fraction and exponent, or is hexadecimal, an infinity or a NaN. -/
structure Strtod.Standard (strtod : Strtod) : Prop where
  reads {t : Bytes} : FloatText t → (strtod t).2 = t.length
  only {t : Bytes} : t ≠ [] → (strtod t).2 = t.length → FloatText t ∨ ∃ s u, Sign s ∧ t = s ++ u ∧
    (Digits u ∨ (∃ ds, u = 0x2e :: ds) ∨ (∃ x r, (x = 0x78 ∨ x = 0x58) ∧ u = 0x30 :: x :: r) ∨
      ∃ c r, (c = 0x69 ∨ c = 0x49 ∨ c = 0x6e ∨ c = 0x4e) ∧ u = c :: r)

/-- Scalars that are read as they should: no NUL, nothing but hexadecimal numbers begins with `0x`, and in decimal numbers
with superfluous leading zeros there is no 8 or 9 before the point. -/
def Usual (t : Bytes) : Prop :=
  0 ∉ t ∧ (∀ s x r, Sign s → x = 0x78 ∨ x = 0x58 → t = s ++ 0x30 :: x :: r → HexDigits r) ∧
  ∀ s i f e, FloatParts t s i f e → i.head? = some 0x30 → OctalDigits i

mutual
/-- All scalars that are not keys are usual, and quoted ones are strings even without the quotes. -/
def UsualIn (strtod : Strtod) : Yaml → Prop
  | .scalar q t => Usual t ∧ (q = true → Resolves strtod t (.str t))
  | .seq es => UsualElems strtod es
  | .map fs => UsualMembers strtod fs
  | .alias => True
def UsualElems (strtod : Strtod) : List Yaml → Prop
  | [] => True
  | y :: es => UsualIn strtod y ∧ UsualElems strtod es
def UsualMembers (strtod : Strtod) : List (Yaml × Yaml) → Prop
  | [] => True
  | (_, y) :: fs => UsualIn strtod y ∧ UsualMembers strtod fs
end

mutual
/-- There is an alias somewhere. -/
def HasAlias : Yaml → Prop
  | .scalar _ _ => False
  | .seq es => HasAliasElems es
  | .map fs => HasAliasMembers fs
  | .alias => True
def HasAliasElems : List Yaml → Prop
  | [] => False
  | y :: es => HasAlias y ∨ HasAliasElems es
def HasAliasMembers : List (Yaml × Yaml) → Prop
  | [] => False
  | (k, y) :: fs => HasAlias k ∨ HasAlias y ∨ HasAliasMembers fs
end

end Dart.Spec
