import Verif.Model.Json
import Verif.Spec.KeyOrder

/-
The texts of a JSON document (RFC 8259), as RapidJSON reads them, with the extensions that can be switched on. The value
of a number with fraction or exponent, or out of range, is left open.
-/
namespace Dart.Spec

/-- Extensions of the format, include/dart.h 69-73 (`parse_comments`, `parse_nan`, `parse_trailing_commas`). -/
structure Extensions where
  comments : Bool
  nan : Bool
  trailingCommas : Bool

/-- No extensions (`parse_default`), all of them (`parse_permissive`). -/
def Extensions.default : Extensions := ⟨false, false, false⟩
def Extensions.permissive : Extensions := ⟨true, true, true⟩

/-- White space, and comments if switched on. -/
inductive Blank (x : Extensions) : Bytes → Prop
  | nil : Blank x []
  | space {c : UInt8} {t : Bytes} : c = 0x20 ∨ c = 0x09 ∨ c = 0x0a ∨ c = 0x0d → Blank x t → Blank x (c :: t)
  | block {c t : Bytes} : x.comments = true → 0 ∉ c → ¬ [0x2a, 0x2f] <:+: c ++ [0x2a] → Blank x t →
      Blank x (0x2f :: 0x2a :: (c ++ 0x2a :: 0x2f :: t))
  | line {c t : Bytes} : x.comments = true → 0 ∉ c → 0x0a ∉ c → Blank x t →
      Blank x (0x2f :: 0x2f :: (c ++ 0x0a :: t))

/-- What may follow the document: blank, perhaps a comment up to the end, perhaps a NUL byte and anything at all. -/
def Rest (x : Extensions) (t : Bytes) : Prop :=
  ∃ w c r, Blank x w ∧ t = w ++ (c ++ r) ∧
    (c = [] ∨ x.comments = true ∧ ∃ d, c = 0x2f :: 0x2f :: d ∧ 0 ∉ d ∧ 0x0a ∉ d) ∧ (r = [] ∨ r.head? = some 0)

/-- One or more digits. -/
def Digits (t : Bytes) : Prop := t ≠ [] ∧ ∀ c ∈ t, 0x30 ≤ c ∧ c ≤ 0x39

/-- The number a row of digits stands for. -/
def digitsValue (t : Bytes) : Nat := t.foldl (fun n c => 10 * n + (c.toNat - 0x30)) 0

/-- An integer: digits without superfluous zeros, possibly after a minus sign. -/
def IntText (t : Bytes) (n : Int) : Prop :=
  ∃ ds, Digits ds ∧ (ds.head? = some 0x30 → ds.length = 1) ∧
    ((t = ds ∧ n = digitsValue ds) ∨ (t = 0x2d :: ds ∧ n = -(digitsValue ds : Int)))

/-- A fraction or nothing. -/
def FracText (t : Bytes) : Prop := t = [] ∨ ∃ ds, Digits ds ∧ t = 0x2e :: ds

/-- An exponent or nothing. -/
def ExpText (t : Bytes) : Prop :=
  t = [] ∨ ∃ e s ds, (e = 0x65 ∨ e = 0x45) ∧ (s = [] ∨ s = [0x2b] ∨ s = [0x2d]) ∧ Digits ds ∧ t = e :: (s ++ ds)

/-- The value of a hexadecimal digit. -/
def hexDigit (c : UInt8) : Option Nat :=
  if 0x30 ≤ c ∧ c ≤ 0x39 then some (c.toNat - 0x30)
  else if 0x41 ≤ c ∧ c ≤ 0x46 then some (c.toNat - 0x41 + 10)
  else if 0x61 ≤ c ∧ c ≤ 0x66 then some (c.toNat - 0x61 + 10)
  else none

/-- `\uXXXX` -/
def Escape16 (t : Bytes) (n : Nat) : Prop :=
  ∃ a b c d x y z w, t = [0x5c, 0x75, a, b, c, d] ∧ hexDigit a = some x ∧ hexDigit b = some y ∧ hexDigit c = some z ∧
    hexDigit d = some w ∧ n = ((x * 16 + y) * 16 + z) * 16 + w

/-- UTF-8. -/
def utf8 (n : Nat) : Bytes :=
  if n < 0x80 then [UInt8.ofNat n]
  else if n < 0x800 then [UInt8.ofNat (0xc0 + n / 64), UInt8.ofNat (0x80 + n % 64)]
  else if n < 0x10000 then
    [UInt8.ofNat (0xe0 + n / 4096), UInt8.ofNat (0x80 + n / 64 % 64), UInt8.ofNat (0x80 + n % 64)]
  else [UInt8.ofNat (0xf0 + n / 262144), UInt8.ofNat (0x80 + n / 4096 % 64), UInt8.ofNat (0x80 + n / 64 % 64),
    UInt8.ofNat (0x80 + n % 64)]

/-- The short escapes: the character after the backslash, and what is meant. -/
def shortEscapes : List (UInt8 × UInt8) :=
  [(0x22, 0x22), (0x5c, 0x5c), (0x2f, 0x2f), (0x62, 0x08), (0x66, 0x0c), (0x6e, 0x0a), (0x72, 0x0d), (0x74, 0x09)]

/-- What is between the quotes, and the bytes it stands for. -/
inductive CharsText : Bytes → Bytes → Prop
  | nil : CharsText [] []
  | plain {c : UInt8} {t s : Bytes} : 0x20 ≤ c → c ≠ 0x22 → c ≠ 0x5c → CharsText t s → CharsText (c :: t) (c :: s)
  | short {e d : UInt8} {t s : Bytes} : (e, d) ∈ shortEscapes → CharsText t s → CharsText (0x5c :: e :: t) (d :: s)
  | unicode {u : Bytes} {n : Nat} {t s : Bytes} : Escape16 u n → (n < 0xd800 ∨ 0xe000 ≤ n) → CharsText t s →
      CharsText (u ++ t) (utf8 n ++ s)
  | pair {u u' : Bytes} {n n' : Nat} {t s : Bytes} : Escape16 u n → Escape16 u' n' → 0xd800 ≤ n → n < 0xdc00 →
      0xdc00 ≤ n' → n' < 0xe000 → CharsText t s →
      CharsText (u ++ (u' ++ t)) (utf8 (0x10000 + (n - 0xd800) * 1024 + (n' - 0xdc00)) ++ s)

/-- A string with its quotes. -/
def StringText (t s : Bytes) : Prop := ∃ c, CharsText c s ∧ t = 0x22 :: (c ++ [0x22])

/-- A comma that may be left behind at the end of a list, with blanks after it. -/
def LastComma (x : Extensions) (t : Bytes) : Prop :=
  t = [] ∨ x.trailingCommas = true ∧ ∃ w, Blank x w ∧ t = 0x2c :: w

/-- The words for numbers that are none: `NaN`, `Inf`, `Infinity`, perhaps after a minus sign. -/
def NanText (t : Bytes) : Prop :=
  ∃ u, (t = u ∨ t = 0x2d :: u) ∧
    (u = [0x4e, 0x61, 0x4e] ∨ u = [0x49, 0x6e, 0x66] ∨ u = [0x49, 0x6e, 0x66, 0x69, 0x6e, 0x69, 0x74, 0x79])

mutual
/-- A value. -/
inductive ValueText (x : Extensions) : Bytes → Json → Prop
  | null : ValueText x [0x6e, 0x75, 0x6c, 0x6c] .null
  | true : ValueText x [0x74, 0x72, 0x75, 0x65] (.bool true)
  | false : ValueText x [0x66, 0x61, 0x6c, 0x73, 0x65] (.bool false)
  | num {t : Bytes} {n : Int} : IntText t n → -2 ^ 63 ≤ n → n < 2 ^ 64 → ValueText x t (.num n)
  | big {t : Bytes} {n : Int} (d : BitVec 64) : IntText t n → (n < -2 ^ 63 ∨ 2 ^ 64 ≤ n) → ValueText x t (.dbl d)
  | dbl {i f e : Bytes} {n : Int} (d : BitVec 64) : IntText i n → FracText f → ExpText e → f ++ e ≠ [] →
      ValueText x (i ++ (f ++ e)) (.dbl d)
  | nan {t : Bytes} (d : BitVec 64) : x.nan = true → NanText t → ValueText x t (.dbl d)
  | str {t s : Bytes} : StringText t s → ValueText x t (.str s)
  | arr0 {w : Bytes} : Blank x w → ValueText x (0x5b :: (w ++ [0x5d])) (.arr [])
  | arr {t : Bytes} {es : List Json} : ElemsText x t es → ValueText x (0x5b :: (t ++ [0x5d])) (.arr es)
  | obj0 {w : Bytes} : Blank x w → ValueText x (0x7b :: (w ++ [0x7d])) (.obj [])
  | obj {t : Bytes} {fs : List (Bytes × Json)} : MembersText x t fs → ValueText x (0x7b :: (t ++ [0x7d])) (.obj fs)
/-- One or more values with commas between them. -/
inductive ElemsText (x : Extensions) : Bytes → List Json → Prop
  | one {w w' t c : Bytes} {j : Json} : Blank x w → Blank x w' → ValueText x t j → LastComma x c →
      ElemsText x (w ++ (t ++ (w' ++ c))) [j]
  | cons {w w' t ts : Bytes} {j : Json} {es : List Json} : Blank x w → Blank x w' → ValueText x t j →
      ElemsText x ts es → ElemsText x (w ++ (t ++ (w' ++ 0x2c :: ts))) (j :: es)
/-- One or more members with commas between them. -/
inductive MembersText (x : Extensions) : Bytes → List (Bytes × Json) → Prop
  | one {w₁ w₂ w₃ w₄ q t k c : Bytes} {j : Json} : Blank x w₁ → Blank x w₂ → Blank x w₃ → Blank x w₄ →
      StringText q k → ValueText x t j → LastComma x c →
      MembersText x (w₁ ++ (q ++ (w₂ ++ 0x3a :: (w₃ ++ (t ++ (w₄ ++ c)))))) [(k, j)]
  | cons {w₁ w₂ w₃ w₄ q t ts k : Bytes} {j : Json} {fs : List (Bytes × Json)} : Blank x w₁ → Blank x w₂ →
      Blank x w₃ → Blank x w₄ → StringText q k → ValueText x t j → MembersText x ts fs →
      MembersText x (w₁ ++ (q ++ (w₂ ++ 0x3a :: (w₃ ++ (t ++ (w₄ ++ 0x2c :: ts)))))) ((k, j) :: fs)
end

/-- The text `t` is a text of the document `j`. -/
def IsText (x : Extensions) (t : Bytes) (j : Json) : Prop :=
  ∃ w u r, Blank x w ∧ ValueText x u j ∧ Rest x r ∧ t = w ++ (u ++ r)

/-- What `std::sort` promises: the same members, in the order of their names. Members of the same name may come in
any order. -/
def Sorts (sort : List (Bytes × Json) → List (Bytes × Json)) : Prop :=
  ∀ fs, (sort fs).Perm fs ∧ (sort fs).Pairwise fun a b => ¬ KeyBefore b.1 a.1

end Dart.Spec
