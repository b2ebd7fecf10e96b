import Verif.Model.Abi
import Verif.Spec.Heap

/-
What the format strings of the C interface mean (include/dart/abi.h 545-606), without the parser.
-/
namespace Dart.Spec
open Dart.Abi (VArg)

/-- What a caller passes for one value. -/
inductive Item
  | obj (l : List (Bytes × Item))
  | arr (l : List Item)
  | str (s : Bytes)
  | sized (s : Bytes)
  | int (i : BitVec 32)
  | uint (i : BitVec 32)
  | long (i : BitVec 64)
  | ulong (i : BitVec 64)
  | double (d : BitVec 64)
  | bool (i : BitVec 32)
  | null
  | blank

/-- The character. -/
def chr (c : Char) : UInt8 := c.toUInt8

mutual
/-- The letters for an item: aggregates are closed by a comma. -/
def Item.fmt : Item → Bytes
  | .obj l => chr 'o' :: fmtPairs l ++ [chr ',']
  | .arr l => chr 'a' :: fmtElems l ++ [chr ',']
  | .str _ => [chr 's']
  | .sized _ => [chr 'S']
  | .int _ => [chr 'i']
  | .uint _ => [chr 'u', chr 'i']
  | .long _ => [chr 'l']
  | .ulong _ => [chr 'u', chr 'l']
  | .double _ => [chr 'd']
  | .bool _ => [chr 'b']
  | .null => [chr 'n']
  | .blank => [chr ' ']
def fmtElems : List Item → Bytes
  | [] => []
  | x :: r => x.fmt ++ fmtElems r
def fmtPairs : List (Bytes × Item) → Bytes
  | [] => []
  | (_, x) :: r => x.fmt ++ fmtPairs r
end

/-- A pointer to this string and a NUL after it. -/
def PointsTo (a : VArg) (s : Bytes) : Prop := 0 ∉ s ∧ ∃ behind, a = .ptr (s ++ 0 :: behind)

mutual
/-- The arguments for an item: keys before their values. -/
def Item.Given : Item → List VArg → Prop
  | .obj l, as => GivenPairs l as
  | .arr l, as => GivenElems l as
  | .str s, as => ∃ a, PointsTo a s ∧ as = [a]
  | .sized s, as => ∃ behind, as = [.ptr (s ++ behind), .size s.length]
  | .int i, as => as = [.int i]
  | .uint i, as => as = [.uint i]
  | .long i, as => as = [.long i]
  | .ulong i, as => as = [.ulong i]
  | .double d, as => as = [.double d]
  | .bool i, as => as = [.int i]
  | .null, as => as = []
  | .blank, as => as = []
def GivenElems : List Item → List VArg → Prop
  | [], as => as = []
  | x :: r, as => ∃ bs cs, x.Given bs ∧ GivenElems r cs ∧ as = bs ++ cs
def GivenPairs : List (Bytes × Item) → List VArg → Prop
  | [], as => as = []
  | (k, x) :: r, as => ∃ a bs cs, PointsTo a k ∧ x.Given bs ∧ GivenPairs r cs ∧ as = a :: bs ++ cs
end

mutual
/-- The value an item stands for. Integers are the numbers passed; the last pair with a key counts. -/
inductive Builds : Item → Val → Prop
  | obj {l : List (Bytes × Item)} {ps fs : List (Bytes × Val)} : BuildsPairs l ps →
      fs.Pairwise (fun a b => KeyBefore a.1 b.1) → (∀ k, lookup fs k = lookup ps.reverse k) → Builds (.obj l) (.obj fs)
  | arr {l : List Item} {vs : List Val} : BuildsElems l vs → Builds (.arr l) (.arr vs)
  | str (s : Bytes) : Builds (.str s) (.str s)
  | sized (s : Bytes) : Builds (.sized s) (.str s)
  | int {i : BitVec 32} {n : BitVec 64} : n.toInt = i.toInt → Builds (.int i) (.int n)
  | uint {i : BitVec 32} {n : BitVec 64} : n.toInt = i.toNat → Builds (.uint i) (.int n)
  | long (i : BitVec 64) : Builds (.long i) (.int i)
  | ulong {i n : BitVec 64} : n.toInt = i.toNat → Builds (.ulong i) (.int n)
  | double (d : BitVec 64) : Builds (.double d) (.dec d)
  | bool {i : BitVec 32} {b : Bool} : (b = true ↔ i ≠ 0) → Builds (.bool i) (.bool b)
  | null : Builds .null .null
  | blank : Builds .blank .null
inductive BuildsElems : List Item → List Val → Prop
  | nil : BuildsElems [] []
  | cons {x : Item} {v : Val} {l : List Item} {vs : List Val} : Builds x v → BuildsElems l vs → BuildsElems (x :: l) (v :: vs)
inductive BuildsPairs : List (Bytes × Item) → List (Bytes × Val) → Prop
  | nil : BuildsPairs [] []
  | cons {k : Bytes} {x : Item} {v : Val} {l : List (Bytes × Item)} {ps : List (Bytes × Val)} : Builds x v →
      BuildsPairs l ps → BuildsPairs ((k, x) :: l) ((k, v) :: ps)
end

mutual
/-- Keys are not too long, and unsigned integers fit in a signed one. -/
def Item.Fine : Item → Prop
  | .obj l => FinePairs l
  | .arr l => FineElems l
  | .ulong i => i.toNat < 2 ^ 63
  | _ => True
def FineElems : List Item → Prop
  | [] => True
  | x :: r => x.Fine ∧ FineElems r
def FinePairs : List (Bytes × Item) → Prop
  | [] => True
  | (k, x) :: r => k.length ≤ 65535 ∧ x.Fine ∧ FinePairs r
end

/-- The format is this one, except that commas may be missing at its end. -/
def UpToCommas (fmt full : Bytes) : Prop := ∃ cs, (∀ c ∈ cs, c = chr ',') ∧ fmt ++ cs = full

/-! ### Any format -/

/-- The letters for a single value without nesting, and the arguments they ask for. -/
inductive LetterArgs : Bytes → List VArg → Prop
  | str {a : VArg} {s : Bytes} : PointsTo a s → LetterArgs [chr 's'] [a]
  | sized {mem : Bytes} {n : Nat} : n ≤ mem.length → LetterArgs [chr 'S'] [.ptr mem, .size n]
  | int (i : BitVec 32) : LetterArgs [chr 'i'] [.int i]
  | uint (i : BitVec 32) : LetterArgs [chr 'u', chr 'i'] [.uint i]
  | long (i : BitVec 64) : LetterArgs [chr 'l'] [.long i]
  | ulong (i : BitVec 64) : LetterArgs [chr 'u', chr 'l'] [.ulong i]
  | double (d : BitVec 64) : LetterArgs [chr 'd'] [.double d]
  | bool (i : BitVec 32) : LetterArgs [chr 'b'] [.int i]
  | null : LetterArgs [chr 'n'] []
  | blank : LetterArgs [chr ' '] []

/-- There is such a letter. -/
def Letter (l : Bytes) : Prop := ∃ as, LetterArgs l as

/-- The format goes on, but with nothing that has a meaning. -/
def Meaningless (fmt : Bytes) : Prop :=
  fmt ≠ [] ∧ (∀ r, fmt ≠ chr 'o' :: r ∧ fmt ≠ chr 'a' :: r ∧ fmt ≠ chr ',' :: r) ∧ ∀ l r, Letter l → fmt ≠ l ++ r

mutual
/-- The arguments are the ones a format asks for, when read inside the aggregates `ctx` (innermost first, `true` for
objects): in an object, every value has a key before it. Whatever comes after the outermost aggregate is closed, or from
something meaningless on, is not asked for. `Key` is a condition on the keys. -/
inductive Asks (Key : Bytes → Prop) : List Bool → Bytes → List VArg → Prop
  | closed (fmt : Bytes) (as : List VArg) : Asks Key [] fmt as
  | stop (ctx : List Bool) (as : List VArg) : Asks Key ctx [] as
  | close {c : Bool} {ctx : List Bool} {fmt : Bytes} {as : List VArg} : Asks Key ctx fmt as →
      Asks Key (c :: ctx) (chr ',' :: fmt) as
  | pair {ctx : List Bool} {a : VArg} {k : Bytes} {fmt : Bytes} {as : List VArg} : PointsTo a k → Key k →
      AsksVal Key (true :: ctx) fmt as → Asks Key (true :: ctx) fmt (a :: as)
  | elem {ctx : List Bool} {fmt : Bytes} {as : List VArg} : AsksVal Key (false :: ctx) fmt as →
      Asks Key (false :: ctx) fmt as
/-- One value, and what comes after it. -/
inductive AsksVal (Key : Bytes → Prop) : List Bool → Bytes → List VArg → Prop
  | obj {ctx : List Bool} {fmt : Bytes} {as : List VArg} : Asks Key (true :: ctx) fmt as → AsksVal Key ctx (chr 'o' :: fmt) as
  | arr {ctx : List Bool} {fmt : Bytes} {as : List VArg} : Asks Key (false :: ctx) fmt as → AsksVal Key ctx (chr 'a' :: fmt) as
  | letter {ctx : List Bool} {l fmt : Bytes} {as bs : List VArg} : LetterArgs l as → Asks Key ctx fmt bs →
      AsksVal Key ctx (l ++ fmt) (as ++ bs)
  | meaningless {ctx : List Bool} {fmt : Bytes} (as : List VArg) : Meaningless fmt → AsksVal Key ctx fmt as
end

/-- Inside this many aggregates, the format comes to something meaningless before the outermost one is closed. -/
inductive Bad : Nat → Bytes → Prop
  | here {d : Nat} {fmt : Bytes} : Meaningless fmt → Bad (d + 1) fmt
  | close {d : Nat} {fmt : Bytes} : Bad d fmt → Bad (d + 1) (chr ',' :: fmt)
  | obj {d : Nat} {fmt : Bytes} : Bad (d + 2) fmt → Bad (d + 1) (chr 'o' :: fmt)
  | arr {d : Nat} {fmt : Bytes} : Bad (d + 2) fmt → Bad (d + 1) (chr 'a' :: fmt)
  | letter {d : Nat} {l fmt : Bytes} : Letter l → Bad (d + 1) fmt → Bad (d + 1) (l ++ fmt)

/-- The initialiser is for objects. -/
def isObj : Abi.Kind → Bool
  | .obj => true
  | .arr => false

end Dart.Spec
