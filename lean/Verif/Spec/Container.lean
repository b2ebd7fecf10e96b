import Verif.Model.Container
import Verif.Spec.Native
import Verif.Spec.Value

/-
What containers of the standard library stand for as packets.
-/
namespace Dart.Spec

/-- `less` orders all values of the type. -/
structure Orders {κ : Type} (less : κ → κ → Bool) : Prop where
  irrefl (a : κ) : less a a = false
  trans {a b c : κ} : less a b = true → less b c = true → less a c = true
  total {a b : κ} : a ≠ b → less a b = true ∨ less b a = true

/-- The lists have the same length and corresponding elements are related. -/
def Each {α β : Type} (R : α → β → Prop) : List α → List β → Prop
  | [], [] => True
  | x :: xs, y :: ys => R x y ∧ Each R xs ys
  | _, _ => False

/-- A scalar that can exist; strings have less than 4 GiB. -/
def FitScalar : (s : NativeTy) → s.type → Prop
  | .int t, x => 1 ≤ t.bits ∧ t.bits ≤ 64 ∧ InRange t x
  | .str, s => s.length < 2 ^ 32
  | _, _ => True

mutual
/-- A value the type can have: elements of sets and maps are in order, without duplicates unless the container allows
them. Keys have at most 65535 bytes, strings less than 4 GiB, and no sequence has more than 2^58 elements. -/
def Fit : (t : CTy) → t.type → Prop
  | .scalar s, x => FitScalar s x
  | .seq t, (xs : List t.type) => xs.length ≤ 2 ^ 58 ∧ ∀ x ∈ xs, Fit t x
  | .fwd t, (xs : List t.type) => xs.length ≤ 2 ^ 58 ∧ ∀ x ∈ xs, Fit t x
  | .array t n, (xs : List t.type) => xs.length = n ∧ n ≤ 2 ^ 58 ∧ ∀ x ∈ xs, Fit t x
  | .map less t, (m : List (Bytes × t.type)) => m.Pairwise (fun a b => less a.1 b.1 = true) ∧ ∀ e ∈ m, e.1.length ≤ 65535 ∧ Fit t e.2
  | .mmap less t, (m : List (Bytes × t.type)) => m.length ≤ 2 ^ 58 ∧ m.Pairwise (fun a b => less b.1 a.1 = false) ∧
      ∀ e ∈ m, e.1.length ≤ 65535 ∧ Fit t e.2
  | .set s less, (xs : List s.type) => xs.length ≤ 2 ^ 58 ∧ xs.Pairwise (fun a b => less a b = true) ∧ ∀ x ∈ xs, FitScalar s x
  | .mset s less, (xs : List s.type) => xs.length ≤ 2 ^ 58 ∧ xs.Pairwise (fun a b => less b a = false) ∧ ∀ x ∈ xs, FitScalar s x
  | .opt _, none => True
  | .opt t, some x => Fit t x
  | .pair a b, (x, y) => Fit a x ∧ Fit b y
  | .tuple ts, xs => ts.length ≤ 2 ^ 58 ∧ FitAll ts xs
  | .variant ts, x => FitAlt ts x
/-- All components fit. -/
def FitAll : (ts : CTys) → ts.prod → Prop
  | .nil, _ => True
  | .cons t ts, (x, xs) => Fit t x ∧ FitAll ts xs
/-- The alternative that is there fits. -/
def FitAlt : (ts : CTys) → ts.sum → Prop
  | .nil, _ => True
  | .cons t _, .inl x => Fit t x
  | .cons _ ts, .inr x => FitAlt ts x
end

/-- What a scalar stands for. (An integer outside the range of `int64_t` is reduced modulo 2^64, see C40.) -/
def StandsScalar : (s : NativeTy) → s.type → Val → Prop
  | .null, _, v => v = .null
  | .bool, b, v => v = .bool b
  | .int _, x, v => v = .int (BitVec.ofInt 64 x)
  | .dbl, d, v => v = .dec d
  | .str, s, v => v = .str s

/-- The values a multimap has under a key, in order. -/
def valuesAt {α : Type} (k : Bytes) (m : List (Bytes × α)) : List α :=
  m.filterMap fun e => if e.1 = k then some e.2 else none

mutual
/-- The container stands for the value: sequences and sets for arrays, maps for objects, multimaps for objects of
arrays, optionals for what they contain or null, tuples for arrays, variants for what they contain. -/
def Stands : (t : CTy) → t.type → Val → Prop
  | .scalar s, x, v => StandsScalar s x v
  | .seq t, (xs : List t.type), v => ∃ es, v = .arr es ∧ Each (Stands t) xs es
  | .fwd t, (xs : List t.type), v => ∃ es, v = .arr es ∧ Each (Stands t) xs es
  | .array t _, (xs : List t.type), v => ∃ es, v = .arr es ∧ Each (Stands t) xs es
  | .map _ t, (m : List (Bytes × t.type)), v => ∃ fs, v = .obj fs ∧ (∀ k x, (k, x) ∈ m → ∃ w, (k, w) ∈ fs ∧ Stands t x w) ∧
      ∀ k w, (k, w) ∈ fs → ∃ x, (k, x) ∈ m
  | .mmap _ t, (m : List (Bytes × t.type)), v => ∃ fs, v = .obj fs ∧
      (∀ k w, (k, w) ∈ fs → ∃ es, w = .arr es ∧ es ≠ [] ∧ Each (Stands t) (valuesAt k m) es) ∧
      ∀ k x, (k, x) ∈ m → ∃ w, (k, w) ∈ fs
  | .set s _, (xs : List s.type), v => ∃ es, v = .arr es ∧ Each (StandsScalar s) xs es
  | .mset s _, (xs : List s.type), v => ∃ es, v = .arr es ∧ Each (StandsScalar s) xs es
  | .opt _, none, v => v = .null
  | .opt t, some x, v => Stands t x v
  | .pair a b, (x, y), v => ∃ w u, v = .arr [w, u] ∧ Stands a x w ∧ Stands b y u
  | .tuple ts, xs, v => ∃ es, v = .arr es ∧ StandsAll ts xs es
  | .variant ts, x, v => StandsAlt ts x v
/-- The components of a tuple stand for the elements. -/
def StandsAll : (ts : CTys) → ts.prod → List Val → Prop
  | .nil, _, es => es = []
  | .cons t ts, (x, xs), e :: es => Stands t x e ∧ StandsAll ts xs es
  | .cons _ _, _, [] => False
/-- The alternative that is there stands for the value. -/
def StandsAlt : (ts : CTys) → ts.sum → Val → Prop
  | .nil, _, _ => False
  | .cons t _, .inl x, v => Stands t x v
  | .cons _ ts, .inr x, v => StandsAlt ts x v
end

mutual
/-- The types of packets that values of the C++ type stand for. -/
def gives : CTy → Ty → Bool
  | .scalar s, k => givesScalar s k
  | .seq _, k | .fwd _, k | .array _ _, k | .set _ _, k | .mset _ _, k | .pair _ _, k | .tuple _, k => k = .array
  | .map _ _, k | .mmap _ _, k => k = .object
  | .opt t, k => k = .null || gives t k
  | .variant ts, k => givesAny ts k
/-- One of the types does. -/
def givesAny : CTys → Ty → Bool
  | .nil, _ => false
  | .cons t ts, k => gives t k || givesAny ts k
/-- The type of packet of a scalar. -/
def givesScalar : NativeTy → Ty → Bool
  | .null, k => k = .null
  | .bool, k => k = .boolean
  | .int _, k => k = .integer
  | .dbl, k => k = .decimal
  | .str, k => k = .string
end

mutual
/-- The types of packets that are worth trying to convert to the C++ type: those that values stand for, but anything
can be converted to `bool`. -/
def takes : CTy → Ty → Bool
  | .scalar .bool, _ => true
  | .scalar s, k => givesScalar s k
  | .opt t, k => k = .null || takes t k
  | .variant ts, k => takesAny ts k
  | t, k => gives t k
/-- One of the types does. -/
def takesAny : CTys → Ty → Bool
  | .nil, _ => false
  | .cons t ts, k => takes t k || takesAny ts k
end

mutual
/-- The comparisons of maps are orders. (A hash table has some order.) -/
def OrdersIn : CTy → Prop
  | .seq t | .fwd t | .array t _ | .opt t => OrdersIn t
  | .map less t | .mmap less t => Orders less ∧ OrdersIn t
  | .pair a b => OrdersIn a ∧ OrdersIn b
  | .tuple ts | .variant ts => OrdersInAll ts
  | _ => True
/-- In all of the types. -/
def OrdersInAll : CTys → Prop
  | .nil => True
  | .cons t ts => OrdersIn t ∧ OrdersInAll ts
end

mutual
/-- A type whose values can be told apart as packets: the comparisons of maps and sets are orders, optionals are not of
something that can be null itself, and no alternative of a variant takes what a later one gives. -/
def Distinct : CTy → Prop
  | .scalar _ => True
  | .seq t | .fwd t | .array t _ => Distinct t
  | .map less t | .mmap less t => Orders less ∧ Distinct t
  | .set _ less | .mset _ less => Orders less
  | .opt t => gives t .null = false ∧ Distinct t
  | .pair a b => Distinct a ∧ Distinct b
  | .tuple ts => DistinctAll ts
  | .variant ts => Separate ts ∧ DistinctAll ts
/-- All of the types are. -/
def DistinctAll : CTys → Prop
  | .nil => True
  | .cons t ts => Distinct t ∧ DistinctAll ts
/-- No type takes what a later one gives. -/
def Separate : CTys → Prop
  | .nil => True
  | .cons t ts => (∀ k, givesAny ts k = true → takes t k = false) ∧ Separate ts
end

end Dart.Spec
