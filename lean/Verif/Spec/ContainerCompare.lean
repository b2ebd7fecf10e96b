import Verif.Spec.Container
import Verif.Spec.Nested

/-
When a packet and a container are equal.
-/
namespace Dart.Spec

/-- A scalar equals a packet: numbers as numbers, anything else if it is the same. -/
def SameScalar : (s : NativeTy) → Val → s.type → Prop
  | .null, v, _ => v = .null
  | .bool, v, b => v = .bool b
  | .int t, v, x => SameNumber v (.int t x)
  | .dbl, v, d => SameNumber v (.dbl d)
  | .str, v, s => v = .str s

/-- The lists correspond in some order. -/
def Matched {α β : Type} (R : α → β → Prop) (xs : List α) (ys : List β) : Prop := ∃ zs, zs.Perm ys ∧ Each R xs zs

mutual
/-- A packet equals a container: sequences element by element, sets in some order, maps key by key, multimaps key by key
with the values of a key in some order. -/
def Same : (t : CTy) → Val → t.type → Prop
  | .scalar s, v, x => SameScalar s v x
  | .seq t, v, (xs : List t.type) => ∃ es, v = .arr es ∧ Each (Same t) es xs
  | .fwd t, v, (xs : List t.type) => ∃ es, v = .arr es ∧ Each (Same t) es xs
  | .array t _, v, (xs : List t.type) => ∃ es, v = .arr es ∧ Each (Same t) es xs
  | .map _ t, v, (m : List (Bytes × t.type)) => ∃ fs, v = .obj fs ∧
      (∀ k x, (k, x) ∈ m → ∃ w, (k, w) ∈ fs ∧ Same t w x) ∧ ∀ k w, (k, w) ∈ fs → ∃ x, (k, x) ∈ m
  | .mmap _ t, v, (m : List (Bytes × t.type)) => ∃ fs, v = .obj fs ∧
      (∀ k w, (k, w) ∈ fs → ∃ es, w = .arr es ∧ es ≠ [] ∧ Matched (Same t) es (valuesAt k m)) ∧
      ∀ k x, (k, x) ∈ m → ∃ w, (k, w) ∈ fs
  | .set s _, v, (xs : List s.type) => ∃ es, v = .arr es ∧ Matched (SameScalar s) es xs
  | .mset s _, v, (xs : List s.type) => ∃ es, v = .arr es ∧ Matched (SameScalar s) es xs
  | .opt _, v, none => v = .null
  | .opt t, v, some x => Same t v x
  | .pair a b, v, (x, y) => ∃ w u, v = .arr [w, u] ∧ Same a w x ∧ Same b u y
  | .tuple ts, v, xs => ∃ es, v = .arr es ∧ SameAll ts es xs
  | .variant ts, v, x => SameAlt ts v x
/-- The elements equal the components of a tuple. -/
def SameAll : (ts : CTys) → List Val → ts.prod → Prop
  | .nil, es, _ => es = []
  | .cons t ts, e :: es, (x, xs) => Same t e x ∧ SameAll ts es xs
  | .cons _ _, [], _ => False
/-- The packet equals the alternative that is there. -/
def SameAlt : (ts : CTys) → Val → ts.sum → Prop
  | .nil, _, _ => False
  | .cons t _, v, .inl x => Same t v x
  | .cons _ ts, v, .inr x => SameAlt ts v x
end

/-- Numbers that double precision can represent: integers of at most 2^53 in magnitude. -/
def SmallScalar : (s : NativeTy) → s.type → Prop
  | .int _, (x : Int) => x.natAbs ≤ 2 ^ 53
  | _, _ => True

mutual
/-- All integers in the container are small. -/
def SmallIn : (t : CTy) → t.type → Prop
  | .scalar s, x => SmallScalar s x
  | .seq t, (xs : List t.type) => ∀ x ∈ xs, SmallIn t x
  | .fwd t, (xs : List t.type) => ∀ x ∈ xs, SmallIn t x
  | .array t _, (xs : List t.type) => ∀ x ∈ xs, SmallIn t x
  | .map _ t, (m : List (Bytes × t.type)) => ∀ e ∈ m, SmallIn t e.2
  | .mmap _ t, (m : List (Bytes × t.type)) => ∀ e ∈ m, SmallIn t e.2
  | .set s _, (xs : List s.type) => ∀ x ∈ xs, SmallScalar s x
  | .mset s _, (xs : List s.type) => ∀ x ∈ xs, SmallScalar s x
  | .opt _, none => True
  | .opt t, some x => SmallIn t x
  | .pair a b, (x, y) => SmallIn a x ∧ SmallIn b y
  | .tuple ts, xs => SmallInAll ts xs
  | .variant ts, x => SmallInAlt ts x
/-- In all components. -/
def SmallInAll : (ts : CTys) → ts.prod → Prop
  | .nil, _ => True
  | .cons t ts, (x, xs) => SmallIn t x ∧ SmallInAll ts xs
/-- In the alternative that is there. -/
def SmallInAlt : (ts : CTys) → ts.sum → Prop
  | .nil, _ => True
  | .cons t _, .inl x => SmallIn t x
  | .cons _ ts, .inr x => SmallInAlt ts x
end

mutual
/-- All integers in the packet are small. -/
def SmallInts : Val → Prop
  | .int i => i.toInt.natAbs ≤ 2 ^ 53
  | .arr es => SmallElems es
  | .obj fs => SmallFields fs
  | _ => True
/-- In all elements. -/
def SmallElems : List Val → Prop
  | [] => True
  | v :: es => SmallInts v ∧ SmallElems es
/-- In all fields. -/
def SmallFields : List (Bytes × Val) → Prop
  | [] => True
  | (_, v) :: fs => SmallInts v ∧ SmallFields fs
end

mutual
/-- Types for which comparison is right: without `forward_list` and multimaps, and without maps to something that can be
null. -/
def Comparable : CTy → Prop
  | .scalar _ | .set _ _ | .mset _ _ => True
  | .fwd _ | .mmap _ _ => False
  | .seq t | .array t _ | .opt t => Comparable t
  | .map less t => Orders less ∧ gives t .null = false ∧ Comparable t
  | .pair a b => Comparable a ∧ Comparable b
  | .tuple ts | .variant ts => ComparableAll ts
/-- All of the types are. -/
def ComparableAll : CTys → Prop
  | .nil => True
  | .cons t ts => Comparable t ∧ ComparableAll ts
end

mutual
/-- No `forward_list` anywhere in the type. -/
def NoForward : CTy → Prop
  | .scalar _ | .set _ _ | .mset _ _ => True
  | .fwd _ => False
  | .seq t | .array t _ | .opt t | .map _ t | .mmap _ t => NoForward t
  | .pair a b => NoForward a ∧ NoForward b
  | .tuple ts | .variant ts => NoForwardAll ts
/-- Nor in any of the types. -/
def NoForwardAll : CTys → Prop
  | .nil => True
  | .cons t ts => NoForward t ∧ NoForwardAll ts
end

mutual
/-- The comparisons of maps are orders, and multimaps are not to types with a `forward_list` in them. -/
def Steady : CTy → Prop
  | .scalar _ | .set _ _ | .mset _ _ => True
  | .fwd t | .seq t | .array t _ | .opt t => Steady t
  | .map less t => Orders less ∧ Steady t
  | .mmap less t => Orders less ∧ NoForward t ∧ Steady t
  | .pair a b => Steady a ∧ Steady b
  | .tuple ts | .variant ts => SteadyAll ts
/-- In all of the types. -/
def SteadyAll : CTys → Prop
  | .nil => True
  | .cons t ts => Steady t ∧ SteadyAll ts
end

end Dart.Spec
