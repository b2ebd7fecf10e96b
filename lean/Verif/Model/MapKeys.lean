import Verif.Model.KeyAccess

/-
`std::map`, `std::unordered_map`, `std::multimap` and `std::unordered_multimap` with keys of any native scalar type
(include/dart/conversions.h 60-170, 600-923). The conversions are enabled for every key type that can be converted to a
packet. `Model/Container.lean` has the same for keys that are strings. There are no maps with keys of the type
`nullptr_t`, which has no order and no hash.

A container is the list of its elements in the order in which iterating visits them; `less` is its order (for hash tables
some order).
-/
namespace Dart.KMap

variable (s : NativeTy) (t : CTy)

/-- The elements of such a container. -/
abbrev Elems := List (s.type × t.type)

/-! ### Into packets -/

/-- `for (auto& pair : map) obj.add_field(pair.first, pair.second)`, include/dart/conversions.h 611-615, 692-696. The key is
converted to a packet first, include/dart/heap/object.tcc 50-53, include/dart/heap/api.tcc 120-143. -/
def addAll {α : Type} (f : α → Res Val) (obj : Val) : List (s.type × α) → Res Val
  | [] => .ok obj
  | (k, x) :: m => (f x).bind fun v => (obj.insert (s.inject k).toDart v).bind fun obj => addAll f obj m

/-- `accum[key].push_back(val)` for a `std::map` of arrays, include/dart/conversions.h 773-777. -/
def accumPush (less : s.type → s.type → Bool) (k : s.type) (v : Val) : List (s.type × Val) → Res (List (s.type × Val))
  | [] => ((Val.arr []).pushBack v).bind fun a => .ok [(k, a)]
  | (k', a) :: r =>
    if less k' k then (accumPush less k v r).bind fun r => .ok ((k', a) :: r)
    else if less k k' then ((Val.arr []).pushBack v).bind fun b => .ok ((k, b) :: (k', a) :: r)
    else (a.pushBack v).bind fun a => .ok ((k', a) :: r)

/-- The loop around it. -/
def accumAll {α : Type} (less : s.type → s.type → Bool) (f : α → Res Val) (acc : List (s.type × Val)) :
    List (s.type × α) → Res (List (s.type × Val))
  | [] => .ok acc
  | (k, x) :: m => (f x).bind fun v => (accumPush s less k v acc).bind fun acc => accumAll less f acc m

/-- `to_dart` of maps, include/dart/conversions.h 611-615, 692-696. -/
def mapToDart (m : Elems s t) : Res Val := addAll s t.toDart (.obj []) m

/-- `to_dart` of multimaps, include/dart/conversions.h 773-777, 855-859. -/
def multiToDart (less : s.type → s.type → Bool) (m : Elems s t) : Res Val :=
  (accumAll s less t.toDart [] m).bind fun acc => addAll s .ok (.obj []) acc

/-! ### Out of packets -/

/-- `convert::cast<Key>(*k)`, include/dart/conversion_traits.h 938-1010. -/
def castKey (k : Pkt) : Res s.type := (k.toNative s).bind s.extract

/-- The loop over keys and values, include/dart/conversions.h 629-636. The order in which the two arguments of `emplace` are
converted is not specified; the key is first here. -/
def emplaceFields {α : Type} (less : s.type → s.type → Bool) (f : Pkt → Res α) (acc : List (s.type × α)) :
    List Pkt → List Pkt → Res (List (s.type × α))
  | k :: ks, v :: vs => (castKey s k).bind fun k => (f v).bind fun x =>
      emplaceFields less f (emplace less (·.1) (k, x) acc) ks vs
  | _, _ => .ok acc

/-- One field of an object that becomes a multimap, include/dart/conversions.h 796-801. -/
def emplaceField {α : Type} (less : s.type → s.type → Bool) (f : Pkt → Res α) (acc : List (s.type × α)) (k : s.type)
    (v : Pkt) : Res (List (s.type × α)) :=
  if v.getType = .array then
    v.values.bind fun vs => (castAll f vs).bind fun xs =>
      .ok (xs.foldl (fun acc x => emplaceMulti less (·.1) (k, x) acc) acc)
  else (f v).bind fun x => .ok (emplaceMulti less (·.1) (k, x) acc)

/-- The loop around it, include/dart/conversions.h 791-804. -/
def emplaceGroups {α : Type} (less : s.type → s.type → Bool) (f : Pkt → Res α) (acc : List (s.type × α)) :
    List Pkt → List Pkt → Res (List (s.type × α))
  | k :: ks, v :: vs => (castKey s k).bind fun k => (emplaceField s less f acc k v).bind fun acc =>
      emplaceGroups less f acc ks vs
  | _, _ => .ok acc

/-- `from_dart` of maps, include/dart/conversions.h 623-638, 704-719. -/
def mapFromDart (less : s.type → s.type → Bool) (p : Pkt) : Res (Elems s t) :=
  if p.getType = .object then
    p.keys.bind fun ks => p.values.bind fun vs => emplaceFields s less t.fromDart [] ks vs
  else .throw .typeError

/-- `from_dart` of multimaps, include/dart/conversions.h 785-806, 867-888. -/
def multiFromDart (less : s.type → s.type → Bool) (p : Pkt) : Res (Elems s t) :=
  if p.getType = .object then
    p.keys.bind fun ks => p.values.bind fun vs => emplaceGroups s less t.fromDart [] ks vs
  else .throw .typeError

/-! ### Comparison -/

/-- What `generic_map_compare` and `generic_multimap_compare` look an element up by, include/dart/conversions.h 80-94,
122-170: `v[k]` if the key can be converted to a `string_view`, and otherwise `v[convert::cast(k)]`, which makes a packet of
the key. -/
def find (signed : Bool) (p : Pkt) : (s : NativeTy) → s.type → Res Pkt
  | .str, k => PRead.run signed p (.get k)
  | s, k => p.getBy signed (.heap (s.inject k).toDart)

/-- `generic_map_compare_impl`, include/dart/conversions.h 67-77. -/
def eqFields {α : Type} (signed : Bool) (f : Pkt → α → Res Bool) (p : Pkt) : List (s.type × α) → Res Bool
  | [] => .ok true
  | (k, x) :: m => (find signed p s k).bind fun q => (f q x).bind fun r =>
      if r then eqFields signed f p m else .ok false

/-- The runs of elements with equivalent keys of a multimap, include/dart/conversions.h 101-103, 127-129, 151-153. -/
def runs {κ α : Type} (less : κ → κ → Bool) : List (κ × α) → List (κ × List α)
  | [] => []
  | (k, x) :: m =>
    match runs less m with
    | [] => [(k, [x])]
    | (k', xs) :: gs => if less k k' then (k, [x]) :: (k', xs) :: gs else (k, x :: xs) :: gs

/-- `generic_multimap_compare_impl`, include/dart/conversions.h 96-120. -/
def eqGroups {α : Type} (signed : Bool) (f : Pkt → α → Res Bool) (p : Pkt) : List (s.type × List α) → Res Bool
  | [] => .ok true
  | (k, xs) :: gs => (find signed p s k).bind fun q =>
      if q.getType ≠ .array then .ok false
      else q.size.bind fun n => if n ≠ xs.length then .ok false else
        q.values.bind fun vs => (isPermutation f vs xs).bind fun r => if r then eqGroups signed f p gs else .ok false

/-- The body of `compare` of maps, include/dart/conversions.h 663-678, 744-759. -/
def mapBody (signed : Bool) (p : Pkt) (m : Elems s t) : Res Bool :=
  if p.getType ≠ .object then .ok false
  else p.size.bind fun n => if n ≠ m.length then .ok false else eqFields s signed (t.compare signed) p m

/-- The body of `compare` of multimaps, include/dart/conversions.h 831-841, 913-923. -/
def multiBody (signed : Bool) (less : s.type → s.type → Bool) (p : Pkt) (m : Elems s t) : Res Bool :=
  if p.getType ≠ .object then .ok false
  else eqGroups s signed (t.compare signed) p (runs less m)

/-- What comes of a call of a comparison: an answer, or the end of the program. -/
inductive Ended
  | returns (b : Bool)
  | terminates
  | undefined

/-- A call of a function that is `noexcept`. An exception that leaves it ends the program. -/
def noexceptCall : Res Bool → Ended
  | .ok b => .returns b
  | .throw _ => .terminates
  | .ub => .undefined

/-- `p == x` for a type `t`: `operator ==`, include/dart/operators.tcc 26-33. It and `convert::compare`
(include/dart/conversion_traits.h 1415-1418) are `noexcept` if the type is `are_nothrow_comparable`
(include/dart/conversion_traits.h 549-571): scalars always are, and the containers of include/dart/conversions.h are if
their parts are. So are all types that are modelled. -/
def equals (signed : Bool) (t : CTy) (p : Pkt) (x : t.type) : Ended := noexceptCall (t.compare signed p x)

/-- `p == m` for a map, whose `compare` is `noexcept` for scalar keys and values that are nothrow comparable,
include/dart/conversions.h 663-668, 744-749. -/
def equalsMap (signed : Bool) (p : Pkt) (m : Elems s t) : Ended := noexceptCall (mapBody s t signed p m)

/-- `p == m` for a multimap, include/dart/conversions.h 831-836, 913-918. -/
def equalsMulti (signed : Bool) (less : s.type → s.type → Bool) (p : Pkt) (m : Elems s t) : Ended :=
  noexceptCall (multiBody s t signed less p m)

end Dart.KMap
