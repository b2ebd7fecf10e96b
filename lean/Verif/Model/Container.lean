import Verif.Model.Native

/-
Conversion between packets and containers of the standard library, and comparison with them
(include/dart/conversions.h). A C++ type is described by a `CTy`, its values are `t.type`. Keys of maps are strings and
elements of sets are scalars here; spans, time points and integral constants are not modelled. Iterating over a packet
is modelled by its list of values (see C38).
-/
namespace Dart

/-- The values of a native scalar type. -/
def NativeTy.type : NativeTy → Type
  | .null => Unit
  | .bool => Bool
  | .int _ => Int
  | .dbl => BitVec 64
  | .str => Bytes

/-- A scalar with its type. -/
def NativeTy.inject : (s : NativeTy) → s.type → Native
  | .null, _ => .null
  | .bool, b => .bool b
  | .int t, x => .int t x
  | .dbl, d => .dbl d
  | .str, s => .str s

/-- A scalar without its type. -/
def NativeTy.extract : (s : NativeTy) → Native → Res s.type
  | .null, .null => .ok ()
  | .bool, .bool b => .ok b
  | .int _, .int _ x => .ok x
  | .dbl, .dbl d => .ok d
  | .str, .str s => .ok s
  | _, _ => .ub

mutual
/-- A C++ type. -/
inductive CTy
  /-- a native scalar -/
  | scalar (s : NativeTy)
  /-- `std::vector`, `std::deque`, `std::list` -/
  | seq (t : CTy)
  /-- `std::forward_list` -/
  | fwd (t : CTy)
  /-- `std::array` -/
  | array (t : CTy) (len : Nat)
  /-- `std::map<std::string, t, less>`, and `std::unordered_map`, whose order is some order -/
  | map (less : Bytes → Bytes → Bool) (t : CTy)
  /-- `std::multimap<std::string, t, less>`, and `std::unordered_multimap` -/
  | mmap (less : Bytes → Bytes → Bool) (t : CTy)
  /-- `std::set<s, less>`, and `std::unordered_set` -/
  | set (s : NativeTy) (less : s.type → s.type → Bool)
  /-- `std::multiset<s, less>`, and `std::unordered_multiset` -/
  | mset (s : NativeTy) (less : s.type → s.type → Bool)
  /-- `std::optional` -/
  | opt (t : CTy)
  /-- `std::pair` -/
  | pair (a b : CTy)
  /-- `std::tuple` -/
  | tuple (ts : CTys)
  /-- `std::variant` -/
  | variant (ts : CTys)
/-- A list of C++ types. -/
inductive CTys
  | nil
  | cons (t : CTy) (ts : CTys)
end

mutual
/-- The values of a type. A container is the list of its elements in the order in which iterating visits them. -/
def CTy.type : CTy → Type
  | .scalar s => s.type
  | .seq t => List t.type
  | .fwd t => List t.type
  | .array t _ => List t.type
  | .map _ t => List (Bytes × t.type)
  | .mmap _ t => List (Bytes × t.type)
  | .set s _ => List s.type
  | .mset s _ => List s.type
  | .opt t => Option t.type
  | .pair a b => a.type × b.type
  | .tuple ts => ts.prod
  | .variant ts => ts.sum
/-- A value of each type. -/
def CTys.prod : CTys → Type
  | .nil => Unit
  | .cons t ts => t.type × ts.prod
/-- A value of one of the types. -/
def CTys.sum : CTys → Type
  | .nil => Empty
  | .cons t ts => t.type ⊕ ts.sum
end

/-- `sizeof...(Ts)`. -/
def CTys.length : CTys → Nat
  | .nil => 0
  | .cons _ ts => ts.length + 1

/-- `cast<T>(pkt)` and `pkt == native` for scalars. -/
def Pkt.toNative (s : NativeTy) : Pkt → Res Native
  | .heap v => v.toNative s
  | .buf b => b.toNative s

/-- `pkt == native` for scalars. -/
def Pkt.eqNative (p : Pkt) (x : Native) : Res Bool :=
  match p with
  | .heap v => v.eqNative x
  | .buf b => b.eqNative x

/-! ### Into packets -/

/-- `for (auto& val : vec) pkt.push_back(val)`, include/dart/conversions.h 228-233 and the like. -/
def pushAll {α : Type} (f : α → Res Val) (pkt : Val) : List α → Res Val
  | [] => .ok pkt
  | x :: xs => (f x).bind fun v => (pkt.pushBack v).bind fun pkt => pushAll f pkt xs

/-- `for (auto& pair : map) obj.add_field(pair.first, pair.second)`, include/dart/conversions.h 611-615. -/
def addAll {α : Type} (f : α → Res Val) (obj : Val) : List (Bytes × α) → Res Val
  | [] => .ok obj
  | (k, x) :: m => (f x).bind fun v => (obj.insert (.str k) v).bind fun obj => addAll f obj m

/-- `accum[key].push_back(val)` for a `std::map` of arrays, include/dart/conversions.h 773-777. -/
def accumPush (less : Bytes → Bytes → Bool) (k : Bytes) (v : Val) : List (Bytes × Val) → Res (List (Bytes × Val))
  | [] => ((Val.arr []).pushBack v).bind fun a => .ok [(k, a)]
  | (k', a) :: r =>
    if less k' k then (accumPush less k v r).bind fun r => .ok ((k', a) :: r)
    else if less k k' then ((Val.arr []).pushBack v).bind fun b => .ok ((k, b) :: (k', a) :: r)
    else (a.pushBack v).bind fun a => .ok ((k', a) :: r)

/-- The loop around it. -/
def accumAll {α : Type} (less : Bytes → Bytes → Bool) (f : α → Res Val) (acc : List (Bytes × Val)) :
    List (Bytes × α) → Res (List (Bytes × Val))
  | [] => .ok acc
  | (k, x) :: m => (f x).bind fun v => (accumPush less k v acc).bind fun acc => accumAll less f acc m

mutual
/-- `convert::cast<Packet>(x)`: `conversion_traits<T>::to_dart`, include/dart/conversions.h 228-233 (vector), 388-393
(deque), 462-467 (list), 536-540 (forward_list), 321-326 (array), 611-615 (map), 692-696 (unordered_map), 773-777
(multimap), 855-859 (unordered_multimap), 934-939, 1003-1008, 1072-1077, 1144-1149 (sets), 1214-1217 (optional),
1286-1288 (variant), 1335-1338, 1371-1373 (tuple), 1435-1437 (pair). -/
def CTy.toDart : (t : CTy) → t.type → Res Val
  | .scalar s, x => .ok (s.inject x).toDart
  | .seq t, xs => pushAll t.toDart (.arr []) xs
  | .fwd t, xs => pushAll t.toDart (.arr []) xs
  | .array t _, xs => pushAll t.toDart (.arr []) xs
  | .map _ t, m => addAll t.toDart (.obj []) m
  | .mmap less t, m => (accumAll less t.toDart [] m).bind fun acc => addAll .ok (.obj []) acc
  | .set s _, xs => pushAll (fun x => .ok (s.inject x).toDart) (.arr []) xs
  | .mset s _, xs => pushAll (fun x => .ok (s.inject x).toDart) (.arr []) xs
  | .opt _, none => .ok .null
  | .opt t, some x => t.toDart x
  | .pair a b, (x, y) => (a.toDart x).bind fun v => (b.toDart y).bind fun w => Val.makeArray [v, w]
  | .tuple ts, xs => (ts.toDarts xs).bind Val.makeArray
  | .variant ts, x => ts.toDartAlt x
/-- The arguments of `make_array` for a tuple. -/
def CTys.toDarts : (ts : CTys) → ts.prod → Res (List Val)
  | .nil, _ => .ok []
  | .cons t ts, (x, xs) => (t.toDart x).bind fun v => (ts.toDarts xs).bind fun vs => .ok (v :: vs)
/-- `shim::visit` of the alternative that is there. -/
def CTys.toDartAlt : (ts : CTys) → ts.sum → Res Val
  | .nil, x => nomatch x
  | .cons t _, .inl x => t.toDart x
  | .cons _ ts, .inr x => ts.toDartAlt x
end

/-! ### Out of packets -/

/-- `for (auto val : v) vec.emplace_back(convert::cast<T>(val))`. -/
def castAll {α : Type} (f : Pkt → Res α) : List Pkt → Res (List α)
  | [] => .ok []
  | p :: ps => (f p).bind fun x => (castAll f ps).bind fun xs => .ok (x :: xs)

/-- `for (it = rbegin; it != rend; ++it) flst.emplace_front(convert::cast<T>(*it))`. -/
def castFront {α : Type} (f : Pkt → Res α) (acc : List α) : List Pkt → Res (List α)
  | [] => .ok acc
  | p :: ps => (f p).bind fun x => castFront f (x :: acc) ps

/-- `std::map::emplace`, `std::set::emplace`: an equivalent element that is there already stays. `key` gives the part
that is compared. -/
def emplace {α κ : Type} (less : κ → κ → Bool) (key : α → κ) (x : α) : List α → List α
  | [] => [x]
  | y :: ys =>
    if less (key y) (key x) then y :: emplace less key x ys
    else if less (key x) (key y) then x :: y :: ys
    else y :: ys

/-- `std::multimap::emplace`, `std::multiset::emplace`: behind the equivalent elements. -/
def emplaceMulti {α κ : Type} (less : κ → κ → Bool) (key : α → κ) (x : α) : List α → List α
  | [] => [x]
  | y :: ys => if less (key x) (key y) then x :: y :: ys else y :: emplaceMulti less key x ys

/-- The loop over keys and values, include/dart/conversions.h 629-636. -/
def emplaceFields {α : Type} (less : Bytes → Bytes → Bool) (f : Pkt → Res α) (acc : List (Bytes × α)) :
    List Pkt → List Pkt → Res (List (Bytes × α))
  | k :: ks, v :: vs => k.strv.bind fun k => (f v).bind fun x => emplaceFields less f (emplace less (·.1) (k, x) acc) ks vs
  | _, _ => .ok acc

/-- One field of an object that becomes a multimap, include/dart/conversions.h 796-801: the elements of an array, and
anything else by itself. -/
def emplaceField {α : Type} (less : Bytes → Bytes → Bool) (f : Pkt → Res α) (acc : List (Bytes × α)) (k : Bytes) (v : Pkt) :
    Res (List (Bytes × α)) :=
  if v.getType = .array then
    v.values.bind fun vs => (castAll f vs).bind fun xs =>
      .ok (xs.foldl (fun acc x => emplaceMulti less (·.1) (k, x) acc) acc)
  else (f v).bind fun x => .ok (emplaceMulti less (·.1) (k, x) acc)

/-- The loop around it, include/dart/conversions.h 791-804. -/
def emplaceGroups {α : Type} (less : Bytes → Bytes → Bool) (f : Pkt → Res α) (acc : List (Bytes × α)) :
    List Pkt → List Pkt → Res (List (Bytes × α))
  | k :: ks, v :: vs => k.strv.bind fun k => (emplaceField less f acc k v).bind fun acc => emplaceGroups less f acc ks vs
  | _, _ => .ok acc

mutual
/-- `convert::cast<T>(pkt)`: `conversion_traits<T>::from_dart`, include/dart/conversions.h 239-255 (vector), 399-414
(deque), 473-488 (list), 546-561 (forward_list), 298-313, 332-340 (array), 623-638, 704-719 (maps), 785-806, 867-888
(multimaps), 945-956, 1014-1025, 1083-1094, 1155-1166 (sets), 1223-1226 (optional), 1256-1276, 1296-1299 (variant),
1340-1348, 1381-1389 (tuple), 1445-1453 (pair). Arrays and tuples are collected from the last element on and then
converted in order. -/
def CTy.fromDart : (t : CTy) → Pkt → Res t.type
  | .scalar s, p => (p.toNative s).bind s.extract
  | .seq t, p => if p.getType = .array then p.values.bind (castAll t.fromDart) else .throw .typeError
  | .fwd t, p =>
    if p.getType = .array then p.values.bind fun vs => castFront t.fromDart [] vs.reverse else .throw .typeError
  | .array t len, p =>
    if p.getType = .array then
      p.size.bind fun n => if n ≠ len then .throw .typeError else p.values.bind (castAll t.fromDart)
    else .throw .typeError
  | .map less t, p =>
    if p.getType = .object then
      p.keys.bind fun ks => p.values.bind fun vs => emplaceFields less t.fromDart [] ks vs
    else .throw .typeError
  | .mmap less t, p =>
    if p.getType = .object then
      p.keys.bind fun ks => p.values.bind fun vs => emplaceGroups less t.fromDart [] ks vs
    else .throw .typeError
  | .set s less, p =>
    if p.getType = .array then
      p.values.bind fun vs => (castAll (fun q => (q.toNative s).bind s.extract) vs).bind fun xs =>
        .ok (xs.foldl (fun acc x => emplace less id x acc) [])
    else .throw .typeError
  | .mset s less, p =>
    if p.getType = .array then
      p.values.bind fun vs => (castAll (fun q => (q.toNative s).bind s.extract) vs).bind fun xs =>
        .ok (xs.foldl (fun acc x => emplaceMulti less id x acc) [])
    else .throw .typeError
  | .opt t, p => if p.getType = .null then .ok none else (t.fromDart p).bind fun x => .ok (some x)
  | .pair a b, p =>
    if p.getType = .array then
      p.size.bind fun n => if n ≠ 2 then .throw .typeError else
        (PRead.run true p (.getIdx 0)).bind fun q => (a.fromDart q).bind fun x =>
        (PRead.run true p (.getIdx 1)).bind fun r => (b.fromDart r).bind fun y => .ok (x, y)
    else .throw .typeError
  | .tuple ts, p =>
    if p.getType = .array then
      p.size.bind fun n => if n ≠ ts.length then .throw .typeError else p.values.bind ts.fromDarts
    else .throw .typeError
  | .variant ts, p => ts.fromDartAlt p
/-- `build_tuple`, include/dart/conversions.h 1340-1348. -/
def CTys.fromDarts : (ts : CTys) → List Pkt → Res ts.prod
  | .nil, _ => .ok ()
  | .cons _ _, [] => .ub
  | .cons t ts, p :: ps => (t.fromDart p).bind fun x => (ts.fromDarts ps).bind fun xs => .ok (x, xs)
/-- `build_variant`, include/dart/conversions.h 1256-1276: the first alternative that can be converted. -/
def CTys.fromDartAlt : (ts : CTys) → Pkt → Res ts.sum
  | .nil, _ => .throw .typeError
  | .cons t ts, p =>
    match t.fromDart p with
    | .ok x => .ok (.inl x)
    | .throw _ => (ts.fromDartAlt p).bind fun x => .ok (.inr x)
    | .ub => .ub
end

/-! ### Comparison -/

/-- Element by element comparison of two ranges of the same length, include/dart/conversions.h 283-290. -/
def eqAll {α : Type} (f : Pkt → α → Res Bool) : List Pkt → List α → Res Bool
  | [], _ => .ok true
  | _ :: _, [] => .ub
  | p :: ps, x :: xs => (f p x).bind fun r => if r then eqAll f ps xs else .ok false

/-- The same for `std::forward_list`, without a look at the length first, include/dart/conversions.h 586-597: the
iterator into the list is dereferenced for every element of the packet. -/
def eqForward {α : Type} (f : Pkt → α → Res Bool) : List Pkt → List α → Res Bool
  | [], xs => .ok xs.isEmpty
  | _ :: _, [] => .ub
  | p :: ps, x :: xs => (f p x).bind fun r => if r then eqForward f ps xs else .ok false

/-- `generic_map_compare_impl`, include/dart/conversions.h 67-77. -/
def eqFields {α : Type} (signed : Bool) (f : Pkt → α → Res Bool) (p : Pkt) : List (Bytes × α) → Res Bool
  | [] => .ok true
  | (k, x) :: m => (PRead.run signed p (.get k)).bind fun q => (f q x).bind fun r =>
      if r then eqFields signed f p m else .ok false

/-- The ways of taking an element equal to `p` out of a list. -/
def takeEqual {α : Type} (f : Pkt → α → Res Bool) (p : Pkt) : List α → Res (List (List α))
  | [] => .ok []
  | x :: xs => (f p x).bind fun b => (takeEqual f p xs).bind fun rs =>
      .ok (if b then xs :: rs.map (x :: ·) else rs.map (x :: ·))

/-- Whether one of the calls returns true. -/
def anyRes {α : Type} (f : α → Res Bool) : List α → Res Bool
  | [] => .ok false
  | x :: xs => (f x).bind fun b => if b then .ok true else anyRes f xs

/-- The second range can be permuted so that it is equal to the first element by element. -/
def permutes {α : Type} (f : Pkt → α → Res Bool) : List Pkt → List α → Res Bool
  | [], _ => .ok true
  | p :: ps, xs => (takeEqual f p xs).bind (anyRes (permutes f ps))

/-- The comparisons of an element of one range with all elements of the other. -/
def callEach {α : Type} (f : Pkt → α → Res Bool) (p : Pkt) : List α → Res Unit
  | [] => .ok ()
  | x :: xs => (f p x).bind fun _ => callEach f p xs

/-- The comparisons of all elements of one range with all elements of the other. -/
def callAll {α : Type} (f : Pkt → α → Res Bool) : List Pkt → List α → Res Unit
  | [], _ => .ok ()
  | p :: ps, xs => (callEach f p xs).bind fun _ => callAll f ps xs

/-- `std::is_permutation` for ranges of the same length, by its specification. It may compare any element of one range
with any of the other, so that all of these comparisons must be defined. -/
def isPermutation {α : Type} (f : Pkt → α → Res Bool) (ps : List Pkt) (xs : List α) : Res Bool :=
  (callAll f ps xs).bind fun _ => permutes f ps xs

/-- The runs of elements with equivalent keys of a multimap, include/dart/conversions.h 101-103, 127-129, 151-153. -/
def runs {α : Type} (less : Bytes → Bytes → Bool) : List (Bytes × α) → List (Bytes × List α)
  | [] => []
  | (k, x) :: m =>
    match runs less m with
    | [] => [(k, [x])]
    | (k', xs) :: gs => if less k k' then (k, [x]) :: (k', xs) :: gs else (k, x :: xs) :: gs

/-- `generic_multimap_compare_impl`, include/dart/conversions.h 96-120. -/
def eqGroups {α : Type} (signed : Bool) (f : Pkt → α → Res Bool) (p : Pkt) : List (Bytes × List α) → Res Bool
  | [] => .ok true
  | (k, xs) :: gs => (PRead.run signed p (.get k)).bind fun q =>
      if q.getType ≠ .array then .ok false
      else q.size.bind fun n => if n ≠ xs.length then .ok false else
        q.values.bind fun vs => (isPermutation f vs xs).bind fun r => if r then eqGroups signed f p gs else .ok false

/-- The checks most of them begin with: an array of the right length. -/
def sized (p : Pkt) (len : Nat) (f : List Pkt → Res Bool) : Res Bool :=
  if p.getType ≠ .array then .ok false
  else p.size.bind fun n => if n ≠ len then .ok false else p.values.bind f

mutual
/-- `pkt == x`: `conversion_traits<T>::compare`, include/dart/conversions.h 276-291 (vector), 361-376
(array), 435-450 (deque), 509-524 (list), 583-597 (forward_list), 663-678, 744-759 (maps), 831-841, 913-923
(multimaps), 979-992, 1048-1061, 1118-1133, 1189-1202 (sets), 1245-1250 (optional), 1321-1328 (variant), 1411-1421
(tuple), 1477-1490 (pair). -/
def CTy.compare (signed : Bool) : (t : CTy) → Pkt → t.type → Res Bool
  | .scalar s, p, x => p.eqNative (s.inject x)
  | .seq t, p, xs => sized p xs.length fun vs => eqAll (t.compare signed) vs xs
  | .fwd t, p, xs =>
    if p.getType ≠ .array then .ok false else p.values.bind fun vs => eqForward (t.compare signed) vs xs
  | .array t len, p, xs => sized p len fun vs => eqAll (t.compare signed) vs xs
  | .map _ t, p, m =>
    if p.getType ≠ .object then .ok false
    else p.size.bind fun n => if n ≠ m.length then .ok false else eqFields signed (t.compare signed) p m
  | .mmap less t, p, m =>
    if p.getType ≠ .object then .ok false else eqGroups signed (t.compare signed) p (runs less m)
  | .set s _, p, xs => sized p xs.length fun vs => isPermutation (fun q x => q.eqNative (s.inject x)) vs xs
  | .mset s _, p, xs => sized p xs.length fun vs => isPermutation (fun q x => q.eqNative (s.inject x)) vs xs
  | .opt _, p, none => .ok (p.getType = .null)
  | .opt t, p, some x => t.compare signed p x
  | .pair a b, p, (x, y) =>
    if p.getType ≠ .array then .ok false
    else p.size.bind fun n => if n ≠ 2 then .ok false else
      (PRead.run signed p (.getIdx 0)).bind fun q => (a.compare signed q x).bind fun c =>
        if c then (PRead.run signed p (.getIdx 1)).bind fun r => b.compare signed r y else .ok false
  | .tuple ts, p, xs => sized p ts.length fun vs => ts.compares signed vs xs
  | .variant ts, p, x => ts.compareAlt signed p x
/-- `unpack_compare_impl`, include/dart/conversions.h 1350-1361. -/
def CTys.compares (signed : Bool) : (ts : CTys) → List Pkt → ts.prod → Res Bool
  | .nil, _, _ => .ok true
  | .cons _ _, [], _ => .ub
  | .cons t ts, p :: ps, (x, xs) => (t.compare signed p x).bind fun c => if c then ts.compares signed ps xs else .ok false
/-- `shim::visit` of the alternative that is there. -/
def CTys.compareAlt (signed : Bool) : (ts : CTys) → Pkt → ts.sum → Res Bool
  | .nil, _, x => nomatch x
  | .cons t _, p, .inl x => t.compare signed p x
  | .cons _ ts, p, .inr x => ts.compareAlt signed p x
end

end Dart
