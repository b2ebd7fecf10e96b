import Verif.Model.Buffer

/-
The interface of dynamic values (`basic_heap`) at the level of values: what a call returns or which
exception it throws. Sharing of storage is the subject of `Verif.Model.Cow`. A mutating call returns
the new value of `*this`.
-/
namespace Dart

/-- `std::map::find` with `dart_comparator` (include/dart/common.tcc 26-119): the entry whose key is
equivalent to `k`. -/
def mapFind {α : Type} (k : Bytes) : List (Bytes × α) → Option α
  | [] => none
  | (k', v) :: r => if !keyLt k k' && !keyLt k' k then some v else mapFind k r

/-- The position of the iterator `std::map::find` returns (the number of entries for `end()`). -/
def mapPos (k : Bytes) : List (Bytes × Val) → Nat
  | [] => 0
  | (k', _) :: r => if !keyLt k k' && !keyLt k' k then 0 else mapPos k r + 1

/-- `std::map::erase` of the entry found, if any; include/dart/heap/object.tcc 310-320. -/
def mapErase {α : Type} (k : Bytes) : List (Bytes × α) → List (Bytes × α)
  | [] => []
  | (k', v) :: r => if !keyLt k k' && !keyLt k' k then r else (k', v) :: mapErase k r

/-- `std::vector<basic_heap>::max_size()` with 32-byte elements; inserting beyond it throws
`std::length_error`. -/
def maxElems : Nat := 2 ^ 58

namespace Val

/-- `basic_heap::size`, include/dart/heap/api.tcc 403-418. -/
def size : Val → Res Nat
  | .obj fs => .ok fs.length
  | .arr es => .ok es.length
  | .str s => .ok s.length
  | _ => .throw .typeError

/-- `basic_heap::insert(key, value)`, include/dart/heap/api.tcc 118-154. -/
def insert (self key value : Val) : Res Val :=
  match key with
  | .str k =>
    if k.length > 65535 then .throw .invalidArgument
    else match self with
      | .obj fs => .ok (.obj (mapInsert k value fs))
      | _ => .throw .typeError
  | .int i =>
    match self with
    | .arr es =>
      -- static_cast<size_type> of a negative integer is huge
      if i.toNat > es.length then .throw .outOfRange
      else if es.length ≥ maxElems then .throw .lengthError
      else .ok (.arr (es.take i.toNat ++ value :: es.drop i.toNat))
    | _ => .throw .typeError
  | _ => .throw .typeError

/-- `basic_heap::set(key, value)`, include/dart/heap/api.tcc 170-202. -/
def set (self key value : Val) : Res Val :=
  match key with
  | .str k =>
    if k.length > 65535 then .throw .invalidArgument
    else match self with
      | .obj fs => if (mapFind k fs).isSome then .ok (.obj (mapInsert k value fs)) else .throw .outOfRange
      | _ => .throw .typeError
  | .int i =>
    match self with
    | .arr es =>
      if i.toNat ≥ es.length then .throw .outOfRange else .ok (.arr (es.set i.toNat value))
    | _ => .throw .typeError
  | _ => .throw .typeError

/-- `basic_heap::erase(string_view)`, include/dart/heap/object.tcc 93-97, 303-321. -/
def eraseKey (self : Val) (k : Bytes) : Res Val :=
  match self with
  | .obj fs => .ok (.obj (mapErase k fs))
  | _ => .throw .typeError

/-- `basic_heap::erase(size_type)`, include/dart/heap/array.tcc 110-121; `pos` is below `2^64`. -/
def eraseIdx (self : Val) (pos : Nat) : Res Val :=
  match self with
  | .arr es => if pos ≥ es.length then .ok (.arr es) else .ok (.arr (es.eraseIdx pos))
  | _ => .throw .typeError

/-- `basic_heap::erase(KeyType)`, include/dart/heap/api.tcc 218-228. -/
def erase (self key : Val) : Res Val :=
  match key with
  | .str k => self.eraseKey k
  | .int i => self.eraseIdx i.toNat
  | _ => .throw .typeError

/-- `basic_heap::push_front`, include/dart/heap/array.tcc 48-53. -/
def pushFront (self value : Val) : Res Val := self.insert (.int 0) value

/-- `basic_heap::push_back`, include/dart/heap/array.tcc 76-81: `insert(size(), value)`. -/
def pushBack (self value : Val) : Res Val :=
  self.size.bind fun n => self.insert (.int (BitVec.ofNat 64 n)) value

/-- `basic_heap::pop_front`, include/dart/heap/array.tcc 62-67. -/
def popFront (self : Val) : Res Val := self.eraseIdx 0

/-- `basic_heap::pop_back`, include/dart/heap/array.tcc 90-95: `erase(size() - 1)` in `size_t`. -/
def popBack (self : Val) : Res Val :=
  self.size.bind fun n => self.eraseIdx ((n + (2 ^ 64 - 1)) % 2 ^ 64)

/-- `basic_heap::clear`, include/dart/heap/api.tcc 255-261. -/
def clear : Val → Res Val
  | .obj _ => .ok (.obj [])
  | .arr _ => .ok (.arr [])
  | _ => .throw .typeError

/-- `basic_heap::resize`, include/dart/heap/array.tcc 129-133. -/
def resize (self : Val) (count : Nat) (d : Val) : Res Val :=
  match self with
  | .arr es =>
    if count > maxElems then .throw .lengthError
    else .ok (.arr (es.take count ++ List.replicate (count - es.length) d))
  | _ => .throw .typeError

/-- `inject_pairs`, include/dart/heap/object.tcc 274-289, the loop: pairs are inserted in order; an
odd number of arguments reads past the end. -/
def injectLoop (self : Val) : List Val → Res Val
  | [] => .ok self
  | [_] => .ub
  | k :: v :: r => (self.insert k v).bind fun self' => injectLoop self' r

/-- `basic_heap::inject(span)`, include/dart/heap/object.tcc 99-133: works on a copy. -/
def inject (self : Val) (pairs : List Val) : Res Val :=
  match self with
  | .obj fs => injectLoop (.obj fs) pairs
  | _ => .throw .typeError

/-- `basic_heap::make_object(span)`, include/dart/heap/object.tcc 12-46. -/
def makeObject (pairs : List Val) : Res Val := injectLoop (.obj []) pairs

/-- `push_elems`, include/dart/heap/array.tcc 227-240. -/
def pushElems (self : Val) : List Val → Res Val
  | [] => .ok self
  | v :: r => (self.pushBack v).bind fun self' => pushElems self' r

/-- `basic_heap::make_array(span)`, include/dart/heap/array.tcc 12-46. -/
def makeArray (elems : List Val) : Res Val := pushElems (.arr []) elems

/-- `basic_heap::has_key(string_view)`, include/dart/heap/object.tcc 261-265. -/
def hasKey (self : Val) (k : Bytes) : Res Bool :=
  match self with
  | .obj fs => .ok (mapFind k fs).isSome
  | _ => .throw .typeError

/-- `basic_heap::get(string_view)`, include/dart/heap/object.tcc 173-182. -/
def get (self : Val) (k : Bytes) : Res Val :=
  match self with
  | .obj fs => .ok ((mapFind k fs).getD .null)
  | _ => .throw .typeError

/-- `basic_heap::at(string_view)`, include/dart/heap/object.tcc 207-216. -/
def atKey (self : Val) (k : Bytes) : Res Val :=
  match self with
  | .obj fs => match mapFind k fs with | some v => .ok v | none => .throw .outOfRange
  | _ => .throw .typeError

/-- `basic_heap::get_or(string_view, opt)`, include/dart/heap/object.tcc 189-195. -/
def getOr (self : Val) (k : Bytes) (d : Val) : Res Val :=
  match self with
  | .obj fs => if (mapFind k fs).isSome then .ok ((mapFind k fs).getD .null) else .ok d
  | _ => .ok d

/-- `basic_heap::find(string_view)` / `find_key(string_view)`, include/dart/heap/object.tcc 223-248. An
iterator over an object is its position; `size()` is the end iterator. -/
def find (self : Val) (k : Bytes) : Res Nat :=
  match self with
  | .obj fs => .ok (mapPos k fs)
  | _ => .throw .typeError

/-- `basic_heap::project_keys`, include/dart/heap/object.tcc 291-301, the loop. -/
def projectLoop (self acc : Val) : List Bytes → Res Val
  | [] => .ok acc
  | k :: r => (self.hasKey k).bind fun b =>
    if b then (self.get k).bind fun v => (acc.insert (.str k) v).bind fun acc' => projectLoop self acc' r
    else projectLoop self acc r

/-- `basic_heap::project`, include/dart/heap/object.tcc 135-151, 291-301. -/
def project (self : Val) (keys : List Bytes) : Res Val :=
  match self with
  | .obj fs => projectLoop (.obj fs) (.obj []) keys
  | _ => .throw .typeError

/-- `basic_heap::get(size_type)`, include/dart/heap/array.tcc 151-156. -/
def getIdx (self : Val) (i : Nat) : Res Val :=
  match self with
  | .arr es => .ok (if h : i < es.length then es[i] else .null)
  | _ => .throw .typeError

/-- `basic_heap::at(size_type)`, include/dart/heap/array.tcc 176-181: the size is asked first, so an
index beyond it throws `out_of_range` even on objects and strings. -/
def atIdx (self : Val) (i : Nat) : Res Val :=
  self.size.bind fun n =>
    if i < n then match self with
      | .arr es => Res.ofRead es[i]?
      | _ => .throw .typeError
    else .throw .outOfRange

/-- `basic_heap::get_or(size_type, opt)`, include/dart/heap/array.tcc 163-169. -/
def getIdxOr (self : Val) (i : Nat) (d : Val) : Res Val :=
  match self with
  | .arr es => if es.length > i then self.getIdx i else .ok d
  | _ => .ok d

/-- `basic_heap::front`, include/dart/heap/array.tcc 195-200. -/
def front (self : Val) : Res Val :=
  match self with
  | .arr es => .ok (es.head?.getD .null)
  | _ => .throw .typeError

/-- `basic_heap::back`, include/dart/heap/array.tcc 209-214. -/
def back (self : Val) : Res Val :=
  match self with
  | .arr es => .ok (es.getLast?.getD .null)
  | _ => .throw .typeError

/-- `basic_heap::front_or`, include/dart/heap/array.tcc 202-207. -/
def frontOr (self d : Val) : Res Val :=
  match self with
  | .arr es => if es.isEmpty then .ok d else self.front
  | _ => .ok d

/-- `basic_heap::back_or`, include/dart/heap/array.tcc 216-221. -/
def backOr (self d : Val) : Res Val :=
  match self with
  | .arr es => if es.isEmpty then .ok d else self.back
  | _ => .ok d

/-- `basic_heap::at_front`, include/dart/heap/array.tcc 183-187. -/
def atFront (self : Val) : Res Val :=
  self.size.bind fun n => if n = 0 then .throw .outOfRange else self.front

/-- `basic_heap::at_back`, include/dart/heap/array.tcc 189-193. -/
def atBack (self : Val) : Res Val :=
  self.size.bind fun n => if n = 0 then .throw .outOfRange else self.back

/-- `basic_heap::keys`, include/dart/heap/object.tcc 250-253, `keys_impl`,
include/dart/common.h 1594-1602: keys in map order. Objects only (`key_begin` throws otherwise). -/
def keys (self : Val) : Res (List Bytes) :=
  match self with
  | .obj fs => .ok (fs.map (·.1))
  | _ => .throw .typeError

/-- `basic_heap::values`, include/dart/heap/api.tcc 398-401. -/
def values (self : Val) : Res (List Val) :=
  match self with
  | .obj fs => .ok (fs.map (·.2))
  | .arr es => .ok es
  | _ => .throw .typeError

end Val

/-- The mutating operations (and the two that return a modified copy, used as `x = x.op(…)`). -/
inductive HOp where
  | insert (key value : Val)
  | set (key value : Val)
  | erase (key : Val)
  | eraseKey (k : Bytes)
  | eraseIdx (pos : Nat)
  | pushFront (v : Val)
  | pushBack (v : Val)
  | popFront
  | popBack
  | clear
  | resize (count : Nat) (d : Val)
  | inject (pairs : List (Val × Val))
  | project (keys : List Bytes)

/-- One call. -/
def HOp.run (self : Val) : HOp → Res Val
  | .insert k v => self.insert k v
  | .set k v => self.set k v
  | .erase k => self.erase k
  | .eraseKey k => self.eraseKey k
  | .eraseIdx i => self.eraseIdx i
  | .pushFront v => self.pushFront v
  | .pushBack v => self.pushBack v
  | .popFront => self.popFront
  | .popBack => self.popBack
  | .clear => self.clear
  | .resize n d => self.resize n d
  | .inject ps => self.inject (ps.flatMap fun p => [p.1, p.2])
  | .project ks => self.project ks

/-- A history: a call that throws leaves the value as it was (the call only assigns on success) and
the exception is recorded. -/
def runHistory (self : Val) : List HOp → Val × List (Option Exc)
  | [] => (self, [])
  | op :: ops =>
    match op.run self with
    | .ok v => let r := runHistory v ops; (r.1, none :: r.2)
    | .throw e => let r := runHistory self ops; (r.1, some e :: r.2)
    | .ub => (self, [])

end Dart
