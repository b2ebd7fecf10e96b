import Verif.Model.Nested
import Verif.Model.Builder
import Verif.Model.Lower

/-
The mixed representation (`basic_packet`): each call either needs one of the two representations or is
passed on to the one that is there. Calls on temporaries (`std::move(p).get(...)`) are in Rvalue. Packets are values here:
that copies share elements, which shows for `clear` and `resize` and for a packet stored in itself, is the subject of
C16 and C32.
-/
namespace Dart

/-! ### Scalar reads of dynamic values -/

/-- `basic_heap::strv`, include/dart/heap/string.tcc 28-38. -/
def Val.strv : Val → Res Bytes
  | .str s => .ok s
  | _ => .throw .typeError

/-- `basic_heap::integer`, include/dart/heap/primitive.tcc 30-33. -/
def Val.integer : Val → Res (BitVec 64)
  | .int i => .ok i
  | _ => .throw .typeError

/-- `basic_heap::decimal`, include/dart/heap/primitive.tcc 41-44. -/
def Val.decimal : Val → Res (BitVec 64)
  | .dec d => .ok d
  | _ => .throw .typeError

/-- `basic_heap::boolean`, include/dart/heap/primitive.tcc 69-72. -/
def Val.boolean : Val → Res Bool
  | .bool b => .ok b
  | _ => .throw .typeError

/-- `basic_heap::get_type`, include/dart/heap/api.tcc (`get_type`). -/
def Val.getType : Val → Ty
  | .null => .null
  | .bool _ => .boolean
  | .int _ => .integer
  | .dec _ => .decimal
  | .str _ => .string
  | .arr _ => .array
  | .obj _ => .object

/-- `basic_buffer::get_bytes`, include/dart/buffer/api.tcc 248-253. -/
def Buf.getBytes (b : Buf) : Res Bytes :=
  if b.getType = .object then
    (Res.ofRead b.addr).bind fun p => (Res.ofRead (findSizeof b.mem .object p)).bind fun n =>
      Res.ofRead (readBytes b.mem p n)
  else .throw .typeError

namespace Pkt

/-- `is_finalized`, include/dart/packet/api.tcc 378-381. -/
def isFinalized : Pkt → Bool
  | .heap _ => false
  | .buf _ => true

/-- `get_heap`, include/dart/packet/detail.tcc 55-65. -/
def getHeap : Pkt → Res Val
  | .heap v => .ok v
  | .buf _ => .throw .stateError

/-- `get_buffer`, include/dart/packet/detail.tcc 77-87. -/
def getBuffer : Pkt → Res Buf
  | .heap _ => .throw .stateError
  | .buf b => .ok b

/-- `convert::cast<basic_heap>`, include/dart/conversion_traits.h 84-115 for a buffer; a heap stays
what it is. -/
def toHeap : Pkt → Res Val
  | .heap v => .ok v
  | .buf b => Res.ofRead b.value

/-- `finalize` / `lower`, include/dart/packet/api.tcc 209-233, conversion of the dynamic value
include/dart/conversion_traits.h 122-139. The assignment happens after the conversion. -/
def finalize : Pkt → Res Pkt
  | .heap v => (Dart.finalize v).bind fun m => .ok (.buf (Buf.ofBytes m))
  | .buf b => .ok (.buf b)

/-- `definalize` / `lift`, include/dart/packet/api.tcc 183-207. -/
def definalize : Pkt → Res Pkt
  | .heap v => .ok (.heap v)
  | .buf b => (Res.ofRead b.value).bind fun v => .ok (.heap v)

/-- `shim::visit` with the same call on both alternatives. -/
def visit {α β γ : Type} (f : Val → Res α) (g : Buf → Res β) (h : α → γ) (k : β → γ) : Pkt → Res γ
  | .heap v => (f v).bind fun a => .ok (h a)
  | .buf b => (g b).bind fun a => .ok (k a)

/-! ### Reads -/

/-- `get_type`, include/dart/packet/api.tcc 373-376. -/
def getType : Pkt → Ty
  | .heap v => v.getType
  | .buf b => b.getType

/-- `size`, include/dart/packet/api.tcc 313-316. -/
def size (p : Pkt) : Res Nat := p.visit (·.size) (·.size) id id

/-- `has_key(string_view)`, include/dart/packet/object.tcc 259-262. -/
def hasKey (signed : Bool) (p : Pkt) (k : Bytes) : Res Bool := p.visit (·.hasKey k) (·.hasKey signed k) id id

/-- `integer`, include/dart/packet/primitive.tcc 30-33. -/
def integer (p : Pkt) : Res (BitVec 64) := p.visit (·.integer) (·.integer) id id

/-- `decimal`, include/dart/packet/primitive.tcc 40-43. -/
def decimal (p : Pkt) : Res (BitVec 64) := p.visit (·.decimal) (·.decimal) id id

/-- `boolean`, include/dart/packet/primitive.tcc 60-63. -/
def boolean (p : Pkt) : Res Bool := p.visit (·.boolean) (·.boolean) id id

/-- `values`, include/dart/packet/api.tcc 282-290. -/
def values (p : Pkt) : Res (List Pkt) :=
  p.size.bind fun _ => p.visit (·.values) (·.values) (List.map Pkt.heap) (List.map Pkt.buf)

/-- `keys`, include/dart/packet/object.tcc 243-251. -/
def keys (p : Pkt) : Res (List Pkt) :=
  p.size.bind fun _ => p.visit (·.keys) (·.keys) (List.map fun k => Pkt.heap (.str k)) (List.map Pkt.buf)

/-- `get_bytes`, include/dart/packet/api.tcc 292-295. -/
def getBytes (p : Pkt) : Res Bytes := p.getBuffer.bind Buf.getBytes

end Pkt

/-- The reads that return a packet; `α` is what stands for the default. -/
inductive PRead (α : Type) where
  | get (k : Bytes)
  | at (k : Bytes)
  | getIdx (i : Nat)
  | atIdx (i : Nat)
  | front
  | back
  | atFront
  | atBack
  | nested (path : Bytes) (sep : UInt8)
  | getOr (k : Bytes) (d : α)
  | getIdxOr (i : Nat) (d : α)
  | frontOr (d : α)
  | backOr (d : α)

/-- One such call. `get`, `at`, `get_nested`: include/dart/packet/object.tcc 167-170, 192-195,
209-212; `get_or`: 185-190; the others: include/dart/packet/array.tcc 151-154, 169-174, 188-191,
200-203, 212-215, 224-227, 236-240, 242-245, 254-258. -/
def PRead.run (signed : Bool) (p : Pkt) : PRead Pkt → Res Pkt
  | .get k => p.visit (·.get k) (·.get signed k) .heap .buf
  | .at k => p.visit (·.atKey k) (·.at signed k) .heap .buf
  | .getIdx i => p.visit (·.getIdx i) (·.getIdx i) .heap .buf
  | .atIdx i => p.visit (·.atIdx i) (·.atIdx i) .heap .buf
  | .front => p.visit (·.front) (·.front) .heap .buf
  | .back => p.visit (·.back) (·.back) .heap .buf
  | .atFront => p.visit (·.atFront) (·.atFront) .heap .buf
  | .atBack => p.visit (·.atBack) (·.atBack) .heap .buf
  | .nested path sep => p.visit (·.getNested path sep) (·.getNested signed path sep) .heap .buf
  | .getOr k d =>
    if p.getType = .object then (p.hasKey signed k).bind fun h =>
      if h then p.visit (·.get k) (·.get signed k) .heap .buf else .ok d
    else .ok d
  | .getIdxOr i d =>
    if p.getType = .array then p.size.bind fun n =>
      if n > i then p.visit (·.getIdx i) (·.getIdx i) .heap .buf else .ok d
    else .ok d
  -- these two ask for the dynamic representation
  | .frontOr d => p.getHeap.bind fun v => d.toHeap.bind fun w => (v.frontOr w).bind fun r => .ok (.heap r)
  | .backOr d => p.getHeap.bind fun v => d.toHeap.bind fun w => (v.backOr w).bind fun r => .ok (.heap r)

/-- The mutators; `α` is what stands for an argument. `assign` is `operator =` from anything that is
not a packet. -/
inductive PMut (α : Type) where
  | assign (v : α)
  | insert (key value : α)
  | set (key value : α)
  | erase (key : α)
  | eraseKey (k : Bytes)
  | eraseIdx (pos : Nat)
  | pushFront (v : α)
  | pushBack (v : α)
  | popFront
  | popBack
  | clear
  | resize (count : Nat) (d : α)

/-- One such call: the new state of the packet. include/dart/packet/api.tcc 12-17, 125-129, 140-144,
155-165 (the key is looked at before the representation), 177-181; include/dart/packet/object.tcc
84-88; include/dart/packet/array.tcc 36-41, 50-55, 64-69, 78-83, 98-102, 110-114. The arguments are
converted to dynamic values. -/
def PMut.run (p : Pkt) : PMut Pkt → Res Pkt
  | .assign a => p.getHeap.bind fun _ => a.toHeap.bind fun w => .ok (.heap w)
  | .insert k a => p.getHeap.bind fun v => k.toHeap.bind fun k => a.toHeap.bind fun w =>
      (v.insert k w).bind fun r => .ok (.heap r)
  | .set k a => p.getHeap.bind fun v => k.toHeap.bind fun k => a.toHeap.bind fun w =>
      (v.set k w).bind fun r => .ok (.heap r)
  | .erase k =>
    match k.getType with
    | .string => k.strv.bind fun s => p.getHeap.bind fun v => (v.eraseKey s).bind fun r => .ok (.heap r)
    | .integer => k.integer.bind fun i => p.getHeap.bind fun v => (v.eraseIdx i.toNat).bind fun r => .ok (.heap r)
    | _ => .throw .typeError
  | .eraseKey k => p.getHeap.bind fun v => (v.eraseKey k).bind fun r => .ok (.heap r)
  | .eraseIdx i => p.getHeap.bind fun v => (v.eraseIdx i).bind fun r => .ok (.heap r)
  | .pushFront a => p.getHeap.bind fun v => a.toHeap.bind fun w => (v.pushFront w).bind fun r => .ok (.heap r)
  | .pushBack a => p.getHeap.bind fun v => a.toHeap.bind fun w => (v.pushBack w).bind fun r => .ok (.heap r)
  | .popFront => p.getHeap.bind fun v => v.popFront.bind fun r => .ok (.heap r)
  | .popBack => p.getHeap.bind fun v => v.popBack.bind fun r => .ok (.heap r)
  | .clear => p.getHeap.bind fun v => v.clear.bind fun r => .ok (.heap r)
  | .resize n a => p.getHeap.bind fun v => a.toHeap.bind fun w => (v.resize n w).bind fun r => .ok (.heap r)

/-! ### Histories -/

/-- An argument: a dynamic value made on the spot, or a packet variable. -/
inductive PArg where
  | const (v : Val)
  | var (y : Nat)

/-- Apply a function to the arguments. -/
def PRead.map {α β : Type} (f : α → β) : PRead α → PRead β
  | .get k => .get k
  | .at k => .at k
  | .getIdx i => .getIdx i
  | .atIdx i => .atIdx i
  | .front => .front
  | .back => .back
  | .atFront => .atFront
  | .atBack => .atBack
  | .nested p s => .nested p s
  | .getOr k d => .getOr k (f d)
  | .getIdxOr i d => .getIdxOr i (f d)
  | .frontOr d => .frontOr (f d)
  | .backOr d => .backOr (f d)

/-- Apply a function to the arguments. -/
def PMut.map {α β : Type} (f : α → β) : PMut α → PMut β
  | .assign a => .assign (f a)
  | .insert k a => .insert (f k) (f a)
  | .set k a => .set (f k) (f a)
  | .erase k => .erase (f k)
  | .eraseKey k => .eraseKey k
  | .eraseIdx i => .eraseIdx i
  | .pushFront a => .pushFront (f a)
  | .pushBack a => .pushBack (f a)
  | .popFront => .popFront
  | .popBack => .popBack
  | .clear => .clear
  | .resize n a => .resize n (f a)

/-- `basic_packet::from_json(json, finalized)`, include/dart/connector/json.tcc 193-199, of a text of `size` bytes that
parses to the document `j`. -/
def Pkt.fromJson (finalized : Bool) (sort : List (Bytes × Json) → List (Bytes × Json)) (fill : Nat → Bytes) (size : Nat)
    (j : Json) : Res Pkt :=
  if finalized then (Buf.fromJson sort fill size j).bind fun b => .ok (.buf b)
  else j.toHeap.bind fun v => .ok (.heap v)

/-- What a program does with packet variables: create one (from a value, as a copy, or from JSON text), mutate one,
switch its representation, or store the result of a read in a new one. -/
inductive POp where
  | create (a : PArg)
  | fromJson (finalized : Bool) (sort : List (Bytes × Json) → List (Bytes × Json)) (fill : Nat → Bytes) (size : Nat)
      (j : Json)
  | mutate (x : Nat) (m : PMut PArg)
  | finalize (x : Nat)
  | definalize (x : Nat)
  | read (x : Nat) (r : PRead PArg)

/-- The packet a variable holds; variables that do not exist stand for a null packet. -/
def pktVar (ps : List Pkt) (x : Nat) : Pkt := ps[x]?.getD (.heap .null)

/-- The packet an argument stands for. -/
def PArg.pkt (ps : List Pkt) : PArg → Pkt
  | .const v => .heap v
  | .var y => pktVar ps y

/-- Store the outcome of a call in variable `x`; a call that throws changes nothing. Undefined
behaviour is `none`. -/
def storeAt (ps : List Pkt) (x : Nat) : Res Pkt → Option (List Pkt × Option Exc)
  | .ok p => some (ps.set x p, none)
  | .throw e => some (ps, some e)
  | .ub => none

/-- Store the outcome of a call in a new variable. -/
def storeNew (ps : List Pkt) : Res Pkt → Option (List Pkt × Option Exc)
  | .ok p => some (ps ++ [p], none)
  | .throw e => some (ps, some e)
  | .ub => none

/-- One step of a program. -/
def POp.run (signed : Bool) (ps : List Pkt) : POp → Option (List Pkt × Option Exc)
  | .create a => some (ps ++ [a.pkt ps], none)
  | .fromJson fin sort fill size j => storeNew ps (Pkt.fromJson fin sort fill size j)
  | .mutate x m => storeAt ps x ((m.map (PArg.pkt ps)).run (pktVar ps x))
  | .finalize x => storeAt ps x (pktVar ps x).finalize
  | .definalize x => storeAt ps x (pktVar ps x).definalize
  | .read x r => storeNew ps ((r.map (PArg.pkt ps)).run signed (pktVar ps x))

/-- A program: the final variables and the exception each step threw. -/
def runPackets (signed : Bool) (ps : List Pkt) : List POp → Option (List Pkt × List (Option Exc))
  | [] => some (ps, [])
  | op :: ops =>
    match op.run signed ps with
    | none => none
    | some (ps, e) =>
      match runPackets signed ps ops with
      | none => none
      | some (ps, es) => some (ps, e :: es)

end Dart
