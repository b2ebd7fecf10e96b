import Verif.Model.Heap

/-
Iterators over finalized aggregates (`ll_iterator`, `basic_buffer::iterator`) and over dynamic ones.
Default constructed and moved from iterators are not modelled: an iterator always has a position.
-/
namespace Dart

/-- Which function an `ll_iterator` calls when dereferenced: `object::load_key`, `object::load_value`
or `array::load_elem`. -/
inductive Loader
  | key | value | elem
  deriving DecidableEq, Repr

/-- `ll_iterator`, include/dart/common.h 499-540: a position, the address of the aggregate, and how to
load. -/
structure LLIter where
  idx : Nat
  base : Nat
  load : Loader
  deriving DecidableEq, Repr

/-- `ll_iterator::operator ==`, include/dart/iterator.tcc 14-19: `load_func` is not compared. -/
def LLIter.eq (a b : LLIter) : Bool := a.base == b.base && a.idx == b.idx

/-- `ll_iterator::operator ++`, include/dart/iterator.tcc 26-30 (`size_t` wraps around). -/
def LLIter.incr (a : LLIter) : LLIter := { a with idx := (a.idx + 1) % 2 ^ 64 }

/-- `ll_iterator::operator --`, include/dart/iterator.tcc 32-36. -/
def LLIter.decr (a : LLIter) : LLIter := { a with idx := (a.idx + (2 ^ 64 - 1)) % 2 ^ 64 }

/-- `ll_iterator::operator *`, include/dart/iterator.tcc 54-57, with `load_key` and `load_value`,
include/dart/object.tcc 705-725 (no check of the index), and `load_elem`, include/dart/array.tcc
374-392 (null beyond the end). -/
def LLIter.deref (m : Bytes) (a : LLIter) : Option RawElem :=
  match a.load with
  | .key => (loadKey m a.base a.idx).map fun kp => (.string, some kp)
  | .value => (loadValue m a.base a.idx).map fun e => (e.1, some e.2)
  | .elem => (numElems m a.base).bind fun n =>
    if a.idx < n then (loadElem m a.base a.idx).map fun e => (e.1, some e.2) else some (.null, none)

/-- `basic_buffer::iterator`, include/dart.h 7880-7937: the buffer iterated over and the position. -/
structure BufIter where
  pkt : Buf
  impl : LLIter
  deriving DecidableEq, Repr

/-- `iterator::operator ==`, include/dart/buffer/iterator.tcc 28-32. Addresses are relative to the memory
of the buffer, so this is for iterators over the same memory. -/
def BufIter.eq (a b : BufIter) : Bool := a.impl.eq b.impl

/-- `iterator::operator ++`, include/dart/buffer/iterator.tcc 39-43. -/
def BufIter.incr (a : BufIter) : BufIter := { a with impl := a.impl.incr }

/-- `iterator::operator --`, include/dart/buffer/iterator.tcc 45-49. -/
def BufIter.decr (a : BufIter) : BufIter := { a with impl := a.impl.decr }

/-- `iterator::operator *`, include/dart/buffer/iterator.tcc 65-68. -/
def BufIter.deref (a : BufIter) : Res Buf :=
  (Res.ofRead (a.impl.deref a.pkt.mem)).bind fun e => .ok (a.pkt.sub e)

/-- `std::reverse_iterator::operator *`: the element before the position. -/
def BufIter.rderef (a : BufIter) : Res Buf := a.decr.deref

/-- `basic_buffer::begin`, include/dart/buffer/api.tcc 368-373, `object::begin`, include/dart/object.tcc
612-615, `array::begin`, include/dart/array.tcc 353-357. -/
def Buf.begin (b : Buf) : Res BufIter :=
  match b.type with
  | .object => (Res.ofRead b.addr).bind fun p => .ok ⟨b, 0, p, .value⟩
  | .array => (Res.ofRead b.addr).bind fun p => .ok ⟨b, 0, p, .elem⟩
  | _ => .throw .typeError

/-- `basic_buffer::end`, include/dart/buffer/api.tcc 380-385, `object::end`, include/dart/object.tcc
617-620, `array::end`, include/dart/array.tcc 359-362. -/
def Buf.end (b : Buf) : Res BufIter :=
  match b.type with
  | .object => (Res.ofRead b.addr).bind fun p => (Res.ofRead (numElems b.mem p)).bind fun n => .ok ⟨b, n, p, .value⟩
  | .array => (Res.ofRead b.addr).bind fun p => (Res.ofRead (numElems b.mem p)).bind fun n => .ok ⟨b, n, p, .elem⟩
  | _ => .throw .typeError

/-- `basic_buffer::key_begin`, include/dart/buffer/api.tcc 402-405, `object::key_begin`,
include/dart/object.tcc 622-625. -/
def Buf.keyBegin (b : Buf) : Res BufIter := b.object.bind fun p => .ok ⟨b, 0, p, .key⟩

/-- `basic_buffer::key_end`, include/dart/buffer/api.tcc 412-415, `object::key_end`,
include/dart/object.tcc 627-630. -/
def Buf.keyEnd (b : Buf) : Res BufIter :=
  b.object.bind fun p => (Res.ofRead (numElems b.mem p)).bind fun n => .ok ⟨b, n, p, .key⟩

/-- The position in the iterator made by `object::get_it` and `object::get_key_it`,
include/dart/object.tcc 680-692. `size_t idx;` is not initialised and written by the callback of
`get_key` only if the key is found; `junk` is what the variable held. -/
def searchIdx (signed : Bool) (junk : Nat) (m : Bytes) (base : Nat) (key : Bytes) : Option Nat :=
  (getKey signed m base key).map fun r =>
    match r with
    | some hit => hit.1
    | none => junk

/-- `basic_buffer::find`, include/dart/buffer/object.tcc 178-182. -/
def Buf.find (signed : Bool) (junk : Nat) (b : Buf) (key : Bytes) : Res BufIter :=
  b.object.bind fun p => (Res.ofRead (searchIdx signed junk b.mem p key)).bind fun i => .ok ⟨b, i, p, .value⟩

/-- `basic_buffer::find_key`, include/dart/buffer/object.tcc 189-193. -/
def Buf.findKey (signed : Bool) (junk : Nat) (b : Buf) (key : Bytes) : Res BufIter :=
  b.object.bind fun p => (Res.ofRead (searchIdx signed junk b.mem p key)).bind fun i => .ok ⟨b, i, p, .key⟩

/-- A client's loop `for (; it != last; ++it) use(*it);`, collecting what is seen. It gives up with
`none` after `fuel` rounds. -/
def BufIter.loop : Nat → BufIter → BufIter → Option (Res (List Buf))
  | 0, it, last => if it.eq last then some (.ok []) else none
  | fuel + 1, it, last =>
    if it.eq last then some (.ok [])
    else (loop fuel it.incr last).map fun r => it.deref.bind fun x => r.bind fun l => .ok (x :: l)

/-- The same loop with `std::reverse_iterator`s: `it` and `last` are their bases. -/
def BufIter.rloop : Nat → BufIter → BufIter → Option (Res (List Buf))
  | 0, it, last => if it.eq last then some (.ok []) else none
  | fuel + 1, it, last =>
    if it.eq last then some (.ok [])
    else (rloop fuel it.decr last).map fun r => it.rderef.bind fun x => r.bind fun l => .ok (x :: l)

/-- An iterator into a dynamic aggregate (`dn_iterator`, include/dart/common.h 542-606), which wraps a
map or vector iterator: the aggregate and a position; the size of the aggregate is `end()`. -/
structure HeapIter where
  aggr : Val
  pos : Nat
  load : Loader

/-- `basic_heap::find`, include/dart/heap/object.tcc 224-232. -/
def Val.findIt (v : Val) (k : Bytes) : Res HeapIter :=
  match v with
  | .obj fs => .ok ⟨v, mapPos k fs, .value⟩
  | _ => .throw .typeError

/-- `basic_heap::find_key`, include/dart/heap/object.tcc 240-248. -/
def Val.findKeyIt (v : Val) (k : Bytes) : Res HeapIter :=
  match v with
  | .obj fs => .ok ⟨v, mapPos k fs, .key⟩
  | _ => .throw .typeError

/-- `basic_heap::begin`, include/dart/heap/api.tcc 514-525. -/
def Val.beginIt (v : Val) : Res HeapIter :=
  match v with
  | .obj _ => .ok ⟨v, 0, .value⟩
  | .arr _ => .ok ⟨v, 0, .elem⟩
  | _ => .throw .typeError

/-- `basic_heap::end`, include/dart/heap/api.tcc 532-543. -/
def Val.endIt (v : Val) : Res HeapIter :=
  match v with
  | .obj fs => .ok ⟨v, fs.length, .value⟩
  | .arr es => .ok ⟨v, es.length, .elem⟩
  | _ => .throw .typeError

/-- `dn_iterator::operator ==`, include/dart/iterator.tcc 59-68, on iterators into the same aggregate. -/
def HeapIter.eq (a b : HeapIter) : Bool := a.pos == b.pos

/-- `dn_iterator::operator *`, include/dart/iterator.tcc 100-103; undefined at the end. -/
def HeapIter.deref (a : HeapIter) : Res Val :=
  match a.aggr with
  | .obj fs => Res.ofRead (fs[a.pos]?.map fun f => if a.load = .key then .str f.1 else f.2)
  | .arr es => Res.ofRead es[a.pos]?
  | _ => .ub

end Dart
