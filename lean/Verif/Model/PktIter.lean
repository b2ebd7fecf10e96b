import Verif.Model.Iter
import Verif.Model.Packet

/-
Iterators of packets (`basic_packet::iterator`) and programs that use them on packets that do not change meanwhile.
Simplified: `operator ->`, `cbegin`, `cend` and iterator traits are left out (`cbegin` and `cend` call `begin` and `end`).
-/
namespace Dart

/-- `basic_heap::key_begin`, include/dart/heap/api.tcc 561-569. -/
def Val.keyBeginIt (v : Val) : Res HeapIter :=
  match v with
  | .obj _ => .ok ⟨v, 0, .key⟩
  | _ => .throw .typeError

/-- `basic_heap::key_end`, include/dart/heap/api.tcc 576-584. -/
def Val.keyEndIt (v : Val) : Res HeapIter :=
  match v with
  | .obj fs => .ok ⟨v, fs.length, .key⟩
  | _ => .throw .typeError

/-- `end()` of the map or vector an iterator belongs to. -/
def HeapIter.last (a : HeapIter) : Nat :=
  match a.aggr with
  | .obj fs => fs.length
  | .arr es => es.length
  | _ => 0

/-- `dn_iterator::operator ++`, include/dart/iterator.tcc 75-79; undefined at the end. -/
def HeapIter.incr (a : HeapIter) : Res HeapIter := if a.pos < a.last then .ok { a with pos := a.pos + 1 } else .ub

/-- `dn_iterator::operator --`, include/dart/iterator.tcc 81-85; undefined at the beginning. -/
def HeapIter.decr (a : HeapIter) : Res HeapIter := if 0 < a.pos then .ok { a with pos := a.pos - 1 } else .ub

/-- `basic_packet::iterator`, include/dart.h 10352-10426: a variant of the iterators of `basic_heap`
(include/dart.h 5100-5169) and of `basic_buffer`, each with or without (`none`) a position. -/
inductive PIter where
  | heap (it : Option HeapIter)
  | buf (it : Option BufIter)

namespace PIter

/-- The default constructor: the first alternative of the variant, include/dart.h 10381, 5129. -/
def blank : PIter := .heap none

/-- What a move leaves behind: include/dart.h 10385, include/dart/heap/iterator.tcc 12-17,
include/dart/buffer/iterator.tcc 12-18. The alternative stays. -/
def moved : PIter → PIter
  | .heap _ => .heap none
  | .buf _ => .buf none

/-- `operator ==` of different objects, include/dart/packet/iterator.tcc 12-16, with `typeless_comparator`,
include/dart/common.tcc 121-138 (different types are different), include/dart/heap/iterator.tcc 28-32 and
include/dart/buffer/iterator.tcc 28-32 (comparison of `optional`s). For iterators of the same packet. -/
def eq : PIter → PIter → Bool
  | .heap (some a), .heap (some b) => a.eq b
  | .heap none, .heap none => true
  | .buf (some a), .buf (some b) => a.eq b
  | .buf none, .buf none => true
  | _, _ => false

/-- `operator ++`, include/dart/packet/iterator.tcc 23-27; undefined without a position. -/
def incr : PIter → Res PIter
  | .heap (some a) => a.incr.bind fun a => .ok (.heap (some a))
  | .buf (some a) => .ok (.buf (some a.incr))
  | _ => .ub

/-- `operator --`, include/dart/packet/iterator.tcc 29-33. -/
def decr : PIter → Res PIter
  | .heap (some a) => a.decr.bind fun a => .ok (.heap (some a))
  | .buf (some a) => .ok (.buf (some a.decr))
  | _ => .ub

/-- `operator *`, include/dart/packet/iterator.tcc 49-52. -/
def deref : PIter → Res Pkt
  | .heap (some a) => a.deref.bind fun v => .ok (.heap v)
  | .buf (some a) => a.deref.bind fun b => .ok (.buf b)
  | _ => .ub

/-- `std::reverse_iterator::operator *`: a copy is decremented and dereferenced. -/
def rderef (a : PIter) : Res Pkt := a.decr.bind deref

/-- `operator bool`, include/dart/packet/iterator.tcc 59-62. -/
def ask : PIter → Bool
  | .heap o => o.isSome
  | .buf o => o.isSome

end PIter

namespace Pkt

/-- `begin`, include/dart/packet/api.tcc 388-391. -/
def «begin» (p : Pkt) : Res PIter := p.visit Val.beginIt Buf.begin (fun a => .heap (some a)) (fun a => .buf (some a))

/-- `end`, include/dart/packet/api.tcc 398-401. -/
def «end» (p : Pkt) : Res PIter := p.visit Val.endIt Buf.end (fun a => .heap (some a)) (fun a => .buf (some a))

/-- `key_begin`, include/dart/packet/api.tcc 418-421. -/
def keyBegin (p : Pkt) : Res PIter := p.visit Val.keyBeginIt Buf.keyBegin (fun a => .heap (some a)) (fun a => .buf (some a))

/-- `key_end`, include/dart/packet/api.tcc 428-431. -/
def keyEnd (p : Pkt) : Res PIter := p.visit Val.keyEndIt Buf.keyEnd (fun a => .heap (some a)) (fun a => .buf (some a))

end Pkt

/-- What a program does with iterators; iterators are numbered in the order they are made. The bases of reverse iterators
are ordinary ones (`rbegin` has the base `end()`, include/dart/packet/api.tcc 408-416, 423-426, 433-436; `kvbegin` and the
like, 438-456, are pairs of these). -/
inductive WOp where
  /-- `it = p.begin()` (or `p.key_begin()`) -/
  | first (x : Nat) (keys : Bool)
  /-- `it = p.end()` (or `p.key_end()`) -/
  | last (x : Nat) (keys : Bool)
  /-- a default constructed iterator -/
  | blank
  /-- a copy of an iterator -/
  | copy (i : Nat)
  /-- `it = std::move(i)` -/
  | move (i : Nat)
  /-- `i = j` -/
  | assign (i j : Nat)
  /-- `i = std::move(j)` -/
  | moveAssign (i j : Nat)
  | next (i : Nat)
  | prev (i : Nat)
  /-- `it = i++` -/
  | postNext (i : Nat)
  /-- `it = i--` -/
  | postPrev (i : Nat)
  | same (i j : Nat)
  | ask (i : Nat)
  /-- `*i` -/
  | read (i : Nat)
  /-- `*std::reverse_iterator(i)` -/
  | rread (i : Nat)

/-- What a step shows to the client; `α` stands for the values read. -/
inductive WOut (α : Type) where
  | quiet
  | flag (b : Bool)
  | item (x : α)
  | exc (e : Exc)

/-- The new iterator a call returns, or its exception. -/
def newIter (its : List PIter) : Res PIter → Option (List PIter × WOut Pkt)
  | .ok it => some (its ++ [it], .quiet)
  | .throw e => some (its, .exc e)
  | .ub => none

/-- The iterator changed in place. -/
def setIter (its : List PIter) (i : Nat) : Res PIter → Option (List PIter × WOut Pkt)
  | .ok it => some (its.set i it, .quiet)
  | .throw e => some (its, .exc e)
  | .ub => none

/-- What was read. -/
def readIter (its : List PIter) : Res Pkt → Option (List PIter × WOut Pkt)
  | .ok p => some (its, .item p)
  | .throw e => some (its, .exc e)
  | .ub => none

/-- One step; `none` is undefined behaviour, or a program that uses iterators it does not have. -/
def WOp.run (ps : List Pkt) (its : List PIter) : WOp → Option (List PIter × WOut Pkt)
  | .first x keys => ps[x]?.bind fun p => newIter its (if keys then p.keyBegin else p.begin)
  | .last x keys => ps[x]?.bind fun p => newIter its (if keys then p.keyEnd else p.end)
  | .blank => some (its ++ [.blank], .quiet)
  | .copy i => its[i]?.bind fun a => some (its ++ [a], .quiet)
  | .move i => its[i]?.bind fun a => some (its.set i a.moved ++ [a], .quiet)
  | .assign i j => its[i]?.bind fun _ => its[j]?.bind fun b => some (its.set i b, .quiet)
  | .moveAssign i j => its[i]?.bind fun _ => its[j]?.bind fun b =>
      -- include/dart/heap/iterator.tcc 20-25, include/dart/buffer/iterator.tcc 20-26
      if i = j then some (its, .quiet) else some ((its.set j b.moved).set i b, .quiet)
  | .next i => its[i]?.bind fun a => setIter its i a.incr
  | .prev i => its[i]?.bind fun a => setIter its i a.decr
  -- include/dart/packet/iterator.tcc 35-47
  | .postNext i => its[i]?.bind fun a => (setIter its i a.incr).bind fun r => some (r.1 ++ [a], .quiet)
  | .postPrev i => its[i]?.bind fun a => (setIter its i a.decr).bind fun r => some (r.1 ++ [a], .quiet)
  | .same i j => its[i]?.bind fun a => its[j]?.bind fun b => some (its, .flag (if i = j then true else a.eq b))
  | .ask i => its[i]?.bind fun a => some (its, .flag a.ask)
  | .read i => its[i]?.bind fun a => readIter its a.deref
  | .rread i => its[i]?.bind fun a => readIter its a.rderef

/-- A program: the iterators at the end and what each step showed. -/
def runWalk (ps : List Pkt) (its : List PIter) : List WOp → Option (List PIter × List (WOut Pkt))
  | [] => some (its, [])
  | op :: ops => (op.run ps its).bind fun r => (runWalk ps r.1 ops).bind fun s => some (s.1, r.2 :: s.2)

/-- A client's loop `for (; it != last; ++it) use(*it);`; gives up with `none` after `fuel` rounds. -/
def PIter.loop : Nat → PIter → PIter → Option (Res (List Pkt))
  | 0, it, last => if it.eq last then some (.ok []) else none
  | fuel + 1, it, last =>
    if it.eq last then some (.ok [])
    else match it.deref, it.incr with
      | .ok x, .ok it' => (loop fuel it' last).map fun r => r.bind fun l => .ok (x :: l)
      | _, _ => some .ub

/-! ### Changing a packet at an iterator -/

/-- `iterator_key`, include/dart/heap/object.tcc 323-343, and `iterator_index`, include/dart/heap/array.tcc 242-264, for
an iterator into this value or of the wrong kind. -/
def Val.iterKey (v : Val) (it : HeapIter) : Res Val :=
  match v, it.aggr with
  | .obj _, .obj fs => Res.ofRead (fs[it.pos]?.map fun f => .str f.1)
  | .arr _, .arr _ => .ok (.int (BitVec.ofNat 64 it.pos))
  | _, _ => .throw .typeError

/-- `basic_heap::insert(iterator, value)`, include/dart/heap/api.tcc 156-168. -/
def Val.insertAt (v : Val) (it : HeapIter) (x : Val) : Res Val := (v.iterKey it).bind fun k => v.insert k x

/-- `basic_heap::set(iterator, value)`, include/dart/heap/api.tcc 204-216. -/
def Val.setAt (v : Val) (it : HeapIter) (x : Val) : Res Val := (v.iterKey it).bind fun k => v.set k x

/-- `basic_heap::erase(iterator)`, include/dart/heap/api.tcc 230-253. -/
def Val.eraseAt (v : Val) (it : HeapIter) : Res Val := (v.iterKey it).bind fun k => v.erase k

/-- The three calls of packets that take an iterator, include/dart/packet/api.tcc 131-138, 146-153, 168-175: `op` is the
call of `basic_heap`. -/
def Pkt.changeAt (op : Val → HeapIter → Res Val) (p : Pkt) (pos : PIter) : Res Pkt :=
  if !pos.ask then .throw .invalidArgument
  else match pos with
    | .heap (some it) => p.getHeap.bind fun v => (op v it).bind fun v => .ok (.heap v)
    | _ => .throw .typeError

end Dart
