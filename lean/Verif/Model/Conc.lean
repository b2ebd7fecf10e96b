import Verif.Model.Basic

/-
Dynamic packets shared between threads: `basic_heap` on atomic reference counts, with copy on write. Threads run
concurrently; every access to shared memory is a step of its own.

Counters are read and written atomically and in one order for all threads (`std::atomic<int64_t>` of `skinny_ptr` with its
default order); the variant with plain integers (`unsafe_ptr`) is modelled as well. Each thread has its own variables;
packets are handed from thread to thread through channels (any synchronised queue). Packets are scalars and arrays; objects
behave alike. Counters are natural numbers.
-/
namespace Dart.Conc

/-- A packet: a scalar (`none` is null), or a pointer to shared elements. -/
inductive Hd
  | leaf (n : Option Int)
  | ref (a : Nat)
  deriving DecidableEq, Repr

/-- The elements with their reference count: `managed_ptr` and `packet_elements`, include/dart/support/ptrs.h 33-40. -/
structure Blk where
  count : Nat
  kids : List Hd
  deriving DecidableEq, Repr

/-- Statements of a thread, on its own variables and on channels. -/
inductive Op
  /-- `x = n` -/
  | leaf (x : Nat) (n : Option Int)
  /-- `x = make_array()` -/
  | make (x : Nat)
  /-- `x = y` -/
  | copy (x y : Nat)
  /-- `x = y[i]` -/
  | get (x y i : Nat)
  /-- `x.push_back(y)` -/
  | push (x y : Nat)
  /-- `x.pop_back()` -/
  | pop (x : Nat)
  /-- `x.clear()` -/
  | clear (x : Nat)
  /-- `channel.send(std::move(x))` -/
  | send (c x : Nat)
  /-- `x = channel.receive()` -/
  | recv (c x : Nat)
  deriving DecidableEq, Repr

/-- How far the current statement is. -/
inductive Stage
  /-- not begun -/
  | start
  /-- the pointer `h` has been read, its counter not yet incremented -/
  | read (h : Hd)
  /-- `h` is a temporary that will be moved into the variable -/
  | store (h : Hd)
  /-- at the beginning of `copy_on_write` -/
  | cow
  /-- copying the elements; `done` have been copied -/
  | copying (done : List Hd)
  /-- the next element `h` has been read, its counter not yet incremented -/
  | copyInc (done : List Hd) (h : Hd)
  /-- `copy_on_write` has returned -/
  | ready
  /-- the pointer of the argument has been read, its counter not yet incremented -/
  | arg (h : Hd)
  /-- the temporary `h` will be moved into the array -/
  | mutate (h : Hd)
  deriving DecidableEq, Repr

/-- A thread: variables, statements left (the current one first), temporaries whose destructor has to run, an object
whose counter it has brought to zero, and a counter it has read but not yet written. -/
structure Th where
  vars : List Hd
  prog : List Op
  stage : Stage
  junk : List Hd
  dying : Option Nat
  pending : Option (Nat × Nat)
  deriving DecidableEq, Repr

/-- Memory by address (`none` once deleted; addresses are not reused), channels, threads. -/
structure M where
  blocks : List (Option Blk)
  chans : List (List Hd)
  threads : List Th
  deriving DecidableEq, Repr

def blkAt (bs : List (Option Blk)) (a : Nat) : Option Blk := bs[a]?.join

def Th.var (th : Th) (x : Nat) : Hd := th.vars[x]?.getD (.leaf none)

/-- The variable a statement changes. -/
def Op.target : Op → Nat
  | .leaf x _ | .make x | .copy x _ | .get x _ _ | .push x _ | .pop x | .clear x | .send _ x | .recv _ x => x

/-- Put the thread back. -/
def M.put (m : M) (t : Nat) (th : Th) : M := { m with threads := m.threads.set t th }

def M.setBlk (m : M) (a : Nat) (b : Option Blk) : M := { m with blocks := m.blocks.set a b }

/-- Writing a counter: at once, or in a later step if it is a plain integer. -/
def writeCount (atomic : Bool) (m : M) (t : Nat) (th : Th) (a : Nat) (b : Blk) (n : Nat) : M :=
  if atomic then (m.setBlk a (some { b with count := n })).put t th else m.put t { th with pending := some (a, n) }

/-- `if (value) ++value->use_count`, include/dart/support/ptrs.tcc 60-62, and then go on as `th`. A block that is gone is
undefined behaviour. -/
def incr (atomic : Bool) (m : M) (t : Nat) (h : Hd) (th : Th) : Option M :=
  match h with
  | .leaf _ => some (m.put t th)
  | .ref a => (blkAt m.blocks a).map fun b => writeCount atomic m t th a b (b.count + 1)

/-- `~counted_ptr_base`, include/dart/support/ptrs.tcc 68-74: `--value->use_count == 0`. -/
def decr (atomic : Bool) (m : M) (t : Nat) (h : Hd) (th : Th) : Option M :=
  match h with
  | .leaf _ => some (m.put t th)
  | .ref a => (blkAt m.blocks a).bind fun b =>
      match b.count with
      | 0 => none
      | n + 1 => some (writeCount atomic m t (if n = 0 then { th with dying := some a } else th) a b n)

/-- `value->destroy(); delete value;`, include/dart/support/ptrs.tcc 71-72: the elements are destroyed next. -/
def destroy (m : M) (t : Nat) (th : Th) (a : Nat) : Option M :=
  (blkAt m.blocks a).map fun b => (m.setBlk a none).put t { th with dying := none, junk := b.kids ++ th.junk }

/-- The move of a temporary into a variable; the old value is destroyed next. -/
def Th.assign (th : Th) (x : Nat) (h : Hd) (rest : List Op) : Th :=
  if x < th.vars.length then { th with vars := th.vars.set x h, junk := [th.var x], prog := rest, stage := .start }
  else { th with junk := [h], prog := rest, stage := .start }

/-- The beginning of a statement. Calls that throw `type_error` have no effect. -/
def begin (m : M) (t : Nat) (th : Th) (op : Op) (rest : List Op) : Option M :=
  match op with
  | .leaf _ n => some (m.put t { th with stage := .store (.leaf n) })
  | .make _ => some ({ m with blocks := m.blocks ++ [some (Blk.mk 1 [])] }.put t { th with stage := .store (.ref m.blocks.length) })
  | .copy _ y => some (m.put t { th with stage := .read (th.var y) })
  | .get _ y i =>
    match th.var y with
    | .leaf _ => some (m.put t { th with prog := rest })
    | .ref a => (blkAt m.blocks a).map fun b =>
        match b.kids[i]? with
        | none => m.put t { th with stage := .store (.leaf none) }
        | some h => m.put t { th with stage := .read h }
  | .push x _ | .pop x =>
    match th.var x with
    | .leaf _ => some (m.put t { th with prog := rest })
    | .ref _ => some (m.put t { th with stage := .cow })
  | .clear x =>
    -- does not copy on write, include/dart/heap/api.tcc 255-261
    match th.var x with
    | .leaf _ => some (m.put t { th with prog := rest })
    | .ref a => (blkAt m.blocks a).map fun b =>
        (m.setBlk a (some { b with kids := [] })).put t { th with prog := rest, junk := b.kids }
  | .send c x =>
    match m.chans[c]? with
    | none => some (m.put t { th with prog := rest })
    | some q => some ({ m with chans := m.chans.set c (q ++ [th.var x]) }.put t
        { th with vars := th.vars.set x (.leaf none), prog := rest })
  | .recv c x =>
    match m.chans[c]? with
    | some (h :: q) => some ({ m with chans := m.chans.set c q }.put t (th.assign x h rest))
    | _ => some m

/-- A step of a statement. `copy_on_write` is include/dart/heap/detail.tcc 55-61, `insert` include/dart/heap/api.tcc 118-150. -/
def stmtStep (atomic : Bool) (m : M) (t : Nat) (th : Th) (op : Op) (rest : List Op) : Option M :=
  match th.stage with
  | .start => begin m t th op rest
  | .read h => incr atomic m t h { th with stage := .store h }
  | .store h => some (m.put t (th.assign op.target h rest))
  | .cow =>
    match th.var op.target with
    | .leaf _ => none
    | .ref a => (blkAt m.blocks a).map fun b =>
        if 1 < b.count then m.put t { th with stage := .copying [] } else m.put t { th with stage := .ready }
  | .copying done =>
    match th.var op.target with
    | .leaf _ => none
    | .ref a => (blkAt m.blocks a).map fun b =>
        match b.kids[done.length]? with
        | some h => m.put t { th with stage := .copyInc done h }
        | none => { m with blocks := m.blocks ++ [some (Blk.mk 1 done)] }.put t
            { th with vars := th.vars.set op.target (.ref m.blocks.length), junk := [.ref a], stage := .ready }
  | .copyInc done h => incr atomic m t h { th with stage := .copying (done ++ [h]) }
  | .ready =>
    match op with
    | .push _ y => some (m.put t { th with stage := .arg (th.var y) })
    | _ =>
      match th.var op.target with
      | .leaf _ => none
      | .ref a => (blkAt m.blocks a).map fun b =>
          (m.setBlk a (some { b with kids := b.kids.dropLast })).put t
            { th with junk := b.kids.getLast?.toList, prog := rest, stage := .start }
  | .arg h => incr atomic m t h { th with stage := .mutate h }
  | .mutate h =>
    match th.var op.target with
    | .leaf _ => none
    | .ref a => (blkAt m.blocks a).map fun b =>
        (m.setBlk a (some { b with kids := b.kids ++ [h] })).put t { th with prog := rest, stage := .start }

/-- One step of thread `t`; `none` is undefined behaviour. A thread that has finished, or waits for a channel, does
nothing. -/
def step (atomic : Bool) (m : M) (t : Nat) : Option M :=
  match m.threads[t]? with
  | none => some m
  | some th =>
    match th.pending with
    | some (a, n) => (blkAt m.blocks a).map fun b => (m.setBlk a (some { b with count := n })).put t { th with pending := none }
    | none =>
    match th.dying with
    | some a => destroy m t th a
    | none =>
    match th.junk with
    | h :: w => decr atomic m t h { th with junk := w }
    | [] =>
    match th.prog with
    | [] => some m
    | op :: rest => stmtStep atomic m t th op rest

/-- A schedule says which thread goes next. -/
def run (atomic : Bool) (m : M) : List Nat → Option M
  | [] => some m
  | t :: ts => (step atomic m t).bind fun m => run atomic m ts

/-- Threads with the given programs, `n` null variables each; `k` empty channels. -/
def init (n k : Nat) (progs : List (List Op)) : M where
  blocks := []
  chans := List.replicate k []
  threads := progs.map fun p => ⟨List.replicate n (.leaf none), p, .start, [], none, none⟩

/-- What the next step of a thread does to the elements in a block, apart from the counter: the address, and whether it
writes (deleting is writing). -/
def access (m : M) (t : Nat) : Option (Nat × Bool) :=
  m.threads[t]?.bind fun th =>
    match th.pending, th.dying, th.junk, th.prog, th.stage with
    | none, some a, _, _, _ => some (a, true)
    | none, none, [], .get _ y _ :: _, .start => match th.var y with | .ref a => some (a, false) | _ => none
    | none, none, [], .clear x :: _, .start => match th.var x with | .ref a => some (a, true) | _ => none
    | none, none, [], op :: _, .copying _ => match th.var op.target with | .ref a => some (a, false) | _ => none
    | none, none, [], .pop x :: _, .ready => match th.var x with | .ref a => some (a, true) | _ => none
    | none, none, [], op :: _, .mutate _ => match th.var op.target with | .ref a => some (a, true) | _ => none
    | _, _, _, _, _ => none

end Dart.Conc
