import Verif.Model.Conc

/-
Threads sharing packets: what each step does to counters, to channels and to elements. From this it follows which steps are
ordered by the memory model of C++ (Spec/Order.lean), and so whether there are data races.

Counters are atomic here (`step true`).
-/
namespace Dart.Conc

/-- What a step does to a counter or a channel. -/
inductive Sync
  | none
  /-- `++value->use_count`, include/dart/support/ptrs.tcc 60-62 -/
  | inc (a : Nat)
  /-- `--value->use_count == 0`, include/dart/support/ptrs.tcc 68-74 -/
  | dec (a : Nat)
  /-- `ptr.use_count()`, include/dart/heap/detail.tcc 58, include/dart/support/ptrs.tcc 192-193 -/
  | load (a : Nat)
  /-- a packet is put into a channel -/
  | put (c : Nat)
  /-- a packet is taken out of a channel -/
  | take (c : Nat)
  deriving DecidableEq, Repr

/-- A step that has been taken: the thread, the counter or channel, and the elements: address, and whether they were written
(or constructed, or destroyed). -/
structure Ev where
  thread : Nat
  sync : Sync
  accesses : List (Nat × Bool)
  deriving DecidableEq, Repr

/-- The elements a packet refers to. -/
def Hd.touch (w : Bool) : Hd → List (Nat × Bool)
  | .ref a => [(a, w)]
  | .leaf _ => []

/-- The counter of a packet. -/
def Hd.sync (f : Nat → Sync) : Hd → Sync
  | .ref a => f a
  | .leaf _ => .none

/-- What the first step of a statement does, see `begin`. -/
def beginEvent (m : M) (th : Th) : Op → Sync × List (Nat × Bool)
  | .make _ => (.none, [(m.blocks.length, true)])
  | .get _ y _ => (.none, (th.var y).touch false)
  | .clear x => (.none, (th.var x).touch true)
  | .send c _ => (match m.chans[c]? with | some _ => .put c | none => .none, [])
  | .recv c _ => (match m.chans[c]? with | some (_ :: _) => .take c | _ => .none, [])
  | _ => (.none, [])

/-- What a step of a statement does, see `stmtStep`. -/
def stmtEvent (m : M) (th : Th) (op : Op) : Sync × List (Nat × Bool) :=
  match th.stage with
  | .start => beginEvent m th op
  | .read h => (h.sync .inc, [])
  | .store _ => (.none, [])
  | .cow => ((th.var op.target).sync .load, [])
  | .copying done =>
    match th.var op.target with
    | .leaf _ => (.none, [])
    | .ref a =>
      match blkAt m.blocks a with
      | none => (.none, [(a, false)])
      | some b =>
        match b.kids[done.length]? with
        | some _ => (.none, [(a, false)])
        | none => (.none, [(a, false), (m.blocks.length, true)])
  | .copyInc _ h => (h.sync .inc, [])
  | .ready =>
    match op with
    | .push _ _ => (.none, [])
    | _ => (.none, (th.var op.target).touch true)
  | .arg h => (h.sync .inc, [])
  | .mutate _ => (.none, (th.var op.target).touch true)

/-- What the next step of a thread does, see `step`. -/
def stepEvent (m : M) (t : Nat) : Sync × List (Nat × Bool) :=
  match m.threads[t]? with
  | none => (.none, [])
  | some th =>
    match th.dying with
    | some a => (.none, [(a, true)])
    | none =>
    match th.junk with
    | h :: _ => (h.sync .dec, [])
    | [] =>
    match th.prog with
    | [] => (.none, [])
    | op :: _ => stmtEvent m th op

def event (m : M) (t : Nat) : Ev := ⟨t, (stepEvent m t).1, (stepEvent m t).2⟩

/-- The steps of an execution. -/
def trace (m : M) : List Nat → List Ev
  | [] => []
  | t :: ts =>
    event m t ::
      match step true m t with
      | some m' => trace m' ts
      | none => []

end Dart.Conc
