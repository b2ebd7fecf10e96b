import Verif.Model.AbiTyped

/-
Programs that use both interfaces: C++ variables beside the variables of the C interface, and `unsafe_api_swap`,
include/dart/api_swap.h, which takes objects from one side to the other. The library has one function for each class and kind
of counter; the C++ type of the variable selects it. Objects are values here: what is shared between the two sides is copied
before it is changed, except by `clear` and `resize` (C16), which are left out of the programs the specification speaks of.
-/
namespace Dart.Abi

/-- The variables of the C interface, and the C++ variables. Class and kind of counter of a C++ variable are its C++ type. -/
structure MState where
  c : XState
  cxx : Nat → Option Obj

/-- Nothing is live. -/
def MState.empty : MState := ⟨XState.empty, fun _ => none⟩

/-- What a program does: calls of the C interface; a C++ variable is declared, changed, switched between its representations, its
scope ends; and the two swaps. `toC` has a version that copies and one that moves. -/
inductive MCall
  | c (call : TCall)
  | declare (y : Nat) (rep : Rep) (rc : Nat)
  | change (y : Nat) (m : PMut PArg)
  | finalize (y : Nat)
  | definalize (y : Nat)
  | leave (y : Nat)
  | toC (move : Bool) (x y : Nat)
  | toCxx (y x : Nat)

/-- What comes back. -/
inductive MOut
  | c (o : XOut)
  | done
  | threw (e : Exc)

/-- The object an argument of a C++ call stands for. -/
def cxxArg (f : Nat → Option Obj) : PArg → Pkt
  | .const v => .heap v
  | .var y => match f y with | some o => o.pkt | none => .heap .null

/-- Store the outcome of a C++ call; one that throws changes nothing. -/
def MState.store (s : MState) (y : Nat) (o : Obj) : Res Pkt → Option (MState × MOut)
  | .ok p => some ({ s with cxx := upd s.cxx y (some { o with pkt := p }) }, .done)
  | .throw e => some (s, .threw e)
  | .ub => none

/-- One step. `declare`: the default constructors. `change`, `finalize`, `definalize`: Model/Packet.lean. `toC`,
include/dart/api_swap.h 32-401: the type information is written and the object copied or moved to the memory, whatever was there
before. `toCxx`, 405-549: the kind of counter is looked at, the class is not; then the memory is taken for an object of the class
of the variable, and assigned. -/
def MCall.run (signed : Bool) (s : MState) : MCall → Option (MState × MOut)
  | .c call => (call.run signed s.c).map fun r => ({ s with c := r.1 }, .c r.2)
  | .declare y rep rc =>
    match s.cxx y with
    | some _ => none
    | none => some ({ s with cxx := upd s.cxx y (some { nullObj rep with rc := rc }) }, .done)
  | .change y m =>
    match s.cxx y with
    | none => none
    | some o => s.store y o ((m.map (cxxArg s.cxx)).run o.pkt)
  | .finalize y =>
    match s.cxx y with
    | none => none
    | some o => s.store y o o.pkt.finalize
  | .definalize y =>
    match s.cxx y with
    | none => none
    | some o => s.store y o o.pkt.definalize
  | .leave y =>
    match s.cxx y with
    | none => none
    | some _ => some ({ s with cxx := upd s.cxx y none }, .done)
  | .toC move x y =>
    match s.cxx y with
    | none => none
    | some o => some (⟨{ s.c with core := s.c.core.put x o },
        if move then upd s.cxx y (some { o with pkt := o.pkt.movedFrom }) else s.cxx⟩, .done)
  | .toCxx y x =>
    match s.cxx y with
    | none => none
    | some o =>
      match s.c.core.objs x with
      | none => none
      | some a =>
        if a.rc ≠ o.rc then some (s, .threw .typeError)
        else if a.rep ≠ o.rep then none
        else some ({ s with cxx := upd s.cxx y (some { o with pkt := a.pkt }) }, .done)

/-- A program, as far as it uses the library. -/
inductive MProg
  | stop
  | call (c : MCall) (next : MOut → MProg)

/-- Run a program: the final state, and what came back. `none` is undefined behaviour. -/
def MProg.run (signed : Bool) : MProg → MState → Option (MState × List MOut)
  | .stop, s => some (s, [])
  | .call c next, s =>
    match c.run signed s with
    | none => none
    | some (s, o) =>
      match (next o).run signed s with
      | none => none
      | some (s, os) => some (s, o :: os)

end Dart.Abi
