import Verif.Model.Abi
import Verif.Model.Key

/-
What the C interface says about a call that failed: `err_handler`, the thread-local string it writes to, and
`dart_get_error`. The string may have to allocate memory for the message, and that may fail.
-/
namespace Dart.Note

open Abi (Err)

/-- `thread_local std::string errmsg`, src/generic.cc 7-11: its characters, its capacity, and which memory it uses (another number
after each reallocation; pointers into the earlier memory are invalid). -/
structure Text where
  chars : Bytes
  cap : Nat
  mem : Nat
  deriving DecidableEq, Repr

/-- The strings of all threads, and which of the coming allocations succeed; all do after the end of the list. -/
structure World where
  texts : Nat → Text
  allocs : List Bool

/-- No thread has called anything yet. The empty string has a capacity (15 characters in libstdc++) inside of the variable. -/
def World.start (cap : Nat) (allocs : List Bool) : World := ⟨fun _ => ⟨[], cap, 0⟩, allocs⟩

/-- One variable changed. -/
def World.put (w : World) (t : Nat) (x : Text) : World := { w with texts := fun u => if u = t then x else w.texts u }

/-- `errmsg = s` in thread `t`; `true`: it threw `std::bad_alloc`. Memory is reused if it suffices; otherwise new memory of some
larger capacity is allocated, which is what `grow` says, a policy of the standard library. -/
def assign (grow : Nat → Nat → Nat) (w : World) (t : Nat) (s : Bytes) : World × Bool :=
  if s.length ≤ (w.texts t).cap then (w.put t { w.texts t with chars := s }, false)
  else
    match w.allocs with
    | false :: rest => ({ w with allocs := rest }, true)
    | allocs => ({ w with allocs := allocs.drop 1 }.put t ⟨s, grow (w.texts t).cap s.length, (w.texts t).mem + 1⟩, false)

/-- How the code under `err_handler` ends. -/
inductive Ends
  | done
  /-- one of the library's exceptions, with the text it was made from -/
  | threw (e : Exc) (text : Bytes)
  /-- `std::runtime_error`, as of an exhausted iterator -/
  | runtime (text : Bytes)
  /-- anything else, `std::bad_alloc` say -/
  | other
  /-- It assigns to `errmsg` itself and returns `DART_CLIENT_ERROR`, src/helpers.h 314-318, 337-340, 497-500, 556-559. -/
  | client (text : Bytes)
  deriving DecidableEq, Repr

/-- The string literal of src/helpers.h 606. -/
def unexpectedText : Bytes := "Dart caught an unexpected error type. This is a bug, please make a report".toUTF8.data.toList

/-- `catch (...)`, src/helpers.h 605-608. An exception that leaves a handler of a `noexcept` function ends the program: `none`. -/
def unexpected (grow : Nat → Nat → Nat) (w : World) (t : Nat) : Option (World × Err) :=
  match assign grow w t unexpectedText with
  | (w, false) => some (w, .unknownError)
  | (_, true) => none

/-- The other handlers, src/helpers.h 590-604: `what()` is a C string. -/
def caught (grow : Nat → Nat → Nat) (w : World) (t : Nat) (text : Bytes) (code : Err) : Option (World × Err) :=
  match assign grow w t (cstr text) with
  | (w, false) => some (w, code)
  | (_, true) => none

/-- `err_handler`, src/helpers.h 583-608, in thread `t`. Client errors are reported by the code under it, src/helpers.h 307-500, so
that an allocation that fails there is caught as something unexpected. -/
def handler (grow : Nat → Nat → Nat) (w : World) (t : Nat) : Ends → Option (World × Err)
  | .done => some (w, .noError)
  | .threw e text => caught grow w t text (Abi.errCode e)
  | .runtime text => caught grow w t text .runtimeError
  | .other => unexpected grow w t
  | .client text =>
    match assign grow w t (cstr text) with
    | (w, false) => some (w, .clientError)
    | (w, true) => unexpected grow w t

/-- `dart_get_error`, src/generic.cc 1649-1651: a pointer into the string of the thread. -/
def getError (w : World) (t : Nat) : Nat × Nat := (t, (w.texts t).mem)

/-- Reading the text such a pointer points to; `none`: the memory is gone. -/
def deref (w : World) (p : Nat × Nat) : Option Bytes :=
  if (w.texts p.1).mem = p.2 then some (w.texts p.1).chars else none

/-- A history of calls, each with its thread; the codes they return. -/
def run (grow : Nat → Nat → Nat) : World → List (Nat × Ends) → Option (World × List Err)
  | w, [] => some (w, [])
  | w, (t, e) :: rest =>
    match handler grow w t e with
    | none => none
    | some (w, code) => (run grow w rest).map fun r => (r.1, code :: r.2)

end Dart.Note
