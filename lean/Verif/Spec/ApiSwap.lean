import Verif.Model.ApiSwap
import Verif.Spec.AbiTyped

/-
What programs that use both interfaces do, in terms of values; and the C types of variables.
-/
namespace Dart.Spec

open Dart.Abi

/-- The variables of both sides. -/
structure BState where
  c : ZState
  cxx : Nat → Option AObj

/-- Nothing is live. -/
def BState.empty : BState := ⟨ZState.empty, fun _ => none⟩

/-- The C++ variable `y` gets the new content `o`. -/
def BState.setCxx (a : BState) (y : Nat) (o : Option AObj) : BState := { a with cxx := fun z => if z = y then o else a.cxx z }

/-- What an argument of a C++ call stands for. -/
def cxxArgOf (f : Nat → Option AObj) : PArg → PState
  | .const v => ⟨false, v⟩
  | .var y => match f y with | some o => o.st | none => ⟨false, .null⟩

/-- The outcome of a C++ call on `y`. -/
def CxxStored (a : BState) (y : Nat) (b : AObj) (r : Except Exc PState) (a' : BState) (o : MOut) : Prop :=
  match r with
  | .ok p => a' = a.setCxx y (some { b with st := p }) ∧ o = .done
  | .error e => a' = a ∧ o = .threw e

/-- What a step does where it is allowed. Going to C makes an object of the same class, counter, state and value; a C++ variable
that was moved from is null. Coming back, the other kind of counter is a type error. -/
def MCallDoes (signed : Bool) (a : BState) (c : MCall) (a' : BState) (o : MOut) : Prop :=
  match c with
  | .c call => ∃ z q, TCallDoes signed a.c call z q ∧ a' = { a with c := z } ∧ o = .c q
  | .declare y rep rc => a' = a.setCxx y (some ⟨rep, rc, ⟨decide (rep = .buffer), .null⟩⟩) ∧ o = .done
  | .change y m => ∃ b r, a.cxx y = some b ∧ MutOk b.st (m.map (cxxArgOf a.cxx)) r ∧ CxxStored a y b r a' o
  | .finalize y => ∃ b r, a.cxx y = some b ∧ FinalizeOk b.st r ∧ CxxStored a y b r a' o
  | .definalize y => ∃ b, a.cxx y = some b ∧ CxxStored a y b (.ok ⟨false, b.st.value⟩) a' o
  | .leave y => a' = a.setCxx y none ∧ o = .done
  | .toC move x y => ∃ b, a.cxx y = some b ∧ o = .done ∧
      a' = ({ a with c := { a.c with core := a.c.core.set x (some b) } } : BState).setCxx y
        (some (if move then { b with st := ⟨b.st.finalized, .null⟩ } else b))
  | .toCxx y x => ∃ b d, a.cxx y = some b ∧ a.c.core.objs x = some d ∧
      if d.rc = b.rc then a' = a.setCxx y (some d) ∧ o = .done else a' = a ∧ o = .threw .typeError

/-- What the program has to see to. C calls as before. C++ variables are used while they exist; the calls that change a variable
are not there for buffers, nor those that switch the representation for heaps and buffers; arguments are variables of the same
type, other than the one changed, or values; no `clear` and `resize`, which also change what was swapped out before (C16). Swaps
to C go to variables in which nothing is live; in swaps to C++ the class is the same, unless the counter is not. -/
def MAllowed (a : BState) : MCall → Prop
  | .c call => TAllowed a.c call
  | .declare y _ rc => a.cxx y = none ∧ (rc = 1 ∨ rc = 2)
  | .change y m => (∃ b, a.cxx y = some b ∧ b.rep ≠ .buffer ∧ m.All fun v => match v with
    | .const v => v.WF
    | .var z => z ≠ y ∧ ∃ d, a.cxx z = some d ∧ d.rep = b.rep ∧ d.rc = b.rc) ∧ m ≠ .clear ∧ ∀ n d, m ≠ .resize n d
  | .finalize y => ∃ b, a.cxx y = some b ∧ b.rep = .packet
  | .definalize y => ∃ b, a.cxx y = some b ∧ b.rep = .packet
  | .leave y => a.cxx y ≠ none
  | .toC _ x y => a.c.core.objs x = none ∧ a.cxx y ≠ none
  | .toCxx y x => ∃ b d, a.cxx y = some b ∧ a.c.core.objs x = some d ∧ (d.rc = b.rc → d.rep = b.rep)

/-- A program that does only what is allowed, whatever comes back. -/
def MCareful (signed : Bool) : MProg → BState → Prop
  | .stop, _ => True
  | .call c next, a => MAllowed a c ∧ ∀ a' o, MCallDoes signed a c a' o → MCareful signed (next o) a'

/-- A run of a program on values. -/
def MProgDoes (signed : Bool) : MProg → BState → BState → List MOut → Prop
  | .stop, a, a', os => a' = a ∧ os = []
  | .call c next, a, a', os => ∃ a₁ o os', MCallDoes signed a c a₁ o ∧ MProgDoes signed (next o) a₁ a' os' ∧ os = o :: os'

/-- The memory is what the program sees, on both sides. -/
def BothShow (s : MState) (a : BState) : Prop :=
  XMemoryShows s.c a.c ∧ ∀ y, match s.cxx y, a.cxx y with
    | none, none => True
    | some o, some b => ShownAs o b
    | _, _ => False

/-! ### C types -/

/-- The type of a C variable: `dart_heap_t`, `dart_buffer_t` or `dart_packet_t`, by the class it is named after. A call of the C
interface is accepted by a compiler if the variable the result goes to has the type the function is declared with, include/dart/abi.h.
The destination of `dart_copy_err` and `dart_move_err` is a `void*`, that is any of them; `dart_copy` and `dart_move` return a
`dart_packet_t`. -/
def CTyped (ty : Nat → Rep) : TCall → Prop
  | .any (.plain (.init packet x _ _)) => ty x = if packet then .packet else .heap
  | .any (.plain (.initBuffer x _)) => ty x = .buffer
  | .any (.plain (.copy byVal x _)) => byVal = true → ty x = .packet
  | .any (.plain (.get _ x _ _)) => ty x = .packet
  | .any (.plain (.conv _ x _ .toHeap)) => ty x = .heap
  | .any (.plain (.conv _ x _ .toBuffer)) => ty x = .buffer
  | .any (.plain (.conv _ x _ .lower)) => ty x = .packet
  | .any (.plain (.conv _ x _ .lift)) => ty x = .packet
  | .any (.plain (.itGet _ x _)) => ty x = .packet
  | .any (.move byVal x _) => byVal = true → ty x = .packet
  | .any (.fromJson _ x _ _) => ty x = .packet
  | .any (.takeBytes _ x _ _) => ty x = .packet
  | .copy k _ x y => ty x = k.rep ∧ ty y = k.rep
  | .move k _ x y => ty x = k.rep ∧ ty y = k.rep
  | .get k _ x y _ => ty x = k.rep ∧ ty y = k.rep
  | .lower _ x y => ty x = .buffer ∧ ty y = .heap
  | .lift _ x y => ty x = .heap ∧ ty y = .buffer
  | .fromJson _ x _ _ => ty x = .heap
  | .takeBytes _ x _ _ => ty x = .buffer
  | _ => True

/-- The same for C++: swaps are between variables of one class. -/
def CxxTyped (ty cty : Nat → Rep) : MCall → Prop
  | .c call => CTyped ty call
  | .declare y rep _ => cty y = rep
  | .toC _ x y => ty x = cty y
  | .toCxx y x => cty y = ty x
  | _ => True

/-- `dart_copy`, `dart_move` and their versions with a pointer are used only between variables of the same type. -/
def SameType (ty : Nat → Rep) : MCall → Prop
  | .c (.any (.plain (.copy _ x y))) => ty x = ty y
  | .c (.any (.move _ x y)) => ty x = ty y
  | _ => True

/-- All steps a program may take satisfy `P`. -/
def AllSteps (P : MCall → Prop) : MProg → Prop
  | .stop => True
  | .call c next => P c ∧ ∀ o, AllSteps P (next o)

end Dart.Spec
