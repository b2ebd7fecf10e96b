import Verif.Model.AbiMove
import Verif.Spec.AbiCalls
import Verif.Spec.JsonText

/-
What moving, parsing and raw bytes do in the C interface, in terms of values.
-/
namespace Dart.Spec

open Dart.Abi

/-- A pointer, as the program sees it: to nothing, to a copy of an object, or to memory that is no longer there. -/
inductive ABlk
  | null
  | object (v : Val)
  | gone

/-- The variables and the pointers. -/
structure ZState where
  core : AState
  blocks : Nat → ABlk

/-- Nothing is live. -/
def ZState.empty : ZState := ⟨AState.empty, fun _ => .null⟩

/-- The pointer `p` gets a new target. -/
def ZState.aim (a : ZState) (p : Nat) (b : ABlk) : ZState := { a with blocks := fun q => if q = p then b else a.blocks q }

/-- What `p` points to is given away: a null pointer stays one. -/
def ZState.giveUp (a : ZState) (p : Nat) : ZState :=
  match a.blocks p with
  | .null => a
  | _ => a.aim p .gone

/-- The C++ call that stores `v`. -/
def slotCall (v : PState) : Slot → PMut PState
  | .objInsert k => .insert ⟨false, .str k⟩ v
  | .objSet k => .set ⟨false, .str k⟩ v
  | .arrInsert i => .insert ⟨false, .int (BitVec.ofNat 64 i)⟩ v
  | .arrSet i => .set ⟨false, .int (BitVec.ofNat 64 i)⟩ v

/-- The key is not yet in the object. -/
def NewKey (v : Val) (k : Bytes) : Prop := ∃ fs, v = .obj fs ∧ lookup fs k = none

/-- When a `take` call into `b` leaves null in the variable it took `c` from. A packet that is not finalized is emptied
whether or not the call succeeds; a heap only if it succeeds, and not if it is stored under a new key; a finalized value
never. -/
def Empties (b c : AObj) (ok : Bool) (w : Slot) : Prop :=
  b.st.finalized = false ∧ c.st.finalized = false ∧
  match c.rep with
  | .packet => True
  | .heap => ok = true ∧ ∀ k, w = .objInsert k → ¬ NewKey b.st.value k
  | .buffer => False

/-- The variable `y` has become null, if it has. -/
def LeftBehind (a : AState) (y : Nat) (c : AObj) (emptied : Prop) (a' : AState) : Prop :=
  (emptied ∧ a' = a.set y (some { c with st := ⟨false, .null⟩ })) ∨ (¬ emptied ∧ a' = a)

/-- The `take` calls: as the calls that store a copy, except for what is left behind in `y`. -/
def Takes (a : AState) (x : Nat) (b : AObj) (w : Slot) (y : Nat) (c : AObj) (a' : AState) (o : Out) : Prop :=
  (b.rep = .buffer ∧ a' = a ∧ o = .code .clientError) ∨
  (b.rep ≠ .buffer ∧ c.rc ≠ b.rc ∧ a' = a ∧ o = .code .typeError) ∨
  (b.rep ≠ .buffer ∧ c.rc = b.rc ∧ ∃ r, MutOk b.st (slotCall c.st w) r ∧
    match r with
    | .ok p => LeftBehind (a.set x (some { b with st := p })) y c (Empties b c true w) a' ∧ o = .code .noError
    | .error e => LeftBehind a y c (Empties b c false w) a' ∧ o = .code (codeFor e))

/-- Calls that make a packet in `x` of which only the kind of counter is chosen by the caller. When a call reports an error
the variable is a live null packet, unless there is no such counter. -/
def Constructs (a : AState) (byVal : Bool) (x rc : Nat) (r : Except Exc PState) (a' : AState) (o : Out) : Prop :=
  if rc = 1 ∨ rc = 2 then
    match r with
    | .ok p => a' = a.set x (some ⟨.packet, rc, p⟩) ∧ o = if byVal then .object else .code .noError
    | .error e =>
      if byVal then a' = a.set x (some ⟨.packet, 1, ⟨false, .null⟩⟩) ∧ o = .object
      else a' = a.set x (some ⟨.packet, rc, ⟨false, .null⟩⟩) ∧ o = .code (codeFor e)
  else if byVal then a' = a.set x (some ⟨.packet, 1, ⟨false, .null⟩⟩) ∧ o = .object
  else a' = a ∧ o = .code .clientError

/-- Parsing a text: only objects and arrays are accepted. -/
def Parses (j : Option Json) (r : Except Exc PState) : Prop :=
  match j with
  | none => r = .error .parseError
  | some j => ParseOk false j r

/-- The bytes of an object. Read as a finalized object they are the same object, and every finalized object of the same
value has the same bytes. Only finalized objects have bytes. -/
def BytesOf (b : AObj) (r : Option Bytes) : Prop :=
  if b.st.finalized then
    match b.st.value with
    | .obj fs => ∃ bs, InState (.buf (Buf.ofBytes bs)) ⟨true, .obj fs⟩ ∧
        (∀ m, Dart.finalize (.obj fs) = .ok m → (Buf.ofBytes m).getBytes = .ok bs) ∧ r = some bs
    | _ => r = none
  else r = none

/-- The object the bytes behind a pointer are taken for. -/
def Adopted : ABlk → Except Exc PState
  | .object v => .ok ⟨true, v⟩
  | _ => .error .invalidArgument

/-- What a call does in a state in which it is allowed. -/
def XCallDoes (signed : Bool) (a : ZState) (c : XCall) (a' : ZState) (o : XOut) : Prop :=
  match c with
  | .plain c => ∃ m q, CallDoes signed a.core c m q ∧ a' = { a with core := m } ∧ o = .plain q
  | .move byVal x y => ∃ b, a.core.objs y = some b ∧
      a' = { a with core := (a.core.set y (some { b with st := ⟨b.st.finalized, .null⟩ })).set x (some b) } ∧
      o = .plain (if byVal then .object else .code .noError)
  | .take x w y => ∃ b c m q, a.core.objs x = some b ∧ a.core.objs y = some c ∧ Takes a.core x b w y c m q ∧
      a' = { a with core := m } ∧ o = .plain q
  | .fromJson byVal x rc j => ∃ r m q, Parses j r ∧ Constructs a.core byVal x rc r m q ∧ a' = { a with core := m } ∧ o = .plain q
  | .getBytes y => ∃ b r, a.core.objs y = some b ∧ BytesOf b r ∧ a' = a ∧ o = .bytes r
  | .dupBytes p y => ∃ b r, a.core.objs y = some b ∧ BytesOf b r ∧ o = .bytes r ∧
      a' = a.aim p (if r = none then .null else .object b.st.value)
  | .takeBytes byVal x rc p => ∃ m q, Constructs a.core byVal x rc (Adopted (a.blocks p)) m q ∧
      a' = ({ a with core := m } : ZState).giveUp p ∧ o = .plain q
  | .free p => a' = a.giveUp p ∧ o = .plain .object

/-- A text the program may parse: less than 512 MiB, without repeated names, with names of at most 65535 bytes and whole
numbers of 64 signed bits. -/
def Parsable (j : Json) : Prop := (∃ x t, IsText x t j ∧ t.length < 2 ^ 29) ∧ Within j ∧ DistinctNames j

/-- What the caller has to see to before a call; results go to variables in which nothing is live, and to pointers that do
not own anything. -/
def XAllowed (a : ZState) : XCall → Prop
  | .plain c => Allowed a.core c
  | .move _ x y => a.core.objs x = none ∧ a.core.objs y ≠ none
  | .take x w y => a.core.objs x ≠ none ∧ a.core.objs y ≠ none ∧ y ≠ x ∧ ∀ k, w = .objInsert k ∨ w = .objSet k → k.length < 2 ^ 32
  | .fromJson _ x _ j => a.core.objs x = none ∧ ∀ d, j = some d → Parsable d
  | .getBytes y => a.core.objs y ≠ none
  | .dupBytes p y => a.core.objs y ≠ none ∧ ∀ v, a.blocks p ≠ .object v
  | .takeBytes _ x _ p => a.core.objs x = none ∧ a.blocks p ≠ .gone
  | .free p => a.blocks p ≠ .gone

/-- A program that makes only allowed calls, whatever the calls return that they may return. -/
def XCareful (signed : Bool) : XProg → ZState → Prop
  | .stop, _ => True
  | .call c next, a => XAllowed a c ∧ ∀ a' o, XCallDoes signed a c a' o → XCareful signed (next o) a'

/-- A run of a program on values. -/
def XProgDoes (signed : Bool) : XProg → ZState → ZState → List XOut → Prop
  | .stop, a, a', os => a' = a ∧ os = []
  | .call c next, a, a', os => ∃ a₁ o os', XCallDoes signed a c a₁ o ∧ XProgDoes signed (next o) a₁ a' os' ∧ os = o :: os'

/-- The memory is what the program sees: also the bytes it owns hold the objects they should. -/
def XMemoryShows (s : XState) (a : ZState) : Prop :=
  MemoryShows s.core a.core ∧ ∀ p, match s.blocks p, a.blocks p with
    | .null, .null => True
    | .owned b, .object v => InState (.buf (Buf.ofBytes b)) ⟨true, v⟩
    | .dangling, .gone => True
    | _, _ => False

end Dart.Spec
