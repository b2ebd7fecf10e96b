import Verif.Model.AbiTyped
import Verif.Spec.AbiMove

/-
What the typed calls of the C interface do, in terms of values; and when two memories differ only in classes.
-/
namespace Dart.Spec

open Dart.Abi

/-- There is a live object of the class in the variable. -/
def Has (a : AState) (k : Family) (x : Nat) : Prop := ∃ b, a.objs x = some b ∧ b.rep = k.rep

/-- Changing a heap: storing a heap with the other kind of counter is a client error; otherwise what the C++ call does. -/
def HeapChanges (a : AState) (x : Nat) (b : AObj) (m : CMut) (a' : AState) (o : Out) : Prop :=
  (mixesCounters a b.rc m ∧ a' = a ∧ o = .code .clientError) ∨
  (¬ mixesCounters a b.rc m ∧ ∃ r, MutOk b.st ((cxxCall m).map (argOf a)) r ∧
    match r with
    | .ok p => a' = a.set x (some { b with st := p }) ∧ o = .code .noError
    | .error e => a' = a ∧ o = .code (codeFor e))

/-- Taking a heap `c` into a heap `b`. Where it came from there is null afterwards if the call succeeds and did not store it
under a new key. -/
def HeapTakes (a : AState) (x : Nat) (b : AObj) (w : Slot) (y : Nat) (c : AObj) (a' : AState) (o : Out) : Prop :=
  (c.rc ≠ b.rc ∧ a' = a ∧ o = .code .clientError) ∨
  (c.rc = b.rc ∧ ∃ r, MutOk b.st (slotCall c.st w) r ∧
    match r with
    | .ok p => LeftBehind (a.set x (some { b with st := p })) y c (∀ k, w = .objInsert k → ¬ NewKey b.st.value k) a' ∧ o = .code .noError
    | .error e => a' = a ∧ o = .code (codeFor e))

/-- A null object of a class. -/
def nullOf (k : Family) (rc : Nat) : AObj := ⟨k.rep, rc, ⟨decide (k = .buffer), .null⟩⟩

/-- Calls that make an object of a class of which only the kind of counter is chosen by the caller. When a call reports an
error the variable is a live null object, unless there is no such counter. -/
def ConstructsAs (k : Family) (a : AState) (byVal : Bool) (x rc : Nat) (r : Except Exc PState) (a' : AState) (o : Out) : Prop :=
  if rc = 1 ∨ rc = 2 then
    match r with
    | .ok p => a' = a.set x (some ⟨k.rep, rc, p⟩) ∧ o = if byVal then .object else .code .noError
    | .error e =>
      if byVal then a' = a.set x (some (nullOf k 1)) ∧ o = .object
      else a' = a.set x (some (nullOf k rc)) ∧ o = .code (codeFor e)
  else if byVal then a' = a.set x (some (nullOf k 1)) ∧ o = .object
  else a' = a ∧ o = .code .clientError

/-- What a call does in a state in which it is allowed. -/
def TCallDoes (signed : Bool) (a : ZState) (c : TCall) (a' : ZState) (o : XOut) : Prop :=
  match c with
  | .any c => XCallDoes signed a c a' o
  | .copy k byVal x y => ∃ b m q, a.core.objs y = some b ∧ Makes a.core byVal x k.rep b.rc (.ok b.st) m q ∧
      a' = { a with core := m } ∧ o = .plain q
  | .move _ byVal x y => ∃ b, a.core.objs y = some b ∧
      a' = { a with core := (a.core.set y (some { b with st := ⟨b.st.finalized, .null⟩ })).set x (some b) } ∧
      o = .plain (if byVal then .object else .code .noError)
  | .destroy _ x => a' = { a with core := a.core.set x none } ∧ o = .plain (.code .noError)
  | .query _ y q => ∃ b r, a.core.objs y = some b ∧ Answers signed b.st r q ∧ a' = a ∧ o = .plain r
  | .get k byVal x y w => ∃ b r m q, a.core.objs y = some b ∧ ReadOk signed b.st (elemRead w) r ∧
      Makes a.core byVal x k.rep b.rc r m q ∧ a' = { a with core := m } ∧ o = .plain q
  | .change x m => ∃ b a₁ q, a.core.objs x = some b ∧ HeapChanges a.core x b m a₁ q ∧ a' = { a with core := a₁ } ∧ o = .plain q
  | .take x w y => ∃ b c a₁ q, a.core.objs x = some b ∧ a.core.objs y = some c ∧ HeapTakes a.core x b w y c a₁ q ∧
      a' = { a with core := a₁ } ∧ o = .plain q
  | .lower byVal x y => ∃ b r m q, a.core.objs y = some b ∧ FinalizeOk b.st r ∧ Makes a.core byVal x .buffer b.rc r m q ∧
      a' = { a with core := m } ∧ o = .plain q
  | .fromJson byVal x rc j => ∃ r m q, Parses j r ∧ ConstructsAs .heap a.core byVal x rc r m q ∧ a' = { a with core := m } ∧ o = .plain q
  | .lift byVal x y => ∃ b m q, a.core.objs y = some b ∧ Makes a.core byVal x .heap b.rc (.ok ⟨false, b.st.value⟩) m q ∧
      a' = { a with core := m } ∧ o = .plain q
  | .getBytes y => ∃ b r, a.core.objs y = some b ∧ BytesOf b r ∧ a' = a ∧ o = .bytes r
  | .dupBytes p y => ∃ b r, a.core.objs y = some b ∧ BytesOf b r ∧ o = .bytes r ∧
      a' = a.aim p (if r = none then .null else .object b.st.value)
  | .takeBytes byVal x rc p => ∃ m q, ConstructsAs .buffer a.core byVal x rc (Adopted (a.blocks p)) m q ∧ o = .plain q ∧
      a' = if rc = 1 ∨ rc = 2 then ({ a with core := m } : ZState).giveUp p else { a with core := m }

/-- What the caller has to see to before a call: as for the generic calls, and arguments are of the class of the call. -/
def TAllowed (a : ZState) : TCall → Prop
  | .any c => XAllowed a c
  | .copy k _ x y => a.core.objs x = none ∧ Has a.core k y
  | .move k _ x y => a.core.objs x = none ∧ Has a.core k y
  | .destroy k x => Has a.core k x
  | .query k y q => Has a.core k y ∧ Allowed a.core (.query y q)
  | .get k _ x y _ => a.core.objs x = none ∧ Has a.core k y
  | .change x m => Has a.core .heap x ∧ Allowed a.core (.change x m) ∧ ∀ y, Stores y m → Has a.core .heap y
  | .take x w y => Has a.core .heap x ∧ Has a.core .heap y ∧ y ≠ x ∧ ∀ k, w = .objInsert k ∨ w = .objSet k → k.length < 2 ^ 32
  | .lower _ x y => a.core.objs x = none ∧ Has a.core .heap y
  | .fromJson _ x _ j => a.core.objs x = none ∧ ∀ d, j = some d → Parsable d
  | .lift _ x y => a.core.objs x = none ∧ Has a.core .buffer y
  | .getBytes y => Has a.core .buffer y
  | .dupBytes p y => Has a.core .buffer y ∧ ∀ v, a.blocks p ≠ .object v
  | .takeBytes _ x _ p => a.core.objs x = none ∧ a.blocks p ≠ .gone

/-- A program that makes only allowed calls, whatever the calls return that they may return. -/
def TCareful (signed : Bool) : TProg → ZState → Prop
  | .stop, _ => True
  | .call c next, a => TAllowed a c ∧ ∀ a' o, TCallDoes signed a c a' o → TCareful signed (next o) a'

/-- A run of a program on values. -/
def TProgDoes (signed : Bool) : TProg → ZState → ZState → List XOut → Prop
  | .stop, a, a', os => a' = a ∧ os = []
  | .call c next, a, a', os => ∃ a₁ o os', TCallDoes signed a c a₁ o ∧ TProgDoes signed (next o) a₁ a' os' ∧ os = o :: os'

/-- The generic call for a typed one: the class is left out of the name (`dart_heap_obj_get` and `dart_obj_get`). What `lower`
and `lift` make of a heap or buffer is what `dart_to_buffer` and `dart_to_heap` make of anything. -/
def untyped : TCall → XCall
  | .any c => c
  | .copy _ byVal x y => .plain (.copy byVal x y)
  | .move _ byVal x y => .move byVal x y
  | .destroy _ x => .plain (.destroy x)
  | .query _ y q => .plain (.query y q)
  | .get _ byVal x y w => .plain (.get byVal x y w)
  | .change x m => .plain (.change x m)
  | .take x w y => .take x w y
  | .lower byVal x y => .plain (.conv byVal x y .toBuffer)
  | .fromJson byVal x rc j => .fromJson byVal x rc j
  | .lift byVal x y => .plain (.conv byVal x y .toHeap)
  | .getBytes y => .getBytes y
  | .dupBytes p y => .dupBytes p y
  | .takeBytes byVal x rc p => .takeBytes byVal x rc p

/-- The same with packets only: also initialisers make packets, and `lower` and `lift` are `dart_lower` and `dart_lift`. -/
def onPackets : TCall → XCall
  | .any (.plain (.init _ x rc v)) => .plain (.init true x rc v)
  | .lower byVal x y => .plain (.conv byVal x y .lower)
  | .lift byVal x y => .plain (.conv byVal x y .lift)
  | c => untyped c

/-- A program with typed calls, and the same program with generic calls on packets. -/
def rewritten : TProg → XProg
  | .stop => .stop
  | .call c next => .call (onPackets c) fun o => rewritten (next o)

/-- Calls that can be rewritten: typed calls on objects with thread-safe counters, without those that take (C64), and, since a
null buffer is finalized and a null packet is not, without those that may make a null buffer. -/
def Rewritable : TCall → Prop
  | .any (.plain (.init false _ rc _)) => rc = 1
  | .any (.free _) => True
  | .any _ => False
  | .get .buffer byVal _ _ _ => byVal = false
  | .lower byVal _ _ => byVal = false
  | .fromJson _ _ rc _ => rc = 1
  | .take _ _ _ => False
  | .takeBytes _ _ _ _ => False
  | _ => True

/-- All calls a program may make can be rewritten. -/
def AllRewritable : TProg → Prop
  | .stop => True
  | .call c next => Rewritable c ∧ ∀ o, AllRewritable (next o)

/-- The same memory, except that everything is a packet in the second. -/
def SameButPackets (s t : XState) : Prop :=
  (∀ x, t.core.objs x = (s.core.objs x).map fun o => { o with rep := .packet }) ∧ t.core.its = s.core.its ∧
  t.core.lost = s.core.lost ∧ t.blocks = s.blocks ∧ t.leaked = s.leaked

/-- The variable a call makes an object in. -/
def target : TCall → Option Nat
  | .copy _ _ x _ => some x
  | .move _ _ x _ => some x
  | .get _ _ x _ _ => some x
  | .lower _ x _ => some x
  | .lift _ x _ => some x
  | .fromJson _ x _ _ => some x
  | .takeBytes _ x _ _ => some x
  | _ => none

/-- Counters as they should be: what is stored has the kind of counter of the object it is stored in, and bytes are taken with
a kind of counter there is. -/
def CountersFit (s : XState) : TCall → Prop
  | .change x m => ∀ y o b, Stores y m → s.core.objs x = some o → s.core.objs y = some b → b.rc = o.rc
  | .take x _ y => ∀ o b, s.core.objs x = some o → s.core.objs y = some b → b.rc = o.rc
  | .takeBytes _ _ rc _ => rc = 1 ∨ rc = 2
  | _ => True

/-- The same memory, except for the class of the object in one variable (and whether it is finalized, if it is null). -/
def SameButClass (x : Option Nat) (s t : XState) : Prop :=
  (∀ y, some y ≠ x → t.core.objs y = s.core.objs y) ∧
  (∀ y, some y = x → (t.core.objs y).map (fun o => (o.rc, o.pkt.toHeap)) = (s.core.objs y).map fun o => (o.rc, o.pkt.toHeap)) ∧
  t.core.its = s.core.its ∧ t.core.lost = s.core.lost ∧ t.blocks = s.blocks ∧ t.leaked = s.leaked

end Dart.Spec
