import Verif.Model.AbiCalls
import Verif.Spec.Container
import Verif.Spec.Packet

/-
What the calls of the C interface do, in terms of values: a variable that is live has a class, a kind of counter and a
value that is finalized or not.
-/
namespace Dart.Spec

open Dart.Abi

/-- A live object, as its user sees it. -/
structure AObj where
  rep : Rep
  rc : Nat
  st : PState

/-- A live iterator: what is still to come. -/
structure AIt where
  rc : Nat
  src : Nat
  stale : Bool
  rest : List PState

/-- The variables. -/
structure AState where
  objs : Nat → Option AObj
  its : Nat → Option AIt

/-- Nothing is live. -/
def AState.empty : AState := ⟨fun _ => none, fun _ => none⟩

/-- Iterators over `x` can no longer be used. -/
def outdate (x : Nat) (its : Nat → Option AIt) : Nat → Option AIt :=
  fun i => (its i).map fun it => if it.src = x then { it with stale := true } else it

/-- The variable `x` gets the new content `o`. -/
def AState.set (a : AState) (x : Nat) (o : Option AObj) : AState :=
  ⟨fun y => if y = x then o else a.objs y, outdate x a.its⟩

/-- The iterator `i` gets the new content `it`. -/
def AState.setIt (a : AState) (i : Nat) (it : Option AIt) : AState :=
  { a with its := fun j => if j = i then it else a.its j }

/-- The code that reports an exception. -/
def codeFor : Exc → Err
  | .typeError => .typeError
  | .stateError => .stateError
  | .parseError => .parseError
  | .validationError => .runtimeError
  | _ => .logicError

/-- The value an initialiser gives. -/
def initial : InitVal → Val
  | .null => .null
  | .obj => .obj []
  | .arr => .arr []
  | .str s => .str s
  | .int i => .int i
  | .dcm d => .dec d
  | .bool i => .bool (decide (i.toNat ≠ 0))

/-- A call that makes an object in `x`. If it fails, the variant that returns a code does nothing else, the variant that
returns an object returns null (with a thread-safe counter). -/
def Makes (a : AState) (byVal : Bool) (x : Nat) (rep : Rep) (rc : Nat) (r : Except Exc PState) (a' : AState) (o : Out) : Prop :=
  match r with
  | .ok p => a' = a.set x (some ⟨rep, rc, p⟩) ∧ o = if byVal then .object else .code .noError
  | .error e =>
    if byVal then a' = a.set x (some ⟨rep, 1, ⟨decide (rep = .buffer), .null⟩⟩) ∧ o = .object
    else a' = a ∧ o = .code (codeFor e)

/-- The state an argument stands for. -/
def argOf (a : AState) : CVal → PState
  | .str t => ⟨false, .str t⟩
  | .int i => ⟨false, .int i⟩
  | .dcm d => ⟨false, .dec d⟩
  | .bool i => ⟨false, .bool (decide (i.toNat ≠ 0))⟩
  | .null => ⟨false, .null⟩
  | .dart y => match a.objs y with | some o => o.st | none => ⟨false, .null⟩

/-- Does the call store the variable `y`? -/
def Stores (y : Nat) : CMut → Prop
  | .objInsert _ v => v = .dart y
  | .objSet _ v => v = .dart y
  | .arrInsert _ v => v = .dart y
  | .arrSet _ v => v = .dart y
  | _ => False

/-- Does the call store an object with the other kind of counter? -/
def mixesCounters (a : AState) (rc : Nat) (m : CMut) : Prop :=
  ∃ y b, Stores y m ∧ a.objs y = some b ∧ b.rc ≠ rc

/-- The C++ call, with the key or index as a value. -/
def cxxCall : CMut → PMut CVal
  | .objInsert k v => .insert (.str k) v
  | .objSet k v => .set (.str k) v
  | .objErase k => .eraseKey k
  | .arrInsert i v => .insert (.int (BitVec.ofNat 64 i)) v
  | .arrSet i v => .set (.int (BitVec.ofNat 64 i)) v
  | .arrErase i => .eraseIdx i

/-- The calls that change `x`: a buffer has none; otherwise what the C++ call does. A call that fails changes nothing. -/
def Changes (a : AState) (x : Nat) (b : AObj) (m : CMut) (a' : AState) (o : Out) : Prop :=
  (b.rep = .buffer ∧ a' = a ∧ o = .code .clientError) ∨
  (b.rep ≠ .buffer ∧ mixesCounters a b.rc m ∧ a' = a ∧ o = .code .typeError) ∨
  (b.rep ≠ .buffer ∧ ¬ mixesCounters a b.rc m ∧ ∃ r, MutOk b.st ((cxxCall m).map (argOf a)) r ∧
    match r with
    | .ok p => a' = a.set x (some { b with st := p }) ∧ o = .code .noError
    | .error e => a' = a ∧ o = .code (codeFor e))

/-- Converting: to a heap always works and gives the same value; to a buffer works for objects, whatever they were before;
lowering is finalizing, lifting the converse. -/
def Converts (s : PState) (r : Except Exc PState) : Conv → Prop
  | .toHeap => r = .ok ⟨false, s.value⟩
  | .lift => r = .ok ⟨false, s.value⟩
  | .lower => FinalizeOk s r
  | .toBuffer => FinalizeOk ⟨false, s.value⟩ r

/-- The class a conversion produces. -/
def convRep : Conv → Rep
  | .toHeap => .heap
  | .toBuffer => .buffer
  | _ => .packet

/-- Reading an element. -/
def elemRead : Where → PRead PState
  | .key k => .get k
  | .idx i => .getIdx i

/-- The calls that only read. The truth value of a finalized number is left open (C41). -/
def Answers (signed : Bool) (s : PState) (o : Out) : Query → Prop
  | .hasKey k => match s.value with
    | .obj fs => ∃ r, Found signed s.finalized fs k r ∧ o = .flag r.isSome
    | _ => o = .flag false
  | .size => match s.value with
    | .obj fs => o = .size (some fs.length)
    | .arr es => o = .size (some es.length)
    | .str t => o = .size (some t.length)
    | _ => o = .size none
  | .getType => o = .type (match s.value with
    | .null => .null | .bool _ => .boolean | .int _ => .integer | .dec _ => .decimal | .str _ => .string | .arr _ => .array
    | .obj _ => .object)
  | .isFinalized => o = .flag s.finalized
  | .int => o = .int (match s.value with | .int i => .ok i | _ => .error .typeError)
  | .dcm => o = .dcm (match s.value with | .dec d => .ok d | _ => .error .typeError)
  | .bool => o = .bool (match s.value with | .bool b => .ok b | _ => .error .typeError)
  | .str => o = .str (match s.value with | .str t => some t | _ => none)

/-- What an iterator goes through. -/
def contents (keys : Bool) (s : PState) : Except Exc (List PState) :=
  match keys, s.value with
  | false, .obj fs => .ok (fs.map fun f => ⟨s.finalized, f.2⟩)
  | true, .obj fs => .ok (fs.map fun f => ⟨s.finalized, .str f.1⟩)
  | false, .arr es => .ok (es.map fun e => ⟨s.finalized, e⟩)
  | _, _ => .error .typeError

/-- What a call does in a state in which it is allowed. -/
def CallDoes (signed : Bool) (a : AState) (c : Call) (a' : AState) (o : Out) : Prop :=
  match c with
  | .init packet x rc v =>
    if rc = 1 ∨ rc = 2 then
      a' = a.set x (some ⟨if packet then .packet else .heap, rc, ⟨false, initial v⟩⟩) ∧ o = .code .noError
    else a' = a ∧ o = .code .clientError
  | .initBuffer x rc =>
    if rc = 1 ∨ rc = 2 then a' = a.set x (some ⟨.buffer, rc, ⟨true, .null⟩⟩) ∧ o = .code .noError
    else a' = a ∧ o = .code .clientError
  | .copy byVal x y => ∃ b, a.objs y = some b ∧ Makes a byVal x b.rep b.rc (.ok b.st) a' o
  | .change x m => ∃ b, a.objs x = some b ∧ Changes a x b m a' o
  | .get byVal x y w => ∃ b r, a.objs y = some b ∧ ReadOk signed b.st (elemRead w) r ∧ Makes a byVal x .packet b.rc r a' o
  | .conv byVal x y c => ∃ b r, a.objs y = some b ∧ Converts b.st r c ∧ Makes a byVal x (convRep c) b.rc r a' o
  | .query y q => ∃ b, a.objs y = some b ∧ a' = a ∧ Answers signed b.st o q
  | .destroy x => a' = a.set x none ∧ o = .code .noError
  | .itInit keys i y => ∃ b, a.objs y = some b ∧
      match contents keys b.st with
      | .ok ps => a' = a.setIt i (some ⟨b.rc, y, false, ps⟩) ∧ o = .code .noError
      | .error e => a' = a ∧ o = .code (codeFor e)
  | .itCopy i j => ∃ it, a.its j = some it ∧ a' = a.setIt i (some it) ∧ o = .code .noError
  | .itGet byVal x i => ∃ it, a.its i = some it ∧
      match it.rest with
      | p :: _ => Makes a byVal x .packet it.rc (.ok p) a' o
      | [] => if byVal then a' = a.set x (some ⟨.packet, 1, ⟨false, .null⟩⟩) ∧ o = .object else a' = a ∧ o = .code .runtimeError
  | .itNext i => ∃ it, a.its i = some it ∧ a' = a.setIt i (some { it with rest := it.rest.drop 1 }) ∧ o = .code .noError
  | .itDone i => ∃ it, a.its i = some it ∧ a' = a ∧ o = .flag (it.rest.length == 0)
  | .itDestroy i => a' = a.setIt i none ∧ o = .code .noError
  | .itDoneDestroy i x => ∃ it, a.its i = some it ∧
      if it.rest.length = 0 then
        a' = (match x with | none => a.setIt i none | some x => (a.setIt i none).set x none) ∧ o = .flag true
      else a' = a ∧ o = .flag false

/-- The iterator can be used. -/
def Usable (a : AState) (i : Nat) : Prop := ∃ it, a.its i = some it ∧ it.stale = false

/-- What the caller has to see to before a call: results go to variables in which nothing is live; arguments are live; no
object is stored in itself; iterators are used only while their source is as it was; nothing is destroyed twice. Strings
have less than 4 GiB; nothing finalized is asked for a truth value unless it has one (C41). -/
def Allowed (a : AState) : Call → Prop
  | .init _ x _ v => a.objs x = none ∧ ∀ t, v = .str t → t.length < 2 ^ 32
  | .initBuffer x _ => a.objs x = none
  | .copy _ x y => a.objs x = none ∧ a.objs y ≠ none
  | .change x m => a.objs x ≠ none ∧ (cxxCall m).All fun v => match v with
    | .dart y => a.objs y ≠ none ∧ y ≠ x
    | .str t => t.length < 2 ^ 32
    | _ => True
  | .get _ x y _ => a.objs x = none ∧ a.objs y ≠ none
  | .conv _ x y _ => a.objs x = none ∧ a.objs y ≠ none
  | .query y .bool => ∃ b, a.objs y = some b ∧ (∀ i, b.st.value ≠ .int i) ∧ ∀ d, b.st.value ≠ .dec d
  | .query y _ => a.objs y ≠ none
  | .destroy x => a.objs x ≠ none
  | .itInit _ i y => a.its i = none ∧ a.objs y ≠ none
  | .itCopy i j => a.its i = none ∧ Usable a j
  | .itGet _ x i => a.objs x = none ∧ Usable a i
  | .itNext i => Usable a i
  | .itDone i => Usable a i
  | .itDestroy i => a.its i ≠ none
  | .itDoneDestroy i x => Usable a i ∧ ∀ it y, a.its i = some it → x = some y → it.rest = [] → a.objs y ≠ none

/-- A program that makes only allowed calls, whatever the calls return that they may return. -/
def Careful (signed : Bool) : Prog → AState → Prop
  | .stop, _ => True
  | .call c next, a => Allowed a c ∧ ∀ a' o, CallDoes signed a c a' o → Careful signed (next o) a'

/-- A run of a program on values. -/
def ProgDoes (signed : Bool) : Prog → AState → AState → List Out → Prop
  | .stop, a, a', os => a' = a ∧ os = []
  | .call c next, a, a', os => ∃ a₁ o os', CallDoes signed a c a₁ o ∧ ProgDoes signed (next o) a₁ a' os' ∧ os = o :: os'

/-- The object in memory is what its user sees. -/
def ShownAs (o : Obj) (b : AObj) : Prop := o.rep = b.rep ∧ o.rc = b.rc ∧ InState o.pkt b.st

/-- The same for all variables. -/
def MemoryShows (s : CState) (a : AState) : Prop :=
  (∀ x, match s.objs x, a.objs x with
    | none, none => True
    | some o, some b => ShownAs o b
    | _, _ => False) ∧
  ∀ i, match s.its i, a.its i with
    | none, none => True
    | some it, some b => it.rc = b.rc ∧ it.src = b.src ∧ it.stale = b.stale ∧ Each InState it.rest b.rest
    | _, _ => False

end Dart.Spec
