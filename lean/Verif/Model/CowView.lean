import Verif.Model.Cow

/-
Views of dynamic values, together with the shared storage of `Verif.Model.Cow`: `basic_heap::view` is
`basic_heap` over `view_ptr` (include/dart/support/ptrs.h 384-455, include/dart/support/ptrs.tcc
440-596). A `view_ptr` is the address of a smart pointer of an owner: not of the storage, and without a
share in it.
-/
namespace Dart.Cow

/-- Where an owner (a `basic_heap` with its smart pointer) is: a variable, the value in a node of a map, or
an element of a vector. -/
inductive Loc
  | var (x : Nat)
  | field (a : Nat) (k : Bytes)
  | elem (a i : Nat)
  deriving DecidableEq

/-- A variable of type `basic_heap::view`: a scalar or string of its own, the address of the smart pointer
to a map (`obj`) or to a vector, or such an address that must not be used any more. -/
inductive VwVar
  | data (r : Ref)
  | aggr (obj : Bool) (loc : Loc)
  | stale
  deriving DecidableEq

/-- The program state: heap, variables and view variables. -/
structure VState where
  st : State
  vws : List VwVar
  deriving DecidableEq

/-- A view variable; without a value it is null. -/
def VState.vw (s : VState) (i : Nat) : VwVar := s.vws[i]?.getD (.data .null)

/-- The owner at a place. -/
def State.at (s : State) : Loc → Option Ref
  | .var x => some (s.var x)
  | .field a k =>
    match s.cells.at a with
    | some ⟨_, .fields fs⟩ => mapFind k fs
    | _ => none
  | .elem a i =>
    match s.cells.at a with
    | some ⟨_, .elems es⟩ => es[i]?
    | _ => none

/-- Is the owner an object (`obj`), an array (otherwise)? -/
def Ref.isAggr (obj : Bool) : Ref → Bool
  | .obj _ => obj
  | .arr _ => !obj
  | _ => false

/-- `operator view() const&`, include/dart/heap/api.tcc 51-54, with the constructor
include/dart/heap/detail.tcc 12-53: for an object or array the address of the smart pointer is kept,
scalars and strings are copied (a long string becomes a further owner of its characters). -/
def mkView (loc : Loc) : Ref → VwVar
  | .obj _ => .aggr true loc
  | .arr _ => .aggr false loc
  | r => .data r

/-- Does the address survive a statement? A variable has to hold a smart pointer of the same type after
it: assigning another `std::variant` alternative destroys the pointer, assigning the same one does not. A
node of a map has to be there, a vector needs its old size, and what is in there has to be a smart
pointer of the same type. (Addresses are not used again, and no statement erases a node and inserts
another with the same key.) -/
def Loc.survives (s s' : State) (obj : Bool) : Loc → Bool
  | .var x => (s'.var x).isAggr obj
  | .field a k => (s'.at (.field a k)).any (·.isAggr obj)
  | .elem a i =>
    match s.cells.at a, s'.cells.at a with
    | some ⟨_, .elems es⟩, some ⟨_, .elems es'⟩ => es.length == es'.length && es'[i]?.any (·.isAggr obj)
    | _, _ => false

/-- A view variable after a statement. -/
def VwVar.age (s s' : State) : VwVar → VwVar
  | .aggr obj loc => if loc.survives s s' obj then .aggr obj loc else .stale
  | v => v

/-- A statement of a program with view variables `i`, `j`. -/
inductive VwOp
  /-- a statement without views -/
  | plain (op : Op)
  /-- `i = x` -/
  | look (i x : Nat)
  /-- `i = j.get(k)` -/
  | sub (i j : Nat) (k : Key)
  /-- `i = j` -/
  | dup (i j : Nat)
  /-- `i = std::move(j)` -/
  | take (i j : Nat)
  /-- `z = i.as_owner()` -/
  | own (z i : Nat)
  /-- the type of `i`, and its value if it is a scalar or string -/
  | what (i : Nat)
  /-- `i.size()` -/
  | size (i : Nat)
  deriving DecidableEq

/-- What a statement lets the program see: nothing, a type with the value of a scalar, or a number. -/
inductive Glimpse
  | done
  | kind (f : Fresh)
  | num (n : Nat)
  deriving DecidableEq

/-- Result of a statement. -/
abbrev VOut := VState × Res Glimpse

/-- A view variable is assigned. -/
def VState.point (s : VState) (i : Nat) (v : VwVar) : VState := { s with vws := s.vws.set i v }

/-- The heap and the variables have changed. -/
def VState.after (s : VState) (st : State) : VState := ⟨st, s.vws.map (VwVar.age s.st st)⟩

/-- The owner behind a view: its smart pointer, or its own scalar; undefined if that is gone. -/
def VState.target (s : VState) (i : Nat) : Option Ref :=
  match s.vw i with
  | .data r => some r
  | .aggr _ loc => s.st.at loc
  | .stale => none

/-- The type, and the value of a scalar or string. -/
def Ref.what : Ref → Fresh
  | .obj _ => .obj
  | .arr _ => .arr
  | .null => .null
  | .bool b => .bool b
  | .int i => .int i
  | .dec d => .dec d
  | .str t => .str t

/-- `get(string_view)`, include/dart/heap/object.tcc 174-182, and `get(size_type)`,
include/dart/heap/array.tcc 152-156, of a view: the result is a view of the owner inside the map or vector,
null if there is none. -/
def subView (c : Cells) (r : Ref) (k : Key) : Res VwVar :=
  match r, k with
  | .obj a, .name k =>
    match c.at a with
    | some ⟨_, .fields fs⟩ => .ok (((mapFind k fs).map (mkView (.field a k))).getD (.data .null))
    | _ => .ub
  | .arr a, .index i =>
    match c.at a with
    | some ⟨_, .elems es⟩ => .ok ((es[i.toNat]?.map (mkView (.elem a i.toNat))).getD (.data .null))
    | _ => .ub
  | _, _ => .throw .typeError

/-- `size`, include/dart/heap/api.tcc 403-419. -/
def sizeOf (c : Cells) : Ref → Res Nat
  | .obj a =>
    match c.at a with
    | some ⟨_, .fields fs⟩ => .ok fs.length
    | _ => .ub
  | .arr a =>
    match c.at a with
    | some ⟨_, .elems es⟩ => .ok es.length
    | _ => .ub
  | .str t => .ok t.length
  | _ => .throw .typeError

/-- Use of a view: undefined if the owner it points to is gone. -/
def VState.use (s : VState) (i : Nat) (f : Ref → VOut) : VOut :=
  match s.target i with
  | some r => f r
  | none => (s, .ub)

/-- One statement. `as_owner`, include/dart/heap/api.tcc 616-620, copies the smart pointer (so that the
storage has one more owner) or the scalar. A view that was moved from is null, include/dart/heap/api.tcc
17-24. -/
def vstep (s : VState) : VwOp → VOut
  | .plain op => let o := step s.st op; (s.after o.1, o.2.bind fun _ => .ok .done)
  | .look i x => (s.point i (mkView (.var x) (s.st.var x)), .ok .done)
  | .sub i j k => s.use j fun r =>
    match subView s.st.cells r k with
    | .ok v => (s.point i v, .ok .done)
    | .throw e => (s, .throw e)
    | .ub => (s, .ub)
  | .dup i j => (s.point i (s.vw j), .ok .done)
  | .take i j => (if i = j then s else (s.point i (s.vw j)).point j (.data .null), .ok .done)
  | .own z i => s.use i fun r =>
    match (incr s.st.cells r).bind fun c => assign ⟨c, s.st.vars⟩ z r with
    | some st => (s.after st, .ok .done)
    | none => (s, .ub)
  | .what i => s.use i fun r => (s, .ok (.kind r.what))
  | .size i => s.use i fun r => (s, (sizeOf s.st.cells r).bind fun n => .ok (.num n))

/-- A program: final state and what each statement showed. -/
def vrun (s : VState) : List VwOp → VState × List (Res Glimpse)
  | [] => (s, [])
  | op :: ops => let o := vstep s op; let r := vrun o.1 ops; (r.1, o.2 :: r.2)

/-- `n` variables and `m` views, all null. -/
def vinit (n m : Nat) : VState := ⟨init n, List.replicate m (.data .null)⟩

end Dart.Cow
