import Verif.Model.Heap

/-
Dynamic values with their shared storage: variables of type `basic_heap`, reference counted maps and
vectors, copy on write. Strings are immutable and are kept as values.
-/
namespace Dart.Cow

/-- `basic_heap::data`, include/dart.h 7712-7721: a scalar, or a counted pointer to the fields or to
the elements (here the address of the cell pointed to). -/
inductive Ref
  | null
  | bool (b : Bool)
  | int (i : BitVec 64)
  | dec (d : BitVec 64)
  | str (s : Bytes)
  | obj (a : Nat)
  | arr (a : Nat)
  deriving DecidableEq

/-- What a counted pointer points to: `packet_fields` (a `std::map`) or `packet_elements` (a
`std::vector`), include/dart/common.h 461-475. -/
inductive Body
  | fields (l : List (Bytes × Ref))
  | elems (l : List Ref)
  deriving DecidableEq

/-- A heap cell with the count kept by `shareable_ptr` (`use_count()`). -/
structure Cell where
  count : Nat
  body : Body
  deriving DecidableEq

/-- The heap: cells by address, `none` once freed. -/
abbrev Cells := List (Option Cell)

/-- The program state: heap and variables. -/
structure State where
  cells : Cells
  vars : List Ref
  deriving DecidableEq

/-- The address a value points to, if any. -/
def Ref.addr : Ref → Option Nat
  | .obj a => some a
  | .arr a => some a
  | _ => none

/-- The values a map or vector owns. -/
def Body.refs : Body → List Ref
  | .fields l => l.map (·.2)
  | .elems l => l

/-- The live cell at an address. -/
def Cells.at (c : Cells) (a : Nat) : Option Cell := c[a]?.join

/-- Everything owned by live cells. -/
def Cells.refs (c : Cells) : List Ref := c.flatMap fun x => match x with | some x => x.body.refs | none => []

/-- Copying a `basic_heap` (include/dart.h 5229, defaulted; the counted pointers increment): `none`
if the cell is already freed. -/
def incr (c : Cells) (r : Ref) : Option Cells :=
  match r.addr with
  | none => some c
  | some a => (c.at a).map fun x => c.set a (some { x with count := x.count + 1 })

/-- Copying several values. -/
def incrAll (c : Cells) : List Ref → Option Cells
  | [] => some c
  | r :: rs => (incr c r).bind fun c => incrAll c rs

/-- Destroying values: decrement, and if the count reaches zero free the cell and destroy what it
owns. `none` if a freed cell is met. The first argument bounds the number of values destroyed. -/
def drops : Nat → List Ref → Cells → Option Cells
  | _, [], c => some c
  | 0, _ :: _, _ => none
  | n + 1, r :: w, c =>
    match r.addr with
    | none => drops n w c
    | some a =>
      match c.at a with
      | none => none
      | some x =>
        if x.count > 1 then drops n w (c.set a (some { x with count := x.count - 1 }))
        else drops n (x.body.refs ++ w) (c.set a none)

/-- Destroying one value. -/
def drop (c : Cells) (r : Ref) : Option Cells := drops (c.refs.length + 1) [r] c

/-- Variable access. -/
def State.var (s : State) (x : Nat) : Ref := s.vars[x]?.getD .null

/-- Move-assignment of an owned value to a variable, include/dart/heap/api.tcc 17-24: the old value is
destroyed. -/
def assign (s : State) (x : Nat) (r : Ref) : Option State :=
  (drop s.cells (s.var x)).map fun c => ⟨c, s.vars.set x r⟩

/-- `refcount()`, include/dart/heap/api.tcc 500-513, for aggregates. -/
def refcount (c : Cells) (r : Ref) : Option Nat :=
  match r.addr with
  | none => some 1
  | some a => (c.at a).map (·.count)

/-- `copy_on_write()`, include/dart/heap/detail.tcc 55-61: if the storage of `x` is shared, give `x` a
copy of it. The new map or vector copies all values, the old pointer is released. (`x` refers to the
new cell before the old one is released; the order cannot be observed.) -/
def cow (s : State) (x : Nat) : Option State :=
  match (s.var x).addr with
  | none => some s
  | some a =>
    match s.cells.at a with
    | none => none
    | some cell =>
      if cell.count > 1 then
        (incrAll s.cells cell.body.refs).bind fun c =>
          assign ⟨c ++ [some ⟨1, cell.body⟩], s.vars⟩ x
            (match cell.body with | .fields _ => .obj c.length | .elems _ => .arr c.length)
      else some s

/-- How an argument is passed: `heap const&`, `heap&` or `heap&&`. -/
inductive Mode
  | const
  | lvalue
  | rvalue
  deriving DecidableEq

/-- A key: a string for objects, an integer for arrays. -/
inductive Key
  | name (k : Bytes)
  | index (i : BitVec 64)
  deriving DecidableEq

/-- The key as a dynamic value. -/
def Key.toVal : Key → Val
  | .name k => .str k
  | .index i => .int i

/-- Result of a call: the new state and the outcome. `ub`: freed memory was used. -/
abbrev Out := State × Res Unit

/-- Use of freed memory. -/
def orUb (s : State) : Option Out → Out
  | some o => o
  | none => (s, .ub)

/-- Store the new contents of the cell of `x`, destroying `old` and counting one more owner of `new`. -/
def store (s : State) (a : Nat) (cell : Cell) (body : Body) (new old : List Ref) : Option State :=
  (incrAll s.cells new).bind fun c =>
    let n := ((c.at a).map (·.count)).getD cell.count
    let c : Cells := c.set a (some ⟨n, body⟩)
    (drops (c.refs.length + old.length) old c).map fun c => ⟨c, s.vars⟩

/-- Move construction and move assignment leave null behind, include/dart/heap/api.tcc 12-24. If the
value was moved rather than copied, the variable gives up its count. -/
def leave (s : State) (y : Nat) (moved : Bool) : Option State :=
  if moved then assign s y .null else some s

/-- `basic_heap::insert(key, value)` with variable `y` as value, include/dart/heap/api.tcc 118-154.
A new key always copies the value; an existing key move-assigns it, which is a copy only for a
constant; an index forwards. -/
def insert (s : State) (x : Nat) (k : Key) (y : Nat) (mode : Mode) : Out :=
  orUb s <| (cow s x).bind fun s =>
    match k with
    | .name k =>
      if k.length > 65535 then some (s, .throw .invalidArgument)
      else match s.var x with
        | .obj a => (s.cells.at a).bind fun cell =>
          match cell.body with
          | .fields fs =>
            (store s a cell (.fields (mapInsert k (s.var y) fs)) [s.var y] (mapFind k fs).toList).bind fun s' =>
            (leave s' y ((mapFind k fs).isSome && mode != .const)).map fun s' => (s', .ok ())
          | _ => none
        | _ => some (s, .throw .typeError)
    | .index i =>
      match s.var x with
      | .arr a => (s.cells.at a).bind fun cell =>
        match cell.body with
        | .elems es =>
          if i.toNat > es.length then some (s, .throw .outOfRange)
          else if es.length ≥ maxElems then some (s, .throw .lengthError)
          else
            (store s a cell (.elems (es.take i.toNat ++ s.var y :: es.drop i.toNat)) [s.var y] []).bind fun s' =>
            (leave s' y (mode == .rvalue)).map fun s' => (s', .ok ())
        | _ => none
      | _ => some (s, .throw .typeError)

/-- `basic_heap::set(key, value)` with variable `y` as value, include/dart/heap/api.tcc 170-202. -/
def set (s : State) (x : Nat) (k : Key) (y : Nat) (mode : Mode) : Out :=
  orUb s <| (cow s x).bind fun s =>
    match k with
    | .name k =>
      if k.length > 65535 then some (s, .throw .invalidArgument)
      else match s.var x with
        | .obj a => (s.cells.at a).bind fun cell =>
          match cell.body with
          | .fields fs =>
            match mapFind k fs with
            | none => some (s, .throw .outOfRange)
            | some old =>
              (store s a cell (.fields (mapInsert k (s.var y) fs)) [s.var y] [old]).bind fun s' =>
              (leave s' y (mode == .rvalue)).map fun s' => (s', .ok ())
          | _ => none
        | _ => some (s, .throw .typeError)
    | .index i =>
      match s.var x with
      | .arr a => (s.cells.at a).bind fun cell =>
        match cell.body with
        | .elems es =>
          match es[i.toNat]? with
          | none => some (s, .throw .outOfRange)
          | some old =>
            (store s a cell (.elems (es.set i.toNat (s.var y))) [s.var y] [old]).bind fun s' =>
            (leave s' y (mode == .rvalue)).map fun s' => (s', .ok ())
        | _ => none
      | _ => some (s, .throw .typeError)

/-- `basic_heap::erase(key)`, include/dart/heap/object.tcc 98-101, 303-321 and
include/dart/heap/array.tcc 110-121. -/
def erase (s : State) (x : Nat) (k : Key) : Out :=
  orUb s <| (cow s x).bind fun s =>
    match k with
    | .name k =>
      match s.var x with
      | .obj a => (s.cells.at a).bind fun cell =>
        match cell.body with
        | .fields fs =>
          (store s a cell (.fields (mapErase k fs)) [] (mapFind k fs).toList).map fun s' => (s', .ok ())
        | _ => none
      | _ => some (s, .throw .typeError)
    | .index i =>
      match s.var x with
      | .arr a => (s.cells.at a).bind fun cell =>
        match cell.body with
        | .elems es =>
          (store s a cell (.elems (es.eraseIdx i.toNat)) [] es[i.toNat]?.toList).map fun s' => (s', .ok ())
        | _ => none
      | _ => some (s, .throw .typeError)

/-- `basic_heap::clear`, include/dart/heap/api.tcc 255-261: no `copy_on_write`. -/
def clear (s : State) (x : Nat) : Out :=
  orUb s <|
    match s.var x with
    | .obj a => (s.cells.at a).bind fun cell =>
      (store s a cell (.fields []) [] cell.body.refs).map fun s' => (s', .ok ())
    | .arr a => (s.cells.at a).bind fun cell =>
      (store s a cell (.elems []) [] cell.body.refs).map fun s' => (s', .ok ())
    | _ => some (s, .throw .typeError)

/-- `basic_heap::resize`, include/dart/heap/array.tcc 129-133: no `copy_on_write`. -/
def resize (s : State) (x n y : Nat) : Out :=
  orUb s <|
    match s.var x with
    | .arr a => (s.cells.at a).bind fun cell =>
      match cell.body with
      | .elems es =>
        if n > maxElems then some (s, .throw .lengthError)
        else (store s a cell (.elems (es.take n ++ List.replicate (n - es.length) (s.var y)))
          (List.replicate (n - es.length) (s.var y)) (es.drop n)).map fun s' => (s', .ok ())
      | _ => none
    | _ => some (s, .throw .typeError)

/-- `z = y`: copy assignment. -/
def copy (s : State) (z y : Nat) : Out :=
  orUb s <| (incr s.cells (s.var y)).bind fun c => (assign ⟨c, s.vars⟩ z (s.var y)).map fun s' => (s', .ok ())

/-- `z = std::move(y)`, include/dart/heap/api.tcc 17-24. -/
def move (s : State) (z y : Nat) : Out :=
  if z = y then (s, .ok ())
  else orUb s <| (assign s z (s.var y)).map fun s' => (⟨s'.cells, s'.vars.set y .null⟩, .ok ())

/-- `z = x.get(key)`, include/dart/heap/object.tcc 174-182 and include/dart/heap/array.tcc 152-156: the
nested value shares its storage. -/
def get (s : State) (z x : Nat) (k : Key) : Out :=
  orUb s <|
    match k, s.var x with
    | .name k, .obj a => (s.cells.at a).bind fun cell =>
      match cell.body with
      | .fields fs => (incr s.cells ((mapFind k fs).getD .null)).bind fun c =>
        (assign ⟨c, s.vars⟩ z ((mapFind k fs).getD .null)).map fun s' => (s', .ok ())
      | _ => none
    | .index i, .arr a => (s.cells.at a).bind fun cell =>
      match cell.body with
      | .elems es => (incr s.cells (es[i.toNat]?.getD .null)).bind fun c =>
        (assign ⟨c, s.vars⟩ z (es[i.toNat]?.getD .null)).map fun s' => (s', .ok ())
      | _ => none
    | _, _ => some (s, .throw .typeError)

/-- A new empty object or array, or a scalar, is assigned to `x`: `make_object()`, `make_array()`,
`make_string(…)`, … -/
inductive Fresh
  | obj
  | arr
  | null
  | bool (b : Bool)
  | int (i : BitVec 64)
  | dec (d : BitVec 64)
  | str (s : Bytes)
  deriving DecidableEq

/-- The new value and the heap with its storage. -/
def Fresh.make (c : Cells) : Fresh → Cells × Ref
  | .obj => (c ++ [some ⟨1, .fields []⟩], .obj c.length)
  | .arr => (c ++ [some ⟨1, .elems []⟩], .arr c.length)
  | .null => (c, .null)
  | .bool b => (c, .bool b)
  | .int i => (c, .int i)
  | .dec d => (c, .dec d)
  | .str t => (c, .str t)

/-- `x = make_…()`. -/
def fresh (s : State) (x : Nat) (v : Fresh) : Out :=
  orUb s <| (assign ⟨(v.make s.cells).1, s.vars⟩ x (v.make s.cells).2).map fun s' => (s', .ok ())

/-- A statement of a program over variables. Destroying a variable is assigning null. -/
inductive Op
  | fresh (x : Nat) (v : Fresh)
  | copy (z y : Nat)
  | move (z y : Nat)
  | get (z x : Nat) (k : Key)
  | insert (x : Nat) (k : Key) (y : Nat) (mode : Mode)
  | set (x : Nat) (k : Key) (y : Nat) (mode : Mode)
  | erase (x : Nat) (k : Key)
  | clear (x : Nat)
  | resize (x n y : Nat)
  deriving DecidableEq

/-- One statement. -/
def step (s : State) : Op → Out
  | .fresh x v => Cow.fresh s x v
  | .copy z y => Cow.copy s z y
  | .move z y => Cow.move s z y
  | .get z x k => Cow.get s z x k
  | .insert x k y m => Cow.insert s x k y m
  | .set x k y m => Cow.set s x k y m
  | .erase x k => Cow.erase s x k
  | .clear x => Cow.clear s x
  | .resize x n y => Cow.resize s x n y

/-- A program: final state and the outcome of each statement. -/
def run (s : State) : List Op → State × List (Res Unit)
  | [] => (s, [])
  | op :: ops => let o := step s op; let r := run o.1 ops; (r.1, o.2 :: r.2)

/-- All variables null, no storage. -/
def init (n : Nat) : State := ⟨[], List.replicate n .null⟩

/-- The values of all fields. -/
def mapFields (f : Ref → Option Val) : List (Bytes × Ref) → Option (List (Bytes × Val))
  | [] => some []
  | (k, r) :: fs => (f r).bind fun v => (mapFields f fs).map fun vs => (k, v) :: vs

/-- The values of all elements. -/
def mapElems (f : Ref → Option Val) : List Ref → Option (List Val)
  | [] => some []
  | r :: rs => (f r).bind fun v => (mapElems f rs).map fun vs => v :: vs

/-- What a value looks like from outside: all nested storage followed. The second argument bounds the
nesting depth; a cyclic value has no finite depth. -/
def view (c : Cells) : Nat → Ref → Option Val
  | _, .null => some .null
  | _, .bool b => some (.bool b)
  | _, .int i => some (.int i)
  | _, .dec d => some (.dec d)
  | _, .str s => some (.str s)
  | n + 1, .obj a =>
    match c.at a with
    | some ⟨_, .fields fs⟩ => (mapFields (view c n) fs).map .obj
    | _ => none
  | n + 1, .arr a =>
    match c.at a with
    | some ⟨_, .elems es⟩ => (mapElems (view c n) es).map .arr
    | _ => none
  | 0, _ => none

end Dart.Cow
