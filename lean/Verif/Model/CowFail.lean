import Verif.Model.CowIter
import Verif.Model.Share

/-
Statements over dynamic values (`Verif.Model.Cow`) when memory runs out: in each statement one allocation may fail. What
was built up to then is unwound as the C++ code does it.
-/
namespace Dart.Cow

/-- The allocation that fails, if the statement gets there. -/
inductive Fault
  | none
  /-- in `copy_on_write()`: a node of the new map or the memory of the new vector, after `j` values were copied -/
  | copy (j : Nat)
  /-- in `copy_on_write()`: the control block of the copy (`fields_type(new packet_fields(…))`) -/
  | block
  /-- the conversion of the key or of the value to `basic_heap` (a long string) -/
  | convert
  /-- the node of the map, the memory of the vector, the storage of a new value -/
  | grow
  deriving DecidableEq

/-- How a statement ends. `std::bad_alloc` is not among the exceptions of `Res`. -/
inductive End
  | done (r : Res Unit)
  | badAlloc
  deriving DecidableEq

/-- The new state and how the statement ended. -/
abbrev FOut := State × End

/-- Use of freed memory, or anything else undefined. -/
def orUbF (s : State) : Option FOut → FOut
  | some o => o
  | none => (s, .done .ub)

/-- `copy_on_write(overcount)` with a failing allocation, include/dart/heap/detail.tcc 55-61; `true`: it threw.
Copying the map or vector: the standard containers destroy the values copied so far and free their memory. Control block of
the copy: `std::shared_ptr` deletes the pointer it was given; the pointers of the library lose it
(include/dart/support/ptrs.tcc 59-75, see C70), and so the copy stays, with the count that its values have because of
it. In both cases `data` is not assigned. -/
def cowFail (k : Share.Kind) (s : State) (x over : Nat) (f : Fault) : Option (State × Bool) :=
  match (s.var x).addr with
  | none => some (s, false)
  | some a =>
    match s.cells.at a with
    | none => none
    | some cell =>
      if cell.count > over then
        match f with
        | .copy j =>
          (incrAll s.cells (cell.body.refs.take j)).bind fun c =>
            (drops (c.refs.length + (cell.body.refs.take j).length) (cell.body.refs.take j) c).map fun c => (⟨c, s.vars⟩, true)
        | .block =>
          (incrAll s.cells cell.body.refs).bind fun c =>
            match k with
            | .std => (drop (c ++ [some ⟨1, cell.body⟩])
                (match cell.body with | .fields _ => .obj c.length | .elems _ => .arr c.length)).map fun c => (⟨c, s.vars⟩, true)
            | .own => some (⟨c ++ [some ⟨1, cell.body⟩], s.vars⟩, true)
        | _ => (cowOver s x over).map fun s => (s, false)
      else some (s, false)

/-- Does `insert` get to the node of the map (the standard allows to make one before the key is looked up, and
libstdc++ does) or to the memory of the vector? include/dart/heap/api.tcc 127-149 -/
def reachesGrow (s : State) (x : Nat) : Key → Bool
  | .name k => decide (k.length ≤ 65535) && (match s.var x with | .obj _ => true | _ => false)
  | .index i =>
    match s.var x with
    | .arr a =>
      match s.cells.at a with
      | some ⟨_, .elems es⟩ => decide (i.toNat ≤ es.length) && decide (es.length < maxElems)
      | _ => false
    | _ => false

/-- `insert` and `set`: `copy_on_write()`, conversion of key and value, insertion; include/dart/heap/api.tcc 118-154,
170-202. `set` allocates nothing after the conversions. -/
def putF (k : Share.Kind) (s : State) (x : Nat) (f : Fault) (grows : State → Bool) (plain : Out) : FOut :=
  orUbF s <| (cowFail k s x 1 f).map fun r =>
    if r.2 then (r.1, .badAlloc)
    else if f = .convert then (r.1, .badAlloc)
    else if f = .grow ∧ grows r.1 = true then (r.1, .badAlloc)
    else (plain.1, .done plain.2)

/-- `erase(key)`, include/dart/heap/object.tcc 98-101, 303-321 and include/dart/heap/array.tcc 110-121: only
`copy_on_write()` allocates. -/
def eraseF (k : Share.Kind) (s : State) (x : Nat) (f : Fault) (plain : Out) : FOut :=
  orUbF s <| (cowFail k s x 1 f).map fun r => if r.2 then (r.1, .badAlloc) else (plain.1, .done plain.2)

/-- `resize`, include/dart/heap/array.tcc 129-133: the value is converted, then the vector grows if it has to. -/
def resizeF (s : State) (x n : Nat) (f : Fault) (plain : Out) : FOut :=
  match f with
  | .convert => (s, .badAlloc)
  | .grow =>
    match s.var x with
    | .arr a =>
      match s.cells.at a with
      | some ⟨_, .elems es⟩ => if es.length < n ∧ n ≤ maxElems then (s, .badAlloc) else (plain.1, .done plain.2)
      | _ => (plain.1, .done plain.2)
    | _ => (plain.1, .done plain.2)
  | _ => (plain.1, .done plain.2)

/-- `x = make_object()` and so on. For objects and arrays `make_shareable` (include/dart.h 7730-7735,
include/dart/support/ptrs.tcc 435-440) destroys a pointer that was never constructed. Long strings are allocated before anything
changes, include/dart/heap/string.tcc 45-66. -/
def freshF (s : State) (v : Fresh) (f : Fault) (plain : Out) : FOut :=
  match f, v with
  | .grow, .obj => (s, .done .ub)
  | .grow, .arr => (s, .done .ub)
  | .grow, .str t => if t.length > ssoBytes then (s, .badAlloc) else (plain.1, .done plain.2)
  | _, _ => (plain.1, .done plain.2)

/-- One statement, in which an allocation may fail. Copying, moving, reading and clearing allocate nothing. -/
def stepF (k : Share.Kind) (s : State) (f : Fault) (op : Op) : FOut :=
  match op with
  | .fresh _ v => freshF s v f (step s op)
  | .insert x key _ _ => putF k s x f (fun s => reachesGrow s x key) (step s op)
  | .set x _ _ _ => putF k s x f (fun _ => false) (step s op)
  | .erase x _ => eraseF k s x f (step s op)
  | .resize x n _ => resizeF s x n f (step s op)
  | _ => ((step s op).1, .done (step s op).2)

/-- A program: each statement with the allocation that fails in it. Final state, and how each statement ended. -/
def runF (k : Share.Kind) (s : State) : List (Op × Fault) → State × List End
  | [] => (s, [])
  | (op, f) :: ops => let o := stepF k s f op; let r := runF k o.1 ops; (r.1, o.2 :: r.2)

/-- `x.erase(x.find(key))`, include/dart/heap/api.tcc 230-253: whatever is thrown by `erase_key_impl` (which holds a second
owner of the storage) is caught, and `type_error` is thrown instead. -/
def eraseFoundF (k : Share.Kind) (s : State) (x : Nat) (key : Bytes) (f : Fault) : FOut :=
  match search s x key false with
  | .ok it =>
    match keyOf s x it with
    | .ok (.name n) =>
      orUbF s <| (incr s.cells (s.var x)).bind fun c =>
        (cowFail k ⟨c, s.vars⟩ x 2 f).bind fun r =>
          if r.2 then (drop r.1.cells (s.var x)).map fun c => (⟨c, r.1.vars⟩, .done (.throw .typeError))
          else some ((eraseGuarded s x it n).1, .done (eraseGuarded s x it n).2)
    | .throw e => (s, .done (.throw e))
    | _ => (s, .done .ub)
  | .throw e => (s, .done (.throw e))
  | .ub => (s, .done .ub)

end Dart.Cow
