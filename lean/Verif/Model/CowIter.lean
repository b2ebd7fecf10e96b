import Verif.Model.Cow

/-
Iterators into dynamic values, together with the shared storage of `Verif.Model.Cow`:
`basic_heap::iterator` (include/dart.h 5115-5171, include/dart/heap/iterator.tcc), which wraps a
`dn_iterator` (include/dart/common.h 542-606, include/dart/iterator.tcc), which wraps an iterator of a
`std::map` or of a `std::vector`. An iterator owns nothing: the storage may go away below it.
-/
namespace Dart.Cow

/-- Where a standard iterator is: at a node of a map (known by its key), at the end of a map, or at an
index of a vector (the size for the end). -/
inductive Place
  | node (k : Bytes)
  | last
  | index (i : Nat)
  deriving DecidableEq

/-- `dn_iterator`: the map or vector it points into, where, and whether it shows keys
(`fields_layout::deref`). -/
structure It where
  addr : Nat
  place : Place
  keys : Bool
  deriving DecidableEq

/-- A variable of type `basic_heap::iterator`: default constructed or moved from, invalidated, or at a
place. -/
inductive ItVar
  | empty
  | stale
  | at (it : It)
  deriving DecidableEq

/-- The program state: heap, variables and iterator variables. -/
structure IState where
  st : State
  its : List ItVar
  deriving DecidableEq

/-- An iterator variable. -/
def IState.it (s : IState) (i : Nat) : ItVar := s.its[i]?.getD .empty

/-- The first place of a map. -/
def firstNode {α : Type} : List (Bytes × α) → Place
  | [] => .last
  | (k, _) :: _ => .node k

/-- `++` of a map iterator at key `k`; `none` if there is no such node. -/
def nextNode {α : Type} (k : Bytes) : List (Bytes × α) → Option Place
  | [] => none
  | (k', _) :: r => if k' = k then some (firstNode r) else nextNode k r

/-- `--` of a map iterator at a node; `none` at the first one and if there is no such node. -/
def prevNode {α : Type} (k : Bytes) : List (Bytes × α) → Option Place
  | (k₁, _) :: (k₂, v₂) :: r => if k₂ = k then some (.node k₁) else prevNode k ((k₂, v₂) :: r)
  | _ => none

/-- The contents of the storage an iterator points into. -/
def It.body (c : Cells) (it : It) : Option Body := (c.at it.addr).map (·.body)

/-- `dn_iterator::operator ++`, include/dart/iterator.tcc 75-79; undefined at the end. -/
def It.next (c : Cells) (it : It) : Option It :=
  match it.body c, it.place with
  | some (.fields fs), .node k => (nextNode k fs).map fun p => { it with place := p }
  | some (.elems es), .index i => if i < es.length then some { it with place := .index (i + 1) } else none
  | _, _ => none

/-- `dn_iterator::operator --`, include/dart/iterator.tcc 81-85; undefined at the beginning. -/
def It.prev (c : Cells) (it : It) : Option It :=
  match it.body c, it.place with
  | some (.fields fs), .node k => (prevNode k fs).map fun p => { it with place := p }
  | some (.fields fs), .last => fs.getLast?.map fun f => { it with place := .node f.1 }
  | some (.elems es), .index i => if 0 < i ∧ i ≤ es.length then some { it with place := .index (i - 1) } else none
  | _, _ => none

/-- `dn_iterator::operator *`, include/dart/iterator.tcc 100-103, with the functions given by `begin`,
`key_begin`, …; undefined at the end. -/
def It.deref (c : Cells) (it : It) : Option Ref :=
  match it.body c, it.place with
  | some (.fields fs), .node k => (mapFind k fs).map fun r => if it.keys then .str k else r
  | some (.elems es), .index i => es[i]?
  | _, _ => none

/-- Does the iterator survive the change of the storage from `c` to `c'`? A map iterator survives if its
node is still there, the end of a map as long as the map is. Vector iterators survive if the size did
not change. (Erasing from a vector keeps the iterators before the erased element; here they are lost.
Addresses are not used again, and no statement erases a node and inserts another with the same key.) -/
def It.survives (c c' : Cells) (it : It) : Bool :=
  match it.body c, it.body c', it.place with
  | some (.fields _), some (.fields fs), .node k => (mapFind k fs).isSome
  | some (.fields _), some (.fields _), .last => true
  | some (.elems es), some (.elems es'), .index _ => es.length == es'.length
  | _, _, _ => false

/-- The iterator variables after such a change. -/
def age (c c' : Cells) : ItVar → ItVar
  | .at it => if it.survives c c' then .at it else .stale
  | v => v

/-- `begin` and `key_begin`, include/dart/heap/api.tcc 514-525, 557-565. -/
def first (s : State) (x : Nat) (keys : Bool) : Res It :=
  match s.var x with
  | .obj a =>
    match s.cells.at a with
    | some ⟨_, .fields fs⟩ => .ok ⟨a, firstNode fs, keys⟩
    | _ => .ub
  | .arr a => if keys then .throw .typeError else .ok ⟨a, .index 0, false⟩
  | _ => .throw .typeError

/-- `end` and `key_end`, include/dart/heap/api.tcc 532-543, 572-580. -/
def past (s : State) (x : Nat) (keys : Bool) : Res It :=
  match s.var x with
  | .obj a => .ok ⟨a, .last, keys⟩
  | .arr a =>
    if keys then .throw .typeError
    else match s.cells.at a with
      | some ⟨_, .elems es⟩ => .ok ⟨a, .index es.length, false⟩
      | _ => .ub
  | _ => .throw .typeError

/-- `find` and `find_key`, include/dart/heap/object.tcc 224-249. -/
def search (s : State) (x : Nat) (k : Bytes) (keys : Bool) : Res It :=
  match s.var x with
  | .obj a =>
    match s.cells.at a with
    | some ⟨_, .fields fs⟩ => .ok ⟨a, if (mapFind k fs).isSome then .node k else .last, keys⟩
    | _ => .ub
  | _ => .throw .typeError

/-- `iterator_key`, include/dart/heap/object.tcc 323-343, and `iterator_index`,
include/dart/heap/array.tcc 242-264: the key or the index an iterator stands for. The difference of
iterators into different vectors is undefined, and so is the key at the end. -/
def keyOf (s : State) (x : Nat) (it : It) : Res Key :=
  match s.var x, it.place with
  | .obj _, .node k =>
    match it.body s.cells with
    | some (.fields fs) => if (mapFind k fs).isSome then .ok (.name k) else .ub
    | _ => .ub
  | .obj _, .last => .ub
  | .obj _, .index _ => .throw .typeError
  | .arr a, .index i => if a = it.addr then .ok (.index (BitVec.ofNat 64 i)) else .ub
  | _, _ => .throw .typeError

/-- The key is a `string_view` of the string in the node: is it still there? -/
def It.readable (c : Cells) (it : It) : Bool :=
  match it.body c, it.place with
  | some (.fields fs), .node k => (mapFind k fs).isSome
  | some (.elems _), .index _ => true
  | _, _ => false

/-- `insert(iterator, value)`, include/dart/heap/api.tcc 156-168, and `set(iterator, value)`,
include/dart/heap/api.tcc 204-216: the key is read after `copy_on_write()`, include/dart/heap/api.tcc
122-125, 174-177. -/
def putAt (s : State) (x : Nat) (it : It) (call : Key → Out) : State × Res Key :=
  match keyOf s x it with
  | .ok k =>
    match cow s x with
    | some s' => if it.readable s'.cells then let o := call k; (o.1, o.2.bind fun _ => .ok k) else (s, .ub)
    | none => (s, .ub)
  | .throw e => (s, .throw e)
  | .ub => (s, .ub)

/-- `copy_on_write(overcount)`, include/dart/heap/detail.tcc 55-61 (`cow` is this with an overcount of
one). -/
def cowOver (s : State) (x over : Nat) : Option State :=
  match (s.var x).addr with
  | none => some s
  | some a =>
    match s.cells.at a with
    | none => none
    | some cell =>
      if cell.count > over then
        (incrAll s.cells cell.body.refs).bind fun c =>
          assign ⟨c ++ [some ⟨1, cell.body⟩], s.vars⟩ x
            (match cell.body with | .fields _ => .obj c.length | .elems _ => .arr c.length)
      else some s

/-- The end of `erase_key_impl`, include/dart/heap/object.tcc 311-320. -/
def eraseNode (s : State) (x : Nat) (k : Bytes) : Option Out :=
  match s.var x with
  | .obj a => (s.cells.at a).bind fun cell =>
    match cell.body with
    | .fields fs => (store s a cell (.fields (mapErase k fs)) [] (mapFind k fs).toList).map fun s' => (s', .ok ())
    | _ => none
  | _ => some (s, .throw .typeError)

/-- `erase_key_impl` with a safeguard, include/dart/heap/object.tcc 303-321, called by
`erase(iterator)`, include/dart/heap/api.tcc 241-246: a second owner of the storage of `x` exists until
the key has been found. -/
def eraseGuarded (s : State) (x : Nat) (it : It) (k : Bytes) : Out :=
  orUb s <| (incr s.cells (s.var x)).bind fun c =>
    (cowOver ⟨c, s.vars⟩ x 2).bind fun s' =>
    if it.readable s'.cells then (drop s'.cells (s.var x)).bind fun c' => eraseNode ⟨c', s'.vars⟩ x k else none

/-- `erase(iterator)`, include/dart/heap/api.tcc 230-253. -/
def eraseAt (s : State) (x : Nat) (it : It) : State × Res Key :=
  match keyOf s x it with
  | .ok (.name k) => let o := eraseGuarded s x it k; (o.1, o.2.bind fun _ => .ok (.name k))
  | .ok (.index i) => let o := Cow.erase s x (.index i); (o.1, o.2.bind fun _ => .ok (.index i))
  | .throw e => (s, .throw e)
  | .ub => (s, .ub)

/-- The iterator that `insert` and `set` return: to the new or changed element. -/
def placeOf : Key → Place
  | .name k => .node k
  | .index i => .index i.toNat

/-- The iterator that `erase` returns: to the element after the erased one, the end if there was none. It
is found in the storage before the call. -/
def placeAfter (s : State) (x : Nat) : Key → Place
  | .name k =>
    match (s.var x).addr.bind s.cells.at with
    | some ⟨_, .fields fs⟩ => (nextNode k fs).getD .last
    | _ => .last
  | .index i =>
    match (s.var x).addr.bind s.cells.at with
    | some ⟨_, .elems es⟩ => .index (min i.toNat es.length)
    | _ => .last

/-- A statement of a program with iterator variables `i`, `j`. -/
inductive ItOp
  /-- a statement without iterators -/
  | plain (op : Op)
  /-- `i = x.begin()`, `i = x.key_begin()` -/
  | first (i x : Nat) (keys : Bool)
  /-- `i = x.end()`, `i = x.key_end()` -/
  | past (i x : Nat) (keys : Bool)
  /-- `i = x.find(k)`, `i = x.find_key(k)` -/
  | search (i x : Nat) (k : Bytes) (keys : Bool)
  /-- `++i` -/
  | next (i : Nat)
  /-- `--i` -/
  | prev (i : Nat)
  /-- `i = j` -/
  | dup (i j : Nat)
  /-- `i = std::move(j)` -/
  | take (i j : Nat)
  /-- `i == j` -/
  | same (i j : Nat)
  /-- `static_cast<bool>(i)` -/
  | isSet (i : Nat)
  /-- `z = *i` -/
  | deref (z i : Nat)
  /-- `j = x.insert(k, y)` -/
  | insert (j x : Nat) (k : Key) (y : Nat) (mode : Mode)
  /-- `j = x.set(k, y)` -/
  | set (j x : Nat) (k : Key) (y : Nat) (mode : Mode)
  /-- `j = x.erase(k)` -/
  | erase (j x : Nat) (k : Key)
  /-- `j = x.insert(i, y)` -/
  | insertAt (j x i y : Nat) (mode : Mode)
  /-- `j = x.set(i, y)` -/
  | setAt (j x i y : Nat) (mode : Mode)
  /-- `j = x.erase(i)` -/
  | eraseAt (j x i : Nat)
  /-- `x.reserve(n)` -/
  | reserve (x n : Nat)
  deriving DecidableEq

/-- What a statement lets the program see: nothing, or a truth value. -/
inductive Seen
  | done
  | truth (b : Bool)
  deriving DecidableEq

/-- Result of a statement. -/
abbrev IOut := IState × Res Seen

/-- An iterator variable is assigned. -/
def IState.point (s : IState) (i : Nat) (v : ItVar) : IState := { s with its := s.its.set i v }

/-- A call that returns an iterator. -/
def IState.found (s : IState) (i : Nat) : Res It → IOut
  | .ok it => (s.point i (.at it), .ok .done)
  | .throw e => (s, .throw e)
  | .ub => (s, .ub)

/-- The heap and the variables have changed. -/
def IState.after (s : IState) (st : State) : IState := ⟨st, s.its.map (age s.st.cells st.cells)⟩

/-- A call that changed `x` and returns an iterator into it. -/
def IState.returns (s : IState) (j x : Nat) (o : State × Res Key) (place : Key → Place) (keys : Bool) : IOut :=
  match o.2 with
  | .ok k =>
    match (o.1.var x).addr with
    | some a => ((s.after o.1).point j (.at ⟨a, place k, keys⟩), .ok .done)
    | none => (s.after o.1, .ub)
  | .throw e => (s.after o.1, .throw e)
  | .ub => (s.after o.1, .ub)

/-- Use of an iterator: undefined if it is empty or invalidated. -/
def IState.use (s : IState) (i : Nat) (f : It → IOut) : IOut :=
  match s.it i with
  | .at it => f it
  | _ => (s, .ub)

/-- Calls with an iterator argument check that it has a value, include/dart/heap/api.tcc 163, 211, 237. -/
def IState.arg (s : IState) (i : Nat) (f : It → IOut) : IOut :=
  match s.it i with
  | .at it => f it
  | .empty => (s, .throw .invalidArgument)
  | .stale => (s, .ub)

/-- The result of a call that is known to use this key. -/
def withKey (k : Key) (o : Out) : State × Res Key := (o.1, o.2.bind fun _ => .ok k)

/-- One statement. Comparing iterators (include/dart/heap/iterator.tcc 28-32, include/dart/iterator.tcc
59-68) into different storage is undefined. -/
def istep (s : IState) : ItOp → IOut
  | .plain op => let o := step s.st op; (s.after o.1, o.2.bind fun _ => .ok .done)
  | .first i x keys => s.found i (Cow.first s.st x keys)
  | .past i x keys => s.found i (Cow.past s.st x keys)
  | .search i x k keys => s.found i (Cow.search s.st x k keys)
  | .next i => s.use i fun it => s.found i (Res.ofRead (it.next s.st.cells))
  | .prev i => s.use i fun it => s.found i (Res.ofRead (it.prev s.st.cells))
  | .dup i j => (s.point i (s.it j), .ok .done)
  | .take i j => (if i = j then s else (s.point i (s.it j)).point j .empty, .ok .done)
  | .same i j =>
    if i = j then (s, .ok (.truth true))
    else match s.it i, s.it j with
      | .at a, .at b => if a.addr = b.addr then (s, .ok (.truth (decide (a.place = b.place)))) else (s, .ub)
      | .empty, .empty => (s, .ok (.truth true))
      | .at _, .empty => (s, .ok (.truth false))
      | .empty, .at _ => (s, .ok (.truth false))
      | _, _ => (s, .ub)
  | .isSet i =>
    match s.it i with
    | .empty => (s, .ok (.truth false))
    | _ => (s, .ok (.truth true))
  | .deref z i => s.use i fun it =>
    match it.deref s.st.cells with
    | some r =>
      match (incr s.st.cells r).bind fun c => assign ⟨c, s.st.vars⟩ z r with
      | some st => (s.after st, .ok .done)
      | none => (s, .ub)
    | none => (s, .ub)
  | .insert j x k y m => s.returns j x (withKey k (Cow.insert s.st x k y m)) placeOf false
  | .set j x k y m => s.returns j x (withKey k (Cow.set s.st x k y m)) placeOf false
  | .erase j x k => s.returns j x (withKey k (Cow.erase s.st x k)) (placeAfter s.st x) false
  | .insertAt j x i y m => s.arg i fun it =>
    s.returns j x (putAt s.st x it fun k => Cow.insert s.st x k y m) placeOf false
  | .setAt j x i y m => s.arg i fun it =>
    s.returns j x (putAt s.st x it fun k => Cow.set s.st x k y m) placeOf false
  | .eraseAt j x i => s.arg i fun it =>
    s.returns j x (Cow.eraseAt s.st x it) (placeAfter s.st x) it.keys
  | .reserve x n =>
    match s.st.var x with
    | .arr a =>
      -- `std::vector::reserve`, include/dart/heap/array.tcc 123-127: no `copy_on_write`, and the elements may move
      if n > maxElems then (s, .throw .lengthError)
      else ({ s with its := s.its.map fun v => match v with
        | .at it => if it.addr = a then .stale else .at it
        | v => v }, .ok .done)
    | _ => (s, .throw .typeError)

/-- A program: final state and what each statement showed. -/
def irun (s : IState) : List ItOp → IState × List (Res Seen)
  | [] => (s, [])
  | op :: ops => let o := istep s op; let r := irun o.1 ops; (r.1, o.2 :: r.2)

/-- All variables null, all iterators default constructed. -/
def iinit (n m : Nat) : IState := ⟨Cow.init n, List.replicate m .empty⟩

end Dart.Cow
