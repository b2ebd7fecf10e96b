import Verif.Model.Own

/-
Views of finalized buffers (`basic_buffer::view`, include/dart.h 7953-7956) in programs with any number of buffer
variables and of view variables. A view is a `basic_buffer` whose `buffer_ref` is a `view_ptr`
(include/dart/support/ptrs.h): the address of the smart pointer inside the owning variable. Its `raw` is copied.
-/
namespace Dart.Own

/-- The `view_ptr` of a view: null; the address of the `buffer_ref` of variable `v`; or the address of the
`buffer_ref` of a variable whose life has ended. -/
inductive Src
  | null
  | var (v : Nat)
  | gone
  deriving DecidableEq, Repr

/-- A `basic_buffer::view`: `raw` (type, block and offset) and `buffer_ref`, include/dart.h 10241-10242. -/
structure View where
  type : RawType
  pos : Option (Nat × Nat)
  src : Src
  deriving DecidableEq, Repr

/-- A default constructed view, include/dart.h 7968-7970. -/
def View.null : View := ⟨.null, none, .null⟩

/-- The owners, and the view variables. -/
structure VState where
  own : State
  views : List View
  deriving DecidableEq, Repr

/-- A view variable. -/
def VState.view (s : VState) (x : Nat) : View := (s.views[x]?).getD .null

/-- What the reading functions see through a view: they use `raw` alone. -/
def VState.seen (s : VState) (w : View) : Buf := s.own.buf ⟨w.type, w.pos, none⟩

/-- Assigning a view variable. -/
def VState.point (s : VState) (x : Nat) (w : View) : VState := { s with views := s.views.set x w }

/-- The life of variable `v` ends; views made from it hold its address still. -/
def View.lose (v : Nat) (w : View) : View := if w.src = .var v then { w with src := .gone } else w

/-- The steps of a program. -/
inductive VOp
  /-- A step without views. -/
  | plain (op : Op)
  /-- `x = v;` -/
  | look (x v : Nat)
  /-- `x = y.get(key);` -/
  | get (x y : Nat) (key : Bytes)
  /-- `x = y.get(i);` -/
  | getIdx (x y i : Nat)
  /-- `x = y;` -/
  | dup (x y : Nat)
  /-- `x = std::move(y);` -/
  | take (x y : Nat)
  /-- `v = x.as_owner();` -/
  | own (v x : Nat)

/-- `basic_buffer(raw_element, buffer_ref)`, include/dart/buffer/detail.tcc 12-18, of a view: the `view_ptr` is
copied; null resets it. -/
def View.sub (w : View) (e : Buf) : View :=
  if e.type = .null then .null else ⟨e.type, e.addr.bind fun p => w.pos.map fun q => (q.1, p), w.src⟩

/-- `operator view`, include/dart/buffer/api.tcc 53-59. -/
def Handle.look (h : Handle) (v : Nat) : View := ⟨h.type, h.pos, .var v⟩

/-- `as_owner`, include/dart/buffer/api.tcc 447-453: `raw` is the view's own; the ownership is what the variable
has at the time of the call (`if (buffer_ref)`, include/dart/support/ptrs.tcc 549-571, is false for a null `view_ptr`
and for one of a variable owning nothing). Dereferences the variable. -/
def VState.owner (s : VState) (w : View) : Res Handle :=
  match w.src with
  | .null => .ok ⟨w.type, w.pos, none⟩
  | .var v => .ok ⟨w.type, w.pos, (s.own.var v).ref⟩
  | .gone => .ub

/-- One step. A variable whose life ends takes its address with it (`Op.drop`); otherwise variables stay where they
are: assignments destroy and construct in place, include/dart/buffer/api.tcc 21-30. -/
def VState.step (signed : Bool) (s : VState) : VOp → Res VState
  | .plain op =>
    (s.own.step signed op).bind fun t =>
      .ok ⟨t, match op with
        | .drop v => s.views.map (View.lose v)
        | _ => s.views⟩
  | .look x v => .ok (s.point x ((s.own.var v).look v))
  | .get x y key =>
    if (s.view y).pos.all (s.own.alive ·.1) then
      ((s.seen (s.view y)).get signed key).bind fun e => .ok (s.point x ((s.view y).sub e))
    else .ub
  | .getIdx x y i =>
    if (s.view y).pos.all (s.own.alive ·.1) then
      ((s.seen (s.view y)).getIdx i).bind fun e => .ok (s.point x ((s.view y).sub e))
    else .ub
  | .dup x y => .ok (s.point x (s.view y))
  | .take x y =>
    -- include/dart/buffer/api.tcc 12-30.
    if x = y then .ok s else .ok ((s.point x (s.view y)).point y .null)
  | .own v x => (s.owner (s.view x)).bind fun h => .ok { s with own := s.own.set v h }

/-- A program starting in `s`: exceptions are caught and the program goes on; `ub` ends everything. -/
def VState.run (signed : Bool) (s : VState) : List VOp → Res VState
  | [] => .ok s
  | op :: ops =>
    match s.step signed op with
    | .ok t => t.run signed ops
    | .throw _ => s.run signed ops
    | .ub => .ub

/-- The start of a program with `n` buffer variables and `m` views. -/
def VState.start (n m : Nat) : VState := ⟨.start n, List.replicate m .null⟩

end Dart.Own
