import Verif.Model.Share

/-
What sharing means: every pointer is null or belongs to a group of owners of one object (or of nothing), and statements
change the membership of the pointers they name.
-/
namespace Dart.Spec.Share
open Dart.Share

/-- A group of owners: its name and the object owned, if any. -/
abbrev Group := Nat × Option Nat

/-- Pointers and views, and how many groups and objects there have been. -/
structure Owners where
  groups : Nat
  objs : Nat
  cells : List (Option Group)
  uniqs : List (Option Nat)
  views : List (Option Nat)

/-- Pointer `d` founds a group that owns `o`. -/
def Owners.found (w : Owners) (d : Nat) (o : Option Nat) : Owners :=
  { w with groups := w.groups + 1, cells := w.cells.set d (some (w.groups, o)) }

/-- Pointer `d` joins the group of `o`. -/
def Owners.join (w : Owners) (d o : Nat) : Owners := { w with cells := w.cells.set d ((w.cells[o]?).getD none) }

/-- Pointer `d` takes the place of `o`, which is null then. -/
def Owners.replace (w : Owners) (d o : Nat) : Owners :=
  if d = o then w else { w with cells := (w.cells.set d ((w.cells[o]?).getD none)).set o none }

/-- What a statement is supposed to do; statements that throw change nothing. -/
def step (w : Owners) : Op → Owners × Bool
  | .uniq u => ({ w with objs := w.objs + 1, uniqs := w.uniqs.set u (some w.objs) }, false)
  | .dropUniq u => ({ w with uniqs := w.uniqs.set u none }, false)
  | .takeUniq d u fail =>
    if fail then (w, true) else ({ w with uniqs := w.uniqs.set u none }.found d ((w.uniqs[u]?).getD none), false)
  | .takeNew d fail =>
    if fail then ({ w with objs := w.objs + 1 }, true) else ({ w with objs := w.objs + 1 }.found d (some w.objs), false)
  | .make d fail => if fail then (w, true) else ({ w with objs := w.objs + 1 }.found d (some w.objs), false)
  | .null d => ({ w with cells := w.cells.set d none }, false)
  | .reset d => ({ w with cells := w.cells.set d none }, false)
  | .copy d o => (w.join d o, false)
  | .move d o => (w.replace d o, false)
  | .copyRaw d o => (w.join d o, false)
  | .moveRaw d o => (w.replace d o, false)
  | .share o p => (w.join p o, false)
  | .transfer o p => (w.replace p o, false)
  | .view v d => ({ w with views := w.views.set v (some d) }, false)
  | .viewCopy v x => ({ w with views := w.views.set v ((w.views[x]?).getD none) }, false)
  | .viewMove v x => (if v = x then w else { w with views := (w.views.set v ((w.views[x]?).getD none)).set x none }, false)
  | .viewReset v => ({ w with views := w.views.set v none }, false)

/-- A program. -/
def run (w : Owners) : List Op → Owners × List Bool
  | [] => (w, [])
  | op :: ops => ((run (step w op).1 ops).1, (step w op).2 :: (run (step w op).1 ops).2)

/-- The variables a statement names exist. -/
def InRange (cells uniqs views : Nat) : Op → Prop
  | .uniq u | .dropUniq u => u < uniqs
  | .takeUniq d u _ => d < cells ∧ u < uniqs
  | .takeNew d _ | .make d _ | .null d | .reset d => d < cells
  | .copy d o | .move d o | .copyRaw d o | .moveRaw d o | .share d o | .transfer d o => d < cells ∧ o < cells
  | .view v d => v < views ∧ d < cells
  | .viewCopy v w | .viewMove v w => v < views ∧ w < views
  | .viewReset v => v < views

/-- What a statement has to avoid: moving a pointer to itself through `raw()`; a `make_shareable` that fails; a failing
hand-over of a `unique_ptr` to `std::shared_ptr`, or of a new object to the pointers of the library. -/
def Avoids (k : Kind) : Op → Prop
  | .moveRaw d o => d ≠ o
  | .transfer o p => o ≠ p
  | .make _ fail => fail = false
  | .takeUniq _ _ fail => fail = true → k = .own
  | .takeNew _ fail => fail = true → k = .std
  | _ => True

/-- The object is owned by somebody. -/
def Owners.owned (w : Owners) (o : Nat) : Prop := some o ∈ w.uniqs ∨ ∃ g, some (g, some o) ∈ w.cells

/-- The number of pointers in a group. -/
def Owners.size (w : Owners) (g : Group) : Nat := w.cells.count (some g)

/-- The number of owners a pointer shares with, itself included; none if it is null. -/
def Owners.number (w : Owners) : Option Group → Nat
  | none => 0
  | some g => w.size g

/-- What a state shows of its pointers: all accessors answer as the groups say. -/
structure Shows (s : State) (w : Owners) : Prop where
  get : ∀ d c, w.cells[d]? = some c → s.get d = some (c.bind (·.2))
  useCount : ∀ d c, w.cells[d]? = some c → s.useCount d = some (w.number c)
  unique : ∀ d c, w.cells[d]? = some c → s.unique d = some (w.number c == 1)
  ask : ∀ d c, w.cells[d]? = some c → s.ask d = some (c.bind (·.2)).isSome
  askOwn : ∀ d c, w.cells[d]? = some c → s.askOwn d = some c.isSome
  eq : ∀ d o c e, w.cells[d]? = some c → w.cells[o]? = some e → s.eq d o = some (c.bind (·.2) == e.bind (·.2))
  viewNull : ∀ v, w.views[v]? = some none → s.viewGet v = some none ∧ s.viewCount v = some 0
  view : ∀ v d c, w.views[v]? = some (some d) → w.cells[d]? = some c →
    s.viewGet v = some (c.bind (·.2)) ∧ s.viewCount v = some (if c.isSome then w.number c else 1)
  uniqs : s.uniqs = w.uniqs

/-- Deleters are called once for every object without an owner, and for no other object. -/
def Deleted (s : State) (w : Owners) : Prop :=
  ∀ o, o < w.objs → (w.owned o → o ∉ s.mem.log) ∧ (¬ w.owned o → s.mem.log.count o = 1)

/-- Null variables. -/
def start (cells uniqs views : Nat) : Owners :=
  ⟨0, 0, List.replicate cells none, List.replicate uniqs none, List.replicate views none⟩

end Dart.Spec.Share
