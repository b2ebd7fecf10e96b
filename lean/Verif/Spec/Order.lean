import Verif.Model.Order
import Verif.Spec.Conc

/-
The memory model of C++, as far as it is needed: which steps of an execution happen before which others, and what a data
race is.
-/
namespace Dart.Conc

/-- The memory order of an operation on a counter. -/
structure MemOrder where
  acquire : Bool
  release : Bool

/-- The orders in which a reference count is incremented, decremented and read. -/
structure Orders where
  inc : MemOrder
  dec : MemOrder
  load : MemOrder

/-- `std::atomic<int64_t>` with its default order: `skinny_ptr`, include/dart/support/ptrs.h 33-40. -/
def atomicOrders : Orders := ⟨⟨true, true⟩, ⟨true, true⟩, ⟨true, false⟩⟩

/-- `std::shared_ptr`: increments are relaxed, decrements acquire and release, `use_count()` is relaxed. -/
def sharedPtrOrders : Orders := ⟨⟨false, false⟩, ⟨true, true⟩, ⟨false, false⟩⟩

/-- The step acquires what was released to counter `a`. -/
def Orders.acquires (o : Orders) (a : Nat) : Sync → Bool
  | .inc b => o.inc.acquire && b == a
  | .dec b => o.dec.acquire && b == a
  | .load b => o.load.acquire && b == a
  | _ => false

/-- The step releases to counter `a`. Only writes can release. -/
def Orders.releases (o : Orders) (a : Nat) : Sync → Bool
  | .inc b => o.inc.release && b == a
  | .dec b => o.dec.release && b == a
  | _ => false

/-- So many of the steps before step `i` did this. -/
def earlier (tr : List Ev) (s : Sync) (i : Nat) : Nat := (tr.take i).countP fun x => x.sync == s

/-- Step `i` happens before step `j`: by the order of the statements of a thread; by releasing and acquiring the same counter
(all changes of counters are read-modify-write operations, so that a reader sees all that was released before); by receiving
a message that was sent. -/
inductive Before (o : Orders) (tr : List Ev) : Nat → Nat → Prop
  | order {i j : Nat} {x y : Ev} : i < j → tr[i]? = some x → tr[j]? = some y → x.thread = y.thread → Before o tr i j
  | count {i j a : Nat} {x y : Ev} : i < j → tr[i]? = some x → tr[j]? = some y → o.releases a x.sync = true →
      o.acquires a y.sync = true → Before o tr i j
  | message {i j c : Nat} {x y : Ev} : i < j → tr[i]? = some x → tr[j]? = some y → x.sync = .put c → y.sync = .take c →
      earlier tr (.put c) i = earlier tr (.take c) j → Before o tr i j
  | trans {i j k : Nat} : Before o tr i j → Before o tr j k → Before o tr i k

/-- Two threads access the same elements, one of them writing. -/
def Conflict (tr : List Ev) (i j : Nat) : Prop :=
  ∃ (x y : Ev) (a : Nat) (w w' : Bool), tr[i]? = some x ∧ tr[j]? = some y ∧ x.thread ≠ y.thread ∧ (a, w) ∈ x.accesses ∧
    (a, w') ∈ y.accesses ∧ (w = true ∨ w' = true)

/-- A data race: undefined behaviour in C++. -/
def DataRace (o : Orders) (tr : List Ev) : Prop := ∃ i j, i < j ∧ Conflict tr i j ∧ ¬ Before o tr i j

/-- The same state with other elements at address `a`. -/
def M.withKids (m : M) (a : Nat) (ks : List Hd) : M := { m with blocks := m.blocks.modify a (Option.map fun b => { b with kids := ks }) }

/-- The same state with another counter at address `a`. -/
def M.withCount (m : M) (a n : Nat) : M := { m with blocks := m.blocks.modify a (Option.map fun b => { b with count := n }) }

/-- The statement does not change an array. -/
def Op.reads : Op → Bool
  | .push _ _ | .pop _ | .clear _ => false
  | _ => true

end Dart.Conc
