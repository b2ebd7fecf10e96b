import Verif.Model.Conc

/-
What threads sharing packets should do: every packet is a value of its own, every statement happens at once.
-/
namespace Dart.Conc

/-- The value of a packet. -/
inductive PV
  | leaf (n : Option Int)
  | node (es : List PV)

/-- A thread with values in its variables. -/
structure STh where
  vars : List PV
  prog : List Op

/-- Channels and threads; no memory. -/
structure S where
  chans : List (List PV)
  threads : List STh

def STh.var (th : STh) (x : Nat) : PV := th.vars[x]?.getD (.leaf none)

/-- The values that are assigned by the first statements. -/
def Op.result (th : STh) : Op → Option PV
  | .leaf _ n => some (.leaf n)
  | .make _ => some (.node [])
  | .copy _ y => some (th.var y)
  | .get _ y i => match th.var y with | .node es => some (es[i]?.getD (.leaf none)) | .leaf _ => none
  | .push x y => match th.var x with | .node es => some (.node (es ++ [th.var y])) | .leaf _ => none
  | .pop x => match th.var x with | .node es => some (.node es.dropLast) | .leaf _ => none
  | .clear x => match th.var x with | .node _ => some (.node []) | .leaf _ => none
  | .send _ _ | .recv _ _ => none

/-- A statement on the thread's own variables: the variable gets the value, no other changes. -/
def STh.exec (th : STh) (op : Op) (rest : List Op) : STh :=
  ⟨match op.result th with | some v => th.vars.set op.target v | none => th.vars, rest⟩

/-- Thread `t` executes its next statement. Receiving from an empty channel has to wait. -/
def S.step (s : S) (t : Nat) : S :=
  match s.threads[t]? with
  | none => s
  | some th =>
    match th.prog with
    | [] => s
    | .send c x :: rest =>
      match s.chans[c]? with
      | none => { s with threads := s.threads.set t ⟨th.vars, rest⟩ }
      | some q => ⟨s.chans.set c (q ++ [th.var x]), s.threads.set t ⟨th.vars.set x (.leaf none), rest⟩⟩
    | .recv c x :: rest =>
      match s.chans[c]? with
      | some (v :: q) => ⟨s.chans.set c q, s.threads.set t ⟨th.vars.set x v, rest⟩⟩
      | _ => s
    | op :: rest => { s with threads := s.threads.set t (th.exec op rest) }

def S.run (s : S) : List Nat → S
  | [] => s
  | t :: ts => (s.step t).run ts

/-- All variables null, all channels empty. -/
def sinit (n k : Nat) (progs : List (List Op)) : S :=
  ⟨List.replicate k [], progs.map fun p => ⟨List.replicate n (.leaf none), p⟩⟩

mutual
/-- The packet `h` has the value `v` in memory. -/
inductive Holds (bs : List (Option Blk)) : Hd → PV → Prop
  | leaf (n : Option Int) : Holds bs (.leaf n) (.leaf n)
  | ref {a : Nat} {b : Blk} {vs : List PV} : bs[a]? = some (some b) → HoldsAll bs b.kids vs → Holds bs (.ref a) (.node vs)
/-- All of them. -/
inductive HoldsAll (bs : List (Option Blk)) : List Hd → List PV → Prop
  | nil : HoldsAll bs [] []
  | cons {h : Hd} {v : PV} {hs : List Hd} {vs : List PV} : Holds bs h v → HoldsAll bs hs vs → HoldsAll bs (h :: hs) (v :: vs)
end

/-- The threads have these statements left and these values in their variables. -/
structure Agrees (m : M) (s : S) : Prop where
  count : m.threads.length = s.threads.length
  threads : ∀ (t : Nat) (th : Th) (sth : STh), m.threads[t]? = some th → s.threads[t]? = some sth →
    th.prog = sth.prog ∧ HoldsAll m.blocks th.vars sth.vars
  chans : m.chans.length = s.chans.length ∧ ∀ (c : Nat) (q : List Hd) (p : List PV), m.chans[c]? = some q → s.chans[c]? = some p →
    HoldsAll m.blocks q p

/-- Two threads are about to access the same elements, one of them writing. -/
def Race (m : M) : Prop := ∃ t u a w w', t ≠ u ∧ access m t = some (a, w) ∧ access m u = some (a, w') ∧ (w = true ∨ w' = true)

/-- Statements the library executes as it should: not `clear` (see C16), and no packet is pushed into itself (see C32). -/
def Op.Fine : Op → Prop
  | .clear _ => False
  | .push x y => x ≠ y
  | _ => True

/-- All threads have finished, and have destroyed their temporaries. -/
def Finished (m : M) : Prop := ∀ (t : Nat) (th : Th), m.threads[t]? = some th → th.prog = [] ∧ th.junk = [] ∧ th.dying = none

/-- The elements at an address. -/
def kidsOf : Option Blk → List Hd
  | some b => b.kids
  | none => []

/-- Packets a statement keeps for itself. -/
def Stage.handles : Stage → List Hd
  | .store h => [h]
  | .copying d => d
  | .copyInc d _ => d
  | .mutate h => [h]
  | _ => []

/-- All packets of a thread. -/
def Th.handles (th : Th) : List Hd := th.vars ++ (th.stage.handles ++ th.junk)

/-- All packets there are: of threads, in channels, elements of arrays. -/
def M.packets (m : M) : List Hd := m.threads.flatMap Th.handles ++ m.chans.flatten ++ m.blocks.flatMap kidsOf

/-- The elements at `a` can be reached from a variable or a channel. -/
inductive Reaches (m : M) : Nat → Prop
  | var {t : Nat} {th : Th} {a : Nat} : m.threads[t]? = some th → .ref a ∈ th.vars → Reaches m a
  | chan {q : List Hd} {a : Nat} : q ∈ m.chans → .ref a ∈ q → Reaches m a
  | elem {p a : Nat} {b : Blk} : Reaches m p → m.blocks[p]? = some (some b) → .ref a ∈ b.kids → Reaches m a

/-- A thread that does not receive, executed alone: what a statement does to the values in its variables, if there are
`k` channels. -/
def alone (k : Nat) (vars : List PV) : Op → List PV
  | .send c x => if c < k then vars.set x (.leaf none) else vars
  | .recv _ _ => vars
  | op => match op.result ⟨vars, []⟩ with | some v => vars.set op.target v | none => vars

end Dart.Conc
