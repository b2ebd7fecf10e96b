import Verif.Model.Variant

/-
What the standard says of `std::variant`: a variable contains an object of one of the alternatives, or, after some
exception, nothing. This is independent of how the containing is done.
-/
namespace Dart.Spec.Vrt
open Dart.Opt (Obj Fate)
open Dart.Vrt

variable {α : Type}

/-- What a variant contains: the number of an alternative and an object, or nothing. -/
abbrev Content (α : Type) := Option (Nat × Obj α)

/-- The variables, by number: not alive, or containing something. -/
abbrev Vars (α : Type) := List (Option (Content α))

/-- What remains of the object that was given to something that ended like this. -/
def remains (m : Mode) (c : Content α) (f : Fate) : Content α :=
  match m with
  | .copy => c
  | .move => c.map fun p => (p.1, .left (match f with | .returns => 0 | .throws _ s => s))

/-- A construction of alternative `k` from another object of that alternative that cannot throw does not. -/
def ends (t : Traits) (m : Mode) (k : Nat) (f : Fate) : Fate :=
  match m with
  | .copy => if t.copySafe k then .returns else f
  | .move => if t.moveSafe k then .returns else f

/-- A variable is to contain an object of alternative `k`. If it does already, that object is assigned to. Otherwise the new
object is created in the place of the old one if that cannot fail, or if there is no better way: then failing leaves
nothing. The better way, if moving an object of alternative `k` cannot fail, is to create the new object elsewhere and to
move it: then failing changes nothing. -/
def give (t : Traits) (c : Content α) (k : Nat) (x : Obj α) (safe : Bool) (f : Fate) : Content α × Bool :=
  if c.map (·.1) = some k then
    match f with
    | .returns => (some (k, x), true)
    | .throws s _ => (some (k, .left s), false)
  else if safe then (some (k, x), true)
  else match f with
    | .returns => (some (k, x), true)
    | .throws _ _ => (if t.moveSafe k then c else none, false)

/-- Moving what a variant contains cannot fail. -/
def movable (t : Traits) (c : Content α) : Bool := c.all fun p => t.moveSafe p.1

/-- How moving what a variant contains ends. -/
def moving (t : Traits) (c : Content α) (f : Fate) : Fate := if movable t c then .returns else f

/-- Exchange `a` and `b`: `b` is moved out, `a` is moved to the place of `b`, and what was moved out to the place of `a`. If
the first step fails, only `b` has suffered. If the second fails, `a` has suffered, and `b` is put back if that cannot fail;
otherwise there is nothing in its place. If the third fails, there is nothing in the place of `a`. -/
def exchanged (t : Traits) (a b : Content α) (f g h : Fate) : (Content α × Content α) × Bool :=
  match moving t b f, moving t a g, moving t b h with
  | .throws p q, _, _ => ((a, remains .move b (.throws p q)), false)
  | .returns, .throws p q, _ => ((remains .move a (.throws p q), if movable t b then b else none), false)
  | .returns, .returns, .throws _ _ => ((none, a), false)
  | .returns, .returns, .returns => ((b, a), true)

/-- `swap`: objects of the same alternative are swapped; otherwise the contents are exchanged, beginning with the one whose
move can fail if there is only one. -/
def swapped (t : Traits) (a b : Content α) (f g h : Fate) : (Content α × Content α) × Bool :=
  match a, b with
  | none, none => ((none, none), true)
  | some (k, x), some (l, y) =>
    if k = l then
      match f with
      | .returns => ((some (k, y), some (k, x)), true)
      | .throws s s' => ((some (k, .left s), some (k, .left s')), false)
    else flip
  | _, _ => flip
where
  flip := if movable t a && !movable t b then
      (((exchanged t b a f g h).1.2, (exchanged t b a f g h).1.1), (exchanged t b a f g h).2)
    else exchanged t a b f g h

/-- The index that is told: the number of the alternative, or `variant_npos`. -/
def told (c : Content α) : Nat := match c with | some (k, _) => k | none => npos64

/-- One call; `none` if the standard does not define it: a variable that is not alive is used, or a reference to the object
in a variant is used after that object was destroyed. -/
def Vars.next (t : Traits) (s : Vars α) : Op α → Option (Vars α × Answer α)
  | .makeFrom k a f => match f with
      | .returns => some (s ++ [some (some (k, .val a))], .done)
      | .throws _ _ => some (s ++ [none], .failed)
  | .make m j f => (s[j]?).join.map fun
      | none => (s ++ [some none], .done)
      | some (k, x) => match ends t m k f with
        | .returns => (s.set j (some (remains m (some (k, x)) .returns)) ++ [some (some (k, x))], .done)
        | .throws p q => (s.set j (some (remains m (some (k, x)) (.throws p q))) ++ [none], .failed)
  | .drop i => (s[i]?).join.map fun _ => (s.set i none, .done)
  | .assign m i j f _ => (s[i]?).join.bind fun c => (s[j]?).join.map fun
      | none => (s.set i (some none), .done)
      | some (k, x) =>
        let f' := if c.map (·.1) = some k then f else ends t m k f
        let r := give t c k x (match m with | .copy => t.copySafe k | .move => t.moveSafe k) f
        let s' := s.set j (some (remains m (some (k, x)) f'))
        (if i = j ∧ m = .move then s' else s'.set i (some r.1), if r.2 then .done else .failed)
  | .assignFrom i k a safe f _ => (s[i]?).join.map fun c =>
      let r := give t c k (.val a) safe f
      (s.set i (some r.1), if r.2 then .done else .failed)
  | .assignOwn i k safe f _ => (s[i]?).join.bind fun
      | none => none
      | some (l, x) =>
        if l ≠ k ∧ (safe = true ∨ t.moveSafe k = false) then none
        else
          let r := give t (some (l, x)) k x safe f
          some (s.set i (some r.1), if r.2 then .done else .failed)
  | .emplace i k a f => (s[i]?).join.map fun _ =>
      match f with
      | .returns => (s.set i (some (some (k, .val a))), .done)
      | .throws _ _ => (s.set i (some none), .failed)
  | .swap i j f g h => (s[i]?).join.bind fun a => (s[j]?).join.map fun b =>
      let r := swapped t a b f g h
      ((s.set j (some r.1.2)).set i (some r.1.1), if r.2 then .done else .failed)
  | .index i => (s[i]?).join.map fun c => (s, .number (told c))
  | .valueless i => (s[i]?).join.map fun c => (s, .flag c.isNone)
  | .holds i k => (s[i]?).join.map fun c => (s, .flag (c.map (·.1) == some k))
  | .get i k => (s[i]?).join.map fun
      | some (l, x) => (s, if l = k then .obj x else .badAccess)
      | none => (s, .badAccess)
  | .getIf i k => (s[i]?).join.map fun
      | some (l, x) => (s, .ptr (if l = k then some x else none))
      | none => (s, .ptr none)
  | .visit is => (is.mapM fun i => (s[i]?).join).map fun cs =>
      (s, match cs.mapM (m := Option) (fun (c : Option (Nat × Obj α)) => c) with | some xs => .called xs | none => .badAccess)

/-- A program. -/
def Vars.exec (t : Traits) (s : Vars α) : List (Op α) → Option (Vars α × List (Answer α))
  | [] => some (s, [])
  | op :: ops => (Vars.next t s op).bind fun r => (Vars.exec t r.1 ops).map fun q => (q.1, r.2 :: q.2)

/-- The memory of a variant that contains this. -/
def holds (c : Cell α) : Content α → Prop
  | none => c.index = npos32 ∧ c.store = none
  | some (k, x) => c.index = k ∧ c.store = some (k, x)

/-- The alternatives that calls mention exist. -/
def alternative : Op α → Option Nat
  | .makeFrom k _ _ | .assignFrom _ k _ _ _ _ | .assignOwn _ k _ _ _ | .emplace _ k _ _ | .holds _ k | .get _ k
  | .getIf _ k => some k
  | _ => none

/-- A relation on contents: nothing is below everything, a lower alternative below a higher one, and objects of the same
alternative as they say. `e` is what it says of two that contain nothing. -/
def Lifted (r : Nat → Obj α → Obj α → Bool) (below above e : Bool) : Content α → Content α → Bool
  | none, none => e
  | none, some _ => below
  | some _, none => above
  | some (k, x), some (l, y) => if k < l then below else if l < k then above else r k x y

end Dart.Spec.Vrt
