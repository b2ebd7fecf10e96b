import Verif.Lemmas.AbiLoop

/-
C51: `dart_for_each` runs its body once for every element, in order, and leaves nothing behind.
-/
namespace Dart.Props

open Dart.Spec Dart.Abi

/-- The elements the loop is to go through. -/
def c51Elems (keys : Bool) (o : Obj) : Res (List Pkt) := if keys then o.pkt.keys else o.pkt.values

/-- **The claim fails.** Take any body that does not touch the iterator the macro hides. A loop that is not left early is
undefined for every aggregate: after the last round the loop variable has been destroyed and no new element was put there,
yet `dart_iterator_done_destroy` destroys it again. (For an empty aggregate this needs a loop variable that was not
initialised before, as in the example of the documentation.) -/
theorem C51_undefined {signed keys : Bool} {i x y : Nat} {o : Obj} {ps : List Pkt} {body : Prog} {s : CState} {rounds : Nat}
    (hy : s.objs y = some o) (hxy : y ≠ x) (hps : c51Elems keys o = .ok ps) (hx : ps = [] → s.objs x = none)
    (hbody : ∀ s s' os, body.run signed s = some (s', os) → s'.its i = s.its i) (hr : ps.length < rounds) :
    (forEach keys i x y (some x) body rounds).run signed s = none := by
  simp only [forEach, Prog.run, Call.run, hy]
  simp only [c51Elems] at hps
  rw [hps]
  simp only [Out.err, Prog.run, Call.run, CState.putIt, upd_same, Bool.false_eq_true, if_false]
  cases ps with
  | nil =>
    simp only [CState.spoil, hx rfl]
    have := loop_undefined (signed := signed) (rc := o.rc) hxy hbody [] rounds .runtimeError
      ⟨s.objs, upd s.its i (some ⟨o.rc, y, false, []⟩), s.lost + if (s.its i).isSome = true then 1 else 0⟩ hr (upd_same _ _ _)
      (fun _ => hx rfl) (by simp)
    simp only [this]
  | cons p ps =>
    simp only [CState.make, CState.put, Bool.false_eq_true, if_false]
    have := loop_undefined (signed := signed) (rc := o.rc) hxy hbody (p :: ps) rounds .noError
      ⟨upd s.objs x (some ⟨.packet, o.rc, p⟩), staleOver x (upd s.its i (some ⟨o.rc, y, false, p :: ps⟩)),
        (s.lost + if (s.its i).isSome = true then 1 else 0) + if (s.objs x).isSome = true then 1 else 0⟩ hr
      (staleOver_at (upd_same _ _ _) hxy) (by simp) (fun _ => rfl)
    simp only [this]

/-- For something that is not an aggregate the macro asks an iterator that was never initialised. -/
theorem C51_not_aggregate {signed keys : Bool} {i x y : Nat} {o : Obj} {e : Exc} {body : Prog} {s : CState} {rounds : Nat}
    (hy : s.objs y = some o) (hi : s.its i = none) (he : c51Elems keys o = .throw e) (hr : 0 < rounds) :
    (forEach keys i x y (some x) body rounds).run signed s = none := by
  simp only [forEach, Prog.run, Call.run, hy]
  simp only [c51Elems] at he
  rw [he]
  simp only [CState.spoilIt, hi, Out.err]
  cases rounds with
  | zero => simp at hr
  | succ n => cases e <;> simp [errCode, forEachLoop, Prog.run, Call.run, hi]

/-- What holds: up to the point where it becomes undefined (that is: if it is cut off after at most as many rounds as there
are elements), the body runs once for every element, in order, with the element in the loop variable. The body only reads;
`ans p` is what its calls return when the loop variable holds `p`. -/
theorem C51_order_partial {signed keys : Bool} {i x y : Nat} {o : Obj} {ps : List Pkt} {body : Prog} {ans : Pkt → List Out}
    {s : CState} {n : Nat} (hy : s.objs y = some o) (hx : s.objs x = none) (hi : ∀ j it, s.its j = some it → it.src ≠ x)
    (hps : c51Elems keys o = .ok ps) (hr : OnlyReads body)
    (hans : ∀ p ∈ ps, ∃ s', body.run signed (s.put x ⟨.packet, o.rc, p⟩) = some (s', ans p)) (hn : n ≤ ps.length) :
    ∃ s', (forEach keys i x y (some x) body n).run signed s = some (s', .code .noError :: fetched ps :: firstRounds ans n ps) := by
  have hxy : y ≠ x := by rintro rfl; rw [hx] at hy; cases hy
  have hits : ∀ j it, upd s.its i (some ⟨o.rc, y, false, ps⟩) j = some it → it.src ≠ x := by
    intro j it h
    simp only [upd] at h
    split at h
    · cases h; exact hxy
    · exact hi j it h
  simp only [forEach, Prog.run, Call.run, hy]
  simp only [c51Elems] at hps
  rw [hps]
  simp only [Out.err, Prog.run, Call.run, CState.putIt, upd_same, Bool.false_eq_true, if_false]
  obtain ⟨s', h⟩ := loop_cut (signed := signed) (rc := o.rc) (i := i) hxy hr (some x) ps n
    ⟨upd s.objs x (ps.head?.map fun p => ⟨.packet, o.rc, p⟩), upd s.its i (some ⟨o.rc, y, false, ps⟩),
      s.lost + if (s.its i).isSome = true then 1 else 0⟩ hn hans (upd_same _ _ _) hits rfl
  refine ⟨s', ?_⟩
  cases ps with
  | nil =>
    simp only [List.head?_nil, Option.map_none, upd_id hx] at h
    simp only [CState.spoil, hx]
    simp only [fetched, Out.err] at h
    rw [h]
    rfl
  | cons p ps =>
    simp only [List.head?_cons, Option.map_some, fetched, Out.err] at h
    simp only [CState.make, CState.put, staleOver_other hits, Bool.false_eq_true, if_false, hx, Option.isSome_none, Nat.add_zero]
    rw [h]
    rfl

/-- The same loop with a null pointer for the second argument of `dart_iterator_done_destroy` does all of it: the body runs
once for every element, in order, and afterwards all variables are as before. -/
theorem C51_without_second_destroy {signed keys : Bool} {i x y : Nat} {o : Obj} {ps : List Pkt} {body : Prog}
    {ans : Pkt → List Out} {s : CState} {n : Nat} (hy : s.objs y = some o) (hx : s.objs x = none) (hi : s.its i = none)
    (hj : ∀ j it, s.its j = some it → it.src ≠ x) (hps : c51Elems keys o = .ok ps) (hr : OnlyReads body)
    (hans : ∀ p ∈ ps, ∃ s', body.run signed (s.put x ⟨.packet, o.rc, p⟩) = some (s', ans p)) (hn : ps.length < n) :
    (forEach keys i x y none body n).run signed s = some (s, .code .noError :: fetched ps :: rounds ans ps) := by
  have hxy : y ≠ x := by rintro rfl; rw [hx] at hy; cases hy
  have hits : ∀ j it, upd s.its i (some ⟨o.rc, y, false, ps⟩) j = some it → it.src ≠ x := by
    intro j it h
    simp only [upd] at h
    split at h
    · cases h; exact hxy
    · exact hj j it h
  simp only [forEach, Prog.run, Call.run, hy]
  simp only [c51Elems] at hps
  rw [hps]
  simp only [Out.err, Prog.run, Call.run, CState.putIt, upd_same, Bool.false_eq_true, if_false, hi, Option.isSome_none, Nat.add_zero]
  have h := loop_right (signed := signed) (rc := o.rc) (i := i) hxy hr hx ps n
    ⟨upd s.objs x (ps.head?.map fun p => ⟨.packet, o.rc, p⟩), upd s.its i (some ⟨o.rc, y, false, ps⟩), s.lost⟩ hn hans
    (upd_same _ _ _) hits rfl
  simp only [upd_upd, upd_id hi] at h
  cases ps with
  | nil =>
    simp only [List.head?_nil, Option.map_none, upd_id hx] at h
    simp only [CState.spoil, hx]
    simp only [fetched, Out.err] at h
    rw [h]
    rfl
  | cons p ps =>
    simp only [List.head?_cons, Option.map_some, fetched, Out.err] at h
    simp only [CState.make, CState.put, staleOver_other hits, Bool.false_eq_true, if_false, hx, Option.isSome_none, Nat.add_zero]
    rw [h]
    rfl

/-! ### The example of the documentation -/

/-- `{"yes": "no", "stop": "go"}` in variable 0; variable 1 is the loop variable. -/
def c51State : CState :=
  CState.empty.put 0 ⟨.packet, 1, .heap (.obj [([0x79, 0x65, 0x73], .str [0x6e, 0x6f]), ([0x73, 0x74, 0x6f, 0x70], .str [0x67, 0x6f])])⟩

/-- The body looks at the string. -/
def c51Body : Prog := .call (.query 1 .str) fun _ => .stop

theorem c51Elems_eq : c51Elems false ⟨.packet, 1, .heap (.obj [([0x79, 0x65, 0x73], .str [0x6e, 0x6f]),
    ([0x73, 0x74, 0x6f, 0x70], .str [0x67, 0x6f])])⟩ = .ok [.heap (.str [0x6e, 0x6f]), .heap (.str [0x67, 0x6f])] := rfl

theorem c51Body_keeps (s s' : CState) (os : List Out) (h : c51Body.run true s = some (s', os)) : s'.its 0 = s.its 0 := by
  simp only [c51Body, Prog.run, Call.run] at h
  cases ho : s.objs 1 with
  | none => rw [ho] at h; cases h
  | some o =>
    rw [ho] at h
    simp only at h
    cases hq : runQuery true o.pkt .str with
    | none => rw [hq] at h; cases h
    | some q => rw [hq] at h; cases h; rfl

example : (forEach false 0 1 0 (some 1) c51Body 3).run true c51State = none :=
  C51_undefined (ps := [.heap (.str [0x6e, 0x6f]), .heap (.str [0x67, 0x6f])]) rfl (by decide) rfl (by simp)
    c51Body_keeps (by decide)

/-- Without the second destruction: the body sees "no" and then "go". -/
example : (forEach false 0 1 0 none c51Body 3).run true c51State = some (c51State,
    [.code .noError, .code .noError,
     .flag false, .str (some [0x6e, 0x6f]), .code .noError, .code .noError, .code .noError,
     .flag false, .str (some [0x67, 0x6f]), .code .noError, .code .noError, .code .runtimeError, .flag true]) :=
  C51_without_second_destroy (ps := [.heap (.str [0x6e, 0x6f]), .heap (.str [0x67, 0x6f])])
    (ans := fun p => match p with | .heap (.str t) => [.str (some t)] | _ => []) rfl rfl rfl (by intro j it h; cases h) rfl
    ⟨⟨_, _, rfl⟩, fun _ => trivial⟩ (by
      intro p hp
      simp only [List.mem_cons, List.not_mem_nil, or_false] at hp
      rcases hp with rfl | rfl <;> exact ⟨_, rfl⟩) (by decide)

/-- An integer is not an aggregate. -/
example : (forEach false 0 1 0 (some 1) c51Body 3).run true (CState.empty.put 0 ⟨.packet, 1, .heap (.int 5)⟩) = none :=
  C51_not_aggregate (o := ⟨.packet, 1, .heap (.int 5)⟩) (e := .typeError) rfl rfl rfl (by decide)

end Dart.Props
