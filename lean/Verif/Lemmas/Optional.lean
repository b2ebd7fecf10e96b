import Verif.Spec.Optional

namespace Dart.Opt
open Dart.Spec.Opt

variable {α β : Type}

/-- The memory that goes with a content. -/
def conc (o : Option (Obj α)) : Cell α := ⟨o.isSome, o⟩

/-- The world that goes with the contents of the variables. -/
def lift (s : Vars α) (m g : Nat) : World α := ⟨s.map (Option.map conc), m, g⟩

theorem var_lift (s : Vars α) (m g i : Nat) : (lift s m g).var i = (s[i]?).join.map conc := by
  simp only [lift, World.var, List.getElem?_map]
  cases s[i]? with
  | none => rfl
  | some o => cases o <;> rfl

theorem put_lift (s : Vars α) (m g i : Nat) (o : Option (Obj α)) :
    (lift s m g).put i (conc o) = lift (s.set i (some o)) m g := by
  simp [lift, World.put, List.map_set]

theorem engaged_set {s : Vars α} {i : Nat} {o : Option (Obj α)} (h : (s[i]?).join = some o) (v : Option (Option (Obj α))) :
    Vars.engaged (s.set i v) + (if o.isSome then 1 else 0) = Vars.engaged s + (if v.join.isSome then 1 else 0) := by
  induction s generalizing i with
  | nil => simp at h
  | cons a s ih =>
    cases i with
    | zero =>
      simp only [List.getElem?_cons_zero, Option.join_some] at h
      subst h
      simp only [Vars.engaged, List.set_cons_zero, List.countP_cons, Option.join_some]
      omega
    | succ i =>
      simp only [List.getElem?_cons_succ] at h
      have := ih h
      simp only [Vars.engaged, List.set_cons_succ, List.countP_cons] at this ⊢
      omega

theorem engaged_append (s : Vars α) (v : Option (Option (Obj α))) :
    Vars.engaged (s ++ [v]) = Vars.engaged s + (if v.join.isSome then 1 else 0) := by
  simp [Vars.engaged, List.countP_append, List.countP_cons]

theorem lt_of_join {s : Vars α} {i : Nat} {o : Option (Obj α)} (h : (s[i]?).join = some o) : i < s.length := by
  by_cases hi : i < s.length
  · exact hi
  · rw [List.getElem?_eq_none (by omega)] at h
    simp at h

theorem get_of_join {s : Vars α} {i : Nat} {o : Option (Obj α)} (h : (s[i]?).join = some o) : s[i]? = some (some o) := by
  cases hs : s[i]? with
  | none => rw [hs] at h; simp at h
  | some v => rw [hs] at h; simp only [Option.join_some] at h; rw [h]

theorem set_same {s : Vars α} {i : Nat} {o : Option (Obj α)} (h : (s[i]?).join = some o) : s.set i (some o) = s := by
  have := get_of_join h
  obtain ⟨hi, he⟩ := List.getElem?_eq_some_iff.mp this
  rw [← he]
  exact List.set_getElem_self hi

/-- What a call of the standard's machine amounts to in memory. -/
def Follows (s : Vars α) (m g : Nat) (r : Option (World α × Answer α)) (q : Option (Vars α × Answer α)) : Prop :=
  match q with
  | none => r = none
  | some (s', a) => ∃ m' g', r = some (lift s' m' g', a) ∧ (m = g + Vars.engaged s → m' = g' + Vars.engaged s')

theorem construct_lift {s : Vars α} {i : Nat} (h : (s[i]?).join = some none) (m g : Nat) (x : Obj α) (f : Fate) :
    (lift s m g).construct i x f =
      some (match f with
        | .returns => (lift (s.set i (some (some x))) (m + 1) g, .done)
        | .throws _ _ => (lift s m g, .failed)) := by
  have hv : (lift s m g).var i = some (conc none) := by rw [var_lift, h]; rfl
  have hp := put_lift s m g i (some x)
  simp only [conc, Option.isSome_some] at hp
  cases f with
  | returns =>
    simp only [World.construct, hv, Option.bind_some, conc, Option.isSome_none, Bool.false_eq_true, if_false, hp]
    rfl
  | throws t n =>
    simp only [World.construct, hv, Option.bind_some, conc, Option.isSome_none, Bool.false_eq_true, if_false]

theorem assign_lift {s : Vars α} {i : Nat} {y : Obj α} (h : (s[i]?).join = some (some y)) (m g : Nat) (x : Obj α)
    (f : Fate) :
    (lift s m g).assign i x f =
      some (match f with
        | .returns => (lift (s.set i (some (some x))) m g, .done)
        | .throws t _ => (lift (s.set i (some (some (.left t)))) m g, .failed)) := by
  have hv : (lift s m g).var i = some (conc (some y)) := by rw [var_lift, h]; rfl
  cases f with
  | returns =>
    have hp := put_lift s m g i (some x)
    simp only [conc, Option.isSome_some] at hp
    simp only [World.assign, hv, Option.bind_some, conc, Option.isSome_some, if_true, Cell.access, hp]
  | throws t n =>
    have hp := put_lift s m g i (some (.left t))
    simp only [conc, Option.isSome_some] at hp
    simp only [World.assign, hv, Option.bind_some, conc, Option.isSome_some, if_true, Cell.access, hp]

theorem destroy_lift {s : Vars α} {i : Nat} {y : Obj α} (h : (s[i]?).join = some (some y)) (m g : Nat) :
    (lift s m g).destroy i = some (lift (s.set i (some none)) m (g + 1)) := by
  have hv : (lift s m g).var i = some (conc (some y)) := by rw [var_lift, h]; rfl
  have hp := put_lift s m g i none
  simp only [conc, Option.isSome_none] at hp
  simp only [World.destroy, hv, Option.bind_some, conc, Option.isSome_some, if_true, Cell.access, hp]
  rfl

theorem moveOut_lift {s : Vars α} {i : Nat} {y : Obj α} (h : (s[i]?).join = some (some y)) (m g : Nat) (f : Fate) :
    (lift s m g).moveOut i f = some (lift (s.moved i f) m g) := by
  have hv : (lift s m g).var i = some (conc (some y)) := by rw [var_lift, h]; rfl
  cases f with
  | returns =>
    have hp := put_lift s m g i (some (.left 0))
    simp only [conc, Option.isSome_some] at hp
    simp only [World.moveOut, hv, Option.bind_some, conc, Option.isSome_some, Cell.access, hp, Vars.moved]
  | throws t n =>
    have hp := put_lift s m g i (some (.left n))
    simp only [conc, Option.isSome_some] at hp
    simp only [World.moveOut, hv, Option.bind_some, conc, Option.isSome_some, Cell.access, hp, Vars.moved]

theorem reset_lift {s : Vars α} {i : Nat} {o : Option (Obj α)} (h : (s[i]?).join = some o) (m g : Nat) :
    (lift s m g).reset i = some (lift (s.set i (some none)) m (g + if o.isSome then 1 else 0)) := by
  have hv : (lift s m g).var i = some (conc o) := by rw [var_lift, h]; rfl
  cases o with
  | none =>
    rw [set_same h]
    simp only [World.reset, hv, Option.bind_some, conc, Option.isSome_none, Bool.false_eq_true, if_false, Nat.add_zero]
  | some y => simp only [World.reset, hv, Option.bind_some, conc, Option.isSome_some, if_true, destroy_lift h]

theorem reset_dead {s : Vars α} {i : Nat} (h : (s[i]?).join = none) (m g : Nat) : (lift s m g).reset i = none := by
  have hv : (lift s m g).var i = none := by rw [var_lift, h]; rfl
  simp only [World.reset, hv, Option.bind_none]

theorem newVar_lift (s : Vars α) (m g : Nat) (k : World α → Nat → Option (World α × Answer α)) :
    (lift s m g).newVar k = (k (lift (s ++ [some none]) m g) s.length).map fun r =>
      match r.2 with
      | .failed => ({ r.1 with vars := r.1.vars.set s.length none }, .failed)
      | a => (r.1, a) := by
  have h1 : (lift s m g).vars.length = s.length := by simp [lift]
  have h2 : ({ lift s m g with vars := (lift s m g).vars ++ [some ⟨false, none⟩] } : World α) =
      lift (s ++ [some none]) m g := by simp [lift, conc]
  simp only [World.newVar, h1, h2]
  rfl

theorem new_get (s : Vars α) : ((s ++ [some none])[s.length]?).join = (some none : Option (Option (Obj α))) := by simp

theorem new_set (s : Vars α) (v w : Option (Option (Obj α))) : (s ++ [v]).set s.length w = s ++ [w] := by
  rw [List.set_append_right _ _ (Nat.le_refl _)]; simp

theorem new_lift_set (s : Vars α) (v : Option (Option (Obj α))) (m g : Nat) :
    ({ lift (s ++ [v]) m g with vars := (lift (s ++ [v]) m g).vars.set s.length none } : World α) =
      lift (s ++ [none]) m g := by
  have : (lift (s ++ [v]) m g).vars.set s.length none = ((s ++ [v]).set s.length none).map (Option.map conc) := by
    rw [List.map_set]; rfl
  rw [this, new_set]
  rfl

theorem newVar_construct (s : Vars α) (m g : Nat) (x : Obj α) (f : Fate) :
    Follows s m g ((lift s m g).newVar fun w i => w.construct i x f) (some (s.new x f)) := by
  rw [newVar_lift, construct_lift (new_get s)]
  cases f with
  | returns =>
    refine ⟨m + 1, g, ?_, ?_⟩
    · simp only [Option.map_some, new_set]
    · intro h
      rw [engaged_append]
      simp
      omega
  | throws t n =>
    refine ⟨m, g, ?_, ?_⟩
    · simp only [Option.map_some, new_lift_set]
    · intro h
      rw [engaged_append]
      simpa using h

theorem newVar_empty (s : Vars α) (m g : Nat) :
    Follows s m g ((lift s m g).newVar fun w _ => some (w, .done)) (some (s ++ [some none], .done)) := by
  rw [newVar_lift]
  refine ⟨m, g, rfl, ?_⟩
  intro h
  rw [engaged_append]
  simpa using h

theorem engaged_moved {s : Vars α} {j : Nat} {x : Obj α} (h : (s[j]?).join = some (some x)) (f : Fate) :
    Vars.engaged (s.moved j f) = Vars.engaged s := by
  have := engaged_set h (some (some (.left (match f with | .returns => 0 | .throws _ n => n))))
  cases f <;> simpa [Vars.moved] using this

theorem moved_append {s : Vars α} {j : Nat} {o : Option (Obj α)} (h : (s[j]?).join = some o) (v : Option (Option (Obj α)))
    (f : Fate) : Vars.moved (s ++ [v]) j f = s.moved j f ++ [v] := by
  simp only [Vars.moved]
  rw [List.set_append_left _ _ (lt_of_join h)]

theorem newVar_move {s : Vars α} {j : Nat} {x : Obj α} (h : (s[j]?).join = some (some x)) (m g : Nat) (f : Fate) :
    Follows s m g ((lift s m g).newVar fun w i => (w.construct i x f).bind fun r =>
      (r.1.moveOut j f).map fun w => (w, r.2)) (some ((s.moved j f).new x f)) := by
  have hj := lt_of_join h
  have hl : (s.moved j f).length = s.length := by simp [Vars.moved]
  have hg : ∀ v, ((s ++ [v])[j]?).join = some (some x) := by
    intro v; rw [List.getElem?_append_left hj]; exact h
  rw [newVar_lift, construct_lift (new_get s)]
  cases f with
  | returns =>
    simp only [Option.bind_some, new_set, moveOut_lift (hg _), Option.map_some, moved_append h]
    refine ⟨m + 1, g, rfl, ?_⟩
    intro he
    rw [engaged_append, engaged_moved h]
    simp
    omega
  | throws t n =>
    simp only [Option.bind_some, moveOut_lift (hg _), Option.map_some, moved_append h]
    have hs := new_lift_set (s.moved j (.throws t n)) (some none) m g
    rw [hl] at hs
    refine ⟨m, g, by rw [hs], ?_⟩
    intro he
    rw [engaged_append, engaged_moved h]
    simpa using he

theorem give_lift {s : Vars α} {i : Nat} {o : Option (Obj α)} (h : (s[i]?).join = some o) (m g : Nat) (x : Obj α)
    (f : Fate) :
    Follows s m g (if o.isSome then (lift s m g).assign i x f else (lift s m g).construct i x f) (s.give i x f) := by
  rw [Vars.give, h]
  have he := engaged_set h
  cases o with
  | none =>
    simp only [Option.isSome_none, Bool.false_eq_true, if_false, construct_lift h]
    cases f with
    | returns =>
      refine ⟨m + 1, g, rfl, ?_⟩
      have := he (some (some x))
      simp at this
      intro hm
      omega
    | throws t n =>
      refine ⟨m, g, ?_, ?_⟩
      · simp only [Option.map_none, set_same h]
      · have := he (some none)
        simp at this
        intro hm
        simp only [Option.map_none]
        omega
  | some y =>
    simp only [Option.isSome_some, if_true, assign_lift h]
    cases f with
    | returns =>
      refine ⟨m, g, rfl, ?_⟩
      have := he (some (some x))
      simp at this
      intro hm
      omega
    | throws t n =>
      refine ⟨m, g, rfl, ?_⟩
      have := he (some (some (.left t)))
      simp at this
      intro hm
      simp only [Option.map_some]
      omega

theorem get_give {s s' : Vars α} {i j : Nat} {x : Obj α} {f : Fate} {a : Answer α} (hij : i ≠ j)
    (h : s.give i x f = some (s', a)) : s'[j]? = s[j]? := by
  simp only [Vars.give] at h
  cases hs : (s[i]?).join with
  | none => rw [hs] at h; simp at h
  | some o =>
    rw [hs] at h
    cases f <;> simp only [Option.map_some, Option.some.injEq, Prod.mk.injEq] at h <;>
      rw [← h.1, List.getElem?_set_ne hij]

theorem follows_moved {s : Vars α} {m g i j : Nat} {x y : Obj α} {f : Fate} (hij : i ≠ j)
    (hj : (s[j]?).join = some (some y)) {r : Option (World α × Answer α)} (h : Follows s m g r (s.give i x f)) :
    Follows s m g (r.bind fun r => (r.1.moveOut j f).map fun w => (w, r.2))
      ((s.give i x f).map fun r => (Vars.moved r.1 j f, r.2)) := by
  cases hq : s.give i x f with
  | none =>
    rw [hq] at h
    simp only [Follows] at h
    simp only [h, Option.bind_none, Option.map_none, Follows]
  | some q =>
    obtain ⟨s', a⟩ := q
    rw [hq] at h
    obtain ⟨m', g', hr, hm⟩ := h
    have hj' : (s'[j]?).join = some (some y) := by rw [get_give hij hq]; exact hj
    refine ⟨m', g', ?_, ?_⟩
    · rw [hr]
      simp only [Option.bind_some, moveOut_lift hj', Option.map_some]
    · intro he
      dsimp only
      rw [engaged_moved hj']
      exact hm he

theorem follows_reset {s : Vars α} {i : Nat} {o : Option (Obj α)} (h : (s[i]?).join = some o) (m g : Nat)
    (hm : m = g + Vars.engaged s) :
    m = (g + if o.isSome then 1 else 0) + Vars.engaged (s.set i (some none)) := by
  have := engaged_set h (some none)
  cases o <;> simp at this ⊢ <;> omega

theorem step_lift (s : Vars α) (m g : Nat) (op : Op α) : Follows s m g ((lift s m g).step op) (s.next op) := by
  cases op with
  | make => exact newVar_empty s m g
  | makeFrom a f => exact newVar_construct s m g _ f
  | makeCopy j f =>
    simp only [World.step, Vars.next, var_lift]
    cases h : (s[j]?).join with
    | none => rfl
    | some o =>
      cases o with
      | none => exact newVar_empty s m g
      | some x => exact newVar_construct s m g x f
  | makeMove j f =>
    simp only [World.step, Vars.next, var_lift]
    cases h : (s[j]?).join with
    | none => rfl
    | some o =>
      cases o with
      | none => exact newVar_empty s m g
      | some x => exact newVar_move h m g f
  | drop i =>
    simp only [World.step, Vars.next]
    cases h : (s[i]?).join with
    | none => rw [reset_dead h]; rfl
    | some o =>
      rw [reset_lift h]
      refine ⟨m, g + (if o.isSome then 1 else 0), ?_, ?_⟩
      · simp [lift, List.map_set]
      · intro hm
        have := engaged_set h none
        cases o <;> simp at this ⊢ <;> omega
  | assignNull i =>
    simp only [World.step, Vars.next]
    cases h : (s[i]?).join with
    | none => rw [reset_dead h]; rfl
    | some o =>
      rw [reset_lift h]
      exact ⟨m, _, rfl, follows_reset h m g⟩
  | reset i =>
    simp only [World.step, Vars.next]
    cases h : (s[i]?).join with
    | none => rw [reset_dead h]; rfl
    | some o =>
      rw [reset_lift h]
      exact ⟨m, _, rfl, follows_reset h m g⟩
  | assignCopy i j f =>
    simp only [World.step, Vars.next, var_lift]
    cases hi : (s[i]?).join with
    | none => rfl
    | some c =>
      cases hj : (s[j]?).join with
      | none => rfl
      | some o =>
        simp only [Option.map_some, Option.bind_some]
        by_cases hij : i = j
        · rw [if_pos hij, if_pos hij]
          exact ⟨m, g, rfl, id⟩
        · rw [if_neg hij, if_neg hij]
          cases o with
          | none =>
            have hr := follows_reset hi m g
            cases c with
            | none =>
              refine ⟨m, g, ?_, hr⟩
              rw [set_same hi]
              rfl
            | some y =>
              refine ⟨m, g + 1, ?_, hr⟩
              simp only [conc, Option.isSome_none, Option.isSome_some, Bool.false_and, Bool.false_eq_true, if_false,
                if_true, destroy_lift hi, Option.map_some]
          | some x =>
            have := give_lift hi m g x f
            cases c <;> exact this
  | assignMove i j f =>
    simp only [World.step, Vars.next, var_lift]
    cases hi : (s[i]?).join with
    | none => rfl
    | some c =>
      cases hj : (s[j]?).join with
      | none => rfl
      | some o =>
        simp only [Option.map_some, Option.bind_some]
        by_cases hij : i = j
        · rw [if_pos hij, if_pos hij]
          exact ⟨m, g, rfl, id⟩
        · rw [if_neg hij, if_neg hij]
          cases o with
          | none =>
            have hr := follows_reset hi m g
            cases c with
            | none =>
              refine ⟨m, g, ?_, hr⟩
              rw [set_same hi]
              rfl
            | some y =>
              refine ⟨m, g + 1, ?_, hr⟩
              simp only [conc, Option.isSome_none, Option.isSome_some, Bool.false_and, Bool.false_eq_true, if_false,
                if_true, destroy_lift hi, Option.map_some]
          | some x =>
            have := follows_moved hij hj (give_lift hi m g x f)
            cases c <;> exact this
  | assignFrom i a f =>
    simp only [World.step, Vars.next, World.give, var_lift]
    cases hi : (s[i]?).join with
    | none => simp [Vars.give, hi, Follows]
    | some c => exact give_lift hi m g (.val a) f
  | emplace i a f =>
    simp only [World.step, Vars.next]
    cases h : (s[i]?).join with
    | none => rw [reset_dead h]; rfl
    | some o =>
      have hl := lt_of_join h
      have hn : ((s.set i (some none))[i]?).join = some none := by
        rw [List.getElem?_set_self hl]; rfl
      rw [reset_lift h]
      simp only [Option.bind_some, Option.map_some, construct_lift hn, List.set_set]
      have hr := follows_reset h m g
      cases f with
      | returns =>
        refine ⟨m + 1, _, rfl, ?_⟩
        intro hm
        have hr := hr hm
        have := engaged_set h (some none)
        have := engaged_set h (some (some (.val a)))
        simp at *
        omega
      | throws t n => exact ⟨m, _, rfl, hr⟩
  | hasValue i =>
    simp only [World.step, Vars.next, var_lift]
    cases h : (s[i]?).join with
    | none => rfl
    | some o => exact ⟨m, g, rfl, id⟩
  | deref i =>
    simp only [World.step, Vars.next, var_lift]
    cases h : (s[i]?).join with
    | none => rfl
    | some o => cases o with
      | none => rfl
      | some x => exact ⟨m, g, rfl, id⟩
  | value i =>
    simp only [World.step, Vars.next, var_lift]
    cases h : (s[i]?).join with
    | none => rfl
    | some o => cases o with
      | none => exact ⟨m, g, rfl, id⟩
      | some x => exact ⟨m, g, rfl, id⟩
  | valueOr i a =>
    simp only [World.step, Vars.next, var_lift]
    cases h : (s[i]?).join with
    | none => rfl
    | some o => cases o with
      | none => exact ⟨m, g, rfl, id⟩
      | some x => exact ⟨m, g, rfl, id⟩
  | takeOr i a f =>
    simp only [World.step, Vars.next, var_lift]
    cases h : (s[i]?).join with
    | none => rfl
    | some o => cases o with
      | none => exact ⟨m, g, rfl, id⟩
      | some x =>
        refine ⟨m, g, ?_, ?_⟩
        · simp only [Option.map_some, Option.bind_some, conc, Option.isSome_some, if_true, Cell.access,
            moveOut_lift h]
          cases f <;> rfl
        · intro hm
          rw [engaged_moved h]
          exact hm

theorem run_lift (s : Vars α) (m g : Nat) (hm : m = g + Vars.engaged s) (ops : List (Op α)) :
    match s.exec ops with
    | none => (lift s m g).run ops = none
    | some (s', as) => ∃ m' g', (lift s m g).run ops = some (lift s' m' g', as) ∧ m' = g' + Vars.engaged s' := by
  induction ops generalizing s m g with
  | nil => exact ⟨m, g, rfl, hm⟩
  | cons op ops ih =>
    have h1 := step_lift s m g op
    simp only [Vars.exec, World.run]
    cases hq : s.next op with
    | none =>
      rw [hq] at h1
      simp only [Follows] at h1
      simp [h1]
    | some q =>
      obtain ⟨s', a⟩ := q
      rw [hq] at h1
      obtain ⟨m', g', hr, he⟩ := h1
      have h2 := ih s' m' g' (he hm)
      simp only [Option.bind_some, hr]
      cases hx : Vars.exec s' ops with
      | none => rw [hx] at h2; simp only at h2; simp [h2]
      | some z =>
        rw [hx] at h2
        obtain ⟨m2, g2, h3, h4⟩ := h2
        exact ⟨m2, g2, by simp [h3], h4⟩

end Dart.Opt
