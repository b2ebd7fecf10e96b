import Verif.Lemmas.Optional

/-
C58: the bundled `optional` behaves like the standard's, whichever element operations throw, and destroys what it creates.
-/
namespace Dart.Props
open Dart.Opt Dart.Spec.Opt

variable {α β : Type}

/-- The variables a call uses. -/
def optUses : Op α → List Nat
  | .make | .makeFrom _ _ => []
  | .makeCopy j _ | .makeMove j _ => [j]
  | .drop i | .assignNull i | .reset i | .hasValue i | .deref i | .value i => [i]
  | .assignCopy i j _ | .assignMove i j _ => [i, j]
  | .assignFrom i _ _ | .emplace i _ _ | .valueOr i _ | .takeOr i _ _ => [i]

/-- Every program over optionals, with constructors and assignments of the element type that throw wherever they like, gets
the answers of the standard's `optional`, and is undefined exactly where the standard leaves it undefined. -/
theorem C58_answers (ops : List (Op α)) :
    (World.start.run ops).map (·.2) = (Vars.exec [] ops).map (·.2) := by
  have h := run_lift ([] : Vars α) 0 0 rfl ops
  cases hx : Vars.exec [] ops with
  | none =>
    rw [hx] at h
    show Option.map _ ((lift [] 0 0).run ops) = _
    simp only at h
    rw [h]; rfl
  | some z =>
    rw [hx] at h
    obtain ⟨m, g, h1, _⟩ := h
    show Option.map _ ((lift [] 0 0).run ops) = _
    rw [h1]; rfl

/-- After every such program each variable that is alive holds what the standard says it contains: the flag says whether
an object lives in the storage. -/
theorem C58_memory (ops : List (Op α)) (w : World α) (as : List (Answer α)) (hr : World.start.run ops = some (w, as)) :
    ∃ s, Vars.exec [] ops = some (s, as) ∧ w.vars.length = s.length ∧
      ∀ i : Nat, (∀ c, w.var i = some c → ∃ o, s[i]? = some (some o) ∧ holds c o) ∧
        (∀ o, s[i]? = some (some o) → ∃ c, w.var i = some c) := by
  have h := run_lift ([] : Vars α) 0 0 rfl ops
  cases hx : Vars.exec [] ops with
  | none =>
    rw [hx] at h
    simp only at h
    rw [show (World.start : World α) = lift [] 0 0 from rfl, h] at hr
    simp at hr
  | some z =>
    rw [hx] at h
    obtain ⟨m, g, h1, _⟩ := h
    rw [show (World.start : World α) = lift [] 0 0 from rfl, h1] at hr
    simp only [Option.some.injEq, Prod.mk.injEq] at hr
    obtain ⟨hw, ha⟩ := hr
    refine ⟨z.1, by rw [← ha], by rw [← hw]; simp [lift], ?_⟩
    intro i
    constructor
    · intro c hc
      rw [← hw, var_lift] at hc
      cases hj : (z.1[i]?).join with
      | none => rw [hj] at hc; simp at hc
      | some o =>
        rw [hj] at hc
        simp only [Option.map_some, Option.some.injEq] at hc
        exact ⟨o, get_of_join hj, by rw [← hc]; exact ⟨rfl, rfl⟩⟩
    · intro o ho
      exact ⟨conc o, by rw [← hw, var_lift, ho]; rfl⟩

/-- After every program the objects created in optionals and not destroyed are exactly those in the variables that are
alive and say they contain one: nothing is destroyed twice and nothing is lost, also when element operations throw. -/
theorem C58_balance (ops : List (Op α)) (w : World α) (as : List (Answer α)) (hr : World.start.run ops = some (w, as)) :
    w.made = w.gone + w.vars.countP fun v => match v with | some c => c.isSet | none => false := by
  have h := run_lift ([] : Vars α) 0 0 rfl ops
  cases hx : Vars.exec [] ops with
  | none =>
    rw [hx] at h
    simp only at h
    rw [show (World.start : World α) = lift [] 0 0 from rfl, h] at hr
    simp at hr
  | some z =>
    rw [hx] at h
    obtain ⟨m, g, h1, h2⟩ := h
    rw [show (World.start : World α) = lift [] 0 0 from rfl, h1] at hr
    simp only [Option.some.injEq, Prod.mk.injEq] at hr
    obtain ⟨hw, _⟩ := hr
    rw [← hw]
    simp only [lift, h2, List.countP_map, Vars.engaged]
    congr 1
    apply List.countP_congr
    intro v _
    cases v with
    | none => simp
    | some o => cases o <;> simp [conc]

/-- So when every variable is gone, everything created has been destroyed. -/
theorem C58_all_destroyed (ops : List (Op α)) (w : World α) (as : List (Answer α))
    (hr : World.start.run ops = some (w, as)) (hd : ∀ v ∈ w.vars, v = none) : w.made = w.gone := by
  rw [C58_balance ops w as hr]
  have : (w.vars.countP fun v => match v with | some c => c.isSet | none => false) = 0 := by
    rw [List.countP_eq_zero]
    intro v hv
    rw [hd v hv]
    simp
  omega

/-- A call after any program is undefined exactly if it uses a variable that is not alive or dereferences an empty one. -/
theorem C58_undefined (ops : List (Op α)) (w : World α) (as : List (Answer α)) (op : Op α)
    (hr : World.start.run ops = some (w, as)) :
    w.step op = none ↔ (∃ i ∈ optUses op, w.var i = none) ∨ ∃ i c, op = .deref i ∧ w.var i = some c ∧ c.isSet = false := by
  have h := run_lift ([] : Vars α) 0 0 rfl ops
  cases hx : Vars.exec [] ops with
  | none =>
    rw [hx] at h
    simp only at h
    rw [show (World.start : World α) = lift [] 0 0 from rfl, h] at hr
    simp at hr
  | some z =>
    rw [hx] at h
    obtain ⟨m, g, h1, h2⟩ := h
    rw [show (World.start : World α) = lift [] 0 0 from rfl, h1] at hr
    simp only [Option.some.injEq, Prod.mk.injEq] at hr
    obtain ⟨hw, _⟩ := hr
    subst hw
    have hf : (lift z.1 m g).step op = none ↔ Vars.next z.1 op = none := by
      have := step_lift z.1 m g op
      cases hq : Vars.next z.1 op with
      | none => rw [hq] at this; simpa [Follows] using this
      | some q =>
        rw [hq] at this
        obtain ⟨_, _, h3, _⟩ := this
        simp [h3]
    rw [hf]
    have hv : ∀ i, (lift z.1 m g).var i = none ↔ (z.1[i]?).join = none := by
      intro i; rw [var_lift]; simp
    cases op with
    | make => simp [Vars.next, optUses]
    | makeFrom a f => simp [Vars.next, optUses]
    | deref i =>
      simp only [optUses, List.mem_singleton, Vars.next, exists_eq_left, hv, Op.deref.injEq]
      cases hj : (z.1[i]?).join with
      | none => simp
      | some o =>
        cases o with
        | none =>
          simp only [Option.bind_some, Option.map_none, true_iff]
          right
          exact ⟨i, conc none, rfl, by rw [var_lift, hj]; rfl, rfl⟩
        | some x =>
          simp only [Option.bind_some, Option.map_some, reduceCtorEq, false_or, false_iff]
          rintro ⟨k, c, rfl, hc, hs⟩
          rw [var_lift, hj] at hc
          simp only [Option.map_some, Option.some.injEq] at hc
          rw [← hc] at hs
          simp [conc] at hs
    | assignCopy i j f =>
      simp only [optUses, Vars.next, List.mem_cons, List.not_mem_nil, or_false, reduceCtorEq, false_and, exists_false]
      cases hi : (z.1[i]?).join with
      | none => simp [var_lift, hi]
      | some o =>
        cases hj : (z.1[j]?).join with
        | none => simp [var_lift, hj]
        | some o' =>
          by_cases hij : i = j
          · simp [hij, var_lift, hj]
          · cases o' <;> simp [hij, var_lift, hj, hi, Vars.give]
    | assignMove i j f =>
      simp only [optUses, Vars.next, List.mem_cons, List.not_mem_nil, or_false, reduceCtorEq, false_and, exists_false]
      cases hi : (z.1[i]?).join with
      | none => simp [var_lift, hi]
      | some o =>
        cases hj : (z.1[j]?).join with
        | none => simp [var_lift, hj]
        | some o' =>
          by_cases hij : i = j
          · simp [hij, var_lift, hj]
          · cases o' <;> simp [hij, var_lift, hj, hi, Vars.give]
    | makeCopy j f => simp [optUses, Vars.next, var_lift]
    | makeMove j f => simp [optUses, Vars.next, var_lift]
    | drop i => simp [optUses, Vars.next, var_lift]
    | assignNull i => simp [optUses, Vars.next, var_lift]
    | assignFrom i a f => simp [optUses, Vars.next, var_lift, Vars.give]
    | reset i => simp [optUses, Vars.next, var_lift]
    | emplace i a f => simp [optUses, Vars.next, var_lift]
    | hasValue i => simp [optUses, Vars.next, var_lift]
    | value i => simp [optUses, Vars.next, var_lift]
    | valueOr i a => simp [optUses, Vars.next, var_lift]
    | takeOr i a f => simp [optUses, Vars.next, var_lift]

/-- Comparing two optionals compares what they contain, with nothing equal to nothing and below everything else. -/
theorem C58_compare (p : Cmp α β) (a : Cell α) (b : Cell β) (x : Option (Obj α)) (y : Option (Obj β))
    (ha : holds a x) (hb : holds b y) :
    p.eqOO a b = some (Lifted p.eq false false true x y) ∧
    p.neOO a b = some (!Lifted p.eq false false true x y) ∧
    p.ltOO a b = some (Lifted p.lt true false false x y) ∧
    p.leOO a b = some (Lifted p.le true false true x y) ∧
    p.gtOO a b = some (Lifted p.gt false true false x y) ∧
    p.geOO a b = some (Lifted p.ge false true true x y) := by
  obtain ⟨ai, st⟩ := a
  obtain ⟨bi, bt⟩ := b
  obtain ⟨h1, h2⟩ := ha
  obtain ⟨h3, h4⟩ := hb
  simp only at h1 h2 h3 h4
  subst h1; subst h2; subst h3; subst h4
  cases st <;> cases bt <;>
    simp [Cmp.eqOO, Cmp.neOO, Cmp.ltOO, Cmp.leOO, Cmp.gtOO, Cmp.geOO, both, Cell.access, Lifted]

/-- Comparing with a value is comparing with an optional that contains it. -/
theorem C58_compare_value (p : Cmp α β) (a : Cell α) (b : Cell β) (x : Option (Obj α)) (y : Option (Obj β)) (u : Obj α)
    (v : Obj β) (ha : holds a x) (hb : holds b y) :
    p.eqOV a v = some (Lifted p.eq false false true x (some v)) ∧
    p.ltOV a v = some (Lifted p.lt true false false x (some v)) ∧
    p.leOV a v = some (Lifted p.le true false true x (some v)) ∧
    p.gtOV a v = some (Lifted p.gt false true false x (some v)) ∧
    p.geOV a v = some (Lifted p.ge false true true x (some v)) ∧
    p.ltVO u b = some (Lifted p.lt true false false (some u) y) ∧
    p.leVO u b = some (Lifted p.le true false true (some u) y) ∧
    p.gtVO u b = some (Lifted p.gt false true false (some u) y) ∧
    p.geVO u b = some (Lifted p.ge false true true (some u) y) := by
  obtain ⟨ai, st⟩ := a
  obtain ⟨bi, bt⟩ := b
  obtain ⟨h1, h2⟩ := ha
  obtain ⟨h3, h4⟩ := hb
  simp only at h1 h2 h3 h4
  subst h1; subst h2; subst h3; subst h4
  cases st <;> cases bt <;>
    simp [Cmp.eqOV, Cmp.ltOV, Cmp.leOV, Cmp.gtOV, Cmp.geOV, Cmp.ltVO, Cmp.leVO, Cmp.gtVO, Cmp.geVO, Cell.access, Lifted]

/-- Comparing with `nullopt` is comparing with an empty optional. -/
theorem C58_compare_null (p : Cmp α α) (a e : Cell α) (x : Option (Obj α)) (ha : holds a x) (he : holds e none) :
    some (eqON a) = p.eqOO a e ∧ some (ltON a) = p.ltOO a e ∧ some (ltNO a) = p.ltOO e a ∧
    some (leON a) = p.leOO a e ∧ some (leNO a) = p.leOO e a := by
  obtain ⟨h1, _, h3, h4, _⟩ := C58_compare p a e x none ha he
  obtain ⟨_, _, h5, h6, _⟩ := C58_compare p e a none x he ha
  rw [h1, h3, h4, h5, h6]
  obtain ⟨hs, ht⟩ := ha
  cases x <;> simp [eqON, ltON, ltNO, leON, leNO, Lifted, hs]

/-- If the six comparisons of the elements come from one linear order, so do those of the optionals: exactly one of less,
equal and greater holds, the other three comparisons are their negations, and less is transitive. -/
theorem C58_order (p : Cmp α α)
    (hle : ∀ x y, p.le x y = !p.lt y x) (hgt : ∀ x y, p.gt x y = p.lt y x) (hge : ∀ x y, p.ge x y = !p.lt x y)
    (heq : ∀ x y, p.eq x y = (!p.lt x y && !p.lt y x)) (hasym : ∀ x y, p.lt x y = true → p.lt y x = false)
    (htr : ∀ x y z, p.lt x y = true → p.lt y z = true → p.lt x z = true)
    (a b c : Cell α) (x y z : Option (Obj α)) (ha : holds a x) (hb : holds b y) (hc : holds c z) :
    ∃ lt eq gt : Bool, p.ltOO a b = some lt ∧ p.eqOO a b = some eq ∧ p.gtOO a b = some gt ∧
      p.leOO a b = some (!gt) ∧ p.neOO a b = some (!eq) ∧ p.geOO a b = some (!lt) ∧
      p.ltOO b a = some gt ∧ [lt, eq, gt].count true = 1 ∧
      (p.ltOO a b = some true → p.ltOO b c = some true → p.ltOO a c = some true) := by
  obtain ⟨h1, h2, h3, h4, h5, h6⟩ := C58_compare p a b x y ha hb
  obtain ⟨_, _, h7, _⟩ := C58_compare p b a y x hb ha
  obtain ⟨_, _, h8, _⟩ := C58_compare p b c y z hb hc
  obtain ⟨_, _, h9, _⟩ := C58_compare p a c x z ha hc
  refine ⟨_, _, _, h3, h1, h5, ?_, h2, ?_, ?_, ?_, ?_⟩
  · rw [h4]; cases x <;> cases y <;> simp [Lifted, hle, hgt]
  · rw [h6]; cases x <;> cases y <;> simp [Lifted, hge]
  · rw [h7]; cases x <;> cases y <;> simp [Lifted, hgt]
  · cases x with
    | none => cases y <;> simp [Lifted]
    | some x =>
      cases y with
      | none => simp [Lifted]
      | some y =>
        simp only [Lifted, heq, hgt]
        have := hasym x y
        cases hxy : p.lt x y <;> cases hyx : p.lt y x <;> simp_all
  · rw [h3, h8, h9]
    simp only [Option.some.injEq]
    cases x with
    | none => cases y <;> cases z <;> simp [Lifted]
    | some x =>
      cases y with
      | none => cases z <;> simp [Lifted]
      | some y =>
        cases z with
        | none => simp [Lifted]
        | some z => exact htr x y z

/-! A program with a failing copy and a failing `emplace`; all that was created is destroyed at the end. -/

def optDemo : List (Op Nat) :=
  [.makeFrom 5 .returns, .make, .assignCopy 1 0 .returns, .value 1, .assignCopy 0 1 (.throws 3 4), .value 0,
   .emplace 1 9 (.throws 0 0), .hasValue 1, .value 1, .makeMove 0 (.throws 1 2), .value 0, .makeMove 0 .returns,
   .value 3, .valueOr 1 8, .drop 0, .drop 1, .drop 3]

example : (World.start.run optDemo).map (fun r => (r.1.made, r.1.gone, r.2)) =
    some (3, 3, [.done, .done, .done, .obj (.val 5), .failed, .obj (.left 3), .failed, .flag false, .badAccess, .failed,
      .obj (.left 2), .done, .obj (.left 2), .obj (.val 8), .done, .done, .done]) := by decide +kernel

/-- Dereferencing an empty optional, or using one whose constructor threw, is undefined. -/
example : World.start.run ([.make, .deref 0] : List (Op Nat)) = none ∧
    World.start.run ([.makeFrom 1 (.throws 0 0), .hasValue 0] : List (Op Nat)) = none := ⟨rfl, rfl⟩

/-- The hypotheses of the order theorem hold for numbers (with the left-over states after them). -/
example : ∃ p : Cmp Nat Nat, p.lt (.val 1) (.val 2) = true ∧
    (∀ x y, p.le x y = !p.lt y x) ∧ (∀ x y, p.gt x y = p.lt y x) ∧ (∀ x y, p.ge x y = !p.lt x y) ∧
    (∀ x y, p.eq x y = (!p.lt x y && !p.lt y x)) ∧ (∀ x y, p.lt x y = true → p.lt y x = false) ∧
    ∀ x y z, p.lt x y = true → p.lt y z = true → p.lt x z = true := by
  let key : Obj Nat → Nat := fun | .val a => 2 * a | .left n => 2 * n + 1
  refine ⟨⟨fun x y => !decide (key x < key y) && !decide (key y < key x), fun x y => decide (key x < key y),
    fun x y => !decide (key y < key x), fun x y => decide (key y < key x), fun x y => !decide (key x < key y)⟩,
    rfl, fun _ _ => rfl, fun _ _ => rfl, fun _ _ => rfl, fun _ _ => rfl, ?_, ?_⟩
  · intro x y h
    simp only [decide_eq_true_eq, decide_eq_false_iff_not] at h ⊢
    omega
  · intro x y z h h'
    simp only [decide_eq_true_eq] at h h' ⊢
    omega

example : holds (⟨true, some (.val 1)⟩ : Cell Nat) (some (.val 1)) ∧ holds (⟨false, none⟩ : Cell Nat) none :=
  ⟨⟨rfl, rfl⟩, ⟨rfl, rfl⟩⟩

end Dart.Props
