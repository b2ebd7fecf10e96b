import Verif.Spec.CowCost
import Verif.Lemmas.CowOps

/-
Copy on write copies one level.
-/
namespace Dart.Cow

/-- Contents are kept or freed, no new cells. -/
structure KeptCells (c c' : Cells) (a : Option Nat) : Prop where
  len : c'.length = c.length
  kept : ∀ b cell, c.at b = some cell → a ≠ some b → c'.at b = none ∨ ∃ n, c'.at b = some ⟨n, cell.body⟩
  gone : ∀ b, c.at b = none → c'.at b = none

theorem KeptCells.refl (c : Cells) (a : Option Nat) : KeptCells c c a := ⟨rfl, fun _ cell h _ => .inr ⟨cell.count, h⟩, fun _ h => h⟩

theorem KeptCells.trans {c d e : Cells} {a : Option Nat} (h : KeptCells c d a) (g : KeptCells d e a) : KeptCells c e a where
  len := g.len.trans h.len
  kept := fun b cell hb ha => by
    rcases h.kept b cell hb ha with h1 | ⟨n, h1⟩
    · exact .inl (g.gone b h1)
    · exact g.kept b ⟨n, cell.body⟩ h1 ha
  gone := fun b hb => g.gone b (h.gone b hb)

theorem KeptCells.weaken {c d : Cells} {a : Option Nat} (h : KeptCells c d none) : KeptCells c d a :=
  ⟨h.len, fun b cell hb _ => h.kept b cell hb (by simp), h.gone⟩

theorem at_set_other {c : Cells} {a b : Nat} {y : Option Cell} (h : a ≠ b) : Cells.at (c.set a y) b = c.at b := by
  unfold Cells.at
  rw [List.getElem?_set_ne h]

theorem keptCells_set {c : Cells} {a : Nat} {x : Cell} {y : Option Cell} (h : c.at a = some x) (hy : y = none ∨ ∃ n, y = some ⟨n, x.body⟩) :
    KeptCells c (c.set a y) none where
  len := List.length_set
  kept := fun b cell hb _ => by
    by_cases e : a = b
    · subst e
      rw [at_set_self (at_lt h)]
      rw [h] at hb; cases hb
      exact hy
    · rw [at_set_other e]; exact .inr ⟨cell.count, hb⟩
  gone := fun b hb => by
    by_cases e : a = b
    · subst e; rw [h] at hb; cases hb
    · rw [at_set_other e]; exact hb

theorem incr_keptCells {c c' : Cells} {r : Ref} (h : incr c r = some c') : KeptCells c c' none := by
  unfold incr at h
  split at h
  · cases h; exact .refl _ _
  · rename_i a _
    simp only [Option.map_eq_some_iff] at h
    obtain ⟨x, hx, rfl⟩ := h
    exact keptCells_set hx (.inr ⟨_, rfl⟩)

theorem incrAll_keptCells : ∀ {rs : List Ref} {c c' : Cells}, incrAll c rs = some c' → KeptCells c c' none
  | [], c, c', h => by cases h; exact .refl _ _
  | r :: rs, c, c', h => by
    simp only [incrAll, Option.bind_eq_some_iff] at h
    obtain ⟨d, h1, h2⟩ := h
    exact (incr_keptCells h1).trans (incrAll_keptCells h2)

theorem drops_keptCells : ∀ {n : Nat} {w : List Ref} {c c' : Cells}, drops n w c = some c' → KeptCells c c' none
  | _, [], c, c', h => by simp only [drops, Option.some.injEq] at h; rw [h]; exact .refl _ _
  | 0, _ :: _, c, c', h => by simp [drops] at h
  | n + 1, r :: w, c, c', h => by
    rw [drops] at h
    split at h
    · exact drops_keptCells h
    · split at h
      · cases h
      · rename_i x hx
        split at h
        · exact (keptCells_set hx (.inr ⟨_, rfl⟩)).trans (drops_keptCells h)
        · exact (keptCells_set hx (.inl rfl)).trans (drops_keptCells h)

theorem assign_keptCells {s s' : State} {x : Nat} {r : Ref} (h : assign s x r = some s') : KeptCells s.cells s'.cells none := by
  simp only [assign, Option.map_eq_some_iff] at h
  obtain ⟨c, h1, rfl⟩ := h
  exact drops_keptCells h1

theorem leave_keptCells {s s' : State} {y : Nat} {b : Bool} (h : leave s y b = some s') : KeptCells s.cells s'.cells none := by
  unfold leave at h
  split at h
  · exact assign_keptCells h
  · cases h; exact .refl _ _

theorem store_keptCells {s s' : State} {a : Nat} {cell : Cell} {body : Body} {new old : List Ref} (ha : s.cells.at a = some cell)
    (h : store s a cell body new old = some s') : KeptCells s.cells s'.cells (some a) := by
  simp only [store, Option.bind_eq_some_iff, Option.map_eq_some_iff] at h
  obtain ⟨c, h1, d, h2, rfl⟩ := h
  have k1 := incrAll_keptCells h1
  have k2 := drops_keptCells h2
  refine (k1.weaken (a := some a)).trans (KeptCells.trans (d := c.set a (some ⟨((c.at a).map (·.count)).getD cell.count, body⟩)) ?_ k2.weaken)
  refine ⟨List.length_set, fun b x hb hne => .inr ⟨x.count, ?_⟩, fun b hb => ?_⟩
  · rw [at_set_other (fun e => hne (by rw [e]))]; exact hb
  · by_cases e : a = b
    · subst e
      rcases k1.kept _ _ ha (by simp) with h3 | ⟨n, h3⟩
      · -- impossible in well counted heaps; here the cell would be made anew
        exfalso
        have := incrAll_live h1 ha
        rw [h3] at this
        exact this rfl
      · rw [h3] at hb; cases hb
    · rw [at_set_other e]; exact hb
where
  incrAll_live : ∀ {rs : List Ref} {c c' : Cells} {a : Nat} {x : Cell}, incrAll c rs = some c' → c.at a = some x → c'.at a ≠ none
    | [], c, c', a, x, h, hx => by cases h; rw [hx]; simp
    | r :: rs, c, c', a, x, h, hx => by
      simp only [incrAll, Option.bind_eq_some_iff] at h
      obtain ⟨d, h1, h2⟩ := h
      have : ∃ y, d.at a = some y := by
        unfold incr at h1
        split at h1
        · cases h1; exact ⟨x, hx⟩
        · rename_i b _
          simp only [Option.map_eq_some_iff] at h1
          obtain ⟨y, hy, rfl⟩ := h1
          by_cases e : b = a
          · subst e; exact ⟨_, at_set_self (at_lt hx)⟩
          · rw [at_set_other e]; exact ⟨x, hx⟩
      obtain ⟨y, hy⟩ := this
      exact incrAll_live h2 hy

theorem not_shared_of_addr_none {s : State} {x : Nat} (h : (s.var x).addr = none) : ¬ Shared s x := by
  rintro ⟨n, h1, h2⟩
  simp only [refcount, h, Option.some.injEq] at h1
  omega

/-- What copy on write leaves: a new cell only if the storage was shared; all cells there were are kept; the variable refers to the new
one, or to the old one. -/
theorem cow_keptCells {s s' : State} {x : Nat} (h : cow s x = some s') :
    (Shared s x → s'.allocated = s.allocated + 1 ∧ Untouched s s' none ∧ (x < s.vars.length → (s'.var x).addr = some s.allocated)) ∧
    (¬ Shared s x → s' = s) := by
  unfold cow at h
  split at h
  · rename_i ha
    cases h
    exact ⟨fun hs => absurd hs (not_shared_of_addr_none ha), fun _ => rfl⟩
  · rename_i a ha
    split at h
    · cases h
    · rename_i cell hc
      have hsh : Shared s x ↔ 1 < cell.count := by
        unfold Shared refcount
        simp [ha, hc]
      split at h
      · rename_i hcnt
        refine ⟨fun _ => ?_, fun hn => absurd (hsh.2 hcnt) hn⟩
        simp only [Option.bind_eq_some_iff] at h
        obtain ⟨c, h1, h2⟩ := h
        have k1 := incrAll_keptCells h1
        have k2 := assign_keptCells h2
        simp only at k2
        refine ⟨?_, ?_, ?_⟩
        · unfold State.allocated
          rw [k2.len, List.length_append, k1.len]; rfl
        · intro b x' hb _
          rcases k1.kept b x' hb (by simp) with h3 | ⟨n, h3⟩
          · refine .inl (k2.gone b ?_)
            rw [at_append (by rw [k1.len]; exact at_lt hb)]; exact h3
          · refine k2.kept b ⟨n, x'.body⟩ ?_ (by simp)
            rw [at_append (at_lt h3)]; exact h3
        · intro hx
          simp only [assign, Option.map_eq_some_iff] at h2
          obtain ⟨d, _, rfl⟩ := h2
          simp only [State.var, List.getElem?_set_self hx, Option.getD_some, State.allocated]
          cases cell.body <;> simp only [Ref.addr, k1.len]
      · rename_i hcnt
        cases h
        exact ⟨fun hs => absurd (hsh.1 hs) hcnt, fun _ => rfl⟩

theorem drops_cnt : ∀ {n : Nat} {w : List Ref} {c c' : Cells}, drops n w c = some c' → ∀ a, cnt c' a ≤ cnt c a
  | _, [], c, c', h, a => by simp only [drops, Option.some.injEq] at h; rw [h]; exact Nat.le_refl _
  | 0, _ :: _, c, c', h, a => by simp [drops] at h
  | n + 1, r :: w, c, c', h, a => by
    rw [drops] at h
    split at h
    · exact drops_cnt h a
    · rename_i b _
      split at h
      · cases h
      · rename_i x hx
        have key : ∀ y : Option Cell, (∀ z, y = some z → z.count ≤ x.count) → cnt (c.set b y) a ≤ cnt c a := by
          intro y hy
          by_cases e : b = a
          · subst e
            rw [cnt, at_set_self (at_lt hx), cnt_some hx]
            cases y with
            | none => simp
            | some z => exact hy z rfl
          · rw [cnt_set_ne e]; exact Nat.le_refl _
        split at h
        · exact Nat.le_trans (drops_cnt h a) (key _ (fun z hz => by cases hz; exact Nat.sub_le _ _))
        · exact Nat.le_trans (drops_cnt h a) (key _ (fun z hz => by cases hz))

theorem incrAll_cnt : ∀ {rs : List Ref} {c c' : Cells} {a : Nat}, incrAll c rs = some c' → (∀ r ∈ rs, r.addr ≠ some a) → cnt c' a = cnt c a
  | [], c, c', a, h, _ => by cases h; rfl
  | r :: rs, c, c', a, h, hr => by
    simp only [incrAll, Option.bind_eq_some_iff] at h
    obtain ⟨d, h1, h2⟩ := h
    rw [incrAll_cnt h2 (fun q hq => hr q (by simp [hq]))]
    unfold incr at h1
    split at h1
    · cases h1; rfl
    · rename_i b hb
      simp only [Option.map_eq_some_iff] at h1
      obtain ⟨y, hy, rfl⟩ := h1
      refine cnt_set_ne fun e => ?_
      subst e
      exact hr r (by simp) hb

/-- The statement behind copy on write: works on the cell of the variable only. -/
structure InPlace (s s' : State) (x : Nat) (ys : List Nat) : Prop where
  keeps : KeptCells s.cells s'.cells (s.var x).addr
  var : x ∉ ys → s'.var x = s.var x
  cnt : ∀ a, (s.var x).addr = some a → (∀ y ∈ ys, (s.var y).addr ≠ some a) → cnt s'.cells a ≤ cnt s.cells a

theorem InPlace.refl (s : State) (x : Nat) (ys : List Nat) : InPlace s s x ys := ⟨.refl _ _, fun _ => rfl, fun _ _ _ => Nat.le_refl _⟩

/-- Copy on write and a statement behind it. -/
theorem cow_inPlace {s s1 s2 : State} {x : Nat} {ys : List Nat} (hx : x < s.vars.length) (h : cow s x = some s1) (h2 : InPlace s1 s2 x ys) :
    (Shared s x → s2.allocated = s.allocated + 1 ∧ Untouched s s2 none) ∧
    (¬ Shared s x → s2.allocated = s.allocated ∧ Untouched s s2 (s.var x).addr) := by
  obtain ⟨c1, c2⟩ := cow_keptCells h
  refine ⟨fun hs => ?_, fun hs => ?_⟩
  · obtain ⟨e1, e2, e3⟩ := c1 hs
    refine ⟨by unfold State.allocated at *; rw [h2.keeps.len, e1], fun b cell hb _ => ?_⟩
    rcases e2 b cell hb (by simp) with h3 | ⟨n, h3⟩
    · exact .inl (h2.keeps.gone b h3)
    · refine h2.keeps.kept b ⟨n, cell.body⟩ h3 ?_
      rw [e3 hx]
      have := at_lt hb
      intro e
      simp only [Option.some.injEq, State.allocated] at e
      omega
  · cases c2 hs
    exact ⟨h2.keeps.len, fun b cell hb hne => h2.keeps.kept b cell hb hne⟩

theorem store_cnt {s s' : State} {a : Nat} {cell : Cell} {body : Body} {new old : List Ref} (ha : s.cells.at a = some cell)
    (hn : ∀ r ∈ new, r.addr ≠ some a) (h : store s a cell body new old = some s') : cnt s'.cells a ≤ cnt s.cells a := by
  simp only [store, Option.bind_eq_some_iff, Option.map_eq_some_iff] at h
  obtain ⟨c, h1, d, h2, rfl⟩ := h
  have e := incrAll_cnt h1 hn
  have l := (incrAll_keptCells h1).len
  refine Nat.le_trans (drops_cnt h2 a) ?_
  rw [cnt_set_self (by rw [l]; exact at_lt ha)]
  simp only
  cases hc : c.at a with
  | none => simp only [Option.map_none, Option.getD_none]; rw [cnt_some ha]; exact Nat.le_refl _
  | some z => rw [← e, cnt_some hc]; exact Nat.le_refl _

theorem store_var {s s' : State} {a : Nat} {cell : Cell} {body : Body} {new old : List Ref} (h : store s a cell body new old = some s') :
    s'.vars = s.vars := by
  simp only [store, Option.bind_eq_some_iff, Option.map_eq_some_iff] at h
  obtain ⟨c, h1, d, h2, rfl⟩ := h
  rfl

theorem store_inPlace {s s' : State} {x a : Nat} {ys : List Nat} {cell : Cell} {body : Body} {new old : List Ref}
    (hx : (s.var x).addr = some a) (ha : s.cells.at a = some cell) (hn : ∀ r ∈ new, ∃ y ∈ ys, r = s.var y)
    (h : store s a cell body new old = some s') : InPlace s s' x ys where
  keeps := by rw [hx]; exact store_keptCells ha h
  var := fun _ => by simp only [State.var, store_var h]
  cnt := fun b hb hy => by
    rw [hx] at hb; cases hb
    refine store_cnt ha (fun r hr => ?_) h
    obtain ⟨y, h1, rfl⟩ := hn r hr
    exact hy y h1

theorem storeLeave_inPlace {s s' : State} {x y a : Nat} {cell : Cell} {body : Body} {old : List Ref} {b : Bool} {o : Out}
    (hx : (s.var x).addr = some a) (ha : s.cells.at a = some cell) (h : store s a cell body [s.var y] old = some s')
    (hl : (leave s' y b).map (fun t => (t, Res.ok ())) = some o) : InPlace s o.1 x [y] := by
  simp only [Option.map_eq_some_iff] at hl
  obtain ⟨t, h1, rfl⟩ := hl
  have k := store_inPlace (ys := [y]) hx ha (by simp) h
  refine ⟨k.keeps.trans (leave_keptCells h1).weaken, fun hn => ?_, fun b hb hy => Nat.le_trans ?_ (k.cnt b hb hy)⟩
  · rw [← k.var hn]
    unfold leave at h1
    split at h1
    · simp only [assign, Option.map_eq_some_iff] at h1
      obtain ⟨c, _, rfl⟩ := h1
      simp only [State.var]
      rw [List.getElem?_set_ne (by simpa using Ne.symm (by simpa using hn))]
    · cases h1; rfl
  · unfold leave at h1
    split at h1
    · simp only [assign, Option.map_eq_some_iff] at h1
      obtain ⟨c, h2, rfl⟩ := h1
      exact drops_cnt h2 b
    · cases h1; exact Nat.le_refl _

theorem orUb_eq {s : State} {g : Option Out} {o : Out} (h : orUb s g = o) (hu : o.2 ≠ .ub) : g = some o := by
  cases g with
  | none => subst h; exact absurd rfl hu
  | some o' => exact congrArg some h

theorem orUb_cases {P : State → Prop} {s : State} {g : Option Out} (h0 : P s) (h : ∀ o, g = some o → P o.1) : P (orUb s g).1 := by
  cases g with
  | none => exact h0
  | some o' => exact h o' rfl

/-- What insertion does behind copy on write. -/
theorem insert_split {s : State} {x y : Nat} {k : Key} {mode : Mode} {o : Out} (h : insert s x k y mode = o) (hu : o.2 ≠ .ub) :
    ∃ s1, cow s x = some s1 ∧ InPlace s1 o.1 x [y] := by
  unfold insert at h
  have hg := orUb_eq h hu
  rw [Option.bind_eq_some_iff] at hg
  obtain ⟨s1, hc, hg⟩ := hg
  refine ⟨s1, hc, ?_⟩
  clear h hu
  split at hg
  · split at hg
    · cases hg; exact .refl _ _ _
    · split at hg
      · rename_i a hv
        simp only [Option.bind_eq_some_iff] at hg
        obtain ⟨cell, ha, hg⟩ := hg
        split at hg
        · simp only [Option.bind_eq_some_iff] at hg
          obtain ⟨t, h1, h2⟩ := hg
          exact storeLeave_inPlace (by rw [hv]; rfl) ha h1 h2
        · cases hg
      · cases hg; exact .refl _ _ _
  · split at hg
    · rename_i a hv
      simp only [Option.bind_eq_some_iff] at hg
      obtain ⟨cell, ha, hg⟩ := hg
      split at hg
      · split at hg
        · cases hg; exact .refl _ _ _
        · split at hg
          · cases hg; exact .refl _ _ _
          · simp only [Option.bind_eq_some_iff] at hg
            obtain ⟨t, h1, h2⟩ := hg
            exact storeLeave_inPlace (by rw [hv]; rfl) ha h1 h2
      · cases hg
    · cases hg; exact .refl _ _ _

theorem set_split {s : State} {x y : Nat} {k : Key} {mode : Mode} {o : Out} (h : set s x k y mode = o) (hu : o.2 ≠ .ub) :
    ∃ s1, cow s x = some s1 ∧ InPlace s1 o.1 x [y] := by
  unfold set at h
  have hg := orUb_eq h hu
  rw [Option.bind_eq_some_iff] at hg
  obtain ⟨s1, hc, hg⟩ := hg
  refine ⟨s1, hc, ?_⟩
  clear h hu
  split at hg
  · split at hg
    · cases hg; exact .refl _ _ _
    · split at hg
      · rename_i a hv
        simp only [Option.bind_eq_some_iff] at hg
        obtain ⟨cell, ha, hg⟩ := hg
        split at hg
        · split at hg
          · cases hg; exact .refl _ _ _
          · simp only [Option.bind_eq_some_iff] at hg
            obtain ⟨t, h1, h2⟩ := hg
            exact storeLeave_inPlace (by rw [hv]; rfl) ha h1 h2
        · cases hg
      · cases hg; exact .refl _ _ _
  · split at hg
    · rename_i a hv
      simp only [Option.bind_eq_some_iff] at hg
      obtain ⟨cell, ha, hg⟩ := hg
      split at hg
      · split at hg
        · cases hg; exact .refl _ _ _
        · simp only [Option.bind_eq_some_iff] at hg
          obtain ⟨t, h1, h2⟩ := hg
          exact storeLeave_inPlace (by rw [hv]; rfl) ha h1 h2
      · cases hg
    · cases hg; exact .refl _ _ _

theorem erase_split {s : State} {x : Nat} {k : Key} {o : Out} (h : erase s x k = o) (hu : o.2 ≠ .ub) :
    ∃ s1, cow s x = some s1 ∧ InPlace s1 o.1 x [] := by
  unfold erase at h
  have hg := orUb_eq h hu
  rw [Option.bind_eq_some_iff] at hg
  obtain ⟨s1, hc, hg⟩ := hg
  refine ⟨s1, hc, ?_⟩
  clear h hu
  split at hg
  all_goals
    split at hg
    · rename_i a hv
      simp only [Option.bind_eq_some_iff] at hg
      obtain ⟨cell, ha, hg⟩ := hg
      split at hg
      · simp only [Option.map_eq_some_iff] at hg
        obtain ⟨t, h1, rfl⟩ := hg
        exact store_inPlace (by rw [hv]; rfl) ha (by simp) h1
      · cases hg
    · cases hg; exact .refl _ _ _

theorem clear_inPlace {s : State} {x : Nat} : InPlace s (clear s x).1 x [] := by
  unfold clear
  refine orUb_cases (P := fun t => InPlace s t x _) ?_ fun o hg => ?_
  · exact .refl _ _ _
  · split at hg
    · rename_i a hv
      simp only [Option.bind_eq_some_iff, Option.map_eq_some_iff] at hg
      obtain ⟨cell, ha, t, h1, rfl⟩ := hg
      exact store_inPlace (by rw [hv]; rfl) ha (by simp) h1
    · rename_i a hv
      simp only [Option.bind_eq_some_iff, Option.map_eq_some_iff] at hg
      obtain ⟨cell, ha, t, h1, rfl⟩ := hg
      exact store_inPlace (by rw [hv]; rfl) ha (by simp) h1
    · cases hg; exact .refl _ _ _

theorem resize_inPlace {s : State} {x n y : Nat} : InPlace s (resize s x n y).1 x [y] := by
  unfold resize
  refine orUb_cases (P := fun t => InPlace s t x _) ?_ fun o hg => ?_
  · exact .refl _ _ _
  · split at hg
    · rename_i a hv
      simp only [Option.bind_eq_some_iff] at hg
      obtain ⟨cell, ha, hg⟩ := hg
      split at hg
      · split at hg
        · cases hg; exact .refl _ _ _
        · simp only [Option.map_eq_some_iff] at hg
          obtain ⟨t, h1, rfl⟩ := hg
          exact store_inPlace (by rw [hv]; rfl) ha (by simp) h1
      · cases hg
    · cases hg; exact .refl _ _ _

/-- Reading, copying and moving. -/
theorem copy_keptCells (s : State) (z y : Nat) : KeptCells s.cells (copy s z y).1.cells none := by
  unfold copy
  cases h : ((incr s.cells (s.var y)).bind fun c => (assign ⟨c, s.vars⟩ z (s.var y)).map fun s' => (s', Res.ok ())) with
  | none => exact .refl _ _
  | some o =>
    simp only [Option.bind_eq_some_iff, Option.map_eq_some_iff] at h
    obtain ⟨c, h1, t, h2, rfl⟩ := h
    exact (incr_keptCells h1).trans (assign_keptCells h2)

theorem move_keptCells (s : State) (z y : Nat) : KeptCells s.cells (move s z y).1.cells none := by
  unfold move
  split
  · exact .refl _ _
  · cases h : assign s z (s.var y) with
    | none => exact .refl _ _
    | some t =>
      have k := assign_keptCells h
      exact k

theorem get_keptCells (s : State) (z x : Nat) (k : Key) : KeptCells s.cells (get s z x k).1.cells none := by
  unfold get
  refine orUb_cases (P := fun t => KeptCells s.cells t.cells none) ?_ fun o hg => ?_
  · exact .refl _ _
  · split at hg
    · simp only [Option.bind_eq_some_iff] at hg
      obtain ⟨cell, ha, hg⟩ := hg
      split at hg
      · simp only [Option.bind_eq_some_iff, Option.map_eq_some_iff] at hg
        obtain ⟨c, h1, t, h2, rfl⟩ := hg
        exact (incr_keptCells h1).trans (assign_keptCells h2)
      · cases hg
    · simp only [Option.bind_eq_some_iff] at hg
      obtain ⟨cell, ha, hg⟩ := hg
      split at hg
      · simp only [Option.bind_eq_some_iff, Option.map_eq_some_iff] at hg
        obtain ⟨c, h1, t, h2, rfl⟩ := hg
        exact (incr_keptCells h1).trans (assign_keptCells h2)
      · cases hg
    · cases hg; exact .refl _ _

/-- A new value takes one cell, if any. -/
theorem fresh_made {s : State} {x : Nat} {v : Fresh} (hu : (fresh s x v).2 ≠ .ub) :
    (fresh s x v).1.allocated = s.allocated + (if (Op.fresh x v).makes then 1 else 0) ∧ Untouched s (fresh s x v).1 none := by
  unfold fresh at hu ⊢
  cases h : assign ⟨(v.make s.cells).1, s.vars⟩ x (v.make s.cells).2 with
  | none => rw [h] at hu; exact absurd rfl hu
  | some t =>
    simp only [Option.map_some, orUb]
    have k := assign_keptCells h
    simp only at k
    refine ⟨?_, fun b cell hb _ => ?_⟩
    · unfold State.allocated
      rw [k.len]
      cases v <;> simp [Fresh.make, Op.makes]
    · refine k.kept b cell ?_ (by simp)
      cases v
      case obj => exact (at_append (at_lt hb)).trans hb
      case arr => exact (at_append (at_lt hb)).trans hb
      all_goals exact hb

end Dart.Cow
