import Verif.Lemmas.CowOps
import Verif.Spec.Cursor

/-
Which storage a statement may change: lemmas for iterators.
-/
namespace Dart.Cow
open Dart.Spec.Indep

theorem incr_same {c c' : Cells} {r : Ref} (h : incr c r = some c') : SameBodies c c' ∧ c'.length = c.length := by
  simp only [incr] at h
  split at h
  · cases h; exact ⟨fun _ => rfl, rfl⟩
  · rename_i a _
    obtain ⟨x, hx, rfl⟩ := Option.map_eq_some_iff.1 h
    exact ⟨sameBodies_set _ hx, by simp⟩

theorem incrAll_same : ∀ (rs : List Ref) {c c' : Cells}, incrAll c rs = some c' → SameBodies c c' ∧ c'.length = c.length
  | [], c, c', h => by simp only [incrAll] at h; cases h; exact ⟨fun _ => rfl, rfl⟩
  | r :: rs, c, c', h => by
    simp only [incrAll, Option.bind_eq_some_iff] at h
    obtain ⟨c1, h1, h2⟩ := h
    obtain ⟨a1, a2⟩ := incr_same h1
    obtain ⟨b1, b2⟩ := incrAll_same rs h2
    exact ⟨a1.trans b1, b2.trans a2⟩

/-- `c` with one more owner of the cell at `a`. -/
def bump (c : Cells) (a : Nat) : Cells :=
  match c.at a with
  | some x => c.set a (some { x with count := x.count + 1 })
  | none => c

theorem incr_eq {c c' : Cells} {r : Ref} (h : incr c r = some c') :
    (r.addr = none ∧ c' = c) ∨ ∃ b x, r.addr = some b ∧ c.at b = some x ∧ c' = c.set b (some { x with count := x.count + 1 }) := by
  simp only [incr] at h
  split at h
  · rename_i ha; cases h; exact .inl ⟨ha, rfl⟩
  · rename_i b hb
    obtain ⟨x, hx, rfl⟩ := Option.map_eq_some_iff.1 h
    exact .inr ⟨b, x, hb, hx, rfl⟩

theorem incr_bump {c c' : Cells} {r : Ref} {a : Nat} {x : Cell} (h : incr c r = some c') (ha : c.at a = some x) :
    ∃ n, x.count ≤ n ∧ c'.at a = some ⟨n, x.body⟩ ∧ incr (c.set a (some ⟨x.count + 1, x.body⟩)) r = some (c'.set a (some ⟨n + 1, x.body⟩)) := by
  rcases incr_eq h with ⟨h1, rfl⟩ | ⟨b, y, h1, h2, rfl⟩
  · exact ⟨x.count, Nat.le_refl _, ha, by simp [incr, h1]⟩
  · by_cases hab : a = b
    · subst hab
      rw [ha] at h2; cases h2
      refine ⟨x.count + 1, by omega, at_set_self (at_lt ha), ?_⟩
      simp only [incr, h1, at_set_self (at_lt ha), Option.map_some, List.set_set]
    · refine ⟨x.count, Nat.le_refl _, by rw [at_set_ne (Ne.symm hab)]; exact ha, ?_⟩
      simp only [incr, h1, at_set_ne hab, h2, Option.map_some]
      rw [List.set_comm _ _ hab]

theorem incrAll_bump : ∀ (rs : List Ref) {c c' : Cells} {a : Nat} {x : Cell}, incrAll c rs = some c' → c.at a = some x →
    ∃ n, x.count ≤ n ∧ c'.at a = some ⟨n, x.body⟩ ∧ incrAll (c.set a (some ⟨x.count + 1, x.body⟩)) rs = some (c'.set a (some ⟨n + 1, x.body⟩))
  | [], c, c', a, x, h, ha => by
    simp only [incrAll] at h; cases h
    exact ⟨x.count, Nat.le_refl _, ha, rfl⟩
  | r :: rs, c, c', a, x, h, ha => by
    simp only [incrAll, Option.bind_eq_some_iff] at h
    obtain ⟨c1, h1, h2⟩ := h
    obtain ⟨n1, l1, a1, e1⟩ := incr_bump h1 ha
    obtain ⟨n2, l2, a2, e2⟩ := incrAll_bump rs h2 a1
    exact ⟨n2, by simp only at l2; omega, a2, by simp only [incrAll, e1, Option.bind_some, e2]⟩

theorem drop_shared {c : Cells} {r : Ref} {a n : Nat} {b : Body} (hr : r.addr = some a) (h : c.at a = some ⟨n, b⟩) (hn : 1 < n) :
    drop c r = some (c.set a (some ⟨n - 1, b⟩)) := by
  simp only [drop, drops, hr, h]
  rw [if_pos (by omega)]

/-- What `copy_on_write` does to shared storage. -/
theorem cow_shared {s s' : State} {x a : Nat} {cell : Cell} (h : cow s x = some s') (ha : (s.var x).addr = some a)
    (hc : s.cells.at a = some cell) (hn : cell.count > 1) :
    ∃ c n, incrAll s.cells cell.body.refs = some c ∧ c.at a = some ⟨n, cell.body⟩ ∧ cell.count ≤ n ∧
      s' = ⟨(c ++ [some ⟨1, cell.body⟩] : Cells).set a (some ⟨n - 1, cell.body⟩), s.vars.set x (cell.body.ref c.length)⟩ := by
  simp only [cow, ha, hc, if_pos hn, Option.bind_eq_some_iff] at h
  obtain ⟨c, h1, h2⟩ := h
  obtain ⟨n, l, e, _⟩ := incrAll_bump _ h1 hc
  refine ⟨c, n, h1, e, l, ?_⟩
  have hv : (⟨c ++ [some ⟨1, cell.body⟩], s.vars⟩ : State).var x = s.var x := rfl
  rw [assign, hv, drop_shared ha (by rw [at_append (at_lt e)]; exact e) (by omega)] at h2
  simp only [Option.map_some, Option.some.injEq] at h2
  rw [← h2]
  cases cell.body <;> rfl

/-! ### Frames -/

/-- Outside the storage owned by `x` alone, and outside new storage, nothing changes (but cells may be freed). -/
def Keeps (s : State) (x : Nat) (c' : Cells) : Prop :=
  ∀ b, b < s.cells.length → ((s.var x).addr = some b → 1 < cnt s.cells b) → ∀ y, c'.at b = some y →
    ∃ z, s.cells.at b = some z ∧ z.body = y.body

/-- The same for a whole state; `xs` are the variables that may change. -/
structure Frame (s : State) (x : Nat) (xs : List Nat) (s' : State) : Prop where
  vars : ∀ z, z ∉ xs → s'.var z = s.var z
  keeps : Keeps s x s'.cells

theorem Keeps.of_sub {s : State} {x : Nat} {c' : Cells} (h : Sub c' s.cells) : Keeps s x c' :=
  fun b _ _ y hy => h b y hy

theorem Keeps.sub {s : State} {x : Nat} {c c' : Cells} (h : Keeps s x c) (hs : Sub c' c) : Keeps s x c' := by
  intro b hb hn y hy
  obtain ⟨z, hz, e⟩ := hs b y hy
  obtain ⟨w, hw, e'⟩ := h b hb hn z hz
  exact ⟨w, hw, e'.trans e⟩

theorem Frame.refl (s : State) (x : Nat) (xs : List Nat) : Frame s x xs s :=
  ⟨fun _ _ => rfl, .of_sub (Sub.refl _)⟩

theorem Frame.mono {s s' : State} {x : Nat} {xs ys : List Nat} (h : Frame s x xs s') (hs : ∀ z ∈ xs, z ∈ ys) :
    Frame s x ys s' := ⟨fun z hz => h.vars z (fun hh => hz (hs z hh)), h.keeps⟩

theorem assign_sub {s s' : State} {x : Nat} {r : Ref} (h : assign s x r = some s') :
    Sub s'.cells s.cells ∧ s'.vars = s.vars.set x r := by
  simp only [assign, drop] at h
  obtain ⟨c, h1, rfl⟩ := Option.map_eq_some_iff.1 h
  exact ⟨drops_sub _ h1, rfl⟩

theorem set_other (c c' : Cells) (vars : List Ref) (x z : Nat) (r : Ref) (h : z ≠ x) :
    (⟨c, vars.set x r⟩ : State).var z = (⟨c', vars⟩ : State).var z := by
  simp only [State.var]; rw [List.getElem?_set_ne (Ne.symm h)]

theorem var_of_vars {s s' : State} (h : s'.vars = s.vars) (z : Nat) : s'.var z = s.var z := by simp [State.var, h]

/-- After `copy_on_write` the storage of `x` is new, or was its own. -/
theorem cow_frame {s s1 : State} {x : Nat} (hx : x < s.vars.length) (h : cow s x = some s1) :
    Frame s x [x] s1 ∧ ∀ a, (s1.var x).addr = some a →
      s.cells.length ≤ a ∨ ((s.var x).addr = some a ∧ cnt s.cells a ≤ 1) := by
  cases ha : (s.var x).addr with
  | none =>
    simp only [cow, ha] at h
    cases h
    exact ⟨.refl _ _ _, fun a h => by rw [ha] at h; cases h⟩
  | some a =>
    cases hc : s.cells.at a with
    | none => simp [cow, ha, hc] at h
    | some cell =>
      by_cases hn : cell.count > 1
      · obtain ⟨c, n, h1, h2, h3, rfl⟩ := cow_shared h ha hc hn
        obtain ⟨g1, g2⟩ := incrAll_same _ h1
        refine ⟨⟨fun z hz => set_other _ _ _ _ _ _ (by simpa using hz), ?_⟩, fun b hb => ?_⟩
        · intro b hb _ y hy
          simp only at hy
          by_cases hab : a = b
          · subst hab
            rw [at_set_self (by simp only [List.length_append]; have := at_lt h2; omega)] at hy
            cases hy
            exact ⟨cell, hc, rfl⟩
          · rw [at_set_ne hab, at_append (by omega)] at hy
            exact g1.sub b y hy
        · left
          rw [var_set _ s.cells s.vars x x _ hx, if_pos rfl, ref_addr] at hb
          cases hb
          omega
      · simp only [cow, ha, hc, if_neg hn] at h
        cases h
        refine ⟨.refl _ _ _, fun b hb => .inr ?_⟩
        rw [ha] at hb; cases hb
        exact ⟨rfl, by rw [cnt_some hc]; omega⟩

theorem store_sub {s s' : State} {a : Nat} {cell : Cell} {body : Body} {new old : List Ref}
    (h : store s a cell body new old = some s') :
    (∀ b y, b ≠ a → s'.cells.at b = some y → ∃ z, s.cells.at b = some z ∧ z.body = y.body) ∧ s'.vars = s.vars := by
  simp only [store, Option.bind_eq_some_iff, Option.map_eq_some_iff] at h
  obtain ⟨c, h1, c', h2, rfl⟩ := h
  refine ⟨fun b y hb hy => ?_, rfl⟩
  obtain ⟨z, hz, e⟩ := drops_sub _ h2 b y hy
  rw [at_set_ne (Ne.symm hb)] at hz
  obtain ⟨w, hw, e'⟩ := (incrAll_same _ h1).1.sub b z hz
  exact ⟨w, hw, e'.trans e⟩

/-- Storing into the storage of `x` after `copy_on_write`. -/
theorem Frame.store {s s1 s2 : State} {x a : Nat} {xs : List Nat} {cell : Cell} {body : Body} {new old : List Ref}
    (h : Frame s x xs s1) (hown : ∀ a, (s1.var x).addr = some a →
      s.cells.length ≤ a ∨ ((s.var x).addr = some a ∧ cnt s.cells a ≤ 1)) (ha : (s1.var x).addr = some a)
    (hs : Cow.store s1 a cell body new old = some s2) : Frame s x xs s2 := by
  obtain ⟨h1, h2⟩ := store_sub hs
  refine ⟨fun z hz => (var_of_vars h2 z).trans (h.vars z hz), fun b hb hn y hy => ?_⟩
  have hne : b ≠ a := by
    rintro rfl
    rcases hown b ha with h3 | ⟨h3, h4⟩
    · omega
    · have := hn h3; omega
  obtain ⟨z, hz, e⟩ := h1 b y hne hy
  obtain ⟨w, hw, e'⟩ := h.keeps b hb hn z hz
  exact ⟨w, hw, e'.trans e⟩

theorem Frame.assign {s s1 s2 : State} {x y : Nat} {xs : List Nat} {r : Ref} (h : Frame s x xs s1) (hy : y ∈ xs)
    (hs : Cow.assign s1 y r = some s2) : Frame s x xs s2 := by
  obtain ⟨h1, h2⟩ := assign_sub hs
  refine ⟨fun z hz => ?_, h.keeps.sub h1⟩
  rw [← h.vars z hz]
  have hzy : z ≠ y := fun e => hz (e ▸ hy)
  have := set_other s2.cells s1.cells s1.vars y z r hzy
  rw [← h2] at this
  exact this

theorem Frame.leave {s s1 s2 : State} {x y : Nat} {xs : List Nat} {moved : Bool} (h : Frame s x xs s1)
    (hy : moved = true → y ∈ xs) (hs : Cow.leave s1 y moved = some s2) : Frame s x xs s2 := by
  cases moved with
  | false => simp only [Cow.leave] at hs; cases hs; exact h
  | true => exact h.assign (hy rfl) hs

/-- A property of the state a call leaves, if it is defined. -/
def Leaves (Q : State → Prop) : Option Out → Prop
  | none => True
  | some o => Q o.1

theorem leaves_orUb {Q : State → Prop} {s : State} {o : Option Out} (h : Q s) (ho : Leaves Q o) : Q (orUb s o).1 := by
  cases o with
  | none => exact h
  | some o => exact ho

theorem leaves_bind {α : Type} {Q : State → Prop} {o : Option α} {f : α → Option Out}
    (h : ∀ x, o = some x → Leaves Q (f x)) : Leaves Q (o.bind f) := by
  cases o with
  | none => trivial
  | some x => exact h x rfl

theorem leaves_map {α : Type} {Q : State → Prop} {o : Option α} {f : α → Out}
    (h : ∀ x, o = some x → Q (f x).1) : Leaves Q (o.map f) := by
  cases o with
  | none => trivial
  | some x => exact h x rfl

theorem insert_frame {s : State} {x y : Nat} (k : Key) (m : Mode) (hx : x < s.vars.length) :
    Frame s x (changes (.insert x k y m)) (Cow.insert s x k y m).1 := by
  refine leaves_orUb (.refl _ _ _) (leaves_bind fun s1 h1 => ?_)
  obtain ⟨hf, hown⟩ := cow_frame hx h1
  have hf : Frame s x (changes (.insert x k y m)) s1 := hf.mono (by intro z hz; simp only [changes]; split <;> simp_all)
  have hmem : ∀ b : Bool, (b = true → m ≠ .const) → b = true → y ∈ changes (.insert x k y m) := by
    intro b hb ht; simp [changes, hb ht]
  cases k with
  | name k =>
    simp only
    split
    · exact hf
    · split
      · rename_i a ha
        refine leaves_bind fun cell hcell => ?_
        split
        · refine leaves_bind fun s2 h2 => leaves_map fun s3 h3 => ?_
          exact (hf.store hown (by rw [ha]; rfl) h2).leave (hmem _ (by cases m <;> simp)) h3
        · trivial
      · exact hf
  | index i =>
    simp only
    split
    · rename_i a ha
      refine leaves_bind fun cell hcell => ?_
      split
      · split
        · exact hf
        · split
          · exact hf
          · refine leaves_bind fun s2 h2 => leaves_map fun s3 h3 => ?_
            exact (hf.store hown (by rw [ha]; rfl) h2).leave (hmem _ (by cases m <;> simp)) h3
      · trivial
    · exact hf

theorem set_frame {s : State} {x y : Nat} (k : Key) (m : Mode) (hx : x < s.vars.length) :
    Frame s x (changes (.set x k y m)) (Cow.set s x k y m).1 := by
  refine leaves_orUb (.refl _ _ _) (leaves_bind fun s1 h1 => ?_)
  obtain ⟨hf, hown⟩ := cow_frame hx h1
  have hf : Frame s x (changes (.set x k y m)) s1 := hf.mono (by intro z hz; simp only [changes]; split <;> simp_all)
  have hmem : ∀ b : Bool, (b = true → m ≠ .const) → b = true → y ∈ changes (.set x k y m) := by
    intro b hb ht; simp [changes, hb ht]
  cases k with
  | name k =>
    simp only
    split
    · exact hf
    · split
      · rename_i a ha
        refine leaves_bind fun cell hcell => ?_
        split
        · split
          · exact hf
          · refine leaves_bind fun s2 h2 => leaves_map fun s3 h3 => ?_
            exact (hf.store hown (by rw [ha]; rfl) h2).leave (hmem _ (by cases m <;> simp)) h3
        · trivial
      · exact hf
  | index i =>
    simp only
    split
    · rename_i a ha
      refine leaves_bind fun cell hcell => ?_
      split
      · split
        · exact hf
        · refine leaves_bind fun s2 h2 => leaves_map fun s3 h3 => ?_
          exact (hf.store hown (by rw [ha]; rfl) h2).leave (hmem _ (by cases m <;> simp)) h3
      · trivial
    · exact hf

theorem erase_frame {s : State} {x : Nat} (k : Key) (hx : x < s.vars.length) :
    Frame s x [x] (Cow.erase s x k).1 := by
  refine leaves_orUb (.refl _ _ _) (leaves_bind fun s1 h1 => ?_)
  obtain ⟨hf, hown⟩ := cow_frame hx h1
  cases k with
  | name k =>
    simp only
    split
    · rename_i a ha
      refine leaves_bind fun cell hcell => ?_
      split
      · exact leaves_map fun s2 h2 => hf.store hown (by rw [ha]; rfl) h2
      · trivial
    · exact hf
  | index i =>
    simp only
    split
    · rename_i a ha
      refine leaves_bind fun cell hcell => ?_
      split
      · exact leaves_map fun s2 h2 => hf.store hown (by rw [ha]; rfl) h2
      · trivial
    · exact hf

theorem unshared_own {s : State} {x : Nat} (hu : Unshared s x) (a : Nat) (ha : (s.var x).addr = some a) :
    s.cells.length ≤ a ∨ ((s.var x).addr = some a ∧ cnt s.cells a ≤ 1) := by
  right
  refine ⟨ha, ?_⟩
  simp only [Unshared, refcount, ha] at hu
  simp [cnt, hu]

theorem clear_frame {s : State} {x : Nat} (hu : Unshared s x) : Frame s x [x] (Cow.clear s x).1 := by
  refine leaves_orUb (.refl _ _ _) ?_
  split
  · rename_i a ha
    exact leaves_bind fun cell _ => leaves_map fun s2 h2 => (Frame.refl s x [x]).store (unshared_own hu) (by rw [ha]; rfl) h2
  · rename_i a ha
    exact leaves_bind fun cell _ => leaves_map fun s2 h2 => (Frame.refl s x [x]).store (unshared_own hu) (by rw [ha]; rfl) h2
  · exact .refl _ _ _

theorem resize_frame {s : State} {x n y : Nat} (hu : Unshared s x) : Frame s x [x] (Cow.resize s x n y).1 := by
  refine leaves_orUb (.refl _ _ _) ?_
  split
  · rename_i a ha
    refine leaves_bind fun cell _ => ?_
    split
    · split
      · exact .refl _ _ _
      · exact leaves_map fun s2 h2 => (Frame.refl s x [x]).store (unshared_own hu) (by rw [ha]; rfl) h2
    · trivial
  · exact .refl _ _ _

/-- Sharing a value with variable `z`. -/
theorem share_frame {s s' : State} {c : Cells} {z x : Nat} {r : Ref} (h1 : incr s.cells r = some c)
    (h2 : assign ⟨c, s.vars⟩ z r = some s') : Frame s x [z] s' := by
  obtain ⟨g1, g2⟩ := assign_sub h2
  refine ⟨fun w hw => ?_, .of_sub (g1.trans (incr_same h1).1.sub)⟩
  have := set_other s'.cells s.cells s.vars z w r (by simpa using hw)
  rw [← g2] at this
  exact this

theorem copy_frame {s : State} {z y x : Nat} : Frame s x [z] (Cow.copy s z y).1 :=
  leaves_orUb (.refl _ _ _) (leaves_bind fun _ h1 => leaves_map fun _ h2 => share_frame h1 h2)

theorem get_frame {s : State} {z y x : Nat} (k : Key) : Frame s x [z] (Cow.get s z y k).1 := by
  refine leaves_orUb (.refl _ _ _) ?_
  split
  · refine leaves_bind fun cell _ => ?_
    split
    · exact leaves_bind fun _ h1 => leaves_map fun _ h2 => share_frame h1 h2
    · trivial
  · refine leaves_bind fun cell _ => ?_
    split
    · exact leaves_bind fun _ h1 => leaves_map fun _ h2 => share_frame h1 h2
    · trivial
  · exact .refl _ _ _

theorem move_frame {s : State} {z y x : Nat} : Frame s x [z, y] (Cow.move s z y).1 ∧
    (z ≠ y → z < s.vars.length → (Cow.move s z y).2 ≠ .ub → (Cow.move s z y).1.var z = s.var y) := by
  unfold Cow.move
  split
  · exact ⟨.refl _ _ _, fun h => absurd ‹_› h⟩
  · rename_i hzy
    cases h : assign s z (s.var y) with
    | none => exact ⟨.refl _ _ _, fun _ _ h => absurd rfl h⟩
    | some s' =>
      obtain ⟨g1, g2⟩ := assign_sub h
      simp only [Option.map_some, orUb]
      refine ⟨⟨fun w hw => ?_, .of_sub g1⟩, fun _ hz _ => ?_⟩
      · simp only [List.mem_cons, List.not_mem_nil, or_false, not_or] at hw
        rw [g2, set_other _ s.cells _ y w _ hw.2, set_other _ s.cells _ z w _ hw.1]
      · rw [g2, set_other _ s.cells _ y z _ hzy, var_set _ s.cells _ _ _ _ hz, if_pos rfl]

theorem fresh_frame {s : State} {x z : Nat} (v : Fresh) : Frame s z [x] (Cow.fresh s x v).1 := by
  refine leaves_orUb (.refl _ _ _) (leaves_map fun s' h => ?_)
  obtain ⟨g1, g2⟩ := assign_sub h
  have hsub : ∀ b y, b < s.cells.length → (v.make s.cells).1.at b = some y → s.cells.at b = some y := by
    intro b y hb hy
    cases v <;> simp only [Fresh.make] at hy <;> first | exact hy | (rw [at_append hb] at hy; exact hy)
  refine ⟨fun w hw => ?_, fun b hb _ y hy => ?_⟩
  · have := set_other s'.cells s.cells s.vars x w (v.make s.cells).2 (by simpa using hw)
    rw [← g2] at this
    exact this
  · obtain ⟨w, hw, e⟩ := g1 b y hy
    exact ⟨w, hsub b w hb hw, e⟩

/-- The variable whose own storage a statement may change. -/
def target : Op → Nat
  | .fresh x _ => x
  | .copy z _ => z
  | .move z _ => z
  | .get z _ _ => z
  | .insert x _ _ _ => x
  | .set x _ _ _ => x
  | .erase x _ => x
  | .clear x => x
  | .resize x _ _ => x

theorem target_mem (op : Op) : target op ∈ changes op := by
  cases op <;> simp only [changes, target] <;> (try split) <;> simp

theorem step_frame {s : State} {op : Op} (hu : ∀ x ∈ uses op, x < s.vars.length) (hc : Covered s op) :
    Frame s (target op) (changes op) (Cow.step s op).1 := by
  cases op with
  | fresh x v => exact fresh_frame v
  | copy z y => exact copy_frame
  | move z y => exact move_frame.1
  | get z x k => exact get_frame k
  | insert x k y m => exact insert_frame k m (hu x (by simp [uses]))
  | set x k y m => exact set_frame k m (hu x (by simp [uses]))
  | erase x k => exact erase_frame k (hu x (by simp [uses]))
  | clear x => exact clear_frame hc
  | resize x n y => exact resize_frame hc.1

end Dart.Cow
