import Verif.Lemmas.OrderRun

/-
What steps do, helpers: steps do not depend on, nor change, what they do not mention; executions with races.
-/
namespace Dart.Conc

theorem blkAt_modify (bs : List (Option Blk)) (a c : Nat) (f : Blk → Blk) :
    blkAt (bs.modify a (Option.map f)) c = if c = a then (blkAt bs c).map f else blkAt bs c := by
  simp only [blkAt, List.getElem?_modify]
  by_cases h : c = a
  · subst h
    cases bs[c]? <;> simp
  · have h' : ¬ a = c := fun e => h e.symm
    rw [if_neg h]
    cases bs[c]? <;> simp [h']

theorem modify_set_ne {α : Type} {l : List α} {a c : Nat} (h : c ≠ a) (f : α → α) (x : α) :
    (l.modify a f).set c x = (l.set c x).modify a f := by
  refine List.ext_getElem? fun i => ?_
  simp only [List.getElem?_set, List.getElem?_modify, List.length_modify]
  by_cases h1 : c = i
  · subst h1
    have h' : ¬ a = c := fun e => h e.symm
    by_cases h2 : c < l.length <;> simp [h2, h']
  · simp [h1]

theorem modify_set_eq {α : Type} {l : List α} {a : Nat} (f : α → α) (x : α) :
    (l.set a x).modify a f = l.set a (f x) := by
  refine List.ext_getElem? fun i => ?_
  simp only [List.getElem?_set, List.getElem?_modify]
  by_cases h1 : a = i
  · subst h1
    by_cases h2 : a < l.length <;> simp [h2]
  · simp [h1]

theorem set_modify_eq {α : Type} {l : List α} {a : Nat} (f : α → α) (x : α) :
    (l.modify a f).set a x = l.set a x := by
  refine List.ext_getElem? fun i => ?_
  simp only [List.getElem?_set, List.getElem?_modify, List.length_modify]
  by_cases h1 : a = i
  · subst h1
    by_cases h2 : a < l.length <;> simp [h2]
  · simp [h1]

theorem modify_append {α : Type} {l : List α} {a : Nat} (f : α → α) (x : α) (h : a ≠ l.length) :
    (l ++ [x]).modify a f = l.modify a f ++ [x] := by
  refine List.ext_getElem? fun i => ?_
  simp only [List.getElem?_modify, List.getElem?_append, List.length_modify]
  by_cases h1 : i < l.length
  · simp [h1]
  · by_cases h2 : i = l.length
    · subst h2; simp [h]
    · have : ¬ i - l.length = 0 := by omega
      simp [h1, this]

/-- The same state with a changed block. -/
def M.edit (m : M) (a : Nat) (f : Blk → Blk) : M := { m with blocks := m.blocks.modify a (Option.map f) }

section
variable {m : M} {t a : Nat} {th : Th} {f : Blk → Blk}

/-- The step does the same. -/
def Same (a : Nat) (f : Blk → Blk) (x y : Option M) : Prop := x = y.map fun m => m.edit a f

theorem same_put (th' : Th) : Same a f (some ((m.edit a f).put t th')) (some (m.put t th')) := rfl

theorem same_set {c : Nat} (hc : c ≠ a) (o : Option Blk) (th' : Th) :
    Same a f (some (((m.edit a f).setBlk c o).put t th')) (some ((m.setBlk c o).put t th')) := by
  simp only [Same, Option.map_some, M.edit, M.setBlk, M.put, modify_set_ne hc]

theorem same_at {o o' : Option Blk} (h : o' = o.map f) (th' : Th) :
    Same a f (some (((m.edit a f).setBlk a o').put t th')) (some ((m.setBlk a o).put t th')) := by
  simp only [Same, Option.map_some, M.edit, M.setBlk, M.put, set_modify_eq, modify_set_eq, h]

theorem same_new (h : a ≠ m.blocks.length) (o : Option Blk) (th' : Th) :
    Same a f (some ({ (m.edit a f) with blocks := (m.edit a f).blocks ++ [o] }.put t th')) (some ({ m with blocks := m.blocks ++ [o] }.put t th')) := by
  simp only [Same, Option.map_some, M.edit, M.put, modify_append _ _ h]

theorem edit_at {c : Nat} : blkAt (m.edit a f).blocks c = if c = a then (blkAt m.blocks c).map f else blkAt m.blocks c := blkAt_modify ..

theorem edit_length : (m.edit a f).blocks.length = m.blocks.length := by simp [M.edit]

/-- If the step maps the block at `c`. -/
theorem same_map {c : Nat} {g g' : Blk → M} (h : ∀ b, Same a f (some (g' (if c = a then f b else b))) (some (g b))) :
    Same a f ((blkAt (m.edit a f).blocks c).map g') ((blkAt m.blocks c).map g) := by
  rw [edit_at]
  cases hb : blkAt m.blocks c with
  | none => by_cases hc : c = a <;> simp [hc, Same]
  | some b =>
    have := h b
    by_cases hc : c = a
    · simpa [hc] using this
    · simpa [hc] using this

theorem same_incr {h : Hd} (hf : ∀ b n, f { b with count := n } = { f b with count := n }) (hc : ∀ b, (f b).count = b.count) (th' : Th) :
    Same a f (incr true (m.edit a f) t h th') (incr true m t h th') := by
  cases h with
  | leaf n => exact same_put th'
  | ref c =>
    refine same_map fun b => ?_
    simp only [writeCount, if_true]
    by_cases h : c = a
    · subst h
      rw [if_pos rfl]
      refine same_at ?_ th'
      show some (Blk.mk ((f b).count + 1) (f b).kids) = some (f (Blk.mk (b.count + 1) b.kids))
      have h2 := hc b
      rw [h2]
      exact congrArg some (hf b _).symm
    · rw [if_neg h]
      exact same_set h _ th'

theorem same_decr {h : Hd} (hf : ∀ b n, f { b with count := n } = { f b with count := n }) (hc : ∀ b, (f b).count = b.count) (th' : Th) :
    Same a f (decr true (m.edit a f) t h th') (decr true m t h th') := by
  cases h with
  | leaf n => exact same_put th'
  | ref c =>
    simp only [decr, edit_at]
    cases hb : blkAt m.blocks c with
    | none => by_cases h : c = a <;> simp [h, Same]
    | some b =>
      by_cases h : c = a
      · subst h
        simp only [if_pos, Option.map_some, Option.bind_some, hc]
        cases b.count with
        | zero => rfl
        | succ n =>
          simp only [writeCount, if_true]
          exact same_at (congrArg some (hf b n).symm) _
      · simp only [if_neg h, Option.bind_some]
        cases b.count with
        | zero => rfl
        | succ n =>
          simp only [writeCount, if_true]
          exact same_set h _ _

/-- Elements that a step does not mention. -/
theorem frame_kids (hf : ∀ b n, f { b with count := n } = { f b with count := n }) (hc : ∀ b, (f b).count = b.count)
    (hp : ∀ th, m.threads[t]? = some th → th.pending = none) (h : ∀ w, (a, w) ∉ (event m t).accesses) :
    Same a f (step true (m.edit a f) t) (step true m t) := by
  have hthr : (m.edit a f).threads = m.threads := rfl
  simp only [event, stepEvent] at h
  simp only [step, hthr]
  cases ht : m.threads[t]? with
  | none => rfl
  | some th =>
  have hp := hp th ht
  simp only [ht, hp] at h ⊢
  cases hd : th.dying with
  | some c =>
    simp only [hd] at h ⊢
    have hca : c ≠ a := by
      rintro rfl
      exact h true List.mem_cons_self
    refine same_map fun b => ?_
    rw [if_neg hca]
    exact same_set hca _ _
  | none =>
  simp only [hd] at h ⊢
  cases hj : th.junk with
  | cons h w => exact same_decr hf hc _
  | nil =>
  simp only [hj] at h ⊢
  cases hop : th.prog with
  | nil => rfl
  | cons op rest =>
  simp only [hop] at h ⊢
  have touch : ∀ {hd : Hd} {w : Bool} {c : Nat}, (∀ w', (a, w') ∉ hd.touch w) → hd = .ref c → c ≠ a := by
    rintro hd w c h rfl rfl
    exact h w List.mem_cons_self
  unfold stmtEvent at h
  unfold stmtStep
  cases hs : th.stage with
  | start =>
    rw [hs] at h
    simp only at h ⊢
    cases op with
    | leaf x n => exact same_put _
    | make x =>
      have hne : a ≠ m.blocks.length := by
        rintro rfl
        exact h true List.mem_cons_self
      have := same_new (m := m) (f := f) (t := t) hne (some ⟨1, []⟩) { th with stage := .store (.ref m.blocks.length) }
      simp only [begin, edit_length]
      exact this
    | copy x y => exact same_put _
    | get x y i =>
      simp only [begin, beginEvent] at h ⊢
      cases hy : th.var y with
      | leaf n => exact same_put _
      | ref c =>
        have hca := touch h hy
        refine same_map fun b => ?_
        rw [if_neg hca]
        cases b.kids[i]? <;> exact same_put _
    | push x y =>
      simp only [begin]
      cases th.var x <;> exact same_put _
    | pop x =>
      simp only [begin]
      cases th.var x <;> exact same_put _
    | clear x =>
      simp only [begin, beginEvent] at h ⊢
      cases hy : th.var x with
      | leaf n => exact same_put _
      | ref c =>
        have hca := touch h hy
        refine same_map fun b => ?_
        rw [if_neg hca]
        exact same_set hca _ _
    | send c x =>
      simp only [begin, show (m.edit a f).chans = m.chans from rfl]
      cases m.chans[c]? <;> rfl
    | recv c x =>
      simp only [begin, show (m.edit a f).chans = m.chans from rfl]
      cases m.chans[c]? with
      | none => rfl
      | some q => cases q <;> rfl
  | read h => exact same_incr hf hc _
  | store h => exact same_put _
  | cow =>
    simp only
    cases th.var op.target with
    | leaf n => rfl
    | ref c =>
      refine same_map fun b => ?_
      have : (if c = a then f b else b).count = b.count := by split <;> simp [hc]
      simp only [this]
      by_cases h1 : 1 < b.count
      · simp only [if_pos h1]; exact same_put _
      · simp only [if_neg h1]; exact same_put _
  | copying done =>
    rw [hs] at h
    simp only at h ⊢
    cases hv : th.var op.target with
    | leaf n => rfl
    | ref c =>
      rw [hv] at h
      simp only at h ⊢
      have hca : c ≠ a := by
        rintro rfl
        refine h false ?_
        split
        · exact List.mem_cons_self
        · split <;> exact List.mem_cons_self
      rw [edit_at, if_neg hca]
      cases hb : blkAt m.blocks c with
      | none => rfl
      | some b =>
        rw [hb] at h
        simp only [Option.map_some] at h ⊢
        cases hk : b.kids[done.length]? with
        | some h => exact same_put _
        | none =>
          rw [hk] at h
          simp only at h
          have hne : a ≠ m.blocks.length := by
            rintro rfl
            exact h true (by simp)
          have := same_new (m := m) (f := f) (t := t) hne (some ⟨1, done⟩)
            { th with vars := th.vars.set op.target (.ref m.blocks.length), junk := [.ref c], stage := .ready }
          simp only [edit_length]
          exact this
  | copyInc done h => exact same_incr hf hc _
  | ready =>
    rw [hs] at h
    simp only at h ⊢
    have key : (∀ w, (a, w) ∉ (th.var op.target).touch true) → Same a f
        (match th.var op.target with
          | .leaf _ => none
          | .ref c => (blkAt (m.edit a f).blocks c).map fun b => ((m.edit a f).setBlk c (some { b with kids := b.kids.dropLast })).put t
            { th with junk := b.kids.getLast?.toList, prog := rest, stage := .start })
        (match th.var op.target with
          | .leaf _ => none
          | .ref c => (blkAt m.blocks c).map fun b => (m.setBlk c (some { b with kids := b.kids.dropLast })).put t
            { th with junk := b.kids.getLast?.toList, prog := rest, stage := .start }) := by
      intro h
      cases hv : th.var op.target with
      | leaf n => rfl
      | ref c =>
        have hca := touch h hv
        refine same_map fun b => ?_
        rw [if_neg hca]
        exact same_set hca _ _
    cases op with
    | push x y => exact same_put _
    | _ => exact key h
  | arg h => exact same_incr hf hc _
  | mutate hd =>
    rw [hs] at h
    simp only at h ⊢
    cases hv : th.var op.target with
    | leaf n => rfl
    | ref c =>
      have hca := touch h hv
      refine same_map fun b => ?_
      rw [if_neg hca]
      exact same_set hca _ _

/-- Counters that a step does not mention. -/
theorem frame_count (hf : ∀ b ks, f { b with kids := ks } = { f b with kids := ks }) (hk : ∀ b, (f b).kids = b.kids)
    (hp : ∀ th, m.threads[t]? = some th → th.pending = none) (ha : a < m.blocks.length)
    (h : (event m t).sync ≠ .inc a ∧ (event m t).sync ≠ .dec a ∧ (event m t).sync ≠ .load a) :
    Same a f (step true (m.edit a f) t) (step true m t) := by
  have hthr : (m.edit a f).threads = m.threads := rfl
  have hne : a ≠ m.blocks.length := by omega
  have hkids : ∀ c b, (if c = a then f b else b).kids = b.kids := by intro c b; split <;> simp [hk]
  have hset : ∀ (c : Nat) (b : Blk) (ks : List Hd) (th' : Th), Same a f
      (some (((m.edit a f).setBlk c (some { (if c = a then f b else b) with kids := ks })).put t th'))
      (some ((m.setBlk c (some { b with kids := ks })).put t th')) := by
    intro c b ks th'
    by_cases hca : c = a
    · subst hca
      rw [if_pos rfl]
      exact same_at (congrArg some (hf b ks).symm) th'
    · rw [if_neg hca]; exact same_set hca _ _
  simp only [event, stepEvent] at h
  simp only [step, hthr]
  cases ht : m.threads[t]? with
  | none => rfl
  | some th =>
  have hp := hp th ht
  simp only [ht, hp] at h ⊢
  cases hd : th.dying with
  | some c =>
    refine same_map fun b => ?_
    simp only [hkids]
    by_cases hca : c = a
    · subst hca; exact same_at (o := none) (o' := none) rfl _
    · exact same_set hca _ _
  | none =>
  simp only [hd] at h ⊢
  have hincr : ∀ (h : Hd) (th' : Th), h.sync .inc ≠ .inc a → Same a f (incr true (m.edit a f) t h th') (incr true m t h th') := by
    intro h th' hi
    cases h with
    | leaf n => exact same_put _
    | ref c =>
      have hca : c ≠ a := fun e => hi (e ▸ rfl)
      refine same_map fun b => ?_
      rw [if_neg hca]
      exact same_set hca _ _
  cases hj : th.junk with
  | cons hh w =>
    simp only [hj] at h ⊢
    cases hh with
    | leaf n => exact same_put _
    | ref c =>
      have hca : c ≠ a := fun e => h.2.1 (e ▸ rfl)
      simp only [decr, edit_at, if_neg hca]
      cases hb : blkAt m.blocks c with
      | none => rfl
      | some b =>
        simp only [Option.bind_some]
        cases b.count with
        | zero => rfl
        | succ n => exact same_set hca _ _
  | nil =>
  simp only [hj] at h ⊢
  cases hop : th.prog with
  | nil => rfl
  | cons op rest =>
  simp only [hop] at h ⊢
  unfold stmtEvent at h
  unfold stmtStep
  cases hs : th.stage with
  | start =>
    simp only
    cases op with
    | leaf x n => exact same_put _
    | make x =>
      have := same_new (m := m) (f := f) (t := t) hne (some ⟨1, []⟩) { th with stage := .store (.ref m.blocks.length) }
      simp only [begin, edit_length]
      exact this
    | copy x y => exact same_put _
    | get x y i =>
      simp only [begin]
      cases hy : th.var y with
      | leaf n => exact same_put _
      | ref c =>
        refine same_map fun b => ?_
        simp only [hkids]
        cases b.kids[i]? <;> exact same_put _
    | push x y =>
      simp only [begin]
      cases th.var x <;> exact same_put _
    | pop x =>
      simp only [begin]
      cases th.var x <;> exact same_put _
    | clear x =>
      simp only [begin]
      cases hy : th.var x with
      | leaf n => exact same_put _
      | ref c =>
        refine same_map fun b => ?_
        simp only [hkids]
        exact hset c b [] _
    | send c x =>
      simp only [begin, show (m.edit a f).chans = m.chans from rfl]
      cases m.chans[c]? <;> rfl
    | recv c x =>
      simp only [begin, show (m.edit a f).chans = m.chans from rfl]
      cases m.chans[c]? with
      | none => rfl
      | some q => cases q <;> rfl
  | read hh =>
    rw [hs] at h
    exact hincr hh _ h.1
  | store h => exact same_put _
  | cow =>
    rw [hs] at h
    simp only at h ⊢
    cases hv : th.var op.target with
    | leaf n => rfl
    | ref c =>
      rw [hv] at h
      have hca : c ≠ a := fun e => h.2.2 (e ▸ rfl)
      refine same_map fun b => ?_
      simp only [if_neg hca]
      by_cases h1 : 1 < b.count
      · simp only [if_pos h1]; exact same_put _
      · simp only [if_neg h1]; exact same_put _
  | copying done =>
    simp only
    cases hv : th.var op.target with
    | leaf n => rfl
    | ref c =>
      refine same_map fun b => ?_
      simp only [hkids]
      cases hk : b.kids[done.length]? with
      | some h => exact same_put _
      | none =>
        have := same_new (m := m) (f := f) (t := t) hne (some ⟨1, done⟩)
          { th with vars := th.vars.set op.target (.ref m.blocks.length), junk := [.ref c], stage := .ready }
        simp only [edit_length]
        exact this
  | copyInc done hh =>
    rw [hs] at h
    exact hincr hh _ h.1
  | ready =>
    simp only
    have key : Same a f
        (match th.var op.target with
          | .leaf _ => none
          | .ref c => (blkAt (m.edit a f).blocks c).map fun b => ((m.edit a f).setBlk c (some { b with kids := b.kids.dropLast })).put t
            { th with junk := b.kids.getLast?.toList, prog := rest, stage := .start })
        (match th.var op.target with
          | .leaf _ => none
          | .ref c => (blkAt m.blocks c).map fun b => (m.setBlk c (some { b with kids := b.kids.dropLast })).put t
            { th with junk := b.kids.getLast?.toList, prog := rest, stage := .start }) := by
      cases hv : th.var op.target with
      | leaf n => rfl
      | ref c =>
        refine same_map fun b => ?_
        simp only [hkids]
        exact hset c b _ _
    cases op with
    | push x y => exact same_put _
    | _ => exact key
  | arg hh =>
    rw [hs] at h
    exact hincr hh _ h.1
  | mutate hd =>
    simp only
    cases hv : th.var op.target with
    | leaf n => rfl
    | ref c =>
      refine same_map fun b => ?_
      simp only [hkids]
      exact hset c b _ _

end

end Dart.Conc
