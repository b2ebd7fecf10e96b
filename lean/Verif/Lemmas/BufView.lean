import Verif.Spec.BufViews
import Verif.Lemmas.Own

/-
Views of buffers, helpers.
-/
namespace Dart.Own
open Spec

theorem step_mono {signed : Bool} {s t : State} {op : Op} (h : s.step signed op = .ok t) :
    s.blocks.length ≤ t.blocks.length := by
  have hset : ∀ (r : State) v g, (r.set v g).blocks = r.blocks := fun _ _ _ => rfl
  cases op <;> simp only [State.step] at h
  case alloc => cases h; simp [State.alloc]
  case write => split at h <;> cases h; simp
  case free => split at h <;> cases h; simp
  case fromSpan =>
    repeat' split at h
    all_goals first | (cases h; done) | (cases h; simp [State.alloc, State.set])
  case fromUnique =>
    split at h
    · obtain ⟨b, _, h⟩ := Res.bind_eq_ok.1 h; cases h; simp [State.set]
    · cases h
  case share => split at h <;> cases h; simp
  case unshare => split at h <;> cases h; simp
  case fromShared =>
    split at h
    · obtain ⟨b, _, h⟩ := Res.bind_eq_ok.1 h; cases h; simp [State.set]
    · cases h
  case copy => cases h; simp [State.set]
  case move => split at h <;> cases h <;> simp [State.set]
  case drop => cases h; simp [State.set]
  case get =>
    split at h
    · obtain ⟨b, _, h⟩ := Res.bind_eq_ok.1 h; cases h; simp [State.set]
    · cases h
  case getIdx =>
    split at h
    · obtain ⟨b, _, h⟩ := Res.bind_eq_ok.1 h; cases h; simp [State.set]
    · cases h
  case shareBytes =>
    repeat' split at h
    all_goals first | (cases h; done) | (cases h; simp)
  case dupBytes =>
    repeat' split at h
    all_goals first
      | (cases h; done)
      | (obtain ⟨b, _, h⟩ := Res.bind_eq_ok.1 h
         split at h <;> cases h
         simp [State.alloc])

theorem view_point_self {s : VState} {x : Nat} {w : View} (hx : x < s.views.length) : (s.point x w).view x = w := by
  simp [VState.point, VState.view, hx]

theorem view_point_ne {s : VState} {x y : Nat} {w : View} (h : y ≠ x) : (s.point x w).view y = s.view y := by
  simp only [VState.point, VState.view, List.getElem?_set_ne (Ne.symm h)]

theorem view_point {s : VState} {x y : Nat} {w : View} :
    (s.point x w).view y = s.view y ∨ (s.point x w).view y = w ∨ (s.point x w).view y = .null := by
  by_cases h : y = x
  · subst h
    by_cases hx : y < s.views.length
    · exact .inr (.inl (view_point_self hx))
    · right; right; simp [VState.point, VState.view, hx]
  · exact .inl (view_point_ne h)

theorem view_mem {s : VState} {x : Nat} {b : Nat × Nat} (h : (s.view x).pos = some b) : s.view x ∈ s.views := by
  unfold VState.view at h ⊢
  cases hg : s.views[x]? with
  | none => rw [hg] at h; cases h
  | some w => exact List.mem_of_getElem? hg

theorem view_src_mem {s : VState} {x v : Nat} (h : (s.view x).src = .var v) : s.view x ∈ s.views := by
  unfold VState.view at h ⊢
  cases hg : s.views[x]? with
  | none => rw [hg] at h; cases h
  | some w => exact List.mem_of_getElem? hg

theorem lose_pos (v : Nat) (w : View) : (w.lose v).pos = w.pos := by unfold View.lose; split <;> rfl
theorem lose_type (v : Nat) (w : View) : (w.lose v).type = w.type := by unfold View.lose; split <;> rfl
theorem lose_src {v : Nat} {w : View} (h : w.src ≠ .var v) : w.lose v = w := by unfold View.lose; rw [if_neg h]
theorem lose_null (v : Nat) : View.null.lose v = .null := rfl

/-- The views after a step without views. -/
def aged (op : Op) (l : List View) : List View :=
  match op with
  | .drop v => l.map (View.lose v)
  | _ => l

theorem step_plain {signed : Bool} {s t : VState} {op : Op} (h : s.step signed (.plain op) = .ok t) :
    s.own.step signed op = .ok t.own ∧ t.views = aged op s.views := by
  unfold VState.step at h
  obtain ⟨r, hr, h⟩ := Res.bind_eq_ok.1 h
  cases h
  exact ⟨hr, rfl⟩

theorem aged_view {op : Op} {s t : VState} (h : t.views = aged op s.views) (x : Nat) :
    (t.view x = s.view x) ∨ ∃ v, op = .drop v ∧ (s.view x).src = .var v ∧ t.view x = (s.view x).lose v := by
  unfold VState.view
  rw [h]
  unfold aged
  split
  · rename_i v
    rw [List.getElem?_map]
    cases hg : s.views[x]? with
    | none => exact .inl rfl
    | some w =>
      by_cases hw : w.src = .var v
      · exact .inr ⟨v, rfl, hw, rfl⟩
      · left; exact lose_src hw
  · exact .inl rfl

theorem sub_pos {w : View} {e : Buf} {q : Nat × Nat} (h : (w.sub e).pos = some q) :
    ∃ r, w.pos = some r ∧ q.1 = r.1 ∧ (w.sub e).src = w.src := by
  unfold View.sub at h ⊢
  split at h
  · cases h
  · rename_i hn
    rw [if_neg hn]
    cases ha : e.addr with
    | none => simp [ha] at h
    | some p =>
      cases hp : w.pos with
      | none => simp [ha, hp] at h
      | some r =>
        simp only [ha, hp, Option.bind_some, Option.map_some, Option.some.injEq] at h
        exact ⟨r, rfl, by rw [← h], rfl⟩

/-- What a step does to the owners. -/
theorem step_own {signed : Bool} {s t : VState} {op : VOp} (h : s.step signed op = .ok t) :
    (t.own = s.own ∧ (∀ o, op ≠ .plain o) ∧ ∀ v x, op ≠ .own v x) ∨
    (∃ o, op = .plain o ∧ s.own.step signed o = .ok t.own ∧ t.views = aged o s.views) ∨
    (∃ v x g, op = .own v x ∧ s.owner (s.view x) = .ok g ∧ t = { s with own := s.own.set v g }) := by
  cases op with
  | plain o => exact .inr (.inl ⟨o, rfl, step_plain h⟩)
  | look x v => cases h; exact .inl ⟨rfl, by simp, by simp⟩
  | get x y key =>
    simp only [VState.step] at h
    split at h
    · obtain ⟨e, _, h⟩ := Res.bind_eq_ok.1 h; cases h; exact .inl ⟨rfl, by simp, by simp⟩
    · cases h
  | getIdx x y i =>
    simp only [VState.step] at h
    split at h
    · obtain ⟨e, _, h⟩ := Res.bind_eq_ok.1 h; cases h; exact .inl ⟨rfl, by simp, by simp⟩
    · cases h
  | dup x y => cases h; exact .inl ⟨rfl, by simp, by simp⟩
  | take x y =>
    simp only [VState.step] at h
    split at h <;> cases h <;> exact .inl ⟨rfl, by simp, by simp⟩
  | own v x =>
    simp only [VState.step] at h
    obtain ⟨g, hg, h⟩ := Res.bind_eq_ok.1 h
    cases h
    exact .inr (.inr ⟨v, x, g, rfl, hg, rfl⟩)

/-- What a step does to a view: nothing; it makes it a view of a variable; of a part of another view; a copy;
or null; or it is the end of the life of the variable. -/
theorem step_view {signed : Bool} {s t : VState} {op : VOp} (h : s.step signed op = .ok t) (x : Nat) :
    t.view x = s.view x ∨
    (∃ v, op = .plain (.drop v) ∧ (s.view x).src = .var v ∧ t.view x = (s.view x).lose v) ∨
    (BufViews.Points x op ∧ ((∃ v, op = .look x v ∧ t.view x = (s.own.var v).look v) ∨
      (∃ y e, t.view x = (s.view y).sub e) ∨ (∃ y, t.view x = s.view y) ∨ t.view x = .null)) := by
  cases op with
  | plain o =>
    rcases aged_view (step_plain h).2 x with e | ⟨v, rfl, h1, h2⟩
    · exact .inl e
    · exact .inr (.inl ⟨v, rfl, h1, h2⟩)
  | look z v =>
    cases h
    by_cases hz : z = x
    · subst hz
      right; right
      refine ⟨rfl, ?_⟩
      rcases view_point (s := s) (x := z) (y := z) (w := (s.own.var v).look v) with e | e | e
      · exact .inr (.inr (.inl ⟨z, e⟩))
      · exact .inl ⟨v, rfl, e⟩
      · exact .inr (.inr (.inr e))
    · exact .inl (view_point_ne (Ne.symm hz))
  | get z y key =>
    simp only [VState.step] at h
    split at h
    · obtain ⟨b, _, h⟩ := Res.bind_eq_ok.1 h
      cases h
      by_cases hz : z = x
      · subst hz
        right; right
        refine ⟨rfl, ?_⟩
        rcases view_point (s := s) (x := z) (y := z) (w := (s.view y).sub b) with e | e | e
        · exact .inr (.inr (.inl ⟨z, e⟩))
        · exact .inr (.inl ⟨y, b, e⟩)
        · exact .inr (.inr (.inr e))
      · exact .inl (view_point_ne (Ne.symm hz))
    · cases h
  | getIdx z y i =>
    simp only [VState.step] at h
    split at h
    · obtain ⟨b, _, h⟩ := Res.bind_eq_ok.1 h
      cases h
      by_cases hz : z = x
      · subst hz
        right; right
        refine ⟨rfl, ?_⟩
        rcases view_point (s := s) (x := z) (y := z) (w := (s.view y).sub b) with e | e | e
        · exact .inr (.inr (.inl ⟨z, e⟩))
        · exact .inr (.inl ⟨y, b, e⟩)
        · exact .inr (.inr (.inr e))
      · exact .inl (view_point_ne (Ne.symm hz))
    · cases h
  | dup z y =>
    cases h
    by_cases hz : z = x
    · subst hz
      right; right
      refine ⟨rfl, ?_⟩
      rcases view_point (s := s) (x := z) (y := z) (w := s.view y) with e | e | e
      · exact .inr (.inr (.inl ⟨z, e⟩))
      · exact .inr (.inr (.inl ⟨y, e⟩))
      · exact .inr (.inr (.inr e))
    · exact .inl (view_point_ne (Ne.symm hz))
  | take z y =>
    simp only [VState.step] at h
    split at h
    · cases h; exact .inl rfl
    · cases h
      by_cases hy : y = x
      · subst hy
        right; right
        refine ⟨.inr rfl, ?_⟩
        by_cases hl : y < s.views.length
        · exact .inr (.inr (.inr (view_point_self (by simpa [VState.point] using hl))))
        · right; right; right; simp [VState.point, VState.view, hl]
      · by_cases hz : z = x
        · subst hz
          right; right
          refine ⟨.inl rfl, ?_⟩
          rw [view_point_ne (Ne.symm hy)]
          rcases view_point (s := s) (x := z) (y := z) (w := s.view y) with e | e | e
          · exact .inr (.inr (.inl ⟨z, e⟩))
          · exact .inr (.inr (.inl ⟨y, e⟩))
          · exact .inr (.inr (.inr e))
        · left; rw [view_point_ne (Ne.symm hy), view_point_ne (Ne.symm hz)]
  | own v y =>
    simp only [VState.step] at h
    obtain ⟨g, hg, h⟩ := Res.bind_eq_ok.1 h
    cases h
    exact .inl rfl

/-- What always holds. -/
structure VInv (s : VState) : Prop where
  own : Inv s.own
  pos : ∀ x q, (s.view x).pos = some q → q.1 < s.own.blocks.length

theorem start_view (n m x : Nat) : (VState.start n m).view x = .null := by
  unfold VState.start VState.view
  by_cases h : x < m <;> simp [h]

theorem vinv_start (n m : Nat) : VInv (.start n m) :=
  ⟨inv_start n, fun x q h => by rw [start_view] at h; cases h⟩

theorem owner_ok {s : VState} {w : View} {g : Handle} (h : s.owner w = .ok g) :
    g.type = w.type ∧ g.pos = w.pos ∧ ((w.src = .null ∧ g.ref = none) ∨ ∃ v, w.src = .var v ∧ g.ref = (s.own.var v).ref) := by
  unfold VState.owner at h
  split at h
  · rename_i e; cases h; exact ⟨rfl, rfl, .inl ⟨e, rfl⟩⟩
  · rename_i v e; cases h; exact ⟨rfl, rfl, .inr ⟨v, e, rfl⟩⟩
  · cases h

theorem vinv_step {signed : Bool} {s t : VState} {op : VOp} (hi : VInv s) (h : s.step signed op = .ok t) : VInv t := by
  have hown : Inv t.own ∧ s.own.blocks.length ≤ t.own.blocks.length := by
    rcases step_own h with ⟨e, _⟩ | ⟨o, _, e, _⟩ | ⟨v, x, g, _, hg, e⟩
    · rw [e]; exact ⟨hi.own, Nat.le_refl _⟩
    · exact ⟨inv_step hi.own e, step_mono e⟩
    · subst e
      obtain ⟨_, h2, h3⟩ := owner_ok hg
      refine ⟨inv_set hi.own v ?_ ?_, Nat.le_refl _⟩
      · intro b hb
        rcases h3 with ⟨_, h3⟩ | ⟨u, _, h3⟩
        · rw [h3] at hb; cases hb
        · rw [h3] at hb; exact ⟨hi.own.ref u b hb, ref_not_excl hi.own hb⟩
      · intro q hq; rw [h2] at hq; exact hi.pos x q hq
  refine ⟨hown.1, fun x q hq => Nat.lt_of_lt_of_le ?_ hown.2⟩
  rcases step_view h x with e | ⟨v, _, _, e⟩ | ⟨_, ⟨v, _, e⟩ | ⟨y, b, e⟩ | ⟨y, e⟩ | e⟩ <;> rw [e] at hq
  · exact hi.pos x q hq
  · rw [lose_pos] at hq; exact hi.pos x q hq
  · exact hi.own.pos v q hq
  · obtain ⟨r, hr, h1, _⟩ := sub_pos hq
    rw [h1]; exact hi.pos y r hr
  · exact hi.pos y q hq
  · cases hq

theorem vinv_run {signed : Bool} : ∀ (ops : List VOp) {s t : VState}, VInv s → s.run signed ops = .ok t → VInv t
  | [], s, t, hi, h => by cases h; exact hi
  | op :: ops, s, t, hi, h => by
    unfold VState.run at h
    cases hs : s.step signed op with
    | ok u => rw [hs] at h; exact vinv_run ops (vinv_step hi hs) h
    | throw e => rw [hs] at h; exact vinv_run ops hi h
    | ub => rw [hs] at h; cases h

theorem vinv_reachable {signed : Bool} {n m : Nat} {s : VState} (h : BufViews.Reachable signed n m s) : VInv s := by
  obtain ⟨ops, h⟩ := h; exact vinv_run ops (vinv_start n m) h

/-- A step that does not change the variable. -/
theorem vstep_var {signed : Bool} {s t : VState} {op : VOp} {v : Nat} (ha : ¬ BufViews.Changes v op)
    (h : s.step signed op = .ok t) : t.own.var v = s.own.var v := by
  rcases step_own h with ⟨e, _⟩ | ⟨o, rfl, e, _⟩ | ⟨u, x, g, rfl, hg, e⟩
  · rw [e]
  · exact step_var ha e
  · subst e; exact var_set_ne (Ne.symm ha)

theorem vstep_block {signed : Bool} {s t : VState} {op : VOp} {b : Nat} (hb : b < s.own.blocks.length) (he : b ∉ s.own.excl)
    (h : s.step signed op = .ok t) : t.own.blocks[b]? = s.own.blocks[b]? := by
  rcases step_own h with ⟨e, _⟩ | ⟨o, rfl, e, _⟩ | ⟨u, x, g, rfl, hg, e⟩
  · rw [e]
  · exact step_block hb he e
  · subst e; rfl

/-- A variable stays the same, and so does the block it owns. -/
theorem vrun_owner {signed : Bool} {v : Nat} : ∀ (ops : List VOp) {s t : VState}, VInv s →
    (∀ op ∈ ops, ¬ BufViews.Changes v op) → s.run signed ops = .ok t →
    t.own.var v = s.own.var v ∧ ∀ b, (s.own.var v).ref = some b → t.own.blocks[b]? = s.own.blocks[b]? ∧ t.own.alive b = true
  | [], s, t, hi, _, h => by
    cases h
    exact ⟨rfl, fun b hb => ⟨rfl, alive_iff.2 (.inr (.inr ⟨v, hb⟩))⟩⟩
  | op :: ops, s, t, hi, ha, h => by
    unfold VState.run at h
    cases hs : s.step signed op with
    | ok u =>
      rw [hs] at h
      have h1 := vstep_var (ha op (by simp)) hs
      have ih := vrun_owner ops (vinv_step hi hs) (fun o ho => ha o (by simp [ho])) h
      refine ⟨ih.1.trans h1, fun b hb => ?_⟩
      have h2 := ih.2 b (by rw [h1]; exact hb)
      exact ⟨h2.1.trans (vstep_block (hi.own.ref v b hb) (ref_not_excl hi.own hb) hs), h2.2⟩
    | throw e => rw [hs] at h; exact vrun_owner ops hi (fun o ho => ha o (by simp [ho])) h
    | ub => rw [hs] at h; cases h

/-- A view stays the same except that the variable may go. -/
theorem vrun_view {signed : Bool} {x : Nat} : ∀ (ops : List VOp) {s t : VState},
    (∀ op ∈ ops, ¬ BufViews.Points x op) → s.run signed ops = .ok t →
    (t.view x).type = (s.view x).type ∧ (t.view x).pos = (s.view x).pos ∧
    ((∀ v, (s.view x).src = .var v → ∀ op ∈ ops, ¬ BufViews.Changes v op) → (t.view x).src = (s.view x).src)
  | [], s, t, _, h => by cases h; exact ⟨rfl, rfl, fun _ => rfl⟩
  | op :: ops, s, t, ha, h => by
    unfold VState.run at h
    cases hs : s.step signed op with
    | ok u =>
      rw [hs] at h
      have ih := vrun_view ops (fun o ho => ha o (by simp [ho])) h
      rcases step_view hs x with e | ⟨v, rfl, h1, e⟩ | ⟨hp, _⟩
      · rw [e] at ih
        exact ⟨ih.1, ih.2.1, fun hv => ih.2.2 fun v h o ho => hv v h o (by simp [ho])⟩
      · refine ⟨by rw [ih.1, e, lose_type], by rw [ih.2.1, e, lose_pos], fun hv => ?_⟩
        exact absurd rfl (hv v h1 (.plain (.drop v)) (by simp))
      · exact absurd hp (ha op (by simp))
    | throw e =>
      rw [hs] at h
      have ih := vrun_view ops (fun o ho => ha o (by simp [ho])) h
      exact ⟨ih.1, ih.2.1, fun hv => ih.2.2 fun v h o ho => hv v h o (by simp [ho])⟩
    | ub => rw [hs] at h; cases h

theorem buf_congr {s t : State} {g h : Handle} (ht : g.type = h.type) (hp : g.pos = h.pos)
    (hb : ∀ b p, h.pos = some (b, p) → t.blocks[b]? = s.blocks[b]?) : t.buf g = s.buf h := by
  unfold State.buf
  rw [hp, ht]
  split
  · rfl
  · rename_i b p e; rw [hb b p e]

/-- The views of which the memory is owned by the variable they were made from. -/
def Fresh (s : VState) : Prop :=
  ∀ x b p, (s.view x).pos = some (b, p) → ∃ v, (s.view x).src = .var v ∧ (s.own.var v).ref = some b

structure Sound (s : VState) : Prop where
  inv : VInv s
  fresh : Fresh s
  owns : ∀ v, OwnsItsMemory (s.own.var v)
  there : ∀ x, (s.view x).src ≠ .gone

theorem sound_start (n m : Nat) : Sound (.start n m) := by
  refine ⟨vinv_start n m, fun x b p h => (by rw [start_view] at h; cases h), fun v => ?_, fun x => by rw [start_view]; nofun⟩
  have : (State.start n).var v = .null := by
    unfold State.start State.var
    by_cases h : v < n <;> simp [h]
  show OwnsItsMemory ((State.start n).var v)
  rw [this]; exact owns_null

theorem sound_owner {s : VState} (hi : Sound s) {x : Nat} {g : Handle} (h : s.owner (s.view x) = .ok g) : OwnsItsMemory g := by
  obtain ⟨_, h2, h3⟩ := owner_ok h
  intro b p hp
  rw [h2] at hp
  obtain ⟨v, hv, hr⟩ := hi.fresh x b p hp
  rcases h3 with ⟨h3, _⟩ | ⟨u, hu, h3⟩
  · rw [hv] at h3; cases h3
  · rw [hv] at hu; cases hu; rw [h3]; exact hr

theorem covered_var {s : VState} {op : VOp} (hc : BufViews.Covered s op) {x v : Nat} (h : (s.view x).src = .var v) :
    ¬ BufViews.Changes v op := by
  have := hc.1 _ (view_src_mem h)
  unfold BufViews.Spares at this
  rw [h] at this
  exact this

theorem sound_step {signed : Bool} {s t : VState} {op : VOp} (hi : Sound s) (hc : BufViews.Covered s op)
    (h : s.step signed op = .ok t) : Sound t := by
  have keep : ∀ {x v}, (s.view x).src = .var v → t.own.var v = s.own.var v := fun hx => vstep_var (covered_var hc hx) h
  refine ⟨vinv_step hi.inv h, ?_, ?_, ?_⟩
  · intro x b p hp
    rcases step_view h x with e | ⟨v, rfl, h1, e⟩ | ⟨_, ⟨v, ho, e⟩ | ⟨y, f, e⟩ | ⟨y, e⟩ | e⟩
    · rw [e] at hp ⊢
      obtain ⟨v, hv, hr⟩ := hi.fresh x b p hp
      exact ⟨v, hv, by rw [keep hv]; exact hr⟩
    · exact absurd rfl (covered_var hc h1)
    · rw [e] at hp ⊢
      have hown : t.own = s.own := by subst ho; cases h; rfl
      exact ⟨v, rfl, by rw [hown]; exact hi.owns v b p hp⟩
    · rw [e] at hp ⊢
      obtain ⟨r, hr, h1, h2⟩ := sub_pos hp
      obtain ⟨v, hv, hw⟩ := hi.fresh y r.1 r.2 hr
      refine ⟨v, by rw [h2]; exact hv, ?_⟩
      rw [keep hv, hw]; simp at h1; rw [h1]
    · rw [e] at hp ⊢
      obtain ⟨v, hv, hr⟩ := hi.fresh y b p hp
      exact ⟨v, hv, by rw [keep hv]; exact hr⟩
    · rw [e] at hp; cases hp
  · rcases step_own h with ⟨e, _⟩ | ⟨o, rfl, e, _⟩ | ⟨u, x, g, rfl, hg, e⟩
    · rw [e]; exact hi.owns
    · exact step_owns hi.owns hc.2 e
    · subst e; exact owns_set hi.owns (sound_owner hi hg)
  · intro x
    rcases step_view h x with e | ⟨v, rfl, h1, e⟩ | ⟨_, ⟨v, ho, e⟩ | ⟨y, f, e⟩ | ⟨y, e⟩ | e⟩
    · rw [e]; exact hi.there x
    · exact absurd rfl (covered_var hc h1)
    · rw [e]; nofun
    · rw [e]; unfold View.sub; split
      · nofun
      · exact hi.there y
    · rw [e]; exact hi.there y
    · rw [e]; nofun

theorem sound_run {signed : Bool} : ∀ (ops : List VOp) {s t : VState}, Sound s → BufViews.CoveredRun signed s ops →
    s.run signed ops = .ok t → Sound t
  | [], s, t, hi, _, h => by cases h; exact hi
  | op :: ops, s, t, hi, hc, h => by
    unfold VState.run at h
    obtain ⟨h1, h2⟩ := hc
    cases hs : s.step signed op with
    | ok u => rw [hs] at h h2; exact sound_run ops (sound_step hi h1 hs) h2 h
    | throw e => rw [hs] at h h2; exact sound_run ops hi h2 h
    | ub => rw [hs] at h; cases h

theorem sound_readable {s : VState} (hi : Sound s) (x : Nat) : BufViews.Readable s (s.view x) := by
  intro b p hp
  obtain ⟨v, _, hr⟩ := hi.fresh x b p hp
  exact alive_iff.2 (.inr (.inr ⟨v, hr⟩))

/-- In covered programs a view that is left alone shows the same. -/
theorem sound_seen {signed : Bool} {x : Nat} : ∀ (ops : List VOp) {s t : VState}, Sound s → BufViews.CoveredRun signed s ops →
    (∀ op ∈ ops, ¬ BufViews.Points x op) → s.run signed ops = .ok t →
    t.view x = s.view x ∧ t.seen (t.view x) = s.seen (s.view x)
  | [], s, t, _, _, _, h => by cases h; exact ⟨rfl, rfl⟩
  | op :: ops, s, t, hi, hc, ha, h => by
    unfold VState.run at h
    obtain ⟨h1, h2⟩ := hc
    cases hs : s.step signed op with
    | ok u =>
      rw [hs] at h h2
      have ih := sound_seen ops (sound_step hi h1 hs) h2 (fun o ho => ha o (by simp [ho])) h
      have hv : u.view x = s.view x := by
        rcases step_view hs x with e | ⟨v, rfl, hx, e⟩ | ⟨hp, _⟩
        · exact e
        · exact absurd rfl (covered_var h1 hx)
        · exact absurd hp (ha op (by simp))
      refine ⟨ih.1.trans hv, ih.2.trans ?_⟩
      rw [hv]
      refine buf_congr rfl rfl fun b p hp => ?_
      obtain ⟨v, _, hr⟩ := hi.fresh x b p hp
      exact vstep_block (hi.inv.own.ref v b hr) (ref_not_excl hi.inv.own hr) hs
    | throw e => rw [hs] at h h2; exact sound_seen ops hi h2 (fun o ho => ha o (by simp [ho])) h
    | ub => rw [hs] at h; cases h

end Dart.Own
