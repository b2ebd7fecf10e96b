import Verif.Lemmas.Cow
import Verif.Lemmas.Heap
import Verif.Spec.Indep

/-
Copy on write: every statement acts as on private values.
-/
namespace Dart.Cow
open Dart.Spec.Indep

/-- The keys of every object are sorted. -/
def Tidy (c : Cells) : Prop := ∀ a x fs, c.at a = some x → x.body = .fields fs →
  (fs.map (·.1)).Pairwise fun a b => keyLt a b = true

theorem Tidy.sub {c c' : Cells} (h : Tidy c) (hs : Sub c' c) : Tidy c' := by
  intro a x fs hx hb
  obtain ⟨y, hy, e⟩ := hs a x hx
  exact h a y fs hy (e.trans hb)

/-- The value of the cell at `a`. -/
def Body.ref (a : Nat) : Body → Ref
  | .fields _ => .obj a
  | .elems _ => .arr a

/-- Every live cell has a finite value: no cycles, no dangling references. -/
def Whole (c : Cells) : Prop := ∀ a x, c.at a = some x → ∃ d v, view c d (x.body.ref a) = some v

theorem ref_addr (a : Nat) (b : Body) : (b.ref a).addr = some a := by cases b <;> rfl

theorem Whole.sub {c c' : Cells} {own : List Ref} (h : Whole c) (hs : Sub c' c) (hc : Counted c' own) : Whole c' := by
  have hv : ∀ d r, (∀ a, r.addr = some a → ∃ x, c'.at a = some x) → view c d r = view c' d r := by
    intro d r hr
    refine view_agree (fun r => ∀ a, r.addr = some a → ∃ x, c'.at a = some x) (fun r a hr ha => ?_)
      (fun r a x hr ha hx r' hr' b hb => ?_) d r hr
    · obtain ⟨x, hx⟩ := hr a ha
      obtain ⟨y, hy, e⟩ := hs a x hx
      rw [hx, hy, Option.map_some, Option.map_some, e]
    · exact hc.live (by have := occ_pos (mem_refs hx hr') hb; omega)
  intro a x hx
  obtain ⟨y, hy, e⟩ := hs a x hx
  obtain ⟨d, v, hd⟩ := h a y hy
  rw [e] at hd
  refine ⟨d, v, ?_⟩
  rw [← hv]
  · exact hd
  · intro b hb
    rw [ref_addr] at hb
    cases hb
    exact ⟨x, hx⟩

theorem whole_alloc {c : Cells} {x : Cell} (h : Whole c) (hx : ∃ d v, view (c ++ [some x]) d (x.body.ref c.length) = some v) :
    Whole (c ++ [some x]) := by
  intro a y hy
  by_cases ha : a < c.length
  · rw [at_append ha] at hy
    obtain ⟨d, v, hv⟩ := h a y hy
    exact ⟨d, v, view_append _ hv⟩
  · have : a = c.length := by
      have := at_lt hy
      simp only [List.length_append, List.length_singleton] at this
      omega
    subst this
    rw [at_append_new] at hy
    cases hy
    exact hx

/-- The heap cells are correctly counted and every variable shows its value. -/
structure Sim (s : State) (e : Env) : Prop where
  counted : Counted s.cells s.vars
  len : s.vars.length = e.length
  holds : ∀ x, ∃ d, view s.cells d (s.var x) = some (e.var x)
  tidy : Tidy s.cells
  whole : Whole s.cells

theorem var_set (c c' : Cells) (vars : List Ref) (x z : Nat) (r : Ref) (hx : x < vars.length) :
    (⟨c, vars.set x r⟩ : State).var z = if z = x then r else (⟨c', vars⟩ : State).var z := by
  simp only [State.var]
  by_cases h : z = x
  · subst h; simp [hx]
  · rw [if_neg h, List.getElem?_set_ne (Ne.symm h)]

theorem env_set (e : Env) (x z : Nat) (v : Val) (hx : x < e.length) :
    Env.var (e.set x v) z = if z = x then v else e.var z := by
  simp only [Env.var]
  by_cases h : z = x
  · subst h; simp [hx]
  · rw [if_neg h, List.getElem?_set_ne (Ne.symm h)]

theorem var_mem {s : State} {x : Nat} (h : x < s.vars.length) : s.var x ∈ s.vars := by
  simp only [State.var, List.getElem?_eq_getElem h, Option.getD_some]
  exact List.getElem_mem _

theorem var_eq {s : State} {x : Nat} (h : x < s.vars.length) : s.var x = s.vars[x] := by
  simp [State.var, h]

theorem assign_ok {c : Cells} {vars : List Ref} {x : Nat} {r : Ref} (h : Counted c (r :: vars)) (hx : x < vars.length) :
    ∃ c', assign ⟨c, vars⟩ x r = some ⟨c', vars.set x r⟩ ∧ Counted c' (vars.set x r) ∧ c'.length = c.length ∧
      (∀ a, cnt c' a ≤ cnt c a) ∧ (∀ r' ∈ vars.set x r, ∀ d, view c' d r' = view c d r') ∧ Sub c' c := by
  have hC : Counted c ([(⟨c, vars⟩ : State).var x] ++ vars.set x r) := by
    refine ⟨fun a => ?_, h.pos⟩
    have h1 := h.eq a
    have h2 := occ_set (a := a) (i := x) r hx
    rw [occ_cons] at h1
    rw [occ_append, var_eq hx]
    simp only
    omega
  obtain ⟨c', h1, h2, h3, h4, h5⟩ := drops_ok (c.refs.length + 1) hC (by simp only [List.length_singleton]; omega)
  exact ⟨c', by simp only [assign, drop, h1, Option.map_some], h2, h3, h4, h5, drops_sub _ h1⟩

theorem mem_vars {s : State} {z : Nat} (hz : z < s.vars.length) {c : Cells} {x : Nat} {r : Ref} :
    (⟨c, s.vars.set x r⟩ : State).var z ∈ s.vars.set x r :=
  var_mem (s := ⟨c, s.vars.set x r⟩) (by simpa using hz)

/-- Assigning an owned value to a variable. -/
theorem Sim.assign {s : State} {e : Env} {c : Cells} {x : Nat} {r : Ref} {v : Val} (hlen : s.vars.length = e.length)
    (hc : Counted c (r :: s.vars)) (hx : x < s.vars.length) (hr : ∃ d, view c d r = some v)
    (ho : ∀ z, z ≠ x → ∃ d, view c d (s.var z) = some (e.var z)) (ht : Tidy c) (hw : Whole c) :
    ∃ s', Cow.assign ⟨c, s.vars⟩ x r = some s' ∧ Sim s' (e.set x v) ∧ s'.vars = s.vars.set x r ∧
      (∀ a, cnt s'.cells a ≤ cnt c a) := by
  obtain ⟨c', h1, h2, h3, h4, h5, hsub⟩ := assign_ok hc hx
  refine ⟨⟨c', s.vars.set x r⟩, h1, ⟨h2, by simpa using hlen, fun z => ?_, ht.sub hsub, hw.sub hsub h2⟩, rfl, h4⟩
  by_cases hz : z < s.vars.length
  · have h6 := h5 _ (mem_vars (c := c') hz)
    simp only [h6]
    rw [var_set c' s.cells s.vars x z r hx, env_set e x z v (by omega)]
    by_cases hzx : z = x
    · simp only [hzx, if_true]; exact hr
    · simp only [hzx, if_false]; exact ho z hzx
  · rw [var_set c' s.cells s.vars x z r hx, env_set e x z v (by omega), if_neg (by omega), if_neg (by omega)]
    have : (⟨s.cells, s.vars⟩ : State).var z = .null := by simp [State.var, List.getElem?_eq_none (show s.vars.length ≤ z by omega)]
    rw [this]
    have : e.var z = .null := by simp [Env.var, List.getElem?_eq_none (show e.length ≤ z by omega)]
    rw [this]
    exact ⟨0, by simp [view]⟩

theorem holds_obj {c : Cells} {a : Nat} {v : Val} (h : ∃ d, view c d (.obj a) = some v) :
    ∃ n fs d vs, c.at a = some ⟨n, .fields fs⟩ ∧ mapFields (view c d) fs = some vs ∧ v = .obj vs := by
  obtain ⟨d, h⟩ := h
  cases d with
  | zero => simp [view] at h
  | succ d =>
    rw [view_obj] at h
    split at h
    · rename_i n fs hx
      rw [Option.map_eq_some_iff] at h
      obtain ⟨vs, h1, h2⟩ := h
      exact ⟨n, fs, d, vs, hx, h1, h2.symm⟩
    · cases h

theorem holds_arr {c : Cells} {a : Nat} {v : Val} (h : ∃ d, view c d (.arr a) = some v) :
    ∃ n es d vs, c.at a = some ⟨n, .elems es⟩ ∧ mapElems (view c d) es = some vs ∧ v = .arr vs := by
  obtain ⟨d, h⟩ := h
  cases d with
  | zero => simp [view] at h
  | succ d =>
    rw [view_arr] at h
    split at h
    · rename_i n es hx
      rw [Option.map_eq_some_iff] at h
      obtain ⟨vs, h1, h2⟩ := h
      exact ⟨n, es, d, vs, hx, h1, h2.symm⟩
    · cases h

theorem cnt_append_new (c : Cells) (x : Cell) (a : Nat) :
    cnt (c ++ [some x]) a = if a = c.length then x.count else cnt c a := by
  simp only [cnt]
  by_cases h : a = c.length
  · subst h; simp [at_append_new]
  · rw [if_neg h]
    by_cases h' : a < c.length
    · rw [at_append h']
    · have h1 : Cells.at (c ++ [some x]) a = none := by
        simp only [Cells.at]
        rw [List.getElem?_eq_none (by simp; omega)]; rfl
      have h2 : c.at a = none := by
        simp only [Cells.at]
        rw [List.getElem?_eq_none (by omega)]; rfl
      rw [h1, h2]

theorem cnt_length (c : Cells) : cnt c c.length = 0 := by
  have h2 : c.at c.length = none := by
    simp only [Cells.at]
    rw [List.getElem?_eq_none (by omega)]; rfl
  simp [cnt, h2]

/-- Allocating a cell whose contents are already owned. -/
theorem counted_alloc {c : Cells} {own : List Ref} {body : Body} {r : Ref} (h : Counted c (body.refs ++ own))
    (hr : r.addr = some c.length) : Counted (c ++ [some ⟨1, body⟩]) (r :: own) := by
  refine ⟨fun a => ?_, fun a x hx => ?_⟩
  · have h1 := h.eq a
    rw [refs_append, occ_cons, occ_append, cnt_append_new]
    have h2 : occ a (Cells.refs [some ⟨1, body⟩]) = occ a body.refs := by simp [Cells.refs]
    rw [h2]
    rw [occ_append] at h1
    by_cases ha : a = c.length
    · subst ha
      rw [cnt_length] at h1
      rw [occ_one hr, if_pos rfl]
      simp only
      omega
    · rw [occ_one_none (by rw [hr]; simpa using fun h => ha h.symm), if_neg ha]
      omega
  · by_cases ha : a < c.length
    · rw [at_append ha] at hx; exact h.pos a x hx
    · have : a = c.length := by
        have := at_lt hx
        simp only [List.length_append, List.length_singleton] at this
        omega
      subst this
      rw [at_append_new] at hx
      cases hx
      exact Nat.one_pos

theorem tidy_alloc {c : Cells} {x : Cell} (h : Tidy c)
    (hx : ∀ fs, x.body = .fields fs → (fs.map (·.1)).Pairwise fun a b => keyLt a b = true) :
    Tidy (c ++ [some x]) := by
  intro a y fs hy hb
  by_cases ha : a < c.length
  · rw [at_append ha] at hy; exact h a y fs hy hb
  · have : a = c.length := by
      have := at_lt hy
      simp only [List.length_append, List.length_singleton] at this
      omega
    subst this
    rw [at_append_new] at hy
    cases hy
    exact hx fs hb

/-- After `copy_on_write` nothing has changed to the outside, and `x` owns its storage alone. -/
theorem cow_ok {s : State} {e : Env} {x : Nat} (h : Sim s e) (hx : x < s.vars.length) :
    ∃ s', cow s x = some s' ∧ Sim s' e ∧ s'.vars.length = s.vars.length ∧ (∀ z, z ≠ x → s'.var z = s.var z) ∧
      (∀ a, (s'.var x).addr = some a → cnt s'.cells a = 1) := by
  unfold cow
  cases ha : (s.var x).addr with
  | none => exact ⟨s, rfl, h, rfl, fun _ _ => rfl, fun a h' => by rw [ha] at h'; cases h'⟩
  | some a =>
    have hpos : 0 < occ a s.vars := occ_pos (var_mem hx) ha
    obtain ⟨cell, hcell⟩ := h.counted.live (a := a) (by omega)
    simp only [hcell]
    by_cases hgt : cell.count > 1
    · rw [if_pos hgt]
      obtain ⟨c, h1, h2, h3, h4⟩ := incrAll_ok (rs := cell.body.refs) h.counted (fun r hr => .inr (mem_refs hcell hr))
      simp only [h1, Option.bind_some]
      obtain ⟨r, hr⟩ : ∃ r, (match cell.body with | .fields _ => Ref.obj c.length | .elems _ => Ref.arr c.length) = r := ⟨_, rfl⟩
      have hra : r.addr = some c.length := by rw [← hr]; cases cell.body <;> rfl
      have hview : ∃ d, view (c ++ [some ⟨1, cell.body⟩]) d r = some (e.var x) := by
        have hv := h.holds x
        cases hvx : s.var x with
        | obj a' =>
          rw [hvx] at hv ha
          cases ha
          obtain ⟨n, fs, d, vs, g1, g2, g3⟩ := holds_obj hv
          rw [hcell] at g1; cases g1
          simp only at hr; subst hr
          refine ⟨d + 1, ?_⟩
          rw [view_obj, at_append_new, g3]
          simp only
          rw [mapFields_mono fs (fun r v hv => view_append _ (by rw [view_sameBodies h3]; exact hv)) vs g2]
          rfl
        | arr a' =>
          rw [hvx] at hv ha
          cases ha
          obtain ⟨n, fs, d, vs, g1, g2, g3⟩ := holds_arr hv
          rw [hcell] at g1; cases g1
          simp only at hr; subst hr
          refine ⟨d + 1, ?_⟩
          rw [view_arr, at_append_new, g3]
          simp only
          rw [mapElems_mono fs (fun r v hv => view_append _ (by rw [view_sameBodies h3]; exact hv)) vs g2]
          rfl
        | _ => rw [hvx] at ha; simp [Ref.addr] at ha
      have hrr : r = cell.body.ref c.length := by rw [← hr]; cases cell.body <;> rfl
      obtain ⟨s', g1, g2, g3, g4⟩ := Sim.assign h.len (counted_alloc h2 hra) hx hview (fun z _ => by
        obtain ⟨d, hd⟩ := h.holds z
        exact ⟨d, view_append _ (by rw [view_sameBodies h3]; exact hd)⟩)
        (tidy_alloc (h.tidy.sub h3.sub) (fun fs hb => h.tidy a cell fs hcell hb))
        (whole_alloc (h.whole.sub h3.sub h2) (by obtain ⟨d, hd⟩ := hview; exact ⟨d, _, hrr ▸ hd⟩))
      have hee : e.set x (e.var x) = e := by
        have : e.var x = e[x]'(by have := h.len; omega) := by simp [Env.var, show x < e.length by have := h.len; omega]
        rw [this]; exact List.set_getElem_self _
      rw [hee] at g2
      refine ⟨s', by rw [← g1, ← hr]; cases cell.body <;> rfl, g2, by rw [g3]; simp, fun z hz => ?_, fun b hb => ?_⟩
      · have := var_set s'.cells s.cells s.vars x z r hx
        rw [if_neg hz] at this
        rw [← this, ← g3]
      · have h5 : s'.var x = r := by
          have := var_set s'.cells s.cells s.vars x x r hx
          rw [if_pos rfl] at this
          rw [← this, ← g3]
        have h6 := g4 b
        rw [h5, hra] at hb
        cases hb
        rw [cnt_append_new, if_pos rfl] at h6
        have h7 := g2.counted.eq c.length
        have h8 : 0 < occ c.length s'.vars := occ_pos (r := r) (h5 ▸ var_mem (by rw [g3]; simpa using hx)) hra
        simp only at h6
        omega
    · rw [if_neg hgt]
      refine ⟨s, rfl, h, rfl, fun _ _ => rfl, fun b hb => ?_⟩
      rw [ha] at hb; cases hb
      rw [cnt_some hcell]
      have := h.counted.pos a cell hcell
      omega

/-- Storage with a single owner: nobody else refers to it. -/
theorem alone {s : State} {e : Env} {x a : Nat} (h : Sim s e) (hx : x < s.vars.length)
    (ha : (s.var x).addr = some a) (h1 : cnt s.cells a = 1) :
    occ a s.cells.refs = 0 ∧ ∀ z, z ≠ x → (s.var z).addr ≠ some a := by
  have hocc := h.counted.eq a
  rw [h1] at hocc
  have hpos : 0 < occ a s.vars := occ_pos (var_mem hx) ha
  have hz : occ a s.cells.refs = 0 := by omega
  refine ⟨hz, fun z hzx haz => ?_⟩
  by_cases hzl : z < s.vars.length
  · have h2 := occ_set (a := a) (i := x) .null hx
    rw [← var_eq hx, occ_one ha, occ_one_none (by simp [Ref.addr])] at h2
    have h3 : 0 < occ a (s.vars.set x .null) := by
      refine occ_pos (r := s.var z) ?_ haz
      rw [List.mem_iff_getElem?]
      exact ⟨z, by rw [List.getElem?_set_ne (Ne.symm hzx), var_eq hzl]; simp [hzl]⟩
    omega
  · simp [State.var, List.getElem?_eq_none (show s.vars.length ≤ z by omega), Ref.addr] at haz

/-- Changing the contents of storage owned by `x` alone. -/
theorem store_ok {s : State} {e : Env} {x a : Nat} {cell : Cell} {body : Body} {new old : List Ref} {v : Val}
    (h : Sim s e) (hx : x < s.vars.length) (ha : (s.var x).addr = some a) (h1 : cnt s.cells a = 1)
    (hcell : s.cells.at a = some cell) (hnew : ∀ r ∈ new, r ∈ s.vars ∧ r.addr ≠ some a)
    (hcount : ∀ b, occ b new + occ b cell.body.refs = occ b body.refs + occ b old)
    (htidy : ∀ fs, body = .fields fs → (fs.map (·.1)).Pairwise fun a b => keyLt a b = true)
    (hkind : body.ref a = s.var x) (hview : ∀ n, ∃ d, view (s.cells.set a (some ⟨n, body⟩)) d (s.var x) = some v) :
    ∃ s', store s a cell body new old = some s' ∧ Sim s' (e.set x v) ∧ s'.vars = s.vars := by
  obtain ⟨hz, hother⟩ := alone h hx ha h1
  obtain ⟨c, g1, g2, g3, g4⟩ := incrAll_ok (rs := new) h.counted (fun r hr => .inl (hnew r hr).1)
  have hca : ∃ n, c.at a = some ⟨n, cell.body⟩ := by
    have := g3 a
    rw [hcell] at this
    simp only [Option.map_some, Option.map_eq_some_iff] at this
    obtain ⟨⟨n, b⟩, h5, h6⟩ := this
    simp only at h6
    exact ⟨n, by rw [h5, h6]⟩
  obtain ⟨n, hca⟩ := hca
  have hcrefs := sameBodies_refs g4 g3
  have hC : Counted (c.set a (some ⟨n, body⟩)) (old ++ s.vars) := by
    refine ⟨fun b => ?_, fun b y hy => ?_⟩
    · have h5 := g2.eq b
      have h6 := occ_refs_set (some ⟨n, body⟩) hca b
      have h7 := hcount b
      simp only [optRefs] at h6
      rw [occ_append] at h5 ⊢
      by_cases hb : a = b
      · subst hb
        rw [cnt_set_self (at_lt hca)]
        rw [cnt_some hca] at h5
        simp only at h5 ⊢
        omega
      · rw [cnt_set_ne hb]
        omega
    · by_cases hb : a = b
      · subst hb
        rw [at_set_self (at_lt hca)] at hy
        cases hy
        exact g2.pos a ⟨n, cell.body⟩ hca
      · rw [at_set_ne hb] at hy
        exact g2.pos b y hy
  obtain ⟨c', k1, k2, k3, _, k5⟩ := drops_ok ((Cells.refs (c.set a (some ⟨n, body⟩))).length + old.length) hC (by omega)
  have ht : Tidy (c.set a (some ⟨n, body⟩)) := by
    intro b y fs hy hb
    by_cases hab : a = b
    · subst hab
      rw [at_set_self (at_lt hca)] at hy
      cases hy
      exact htidy fs hb
    · rw [at_set_ne hab] at hy
      exact h.tidy.sub g3.sub b y fs hy hb
  have hsb : SameBodies (s.cells.set a (some ⟨n, body⟩)) (c.set a (some ⟨n, body⟩)) := by
    intro b
    by_cases hb : a = b
    · subst hb; rw [at_set_self (at_lt hca), at_set_self (at_lt hcell)]
    · rw [at_set_ne hb, at_set_ne hb]; exact g3 b
  have hw : Whole (c.set a (some ⟨n, body⟩)) := by
    intro b y hy
    simp only [view_sameBodies hsb]
    by_cases hab : a = b
    · subst hab
      rw [at_set_self (at_lt hca)] at hy
      cases hy
      obtain ⟨d, hd⟩ := hview n
      simp only [hkind]
      exact ⟨d, _, hd⟩
    · rw [at_set_ne hab] at hy
      obtain ⟨y', hy', e'⟩ := g3.sub b y hy
      obtain ⟨d, v', hd⟩ := h.whole b y' hy'
      refine ⟨d, v', ?_⟩
      rw [view_set _ hz (by rw [ref_addr]; simpa using fun e => hab e.symm), ← e']
      exact hd
  refine ⟨⟨c', s.vars⟩, ?_, ⟨k2, by simpa using h.len, fun z => ?_, ht.sub (drops_sub _ k1),
    hw.sub (drops_sub _ k1) k2⟩, rfl⟩
  · simp only [store, g1, Option.bind_some, hca, Option.map_some, Option.getD_some]
    rw [k1]; rfl
  · rw [env_set e x z v (by have := h.len; omega)]
    have hkeep : ∀ d, view c' d (s.var z) = view (s.cells.set a (some ⟨n, body⟩)) d (s.var z) := by
      intro d
      by_cases hzl : z < s.vars.length
      · rw [k5 _ (var_mem hzl), view_sameBodies hsb]
      · simp [State.var, List.getElem?_eq_none (show s.vars.length ≤ z by omega), view]
    show ∃ d, view c' d (s.var z) = _
    simp only [hkeep]
    by_cases hzx : z = x
    · subst hzx
      rw [if_pos rfl]
      exact hview n
    · rw [if_neg hzx]
      obtain ⟨d, hd⟩ := h.holds z
      exact ⟨d, by rw [view_set _ hz (hother z hzx)]; exact hd⟩

end Dart.Cow
