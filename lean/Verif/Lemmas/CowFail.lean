import Verif.Lemmas.CowOps
import Verif.Spec.CowFail

/-
Programs over dynamic values when memory runs out.
-/
namespace Dart.Cow
open Dart.Spec.Indep

theorem cowOver_one (s : State) (x : Nat) : cowOver s x 1 = cow s x := rfl

/-- Values copied and destroyed again: nothing changes that can be seen. -/
theorem Sim.unwind {s : State} {e : Env} {c c' : Cells} (h : Sim s e)
    (hs : Sub c' c) (hc : Counted c' s.vars) (hv : ∀ r ∈ s.vars, ∀ d, view c' d r = view c d r)
    (hview : ∀ r d v, view s.cells d r = some v → view c d r = some v) (ht : Tidy c) (hw : Whole c) : Sim ⟨c', s.vars⟩ e := by
  refine ⟨hc, h.len, fun z => ?_, ht.sub hs, hw.sub hs hc⟩
  obtain ⟨d, hd⟩ := h.holds z
  by_cases hz : z < s.vars.length
  · exact ⟨d, by
      show view c' d (s.var z) = _
      rw [hv _ (var_mem hz)]
      exact hview _ _ _ hd⟩
  · have h1 : s.var z = .null := by simp [State.var, List.getElem?_eq_none (show s.vars.length ≤ z by omega)]
    rw [h1] at hd
    exact ⟨d, by
      show view c' d (s.var z) = _
      rw [h1]
      cases d <;> simpa [view] using hd⟩

theorem cowFail_ok {k : Share.Kind} {s : State} {e : Env} {x : Nat} {f : Fault} (h : Sim s e) (hx : x < s.vars.length)
    (hk : k = .own → f ≠ .block) :
    ∃ s' b, cowFail k s x 1 f = some (s', b) ∧ Sim s' e ∧ s'.vars.length = s.vars.length ∧ (b = true → f ≠ .none) := by
  unfold cowFail
  cases ha : (s.var x).addr with
  | none => exact ⟨s, false, rfl, h, rfl, nofun⟩
  | some a =>
    have hpos : 0 < occ a s.vars := occ_pos (var_mem hx) ha
    obtain ⟨cell, hcell⟩ := h.counted.live (a := a) (by omega)
    simp only [hcell]
    by_cases hgt : cell.count > 1
    · rw [if_pos hgt]
      have plain : ∃ s' b, (cowOver s x 1).map (fun s => (s, false)) = some (s', b) ∧ Sim s' e ∧
          s'.vars.length = s.vars.length ∧ (b = true → f ≠ .none) := by
        obtain ⟨s1, c1, c2, c3, _⟩ := cow_ok h hx
        exact ⟨s1, false, by rw [cowOver_one, c1]; rfl, c2, c3, nofun⟩
      cases f with
      | copy j =>
        obtain ⟨c, h1, h2, h3, h4⟩ := incrAll_ok (rs := cell.body.refs.take j) h.counted
          (fun r hr => .inr (mem_refs hcell (List.mem_of_mem_take hr)))
        obtain ⟨c', g1, g2, g3, g4, g5⟩ := drops_ok (c.refs.length + (cell.body.refs.take j).length) h2 (by omega)
        refine ⟨⟨c', s.vars⟩, true, by simp only [h1, Option.bind_some, g1, Option.map_some], ?_, rfl, fun _ => nofun⟩
        exact h.unwind (drops_sub _ g1) g2 g5
          (fun r d v hv => by rw [view_sameBodies h3]; exact hv) (h.tidy.sub h3.sub) (h.whole.sub h3.sub h2)
      | block =>
        cases k with
        | own => exact absurd rfl (hk rfl)
        | std =>
          obtain ⟨c, h1, h2, h3, h4⟩ := incrAll_ok (rs := cell.body.refs) h.counted (fun r hr => .inr (mem_refs hcell hr))
          obtain ⟨r, hr⟩ : ∃ r, (match cell.body with | .fields _ => Ref.obj c.length | .elems _ => Ref.arr c.length) = r := ⟨_, rfl⟩
          have hra : r.addr = some c.length := by rw [← hr]; cases cell.body <;> rfl
          have hrr : r = cell.body.ref c.length := by rw [← hr]; cases cell.body <;> rfl
          have hC := counted_alloc h2 hra
          obtain ⟨c', g1, g2, g3, g4, g5⟩ := drops_ok (w := [r]) (own := s.vars) ((c ++ [some ⟨1, cell.body⟩] : Cells).refs.length + 1) hC
            (by simp only [List.length_singleton]; omega)
          refine ⟨⟨c', s.vars⟩, true, ?_, ?_, rfl, fun _ => nofun⟩
          · simp only [h1, Option.bind_some, drop]
            rw [← hr] at g1
            cases hcb : cell.body <;> rw [hcb] at g1 <;> simp only [hcb] at g1 ⊢ <;> rw [g1] <;> rfl
          · have hwhole : ∃ d v, view (c ++ [some ⟨1, cell.body⟩]) d (cell.body.ref c.length) = some v := by
              obtain ⟨d, v, hd⟩ := h.whole a cell hcell
              obtain ⟨n, body⟩ := cell
              cases body with
              | fields fs =>
                obtain ⟨_, fs', d, vs, q1, q2, q3⟩ := holds_obj ⟨d, hd⟩
                rw [hcell] at q1; cases q1
                refine ⟨d + 1, .obj vs, ?_⟩
                simp only [Body.ref]
                rw [view_obj, at_append_new]
                simp only
                rw [mapFields_mono fs (fun r v hv => view_append _ (by rw [view_sameBodies h3]; exact hv)) vs q2]
                rfl
              | elems fs =>
                obtain ⟨_, fs', d, vs, q1, q2, q3⟩ := holds_arr ⟨d, hd⟩
                rw [hcell] at q1; cases q1
                refine ⟨d + 1, .arr vs, ?_⟩
                simp only [Body.ref]
                rw [view_arr, at_append_new]
                simp only
                rw [mapElems_mono fs (fun r v hv => view_append _ (by rw [view_sameBodies h3]; exact hv)) vs q2]
                rfl
            exact h.unwind (c := c ++ [some ⟨1, cell.body⟩]) (drops_sub _ g1) g2 g5
              (fun r d v hv => view_append _ (by rw [view_sameBodies h3]; exact hv))
              (tidy_alloc (h.tidy.sub h3.sub) (fun fs hb => h.tidy a cell fs hcell hb))
              (whole_alloc (h.whole.sub h3.sub h2) hwhole)
      | none => exact plain
      | convert => exact plain
      | grow => exact plain
    · rw [if_neg hgt]
      exact ⟨s, false, rfl, h, rfl, nofun⟩

/-- One statement: executed, or nothing happened. -/
def GoodF (s : State) (e : Env) (op : Op) (f : Fault) (o : FOut) : Prop :=
  o.1.vars.length = s.vars.length ∧
    ((o.2 = .badAlloc ∧ f ≠ .none ∧ Sim o.1 e) ∨ (o.2 = .done (Spec.Indep.step e op).2 ∧ Sim o.1 (Spec.Indep.step e op).1))

theorem goodF_plain {s : State} {e : Env} {op : Op} {f : Fault} (h : Good s (Cow.step s op) (Spec.Indep.step e op)) :
    GoodF s e op f ((Cow.step s op).1, .done (Cow.step s op).2) :=
  ⟨h.2.2, .inr ⟨by rw [h.2.1], h.1⟩⟩

theorem stepF_ok {k : Share.Kind} {s : State} {e : Env} {op : Op} {f : Fault} (h : Sim s e)
    (hu : ∀ x ∈ uses op, x < s.vars.length) (hc : Covered s op) (hf : Survivable k f op) :
    GoodF s e op f (stepF k s f op) := by
  have hp := goodF_plain (f := f) (step_ok h hu hc)
  have put : ∀ x g, x ∈ uses op → (k = .own → f ≠ .block) → GoodF s e op f (putF k s x f g (Cow.step s op)) := by
    intro x g hx hk
    obtain ⟨s', b, c1, c2, c3, c4⟩ := cowFail_ok (k := k) (f := f) h (hu x hx) hk
    simp only [putF, c1, Option.map_some, orUbF]
    cases b with
    | true => exact ⟨c3, .inl ⟨rfl, c4 rfl, c2⟩⟩
    | false =>
      rw [if_neg (by simp)]
      split
      · rename_i hf'; exact ⟨c3, .inl ⟨rfl, by rw [hf']; nofun, c2⟩⟩
      · split
        · rename_i hf'; exact ⟨c3, .inl ⟨rfl, by rw [hf'.1]; nofun, c2⟩⟩
        · exact hp
  cases op with
  | fresh x v =>
    simp only [stepF]
    cases f <;> cases v <;> simp only [freshF] <;> first | exact hp | exact absurd rfl hf | skip
    split
    · exact ⟨rfl, .inl ⟨rfl, nofun, h⟩⟩
    · exact hp
  | copy z y => exact hp
  | move z y => exact hp
  | get z x key => exact hp
  | insert x key y m => exact put x _ (by simp [uses]) hf
  | set x key y m => exact put x _ (by simp [uses]) hf
  | erase x key =>
    obtain ⟨s', b, c1, c2, c3, c4⟩ := cowFail_ok (k := k) (f := f) h (hu x (by simp [uses])) hf
    simp only [stepF, eraseF, c1, Option.map_some, orUbF]
    cases b with
    | true => exact ⟨c3, .inl ⟨rfl, c4 rfl, c2⟩⟩
    | false => exact hp
  | clear x => exact hp
  | resize x n y =>
    simp only [stepF]
    cases f <;> simp only [resizeF] <;> try exact hp
    · exact ⟨rfl, .inl ⟨rfl, nofun, h⟩⟩
    · split
      · split
        · split
          · exact ⟨rfl, .inl ⟨rfl, nofun, h⟩⟩
          · exact hp
        · exact hp
      · exact hp

theorem runF_ok {k : Share.Kind} {ops : List (Op × Fault)} : ∀ {s : State} {e : Env}, Sim s e →
    (∀ o ∈ ops, ∀ x ∈ uses o.1, x < s.vars.length) → SurvivableRun k s ops →
    ∃ e', AllOrNothing e ops (runF k s ops).2 e' ∧ Sim (runF k s ops).1 e' ∧ (runF k s ops).1.vars.length = s.vars.length := by
  induction ops with
  | nil => intro s e h _ _; exact ⟨e, rfl, h, rfl⟩
  | cons o ops ih =>
    obtain ⟨op, f⟩ := o
    intro s e h hu hc
    obtain ⟨h1, h2⟩ := stepF_ok h (hu (op, f) (by simp)) hc.1.1 hc.1.2
    have hu' : ∀ o ∈ ops, ∀ x ∈ uses o.1, x < (stepF k s f op).1.vars.length :=
      fun o ho x hx => by rw [h1]; exact hu o (by simp [ho]) x hx
    simp only [runF]
    rcases h2 with ⟨h2, h3, h4⟩ | ⟨h2, h4⟩
    · obtain ⟨e', g1, g2, g3⟩ := ih h4 hu' hc.2
      exact ⟨e', by rw [h2]; exact ⟨h3, g1⟩, g2, by rw [g3, h1]⟩
    · obtain ⟨e', g1, g2, g3⟩ := ih h4 hu' hc.2
      exact ⟨e', by rw [h2]; exact ⟨rfl, g1⟩, g2, by rw [g3, h1]⟩

end Dart.Cow
