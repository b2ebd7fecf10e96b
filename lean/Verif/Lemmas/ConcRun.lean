import Verif.Lemmas.ConcStmt

/-
Threads sharing packets, helpers: whole executions.
-/
namespace Dart.Conc

/-- The invariant. -/
structure Inv (m : M) (s : S) : Prop where
  counted : Counted m
  length : m.threads.length = s.threads.length
  threads : ∀ (t : Nat) (th : Th) (sth : STh), m.threads[t]? = some th → s.threads[t]? = some sth →
    Rel m.blocks th.vars th.prog th.stage sth ∧ th.pending = none
  chans : ChansRel m.blocks m.chans s.chans
  wf : Wf m.blocks

theorem Inv.sth {m : M} {s : S} (h : Inv m s) {t : Nat} {th : Th} (ht : m.threads[t]? = some th) :
    ∃ sth, s.threads[t]? = some sth := by
  have h1 := (List.getElem?_eq_some_iff.1 ht).1
  have h2 := h.length
  exact ⟨s.threads[t], List.getElem?_eq_getElem (by omega)⟩

theorem Inv.step {m : M} {s : S} (h : Inv m s) (t : Nat) :
    ∃ m' s', step true m t = some m' ∧ (s' = s ∨ s' = s.step t) ∧ Inv m' s' := by
  cases ht : m.threads[t]? with
  | none => exact ⟨m, s, by simp only [Conc.step, ht], .inl rfl, h⟩
  | some th =>
    obtain ⟨sth, hs⟩ := h.sth ht
    obtain ⟨h1, h2⟩ := h.threads t th sth ht hs
    have hL := (counted_iff ht).1 h.counted
    obtain ⟨bs', cs', th', s', sth', g1, g2, g3, g4, g5, g6, g7, g8, g9⟩ :=
      step_good (m := m) (s := s) ⟨ht, hs, hL, h1, h.chans, h.wf, h2⟩
    have hlt := (List.getElem?_eq_some_iff.1 ht).1
    refine ⟨_, s', g1, g2, ?_, ?_, ?_, g7, g8⟩
    · refine (counted_iff (t := t) (th := th') (by simp [hlt])).2 ?_
      simp only [List.eraseIdx_set_eq]
      exact g4
    · simp only [g3, List.length_set]; exact h.length
    · intro u uh suh hu hsu
      simp only [g3] at hu hsu
      rw [List.getElem?_set] at hu hsu
      by_cases htu : t = u
      · subst htu
        have := h.length
        rw [if_pos rfl, if_pos (by omega)] at hu hsu
        cases hu; cases hsu
        exact ⟨g6, g9⟩
      · rw [if_neg htu] at hu hsu
        obtain ⟨k1, k2⟩ := h.threads u uh suh hu hsu
        exact ⟨g5.rel hL (fun a => refsIn_other Th.handles a (fun e => htu e.symm) hu) k1, k2⟩

theorem Inv.run {m : M} {s : S} (h : Inv m s) (ts : List Nat) :
    ∃ m' ts', run true m ts = some m' ∧ ts'.Sublist ts ∧ Inv m' (s.run ts') := by
  induction ts generalizing m s with
  | nil => exact ⟨m, [], rfl, .slnil, h⟩
  | cons t ts ih =>
    obtain ⟨m', s', h1, h2, h3⟩ := h.step t
    obtain ⟨m2, ts', g1, g2, g3⟩ := ih h3
    rcases h2 with h2 | h2
    · exact ⟨m2, ts', by simp only [Conc.run, h1, Option.bind_some, g1], g2.cons t, h2 ▸ g3⟩
    · refine ⟨m2, t :: ts', by simp only [Conc.run, h1, Option.bind_some, g1], g2.cons_cons t, ?_⟩
      simp only [S.run]; exact h2 ▸ g3

theorem refs_replicate (a n : Nat) : refs a (List.replicate n (.leaf none)) = 0 := by
  induction n with
  | zero => rfl
  | succ n ih => rw [List.replicate_succ, refs_leaf, ih]

theorem holds_replicate (bs : List (Option Blk)) (n : Nat) :
    HoldsAll bs (List.replicate n (.leaf none)) (List.replicate n (.leaf none)) := by
  induction n with
  | zero => exact .nil
  | succ n ih => exact .cons (.leaf none) ih

theorem Inv.init (n k : Nat) (progs : List (List Op)) (hf : ∀ p ∈ progs, ∀ op ∈ p, Op.Fine op) :
    Inv (init n k progs) (sinit n k progs) := by
  refine ⟨?_, by simp [Conc.init, sinit], ?_, ?_, ?_⟩
  · intro a
    have hb : blkAt (Conc.init n k progs).blocks a = none := by simp [Conc.init, blkAt]
    rw [hb]
    have h1 : ∀ ps : List (List Op), refsIn Th.handles a (ps.map fun p => (⟨List.replicate n (.leaf none), p, .start, [], none, none⟩ : Th)) = 0 := by
      intro ps
      induction ps with
      | nil => rfl
      | cons p ps ih =>
        rw [List.map_cons, refsIn_cons, ih]
        simp only [Th.handles, Stage.handles, refs_append, refs_nil, refs_replicate]
    have h2 : ∀ k, refsIn id a (List.replicate k ([] : List Hd)) = 0 := by
      intro k
      induction k with
      | zero => rfl
      | succ k ih => rw [List.replicate_succ, refsIn_cons, ih]; rfl
    have h3 : ∀ ps : List (List Op), tokens a (ps.map fun p => (⟨List.replicate n (.leaf none), p, .start, [], none, none⟩ : Th)) = 0 := by
      intro ps
      induction ps with
      | nil => rfl
      | cons p ps ih =>
        simp only [tokens, List.map_cons, List.sum_cons] at ih ⊢
        rw [ih]; rfl
    simp only [Conc.init]
    refine ⟨?_, h3 _⟩
    rw [h1, h2]; rfl
  · intro t th sth ht hs
    simp only [Conc.init, sinit, List.getElem?_map] at ht hs
    cases hp : progs[t]? with
    | none => rw [hp] at ht; cases ht
    | some p =>
      rw [hp] at ht hs
      cases ht; cases hs
      exact ⟨Rel.next (holds_replicate _ n) (hf p (List.mem_of_getElem? hp)), rfl⟩
  · refine ⟨by simp [Conc.init, sinit], fun c q r hq hr => ?_⟩
    simp only [Conc.init, sinit, List.getElem?_replicate] at hq hr
    split at hq
    · rw [if_pos ‹_›] at hr; cases hq; cases hr; exact .nil
    · cases hq
  · intro a b hb; simp [Conc.init, blkAt] at hb

theorem Inv.agrees {m : M} {s : S} (h : Inv m s) : Agrees m s :=
  ⟨h.length, fun t th sth h1 h2 => ⟨(h.threads t th sth h1 h2).1.prog, (h.threads t th sth h1 h2).1.vars⟩, h.chans⟩

/-! ### races -/

theorem Counted.loc {m : M} (h : Counted m) {t : Nat} {th : Th} (ht : m.threads[t]? = some th) :
    Loc (fun a => refsIn Th.handles a (m.threads.eraseIdx t)) (fun a => tokens a (m.threads.eraseIdx t)) m.blocks m.chans th :=
  (counted_iff ht).1 h

/-- Whoever accesses elements refers to them, or is deleting them. -/
theorem access_refs {m : M} {t a : Nat} {w : Bool} (h : access m t = some (a, w)) :
    ∃ th, m.threads[t]? = some th ∧ (th.dying = some a ∨ 0 < refs a th.vars) := by
  unfold access at h
  cases ht : m.threads[t]? with
  | none => rw [ht] at h; cases h
  | some th =>
    rw [ht] at h
    simp only [Option.bind_some] at h
    refine ⟨th, rfl, ?_⟩
    split at h
    · cases h; left; assumption
    all_goals first
      | (split at h
         · cases h; right; exact refs_var ‹_›
         · cases h)
      | cases h

/-- Whoever writes elements is the only one to refer to them. -/
theorem Inv.access_write {m : M} {s : S} (hi : Inv m s) {t a : Nat} (h : access m t = some (a, true)) :
    tokens a (m.threads.eraseIdx t) = 0 ∧ refsIn Th.handles a (m.threads.eraseIdx t) = 0 := by
  unfold access at h
  cases ht : m.threads[t]? with
  | none => rw [ht] at h; cases h
  | some th =>
    have hL := hi.counted.loc ht
    obtain ⟨sth, hs⟩ := hi.sth ht
    have hR := (hi.threads t th sth ht hs).1
    have hex : ∀ {x : Nat}, Excl m.blocks th.vars x → hdVar th.vars x = .ref a →
        tokens a (m.threads.eraseIdx t) = 0 ∧ refsIn Th.handles a (m.threads.eraseIdx t) = 0 := by
      rintro x ⟨a', b, h1, h2, h3⟩ h4
      rw [h1] at h4; cases h4
      obtain ⟨g1, g2⟩ := hL.at h2
      have g3 := refs_var h1
      simp only [Th.handles, refs_append] at g1
      rw [h3] at g1 g2
      simp only [Nat.succ_ne_zero, if_false] at g2
      omega
    have hst : ∀ {op rest}, th.prog = op :: rest → StageOk m.blocks th.vars sth op th.stage := by
      intro op rest hop
      have h' : ∀ {ops : List Op}, Rel m.blocks th.vars ops th.stage sth → ops = op :: rest → StageOk m.blocks th.vars sth op th.stage := by
        intro ops h e; subst e; exact h.stage
      exact h' hR hop
    rw [ht] at h
    simp only [Option.bind_some] at h
    split at h
    next _ hd =>
      cases h
      have h1 := hL a
      have htk : th.token a = 1 := by simp only [Th.token, hd, if_true]
      cases hb : blkAt m.blocks a with
      | none => rw [hb] at h1; simp only at h1; omega
      | some b =>
        rw [hb] at h1
        simp only at h1
        obtain ⟨h1, h2⟩ := h1
        split at h2 <;> omega
    · split at h <;> cases h
    next hop hsg =>
      have := hR.fine _ (by rw [hop]; exact List.mem_cons_self)
      exact this.elim
    · split at h <;> cases h
    next hop hsg =>
      have := hst hop
      rw [hsg] at this
      split at h
      next a' hv => cases h; exact hex this.2 hv
      · cases h
    next hop hsg =>
      have := hst hop
      rw [hsg] at this
      obtain ⟨x, y, h1, _, h3⟩ := this
      subst h1
      split at h
      next a' hv => cases h; exact hex h3 hv
      · cases h
    · cases h

theorem Inv.no_race {m : M} {s : S} (hi : Inv m s) : ¬ Race m := by
  have key : ∀ {t u a : Nat} {w : Bool}, t ≠ u → access m t = some (a, true) → access m u = some (a, w) → False := by
    intro t u a w htu h1 h2
    obtain ⟨g1, g2⟩ := hi.access_write h1
    obtain ⟨uh, k1, k2⟩ := access_refs h2
    have k3 := tokens_other a (fun e => htu e.symm) k1
    have k4 := refsIn_other Th.handles a (fun e => htu e.symm) k1
    rcases k2 with k2 | k2
    · simp only [Th.token, k2, if_true] at k3; omega
    · simp only [Th.handles, refs_append] at k4; omega
  rintro ⟨t, u, a, w, w', htu, h1, h2, rfl | rfl⟩
  · exact key htu h1 h2
  · exact key (fun e => htu e.symm) h2 h1

/-! ### values are finite -/

mutual
def PV.size : PV → Nat
  | .leaf _ => 0
  | .node vs => sizes vs + 1
def sizes : List PV → Nat
  | [] => 0
  | v :: vs => v.size + sizes vs
end

mutual
theorem Holds.unique {bs : List (Option Blk)} : ∀ (v w : PV) (h : Hd), Holds bs h v → Holds bs h w → v = w
  | .leaf n, w, h, h1, h2 => by cases h1; cases h2; rfl
  | .node vs, w, h, h1, h2 => by
    cases h1 with
    | ref g1 g2 =>
      cases h2 with
      | ref g3 g4 => rw [g1] at g3; cases g3; rw [HoldsAll.unique vs _ _ g2 g4]
theorem HoldsAll.unique {bs : List (Option Blk)} : ∀ (vs ws : List PV) (hs : List Hd), HoldsAll bs hs vs → HoldsAll bs hs ws → vs = ws
  | [], ws, hs, h1, h2 => by cases h1; cases h2; rfl
  | v :: vs, ws, hs, h1, h2 => by
    cases h1 with
    | cons g1 g2 =>
      cases h2 with
      | cons g3 g4 => rw [Holds.unique v _ _ g1 g3, HoldsAll.unique vs _ _ g2 g4]
end

theorem holdsAll_mem {bs : List (Option Blk)} : ∀ {hs : List Hd} {vs : List PV} {h : Hd}, HoldsAll bs hs vs → h ∈ hs →
    ∃ v, Holds bs h v ∧ v.size ≤ sizes vs
  | [], _, _, _, hm => by simp at hm
  | h' :: hs, _, h, hh, hm => by
    cases hh with
    | @cons _ v _ vs h1 h2 =>
      rcases List.mem_cons.1 hm with e | hm
      · subst e; exact ⟨v, h1, by simp only [sizes]; omega⟩
      · obtain ⟨w, g1, g2⟩ := holdsAll_mem h2 hm
        exact ⟨w, g1, by simp only [sizes]; omega⟩

theorem sizes_bounded (bs : List (Option Blk)) (k : Nat) : ∃ n, ∀ a v, a < k → Holds bs (.ref a) v → v.size < n := by
  induction k with
  | zero => exact ⟨0, fun a v h => by omega⟩
  | succ k ih =>
    obtain ⟨n, hn⟩ := ih
    by_cases hk : ∃ w, Holds bs (.ref k) w
    · obtain ⟨w, hw⟩ := hk
      refine ⟨max n (w.size + 1), fun a v ha hv => ?_⟩
      by_cases hak : a = k
      · subst hak
        rw [Holds.unique _ _ _ hv hw]; omega
      · have := hn a v (by omega) hv; omega
    · refine ⟨n, fun a v ha hv => ?_⟩
      by_cases hak : a = k
      · subst hak; exact absurd ⟨v, hv⟩ hk
      · exact hn a v (by omega) hv

/-- If every block of some kind is an element of another block of that kind, there are none. -/
theorem no_cycles {bs : List (Option Blk)} (hW : Wf bs) {P : Nat → Prop}
    (h : ∀ a, P a → ∃ p b, P p ∧ blkAt bs p = some b ∧ .ref a ∈ b.kids) (a : Nat) : ¬ P a := by
  obtain ⟨n, hn⟩ := sizes_bounded bs bs.length
  have key : ∀ k a v, P a → Holds bs (.ref a) v → n ≤ v.size + k → False := by
    intro k
    induction k with
    | zero =>
      intro a v _ hv hk
      obtain ⟨b, es, _, h2, _⟩ := holds_ref hv
      have := hn a v (blkAt_lt h2) hv
      omega
    | succ k ih =>
      intro a v hp hv hk
      obtain ⟨p, b, h1, h2, h3⟩ := h a hp
      obtain ⟨vs, h4⟩ := hW p b h2
      obtain ⟨w, h5, h6⟩ := holdsAll_mem h4 h3
      have := Holds.unique _ _ _ hv h5
      subst this
      refine ih p (.node vs) h1 (.ref (blkAt_eq.1 h2) h4) ?_
      simp only [PV.size]; omega
  intro hp
  obtain ⟨p, b, h1, h2, h3⟩ := h a hp
  obtain ⟨vs, h4⟩ := hW p b h2
  obtain ⟨w, h5, h6⟩ := holdsAll_mem h4 h3
  exact key n a w hp h5 (by omega)

/-! ### memory -/

theorem packets_refs (m : M) (a : Nat) :
    m.packets.count (.ref a) = refsIn Th.handles a m.threads + refsIn id a m.chans + refsIn kidsOf a m.blocks := by
  simp only [M.packets, List.count_append, refsIn, refs, List.flatMap_id]

theorem refsIn_mem {α : Type} {f : α → List Hd} {a : Nat} {l : List α} : 0 < refsIn f a l ↔ ∃ x ∈ l, .ref a ∈ f x := by
  rw [refsIn, refs_pos, List.mem_flatMap]

theorem Inv.reached_alive {m : M} {s : S} (h : Inv m s) {a : Nat} (hr : Reaches m a) : ∃ b, m.blocks[a]? = some (some b) ∧ 0 < b.count := by
  have key : ∀ {a}, 0 < refsIn Th.handles a m.threads + refsIn id a m.chans + refsIn kidsOf a m.blocks →
      ∃ b, m.blocks[a]? = some (some b) ∧ 0 < b.count := by
    intro a ha
    have h1 := h.counted a
    cases hb : blkAt m.blocks a with
    | none => rw [hb] at h1; simp only at h1; omega
    | some b => rw [hb] at h1; simp only at h1; exact ⟨b, blkAt_eq.1 hb, by omega⟩
  cases hr with
  | @var t th _ h1 h2 =>
    apply key
    have := refsIn_mem.2 ⟨th, List.mem_of_getElem? h1, (by rw [Th.handles]; exact List.mem_append_left _ h2 : .ref a ∈ th.handles)⟩
    omega
  | @chan q _ h1 h2 =>
    apply key
    have := refsIn_mem (f := id).2 ⟨q, h1, h2⟩
    omega
  | @elem p _ b h1 h2 h3 =>
    apply key
    have := refsIn_mem (f := kidsOf).2 ⟨some b, List.mem_of_getElem? h2, h3⟩
    omega

theorem Inv.alive_reached {m : M} {s : S} (h : Inv m s) (hf : Finished m) {a : Nat} {b : Blk} (hb : m.blocks[a]? = some (some b)) :
    Reaches m a := by
  apply Classical.byContradiction
  intro hn
  refine no_cycles h.wf (P := fun a => (∃ b, blkAt m.blocks a = some b) ∧ ¬ Reaches m a) ?_ a ⟨⟨b, blkAt_eq.2 hb⟩, hn⟩
  rintro a ⟨⟨b, hb⟩, hn⟩
  have h1 := h.counted a
  rw [hb] at h1
  obtain ⟨h1, h2⟩ := h1
  have hst : ∀ th ∈ m.threads, th.handles = th.vars ∧ th.dying = none := by
    intro th hm
    obtain ⟨t, ht⟩ := List.getElem?_of_mem hm
    obtain ⟨g1, g2, g3⟩ := hf t th ht
    obtain ⟨sth, hs⟩ := h.sth ht
    have hR := (h.threads t th sth ht hs).1
    have h' : ∀ {ops : List Op}, Rel m.blocks th.vars ops th.stage sth → ops = [] → th.stage = .start := by
      intro ops h e; subst e; exact h.stage
    refine ⟨?_, g3⟩
    rw [Th.handles, h' hR g1, g2]
    simp [Stage.handles]
  have h3 : tokens a m.threads = 0 := by
    unfold tokens
    have : ∀ l : List Th, (∀ th ∈ l, th.dying = none) → (l.map (Th.token a)).sum = 0 := by
      intro l
      induction l with
      | nil => intro _; rfl
      | cons x l ih =>
        intro hl
        rw [List.map_cons, List.sum_cons, ih (fun th hm => hl th (List.mem_cons_of_mem _ hm))]
        simp only [Th.token, hl x List.mem_cons_self, reduceCtorEq, if_false]
    exact this _ fun th hm => (hst th hm).2
  have h4 : refsIn Th.handles a m.threads = 0 := by
    apply Classical.byContradiction
    intro h5
    obtain ⟨th, g1, g2⟩ := refsIn_mem.1 (Nat.pos_of_ne_zero h5)
    obtain ⟨t, ht⟩ := List.getElem?_of_mem g1
    exact hn (.var ht ((hst th g1).1 ▸ g2))
  have h5 : refsIn id a m.chans = 0 := by
    apply Classical.byContradiction
    intro h5
    obtain ⟨q, g1, g2⟩ := refsIn_mem.1 (Nat.pos_of_ne_zero h5)
    exact hn (.chan g1 g2)
  have h6 : 0 < refsIn kidsOf a m.blocks := by
    split at h2 <;> omega
  obtain ⟨o, g1, g2⟩ := refsIn_mem.1 h6
  cases o with
  | none => simp [kidsOf] at g2
  | some b' =>
    obtain ⟨p, hp⟩ := List.getElem?_of_mem g1
    exact ⟨p, b', ⟨⟨b', blkAt_eq.2 hp⟩, fun hr => hn (.elem hr hp g2)⟩, blkAt_eq.2 hp, g2⟩

/-! ### a thread on its own -/

/-- What is kept of a thread that does not receive. -/
theorem spec_alone (k : Nat) (t : Nat) (p : List Op) (hp : ∀ c x, .recv c x ∉ p) (vars0 : List PV) (ts : List Nat) :
    ∀ s : S, s.chans.length = k → (∃ d r, p = d ++ r ∧ s.threads[t]? = some ⟨d.foldl (alone k) vars0, r⟩) →
      ∃ d r, p = d ++ r ∧ (s.run ts).threads[t]? = some ⟨d.foldl (alone k) vars0, r⟩ := by
  induction ts with
  | nil => intro s _ h; exact h
  | cons u ts ih =>
    intro s hk h
    obtain ⟨d, r, h1, h2⟩ := h
    have hclen : (s.step u).chans.length = k := by
      unfold S.step
      repeat' split
      all_goals first | exact hk | simpa using hk
    refine ih _ hclen ?_
    by_cases hut : u = t
    · subst hut
      have hlt := (List.getElem?_eq_some_iff.1 h2).1
      cases r with
      | nil => exact ⟨d, [], h1, by simp only [S.step, h2]⟩
      | cons op r =>
        refine ⟨d ++ [op], r, by rw [h1]; simp, ?_⟩
        rw [List.foldl_append, List.foldl_cons, List.foldl_nil]
        generalize d.foldl (alone k) vars0 = vars at h2 ⊢
        cases op with
        | send c x =>
          simp only [S.step, h2, alone]
          cases hc : s.chans[c]? with
          | none =>
            have := List.getElem?_eq_none_iff.1 hc
            rw [if_neg (by omega)]
            simp [hlt]
          | some q =>
            have := (List.getElem?_eq_some_iff.1 hc).1
            rw [if_pos (by omega)]
            simp [hlt]
        | recv c x => exact absurd (by rw [h1]; simp) (hp c x)
        | _ => simp only [S.step, h2]; rw [List.getElem?_set, if_pos rfl, if_pos hlt]; rfl
    · refine ⟨d, r, h1, ?_⟩
      unfold S.step
      repeat' split
      all_goals first
        | exact h2
        | (simp only [List.getElem?_set, if_neg hut]; exact h2)

end Dart.Conc
