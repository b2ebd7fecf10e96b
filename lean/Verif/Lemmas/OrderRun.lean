import Verif.Lemmas.OrderMoves

/-
Which steps happen before which others, helpers: all steps, and whole executions.
-/
namespace Dart.Conc
variable {o : Orders} {tr : List Ev} {m : M} {s : S}

/-- Only the state of the thread changes. -/
theorem Ordered.calm (ho : Ordered o m tr) (hi : Inv m s) {t : Nat} {th th' : Th} {x : Ev} (thread : x.thread = t)
    (thr : m.threads[t]? = some th) (hx : ∀ c, x.sync ≠ .put c ∧ x.sync ≠ .take c) (hr : ∀ a, o.releases a x.sync = false)
    (acc : ∀ a w, (a, w) ∈ x.accesses → w = false ∧ .ref a ∈ th.handles) (hh : ∀ a, .ref a ∈ th'.handles ↔ .ref a ∈ th.handles)
    (alive : th.dying = none) (alive' : th'.dying = none)
    (sole : ∀ (op : Op) (rest : List Op) (a e : Nat), th'.prog = op :: rest → th'.stage.sole → th'.var op.target = .ref a →
      KnowC o tr a e → KnowT o (tr ++ [x]) t e) :
    Ordered o (m.put t th') (tr ++ [x]) := by
  refine ho.grow hi (Quiet.grows ho hi (bs' := m.blocks) (th := th) ⟨thread, thr, rfl, fun _ => rfl, hx, ?_, ?_, ?_, ?_, alive, ?_, sole⟩)
  · intro a w h
    obtain ⟨h1, h2⟩ := acc a w h
    exact ⟨h1, h2, (hh a).2 h2⟩
  · exact fun a h => .inl ((hh a).1 h)
  · exact fun a h => .inl ((hh a).2 h)
  · intro a h
    rw [hr a] at h; cases h
  · intro a h
    rw [alive'] at h; cases h

theorem kids_count {bs : List (Option Blk)} {a n : Nat} {b : Blk} (hb : blkAt bs a = some b) (c : Nat) :
    (blkAt (bs.set a (some { b with count := n })) c).map Blk.kids = (blkAt bs c).map Blk.kids := by
  rw [blkAt_set (blkAt_lt hb)]
  by_cases hc : c = a
  · subst hc
    rw [if_pos rfl, hb]; rfl
  · rw [if_neg hc]

/-- A counter is incremented. -/
theorem Ordered.incr (ho : Ordered o m tr) (hi : Inv m s) {t : Nat} {th th' : Th} {x : Ev} {h : Hd} (thread : x.thread = t)
    (thr : m.threads[t]? = some th) (sync : x.sync = h.sync .inc) (acc : x.accesses = [])
    (hmem : ∀ a, h = .ref a → .ref a ∈ th.handles ∨ ∃ b blk, .ref b ∈ th.handles ∧ blkAt m.blocks b = some blk ∧ .ref a ∈ blk.kids)
    (hh : ∀ a, .ref a ∈ th'.handles ↔ .ref a ∈ th.handles ∨ h = .ref a)
    (alive : th.dying = none) (alive' : th'.dying = none)
    (sole : ∀ (op : Op) (rest : List Op) (a e : Nat), th'.prog = op :: rest → th'.stage.sole → th'.var op.target = .ref a →
      KnowC o tr a e → KnowT o (tr ++ [x]) t e) {m' : M} (hm : Conc.incr true m t h th' = some m') :
    Ordered o m' (tr ++ [x]) := by
  cases h with
  | leaf n =>
    cases hm
    refine ho.calm hi thread thr ?_ ?_ ?_ ?_ alive alive' sole
    · intro c; rw [sync]; exact ⟨nofun, nofun⟩
    · intro a; rw [sync]; rfl
    · intro a w h; rw [acc] at h; cases h
    · intro a; rw [hh]; simp
  | ref a =>
    simp only [Conc.incr] at hm
    cases hb : blkAt m.blocks a with
    | none => rw [hb] at hm; cases hm
    | some b =>
      rw [hb] at hm
      simp only [Option.map_some, Option.some.injEq] at hm
      subst hm
      refine ho.grow hi (Quiet.grows ho hi (bs' := m.blocks.set a (some { b with count := b.count + 1 })) (th := th) ⟨thread, thr, by simp,
        kids_count hb, ?_, ?_, ?_, ?_, ?_, alive, ?_, sole⟩)
      · intro c; rw [sync]; exact ⟨nofun, nofun⟩
      · intro a w h; rw [acc] at h; cases h
      · intro c h
        rcases (hh c).1 h with h | h
        · exact .inl h
        · exact hmem c h
      · exact fun c h => .inl ((hh c).2 (.inl h))
      · intro c h
        rw [sync] at h
        simp only [Hd.sync, Orders.releases, Bool.and_eq_true, beq_iff_eq] at h
        obtain ⟨_, rfl⟩ := h
        rcases hmem a rfl with h | ⟨d, blk, _, h1, h2⟩
        · exact .inl h
        · right
          have := refsIn_blocks_le a h1
          have := refs_pos.2 h2
          omega
      · intro c h
        rw [alive'] at h; cases h

/-- A counter is decremented. -/
theorem Ordered.decr (ho : Ordered o m tr) (hi : Inv m s) (hrel : o.dec.release = true) (hacq : o.dec.acquire = true)
    {t : Nat} {th : Th} {x : Ev} {h : Hd} {w : List Hd} (thread : x.thread = t)
    (thr : m.threads[t]? = some th) (hj : th.junk = h :: w) (sync : x.sync = h.sync .dec) (acc : x.accesses = [])
    (alive : th.dying = none) {m' : M} (hm : Conc.decr true m t h { th with junk := w } = some m') : Ordered o m' (tr ++ [x]) := by
  have sole : ∀ (op : Op) (rest : List Op) (a e : Nat), th.prog = op :: rest → th.stage.sole → th.var op.target = .ref a →
      KnowC o tr a e → KnowT o (tr ++ [x]) t e := fun op rest a e h1 h2 h3 h4 => (ho.sole t th op rest a e thr h1 h2 h3 h4).mono x
  have hmem : ∀ c, .ref c ∈ th.handles ↔ .ref c ∈ ({ th with junk := w } : Th).handles ∨ h = .ref c := by
    intro c
    simp only [Th.handles, hj, List.mem_append, List.mem_cons, eq_comm (a := h)]
    constructor
    · rintro (h | h | h | h) <;> simp [h]
    · rintro ((h | h | h) | h) <;> simp [h]
  cases h with
  | leaf n =>
    cases hm
    refine ho.calm hi thread thr ?_ ?_ ?_ ?_ alive alive sole
    · intro c; rw [sync]; exact ⟨nofun, nofun⟩
    · intro a; rw [sync]; rfl
    · intro a w h; rw [acc] at h; cases h
    · intro a; rw [hmem]; simp
  | ref a =>
    simp only [Conc.decr] at hm
    cases hb : blkAt m.blocks a with
    | none => rw [hb] at hm; cases hm
    | some b =>
      rw [hb] at hm
      simp only [Option.bind_some] at hm
      have hown : .ref a ∈ th.handles := (hmem a).2 (.inr rfl)
      cases hn : b.count with
      | zero => rw [hn] at hm; cases hm
      | succ n =>
        rw [hn] at hm
        simp only [Option.some.injEq] at hm
        subst hm
        have hhand : (if n = 0 then { ({ th with junk := w } : Th) with dying := some a } else { th with junk := w }).handles =
            ({ th with junk := w } : Th).handles := by split <;> rfl
        refine ho.grow hi (Quiet.grows ho hi (bs' := m.blocks.set a (some { b with count := n })) (th := th) ⟨thread, thr, by simp,
          kids_count hb, ?_, ?_, ?_, ?_, ?_, alive, ?_, ?_⟩)
        · intro c; rw [sync]; exact ⟨nofun, nofun⟩
        · intro a w h; rw [acc] at h; cases h
        · intro c h
          rw [hhand] at h
          exact .inl ((hmem c).2 (.inl h))
        · intro c h
          rw [hhand]
          rcases (hmem c).1 h with h | h
          · exact .inl h
          · cases h
            right
            rw [sync]
            simp [Hd.sync, Orders.releases, hrel]
        · intro c h
          rw [sync] at h
          simp only [Hd.sync, Orders.releases, Bool.and_eq_true, beq_iff_eq] at h
          obtain ⟨_, rfl⟩ := h
          exact .inl hown
        · intro c h
          by_cases h0 : n = 0
          · rw [if_pos h0] at h
            cases h
            have h1 := hi.counted a
            rw [hb] at h1
            simp only [hn, h0] at h1
            rw [refsIn_erase Th.handles a thr] at h1
            have h2 := refs_pos.2 hown
            simp only [Nat.zero_add, Nat.one_ne_zero, if_false] at h1
            refine ⟨fun e he => (ho.seen (.thr t) a e ⟨th, thr, hown⟩ he).mono x, (fun w h => by rw [acc] at h; cases h), fun i y w' hy hw => ?_⟩
            rcases ho.used i y a w' b hy hw hb with k | ⟨pl, k1, k2⟩ | ⟨u, uh, k1, k2⟩
            · have := KnowC.acquire (x := x) k (by rw [sync]; simp [Hd.sync, Orders.acquires, hacq])
              exact thread ▸ this
            · have : pl = .thr t := by
                cases pl with
                | msg c k => have := msg_refs k1; omega
                | elem c => have := elem_refs k1; omega
                | thr u =>
                  by_cases hu : u = t
                  · rw [hu]
                  · obtain ⟨uh, k3, k4⟩ := k1
                    have := refsIn_other Th.handles a hu k3
                    have := refs_pos.2 k4
                    omega
              subst this
              exact KnowT.mono k2 x
            · have h3 := h1.2
              rw [tokens_erase a k1] at h3
              have htk : uh.token a = 1 := by simp only [Th.token, k2, if_true]
              omega
          · rw [if_neg h0] at h
            have h : th.dying = some c := h
            rw [alive] at h; cases h
        · intro op rest c e h1 h2 h3 h4
          refine sole op rest c e ?_ ?_ ?_ h4
          · rw [← h1]; split <;> rfl
          · have : (if n = 0 then { ({ th with junk := w } : Th) with dying := some a } else { th with junk := w }).stage = th.stage := by
              split <;> rfl
            exact this ▸ h2
          · rw [← h3]; split <;> rfl

theorem mem_assign {th : Th} {x a : Nat} {h : Hd} {rest : List Op} :
    .ref a ∈ (th.assign x h rest).handles ↔ .ref a ∈ th.vars ∨ h = .ref a := by
  rw [← refs_pos, refs_assign, ← refs_pos, refs_cons, refs_nil]
  by_cases hh : h = .ref a
  · simp [hh]
  · simp [hh]

/-- Every step keeps the invariant. -/
theorem Ordered.next (ho : Ordered o m tr) (hi : Inv m s) (hrel : o.dec.release = true) (hacq : o.dec.acquire = true)
    (hload : o.load.acquire = true) (t : Nat) {m' : M} (hm : step true m t = some m') : Ordered o m' (tr ++ [event m t]) := by
  cases ht : m.threads[t]? with
  | none =>
    simp only [step, ht, Option.some.injEq] at hm
    subst hm
    exact ho.skip (by simp only [event, stepEvent, ht]) (by simp only [event, stepEvent, ht])
  | some th =>
  obtain ⟨sth, hs⟩ := hi.sth ht
  obtain ⟨hR, hp⟩ := hi.threads t th sth ht hs
  cases hd : th.dying with
  | some a =>
    have h1 : step true m t = destroy m t th a := by simp only [step, ht, hp, hd]
    rw [h1, destroy] at hm
    cases hb : blkAt m.blocks a with
    | none => rw [hb] at hm; cases hm
    | some b =>
      rw [hb] at hm
      simp only [Option.map_some, Option.some.injEq] at hm
      subst hm
      exact ho.destroyed hi (t := t) (x := event m t) rfl ht (by simp only [event, stepEvent, ht, hd]) (by simp only [event, stepEvent, ht, hd]) hb hd
  | none =>
  cases hj : th.junk with
  | cons h w =>
    rw [step_junk_eq ht hp hd hj] at hm
    exact ho.decr hi hrel hacq (t := t) (x := event m t) rfl ht hj (by simp only [event, stepEvent, ht, hd, hj])
      (by simp only [event, stepEvent, ht, hd, hj]) hd hm
  | nil =>
  cases hop : th.prog with
  | nil =>
    simp only [step, ht, hp, hd, hj, hop, Option.some.injEq] at hm
    subst hm
    exact ho.skip (by simp only [event, stepEvent, ht, hd, hj, hop]) (by simp only [event, stepEvent, ht, hd, hj, hop])
  | cons op rest =>
  have hst : StageOk m.blocks th.vars sth op th.stage := by
    have h' : ∀ {ops : List Op}, Rel m.blocks th.vars ops th.stage sth → ops = op :: rest → StageOk m.blocks th.vars sth op th.stage := by
      intro ops h e; subst e; exact h.stage
    exact h' hR hop
  have hfine : op.Fine := hR.fine op (by rw [hop]; exact List.mem_cons_self)
  rw [step_stmt_eq ht hp hd hj hop] at hm
  have hev : event m t = ⟨t, (stmtEvent m th op).1, (stmtEvent m th op).2⟩ := by
    simp only [event, stepEvent, ht, hd, hj, hop]
  have hvar : ∀ {y a : Nat}, th.var y = .ref a → .ref a ∈ th.handles := by
    intro y a h
    have := hdVar_mem h
    exact List.mem_append_left _ (List.mem_of_getElem? this)
  unfold stmtStep at hm
  unfold stmtEvent at hev
  cases hstage : th.stage with
  | start =>
    rw [hstage] at hm hev
    simp only at hm hev
    have nosole : ∀ (th' : Th), th'.stage = .start → ∀ (op : Op) (rest : List Op) (a e : Nat), th'.prog = op :: rest → th'.stage.sole →
        th'.var op.target = .ref a → KnowC o tr a e → KnowT o (tr ++ [event m t]) t e := by
      intro th' h1 _ _ _ _ _ h2
      rw [h1] at h2; exact h2.elim
    -- the thread goes on, without any access
    have quiet : ∀ (th' : Th), (∀ a, .ref a ∈ th'.handles ↔ .ref a ∈ th.handles) → th'.dying = none → ¬ th'.stage.sole →
        (event m t).sync = .none → (∀ a w, (a, w) ∈ (event m t).accesses → w = false ∧ .ref a ∈ th.handles) →
        Ordered o (m.put t th') (tr ++ [event m t]) := by
      intro th' h1 h2 h3 h4 h5
      refine ho.calm hi (t := t) (x := event m t) rfl ht ?_ ?_ h5 h1 hd h2 ?_
      · intro c; rw [h4]; exact ⟨nofun, nofun⟩
      · intro a; rw [h4]; rfl
      · intro _ _ _ _ _ h6; exact (h3 h6).elim
    cases op with
    | leaf x n =>
      cases hm
      refine quiet _ ?_ hd (fun h => h) (by rw [hev]; rfl) (by rw [hev]; intro a w h; cases h)
      intro a; simp [Th.handles, hstage, Stage.handles]
    | make x =>
      cases hm
      refine ho.alloc hi (th := th) (t := t) (x := event m t) rfl ht (by rw [hev]; rfl) (by rw [hev]; exact List.mem_cons_self) ?_ ?_ nofun ?_ ?_ hd hd ?_
      · intro a w h
        rw [hev] at h
        simp only [beginEvent, List.mem_singleton, Prod.mk.injEq] at h
        exact .inl h
      · simp [Th.handles, Stage.handles]
      · intro a h
        simp only [Th.handles, Stage.handles, List.mem_append, List.mem_singleton, Hd.ref.injEq, hj, List.not_mem_nil, or_false] at h
        rcases h with h | h
        · exact .inl (List.mem_append_left _ h)
        · exact .inr h
      · intro a h
        left
        simp only [Th.handles, hstage, Stage.handles, hj, List.mem_append, List.not_mem_nil, or_false] at h
        exact List.mem_append_left _ h
      · intro _ _ _ h
        exact h.elim
    | copy x y =>
      cases hm
      refine quiet _ ?_ hd (fun h => h) (by rw [hev]; rfl) (by rw [hev]; intro a w h; cases h)
      intro a; simp [Th.handles, hstage, Stage.handles]
    | get x y i =>
      simp only [begin] at hm
      cases hy : th.var y with
      | leaf n =>
        rw [hy] at hm
        cases hm
        refine quiet _ ?_ hd ?_ (by rw [hev]; rfl) ?_
        · intro a; simp [Th.handles]
        · show ¬ th.stage.sole
          rw [hstage]; exact fun h => h
        · rw [hev]; intro a w h; simp only [beginEvent, hy, Hd.touch] at h; cases h
      | ref a =>
        rw [hy] at hm
        simp only at hm
        have hacc : ∀ c w, (c, w) ∈ (event m t).accesses → w = false ∧ .ref c ∈ th.handles := by
          intro c w h
          rw [hev] at h
          simp only [beginEvent, hy, Hd.touch, List.mem_singleton, Prod.mk.injEq] at h
          exact ⟨h.2, h.1 ▸ hvar hy⟩
        cases hb : blkAt m.blocks a with
        | none => rw [hb] at hm; cases hm
        | some b =>
          rw [hb] at hm
          simp only [Option.map_some, Option.some.injEq] at hm
          cases hk : b.kids[i]? with
          | none =>
            rw [hk] at hm
            simp only at hm
            subst hm
            refine quiet _ ?_ hd (fun h => h) (by rw [hev]; rfl) hacc
            intro a; simp [Th.handles, hstage, Stage.handles]
          | some h =>
            rw [hk] at hm
            simp only at hm
            subst hm
            refine quiet _ ?_ hd (fun h => h) (by rw [hev]; rfl) hacc
            intro a; simp [Th.handles, hstage, Stage.handles]
    | push x y =>
      simp only [begin] at hm
      cases hy : th.var x with
      | leaf n =>
        rw [hy] at hm
        cases hm
        refine quiet _ ?_ hd ?_ (by rw [hev]; rfl) (by rw [hev]; intro a w h; cases h)
        · intro a; simp [Th.handles]
        · show ¬ th.stage.sole
          rw [hstage]; exact fun h => h
      | ref a =>
        rw [hy] at hm
        cases hm
        refine quiet _ ?_ hd (fun h => h) (by rw [hev]; rfl) (by rw [hev]; intro a w h; cases h)
        intro a; simp [Th.handles, hstage, Stage.handles]
    | pop x =>
      simp only [begin] at hm
      cases hy : th.var x with
      | leaf n =>
        rw [hy] at hm
        cases hm
        refine quiet _ ?_ hd ?_ (by rw [hev]; rfl) (by rw [hev]; intro a w h; cases h)
        · intro a; simp [Th.handles]
        · show ¬ th.stage.sole
          rw [hstage]; exact fun h => h
      | ref a =>
        rw [hy] at hm
        cases hm
        refine quiet _ ?_ hd (fun h => h) (by rw [hev]; rfl) (by rw [hev]; intro a w h; cases h)
        intro a; simp [Th.handles, hstage, Stage.handles]
    | clear x => exact hfine.elim
    | send c x =>
      simp only [begin] at hm
      cases hq : m.chans[c]? with
      | none =>
        rw [hq] at hm
        cases hm
        refine quiet _ ?_ hd ?_ (by rw [hev]; simp only [beginEvent, hq]) (by rw [hev]; intro a w h; cases h)
        · intro a; simp [Th.handles]
        · show ¬ th.stage.sole
          rw [hstage]; exact fun h => h
      | some q =>
        rw [hq] at hm
        cases hm
        refine ho.sent hi (th := th) (t := t) (x := event m t) rfl ht (by rw [hev]; simp only [beginEvent, hq]) (by rw [hev]; rfl) hq ?_ ?_ ?_ hd hd hstage
        · intro a h; exact hvar h
        · intro a h
          simp only [Th.handles, hj, hstage, Stage.handles, List.append_nil] at h ⊢
          rcases List.mem_or_eq_of_mem_set h with h | h
          · exact h
          · cases h
        · intro a h
          simp only [Th.handles, hj, hstage, Stage.handles, List.append_nil] at h ⊢
          obtain ⟨k, hk⟩ := List.getElem?_of_mem h
          by_cases hkx : x = k
          · subst hkx
            right
            rw [Th.var, hk]; rfl
          · left
            refine List.mem_of_getElem? (i := k) ?_
            rw [List.getElem?_set_ne hkx]; exact hk
    | recv c x =>
      simp only [begin] at hm
      have idle : (∀ h q, m.chans[c]? ≠ some (h :: q)) → Ordered o m (tr ++ [event m t]) := by
        intro h
        refine ho.skip ?_ (by rw [hev]; rfl)
        rw [hev]
        simp only [beginEvent]
      cases hq : m.chans[c]? with
      | none =>
        rw [hq] at hm; cases hm
        exact idle (by rw [hq]; nofun)
      | some q =>
        cases q with
        | nil =>
          rw [hq] at hm; cases hm
          exact idle (by rw [hq]; nofun)
        | cons h q =>
          rw [hq] at hm; cases hm
          obtain ⟨g1, g2, g3, g4⟩ := assign_parts th x h rest
          refine ho.received hi (th := th) (t := t) (x := event m t) rfl ht (by rw [hev]; simp only [beginEvent, hq]) (by rw [hev]; rfl) hq ?_ ?_ ?_ hd
            (g3 ▸ hd) (by unfold Th.assign; split <;> rfl)
          · intro a ha
            rcases mem_assign.1 ha with ha | ha
            · exact .inl (List.mem_append_left _ ha)
            · exact .inr ha
          · intro a ha
            exact mem_assign.2 (.inr ha)
          · intro a ha
            simp only [Th.handles, hj, hstage, Stage.handles, List.append_nil] at ha
            exact mem_assign.2 (.inl ha)
  | read h =>
    rw [hstage] at hm hev hst
    simp only at hm hev
    refine ho.incr hi (th := th) (th' := { th with stage := .store h }) (t := t) (x := event m t) (h := h) rfl ht (by rw [hev]) (by rw [hev]) ?_ ?_ hd hd ?_ hm
    · intro a ha
      rcases hst with ⟨x, y, _, h2⟩ | ⟨x, y, i, e, b, _, h2, h3, h4⟩
      · exact .inl (hvar (h2 ▸ ha : hdVar th.vars y = .ref a))
      · subst ha
        exact .inr ⟨e, b, hvar h2, h3, List.mem_of_getElem? h4⟩
    · intro a; simp [Th.handles, hstage, Stage.handles, hj, eq_comm]
    · intro _ _ _ _ _ h; exact h.elim
  | store h =>
    rw [hstage] at hm hev
    simp only [Option.some.injEq] at hm hev
    subst hm
    obtain ⟨g1, g2, g3, g4⟩ := assign_parts th op.target h rest
    refine ho.calm hi (t := t) (x := event m t) rfl ht ?_ ?_ ?_ ?_ hd (g3 ▸ hd) ?_
    · intro c; rw [hev]; exact ⟨nofun, nofun⟩
    · intro a; rw [hev]; rfl
    · intro a w h; rw [hev] at h; cases h
    · intro a
      rw [mem_assign]
      simp [Th.handles, hstage, Stage.handles, hj, eq_comm]
    · intro _ _ _ _ _ h
      rw [show ∀ h, (th.assign op.target h rest).stage = .start by intro h; unfold Th.assign; split <;> rfl] at h
      exact h.elim
  | cow =>
    rw [hstage] at hm hev hst
    simp only at hm hev
    obtain ⟨_, a, h2⟩ := hst
    have h2 : th.var op.target = .ref a := h2
    rw [h2] at hm hev
    simp only [Hd.sync] at hm hev
    cases hb : blkAt m.blocks a with
    | none => rw [hb] at hm; cases hm
    | some b =>
      rw [hb] at hm
      simp only [Option.map_some, Option.some.injEq] at hm
      have key : ∀ st : Stage, st.handles = [] → Ordered o (m.put t { th with stage := st }) (tr ++ [event m t]) := by
        intro st hs'
        refine ho.calm hi (t := t) (x := event m t) rfl ht ?_ ?_ ?_ ?_ hd hd ?_
        · intro c; rw [hev]; exact ⟨nofun, nofun⟩
        · intro a; rw [hev]; rfl
        · intro a w h; rw [hev] at h; cases h
        · intro a
          simp only [Th.handles, hs']
          simp [hstage, Stage.handles]
        · intro op' rest' c e k1 _ k3 k4
          have k1 : th.prog = op' :: rest' := k1
          rw [hop] at k1; cases k1
          have k3 : th.var op.target = .ref c := k3
          rw [h2] at k3; cases k3
          exact KnowC.acquire (x := event m t) k4 (by rw [hev]; simp [Orders.acquires, hload])
      split at hm <;> subst hm
      · exact key _ rfl
      · exact key _ rfl
  | copying done =>
    rw [hstage] at hm hev hst
    simp only at hm hev
    obtain ⟨_, a, b, r, h2, h3, h4⟩ := hst
    have h2 : th.var op.target = .ref a := h2
    rw [h2] at hm hev
    simp only [h3, Option.map_some, Option.some.injEq] at hm hev
    cases hk : b.kids[done.length]? with
    | some h =>
      rw [hk] at hm hev
      simp only at hm hev
      subst hm
      refine ho.calm hi (t := t) (x := event m t) rfl ht ?_ ?_ ?_ ?_ hd hd ?_
      · intro c; rw [hev]; exact ⟨nofun, nofun⟩
      · intro a; rw [hev]; rfl
      · intro c w h
        rw [hev] at h
        simp only [List.mem_singleton, Prod.mk.injEq] at h
        exact ⟨h.2, h.1 ▸ hvar h2⟩
      · intro a; simp [Th.handles, hstage, Stage.handles]
      · intro _ _ _ _ _ h; exact h.elim
    | none =>
      rw [hk] at hm hev
      simp only at hm hev
      subst hm
      have hx := hdVar_mem h2
      have hlt := (List.getElem?_eq_some_iff.1 hx).1
      have hset : (th.vars.set op.target (.ref m.blocks.length))[op.target]? = some (.ref m.blocks.length) := by
        rw [List.getElem?_set_self hlt]
      refine ho.alloc hi (th := th) (t := t) (x := event m t) rfl ht (by rw [hev]) (by rw [hev]; simp) ?_ ?_ ?_ ?_ ?_ hd hd ?_
      · intro c w h
        rw [hev] at h
        simp only [List.mem_cons, Prod.mk.injEq, List.not_mem_nil, or_false] at h
        rcases h with ⟨rfl, rfl⟩ | ⟨rfl, rfl⟩
        · exact .inr ⟨rfl, hvar h2, by simp [Th.handles]⟩
        · exact .inl ⟨rfl, rfl⟩
      · exact List.mem_append_left _ (List.mem_of_getElem? hset)
      · intro c h
        simp [Th.handles, hstage, Stage.handles, h]
      · intro c h
        simp only [Th.handles, Stage.handles, List.mem_append, List.mem_singleton, List.not_mem_nil, false_or] at h
        rcases h with h | h
        · rcases List.mem_or_eq_of_mem_set h with h | h
          · exact .inl (List.mem_append_left _ h)
          · cases h; exact .inr rfl
        · exact .inl (h ▸ hvar h2)
      · intro c h
        simp only [Th.handles, hstage, Stage.handles, hj, List.append_nil, List.mem_append] at h
        rcases h with h | h
        · left
          obtain ⟨k, hk⟩ := List.getElem?_of_mem h
          by_cases hkx : op.target = k
          · subst hkx
            rw [hx] at hk
            cases hk
            simp [Th.handles]
          · refine List.mem_append_left _ (List.mem_of_getElem? (i := k) ?_)
            rw [List.getElem?_set_ne hkx]; exact hk
        · exact .inr h
      · intro op' rest' k1 _
        have k1 : th.prog = op' :: rest' := k1
        rw [hop] at k1; cases k1
        simp only [Th.var, hset, Option.getD_some]
  | copyInc done h =>
    rw [hstage] at hm hev hst
    simp only at hm hev
    obtain ⟨_, a, b, r, h2, h3, h4⟩ := hst
    refine ho.incr hi (th := th) (th' := { th with stage := .copying (done ++ [h]) }) (t := t) (x := event m t) (h := h) rfl ht (by rw [hev]) (by rw [hev]) ?_ ?_ hd hd ?_ hm
    · intro c hc
      subst hc
      exact .inr ⟨a, b, hvar h2, h3, by rw [h4]; simp⟩
    · intro c
      simp only [Th.handles, hstage, Stage.handles, hj, List.append_nil, List.mem_append, List.mem_singleton, eq_comm (a := h)]
      constructor
      · rintro (h | h | h) <;> simp [h]
      · rintro ((h | h) | h) <;> simp [h]
    · intro _ _ _ _ _ h; exact h.elim
  | ready =>
    rw [hstage] at hm hev hst
    simp only at hm hev
    obtain ⟨h1, a, b, h2, h3, h4⟩ := hst
    cases op with
    | push x y =>
      simp only [Option.some.injEq] at hm hev
      subst hm
      refine ho.calm hi (t := t) (x := event m t) rfl ht ?_ ?_ ?_ ?_ hd hd ?_
      · intro c; rw [hev]; exact ⟨nofun, nofun⟩
      · intro a; rw [hev]; rfl
      · intro a w h; rw [hev] at h; cases h
      · intro a; simp [Th.handles, hstage, Stage.handles]
      · intro op' rest' c e k1 _ k3 k4
        exact (ho.sole t th op' rest' c e ht k1 (by rw [hstage]; trivial) k3 k4).mono _
    | pop x =>
      have hv : th.var (Op.pop x).target = .ref a := h2
      simp only [hv, h3, Option.map_some, Option.some.injEq] at hm hev
      subst hm
      have hsole : th.stage.sole := by rw [hstage]; trivial
      have hka := (hi.sole_alone ht hop hsole hv).2.2.2.1
      have hkids : .ref a ∉ b.kids := by
        intro h
        have g4 := refsIn_blocks_le a h3
        have := refs_pos.2 h
        omega
      refine ho.change hi (th := th) (t := t) (x := event m t) rfl ht (by rw [hev]) (by rw [hev]; rfl) h3 hop hsole hv ?_ ?_ ?_ ?_ ?_ ?_ hd hd rfl
      · exact fun h => hkids (List.dropLast_subset _ h)
      · exact List.mem_append_left _ (List.mem_of_getElem? (hdVar_mem h2))
      · exact fun c h => .inl (List.dropLast_subset _ h)
      · intro c h
        simp only [Th.handles, Stage.handles, List.nil_append, List.mem_append, Option.mem_toList] at h
        rcases h with h | h
        · exact .inl (List.mem_append_left _ h)
        · exact .inr (List.mem_of_getLast? h)
      · intro c h
        simp only [Th.handles, hstage, Stage.handles, hj, List.append_nil] at h
        exact .inl (List.mem_append_left _ h)
      · intro c h
        have g5 := dropLast_refs c b.kids
        have g6 := refs_pos.2 h
        by_cases hc : .ref c ∈ b.kids.dropLast
        · exact .inl hc
        · right
          have g7 : refs c b.kids.dropLast = 0 := Nat.eq_zero_of_not_pos fun h => hc (refs_pos.1 h)
          have : .ref c ∈ b.kids.getLast?.toList := refs_pos.1 (by omega)
          simp [Th.handles, this]
    | _ => exact h1.elim
  | arg h =>
    rw [hstage] at hm hev hst
    simp only at hm hev
    obtain ⟨x, y, h1, h2, a, b, h3, h4, h5⟩ := hst
    subst h1
    refine ho.incr hi (th := th) (th' := { th with stage := .mutate h }) (t := t) (x := event m t) (h := h) rfl ht (by rw [hev]) (by rw [hev]) ?_ ?_ hd hd ?_ hm
    · intro c hc
      exact .inl (hvar (h2 ▸ hc : hdVar th.vars y = .ref c))
    · intro c; simp [Th.handles, hstage, Stage.handles, hj, eq_comm]
    · intro op' rest' c e k1 _ k3 k4
      exact (ho.sole t th op' rest' c e ht k1 (by rw [hstage]; trivial) k3 k4).mono _
  | mutate h =>
    rw [hstage] at hm hev hst
    simp only at hm hev
    obtain ⟨x, y, h1, hh, a, b, h2, h3, h4⟩ := hst
    subst h1
    have hv : th.var (Op.push x y).target = .ref a := h2
    simp only [hv, h3, Option.map_some, Option.some.injEq] at hm hev
    subst hm
    have hsole : th.stage.sole := by rw [hstage]; trivial
    obtain ⟨_, _, _, hka, _, hone⟩ := hi.sole_alone ht hop hsole hv
    refine ho.change hi (th := th) (t := t) (x := event m t) rfl ht (by rw [hev]) (by rw [hev]; rfl) h3 hop hsole hv ?_ ?_ ?_ ?_ ?_ ?_ hd hd rfl
    · intro hmem
      have g1 := refs_pos.2 hmem
      have g4 := refsIn_blocks_le a h3
      have g7 := refs_var h2
      simp only [Th.handles, hstage, Stage.handles, hj, refs_append, refs_nil] at hone
      rw [refs_append] at g1
      omega
    · exact List.mem_append_left _ (List.mem_of_getElem? (hdVar_mem h2))
    · intro c hc
      simp only [List.mem_append, List.mem_singleton] at hc
      rcases hc with hc | hc
      · exact .inl hc
      · right; simp [Th.handles, hstage, Stage.handles, hc]
    · intro c hc
      simp only [Th.handles, Stage.handles, hj, List.append_nil, List.nil_append] at hc
      exact .inl (List.mem_append_left _ hc)
    · intro c hc
      simp only [Th.handles, hstage, Stage.handles, hj, List.append_nil, List.mem_append, List.mem_singleton] at hc
      rcases hc with hc | hc
      · exact .inl (List.mem_append_left _ hc)
      · exact .inr (by simp [hc])
    · intro c hc
      exact .inl (List.mem_append_left _ hc)

theorem Ordered.init (o : Orders) (n k : Nat) (progs : List (List Op)) : Ordered o (Conc.init n k progs) [] := by
  have hno : ∀ {p : Nat → Ev → Prop} {e : Nat}, ¬ Past o [] p e := by
    rintro p e ⟨i, x, h, _⟩; simp at h
  refine ⟨?_, ?_, ?_, ?_, ?_, ?_, ?_⟩
  · intro i x a h; simp at h
  · intro c q h
    simp only [Conc.init, List.getElem?_replicate] at h
    split at h
    · cases h; rfl
    · cases h
  · exact fun pl a e _ h => (hno h).elim
  · intro i x a w b h; simp at h
  · intro t th a h1 h2
    simp only [Conc.init, List.getElem?_map, Option.map_eq_some_iff] at h1
    obtain ⟨p, _, rfl⟩ := h1
    cases h2
  · exact fun t th op rest a e _ _ _ _ h => (hno h).elim
  · rintro i j _ ⟨x, y, a, w, w', h, _⟩; simp at h

/-- Whole executions. -/
theorem Ordered.trace (hrel : o.dec.release = true) (hacq : o.dec.acquire = true) (hload : o.load.acquire = true) (ts : List Nat) :
    ∀ {m : M} {s : S} {tr : List Ev}, Ordered o m tr → Inv m s → ∀ i j, i < j → Conflict (tr ++ Conc.trace m ts) i j →
      Before o (tr ++ Conc.trace m ts) i j := by
  induction ts with
  | nil =>
    intro m s tr ho _ i j hij hc
    simp only [Conc.trace, List.append_nil] at hc ⊢
    exact ho.ordered i j hij hc
  | cons t ts ih =>
    intro m s tr ho hi i j hij hc
    obtain ⟨m', s', h1, _, h3⟩ := hi.step t
    have := ih (ho.next hi hrel hacq hload t h1) h3 i j hij
    simp only [Conc.trace, h1] at hc ⊢
    simpa using this (by simpa using hc)

end Dart.Conc
