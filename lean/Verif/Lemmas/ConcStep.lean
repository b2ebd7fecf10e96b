import Verif.Lemmas.ConcInv

/-
Threads sharing packets, helpers: every step keeps the invariant.
-/
namespace Dart.Conc

/-- The state before a step. -/
structure Ctx (ro to : Nat → Nat) (t : Nat) (m : M) (th : Th) (s : S) (sth : STh) : Prop where
  thr : m.threads[t]? = some th
  sthr : s.threads[t]? = some sth
  loc : Loc ro to m.blocks m.chans th
  rel : Rel m.blocks th.vars th.prog th.stage sth
  chans : ChansRel m.blocks m.chans s.chans
  wf : Wf m.blocks
  pending : th.pending = none

/-- The state after a step. -/
def Good (ro to : Nat → Nat) (t : Nat) (m : M) (th : Th) (s : S) (o : Option M) : Prop :=
  ∃ bs' cs' th' s' sth', o = some ⟨bs', cs', m.threads.set t th'⟩ ∧ (s' = s ∨ s' = s.step t) ∧
    s'.threads = s.threads.set t sth' ∧ Loc ro to bs' cs' th' ∧ Away ro m.chans th.handles m.blocks bs' ∧
    Rel bs' th'.vars th'.prog th'.stage sth' ∧ ChansRel bs' cs' s'.chans ∧ Wf bs' ∧ th'.pending = none

theorem set_self {α : Type} {l : List α} {i : Nat} {x : α} (h : l[i]? = some x) : l.set i x = l := by
  obtain ⟨h1, h2⟩ := List.getElem?_eq_some_iff.1 h
  subst h2
  exact List.set_getElem_self h1

section
variable {ro to : Nat → Nat} {t : Nat} {m : M} {th : Th} {s : S} {sth : STh}

theorem Ctx.stay (c : Ctx ro to t m th s sth) {bs' : List (Option Blk)} {th' : Th} (hL : Loc ro to bs' m.chans th')
    (hA : Away ro m.chans th.handles m.blocks bs') (hR : Rel bs' th'.vars th'.prog th'.stage sth) (hW : Wf bs')
    (hp : th'.pending = none) : Good ro to t m th s (some ⟨bs', m.chans, m.threads.set t th'⟩) :=
  ⟨bs', m.chans, th', s, sth, rfl, .inl rfl, (set_self c.sthr).symm, hL, hA, hR, hA.chans c.chans, hW, hp⟩

theorem Ctx.stay_same (c : Ctx ro to t m th s sth) {th' : Th} (hr : ∀ a, refs a th'.handles = refs a th.handles) (hd : th'.dying = th.dying)
    (hR : Rel m.blocks th'.vars th'.prog th'.stage sth) (hp : th'.pending = th.pending) : Good ro to t m th s (some (m.put t th')) :=
  c.stay (c.loc.same (fun a => by rw [hr]) hd) Away.rfl' hR c.wf (hp ▸ c.pending)

theorem Ctx.idle (c : Ctx ro to t m th s sth) : Good ro to t m th s (some m) := by
  have := c.stay_same (th' := th) (fun _ => rfl) rfl c.rel rfl
  rwa [show m.put t th = m by rw [M.put, set_self c.thr]] at this

/-- A statement on own variables takes effect. -/
theorem Ctx.exec (c : Ctx ro to t m th s sth) {bs' : List (Option Blk)} {th' : Th} {op : Op} {rest : List Op} (hop : th.prog = op :: rest)
    (h1 : ∀ x y, op ≠ .send x y) (h2 : ∀ x y, op ≠ .recv x y) (hL : Loc ro to bs' m.chans th')
    (hA : Away ro m.chans th.handles m.blocks bs') (hR : Rel bs' th'.vars th'.prog th'.stage (sth.exec op rest)) (hW : Wf bs')
    (hp : th'.pending = none) : Good ro to t m th s (some ⟨bs', m.chans, m.threads.set t th'⟩) := by
  refine ⟨bs', m.chans, th', s.step t, sth.exec op rest, rfl, .inr rfl, ?_, hL, hA, hR, ?_, hW, hp⟩
  · simp only [S.step, c.sthr, ← c.rel.prog, hop]
  · have : (s.step t).chans = s.chans := by
      simp only [S.step, c.sthr, ← c.rel.prog, hop]
    rw [this]; exact hA.chans c.chans

theorem Rel.next {bs : List (Option Blk)} {xs : List Hd} {vs : List PV} {rest : List Op} (h : HoldsAll bs xs vs)
    (hf : ∀ o ∈ rest, Op.Fine o) : Rel bs xs rest .start ⟨vs, rest⟩ :=
  ⟨h, rfl, hf, by cases rest <;> trivial⟩

theorem th_var (th : Th) (x : Nat) : th.var x = hdVar th.vars x := rfl

theorem refs_leaf (a : Nat) (n : Option Int) (l : List Hd) : refs a (.leaf n :: l) = refs a l := by
  rw [refs_cons, if_neg (by simp)]; omega

theorem refs_assign (th : Th) (x : Nat) (h : Hd) (rest : List Op) (a : Nat) :
    refs a (th.assign x h rest).handles = refs a th.vars + refs a [h] := by
  unfold Th.assign
  split
  next hx =>
    have := refs_set a (List.getElem?_eq_getElem hx) h
    simp only [Th.handles, Stage.handles, refs_append, refs_nil, th_var, hdVar, List.getElem?_eq_getElem hx, Option.getD_some]
    omega
  next => simp only [Th.handles, Stage.handles, refs_append, refs_nil]; omega

theorem assign_holds {bs : List (Option Blk)} {th : Th} {vs : List PV} (hh : HoldsAll bs th.vars vs) {h : Hd} {v : PV} (hv : Holds bs h v)
    (x : Nat) (rest : List Op) : HoldsAll bs (th.assign x h rest).vars (vs.set x v) := by
  unfold Th.assign
  split
  · exact hh.set hv x
  next hx => rw [List.set_eq_of_length_le (by have := hh.length; omega)]; exact hh

theorem assign_parts (th : Th) (x : Nat) (h : Hd) (rest : List Op) :
    (th.assign x h rest).prog = rest ∧ (th.assign x h rest).stage = .start ∧ (th.assign x h rest).dying = th.dying ∧
      (th.assign x h rest).pending = th.pending := by
  unfold Th.assign; split <;> exact ⟨rfl, rfl, rfl, rfl⟩

/-- The value of a variable. -/
theorem Ctx.var (c : Ctx ro to t m th s sth) (x : Nat) : Holds m.blocks (th.var x) (sth.var x) := c.rel.vars.getD x

theorem Ctx.stage (c : Ctx ro to t m th s sth) {op : Op} {rest : List Op} (hop : th.prog = op :: rest) :
    StageOk m.blocks th.vars sth op th.stage := by
  have h : ∀ {ops : List Op}, Rel m.blocks th.vars ops th.stage sth → ops = op :: rest → StageOk m.blocks th.vars sth op th.stage := by
    intro ops h e; subst e; exact h.stage
  exact h c.rel hop

theorem Ctx.fine (c : Ctx ro to t m th s sth) {op : Op} {rest : List Op} (hop : th.prog = op :: rest) :
    op.Fine ∧ ∀ o ∈ rest, Op.Fine o :=
  ⟨c.rel.fine op (by rw [hop]; exact List.mem_cons_self), fun o ho => c.rel.fine o (by rw [hop]; exact List.mem_cons_of_mem _ ho)⟩

/-- The variables, and the statement if any of its packets are left alone, when a counter changes. -/
theorem Ctx.rel_count (c : Ctx ro to t m th s sth) {a n : Nat} {b : Blk} (hb : blkAt m.blocks a = some b)
    (hx : 2 ≤ b.count ∨ refs a th.vars = 0) :
    Rel (m.blocks.set a (some { b with count := n })) th.vars th.prog th.stage sth := by
  refine c.rel.frame (P := fun _ => True) (fun c' d _ hd => KidsKept.count hb n c' d hd) (fun _ _ _ _ _ _ => trivial)
    (fun _ _ => trivial) (fun _ _ => trivial) ?_
  intro c' d hm hd h1
  rw [blkAt_set (blkAt_lt hb)]
  by_cases hc : c' = a
  · subst hc
    rw [hb] at hd; cases hd
    have := refs_pos.2 hm
    omega
  · exact ⟨d, by rw [if_neg hc, hd], h1⟩

theorem ite_comm (h a : Nat) : (if Hd.ref h = Hd.ref a then 1 else 0) = if a = h then 1 else 0 := by
  by_cases hh : a = h
  · subst hh; simp
  · rw [if_neg hh, if_neg]; intro e; cases e; exact hh rfl

theorem step_junk (c : Ctx ro to t m th s sth) {h : Hd} {w : List Hd} (hd : th.dying = none) (hj : th.junk = h :: w) :
    Good ro to t m th s (decr true m t h { th with junk := w }) := by
  cases h with
  | leaf n =>
    refine c.stay_same ?_ rfl c.rel rfl
    intro a; simp only [Th.handles, hj, refs_append, refs_leaf]
  | ref a =>
    have hpos : 0 < refs a th.handles := by
      simp only [Th.handles, hj, refs_append, refs_cons, if_true]; omega
    obtain ⟨b, hb, hcount⟩ := c.loc.live (.inl hpos)
    have htok := (c.loc.at hb).2
    simp only [decr, hb, Option.bind_some]
    cases hn : b.count with
    | zero => exfalso; omega
    | succ n =>
      simp only [writeCount, if_true]
      have hhand : ∀ d, refs d ({ th with junk := w } : Th).handles + (if d = a then 1 else 0) = refs d th.handles := by
        intro d
        simp only [Th.handles, hj, refs_append, refs_cons, ite_comm]
        omega
      refine c.stay (th' := if n = 0 then { th with junk := w, dying := some a } else { th with junk := w }) ?_ (Away.count hb n (.inl hpos)) ?_ (c.wf.count hb n) ?_
      · refine c.loc.setCount hb ?_ ?_
        · intro d
          have h1 := hhand d
          have h2 : refs d (if n = 0 then { th with junk := w, dying := some a } else { th with junk := w } : Th).handles =
              refs d ({ th with junk := w } : Th).handles := by split <;> rfl
          rw [h2]
          split at h1 <;> simp_all <;> omega
        · intro d
          rw [if_neg (by omega)] at htok
          simp only [Th.token, hd, reduceCtorEq, if_false] at htok ⊢
          by_cases hda : d = a
          · subst hda
            simp only [if_true]
            split
            · simp only [if_true]; omega
            · simp only [hd, reduceCtorEq, if_false]; omega
          · simp only [if_neg hda]
            split
            · rw [if_neg (by simp; exact fun e => hda e.symm)]
            · simp only [hd, reduceCtorEq, if_false]
      · have h1 := c.rel_count (n := n) hb (by
          by_cases h2 : refs a th.vars = 0
          · exact .inr h2
          · left
            simp only [Th.handles, hj, refs_append, refs_cons, if_true] at hcount
            omega)
        split <;> exact h1
      · split <;> exact c.pending

theorem step_destroy (c : Ctx ro to t m th s sth) {a : Nat} (hd : th.dying = some a) :
    Good ro to t m th s (destroy m t th a) := by
  have h1 := c.loc a
  have htk : th.token a = 1 := by simp only [Th.token, hd, if_true]
  cases hb : blkAt m.blocks a with
  | none => rw [hb] at h1; simp only at h1; omega
  | some b =>
    rw [hb] at h1
    simp only at h1
    have h0 : b.count = 0 := by
      have h2 := h1.2
      split at h2
      · assumption
      · omega
    rw [if_pos h0] at h1
    simp only [destroy, hb, Option.map_some]
    have hz : refsIn kidsOf a m.blocks = 0 := by omega
    have hv : refs a th.handles = 0 := by omega
    refine c.stay (th' := { th with dying := none, junk := b.kids ++ th.junk }) ?_ (Away.set hb none (by omega) (by omega) hz) ?_
      (c.wf.set hb hz (by simp)) c.pending
    · refine c.loc.free hb h0 ?_ ?_
      · intro d; simp only [Th.handles, refs_append]; omega
      · intro d
        simp only [Th.token, hd, reduceCtorEq, if_false, Option.some.injEq]
        by_cases hda : d = a
        · subst hda; simp only [if_true]; omega
        · rw [if_neg hda, if_neg (fun e => hda e.symm)]
    · have hle : refs a th.vars = 0 ∧ refs a th.stage.handles = 0 := by
        simp only [Th.handles, refs_append] at hv; omega
      show Rel (m.blocks.set a none) th.vars th.prog th.stage sth
      refine c.rel.frame (P := fun d => d ≠ a) ?_ ?_ ?_ ?_ ?_
      · intro d e hda he; exact ⟨e, by rw [blkAt_set (blkAt_lt hb), if_neg hda, he], rfl⟩
      · intro d e f hda he hf hfa
        subst hfa
        have g1 := refsIn_blocks_le f he
        have g2 := refs_pos.2 hf
        omega
      · intro d hdm hda; subst hda; have := refs_pos.2 hdm; omega
      · intro d hdm hda; subst hda; have := refs_pos.2 hdm; omega
      · intro d e hdm he h5
        have hda : d ≠ a := by intro hda; subst hda; have := refs_pos.2 hdm; omega
        exact ⟨e, by rw [blkAt_set (blkAt_lt hb), if_neg hda, he], h5⟩

/-- A counter is incremented for a new temporary. -/
theorem step_incr (c : Ctx ro to t m th s sth) {h : Hd} {th' : Th} (hmem : ∀ a, h = .ref a → 0 < refs a th.handles ∨ 0 < refsIn kidsOf a m.blocks)
    (hr : ∀ a, refs a th'.handles = refs a th.handles + refs a [h]) (hd : th'.dying = th.dying) (hp : th'.pending = th.pending)
    (hR : ∀ bs', KidsKept m.blocks bs' → (∀ a b, (h = .ref a → False) → blkAt m.blocks a = some b → blkAt bs' a = some b) →
      Rel bs' th'.vars th'.prog th'.stage sth) :
    Good ro to t m th s (incr true m t h th') := by
  cases h with
  | leaf n =>
    refine c.stay_same ?_ hd (hR m.blocks (fun a b hb => ⟨b, hb, rfl⟩) fun _ _ _ hb => hb) hp
    intro a; rw [hr, refs_leaf, refs_nil]; rfl
  | ref a =>
    obtain ⟨b, hb, hcount⟩ := c.loc.live (hmem a rfl)
    have htok := (c.loc.at hb).2
    have hge : 1 ≤ b.count := by have := hmem a rfl; omega
    simp only [incr, hb, Option.map_some, writeCount, if_true]
    refine c.stay ?_ (Away.count hb _ (hmem a rfl)) (hR _ (KidsKept.count hb _) ?_) (c.wf.count hb _) (hp ▸ c.pending)
    · refine c.loc.setCount hb ?_ ?_
      · intro d
        rw [hr, refs_cons, refs_nil, ite_comm]
        by_cases hda : d = a
        · simp only [hda, if_true]; omega
        · simp only [hda, if_false]
      · intro d
        rw [if_neg (by omega)] at htok
        have h3 : th'.token d = th.token d := by simp only [Th.token, hd]
        rw [h3]
        by_cases hda : d = a
        · subst hda; simp only [if_true, Nat.succ_ne_zero, if_false]; omega
        · rw [if_neg hda]
    · intro d e hne he
      show blkAt (m.blocks.set a _) d = some e
      rw [blkAt_set (blkAt_lt hb), if_neg (fun e => hne (by rw [e])), he]

end

end Dart.Conc
