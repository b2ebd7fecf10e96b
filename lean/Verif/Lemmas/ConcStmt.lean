import Verif.Lemmas.ConcStep

/-
Threads sharing packets, helpers: the steps of statements.
-/
namespace Dart.Conc

section
variable {ro to : Nat → Nat} {t : Nat} {m : M} {th : Th} {s : S} {sth : STh}

theorem Rel.restage {bs bs' : List (Option Blk)} {xs : List Hd} {ops : List Op} {st st' : Stage} {sth : STh} (h : Rel bs xs ops st sth)
    (hk : KidsKept bs bs') {op : Op} {rest : List Op} (hop : ops = op :: rest) (hst : StageOk bs' xs sth op st') : Rel bs' xs ops st' sth := by
  subst hop
  exact ⟨h.vars.mono hk, h.prog, h.fine, hst⟩

theorem KidsKept.refl (bs : List (Option Blk)) : KidsKept bs bs := fun _ b hb => ⟨b, hb, rfl⟩

/-- A variable that has a node as value refers to a block. -/
theorem holds_ref {bs : List (Option Blk)} {a : Nat} {v : PV} (h : Holds bs (.ref a) v) :
    ∃ b es, v = .node es ∧ blkAt bs a = some b ∧ HoldsAll bs b.kids es := by
  cases h with | @ref _ b es h1 h2 => exact ⟨b, es, rfl, blkAt_eq.2 h1, h2⟩

theorem holds_leaf {bs : List (Option Blk)} {n : Option Int} {v : PV} (h : Holds bs (.leaf n) v) : v = .leaf n := by cases h; rfl

theorem exec_none {sth : STh} {op : Op} {rest : List Op} (h : op.result sth = none) : sth.exec op rest = ⟨sth.vars, rest⟩ := by
  simp only [STh.exec, h]

theorem exec_some {sth : STh} {op : Op} {rest : List Op} {v : PV} (h : op.result sth = some v) :
    sth.exec op rest = ⟨sth.vars.set op.target v, rest⟩ := by
  simp only [STh.exec, h]

theorem exec_ne {op : Op} {sth : STh} {v : PV} (h : op.result sth = some v) : (∀ x y, op ≠ .send x y) ∧ ∀ x y, op ≠ .recv x y := by
  constructor <;> (intro x y e; subst e; cases h)

/-- A statement that throws. -/
theorem step_skip (c : Ctx ro to t m th s sth) {op : Op} {rest : List Op} (hop : th.prog = op :: rest) (hst : th.stage = .start)
    (h1 : ∀ x y, op ≠ .send x y) (h2 : ∀ x y, op ≠ .recv x y) (hn : op.result sth = none) :
    Good ro to t m th s (some (m.put t { th with prog := rest })) := by
  refine c.exec hop h1 h2 (th' := { th with prog := rest }) (c.loc.same (fun _ => rfl) rfl) Away.rfl' ?_ c.wf c.pending
  rw [exec_none hn]
  show Rel m.blocks th.vars rest th.stage _
  rw [hst]
  exact Rel.next c.rel.vars (c.fine hop).2

theorem step_restage (c : Ctx ro to t m th s sth) {op : Op} {rest : List Op} (hop : th.prog = op :: rest) {st' : Stage}
    (hh : ∀ a, refs a st'.handles = refs a th.stage.handles) (hs : StageOk m.blocks th.vars sth op st') :
    Good ro to t m th s (some (m.put t { th with stage := st' })) := by
  refine c.stay_same ?_ rfl (c.rel.restage (KidsKept.refl _) hop hs) rfl
  intro a; simp only [Th.handles, refs_append, hh]

theorem step_begin (c : Ctx ro to t m th s sth) {op : Op} {rest : List Op} (hop : th.prog = op :: rest) (hst : th.stage = .start)
    (hj : th.junk = []) : Good ro to t m th s (begin m t th op rest) := by
  have hfine := (c.fine hop).1
  cases op with
  | leaf x n =>
    refine step_restage c hop ?_ ⟨.leaf n, rfl, .leaf n⟩
    intro a; simp only [hst, Stage.handles, refs_leaf]
  | make x =>
    refine c.stay (th' := { th with stage := .store (.ref m.blocks.length) }) ?_ (Away.append _) ?_ (c.wf.append .nil) c.pending
    · refine c.loc.alloc ?_ rfl
      intro a; simp only [Th.handles, hst, Stage.handles, refs_append, refs_nil, refs_cons, hj]; omega
    · refine c.rel.restage (KidsKept.append _ _) hop ⟨.node [], rfl, ?_⟩
      exact .ref (b := ⟨1, []⟩) (by simp) .nil
  | copy x y =>
    refine step_restage c hop ?_ (.inl ⟨x, y, rfl, rfl⟩)
    intro a; simp only [hst, Stage.handles]
  | get x y i =>
    have hv := c.var y
    simp only [begin]
    cases hy : th.var y with
    | leaf n =>
      rw [hy] at hv
      refine step_skip c hop hst (by simp) (by simp) ?_
      simp only [Op.result, holds_leaf hv]
    | ref a =>
      rw [hy] at hv
      obtain ⟨b, es, h1, h2, h3⟩ := holds_ref hv
      simp only [h2, Option.map_some]
      cases hi : b.kids[i]? with
      | none =>
        refine step_restage c hop ?_ ⟨.leaf none, ?_, .leaf none⟩
        · intro a; simp only [hst, Stage.handles, refs_leaf]
        · have := h3.length
          have hlen := List.getElem?_eq_none_iff.1 hi
          simp only [Op.result, h1, List.getElem?_eq_none (show es.length ≤ i by omega), Option.getD_none]
      | some h =>
        refine step_restage c hop ?_ (.inr ⟨x, y, i, a, b, rfl, hy, h2, hi⟩)
        intro a; simp only [hst, Stage.handles]
  | push x y =>
    have hv := c.var x
    simp only [begin]
    cases hx : th.var x with
    | leaf n =>
      rw [hx] at hv
      refine step_skip c hop hst (by simp) (by simp) ?_
      simp only [Op.result, holds_leaf hv]
    | ref a =>
      refine step_restage c hop ?_ ⟨trivial, a, hx⟩
      intro a; simp only [hst, Stage.handles]
  | pop x =>
    have hv := c.var x
    simp only [begin]
    cases hx : th.var x with
    | leaf n =>
      rw [hx] at hv
      refine step_skip c hop hst (by simp) (by simp) ?_
      simp only [Op.result, holds_leaf hv]
    | ref a =>
      refine step_restage c hop ?_ ⟨trivial, a, hx⟩
      intro a; simp only [hst, Stage.handles]
  | clear x => exact hfine.elim
  | send ch x =>
    have hlen := c.chans.1
    simp only [begin]
    cases hq : m.chans[ch]? with
    | none =>
      have hq' : s.chans[ch]? = none := by
        rw [List.getElem?_eq_none_iff] at hq ⊢; omega
      refine ⟨m.blocks, m.chans, { th with prog := rest }, s.step t, ⟨sth.vars, rest⟩, rfl, .inr rfl, ?_, c.loc.same (fun _ => rfl) rfl,
        Away.rfl', ?_, ?_, c.wf, c.pending⟩
      · simp only [S.step, c.sthr, ← c.rel.prog, hop, hq']
      · show Rel m.blocks th.vars rest th.stage _
        rw [hst]; exact Rel.next c.rel.vars (c.fine hop).2
      · have : (s.step t).chans = s.chans := by simp only [S.step, c.sthr, ← c.rel.prog, hop, hq']
        rw [this]; exact c.chans
    | some q =>
      have hlt := (List.getElem?_eq_some_iff.1 hq).1
      have hq' : s.chans[ch]? = some s.chans[ch] := List.getElem?_eq_getElem (by omega)
      refine ⟨m.blocks, m.chans.set ch (q ++ [th.var x]), { th with vars := th.vars.set x (.leaf none), prog := rest }, s.step t,
        ⟨sth.vars.set x (.leaf none), rest⟩, rfl, .inr rfl, ?_, c.loc.same ?_ rfl, Away.rfl', ?_, ?_, c.wf, c.pending⟩
      · simp only [S.step, c.sthr, ← c.rel.prog, hop, hq']
      · intro a
        have h1 := refsIn_set id a hq (q ++ [th.var x])
        simp only [id, refs_append] at h1
        have h2 : refs a (th.vars.set x (.leaf none)) + refs a [th.var x] = refs a th.vars := by
          cases hx : th.vars[x]? with
          | none =>
            rw [List.set_eq_of_length_le (List.getElem?_eq_none_iff.1 hx), th_var, hdVar, hx, Option.getD_none, refs_leaf, refs_nil]; rfl
          | some h =>
            have := refs_set a hx (.leaf none)
            rw [refs_leaf, refs_nil] at this
            rw [th_var, hdVar, hx, Option.getD_some]
            omega
        simp only [Th.handles, refs_append]
        omega
      · show Rel m.blocks (th.vars.set x (.leaf none)) rest th.stage _
        rw [hst]; exact Rel.next (c.rel.vars.set (.leaf none) x) (c.fine hop).2
      · have : (s.step t).chans = s.chans.set ch (s.chans[ch] ++ [sth.var x]) := by
          simp only [S.step, c.sthr, ← c.rel.prog, hop, hq']
        rw [this]
        refine ⟨by simpa using hlen, fun d r p h1 h2 => ?_⟩
        rw [List.getElem?_set] at h1 h2
        by_cases hd : ch = d
        · subst hd
          rw [if_pos rfl, if_pos (by omega)] at h1 h2
          cases h1; cases h2
          exact (c.chans.2 ch q _ hq hq').append (c.var x)
        · rw [if_neg hd] at h1 h2
          exact c.chans.2 d r p h1 h2
  | recv ch x =>
    have hlen := c.chans.1
    simp only [begin]
    cases hq : m.chans[ch]? with
    | none => exact c.idle
    | some q =>
      cases q with
      | nil => exact c.idle
      | cons h q =>
        have hlt := (List.getElem?_eq_some_iff.1 hq).1
        have hq' : s.chans[ch]? = some s.chans[ch] := List.getElem?_eq_getElem (by omega)
        have hall := c.chans.2 ch _ _ hq hq'
        cases hp : s.chans[ch] with
        | nil => rw [hp] at hall; cases hall
        | cons v p =>
          rw [hp] at hall hq'
          cases hall with
          | cons hv hqp =>
            obtain ⟨g1, g2, g3, g4⟩ := assign_parts th x h rest
            refine ⟨m.blocks, m.chans.set ch q, th.assign x h rest, s.step t,
              ⟨sth.vars.set x v, rest⟩, rfl, .inr rfl, ?_, c.loc.same ?_ g3, Away.rfl', ?_, ?_, c.wf, g4 ▸ c.pending⟩
            · simp only [S.step, c.sthr, ← c.rel.prog, hop, hq']
            · intro a
              have h1 := refsIn_set id a hq q
              simp only [id, refs_cons (l := q)] at h1
              rw [refs_assign]
              simp only [Th.handles, refs_append, hst, hj, Stage.handles, refs_nil, refs_cons]
              omega
            · rw [g1, g2]; exact Rel.next (assign_holds c.rel.vars hv x rest) (c.fine hop).2
            · have : (s.step t).chans = s.chans.set ch p := by
                simp only [S.step, c.sthr, ← c.rel.prog, hop, hq']
              rw [this]
              refine ⟨by simpa using hlen, fun d r p' h1 h2 => ?_⟩
              rw [List.getElem?_set] at h1 h2
              by_cases hd : ch = d
              · subst hd
                rw [if_pos rfl, if_pos (by omega)] at h1 h2
                cases h1; cases h2
                exact hqp
              · rw [if_neg hd] at h1 h2
                exact c.chans.2 d r p' h1 h2

/-- Two variables refer to the same block. -/
theorem two_refs {vars : List Hd} {x y a : Nat} (hxy : x ≠ y) (hx : hdVar vars x = .ref a) (hy : hdVar vars y = .ref a) : 2 ≤ refs a vars := by
  have h1 := refs_set a (hdVar_mem hx) (.leaf none)
  rw [refs_leaf, refs_cons, refs_nil, if_pos rfl] at h1
  have h2 : 0 < refs a (vars.set x (.leaf none)) := by
    refine refs_pos.2 (List.mem_of_getElem? (i := y) ?_)
    rw [List.getElem?_set, if_neg hxy]
    exact hdVar_mem hy
  omega


/-- The elements of the exclusive block of variable `x` change. -/
theorem Ctx.write (c : Ctx ro to t m th s sth) {x a : Nat} {b : Blk} (hx : th.var x = .ref a) (hb : blkAt m.blocks a = some b)
    (h1 : b.count = 1) {ks : List Hd} {es : List PV} (hk : HoldsAll m.blocks ks es) (hka : refs a ks = 0) :
    ro a = 0 ∧ refsIn id a m.chans = 0 ∧ refsIn kidsOf a m.blocks = 0 ∧
    HoldsAll (m.blocks.set a (some { b with kids := ks })) th.vars (sth.vars.set x (.node es)) ∧
    Wf (m.blocks.set a (some { b with kids := ks })) := by
  have hcount := (c.loc.at hb).1
  have hpos := refs_var hx
  simp only [Th.handles, refs_append] at hcount
  have hz : refsIn kidsOf a m.blocks = 0 := by omega
  refine ⟨by omega, by omega, hz, ?_, c.wf.set hb hz ?_⟩
  · -- with null in `x` nothing refers to the block
    have h2 := refs_set a (hdVar_mem hx) (.leaf none)
    rw [refs_leaf, refs_cons, refs_nil, if_pos rfl] at h2
    have h3 := holds_set hb hz (some { b with kids := ks }) (by omega) (c.rel.vars.set (.leaf none) x)
    have h4 : Holds (m.blocks.set a (some { b with kids := ks })) (.ref a) (.node es) :=
      .ref (b := { b with kids := ks }) (blkAt_eq.1 (by rw [blkAt_set (blkAt_lt hb), if_pos rfl])) (holds_set hb hz _ hka hk)
    have h5 := h3.set h4 x
    rw [List.set_set, List.set_set, set_self (hdVar_mem hx)] at h5
    exact h5
  · intro b' hb'
    cases hb'
    exact ⟨hka, es, hk⟩

theorem dropLast_refs (a : Nat) (l : List Hd) : refs a l.dropLast + refs a l.getLast?.toList = refs a l := by
  induction l with
  | nil => rfl
  | cons h l ih =>
    cases l with
    | nil => simp [refs_nil]
    | cons h' l =>
      rw [List.dropLast_cons₂, List.getLast?_cons_cons, refs_cons (l := List.dropLast _), refs_cons (l := h' :: l)]
      omega

theorem step_stmt_eq {m : M} {t : Nat} {th : Th} {op : Op} {rest : List Op} (h : m.threads[t]? = some th) (hp : th.pending = none)
    (hd : th.dying = none) (hj : th.junk = []) (hop : th.prog = op :: rest) : step true m t = stmtStep true m t th op rest := by
  obtain ⟨vars, prog, stage, junk, dying, pending⟩ := th
  simp only at hp hd hj hop
  subst hp hd hj hop
  simp only [step, h]

theorem step_junk_eq {m : M} {t : Nat} {th : Th} {h : Hd} {w : List Hd} (ht : m.threads[t]? = some th) (hp : th.pending = none)
    (hd : th.dying = none) (hj : th.junk = h :: w) : step true m t = decr true m t h { th with junk := w } := by
  obtain ⟨vars, prog, stage, junk, dying, pending⟩ := th
  simp only at hp hd hj
  subst hp hd hj
  simp only [step, ht]

theorem step_stmt (c : Ctx ro to t m th s sth) {op : Op} {rest : List Op} (hd : th.dying = none) (hop : th.prog = op :: rest)
    (hj : th.junk = []) : Good ro to t m th s (step true m t) := by
  have hst := c.stage hop
  have hfine := (c.fine hop).1
  have hvars : ∀ a, refs a th.handles = refs a th.vars + refs a th.stage.handles := by
    intro a; simp only [Th.handles, hj, refs_append, refs_nil]; omega
  rw [step_stmt_eq c.thr c.pending hd hj hop]
  unfold stmtStep
  cases hs : th.stage with
  | start => exact step_begin c hop hs hj
  | read h =>
    rw [hs] at hst
    refine step_incr c ?_ ?_ rfl rfl ?_
    · intro a ha
      rcases hst with ⟨x, y, _, h2⟩ | ⟨x, y, i, e, b, _, h2, h3, h4⟩
      · left
        rw [hvars]; have := refs_var (h2 ▸ ha : hdVar th.vars y = .ref a); omega
      · right
        subst ha
        have h5 := refsIn_blocks_le a h3
        have h6 := refs_pos.2 (List.mem_of_getElem? h4)
        omega
    · intro a
      simp only [Th.handles, hs, hj, Stage.handles, refs_append, refs_nil]; omega
    · intro bs' hk _
      refine c.rel.restage hk hop ?_
      rcases hst with ⟨x, y, h1, h2⟩ | ⟨x, y, i, e, b, h1, h2, h3, h4⟩
      · subst h1
        exact ⟨sth.var y, rfl, h2 ▸ (c.var y).mono hk⟩
      · subst h1
        have hv := c.var y
        rw [th_var, h2] at hv
        obtain ⟨b', es, g1, g2, g3⟩ := holds_ref hv
        rw [h3] at g2; cases g2
        refine ⟨es[i]?.getD (.leaf none), ?_, ?_⟩
        · simp only [Op.result, g1]
        · have := g3.getD i
          rw [h4] at this
          exact this.mono hk
  | store h =>
    rw [hs] at hst
    obtain ⟨v, h1, h2⟩ := hst
    obtain ⟨g1, g2, g3, g4⟩ := assign_parts th op.target h rest
    refine c.exec hop (exec_ne h1).1 (exec_ne h1).2 (c.loc.same ?_ g3) Away.rfl' ?_ c.wf (g4 ▸ c.pending)
    · intro a; rw [refs_assign, hvars, hs]; rfl
    · rw [g1, g2, exec_some h1]
      exact Rel.next (assign_holds c.rel.vars h2 _ rest) (c.fine hop).2
  | cow =>
    rw [hs] at hst
    obtain ⟨h1, a, h2⟩ := hst
    have hpos := refs_var h2
    obtain ⟨b, hb, hcount⟩ := c.loc.live (a := a) (.inl (by rw [hvars]; omega))
    rw [hvars] at hcount
    simp only [th_var, h2, hb, Option.map_some]
    split
    · exact step_restage c hop (st' := .copying []) (by intro a; simp only [hs, Stage.handles]) ⟨h1, a, b, b.kids, h2, hb, rfl⟩
    · exact step_restage c hop (st' := .ready) (by intro a; simp only [hs, Stage.handles]) ⟨h1, a, b, h2, hb, by omega⟩
  | copying done =>
    rw [hs] at hst
    obtain ⟨h1, a, b, r, h2, h3, h4⟩ := hst
    simp only [th_var, h2, h3, Option.map_some]
    cases r with
    | cons h r =>
      have : b.kids[done.length]? = some h := by rw [h4]; simp
      simp only [this]
      exact step_restage c hop (st' := .copyInc done h) (by intro a; simp only [hs, Stage.handles]) ⟨h1, a, b, r, h2, h3, h4⟩
    | nil =>
      rw [List.append_nil] at h4
      have : b.kids[done.length]? = none := by rw [h4]; simp
      simp only [this]
      have hv := c.var op.target
      rw [th_var, h2] at hv
      obtain ⟨b', es, g1, g2, g3⟩ := holds_ref hv
      rw [h3] at g2; cases g2
      rw [h4] at g3
      have hkk := KidsKept.append m.blocks ⟨1, done⟩
      have hnew : blkAt (m.blocks ++ [some (Blk.mk 1 done)]) m.blocks.length = some ⟨1, done⟩ := by rw [blkAt_append, if_pos rfl]
      have hlt := (List.getElem?_eq_some_iff.1 (hdVar_mem h2)).1
      refine c.stay (th' := { th with vars := th.vars.set op.target (.ref m.blocks.length), junk := [.ref a], stage := .ready })
        ?_ (Away.append _) ?_ (c.wf.append (b := ⟨1, done⟩) g3) c.pending
      · refine c.loc.alloc ?_ rfl
        intro d
        have h5 := refs_set d (hdVar_mem h2) (.ref m.blocks.length)
        rw [hvars, hs]
        simp only [Th.handles, Stage.handles, refs_append, refs_nil]
        omega
      · show Rel _ (th.vars.set op.target (.ref m.blocks.length)) th.prog .ready sth
        have h6 : HoldsAll (m.blocks ++ [some (Blk.mk 1 done)]) (th.vars.set op.target (.ref m.blocks.length)) sth.vars := by
          have h7 := (c.rel.vars.mono hkk).set (Holds.ref (blkAt_eq.1 hnew) (g3.mono hkk)) op.target
          rw [← g1] at h7
          have h8 : sth.vars[op.target]? = some (sth.var op.target) := by
            have := c.rel.vars.length
            rw [STh.var, List.getElem?_eq_getElem (show op.target < sth.vars.length by omega)]; rfl
          rwa [set_self h8] at h7
        have h9 := c.rel
        rw [hop] at h9 ⊢
        refine ⟨h6, h9.prog, h9.fine, ?_⟩
        exact ⟨h1, m.blocks.length, _, by rw [hdVar, List.getElem?_set, if_pos rfl, if_pos hlt, Option.getD_some], hnew, rfl⟩
  | copyInc done h =>
    rw [hs] at hst
    obtain ⟨h1, a, b, r, h2, h3, h4⟩ := hst
    refine step_incr c ?_ ?_ rfl rfl ?_
    · intro d hd'
      right
      subst hd'
      have h5 := refsIn_blocks_le d h3
      have h6 : 0 < refs d b.kids := refs_pos.2 (by rw [h4]; simp)
      omega
    · intro d
      rw [hvars, hs]
      simp only [Th.handles, Stage.handles, hj, refs_append, refs_nil]
      omega
    · intro bs' hk _
      refine c.rel.restage hk hop ?_
      obtain ⟨b', g1, g2⟩ := hk a b h3
      exact ⟨h1, a, b', r, h2, g1, by rw [g2, h4]; simp⟩
  | ready =>
    rw [hs] at hst
    obtain ⟨h1, a, b, h2, h3, h4⟩ := hst
    cases op with
    | push x y =>
      exact step_restage c hop (st' := .arg (th.var y)) (by intro a; simp only [hs, Stage.handles]) ⟨x, y, rfl, rfl, a, b, h2, h3, h4⟩
    | pop x =>
      simp only [Op.target] at h2
      have hv := c.var x
      rw [th_var, h2] at hv
      obtain ⟨b', es, g1, g2, g3⟩ := holds_ref hv
      rw [h3] at g2; cases g2
      have hka : refs a b.kids.dropLast = 0 := by
        have g4 := refsIn_blocks_le a h3
        have g5 := dropLast_refs a b.kids
        have g6 := (c.loc.at h3).1
        have g7 := refs_var h2
        rw [hvars] at g6
        omega
      obtain ⟨w1, w2, w3, w4, w5⟩ := c.write (x := x) h2 h3 h4 g3.dropLast hka
      simp only [Op.target, th_var, h2, h3, Option.map_some]
      refine c.exec (th' := { th with junk := b.kids.getLast?.toList, prog := rest, stage := .start }) hop (by simp) (by simp) ?_
        (Away.set h3 _ w1 w2 w3) ?_ w5 c.pending
      · refine c.loc.setKids h3 ?_ rfl
        intro d
        have g5 := dropLast_refs d b.kids
        rw [hvars, hs]
        simp only [Th.handles, Stage.handles, refs_append, refs_nil]
        omega
      · rw [exec_some (v := .node es.dropLast) (by simp only [Op.result, g1])]
        exact Rel.next w4 (c.fine hop).2
    | _ => exact h1.elim
  | arg h =>
    rw [hs] at hst
    obtain ⟨x, y, h1, h2, a, b, h3, h4, h5⟩ := hst
    subst h1
    refine step_incr c ?_ ?_ rfl rfl ?_
    · intro d hd'
      left
      rw [hvars]; have := refs_var (h2 ▸ hd' : hdVar th.vars y = .ref d); omega
    · intro d
      rw [hvars, hs]
      simp only [Th.handles, Stage.handles, hj, refs_append, refs_nil]
      omega
    · intro bs' hk hne
      refine c.rel.restage hk hop ⟨x, y, rfl, h2 ▸ (c.var y).mono hk, a, b, h3, ?_, h5⟩
      refine hne a b ?_ h4
      intro e
      have g1 := two_refs hfine h3 (h2 ▸ e : hdVar th.vars y = .ref a)
      have g2 := (c.loc.at h4).1
      rw [hvars] at g2
      omega
  | mutate h =>
    rw [hs] at hst
    obtain ⟨x, y, h1, hh, a, b, h2, h3, h4⟩ := hst
    subst h1
    have hv := c.var x
    rw [th_var, h2] at hv
    obtain ⟨b', es, g1, g2, g3⟩ := holds_ref hv
    rw [h3] at g2; cases g2
    have hka : refs a (b.kids ++ [h]) = 0 := by
      have g4 := refsIn_blocks_le a h3
      have g6 := (c.loc.at h3).1
      have g7 := refs_var h2
      rw [hvars, hs] at g6
      simp only [Stage.handles] at g6
      rw [refs_append]
      omega
    obtain ⟨w1, w2, w3, w4, w5⟩ := c.write (x := x) h2 h3 h4 (g3.append hh) hka
    simp only [Op.target, th_var, h2, h3, Option.map_some]
    refine c.exec (th' := { th with prog := rest, stage := .start }) hop (by simp) (by simp) ?_
      (Away.set h3 _ w1 w2 w3) ?_ w5 c.pending
    · refine c.loc.setKids h3 ?_ rfl
      intro d
      rw [hvars, hs]
      simp only [Th.handles, Stage.handles, hj, refs_append, refs_nil]
      omega
    · rw [exec_some (v := .node (es ++ [sth.var y])) (by simp only [Op.result, g1])]
      exact Rel.next w4 (c.fine hop).2

theorem step_good (c : Ctx ro to t m th s sth) : Good ro to t m th s (step true m t) := by
  cases hd : th.dying with
  | some a =>
    simp only [step, c.thr, c.pending, hd]
    exact step_destroy c hd
  | none =>
    cases hj : th.junk with
    | cons h w =>
      rw [step_junk_eq c.thr c.pending hd hj]
      exact step_junk c hd hj
    | nil =>
      cases hop : th.prog with
      | nil => simp only [step, c.thr, c.pending, hd, hj, hop]; exact c.idle
      | cons op rest => exact step_stmt c hd hop hj

end

end Dart.Conc
