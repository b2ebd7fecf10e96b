import Verif.Lemmas.ConcRun

/-
A single thread with plain counters does what it does with atomic ones.
-/
namespace Dart.Conc

/-- The state after the counter that was read is written back. -/
inductive Settles (t : Nat) : M → M → Prop
  | now {m : M} (h : ∀ th, m.threads[t]? = some th → th.pending = none) : Settles t m m
  | later {m m' : M} {th : Th} {p : Nat × Nat} (h1 : m.threads[t]? = some th) (h2 : th.pending = some p)
      (h3 : step false m t = some m') (h4 : ∀ th, m'.threads[t]? = some th → th.pending = none) : Settles t m m'

/-- Two outcomes of a step: both undefined, or the same once settled. -/
def SameStep (t : Nat) : Option M → Option M → Prop
  | none, none => True
  | some m, some m' => Settles t m m'
  | _, _ => False

theorem put_get {m : M} {t : Nat} {th th' : Th} (h : m.threads[t]? = some th) : (m.put t th').threads[t]? = some th' := by
  have : t < m.threads.length := by
    rcases Nat.lt_or_ge t m.threads.length with h' | h'
    · exact h'
    · rw [List.getElem?_eq_none h'] at h; cases h
  simp [M.put, this]

theorem sameStep_put {m n : M} {t : Nat} {th th' : Th} (hn : n.threads = m.threads) (h : m.threads[t]? = some th)
    (hp : th'.pending = none) : SameStep t (some (n.put t th')) (some (n.put t th')) := by
  refine .now fun th'' h'' => ?_
  rw [put_get (by rw [hn]; exact h)] at h''
  cases h''; exact hp

theorem sameStep_write {m : M} {t : Nat} {th th' : Th} {a n : Nat} {b : Blk} (h : m.threads[t]? = some th)
    (hp : th'.pending = none) (hb : blkAt m.blocks a = some b) :
    SameStep t (some (writeCount false m t th' a b n)) (some (writeCount true m t th' a b n)) := by
  simp only [writeCount, Bool.false_eq_true, if_false, if_true]
  have h1 := put_get (th' := { th' with pending := some (a, n) }) h
  refine .later h1 rfl ?_ ?_
  · unfold step
    rw [h1]
    obtain ⟨v, p, s, j, d, q⟩ := th'
    simp only at hp
    subst hp
    simp only [M.put, M.setBlk, List.set_set]
    rw [hb]
    rfl
  · intro th'' h''
    rw [put_get (m := m.setBlk a (some { b with count := n })) h] at h''
    cases h''; exact hp

theorem sameStep_incr {m : M} {t : Nat} {th th' : Th} (hd : Hd) (h : m.threads[t]? = some th) (hp : th'.pending = none) :
    SameStep t (incr false m t hd th') (incr true m t hd th') := by
  cases hd with
  | leaf n => exact sameStep_put rfl h hp
  | ref a =>
    simp only [incr]
    cases hb : blkAt m.blocks a with
    | none => trivial
    | some b => exact sameStep_write h hp hb

theorem sameStep_decr {m : M} {t : Nat} {th th' : Th} (hd : Hd) (h : m.threads[t]? = some th) (hp : th'.pending = none) :
    SameStep t (decr false m t hd th') (decr true m t hd th') := by
  cases hd with
  | leaf n => exact sameStep_put rfl h hp
  | ref a =>
    simp only [decr]
    cases hb : blkAt m.blocks a with
    | none => trivial
    | some b =>
      simp only [Option.bind_some]
      cases b.count with
      | zero => trivial
      | succ n => exact sameStep_write h (by split <;> exact hp) hb

theorem sameStep_refl {t : Nat} {o : Option M} (h : ∀ m, o = some m → ∀ th, m.threads[t]? = some th → th.pending = none) :
    SameStep t o o := by
  cases o with
  | none => trivial
  | some m => exact .now (h m rfl)

theorem assign_pending (th : Th) (x : Nat) (h : Hd) (r : List Op) : (th.assign x h r).pending = th.pending := by
  unfold Th.assign; split <;> rfl

theorem begin_pending {m m' : M} {t : Nat} {th : Th} {op : Op} {rest : List Op} (h : m.threads[t]? = some th)
    (hp : th.pending = none) (hb : begin m t th op rest = some m') : ∀ th', m'.threads[t]? = some th' → th'.pending = none := by
  have key : ∀ {n : M} {th' : Th}, m' = n.put t th' → n.threads = m.threads → th'.pending = none →
      ∀ th', m'.threads[t]? = some th' → th'.pending = none := by
    rintro n th1 rfl hn hp1 th2 h2
    rw [put_get (by rw [hn]; exact h)] at h2
    cases h2; exact hp1
  have same : m' = m → ∀ th', m'.threads[t]? = some th' → th'.pending = none := by
    rintro rfl th2 h2; rw [h] at h2; cases h2; exact hp
  unfold begin at hb
  cases op with
  | leaf x n => cases hb; exact key rfl rfl hp
  | make x => cases hb; exact key (n := { m with blocks := m.blocks ++ [some (Blk.mk 1 [])] }) rfl rfl hp
  | copy x y => cases hb; exact key rfl rfl hp
  | get x y i =>
    simp only at hb
    split at hb
    · cases hb; exact key rfl rfl hp
    · simp only [Option.map_eq_some_iff] at hb
      obtain ⟨b, _, hb⟩ := hb
      split at hb
      · exact key hb.symm rfl hp
      · exact key hb.symm rfl hp
  | push x y =>
    simp only at hb
    split at hb <;> (cases hb; exact key rfl rfl hp)
  | pop x =>
    simp only at hb
    split at hb <;> (cases hb; exact key rfl rfl hp)
  | clear x =>
    simp only at hb
    split at hb
    · cases hb; exact key rfl rfl hp
    · simp only [Option.map_eq_some_iff] at hb
      obtain ⟨b, _, hb⟩ := hb
      exact key hb.symm rfl hp
  | send c x =>
    simp only at hb
    split at hb
    · cases hb; exact key rfl rfl hp
    · rename_i q _
      cases hb; exact key (n := { m with chans := m.chans.set c (q ++ [th.var x]) }) rfl rfl hp
  | recv c x =>
    simp only at hb
    split at hb
    · rename_i hd q _
      cases hb
      exact key (n := { m with chans := m.chans.set c q }) rfl rfl (by rw [assign_pending]; exact hp)
    · cases hb; exact same rfl

theorem step_same {m : M} {t : Nat} (h : ∀ th, m.threads[t]? = some th → th.pending = none) :
    SameStep t (step false m t) (step true m t) := by
  unfold step
  cases ht : m.threads[t]? with
  | none => exact .now (by rw [ht]; simp)
  | some th =>
    have hp := h th ht
    simp only [hp]
    split
    · rename_i a _
      refine sameStep_refl fun m' hm => ?_
      unfold destroy at hm
      simp only [Option.map_eq_some_iff] at hm
      obtain ⟨b, _, rfl⟩ := hm
      intro th' h'
      rw [put_get (m := m.setBlk a none) ht] at h'
      cases h'; exact hp
    · split
      · exact sameStep_decr _ ht rfl
      · split
        · exact .now h
        · rename_i op rest _
          unfold stmtStep
          have pure : ∀ {o : Option M}, (∀ m', o = some m' → ∃ (n : M) (th' : Th), m' = n.put t th' ∧ n.threads = m.threads ∧ th'.pending = none) →
              SameStep t o o := by
            intro o ho
            refine sameStep_refl fun m' hm => ?_
            obtain ⟨n, th', rfl, h1, h2⟩ := ho m' hm
            intro th2 h3
            rw [put_get (by rw [h1]; exact ht)] at h3
            cases h3; exact h2
          cases hs : th.stage with
          | start => exact sameStep_refl fun m' hm => begin_pending ht hp hm
          | read hd => exact sameStep_incr _ ht hp
          | store hd => exact sameStep_put rfl ht (by rw [assign_pending]; exact hp)
          | cow =>
            simp only
            split
            · trivial
            · refine pure fun m' hm => ?_
              simp only [Option.map_eq_some_iff] at hm
              obtain ⟨b, _, hm⟩ := hm
              split at hm
              · exact ⟨_, _, hm.symm, rfl, hp⟩
              · exact ⟨_, _, hm.symm, rfl, hp⟩
          | copying done =>
            simp only
            split
            · trivial
            · refine pure fun m' hm => ?_
              simp only [Option.map_eq_some_iff] at hm
              obtain ⟨b, _, hm⟩ := hm
              split at hm
              · exact ⟨_, _, hm.symm, rfl, hp⟩
              · exact ⟨_, _, hm.symm, rfl, hp⟩
          | copyInc done hd => exact sameStep_incr _ ht hp
          | ready =>
            simp only
            split
            · exact sameStep_put rfl ht hp
            · split
              · trivial
              · refine pure fun m' hm => ?_
                simp only [Option.map_eq_some_iff] at hm
                obtain ⟨b, _, hm⟩ := hm
                exact ⟨_, _, hm.symm, rfl, hp⟩
          | arg hd => exact sameStep_incr _ ht hp
          | mutate hd =>
            simp only
            split
            · trivial
            · refine pure fun m' hm => ?_
              simp only [Option.map_eq_some_iff] at hm
              obtain ⟨b, _, hm⟩ := hm
              exact ⟨_, _, hm.symm, rfl, hp⟩

theorem run_snoc (atomic : Bool) (m : M) (ts : List Nat) (t : Nat) :
    run atomic m (ts ++ [t]) = (run atomic m ts).bind fun m => step atomic m t := by
  induction ts generalizing m with
  | nil => simp only [List.nil_append, run, Option.bind_some]; cases step atomic m t <;> rfl
  | cons u us ih =>
    simp only [List.cons_append, run]
    cases step atomic m u with
    | none => rfl
    | some m' => exact ih m'

/-- Only one thread runs: plain counters are as good as atomic ones. -/
theorem run_plain {m : M} {t : Nat} (h0 : ∀ th, m.threads[t]? = some th → th.pending = none)
    (hd : ∀ k, ∃ m', run true m (List.replicate k t) = some m') (n : Nat) :
    ∃ k m1 m2, k ≤ n ∧ run false m (List.replicate n t) = some m1 ∧ run true m (List.replicate k t) = some m2 ∧ Settles t m1 m2 := by
  induction n with
  | zero => exact ⟨0, m, m, Nat.le_refl _, rfl, rfl, .now h0⟩
  | succ n ih =>
    obtain ⟨k, m1, m2, hk, h1, h2, h3⟩ := ih
    rw [List.replicate_succ', run_snoc, h1]
    cases h3 with
    | now hp =>
      obtain ⟨m3, hm3⟩ := hd (k + 1)
      have hm3' := hm3
      rw [List.replicate_succ', run_snoc, h2] at hm3
      simp only [Option.bind_some] at hm3 ⊢
      have := step_same hp
      rw [hm3] at this
      cases hs : step false m1 t with
      | none => rw [hs] at this; exact this.elim
      | some m4 =>
        rw [hs] at this
        exact ⟨k + 1, m4, m3, by omega, rfl, hm3', this⟩
    | later a1 a2 a3 a4 => exact ⟨k, m2, m2, by omega, by simp only [Option.bind_some, a3], h2, .now a4⟩

end Dart.Conc
