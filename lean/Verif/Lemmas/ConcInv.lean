import Verif.Lemmas.Conc

/-
Threads sharing packets, helpers: the invariant, and what the five kinds of changes to memory do to it.
-/
namespace Dart.Conc

def hdVar (vars : List Hd) (x : Nat) : Hd := vars[x]?.getD (.leaf none)

/-- Statements that copy on write. -/
def Op.writes : Op → Prop
  | .push _ _ | .pop _ => True
  | _ => False

/-- A variable refers to elements nobody else refers to. -/
def Excl (bs : List (Option Blk)) (vars : List Hd) (x : Nat) : Prop :=
  ∃ a b, hdVar vars x = .ref a ∧ blkAt bs a = some b ∧ b.count = 1

/-- What is known within a statement. -/
def StageOk (bs : List (Option Blk)) (vars : List Hd) (sth : STh) (op : Op) : Stage → Prop
  | .start => True
  | .read h => (∃ x y, op = .copy x y ∧ h = hdVar vars y) ∨
      ∃ x y i a b, op = .get x y i ∧ hdVar vars y = .ref a ∧ blkAt bs a = some b ∧ b.kids[i]? = some h
  | .store h => ∃ v, op.result sth = some v ∧ Holds bs h v
  | .cow => op.writes ∧ ∃ a, hdVar vars op.target = .ref a
  | .copying d => op.writes ∧ ∃ a b r, hdVar vars op.target = .ref a ∧ blkAt bs a = some b ∧ b.kids = d ++ r
  | .copyInc d h => op.writes ∧ ∃ a b r, hdVar vars op.target = .ref a ∧ blkAt bs a = some b ∧ b.kids = d ++ h :: r
  | .ready => op.writes ∧ Excl bs vars op.target
  | .arg h => ∃ x y, op = .push x y ∧ h = hdVar vars y ∧ Excl bs vars x
  | .mutate h => ∃ x y, op = .push x y ∧ Holds bs h (sth.var y) ∧ Excl bs vars x

/-- A thread and what it should be. -/
structure Rel (bs : List (Option Blk)) (xs : List Hd) (ops : List Op) (st : Stage) (sth : STh) : Prop where
  vars : HoldsAll bs xs sth.vars
  prog : ops = sth.prog
  fine : ∀ op ∈ ops, op.Fine
  stage : match ops with | [] => st = .start | op :: _ => StageOk bs xs sth op st

theorem hdVar_mem {vars : List Hd} {x a : Nat} (h : hdVar vars x = .ref a) : vars[x]? = some (.ref a) := by
  unfold hdVar at h
  cases hx : vars[x]? with
  | none => rw [hx] at h; cases h
  | some y => rw [hx] at h; simp only [Option.getD_some] at h; rw [h]

theorem refs_var {vars : List Hd} {x a : Nat} (h : hdVar vars x = .ref a) : 0 < refs a vars :=
  refs_pos.2 (List.mem_of_getElem? (hdVar_mem h))

theorem Excl.frame {bs bs' : List (Option Blk)} {vars : List Hd} {x : Nat}
    (hex : ∀ a b, .ref a ∈ vars → blkAt bs a = some b → b.count = 1 → ∃ b', blkAt bs' a = some b' ∧ b'.count = 1)
    (h : Excl bs vars x) : Excl bs' vars x := by
  obtain ⟨a, b, h1, h2, h3⟩ := h
  obtain ⟨b', h4, h5⟩ := hex a b (List.mem_of_getElem? (hdVar_mem h1)) h2 h3
  exact ⟨a, b', h1, h4, h5⟩

/-- Memory changes somewhere else. -/
theorem Rel.frame {bs bs' : List (Option Blk)} {vars : List Hd} {prog : List Op} {stage : Stage} {sth : STh} {P : Nat → Prop}
    (hb : ∀ a b, P a → blkAt bs a = some b → ∃ b', blkAt bs' a = some b' ∧ b'.kids = b.kids)
    (hc : ∀ a b c, P a → blkAt bs a = some b → .ref c ∈ b.kids → P c)
    (hv : ∀ a, .ref a ∈ vars → P a) (hs : ∀ a, .ref a ∈ stage.handles → P a)
    (hex : ∀ a b, .ref a ∈ vars → blkAt bs a = some b → b.count = 1 → ∃ b', blkAt bs' a = some b' ∧ b'.count = 1)
    (h : Rel bs vars prog stage sth) : Rel bs' vars prog stage sth := by
  refine ⟨h.vars.frame hb hc _ _ hv, h.prog, h.fine, ?_⟩
  have h4 := h.stage
  cases prog with
  | nil => exact h4
  | cons op rest =>
    have keep : ∀ {x a b}, hdVar vars x = .ref a → blkAt bs a = some b → ∃ b', blkAt bs' a = some b' ∧ b'.kids = b.kids :=
      fun hx hb' => hb _ _ (hv _ (List.mem_of_getElem? (hdVar_mem hx))) hb'
    cases stage with
    | start => trivial
    | read h =>
      rcases h4 with h4 | ⟨x, y, i, a, b, h5, h6, h7, h8⟩
      · exact .inl h4
      · obtain ⟨b', h9, h10⟩ := keep h6 h7
        exact .inr ⟨x, y, i, a, b', h5, h6, h9, h10 ▸ h8⟩
    | store h =>
      obtain ⟨v, h5, h6⟩ := h4
      exact ⟨v, h5, h6.frame hb hc _ _ fun a ha => hs a (by simp [Stage.handles, ha])⟩
    | cow => exact h4
    | copying d =>
      obtain ⟨h5, a, b, r, h6, h7, h8⟩ := h4
      obtain ⟨b', h9, h10⟩ := keep h6 h7
      exact ⟨h5, a, b', r, h6, h9, h10 ▸ h8⟩
    | copyInc d h =>
      obtain ⟨h5, a, b, r, h6, h7, h8⟩ := h4
      obtain ⟨b', h9, h10⟩ := keep h6 h7
      exact ⟨h5, a, b', r, h6, h9, h10 ▸ h8⟩
    | ready => exact ⟨h4.1, h4.2.frame hex⟩
    | arg h =>
      obtain ⟨x, y, h5, h6, h7⟩ := h4
      exact ⟨x, y, h5, h6, h7.frame hex⟩
    | mutate h =>
      obtain ⟨x, y, h5, h6, h7⟩ := h4
      exact ⟨x, y, h5, h6.frame hb hc _ _ (fun a ha => hs a (by simp [Stage.handles, ha])), h7.frame hex⟩

/-- Channels and what they should be. -/
def ChansRel (bs : List (Option Blk)) (cs : List (List Hd)) (p : List (List PV)) : Prop :=
  cs.length = p.length ∧ ∀ (c : Nat) (q : List Hd) (r : List PV), cs[c]? = some q → p[c]? = some r → HoldsAll bs q r

/-- All blocks have a value. -/
def Wf (bs : List (Option Blk)) : Prop := ∀ a b, blkAt bs a = some b → ∃ vs, HoldsAll bs b.kids vs

/-- What a step does to memory, for everybody else. -/
def Away (ro : Nat → Nat) (cs : List (List Hd)) (hs : List Hd) (bs bs' : List (Option Blk)) : Prop :=
  ∀ a b, blkAt bs a = some b →
    (∃ b', blkAt bs' a = some b' ∧ b'.kids = b.kids ∧ (b'.count = b.count ∨ 0 < refs a hs ∨ 0 < refsIn kidsOf a bs)) ∨
    (ro a = 0 ∧ refsIn id a cs = 0 ∧ refsIn kidsOf a bs = 0)

/-! ### the counters -/

section
variable {ro to : Nat → Nat} {bs : List (Option Blk)} {cs cs' : List (List Hd)} {th th' : Th}

theorem Loc.live (h : Loc ro to bs cs th) {a : Nat} (ha : 0 < refs a th.handles ∨ 0 < refsIn kidsOf a bs) :
    ∃ b, blkAt bs a = some b ∧ b.count = ro a + refs a th.handles + refsIn id a cs + refsIn kidsOf a bs := by
  have := h a
  cases hb : blkAt bs a with
  | none => rw [hb] at this; simp only at this; omega
  | some b => rw [hb] at this; exact ⟨b, rfl, this.1⟩

theorem Loc.at (h : Loc ro to bs cs th) {a : Nat} {b : Blk} (hb : blkAt bs a = some b) :
    b.count = ro a + refs a th.handles + refsIn id a cs + refsIn kidsOf a bs ∧ to a + th.token a = if b.count = 0 then 1 else 0 := by
  have := h a; rwa [hb] at this

theorem Loc.same (h : Loc ro to bs cs th)
    (hr : ∀ c, refs c th'.handles + refsIn id c cs' = refs c th.handles + refsIn id c cs)
    (ht : th'.dying = th.dying) : Loc ro to bs cs' th' := by
  intro c
  have h1 := h c
  have h2 := hr c
  have h3 : th'.token c = th.token c := by simp only [Th.token, ht]
  cases hb : blkAt bs c with
  | none => rw [hb] at h1; simp only at h1 ⊢; omega
  | some b =>
    rw [hb] at h1
    simp only at h1 ⊢
    rw [h3]
    exact ⟨by omega, h1.2⟩

theorem Loc.alloc (h : Loc ro to bs cs th) {d : List Hd}
    (hr : ∀ c, refs c th'.handles + refs c d = refs c th.handles + refs c [.ref bs.length])
    (ht : th'.dying = th.dying) : Loc ro to (bs ++ [some ⟨1, d⟩]) cs th' := by
  intro c
  have h1 := h c
  have h2 := hr c
  have h3 : th'.token c = th.token c := by simp only [Th.token, ht]
  rw [blkAt_append, refsIn_blocks_append]
  simp only [refs_cons, refs_nil, Hd.ref.injEq] at h2
  by_cases hc : c = bs.length
  · subst hc
    rw [blkAt_length] at h1
    simp only at h1
    simp only [if_true] at h2 ⊢
    refine ⟨by omega, ?_⟩
    simp only [Nat.succ_ne_zero, if_false]
    omega
  · rw [if_neg (fun e => hc e.symm)] at h2
    rw [if_neg hc]
    cases hb : blkAt bs c with
    | none => rw [hb] at h1; simp only at h1 ⊢; omega
    | some b =>
      rw [hb] at h1
      simp only at h1 ⊢
      rw [h3]
      exact ⟨by omega, h1.2⟩

theorem Loc.setCount (h : Loc ro to bs cs th) {a n : Nat} {b : Blk} (hb : blkAt bs a = some b)
    (hr : ∀ c, refs c th'.handles + (if c = a then b.count else 0) = refs c th.handles + (if c = a then n else 0))
    (ht : ∀ c, to c + th'.token c = if c = a then (if n = 0 then 1 else 0) else to c + th.token c) :
    Loc ro to (bs.set a (some { b with count := n })) cs th' := by
  intro c
  have h1 := h c
  have h2 := hr c
  have h3 := ht c
  have h4 := refsIn_blocks_set c hb (some { b with count := n })
  simp only [kidsOf] at h4
  rw [blkAt_set (blkAt_lt hb)]
  by_cases hc : c = a
  · subst hc
    rw [hb] at h1
    simp only [if_true] at h1 h2 h3 ⊢
    exact ⟨by omega, h3⟩
  · simp only [if_neg hc] at h2 h3 ⊢
    cases hb' : blkAt bs c with
    | none => rw [hb'] at h1; simp only at h1 ⊢; omega
    | some b' =>
      rw [hb'] at h1
      simp only at h1 ⊢
      rw [h3]
      exact ⟨by omega, h1.2⟩

theorem Loc.setKids (h : Loc ro to bs cs th) {a : Nat} {b : Blk} {ks : List Hd} (hb : blkAt bs a = some b)
    (hr : ∀ c, refs c th'.handles + refs c ks = refs c th.handles + refs c b.kids)
    (ht : th'.dying = th.dying) : Loc ro to (bs.set a (some { b with kids := ks })) cs th' := by
  intro c
  have h1 := h c
  have h2 := hr c
  have h3 : th'.token c = th.token c := by simp only [Th.token, ht]
  have h4 := refsIn_blocks_set c hb (some { b with kids := ks })
  simp only [kidsOf] at h4
  rw [blkAt_set (blkAt_lt hb)]
  by_cases hc : c = a
  · subst hc
    rw [hb] at h1
    simp only [if_true] at h1 ⊢
    rw [h3]
    exact ⟨by omega, h1.2⟩
  · simp only [if_neg hc]
    cases hb' : blkAt bs c with
    | none => rw [hb'] at h1; simp only at h1 ⊢; omega
    | some b' =>
      rw [hb'] at h1
      simp only at h1 ⊢
      rw [h3]
      exact ⟨by omega, h1.2⟩

theorem Loc.free (h : Loc ro to bs cs th) {a : Nat} {b : Blk} (hb : blkAt bs a = some b) (h0 : b.count = 0)
    (hr : ∀ c, refs c th'.handles = refs c th.handles + refs c b.kids)
    (ht : ∀ c, to c + th'.token c = if c = a then 0 else to c + th.token c) : Loc ro to (bs.set a none) cs th' := by
  intro c
  have h1 := h c
  have h2 := hr c
  have h3 := ht c
  have h4 := refsIn_blocks_set c hb none
  simp only [kidsOf, refs_nil] at h4
  rw [blkAt_set (blkAt_lt hb)]
  by_cases hc : c = a
  · subst hc
    rw [hb] at h1
    simp only [if_true] at h1 h3 ⊢
    exact ⟨by omega, h3⟩
  · simp only [if_neg hc] at h3 ⊢
    cases hb' : blkAt bs c with
    | none => rw [hb'] at h1; simp only at h1 ⊢; omega
    | some b' =>
      rw [hb'] at h1
      simp only at h1 ⊢
      rw [h3]
      exact ⟨by omega, h1.2⟩

end

/-! ### the rest of memory -/

theorem KidsKept.append (bs : List (Option Blk)) (b : Blk) : KidsKept bs (bs ++ [some b]) := by
  intro a c hc
  refine ⟨c, ?_, rfl⟩
  rw [blkAt_append, if_neg (Nat.ne_of_lt (blkAt_lt hc)), hc]

theorem KidsKept.count {bs : List (Option Blk)} {a : Nat} {b : Blk} (hb : blkAt bs a = some b) (n : Nat) :
    KidsKept bs (bs.set a (some { b with count := n })) := by
  intro c d hd
  rw [blkAt_set (blkAt_lt hb)]
  by_cases hc : c = a
  · subst hc; rw [hb] at hd; cases hd; exact ⟨_, if_pos rfl, rfl⟩
  · exact ⟨d, by rw [if_neg hc, hd], rfl⟩

theorem HoldsAll.mono {bs bs' : List (Option Blk)} (hb : KidsKept bs bs') {hs : List Hd} {vs : List PV} (hh : HoldsAll bs hs vs) :
    HoldsAll bs' hs vs :=
  hh.frame (P := fun _ => True) (fun a b _ => hb a b) (fun _ _ _ _ _ _ => trivial) vs hs fun _ _ => trivial

theorem Wf.append {bs : List (Option Blk)} (h : Wf bs) {b : Blk} {vs : List PV} (hv : HoldsAll bs b.kids vs) : Wf (bs ++ [some b]) := by
  intro a c hc
  have hk := KidsKept.append bs b
  rw [blkAt_append] at hc
  split at hc
  · cases hc; exact ⟨vs, hv.mono hk⟩
  · obtain ⟨ws, hw⟩ := h a c hc; exact ⟨ws, hw.mono hk⟩

theorem Wf.count {bs : List (Option Blk)} (h : Wf bs) {a : Nat} {b : Blk} (hb : blkAt bs a = some b) (n : Nat) :
    Wf (bs.set a (some { b with count := n })) := by
  intro c d hd
  have hk := KidsKept.count hb n
  rw [blkAt_set (blkAt_lt hb)] at hd
  split at hd
  · cases hd; obtain ⟨ws, hw⟩ := h a b hb; exact ⟨ws, hw.mono hk⟩
  · obtain ⟨ws, hw⟩ := h c d hd; exact ⟨ws, hw.mono hk⟩

/-- A block nothing in memory refers to changes. -/
theorem holds_set {bs : List (Option Blk)} {a : Nat} {b : Blk} (hb : blkAt bs a = some b) (hz : refsIn kidsOf a bs = 0)
    (o : Option Blk) {hs : List Hd} {vs : List PV} (h0 : refs a hs = 0) (hh : HoldsAll bs hs vs) : HoldsAll (bs.set a o) hs vs := by
  refine hh.frame (P := fun c => c ≠ a) ?_ ?_ vs hs ?_
  · intro c d hc hd
    exact ⟨d, by rw [blkAt_set (blkAt_lt hb), if_neg hc, hd], rfl⟩
  · intro c d e hc hd he hea
    subst hea
    have h1 := refsIn_blocks_le e hd
    have h2 := refs_pos.2 he
    omega
  · intro c hc hca
    subst hca
    have := refs_pos.2 hc
    omega

theorem Wf.set {bs : List (Option Blk)} (h : Wf bs) {a : Nat} {b : Blk} (hb : blkAt bs a = some b) (hz : refsIn kidsOf a bs = 0)
    {o : Option Blk} (ho : ∀ b', o = some b' → refs a b'.kids = 0 ∧ ∃ vs, HoldsAll bs b'.kids vs) : Wf (bs.set a o) := by
  intro c d hd
  rw [blkAt_set (blkAt_lt hb)] at hd
  split at hd
  · obtain ⟨h1, ws, h2⟩ := ho d hd; exact ⟨ws, holds_set hb hz o h1 h2⟩
  · obtain ⟨ws, hw⟩ := h c d hd
    refine ⟨ws, holds_set hb hz o ?_ hw⟩
    have := refsIn_blocks_le a hd
    omega

/-! ### everybody else -/

section
variable {ro : Nat → Nat} {cs : List (List Hd)} {hs : List Hd} {bs bs' : List (Option Blk)}

theorem Away.rfl' : Away ro cs hs bs bs := fun _ b hb => .inl ⟨b, hb, rfl, .inl rfl⟩

theorem Away.append (b : Blk) : Away ro cs hs bs (bs ++ [some b]) := by
  intro a c hc
  exact .inl ⟨c, by rw [blkAt_append, if_neg (Nat.ne_of_lt (blkAt_lt hc)), hc], rfl, .inl rfl⟩

theorem Away.count {a : Nat} {b : Blk} (hb : blkAt bs a = some b) (n : Nat) (h : 0 < refs a hs ∨ 0 < refsIn kidsOf a bs) :
    Away ro cs hs bs (bs.set a (some { b with count := n })) := by
  intro c d hd
  rw [blkAt_set (blkAt_lt hb)]
  by_cases hc : c = a
  · subst hc; rw [hb] at hd; cases hd; exact .inl ⟨_, if_pos rfl, rfl, .inr h⟩
  · exact .inl ⟨d, by rw [if_neg hc, hd], rfl, .inl rfl⟩

theorem Away.set {a : Nat} {b : Blk} (hb : blkAt bs a = some b) (o : Option Blk) (h1 : ro a = 0) (h2 : refsIn id a cs = 0)
    (h3 : refsIn kidsOf a bs = 0) : Away ro cs hs bs (bs.set a o) := by
  intro c d hd
  rw [blkAt_set (blkAt_lt hb)]
  by_cases hc : c = a
  · subst hc; exact .inr ⟨h1, h2, h3⟩
  · exact .inl ⟨d, by rw [if_neg hc, hd], rfl, .inl rfl⟩

/-- Blocks others can reach keep their elements. -/
theorem Away.holds (h : Away ro cs hs bs bs') {l : List Hd} {vs : List PV}
    (hl : ∀ a, 0 < refs a l → 0 < ro a ∨ 0 < refsIn id a cs ∨ 0 < refsIn kidsOf a bs) (hh : HoldsAll bs l vs) : HoldsAll bs' l vs := by
  refine hh.frame (P := fun a => 0 < ro a ∨ 0 < refsIn id a cs ∨ 0 < refsIn kidsOf a bs) ?_ ?_ vs l ?_
  · intro a b hp hb
    rcases h a b hb with ⟨b', h1, h2, _⟩ | ⟨h1, h2, h3⟩
    · exact ⟨b', h1, h2⟩
    · exfalso; omega
  · intro a b c _ hb hc
    have h1 := refsIn_blocks_le c hb
    have h2 := refs_pos.2 hc
    omega
  · intro a ha; exact hl a (refs_pos.2 ha)

theorem Away.chans (h : Away ro cs hs bs bs') {p : List (List PV)} (hc : ChansRel bs cs p) : ChansRel bs' cs p := by
  refine ⟨hc.1, fun c q r h1 h2 => h.holds ?_ (hc.2 c q r h1 h2)⟩
  intro a ha
  have := refsIn_erase id a h1
  simp only [id] at this
  omega

/-- Another thread is not disturbed. -/
theorem Away.rel {to : Nat → Nat} {th : Th} (hL : Loc ro to bs cs th) (h : Away ro cs th.handles bs bs') {u : Th} {su : STh}
    (hu : ∀ a, refs a u.handles ≤ ro a) (hr : Rel bs u.vars u.prog u.stage su) : Rel bs' u.vars u.prog u.stage su := by
  have hle : ∀ a, refs a u.vars + refs a u.stage.handles ≤ ro a := by
    intro a
    have := hu a
    simp only [Th.handles, refs_append] at this
    omega
  refine hr.frame (P := fun a => 0 < ro a ∨ 0 < refsIn id a cs ∨ 0 < refsIn kidsOf a bs) ?_ ?_ ?_ ?_ ?_
  · intro a b hp hb
    rcases h a b hb with ⟨b', h1, h2, _⟩ | ⟨h1, h2, h3⟩
    · exact ⟨b', h1, h2⟩
    · exfalso; omega
  · intro a b c _ hb hc
    have h1 := refsIn_blocks_le c hb
    have h2 := refs_pos.2 hc
    omega
  · intro a ha; have := hle a; have := refs_pos.2 ha; omega
  · intro a ha; have := hle a; have := refs_pos.2 ha; omega
  · intro a b ha hb h1
    have h2 := hle a
    have h3 := refs_pos.2 ha
    have h4 := (hL.at hb).1
    rcases h a b hb with ⟨b', g1, g2, g3⟩ | ⟨g1, _, _⟩
    · rcases g3 with g3 | g3 | g3
      · exact ⟨b', g1, by omega⟩
      · omega
      · omega
    · omega

end

end Dart.Conc
