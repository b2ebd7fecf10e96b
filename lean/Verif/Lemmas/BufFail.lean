import Verif.Spec.BufFail

namespace Dart.Hand
open Spec.Hand

/-- Contents of a block. -/
def look (s : State) (b : Nat) : Option (Bytes × Bool) := (s.blocks[b]?).map fun k => (k.bytes, k.aligned)

/-- Each block but `exc` is freed once if nobody owns it, and not freed otherwise; `exc` is not freed. -/
structure Inv (z : Size) (s : State) (exc : Option Nat) : Prop where
  inV : ∀ x b, s.vars x = some b → x < z.vars ∧ b < s.blocks.length
  inP : ∀ u b, s.ptrs u = some b → u < z.ptrs ∧ b < s.blocks.length
  excl : ∀ u b, s.ptrs u = some b → (∀ x, s.vars x ≠ some b) ∧ ∀ v, s.ptrs v = some b → v = u
  bal : ∀ b k, s.blocks[b]? = some k → some b ≠ exc → (k.freed = 0 ∧ Owned s b) ∨ (k.freed = 1 ∧ ¬ Owned s b)
  out : ∀ b k, s.blocks[b]? = some k → some b = exc → k.freed = 0

/-- State and environment. -/
structure Sim (s : State) (e : Env) : Prop where
  vars : ∀ x, (e.vars x).map (·, true) = (s.vars x).bind (look s)
  ptrs : ∀ u, e.ptrs u = (s.ptrs u).bind (look s)

theorem owned_iff {z : Size} {s : State} {exc : Option Nat} (h : Inv z s exc) (b : Nat) : s.owned z b = true ↔ Owned s b := by
  simp only [State.owned, Bool.or_eq_true, List.any_eq_true, List.mem_range, beq_iff_eq, Owned]
  constructor
  · rintro (⟨x, _, hx⟩ | ⟨u, _, hu⟩)
    · exact .inl ⟨x, hx⟩
    · exact .inr ⟨u, hu⟩
  · rintro (⟨x, hx⟩ | ⟨u, hu⟩)
    · exact .inl ⟨x, (h.inV x b hx).1, hx⟩
    · exact .inr ⟨u, (h.inP u b hu).1, hu⟩

theorem free_get (s : State) (b c : Nat) : (s.free b).blocks[c]? =
    if b = c then (s.blocks[c]?).map fun k => { k with freed := k.freed + 1 } else s.blocks[c]? := by
  rw [State.free]
  simp only [List.getElem?_modify]
  by_cases h : b = c
  · simp [h]
  · simp [h]

theorem look_free (s : State) (b c : Nat) : look (s.free b) c = look s c := by
  unfold look
  rw [free_get]
  by_cases h : b = c
  · rw [if_pos h]; cases s.blocks[c]? <;> rfl
  · rw [if_neg h]

theorem Inv.free {z : Size} {s : State} {b : Nat} (h : Inv z s (some b)) (hn : ¬ Owned s b) : Inv z (s.free b) none := by
  refine ⟨fun x c hx => ?_, fun u c hu => ?_, h.excl, fun c k hk _ => ?_, (nofun)⟩
  · exact ⟨(h.inV x c hx).1, by simpa [State.free] using (h.inV x c hx).2⟩
  · exact ⟨(h.inP u c hu).1, by simpa [State.free] using (h.inP u c hu).2⟩
  · rw [free_get] at hk
    by_cases hbc : b = c
    · rw [if_pos hbc] at hk
      cases hs : s.blocks[c]? with
      | none => rw [hs] at hk; cases hk
      | some k' =>
        rw [hs] at hk
        cases hk
        have := h.out c k' hs (by rw [hbc])
        exact .inr ⟨by simp [this], by rw [← hbc]; exact hn⟩
    · rw [if_neg hbc] at hk
      exact h.bal c k hk (fun hc => hbc (by cases hc; rfl))

theorem Inv.release {z : Size} {s : State} {old : Option Nat} (h : Inv z s old) : Inv z (s.release z old) none := by
  cases old with
  | none => exact h
  | some b =>
    simp only [State.release]
    by_cases ho : s.owned z b = true
    · rw [if_pos ho]
      refine ⟨h.inV, h.inP, h.excl, fun c k hk _ => ?_, (nofun)⟩
      by_cases hc : c = b
      · exact .inl ⟨h.out c k hk (by rw [hc]), by rw [hc]; exact (owned_iff h b).1 ho⟩
      · exact h.bal c k hk (fun hh => hc (by cases hh; rfl))
    · rw [if_neg ho]
      exact h.free fun hh => ho ((owned_iff h b).2 hh)

theorem look_release (z : Size) (s : State) (old : Option Nat) (c : Nat) : look (s.release z old) c = look s c := by
  cases old with
  | none => rfl
  | some b =>
    simp only [State.release]
    by_cases ho : s.owned z b = true
    · rw [if_pos ho]
    · rw [if_neg ho, look_free]

theorem put_self (f : Nat → Option Nat) (x : Nat) (b : Option Nat) : put f x b x = b := if_pos rfl
theorem put_ne (f : Nat → Option Nat) {x y : Nat} (b : Option Nat) (h : y ≠ x) : put f x b y = f y := if_neg h

/-- A variable gets a block that no pointer owns. -/
theorem Inv.setVar {z : Size} {s : State} {new : Option Nat} (h : Inv z s new) {x : Nat} (hx : x < z.vars)
    (hb : ∀ b, new = some b → b < s.blocks.length ∧ ∀ u, s.ptrs u ≠ some b) : Inv z (s.setVar z x new) none := by
  refine Inv.release ⟨fun y b hy => ?_, h.inP, fun u b hu => ⟨fun y hy => ?_, (h.excl u b hu).2⟩, fun b k hk hne => ?_,
    fun b k hk heq => ?_⟩
  · by_cases hxy : y = x
    · subst hxy
      replace hy := (put_self s.vars y new).symm.trans hy
      exact ⟨hx, (hb b hy).1⟩
    · exact h.inV y b (by rw [← put_ne s.vars new hxy]; exact hy)
  · by_cases hxy : y = x
    · subst hxy
      replace hy := (put_self s.vars y new).symm.trans hy
      exact (hb b hy).2 u hu
    · exact (h.excl u b hu).1 y (by rw [← put_ne s.vars new hxy]; exact hy)
  · by_cases hbn : some b = new
    · exact .inl ⟨h.out b k hk hbn, .inl ⟨x, by rw [hbn]; exact put_self _ _ _⟩⟩
    · have ho : Owned { s with vars := put s.vars x new } b ↔ Owned s b := by
        constructor
        · rintro (⟨y, hy⟩ | hu)
          · by_cases hxy : y = x
            · subst hxy
              replace hy := (put_self s.vars y new).symm.trans hy
              exact absurd hy.symm hbn
            · exact .inl ⟨y, by rw [← put_ne s.vars new hxy]; exact hy⟩
          · exact .inr hu
        · rintro (⟨y, hy⟩ | hu)
          · have hxy : y ≠ x := fun hh => hne (by rw [← hh, hy])
            exact .inl ⟨y, by rw [← hy]; exact put_ne s.vars new hxy⟩
          · exact .inr hu
      rw [ho]
      exact h.bal b k hk hbn
  · by_cases hbn : some b = new
    · exact h.out b k hk hbn
    · rcases h.bal b k hk hbn with hh | hh
      · exact hh.1
      · exact absurd (.inl ⟨x, heq.symm⟩) hh.2

/-- A pointer gets a block nobody owns. -/
theorem Inv.setPtr {z : Size} {s : State} {new : Option Nat} (h : Inv z s new) {u : Nat} (hu : u < z.ptrs)
    (hb : ∀ b, new = some b → b < s.blocks.length ∧ ¬ Owned s b) : Inv z (s.setPtr u new) none := by
  have key : Inv z { s with ptrs := put s.ptrs u new } (s.ptrs u) := by
    refine ⟨h.inV, fun y b hy => ?_, fun y b hy => ⟨fun x hx => ?_, fun v hv => ?_⟩, fun b k hk hne => ?_, fun b k hk heq => ?_⟩
    · by_cases hxy : y = u
      · subst hxy
        replace hy := (put_self s.ptrs y new).symm.trans hy
        exact ⟨hu, (hb b hy).1⟩
      · exact h.inP y b (by rw [← put_ne s.ptrs new hxy]; exact hy)
    · by_cases hxy : y = u
      · subst hxy
        replace hy := (put_self s.ptrs y new).symm.trans hy
        exact (hb b hy).2 (.inl ⟨x, hx⟩)
      · exact (h.excl y b (by rw [← put_ne s.ptrs new hxy]; exact hy)).1 x hx
    · by_cases hxy : y = u
      · subst hxy
        replace hy := (put_self s.ptrs y new).symm.trans hy
        by_cases hvy : v = y
        · exact hvy
        · exact absurd (.inr ⟨v, by rw [← put_ne s.ptrs new hvy]; exact hv⟩) (hb b hy).2
      · have hy' : s.ptrs y = some b := by rw [← put_ne s.ptrs new hxy]; exact hy
        by_cases hvu : v = u
        · subst hvu
          replace hv := (put_self s.ptrs v new).symm.trans hv
          exact absurd (.inr ⟨y, hy'⟩) (hb b hv).2
        · exact (h.excl y b hy').2 v (by rw [← put_ne s.ptrs new hvu]; exact hv)
    · by_cases hbn : some b = new
      · exact .inl ⟨h.out b k hk hbn, .inr ⟨u, by rw [hbn]; exact put_self _ _ _⟩⟩
      · have ho : Owned { s with ptrs := put s.ptrs u new } b ↔ Owned s b := by
          constructor
          · rintro (hx | ⟨y, hy⟩)
            · exact .inl hx
            · by_cases hxy : y = u
              · subst hxy
                replace hy := (put_self s.ptrs y new).symm.trans hy
                exact absurd hy.symm hbn
              · exact .inr ⟨y, by rw [← put_ne s.ptrs new hxy]; exact hy⟩
          · rintro (hx | ⟨y, hy⟩)
            · exact .inl hx
            · have hxy : y ≠ u := fun hh => hne (by rw [← hh, hy])
              exact .inr ⟨y, by rw [← hy]; exact put_ne s.ptrs new hxy⟩
        rw [ho]
        exact h.bal b k hk hbn
    · by_cases hbn : some b = new
      · exact h.out b k hk hbn
      · rcases h.bal b k hk hbn with hh | hh
        · exact hh.1
        · exact absurd (.inr ⟨u, heq.symm⟩) hh.2
  unfold State.setPtr
  cases hp : s.ptrs u with
  | none => rw [hp] at key; exact key
  | some old =>
    rw [hp] at key
    refine key.free ?_
    rintro (⟨x, hx⟩ | ⟨v, hv⟩)
    · exact (h.excl u old hp).1 x hx
    · by_cases hvu : v = u
      · subst hvu
        replace hv := (put_self s.ptrs v new).symm.trans hv
        exact (hb old hv).2 (.inr ⟨v, hp⟩)
      · exact hvu ((h.excl u old hp).2 v (by rw [← put_ne s.ptrs new hvu]; exact hv))

theorem vars_release (z : Size) (s : State) (old : Option Nat) : (s.release z old).vars = s.vars ∧ (s.release z old).ptrs = s.ptrs := by
  cases old with
  | none => exact ⟨rfl, rfl⟩
  | some b =>
    simp only [State.release]
    by_cases ho : s.owned z b = true
    · rw [if_pos ho]; exact ⟨rfl, rfl⟩
    · rw [if_neg ho]; exact ⟨rfl, rfl⟩

theorem setVar_fields (z : Size) (s : State) (x : Nat) (b : Option Nat) :
    (s.setVar z x b).vars = put s.vars x b ∧ (s.setVar z x b).ptrs = s.ptrs ∧ ∀ c, look (s.setVar z x b) c = look s c :=
  ⟨(vars_release ..).1, (vars_release ..).2, fun c => look_release ..⟩

theorem setPtr_fields (s : State) (u : Nat) (b : Option Nat) :
    (s.setPtr u b).vars = s.vars ∧ (s.setPtr u b).ptrs = put s.ptrs u b ∧ ∀ c, look (s.setPtr u b) c = look s c := by
  unfold State.setPtr
  cases s.ptrs u with
  | none => exact ⟨rfl, rfl, fun _ => rfl⟩
  | some old => exact ⟨rfl, rfl, fun c => look_free ..⟩

theorem Sim.setVar {s : State} {e : Env} (h : Sim s e) (z : Size) (x : Nat) (b : Option Nat) (m : Option Bytes)
    (hm : m.map (·, true) = b.bind (look s)) : Sim (s.setVar z x b) ⟨upd e.vars x m, e.ptrs⟩ := by
  obtain ⟨h1, h2, h3⟩ := setVar_fields z s x b
  have h3' : look (s.setVar z x b) = look s := funext h3
  refine ⟨fun y => ?_, fun u => ?_⟩
  · rw [h1, h3']
    by_cases hy : y = x
    · simp only [upd, put, if_pos hy]; exact hm
    · simp only [upd, put, if_neg hy]; exact h.vars y
  · rw [h2, h3']; exact h.ptrs u

theorem Sim.setPtr {s : State} {e : Env} (h : Sim s e) (u : Nat) (b : Option Nat) (m : Option (Bytes × Bool))
    (hm : m = b.bind (look s)) : Sim (s.setPtr u b) ⟨e.vars, upd e.ptrs u m⟩ := by
  obtain ⟨h1, h2, h3⟩ := setPtr_fields s u b
  have h3' : look (s.setPtr u b) = look s := funext h3
  refine ⟨fun y => ?_, fun v => ?_⟩
  · rw [h1, h3']; exact h.vars y
  · rw [h2, h3']
    by_cases hy : v = u
    · simp only [upd, put, if_pos hy]; exact hm
    · simp only [upd, put, if_neg hy]; exact h.ptrs v

theorem look_alloc_lt (s : State) (k : Blk) {b : Nat} (h : b < s.blocks.length) : look (s.alloc k) b = look s b := by
  simp only [look, State.alloc]
  rw [List.getElem?_append_left h]

theorem look_alloc_new (s : State) (k : Blk) : look (s.alloc k) s.blocks.length = some (k.bytes, k.aligned) := by
  simp [look, State.alloc]

theorem not_owned_new {z : Size} {s : State} {exc : Option Nat} (h : Inv z s exc) (k : Blk) :
    ¬ Owned (s.alloc k) s.blocks.length := by
  rintro (⟨x, hx⟩ | ⟨u, hu⟩)
  · exact absurd (h.inV x _ hx).2 (Nat.lt_irrefl _)
  · exact absurd (h.inP u _ hu).2 (Nat.lt_irrefl _)

/-- A new block that is to get an owner, or was freed. -/
theorem Inv.alloc {z : Size} {s : State} (h : Inv z s none) (k : Blk) (exc : Option Nat)
    (hk : (k.freed = 0 ∧ exc = some s.blocks.length) ∨ (k.freed = 1 ∧ exc = none)) : Inv z (s.alloc k) exc := by
  refine ⟨fun x b hx => ?_, fun u b hu => ?_, h.excl, fun b k' hb hne => ?_, fun b k' hb heq => ?_⟩
  · have := h.inV x b hx
    exact ⟨this.1, by simp [State.alloc]; omega⟩
  · have := h.inP u b hu
    exact ⟨this.1, by simp [State.alloc]; omega⟩
  · by_cases hlt : b < s.blocks.length
    · simp only [State.alloc] at hb
      rw [List.getElem?_append_left hlt] at hb
      exact h.bal b k' hb (nofun)
    · have hlen : b < (s.alloc k).blocks.length := by
        rcases Nat.lt_or_ge b (s.alloc k).blocks.length with hh | hh
        · exact hh
        · rw [List.getElem?_eq_none hh] at hb; cases hb
      have hbe : b = s.blocks.length := by simp [State.alloc] at hlen; omega
      subst hbe
      simp [State.alloc] at hb
      subst hb
      rcases hk with ⟨_, h2⟩ | ⟨h1, _⟩
      · exact absurd h2.symm hne
      · exact .inr ⟨h1, not_owned_new h k⟩
  · rcases hk with ⟨h1, h2⟩ | ⟨_, h2⟩
    · rw [h2] at heq
      cases heq
      simp [State.alloc] at hb
      rw [← hb]; exact h1
    · rw [h2] at heq; cases heq

theorem Sim.alloc {z : Size} {s : State} {exc : Option Nat} {e : Env} (hi : Inv z s exc) (h : Sim s e) (k : Blk) : Sim (s.alloc k) e := by
  refine ⟨fun x => ?_, fun u => ?_⟩
  · rw [h.vars x]
    cases hx : s.vars x with
    | none => simp [State.alloc, hx]
    | some b =>
      have := look_alloc_lt s k (hi.inV x b hx).2
      simp only [State.alloc] at this ⊢
      rw [hx]
      exact this.symm
  · rw [h.ptrs u]
    cases hx : s.ptrs u with
    | none => simp [State.alloc, hx]
    | some b =>
      have := look_alloc_lt s k (hi.inP u b hx).2
      simp only [State.alloc] at this ⊢
      rw [hx]
      exact this.symm

/-- What a variable or pointer lets go of is not freed yet. -/
theorem Inv.letVar {z : Size} {s : State} (h : Inv z s none) (y : Nat) : Inv z { s with vars := put s.vars y none } (s.vars y) := by
  refine ⟨fun x b hx => ?_, h.inP, fun u b hu => ⟨fun x hx => ?_, (h.excl u b hu).2⟩, fun b k hk hne => ?_, fun b k hk heq => ?_⟩
  · by_cases hxy : x = y
    · simp [put, hxy] at hx
    · exact h.inV x b (by rw [← put_ne s.vars none hxy]; exact hx)
  · by_cases hxy : x = y
    · simp [put, hxy] at hx
    · exact (h.excl u b hu).1 x (by rw [← put_ne s.vars none hxy]; exact hx)
  · have ho : Owned { s with vars := put s.vars y none } b ↔ Owned s b := by
      constructor
      · rintro (⟨x, hx⟩ | hu)
        · by_cases hxy : x = y
          · simp [put, hxy] at hx
          · exact .inl ⟨x, by rw [← put_ne s.vars none hxy]; exact hx⟩
        · exact .inr hu
      · rintro (⟨x, hx⟩ | hu)
        · have hxy : x ≠ y := fun hh => hne (by rw [← hh, hx])
          exact .inl ⟨x, by rw [← hx]; exact put_ne s.vars none hxy⟩
        · exact .inr hu
    rw [ho]
    exact h.bal b k hk (nofun)
  · rcases h.bal b k hk (nofun) with hh | hh
    · exact hh.1
    · exact absurd (.inl ⟨y, heq.symm⟩) hh.2

theorem Inv.letPtr {z : Size} {s : State} (h : Inv z s none) (y : Nat) : Inv z { s with ptrs := put s.ptrs y none } (s.ptrs y) := by
  have back : ∀ {v b}, put s.ptrs y none v = some b → s.ptrs v = some b := by
    intro v b hv
    by_cases hxy : v = y
    · simp [put, hxy] at hv
    · rw [← put_ne s.ptrs none hxy]; exact hv
  refine ⟨h.inV, fun u b hu => h.inP u b (back hu),
    fun u b hu => ⟨(h.excl u b (back hu)).1, fun v hv => (h.excl u b (back hu)).2 v (back hv)⟩, fun b k hk hne => ?_, fun b k hk heq => ?_⟩
  · have ho : Owned { s with ptrs := put s.ptrs y none } b ↔ Owned s b := by
      constructor
      · rintro (hx | ⟨v, hv⟩)
        · exact .inl hx
        · exact .inr ⟨v, back hv⟩
      · rintro (hx | ⟨v, hv⟩)
        · exact .inl hx
        · have hxy : v ≠ y := fun hh => hne (by rw [← hh, hv])
          exact .inr ⟨v, by rw [← hv]; exact put_ne s.ptrs none hxy⟩
    rw [ho]
    exact h.bal b k hk (nofun)
  · rcases h.bal b k hk (nofun) with hh | hh
    · exact hh.1
    · exact absurd (.inr ⟨y, heq.symm⟩) hh.2

/-- One statement. -/
theorem step_ok {k : Share.Kind} {z : Size} {s : State} {e : Env} (hi : Inv z s none) (h : Sim s e) (op : Op) (f : Fault)
    (hn : Names z op) (hs : Survivable k f op) :
    Inv z (s.step k z f op).1 none ∧
      (((s.step k z f op).2 = .badAlloc ∧ f ≠ .none ∧ Sim (s.step k z f op).1 e) ∨
        ((s.step k z f op).2 = (exec e op).2 ∧ Sim (s.step k z f op).1 (exec e op).1)) := by
  have fresh : ∀ (kk : Blk) (u : Nat), u < z.ptrs → kk.freed = 0 →
      Inv z ((s.alloc kk).setPtr u (some s.blocks.length)) none ∧
        Sim ((s.alloc kk).setPtr u (some s.blocks.length)) ⟨e.vars, upd e.ptrs u (some (kk.bytes, kk.aligned))⟩ := by
    intro kk u hu hf
    refine ⟨(hi.alloc kk _ (.inl ⟨hf, rfl⟩)).setPtr hu fun b hb => ?_, (h.alloc hi kk).setPtr u _ _ (look_alloc_new s kk).symm⟩
    cases hb
    exact ⟨by simp [State.alloc], not_owned_new hi kk⟩
  have shared : ∀ x y, s.vars y = x → Inv z s x := by
    intro x y hy
    subst hy
    refine ⟨hi.inV, hi.inP, hi.excl, fun b kk hk _ => hi.bal b kk hk (nofun), fun b kk hk heq => ?_⟩
    rcases hi.bal b kk hk (nofun) with hh | hh
    · exact hh.1
    · exact absurd (.inl ⟨y, heq.symm⟩) hh.2
  have noPtr : ∀ y b, s.vars y = some b → b < s.blocks.length ∧ ∀ u, s.ptrs u ≠ some b := fun y b hy =>
    ⟨(hi.inV y b hy).2, fun u hu => (hi.excl u b hu).1 y hy⟩
  cases op with
  | own u bytes aligned =>
    cases f with
    | memory => exact ⟨hi, .inl ⟨rfl, (nofun), h⟩⟩
    | _ => exact ⟨(fresh ⟨bytes, aligned, 0⟩ u hn rfl).1, .inr ⟨rfl, (fresh ⟨bytes, aligned, 0⟩ u hn rfl).2⟩⟩
  | build x check write =>
    cases check with
    | some err => exact ⟨hi, .inr ⟨rfl, h⟩⟩
    | none =>
      cases f with
      | memory => exact ⟨hi, .inl ⟨rfl, (nofun), h⟩⟩
      | control =>
        have hk : k = .std := hs.2 rfl
        subst hk
        exact ⟨hi.alloc _ none (.inr ⟨rfl, rfl⟩), .inl ⟨rfl, (nofun), h.alloc hi _⟩⟩
      | none =>
        cases write with
        | ub => exact absurd rfl hs.1
        | throw err => exact ⟨hi.alloc _ none (.inr ⟨rfl, rfl⟩), .inr ⟨rfl, h.alloc hi _⟩⟩
        | ok m =>
          refine ⟨(hi.alloc ⟨m, true, 0⟩ _ (.inl ⟨rfl, rfl⟩)).setVar hn fun b hb => ?_,
            .inr ⟨rfl, (h.alloc hi ⟨m, true, 0⟩).setVar z x _ (some m) (look_alloc_new s ⟨m, true, 0⟩).symm⟩⟩
          cases hb
          exact ⟨by simp [State.alloc], fun u hu => not_owned_new hi ⟨m, true, 0⟩ (.inr ⟨u, hu⟩)⟩
  | take x u =>
    have hp := h.ptrs u
    simp only [State.step, State.take, exec]
    cases hu : s.ptrs u with
    | none =>
      rw [hu] at hp
      rw [show e.ptrs u = none from hp]
      exact ⟨hi, .inr ⟨rfl, h⟩⟩
    | some b =>
      rw [hu] at hp
      have hlt := (hi.inP u b hu).2
      obtain ⟨kk, hk⟩ : ∃ kk, s.blocks[b]? = some kk := ⟨_, List.getElem?_eq_getElem hlt⟩
      have hl : look s b = some (kk.bytes, kk.aligned) := by rw [look, hk]; rfl
      rw [show e.ptrs u = look s b from hp, hl]
      simp only [hk, Option.map_some, Option.getD_some]
      cases ha : kk.aligned with
      | false => exact ⟨hi, .inr ⟨rfl, h⟩⟩
      | true =>
        have hi2 := hi.letPtr u
        rw [hu] at hi2
        have h2 : Sim { s with ptrs := put s.ptrs u none } ⟨e.vars, upd e.ptrs u none⟩ := by
          refine ⟨h.vars, fun v => ?_⟩
          by_cases hv : v = u
          · simp [upd, put, hv]
          · simp only [upd, put, if_neg hv]; exact h.ptrs v
        have main : Inv z ({ s with ptrs := put s.ptrs u none }.setVar z x (some b)) none ∧
            Sim ({ s with ptrs := put s.ptrs u none }.setVar z x (some b)) ⟨upd e.vars x (some kk.bytes), upd e.ptrs u none⟩ := by
          refine ⟨hi2.setVar hn.1 fun c hc => ?_, h2.setVar z x (some b) (some kk.bytes) ?_⟩
          · cases hc
            refine ⟨hlt, fun v hv => ?_⟩
            by_cases hvu : v = u
            · simp [put, hvu] at hv
            · exact hvu ((hi.excl u b hu).2 v (by rw [← put_ne s.ptrs none hvu]; exact hv))
          · show some (kk.bytes, true) = look s b
            rw [hl, ha]
        cases f with
        | control => exact absurd rfl hs
        | _ => exact ⟨main.1, .inr ⟨rfl, main.2⟩⟩
  | dup u x =>
    have hv := h.vars x
    simp only [State.step, State.dup, exec]
    cases hx : s.vars x with
    | none =>
      rw [hx] at hv
      rw [show e.vars x = none from Option.map_eq_none_iff.1 hv]
      exact ⟨hi, .inr ⟨rfl, h⟩⟩
    | some b =>
      rw [hx] at hv
      obtain ⟨kk, hk⟩ : ∃ kk, s.blocks[b]? = some kk := ⟨_, List.getElem?_eq_getElem (hi.inV x b hx).2⟩
      have hl : look s b = some (kk.bytes, kk.aligned) := by rw [look, hk]; rfl
      have he : e.vars x = some kk.bytes := by
        have : (e.vars x).map (·, true) = some (kk.bytes, kk.aligned) := hv.trans hl
        cases hh : e.vars x with
        | none => rw [hh] at this; cases this
        | some m => rw [hh] at this; exact congrArg some (Prod.mk.inj (Option.some.inj this)).1
      rw [he]
      simp only [hk, Option.map_some, Option.getD_some]
      cases f with
      | memory => exact ⟨hi, .inl ⟨rfl, (nofun), h⟩⟩
      | _ => exact ⟨(fresh ⟨kk.bytes, true, 0⟩ u hn.2 rfl).1, .inr ⟨rfl, (fresh ⟨kk.bytes, true, 0⟩ u hn.2 rfl).2⟩⟩
  | copy x y =>
    exact ⟨(shared _ y rfl).setVar hn.1 (noPtr y), .inr ⟨rfl, h.setVar z x _ _ (h.vars y)⟩⟩
  | move x y =>
    simp only [State.step, exec]
    by_cases hxy : x = y
    · rw [if_pos hxy, if_pos hxy]
      exact ⟨hi, .inr ⟨rfl, h⟩⟩
    · rw [if_neg hxy, if_neg hxy]
      refine ⟨(hi.letVar y).setVar hn.1 fun b hb => noPtr y b hb, .inr ⟨rfl, ?_⟩⟩
      refine Sim.setVar (s := { s with vars := put s.vars y none }) (e := ⟨upd e.vars y none, e.ptrs⟩) ⟨fun w => ?_, h.ptrs⟩ z x (s.vars y) (e.vars y) (h.vars y)
      by_cases hw : w = y
      · simp [upd, put, hw]
      · simp only [upd, put, if_neg hw]; exact h.vars w
  | drop x => exact ⟨hi.setVar hn (nofun), .inr ⟨rfl, h.setVar z x none none rfl⟩⟩
  | reset u => exact ⟨hi.setPtr hn (nofun), .inr ⟨rfl, h.setPtr u none none rfl⟩⟩

theorem run_ok {k : Share.Kind} {z : Size} (ops : List (Op × Fault)) {s : State} {e : Env} (hi : Inv z s none) (h : Sim s e)
    (hn : ∀ o ∈ ops, Names z o.1) (hs : ∀ o ∈ ops, Survivable k o.2 o.1) :
    ∃ e', AllOrNothing e ops (s.run k z ops).2 e' ∧ Inv z (s.run k z ops).1 none ∧ Sim (s.run k z ops).1 e' := by
  induction ops generalizing s e with
  | nil => exact ⟨e, rfl, hi, h⟩
  | cons o ops ih =>
    obtain ⟨op, f⟩ := o
    have hs1 : Survivable k f op := hs _ (.head _)
    have hn1 : Names z op := hn _ (.head _)
    obtain ⟨hi1, hcase⟩ := step_ok hi h op f hn1 hs1
    rcases hcase with ⟨h1, h2, h3⟩ | ⟨h1, h3⟩
    · obtain ⟨e', h4, h5⟩ := ih hi1 h3 (fun o ho => hn o (.tail _ ho)) (fun o ho => hs o (.tail _ ho))
      exact ⟨e', .inl ⟨h1, h2, h4⟩, h5⟩
    · obtain ⟨e', h4, h5⟩ := ih hi1 h3 (fun o ho => hn o (.tail _ ho)) (fun o ho => hs o (.tail _ ho))
      exact ⟨e', .inr ⟨h1, h4⟩, h5⟩

theorem inv_start (z : Size) : Inv z .start none := ⟨(nofun), (nofun), (nofun), (nofun), (nofun)⟩
theorem sim_start : Sim .start .start := ⟨fun _ => rfl, fun _ => rfl⟩

theorem shows_of {z : Size} {s : State} {e : Env} (hi : Inv z s none) (h : Sim s e) : Shows s e := by
  have live : ∀ b m a, Owned s b → look s b = some (m, a) → Live s b m a := by
    intro b m a ho hl
    unfold look at hl
    cases hk : s.blocks[b]? with
    | none => rw [hk] at hl; cases hl
    | some kk =>
      rw [hk] at hl
      cases hl
      rcases hi.bal b kk hk (nofun) with hh | hh
      · rw [Live, hk, ← hh.1]
      · exact absurd ho hh.2
  refine ⟨fun x => ?_, fun u => ?_⟩
  · have hv := h.vars x
    cases hx : s.vars x with
    | none =>
      rw [hx] at hv
      rw [show e.vars x = none from Option.map_eq_none_iff.1 hv]
    | some b =>
      rw [hx] at hv
      cases he : e.vars x with
      | none =>
        rw [he] at hv
        have hlt := (hi.inV x b hx).2
        have : look s b = none := hv.symm
        rw [look, List.getElem?_eq_getElem hlt] at this
        cases this
      | some m =>
        rw [he] at hv
        exact ⟨b, rfl, live b m true (.inl ⟨x, hx⟩) hv.symm⟩
  · have hv := h.ptrs u
    cases hx : s.ptrs u with
    | none =>
      rw [hx] at hv
      rw [show e.ptrs u = none from hv]
    | some b =>
      rw [hx] at hv
      cases he : e.ptrs u with
      | none =>
        rw [he] at hv
        have hlt := (hi.inP u b hx).2
        have : look s b = none := hv.symm
        rw [look, List.getElem?_eq_getElem hlt] at this
        cases this
      | some p =>
        obtain ⟨m, a⟩ := p
        rw [he] at hv
        exact ⟨b, rfl, live b m a (.inr ⟨u, hx⟩) hv.symm, (hi.excl u b hx).1, (hi.excl u b hx).2⟩

end Dart.Hand
