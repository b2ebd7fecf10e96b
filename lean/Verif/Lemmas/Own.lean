import Verif.Spec.Own
import Verif.Lemmas.Packet

/-
Ownership of memory, helpers.
-/
namespace Dart.Own
open Spec

theorem alive_iff {s : State} {b : Nat} : s.alive b = true ↔ b ∈ s.excl ∨ b ∈ s.shared ∨ ∃ v, (s.var v).ref = some b := by
  unfold State.alive State.var
  simp only [Bool.or_eq_true, List.contains_iff_mem, List.any_eq_true, beq_iff_eq, or_assoc]
  refine or_congr Iff.rfl (or_congr Iff.rfl ⟨?_, ?_⟩)
  · rintro ⟨h, hm, hr⟩
    obtain ⟨i, hi, rfl⟩ := List.mem_iff_getElem.1 hm
    exact ⟨i, by rw [List.getElem?_eq_getElem hi]; exact hr⟩
  · rintro ⟨v, hv⟩
    cases hg : s.vars[v]? with
    | none => rw [hg] at hv; cases hv
    | some h => rw [hg] at hv; exact ⟨h, List.mem_of_getElem? hg, hv⟩

theorem var_set_self {s : State} {v : Nat} {h : Handle} : (s.set v h).var v = h ∨ (s.set v h).var v = .null := by
  unfold State.set State.var
  by_cases hv : v < s.vars.length
  · left; simp [hv]
  · right; simp [hv]

theorem var_set_ne {s : State} {v w : Nat} {h : Handle} (hw : w ≠ v) : (s.set v h).var w = s.var w := by
  unfold State.set State.var
  simp only [List.getElem?_set_ne (Ne.symm hw)]

theorem var_set {s : State} {v w : Nat} {h : Handle} :
    (s.set v h).var w = s.var w ∨ (s.set v h).var w = h ∨ (s.set v h).var w = .null := by
  by_cases hw : w = v
  · subst hw; exact .inr var_set_self
  · exact .inl (var_set_ne hw)

/-- What always holds. -/
structure Inv (s : State) : Prop where
  nodup : s.excl.Nodup
  excl : ∀ b ∈ s.excl, b < s.blocks.length ∧ b ∉ s.shared ∧ ∀ v, (s.var v).ref ≠ some b
  shared : ∀ b ∈ s.shared, b < s.blocks.length
  ref : ∀ v b, (s.var v).ref = some b → b < s.blocks.length
  pos : ∀ v q, (s.var v).pos = some q → q.1 < s.blocks.length

theorem inv_start (n : Nat) : Inv (.start n) := by
  have hv : ∀ v, (State.start n).var v = .null := by
    intro v
    unfold State.start State.var
    by_cases h : v < n <;> simp [h]
  refine ⟨by simp [State.start], by simp [State.start], by simp [State.start], ?_, ?_⟩
  · intro v b h; rw [hv] at h; cases h
  · intro v b h; rw [hv] at h; cases h

/-- Assigning a handle whose block is not owned by the caller. -/
theorem inv_set {s : State} (hi : Inv s) (v : Nat) {h : Handle} (h1 : ∀ b, h.ref = some b → b < s.blocks.length ∧ b ∉ s.excl)
    (h2 : ∀ q, h.pos = some q → q.1 < s.blocks.length) : Inv (s.set v h) := by
  refine ⟨hi.nodup, ?_, hi.shared, ?_, ?_⟩
  · intro b hb
    refine ⟨(hi.excl b hb).1, (hi.excl b hb).2.1, fun w => ?_⟩
    rcases var_set (s := s) (v := v) (w := w) (h := h) with e | e | e
    · rw [e]; exact (hi.excl b hb).2.2 w
    · rw [e]; intro hr; exact (h1 b hr).2 hb
    · rw [e]; simp [Handle.null]
  · intro w b hb
    rcases var_set (s := s) (v := v) (w := w) (h := h) with e | e | e
    · rw [e] at hb; exact hi.ref w b hb
    · rw [e] at hb; exact (h1 b hb).1
    · rw [e] at hb; cases hb
  · intro w b hb
    rcases var_set (s := s) (v := v) (w := w) (h := h) with e | e | e
    · rw [e] at hb; exact hi.pos w b hb
    · rw [e] at hb; exact h2 b hb
    · rw [e] at hb; cases hb

theorem ref_not_excl {s : State} (hi : Inv s) {v b : Nat} (h : (s.var v).ref = some b) : b ∉ s.excl :=
  fun hb => (hi.excl b hb).2.2 v h

theorem inv_copy {s : State} (hi : Inv s) (v w : Nat) : Inv (s.set v (s.var w)) :=
  inv_set hi v (fun _ h => ⟨hi.ref w _ h, ref_not_excl hi h⟩) (fun _ h => hi.pos w _ h)

theorem inv_null {s : State} (hi : Inv s) (v : Nat) : Inv (s.set v .null) :=
  inv_set hi v (fun _ h => by cases h) (fun _ h => by cases h)

theorem inv_sub {s : State} (hi : Inv s) (v w : Nat) (e : Buf) : Inv (s.set v ((s.var w).sub e)) := by
  unfold Handle.sub
  by_cases h : e.type = .null
  · rw [if_pos h]; exact inv_null hi v
  · rw [if_neg h]
    refine inv_set hi v (fun _ h => ⟨hi.ref w _ h, ref_not_excl hi h⟩) ?_
    intro q hq
    cases ha : e.addr with
    | none => simp [ha] at hq
    | some p =>
      cases hp : (s.var w).pos with
      | none => simp [ha, hp] at hq
      | some r =>
        simp only [ha, hp, Option.bind_some, Option.map_some, Option.some.injEq] at hq
        subst hq
        exact hi.pos w r hp

/-- Allocating a block nobody owns yet. -/
theorem inv_alloc {s : State} (hi : Inv s) (base : Nat) (m : Bytes) : Inv (s.alloc base m).1 := by
  have hl : (s.alloc base m).1.blocks.length = s.blocks.length + 1 := by simp [State.alloc]
  refine ⟨hi.nodup, ?_, ?_, ?_, ?_⟩ <;> simp only [hl]
  · exact fun b hb => ⟨Nat.lt_succ_of_lt (hi.excl b hb).1, (hi.excl b hb).2⟩
  · exact fun b hb => Nat.lt_succ_of_lt (hi.shared b hb)
  · exact fun v b hb => Nat.lt_succ_of_lt (hi.ref v b hb)
  · exact fun v b hb => Nat.lt_succ_of_lt (hi.pos v b hb)

/-- Allocating a block for the caller. -/
theorem inv_alloc_excl {s : State} (hi : Inv s) (base : Nat) (m : Bytes) :
    Inv { (s.alloc base m).1 with excl := s.blocks.length :: s.excl } := by
  have h := inv_alloc hi base m
  refine ⟨List.nodup_cons.2 ⟨fun hb => absurd (hi.excl _ hb).1 (Nat.lt_irrefl _), hi.nodup⟩, ?_, h.shared, h.ref, h.pos⟩
  intro b hb
  rcases List.mem_cons.1 hb with rfl | hb
  · refine ⟨by simp [State.alloc], fun hs => absurd (hi.shared _ hs) (Nat.lt_irrefl _),
      fun v hv => absurd (hi.ref v _ hv) (Nat.lt_irrefl _)⟩
  · exact h.excl b hb

theorem inv_erase {s : State} (hi : Inv s) (b : Nat) : Inv { s with excl := s.excl.erase b } :=
  ⟨hi.nodup.erase b, fun c hc => hi.excl c (List.mem_of_mem_erase hc), hi.shared, hi.ref, hi.pos⟩

theorem validate_ok {s : State} {p : Option Nat} {b : Nat} (h : s.validate p = .ok b) :
    p = some b ∧ b < s.blocks.length := by
  unfold State.validate at h
  cases p with
  | none => cases h
  | some c =>
    simp only at h
    cases hm : s.blocks[c]? with
    | none => rw [hm] at h; cases h
    | some m =>
      rw [hm] at h
      simp only at h
      split at h
      · cases h; exact ⟨rfl, (List.getElem?_eq_some_iff.1 hm).1⟩
      · cases h

theorem inv_step {signed : Bool} {s t : State} {op : Op} (hi : Inv s) (h : s.step signed op = .ok t) : Inv t := by
  cases op with
  | alloc base m => cases h; exact inv_alloc_excl hi base m
  | write b off x =>
    simp only [State.step] at h
    split at h
    · cases h
      have hl : (s.blocks.modify b (·.write off x)).length = s.blocks.length := by simp
      exact ⟨hi.nodup, by simp only [hl]; exact hi.excl, by simp only [hl]; exact hi.shared,
        by simp only [hl]; exact hi.ref, by simp only [hl]; exact hi.pos⟩
    · cases h
  | free b =>
    simp only [State.step] at h
    split at h
    · cases h; exact inv_erase hi b
    · cases h
  | fromSpan v b off len k =>
    simp only [State.step] at h
    split at h
    · split at h
      · cases h
      · rename_i m hm
        split at h
        · split at h
          · cases h
          · cases h
            refine inv_set (inv_alloc hi _ _) v ?_ ?_
            · intro c hc
              cases hc
              exact ⟨by simp [State.alloc], fun hb => absurd (hi.excl _ hb).1 (Nat.lt_irrefl _)⟩
            · intro q hq
              cases hq
              have := (List.getElem?_eq_some_iff.1 hm).1
              simp only [State.alloc, List.length_append, List.length_cons, List.length_nil]
              omega
        · cases h
    · cases h
  | fromUnique v p =>
    simp only [State.step] at h
    split at h
    · obtain ⟨b, hb, h⟩ := Res.bind_eq_ok.1 h
      cases h
      have hv := validate_ok hb
      refine inv_set (inv_erase hi b) v ?_ ?_
      · intro c hc
        cases hc
        exact ⟨hv.2, fun hm => absurd rfl ((hi.nodup.mem_erase_iff).1 hm).1⟩
      · intro q hq; cases hq; exact hv.2
    · cases h
  | share b =>
    simp only [State.step] at h
    split at h
    · rename_i hb
      cases h
      refine ⟨hi.nodup.erase b, ?_, ?_, hi.ref, hi.pos⟩
      · intro c hc
        have := (hi.nodup.mem_erase_iff).1 hc
        refine ⟨(hi.excl c this.2).1, ?_, (hi.excl c this.2).2.2⟩
        intro hm
        rcases List.mem_cons.1 hm with e | hm
        · exact this.1 e
        · exact (hi.excl c this.2).2.1 hm
      · intro c hc
        rcases List.mem_cons.1 hc with e | hm
        · rw [e]; exact (hi.excl b hb).1
        · exact hi.shared c hm
    · cases h
  | unshare b =>
    simp only [State.step] at h
    split at h
    · cases h
      exact ⟨hi.nodup, fun c hc => ⟨(hi.excl c hc).1, fun hm => (hi.excl c hc).2.1 (List.mem_of_mem_erase hm), (hi.excl c hc).2.2⟩,
        fun c hc => hi.shared c (List.mem_of_mem_erase hc), hi.ref, hi.pos⟩
    · cases h
  | fromShared v p =>
    simp only [State.step] at h
    split at h
    · rename_i hp
      obtain ⟨b, hb, h⟩ := Res.bind_eq_ok.1 h
      cases h
      have hv := validate_ok hb
      refine inv_set hi v ?_ ?_
      · intro c hc
        cases hc
        refine ⟨hv.2, fun hm => (hi.excl _ hm).2.1 ?_⟩
        rw [hv.1] at hp; simpa using hp
      · intro q hq; cases hq; exact hv.2
    · cases h
  | copy v w => cases h; exact inv_copy hi v w
  | move v w =>
    simp only [State.step] at h
    split at h
    · cases h; exact hi
    · cases h; exact inv_null (inv_copy hi v w) w
  | drop v => cases h; exact inv_null hi v
  | get v w key =>
    simp only [State.step] at h
    split at h
    · obtain ⟨e, _, h⟩ := Res.bind_eq_ok.1 h
      cases h; exact inv_sub hi v w e
    · cases h
  | getIdx v w i =>
    simp only [State.step] at h
    split at h
    · obtain ⟨e, _, h⟩ := Res.bind_eq_ok.1 h
      cases h; exact inv_sub hi v w e
    · cases h
  | shareBytes w =>
    simp only [State.step] at h
    split at h
    · cases h
    · split at h
      · cases h
      · rename_i b hb
        cases h
        refine ⟨hi.nodup, ?_, ?_, hi.ref, hi.pos⟩
        · intro c hc
          refine ⟨(hi.excl c hc).1, ?_, (hi.excl c hc).2.2⟩
          intro hm
          rcases List.mem_cons.1 hm with e | hm
          · subst e; exact ref_not_excl hi hb hc
          · exact (hi.excl c hc).2.1 hm
        · intro c hc
          rcases List.mem_cons.1 hc with e | hm
          · rw [e]; exact hi.ref w b hb
          · exact hi.shared c hm
  | dupBytes w k =>
    simp only [State.step] at h
    split at h
    · split at h
      · split at h
        · cases h
        · obtain ⟨n, _, h⟩ := Res.bind_eq_ok.1 h
          split at h
          · cases h; exact inv_alloc_excl hi _ _
          · cases h
      · cases h
    · cases h

theorem inv_run {signed : Bool} : ∀ (ops : List Op) {s t : State}, Inv s → s.run signed ops = .ok t → Inv t
  | [], s, t, hi, h => by cases h; exact hi
  | op :: ops, s, t, hi, h => by
    unfold State.run at h
    cases hs : s.step signed op with
    | ok u => rw [hs] at h; exact inv_run ops (inv_step hi hs) h
    | throw e => rw [hs] at h; exact inv_run ops hi h
    | ub => rw [hs] at h; cases h

theorem inv_reachable {signed : Bool} {n : Nat} {s : State} (h : Reachable signed n s) : Inv s := by
  obtain ⟨ops, h⟩ := h; exact inv_run ops (inv_start n) h

/-- A step that does not assign the variable leaves it alone. -/
theorem step_var {signed : Bool} {s t : State} {op : Op} {v : Nat} (ha : ¬ Assigns v op) (h : s.step signed op = .ok t) :
    t.var v = s.var v := by
  cases op with
  | alloc base m => cases h; rfl
  | write b off x => simp only [State.step] at h; split at h <;> cases h; rfl
  | free b => simp only [State.step] at h; split at h <;> cases h; rfl
  | fromSpan u b off len k =>
    simp only [State.step] at h
    split at h
    · split at h
      · cases h
      · split at h
        · split at h
          · cases h
          · cases h; exact var_set_ne (Ne.symm ha)
        · cases h
    · cases h
  | fromUnique u p =>
    simp only [State.step] at h
    split at h
    · obtain ⟨b, hb, h⟩ := Res.bind_eq_ok.1 h
      cases h; exact var_set_ne (Ne.symm ha)
    · cases h
  | share b => simp only [State.step] at h; split at h <;> cases h; rfl
  | unshare b => simp only [State.step] at h; split at h <;> cases h; rfl
  | fromShared u p =>
    simp only [State.step] at h
    split at h
    · obtain ⟨b, hb, h⟩ := Res.bind_eq_ok.1 h
      cases h; exact var_set_ne (Ne.symm ha)
    · cases h
  | copy u w => cases h; exact var_set_ne (Ne.symm ha)
  | move u w =>
    simp only [State.step] at h
    split at h
    · cases h; rfl
    · cases h
      rw [var_set_ne (fun e => ha (.inr e.symm)), var_set_ne (fun e => ha (.inl e.symm))]
  | drop u => cases h; exact var_set_ne (Ne.symm ha)
  | get u w key =>
    simp only [State.step] at h
    split at h
    · obtain ⟨e, _, h⟩ := Res.bind_eq_ok.1 h
      cases h; exact var_set_ne (Ne.symm ha)
    · cases h
  | getIdx u w i =>
    simp only [State.step] at h
    split at h
    · obtain ⟨e, _, h⟩ := Res.bind_eq_ok.1 h
      cases h; exact var_set_ne (Ne.symm ha)
    · cases h
  | shareBytes w =>
    simp only [State.step] at h
    split at h
    · cases h
    · split at h <;> cases h; rfl
  | dupBytes w k =>
    simp only [State.step] at h
    split at h
    · split at h
      · split at h
        · cases h
        · obtain ⟨n, _, h⟩ := Res.bind_eq_ok.1 h
          split at h <;> cases h; rfl
      · cases h
    · cases h

theorem alloc_block {s : State} {base : Nat} {m : Bytes} {b : Nat} (hb : b < s.blocks.length) :
    (s.alloc base m).1.blocks[b]? = s.blocks[b]? := by
  simp only [State.alloc, List.getElem?_append_left hb]

/-- No step changes a block the caller does not own. -/
theorem step_block {signed : Bool} {s t : State} {op : Op} {b : Nat} (hb : b < s.blocks.length) (he : b ∉ s.excl)
    (h : s.step signed op = .ok t) : t.blocks[b]? = s.blocks[b]? := by
  cases op with
  | alloc base m => cases h; exact alloc_block hb
  | write c off x =>
    simp only [State.step] at h
    split at h
    · rename_i hc
      cases h
      have : c ≠ b := by rintro rfl; exact he hc
      simp only [List.getElem?_modify, if_neg this]
      cases s.blocks[b]? <;> rfl
    · cases h
  | free c => simp only [State.step] at h; split at h <;> cases h; rfl
  | fromSpan u c off len k =>
    simp only [State.step] at h
    split at h
    · split at h
      · cases h
      · split at h
        · split at h
          · cases h
          · cases h; exact alloc_block hb
        · cases h
    · cases h
  | fromUnique u p =>
    simp only [State.step] at h
    split at h
    · obtain ⟨b, hb, h⟩ := Res.bind_eq_ok.1 h
      cases h; rfl
    · cases h
  | share c => simp only [State.step] at h; split at h <;> cases h; rfl
  | unshare c => simp only [State.step] at h; split at h <;> cases h; rfl
  | fromShared u p =>
    simp only [State.step] at h
    split at h
    · obtain ⟨b, hb, h⟩ := Res.bind_eq_ok.1 h
      cases h; rfl
    · cases h
  | copy u w => cases h; rfl
  | move u w => simp only [State.step] at h; split at h <;> (cases h; rfl)
  | drop u => cases h; rfl
  | get u w key =>
    simp only [State.step] at h
    split at h
    · obtain ⟨e, _, h⟩ := Res.bind_eq_ok.1 h
      cases h; rfl
    · cases h
  | getIdx u w i =>
    simp only [State.step] at h
    split at h
    · obtain ⟨e, _, h⟩ := Res.bind_eq_ok.1 h
      cases h; rfl
    · cases h
  | shareBytes w =>
    simp only [State.step] at h
    split at h
    · cases h
    · split at h <;> cases h; rfl
  | dupBytes w k =>
    simp only [State.step] at h
    split at h
    · split at h
      · split at h
        · cases h
        · obtain ⟨n, _, h⟩ := Res.bind_eq_ok.1 h
          split at h <;> cases h; exact alloc_block hb
      · cases h
    · cases h

/-- A buffer owning its memory keeps it, unchanged. -/
theorem run_owner {signed : Bool} {v : Nat} : ∀ (ops : List Op) {s t : State}, Inv s → OwnsItsMemory (s.var v) →
    (∀ op ∈ ops, ¬ Assigns v op) → s.run signed ops = .ok t →
    t.var v = s.var v ∧ t.buf (t.var v) = s.buf (s.var v) ∧ Readable t (t.var v)
  | [], s, t, hi, ho, _, h => by
    cases h
    exact ⟨rfl, rfl, fun b p hp => alive_iff.2 (.inr (.inr ⟨v, ho b p hp⟩))⟩
  | op :: ops, s, t, hi, ho, ha, h => by
    unfold State.run at h
    cases hs : s.step signed op with
    | ok u =>
      rw [hs] at h
      have hv := step_var (ha op (by simp)) hs
      obtain ⟨h1, h2, h3⟩ := run_owner ops (inv_step hi hs) (hv ▸ ho) (fun o hm => ha o (by simp [hm])) h
      refine ⟨h1.trans hv, h2.trans ?_, h3⟩
      rw [hv]
      unfold State.buf
      cases hp : (s.var v).pos with
      | none => rfl
      | some q =>
        have hr := ho q.1 q.2 hp
        simp only [step_block (hi.ref v _ hr) (ref_not_excl hi hr) hs]
    | throw e => rw [hs] at h; exact run_owner ops hi ho (fun o hm => ha o (by simp [hm])) h
    | ub => rw [hs] at h; cases h

theorem owns_set {s : State} {v : Nat} {h : Handle} (hs : ∀ w, OwnsItsMemory (s.var w)) (hh : OwnsItsMemory h) (w : Nat) :
    OwnsItsMemory ((s.set v h).var w) := by
  rcases var_set (s := s) (v := v) (w := w) (h := h) with e | e | e
  · rw [e]; exact hs w
  · rw [e]; exact hh
  · rw [e]; intro b p hp; cases hp

theorem owns_null : OwnsItsMemory .null := fun b p hp => by cases hp

theorem owns_sub {h : Handle} (ho : OwnsItsMemory h) (e : Buf) : OwnsItsMemory (h.sub e) := by
  unfold Handle.sub
  split
  · exact owns_null
  · intro b p hp
    cases ha : e.addr with
    | none => simp [ha] at hp
    | some q =>
      cases hq : h.pos with
      | none => simp [ha, hq] at hp
      | some r =>
        simp only [ha, hq, Option.bind_some, Option.map_some, Option.some.injEq] at hp
        cases hp
        exact ho r.1 r.2 hq

/-- Without the constructor from a span every buffer owns its memory. -/
theorem step_owns {signed : Bool} {s t : State} {op : Op} (ho : ∀ v, OwnsItsMemory (s.var v)) (hn : NotSpan op)
    (h : s.step signed op = .ok t) : ∀ v, OwnsItsMemory (t.var v) := by
  cases op with
  | alloc base m => cases h; exact ho
  | write b off x => simp only [State.step] at h; split at h <;> cases h; exact ho
  | free b => simp only [State.step] at h; split at h <;> cases h; exact ho
  | fromSpan u b off len k => cases hn
  | fromUnique u p =>
    simp only [State.step] at h
    split at h
    · obtain ⟨b, hb, h⟩ := Res.bind_eq_ok.1 h
      cases h; exact owns_set ho (fun b p hp => by cases hp; rfl)
    · cases h
  | share b => simp only [State.step] at h; split at h <;> cases h; exact ho
  | unshare b => simp only [State.step] at h; split at h <;> cases h; exact ho
  | fromShared u p =>
    simp only [State.step] at h
    split at h
    · obtain ⟨b, hb, h⟩ := Res.bind_eq_ok.1 h
      cases h; exact owns_set ho (fun b p hp => by cases hp; rfl)
    · cases h
  | copy u w => cases h; exact owns_set ho (ho w)
  | move u w =>
    simp only [State.step] at h
    split at h
    · cases h; exact ho
    · cases h; exact owns_set (owns_set ho (ho w)) owns_null
  | drop u => cases h; exact owns_set ho owns_null
  | get u w key =>
    simp only [State.step] at h
    split at h
    · obtain ⟨e, _, h⟩ := Res.bind_eq_ok.1 h
      cases h; exact owns_set ho (owns_sub (ho w) e)
    · cases h
  | getIdx u w i =>
    simp only [State.step] at h
    split at h
    · obtain ⟨e, _, h⟩ := Res.bind_eq_ok.1 h
      cases h; exact owns_set ho (owns_sub (ho w) e)
    · cases h
  | shareBytes w =>
    simp only [State.step] at h
    split at h
    · cases h
    · split at h <;> cases h; exact ho
  | dupBytes w k =>
    simp only [State.step] at h
    split at h
    · split at h
      · split at h
        · cases h
        · obtain ⟨n, _, h⟩ := Res.bind_eq_ok.1 h
          split at h <;> cases h; exact ho
      · cases h
    · cases h

theorem run_owns {signed : Bool} : ∀ (ops : List Op) {s t : State}, (∀ v, OwnsItsMemory (s.var v)) →
    (∀ op ∈ ops, NotSpan op) → s.run signed ops = .ok t → ∀ v, OwnsItsMemory (t.var v)
  | [], s, t, ho, _, h => by cases h; exact ho
  | op :: ops, s, t, ho, hn, h => by
    unfold State.run at h
    cases hs : s.step signed op with
    | ok u => rw [hs] at h; exact run_owns ops (step_owns ho (hn op (by simp)) hs) (fun o hm => hn o (by simp [hm])) h
    | throw e => rw [hs] at h; exact run_owns ops ho (fun o hm => hn o (by simp [hm])) h
    | ub => rw [hs] at h; cases h

/-- What a successful lookup gives. -/
theorem getValueImpl_addr {signed : Bool} {m : Bytes} {base : Nat} {key : Bytes} {x : RawElem}
    (h : getValueImpl signed m base key = some (some x)) : x.1 = .null ∨ ∃ p, x.2 = some p := by
  unfold getValueImpl at h
  cases hg : getKey signed m base key with
  | none => rw [hg] at h; cases h
  | some r =>
    rw [hg] at h
    simp only [Option.bind_eq_bind, Option.bind_some] at h
    cases r with
    | none => simp at h
    | some y =>
      obtain ⟨a, t, kp⟩ := y
      simp only at h
      split at h
      · cases h; exact .inl rfl
      · cases ha : afterKey m t kp with
        | none => simp [ha] at h
        | some p => simp [ha] at h; subst h; exact .inr ⟨p, rfl⟩

theorem buf_sub {s : State} {w : Nat} {q : Nat × Nat} (hq : (s.var w).pos = some q) {e : Buf} (hn : e.type ≠ .null)
    {p : Nat} (he : e = (s.buf (s.var w)).sub (e.type, some p)) : s.buf ((s.var w).sub e) = e := by
  have ha : e.addr = some p := by rw [he]; rfl
  unfold Handle.sub
  rw [if_neg hn, ha, hq]
  rw [he]
  simp [State.buf, hq, Buf.sub]

end Dart.Own
