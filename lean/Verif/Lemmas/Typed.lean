import Verif.Spec.Typed
import Verif.Lemmas.Packet

/-
The wrapper machine follows its specification.
-/
namespace Dart.Typed
open Dart.Spec

theorem test_iff (k : Kind) (t : Ty) : k.test t = true ↔ k.Typed t := by
  cases k <;> cases t <;> simp [Kind.test, Kind.Typed]

theorem typed_iff_means (k : Kind) (v : Val) : k.Typed v.ty ↔ k.Means v := by
  cases k <;> cases v <;> simp [Kind.Typed, Kind.Means, Val.ty]

theorem test_means (k : Kind) (v : Val) : k.test v.ty = true ↔ k.Means v := (test_iff k _).trans (typed_iff_means k v)

theorem held_const {v : Val} (h : v.WF) : Held false (.heap v) ⟨false, v⟩ := ⟨rfl, h⟩

theorem held_moved {p : Pkt} {s : PState} (h : Held false p s) : Held false (movedFrom p) (left s) := by
  cases p with
  | heap v => obtain ⟨rfl, _⟩ := h; exact ⟨rfl, by simp [Val.WF]⟩
  | buf b => exact ⟨h.1, .inl ⟨rfl, rfl⟩⟩

/-- The concrete state stands for the abstract one. -/
structure Rel (st : State) (a : AState) : Prop where
  pk : AllHeld false st.packets a.packets
  len : st.wraps.length = a.wraps.length
  held : ∀ (i : Nat) (h1 : i < st.wraps.length) (h2 : i < a.wraps.length),
    st.wraps[i].1 = a.wraps[i].1 ∧ Held false st.wraps[i].2 a.wraps[i].2
  typed : ∀ x ∈ a.wraps, x.1 ≠ .object → x.2.value = .null ∨ x.1.Means x.2.value

theorem Rel.wrap {st : State} {a : AState} (h : Rel st a) (w : Nat) :
    (st.wraps[w]? = none ∧ a.wraps[w]? = none) ∨
    ∃ k p s, st.wraps[w]? = some (k, p) ∧ a.wraps[w]? = some (k, s) ∧ Held false p s ∧
      (k ≠ .object → s.value = .null ∨ k.Means s.value) := by
  by_cases hw : w < st.wraps.length
  · have hw' : w < a.wraps.length := h.len ▸ hw
    obtain ⟨h1, h2⟩ := h.held w hw hw'
    refine .inr ⟨st.wraps[w].1, st.wraps[w].2, a.wraps[w].2, by simp [hw], by simp [hw', h1], h2, ?_⟩
    rw [h1]
    exact h.typed _ (List.getElem_mem hw')
  · have hw' : ¬ w < a.wraps.length := h.len ▸ hw
    exact .inl ⟨by simp at hw ⊢; exact hw, by simp at hw' ⊢; exact hw'⟩

theorem Rel.packet {st : State} {a : AState} (h : Rel st a) (x : Nat) :
    (st.packets[x]? = none ∧ a.packets[x]? = none) ∨
    ∃ p s, st.packets[x]? = some p ∧ a.packets[x]? = some s ∧ Held false p s := by
  by_cases hw : x < st.packets.length
  · have hw' : x < a.packets.length := h.pk.1 ▸ hw
    exact .inr ⟨st.packets[x], a.packets[x], by simp [hw], by simp [hw'], h.pk.2 x hw hw'⟩
  · have hw' : ¬ x < a.packets.length := h.pk.1 ▸ hw
    exact .inl ⟨by simp at hw ⊢; exact hw, by simp at hw' ⊢; exact hw'⟩

theorem Rel.setWrap {st : State} {a : AState} (h : Rel st a) {p : Pkt} {s : PState} {k : Kind} (hp : Held false p s)
    (ht : k ≠ .object → s.value = .null ∨ k.Means s.value) (w : Nat) :
    Rel (st.setWrap w k p) { a with wraps := a.wraps.set w (k, s) } := by
  refine ⟨h.pk, by simp [State.setWrap, h.len], fun i h1 h2 => ?_, fun x hx => ?_⟩
  · simp only [State.setWrap, List.getElem_set]
    split
    · exact ⟨rfl, hp⟩
    · exact h.held i _ _
  · rcases List.mem_or_eq_of_mem_set hx with hx | rfl
    · exact h.typed x hx
    · exact ht

theorem Rel.addWrap {st : State} {a : AState} (h : Rel st a) {p : Pkt} {s : PState} {k : Kind} (hp : Held false p s)
    (ht : k ≠ .object → s.value = .null ∨ k.Means s.value) :
    Rel (st.addWrap k p) { a with wraps := a.wraps ++ [(k, s)] } := by
  refine ⟨h.pk, by simp [State.addWrap, h.len], fun i h1 h2 => ?_, fun x hx => ?_⟩
  · simp only [State.addWrap, List.getElem_append, h.len]
    split
    · exact h.held i _ _
    · simp only [List.getElem_singleton]; exact ⟨trivial, hp⟩
  · rcases List.mem_append.1 hx with hx | hx
    · exact h.typed x hx
    · rw [List.mem_singleton.1 hx]; exact ht

theorem Rel.setPacket {st : State} {a : AState} (h : Rel st a) {p : Pkt} {s : PState} (hp : Held false p s) (x : Nat) :
    Rel (st.setPacket x p) { a with packets := a.packets.set x s } := ⟨h.pk.set hp x, h.len, h.held, h.typed⟩

theorem Rel.addPacket {st : State} {a : AState} (h : Rel st a) {p : Pkt} {s : PState} (hp : Held false p s) :
    Rel (st.addPacket p) { a with packets := a.packets ++ [s] } := ⟨h.pk.push hp, h.len, h.held, h.typed⟩

/-- The step ends as the specification says. -/
def Match : Out → AOut → Prop
  | .next st o, .next a o' => Rel st a ∧ o = o'
  | .throw st e, .throw a e' => Rel st a ∧ e = e'
  | .terminate, .terminate => True
  | _, _ => False

theorem store_ok {st : State} {a : AState} (h : Rel st a) {k : Kind} (w : Nat) {r : Res Pkt} {o : Except Exc PState}
    (ho : Outcome false r o) (ht : ∀ s, o = .ok s → k ≠ .object → s.value = .null ∨ k.Means s.value) :
    ∃ out, Stored a w k o out ∧ Match (st.store w k r) out := by
  cases r with
  | ok p => cases o with
    | ok s => exact ⟨_, rfl, h.setWrap ho (ht s rfl) w, rfl⟩
    | error e => exact ho.elim
  | throw e => cases o with
    | ok s => exact ho.elim
    | error e' => cases ho; exact ⟨_, rfl, h, rfl⟩
  | ub => exact ho.elim

theorem insert_keeps {v k x w : Val} (h : v.insert k x = .ok w) : w.ty = v.ty := by
  unfold Val.insert at h
  repeat' split at h
  all_goals first | (cases h; rfl) | cases h

theorem eraseKey_keeps {v w : Val} {k : Bytes} (h : v.eraseKey k = .ok w) : w.ty = v.ty := by
  unfold Val.eraseKey at h
  repeat' split at h
  all_goals first | (cases h; rfl) | cases h

theorem eraseIdx_keeps {v w : Val} {k : Nat} (h : v.eraseIdx k = .ok w) : w.ty = v.ty := by
  unfold Val.eraseIdx at h
  repeat' split at h
  all_goals first | (cases h; rfl) | cases h

theorem bind_size {v w : Val} {f : Nat → Res Val} (h : v.size.bind f = .ok w) : ∃ n, f n = .ok w := by
  cases hs : v.size with
  | ok n => rw [hs] at h; exact ⟨n, h⟩
  | throw e => rw [hs] at h; cases h
  | ub => rw [hs] at h; cases h

/-- The mutators arrays and objects have keep the type of the value. -/
theorem run_keeps {v w : Val} {op : HOp} (h : op.run v = .ok w) (hp : ∀ ks, op ≠ .project ks) (hi : ∀ ks, op ≠ .inject ks) :
    w.ty = v.ty := by
  cases op with
  | insert k x => exact insert_keeps h
  | set k x =>
    simp only [HOp.run, Val.set] at h
    repeat' split at h
    all_goals first | (cases h; rfl) | cases h | exact insert_keeps h
  | erase k =>
    simp only [HOp.run, Val.erase] at h
    repeat' split at h
    all_goals first | exact eraseKey_keeps h | exact eraseIdx_keeps h | cases h
  | eraseKey k => exact eraseKey_keeps h
  | eraseIdx i => exact eraseIdx_keeps h
  | pushFront x => exact insert_keeps (k := .int 0) (x := x) h
  | pushBack x => obtain ⟨n, h⟩ := bind_size h; exact insert_keeps h
  | popFront => exact eraseIdx_keeps h
  | popBack => obtain ⟨n, h⟩ := bind_size h; exact eraseIdx_keeps h
  | clear =>
    simp only [HOp.run, Val.clear] at h
    repeat' split at h
    all_goals first | (cases h; rfl) | cases h
  | resize n d =>
    simp only [HOp.run, Val.resize] at h
    repeat' split at h
    all_goals first | (cases h; rfl) | cases h
  | inject ps => exact absurd rfl (hi ps)
  | project ks => exact absurd rfl (hp ks)

theorem mut_keeps {s t : PState} {m : PMut PState} (h : MutOk s m (.ok t)) (ha : ∀ v, m ≠ .assign v) :
    t.value.ty = s.value.ty := by
  unfold MutOk at h
  split at h
  · cases h
  · split at h
    · cases h
    · cases m with
      | assign v => exact absurd rfl (ha v)
      | _ =>
        simp only [mutCall] at h
        split at h
        · cases h; rename_i hw; exact run_keeps hw (by simp) (by simp)
        · cases h
        · exact h.elim

theorem null_or_means {k : Kind} {v w : Val} (h : w.ty = v.ty) (hv : v = .null ∨ k.Means v) : w = .null ∨ k.Means w := by
  rcases hv with rfl | hv
  · left; cases w <;> simp_all [Val.ty]
  · right; rw [← typed_iff_means, h]; exact (typed_iff_means k v).2 hv

theorem held_numeric {p : Pkt} {s : PState} (h : Held false p s) :
    numeric p = match number s.value with | some d => .ok d | none => .throw .typeError := by
  unfold numeric
  rw [h.getType, h.integer, h.decimal]
  cases s.value <;> rfl

theorem held_hasKey {signed : Bool} {p : Pkt} {f : Bool} {fs : List (Bytes × Val)} (h : Held false p ⟨f, .obj fs⟩)
    (k : Bytes) : ∃ r, Found signed f fs k r ∧ p.hasKey signed k = .ok r.isSome := by
  cases p with
  | heap v =>
    obtain ⟨e, _⟩ := h
    cases e
    exact ⟨lookup fs k, .inl rfl, by rw [← mapFind_eq]; rfl⟩
  | buf b =>
    obtain ⟨h1, h2⟩ := h
    cases h1
    obtain ⟨r, hr, hk, _⟩ := Shows.found (signed := signed) h2 k
    exact ⟨r, hr, by simp [Pkt.hasKey, Pkt.visit, hk, Res.bind]⟩

theorem held_hasKey_throw {signed : Bool} {p : Pkt} {s : PState} (h : Held false p s) (hv : ∀ fs, s.value ≠ .obj fs)
    (k : Bytes) : p.hasKey signed k = .throw .typeError := by
  cases p with
  | heap v =>
    obtain ⟨e, _⟩ := h
    cases e
    cases v <;> first | rfl | exact absurd rfl (hv _)
  | buf b =>
    simp only [Pkt.hasKey, Pkt.visit, Buf.hasKey, buf_object_throw h.2 hv, Res.bind]

theorem ask_ok {signed : Bool} {st : State} {a : AState} (hr : Rel st a) {k : Kind} {p : Pkt} {s : PState}
    (h : Held false p s) (ht : k ≠ .object → s.value = .null ∨ k.Means s.value) (q : Query) (ho : k.offers q = true) :
    ∃ out, AskOk signed a k s q out ∧ Match (match ask signed k p q with
        | .ok o => .next st o
        | .throw e => if q.noexcept then .terminate else .throw st e
        | .ub => .ub) out := by
  have hf := h.inState.1
  have hgt := h.getType
  have hsz := h.size
  have hst := h.strv
  have hin := h.integer
  have hde := h.decimal
  have hnu := held_numeric h
  obtain ⟨f, v⟩ := s
  simp only at hf hgt hsz hst hin hde hnu ht
  cases q with
  | isNull => refine ⟨_, rfl, hr, ?_⟩; rw [hgt]; cases v <;> rfl
  | getType => refine ⟨_, rfl, hr, ?_⟩; rw [hgt]
  | isFinalized => refine ⟨_, rfl, hr, ?_⟩; rw [hf]
  | truth =>
    refine ⟨_, rfl, ?_⟩
    cases k with
    | flag =>
      rcases ht (by simp) with rfl | ⟨b, rfl⟩
      · simp only [ask, hgt]; exact ⟨hr, rfl⟩
      · have := h.boolean (by simp) (by simp)
        simp only [ask, hgt, this]; exact ⟨hr, rfl⟩
    | _ => simp only [ask, hgt]; refine ⟨hr, ?_⟩; cases v <;> rfl
  | view =>
    by_cases hm : k.Means v
    · refine ⟨_, .inl ⟨_, ⟨hm, rfl⟩, rfl⟩, ?_⟩
      simp only [ask, hgt, (test_means k v).2 hm, if_true]
      exact ⟨hr, rfl⟩
    · refine ⟨_, .inr ⟨fun o ho => hm ho.1, rfl⟩, ?_⟩
      have : k.test v.ty = false := by
        rw [Bool.eq_false_iff]; exact fun e => hm ((test_means k v).1 e)
      simp only [ask, hgt, this]
      trivial
  | size =>
    simp only [ask, hsz]
    cases v <;> first
      | exact ⟨_, .inl ⟨_, rfl, rfl⟩, hr, rfl⟩
      | exact ⟨_, .inr ⟨fun o ho => ho, rfl⟩, trivial⟩
  | empty =>
    simp only [ask, hsz]
    cases v with
    | obj fs => exact ⟨_, .inl ⟨_, rfl, rfl⟩, hr, by cases fs <;> rfl⟩
    | arr fs => exact ⟨_, .inl ⟨_, rfl, rfl⟩, hr, by cases fs <;> rfl⟩
    | str fs => exact ⟨_, .inl ⟨_, rfl, rfl⟩, hr, by cases fs <;> rfl⟩
    | _ => exact ⟨_, .inr ⟨fun o ho => ho, rfl⟩, trivial⟩
  | hasKey key =>
    by_cases hv : ∃ fs, v = .obj fs
    · obtain ⟨fs, rfl⟩ := hv
      obtain ⟨r, h1, h2⟩ := held_hasKey (signed := signed) h key
      simp only [ask, h2, Res.bind]
      exact ⟨_, .inl ⟨_, ⟨r, h1, rfl⟩, rfl⟩, hr, rfl⟩
    · have := held_hasKey_throw (signed := signed) h (fun fs e => hv ⟨fs, e⟩) key
      simp only [ask, this]
      refine ⟨_, .inr ⟨fun o ho => ?_, rfl⟩, trivial⟩
      cases v <;> first | exact ho | exact hv ⟨_, rfl⟩
  | strv =>
    simp only [ask, hst]
    cases v <;> first
      | exact ⟨_, .inl ⟨_, rfl, rfl⟩, hr, rfl⟩
      | exact ⟨_, .inr ⟨fun o ho => ho, rfl⟩, trivial⟩
  | charAt i =>
    cases k <;> simp only [Kind.offers, Bool.false_eq_true] at ho
    rcases ht (by simp) with rfl | ⟨t, rfl⟩
    · simp only [ask, hsz]
      exact ⟨_, .inr ⟨fun o ho => ho, rfl⟩, trivial⟩
    · refine ⟨_, .inl ⟨_, rfl, rfl⟩, ?_⟩
      simp only [ask, hsz, hst, Val.size, Val.strv, Res.bind]
      by_cases hi : i ≥ t.length
      · simp only [hi, if_true]
        exact ⟨hr, by simp [hi]⟩
      · simp only [hi, if_false]
        exact ⟨hr, rfl⟩
  | numeric =>
    simp only [ask, hnu]
    cases hv : number v with
    | some d => exact ⟨_, .inl ⟨_, ⟨d, hv, rfl⟩, rfl⟩, hr, rfl⟩
    | none => exact ⟨_, .inr ⟨fun o ho => (by obtain ⟨d, h1, _⟩ := ho; rw [hv] at h1; cases h1), rfl⟩, trivial⟩
  | toDouble =>
    simp only [ask, hgt, hin, hde]
    cases v <;> first
      | exact ⟨_, .inl ⟨_, ⟨_, rfl, rfl⟩, rfl⟩, hr, rfl⟩
      | exact ⟨_, .inr ⟨fun o ho => (by obtain ⟨d, h1, _⟩ := ho; cases h1), rfl⟩, trivial⟩
  | boolean =>
    cases k <;> simp only [Kind.offers, Bool.false_eq_true] at ho
    rcases ht (by simp) with rfl | ⟨b, rfl⟩
    · have := h.boolean (by simp) (by simp)
      simp only [ask, this]
      exact ⟨_, .inr ⟨fun o ho => ho, rfl⟩, trivial⟩
    · have := h.boolean (by simp) (by simp)
      simp only [ask, this]
      exact ⟨_, .inl ⟨_, rfl, rfl⟩, hr, rfl⟩
  | integer =>
    refine ⟨_, rfl, ?_⟩
    simp only [ask, hin]
    cases v <;> exact ⟨hr, rfl⟩
  | decimal =>
    refine ⟨_, rfl, ?_⟩
    simp only [ask, hde]
    cases v <;> exact ⟨hr, rfl⟩

theorem step_ok {signed : Bool} {st : State} {a : AState} (h : Rel st a) (op : Op) (hw : OpWF op) (hf : Fits st op) :
    ∃ out, StepOk signed a op out ∧ Match (op.run signed st) out := by
  cases op with
  | packet op =>
    obtain ⟨ps', st', e, h1, h2, h3⟩ := packet_step_ok (signed := signed) h.pk hw
    refine ⟨_, ⟨st', e, h3, rfl⟩, ?_⟩
    simp only [Op.run, h1]
    cases e <;> exact ⟨⟨h2, h.len, h.held, h.typed⟩, rfl⟩
  | make k v =>
    simp only [Op.run, getType_eq]
    by_cases hm : k.Means v
    · refine ⟨_, .inl ⟨hm, rfl⟩, ?_⟩
      simp only [(test_means k v).2 hm, if_true]
      exact ⟨h.addWrap ⟨rfl, hw⟩ (fun _ => .inr hm), rfl⟩
    · refine ⟨_, .inr ⟨hm, rfl⟩, ?_⟩
      simp only [mt (test_means k v).1 hm]
      exact ⟨h, rfl⟩
  | wrap k x move =>
    rcases h.packet x with ⟨h1, h2⟩ | ⟨p, s, h1, h2, hp⟩
    · simp only [StepOk, Op.run, h1, h2]; exact ⟨_, rfl, h, rfl⟩
    · simp only [StepOk, Op.run, h1, h2, hp.getType]
      by_cases hm : k.Means s.value
      · refine ⟨_, .inl ⟨hm, rfl⟩, ?_⟩
        simp only [(test_means k _).2 hm, if_true]
        refine ⟨?_, rfl⟩
        cases move
        · exact h.addWrap hp (fun _ => .inr hm)
        · exact (h.setPacket (held_moved hp) x).addWrap hp (fun _ => .inr hm)
      · refine ⟨_, .inr ⟨hm, rfl⟩, ?_⟩
        simp only [mt (test_means k _).1 hm]
        refine ⟨?_, rfl⟩
        cases move <;> cases k <;> first | exact h | exact h.setPacket (held_moved hp) x
  | dup w move =>
    rcases h.wrap w with ⟨h1, h2⟩ | ⟨k, p, s, h1, h2, hp, ht⟩
    · simp only [StepOk, Op.run, State.wrap, h1, h2]; exact ⟨_, rfl, h, rfl⟩
    · simp only [StepOk, Op.run, State.wrap, h1, h2]
      refine ⟨_, rfl, ?_, rfl⟩
      cases move
      · exact h.addWrap hp ht
      · exact (h.setWrap (held_moved hp) (fun _ => .inl rfl) w).addWrap hp ht
  | assign w v move =>
    rcases h.wrap w with ⟨h1, h2⟩ | ⟨k, p, s, h1, h2, hp, ht⟩
    · simp only [StepOk, Op.run, State.wrap, h1, h2]; exact ⟨_, rfl, h, rfl⟩
    · rcases h.wrap v with ⟨h3, h4⟩ | ⟨k', p', s', h3, h4, hp', ht'⟩
      · simp only [StepOk, Op.run, State.wrap, h1, h2, h3, h4]; exact ⟨_, rfl, h, rfl⟩
      · simp only [StepOk, Op.run, State.wrap, h1, h2, h3, h4]
        by_cases hk : k = k' ∧ w ≠ v
        · refine ⟨_, .inl ⟨hk.1, hk.2, rfl⟩, ?_⟩
          simp only [if_pos hk]
          obtain ⟨rfl, _⟩ := hk
          refine ⟨?_, rfl⟩
          cases move
          · exact h.setWrap hp' ht' w
          · exact (h.setWrap (held_moved hp') (fun _ => .inl rfl) v).setWrap hp' ht' w
        · refine ⟨_, .inr ⟨hk, rfl⟩, ?_⟩
          simp only [if_neg hk]
          exact ⟨h, rfl⟩
  | assignNative w v =>
    rcases h.wrap w with ⟨h1, h2⟩ | ⟨k, p, s, h1, h2, hp, ht⟩
    · simp only [StepOk, Op.run, State.wrap, h1, h2]; exact ⟨_, rfl, h, rfl⟩
    · simp only [StepOk, Op.run, State.wrap, h1, h2, getType_eq]
      by_cases hm : k.Means v
      · refine ⟨_, .inl ⟨hm, rfl⟩, ?_⟩
        simp only [(test_means k v).2 hm, if_true]
        exact ⟨h.setWrap (held_const hw) (fun _ => .inr hm) w, rfl⟩
      · refine ⟨_, .inr ⟨hm, rfl⟩, ?_⟩
        simp only [mt (test_means k v).1 hm]
        exact ⟨h, rfl⟩
  | mutate w m =>
    rcases h.wrap w with ⟨h1, h2⟩ | ⟨k, p, s, h1, h2, hp, ht⟩
    · simp only [StepOk, Op.run, State.wrap, h1, h2]; exact ⟨_, rfl, h, rfl⟩
    · simp only [StepOk, Op.run, State.wrap, h1, h2]
      by_cases ho : k.offersMut m = true
      · simp only [ho, if_true]
        obtain ⟨r, h3, h4⟩ := mut_ok hp m (hw.imp fun b hb => h.pk.arg hb)
        obtain ⟨out, h5, h6⟩ := store_ok h (k := k) w h4 (by
          rintro t rfl hk
          refine null_or_means (mut_keeps h3 ?_) (ht hk)
          intro b e
          cases m <;> simp only [PMut.map, reduceCtorEq] at e
          cases k <;> simp [Kind.offersMut] at ho)
        exact ⟨out, ⟨r, h3, h5⟩, h6⟩
      · simp only [ho]
        exact ⟨_, rfl, h, rfl⟩
  | concat w t =>
    rcases h.wrap w with ⟨h1, h2⟩ | ⟨k, p, s, h1, h2, hp, ht⟩
    · simp only [StepOk, Op.run, State.wrap, h1, h2]; exact ⟨_, rfl, h, rfl⟩
    · simp only [StepOk, Op.run, State.wrap, h1, h2]
      cases k with
      | string =>
        simp only [hp.strv]
        obtain ⟨f, v⟩ := s
        have := hp.toHeap
        rcases ht (by simp) with e | ⟨u, e⟩
        · simp only at e; subst e; exact ⟨_, rfl, trivial⟩
        · simp only at e; subst e
          refine ⟨_, rfl, h.setWrap (k := .string) (held_const (v := .str (u ++ t)) ?_) (fun _ => Or.inr ⟨_, rfl⟩) w, rfl⟩
          simp only [Val.WF, List.length_append]
          exact hf _ _ u h1 this
      | _ => exact ⟨_, rfl, h, rfl⟩
  | arith w f =>
    rcases h.wrap w with ⟨h1, h2⟩ | ⟨k, p, s, h1, h2, hp, ht⟩
    · simp only [StepOk, Op.run, State.wrap, h1, h2]; exact ⟨_, rfl, h, rfl⟩
    · simp only [StepOk, Op.run, State.wrap, h1, h2]
      cases k with
      | number =>
        simp only [arith, held_numeric hp]
        obtain ⟨b, v⟩ := s
        simp only
        cases hn : number v with
        | none => exact ⟨_, rfl, trivial⟩
        | some x =>
          cases p with
          | heap u =>
            obtain ⟨e, _⟩ := hp
            cases e
            exact ⟨_, rfl, h.setWrap (k := .number) (held_const (v := .dec (f.result x)) (by simp [Val.WF]))
              (fun _ => Or.inr (Or.inr ⟨_, rfl⟩)) w, rfl⟩
          | buf u =>
            have := hp.1
            simp only at this
            subst this
            exact ⟨_, rfl, trivial⟩
      | _ => exact ⟨_, rfl, h, rfl⟩
  | finalize w =>
    rcases h.wrap w with ⟨h1, h2⟩ | ⟨k, p, s, h1, h2, hp, ht⟩
    · simp only [StepOk, Op.run, State.wrap, h1, h2]; exact ⟨_, rfl, h, rfl⟩
    · simp only [StepOk, Op.run, State.wrap, h1, h2]
      cases k with
      | object =>
        obtain ⟨r, h3, h4⟩ := finalize_held hp
        obtain ⟨out, h5, h6⟩ := store_ok h (k := .object) w h4 (fun _ _ e => absurd rfl e)
        exact ⟨out, ⟨r, h3, h5⟩, h6⟩
      | _ => exact ⟨_, rfl, h, rfl⟩
  | definalize w =>
    rcases h.wrap w with ⟨h1, h2⟩ | ⟨k, p, s, h1, h2, hp, ht⟩
    · simp only [StepOk, Op.run, State.wrap, h1, h2]; exact ⟨_, rfl, h, rfl⟩
    · simp only [StepOk, Op.run, State.wrap, h1, h2]
      cases k with
      | object =>
        obtain ⟨out, h5, h6⟩ := store_ok h (k := .object) w (definalize_held hp) (fun _ _ e => absurd rfl e)
        exact ⟨out, h5, h6⟩
      | _ => exact ⟨_, rfl, h, rfl⟩
  | assignThrough w x =>
    rcases h.wrap w with ⟨h1, h2⟩ | ⟨k, p, s, h1, h2, hp, ht⟩
    · simp only [StepOk, Op.run, State.wrap, h1, h2]; exact ⟨_, rfl, h, rfl⟩
    · rcases h.packet x with ⟨h3, h4⟩ | ⟨q, t, h3, h4, hq⟩
      · simp only [StepOk, Op.run, State.wrap, h1, h2, h3, h4]; exact ⟨_, rfl, h, rfl⟩
      · simp only [StepOk, Op.run, State.wrap, h1, h2, h3, h4]
        cases k with
        | object =>
          refine ⟨_, rfl, ?_⟩
          have := definalize_held hp
          cases hd : p.definalize with
          | ok u => simp only [Res.bind, hd, State.store]; exact ⟨h.setWrap hq (fun e => absurd rfl e) w, rfl⟩
          | throw e => rw [hd] at this; exact this.elim
          | ub => rw [hd] at this; exact this.elim
        | _ => exact ⟨_, rfl, h, rfl⟩
  | unwrap w move =>
    rcases h.wrap w with ⟨h1, h2⟩ | ⟨k, p, s, h1, h2, hp, ht⟩
    · simp only [StepOk, Op.run, State.wrap, h1, h2]; exact ⟨_, rfl, h, rfl⟩
    · simp only [StepOk, Op.run, State.wrap, h1, h2]
      refine ⟨_, rfl, ?_, rfl⟩
      cases move
      · exact h.addPacket hp
      · exact (h.setWrap (held_moved hp) (fun _ => .inl rfl) w).addPacket hp
  | read w r =>
    rcases h.wrap w with ⟨h1, h2⟩ | ⟨k, p, s, h1, h2, hp, ht⟩
    · simp only [StepOk, Op.run, State.wrap, h1, h2]; exact ⟨_, rfl, h, rfl⟩
    · simp only [StepOk, Op.run, State.wrap, h1, h2]
      by_cases ho : k.offersRead r = true
      · simp only [ho, if_true]
        obtain ⟨res, h3, h4⟩ := read_ok (signed := signed) hp r (hw.imp fun b hb => h.pk.arg hb)
        refine ⟨_, ⟨res, h3, rfl⟩, ?_⟩
        cases hrun : (r.map (PArg.pkt st.packets)).run signed p with
        | ok q => rw [hrun] at h4; cases res with
          | ok t => exact ⟨h.addPacket h4, rfl⟩
          | error e => exact h4.elim
        | throw e => rw [hrun] at h4; cases res with
          | ok t => exact h4.elim
          | error e => exact ⟨h, h4⟩
        | ub => rw [hrun] at h4; exact h4.elim
      · simp only [ho]
        exact ⟨_, rfl, h, rfl⟩
  | ask w q =>
    rcases h.wrap w with ⟨h1, h2⟩ | ⟨k, p, s, h1, h2, hp, ht⟩
    · simp only [StepOk, Op.run, State.wrap, h1, h2]; exact ⟨_, rfl, h, rfl⟩
    · simp only [StepOk, Op.run, State.wrap, h1, h2]
      by_cases ho : k.offers q = true
      · simp only [ho, if_true]
        exact ask_ok h hp ht q ho
      · simp only [ho]
        exact ⟨_, rfl, h, rfl⟩

/-- A program ends as the specification says. -/
def MatchEnd : End → Option (AState × List (Obs ⊕ Exc)) → Prop
  | .done st log, some (a, log') => Rel st a ∧ log = log'
  | .terminate, none => True
  | _, _ => False

theorem steps_ok {signed : Bool} (ops : List Op) : ∀ {st : State} {a : AState}, Rel st a → (∀ op ∈ ops, OpWF op) →
    ProgFits signed st ops → ∃ r, StepsOk signed a ops r ∧ MatchEnd (run signed st ops) r := by
  induction ops with
  | nil => intro st a h _ _; exact ⟨_, rfl, h, rfl⟩
  | cons op ops ih =>
    intro st a h hw hf
    obtain ⟨out, h1, h2⟩ := step_ok (signed := signed) h op (hw op (by simp)) hf.1
    have hf2 := hf.2
    simp only [run]
    cases hr : op.run signed st with
    | next st' o =>
      rw [hr] at h2 hf2
      cases out with
      | next a' o' =>
        obtain ⟨h2, rfl⟩ := h2
        obtain ⟨r, h3, h4⟩ := ih h2 (fun op' h' => hw op' (by simp [h'])) hf2
        refine ⟨_, ⟨_, h1, r, h3, rfl⟩, ?_⟩
        simp only
        cases hrun : run signed st' ops with
        | done st'' log => rw [hrun] at h4; cases r with
          | some x => exact ⟨h4.1, by rw [h4.2]⟩
          | none => exact h4.elim
        | terminate => rw [hrun] at h4; cases r with
          | some x => exact h4.elim
          | none => trivial
        | ub => rw [hrun] at h4; cases r <;> exact h4.elim
      | throw => exact h2.elim
      | terminate => exact h2.elim
    | throw st' o =>
      rw [hr] at h2 hf2
      cases out with
      | throw a' o' =>
        obtain ⟨h2, rfl⟩ := h2
        obtain ⟨r, h3, h4⟩ := ih h2 (fun op' h' => hw op' (by simp [h'])) hf2
        refine ⟨_, ⟨_, h1, r, h3, rfl⟩, ?_⟩
        simp only
        cases hrun : run signed st' ops with
        | done st'' log => rw [hrun] at h4; cases r with
          | some x => exact ⟨h4.1, by rw [h4.2]⟩
          | none => exact h4.elim
        | terminate => rw [hrun] at h4; cases r with
          | some x => exact h4.elim
          | none => trivial
        | ub => rw [hrun] at h4; cases r <;> exact h4.elim
      | next => exact h2.elim
      | terminate => exact h2.elim
    | terminate =>
      rw [hr] at h2
      cases out with
      | terminate => exact ⟨none, ⟨_, h1, rfl⟩, trivial⟩
      | next => exact h2.elim
      | throw => exact h2.elim
    | ub => rw [hr] at h2; cases out <;> exact h2.elim

theorem rel_start : Rel start ⟨[], []⟩ := ⟨⟨rfl, by simp [start]⟩, rfl, by simp [start], by simp⟩

theorem Rel.looks {st : State} {a : AState} (h : Rel st a) : Looks st a := by
  refine ⟨h.pk.1, ?_, ?_, ?_⟩
  · intro i p s h1 h2
    obtain ⟨h3, rfl⟩ := List.getElem?_eq_some_iff.1 h1
    obtain ⟨h4, rfl⟩ := List.getElem?_eq_some_iff.1 h2
    exact (h.pk.2 i h3 h4).inState
  · apply List.ext_getElem
    · simp [h.len]
    · intro i h1 h2
      simp only [List.length_map] at h1 h2
      simp only [List.getElem_map]
      exact (h.held i h1 h2).1
  · intro i x y h1 h2
    obtain ⟨h3, rfl⟩ := List.getElem?_eq_some_iff.1 h1
    obtain ⟨h4, rfl⟩ := List.getElem?_eq_some_iff.1 h2
    exact (h.held i h3 h4).2.inState

end Dart.Typed
