import Verif.Lemmas.Laws
import Verif.Lemmas.Nested
import Verif.Spec.Packet

/-
Packets: both representations of a packet do what the specification says.
-/
namespace Dart

variable {z : Bool}
open Spec

/-! ### Scalar reads of buffers -/

theorem Shows.at' {b : Buf} {v : Val} (h : Shows z b v) (hn : v ≠ .null)
    (hs : v.ty ≠ .object ∧ v.ty ≠ .array) :
    ∃ p X Y, b.type = v.rawType.forTable ∧ b.addr = some p ∧ b.mem = X ++ (enc v ++ Y) ∧ X.length = p ∧ v.WF := by
  rcases h with ⟨_, h⟩ | ⟨p, h1, h2, hm, _, _, hw, _⟩
  · exact absurd h hn
  · have : HasBytes b.mem p (enc v) := by
      cases v <;> simp [Val.ty] at hs hn <;> simpa [Stored, enc] using hm
    obtain ⟨X, Y, h3, h4⟩ := hasBytes_iff.1 this
    exact ⟨p, X, Y, h1, h2, h3, h4, hw⟩

theorem Shows.integer {b : Buf} {v : Val} (h : Shows z b v) : b.integer = v.integer := by
  by_cases hv : ∃ i, v = .int i
  · obtain ⟨i, rfl⟩ := hv
    obtain ⟨p, X, Y, h1, h2, h3, h4, _⟩ := h.at' (by simp) (by simp [Val.ty])
    have hr := intBytes_read i X Y p h4
    rw [show intBytes (identifyInteger i) i = enc (.int i) by simp [enc], ← h3] at hr
    simp only [Val.rawType] at h1
    unfold Buf.integer
    rcases identifyInteger_cases i with e | e | e <;> rw [e] at h1 hr <;> simp only [RawType.forTable] at h1 <;>
      simp only [h1, h2, Res.ofRead, Res.bind, hr, Val.integer]
  · have ht := h.getType
    have : v.integer = .throw .typeError := by cases v <;> simp_all [Val.integer]
    rw [this]
    unfold Buf.integer
    cases hb : b.type <;> simp only [Buf.getType, hb, RawType.simplify] at ht ⊢ <;> cases v <;>
      simp_all [Val.ty]

theorem Shows.decimal {b : Buf} {v : Val} (h : Shows z b v) : b.decimal = v.decimal := by
  by_cases hv : ∃ i, v = .dec i
  · obtain ⟨i, rfl⟩ := hv
    obtain ⟨p, X, Y, h1, h2, h3, h4, _⟩ := h.at' (by simp) (by simp [Val.ty])
    have hr := decBytes_read i X Y p h4
    rw [show decBytes i = enc (.dec i) by simp [enc], ← h3] at hr
    simp only [Val.rawType] at h1
    unfold Buf.decimal
    rcases identifyDecimal_cases i with e | e <;> rw [e] at h1 hr <;> simp only [RawType.forTable] at h1 <;>
      simp only [h1, h2, Res.ofRead, Res.bind, hr, Val.decimal]
  · have ht := h.getType
    have : v.decimal = .throw .typeError := by cases v <;> simp_all [Val.decimal]
    rw [this]
    unfold Buf.decimal
    cases hb : b.type <;> simp only [Buf.getType, hb, RawType.simplify] at ht ⊢ <;> cases v <;>
      simp_all [Val.ty]

theorem Shows.strv' {b : Buf} {v : Val} (h : Shows z b v) : b.strv = v.strv := by
  by_cases hv : ∃ i, v = .str i
  · obtain ⟨s, rfl⟩ := hv
    exact h.strv
  · have ht := h.getType
    have : v.strv = .throw .typeError := by cases v <;> simp_all [Val.strv]
    rw [this]
    unfold Buf.strv
    cases hb : b.type <;> simp only [Buf.getType, hb, RawType.simplify] at ht ⊢ <;> cases v <;>
      simp_all [Val.ty]

/-- Integers and decimals are not excluded by the code, so they are excluded here. -/
theorem Shows.boolean {b : Buf} {v : Val} (h : Shows z b v) (hi : ∀ i, v ≠ .int i) (hd : ∀ d, v ≠ .dec d) :
    b.boolean = v.boolean := by
  by_cases hv : ∃ i, v = .bool i
  · obtain ⟨s, rfl⟩ := hv
    obtain ⟨p, X, Y, h1, h2, h3, h4, _⟩ := h.at' (by simp) (by simp [Val.ty])
    unfold Buf.boolean readBool
    simp only [Val.rawType, RawType.forTable] at h1
    have he : enc (.bool s) = leBytes 1 (if s then 1 else 0) := by cases s <;> simp [enc, leBytes]
    rw [h3, he, h1]
    simp only [RawType.simplify, h2, Res.ofRead, Res.bind]
    rw [readU_mid X Y 1 _ p h4.symm (by cases s <;> simp)]
    cases s <;> rfl
  · have ht := h.getType
    have : v.boolean = .throw .typeError := by cases v <;> simp_all [Val.boolean]
    rw [this]
    unfold Buf.boolean
    cases hb : b.type <;> simp only [Buf.getType, hb, RawType.simplify] at ht ⊢ <;> cases v <;>
      simp_all [Val.ty]

/-- `boolean` takes the first byte of a number for the flag. -/
theorem Shows.boolean_int {b : Buf} {i : BitVec 64} (h : Shows z b (.int i)) : b.boolean = .ok (i.toNat % 256 != 0) := by
  obtain ⟨p, X, Y, h1, h2, h3, h4, _⟩ := h.at' (by simp) (by simp [Val.ty])
  have he : ∃ Z, enc (.int i) = leBytes 1 (i.toNat % 256) ++ Z := by
    simp only [enc, intBytes]
    split <;> exact ⟨_, by simp [leBytes]; rfl⟩
  obtain ⟨Z, hz⟩ := he
  unfold Buf.boolean readBool
  rw [h3, hz]
  have hs : b.type.simplify = .integer := by
    rw [h1]; simp only [Val.rawType]
    rcases identifyInteger_cases i with e | e | e <;> rw [e] <;> rfl
  rw [hs]
  simp only [h2, Res.ofRead, Res.bind, List.append_assoc]
  rw [readU_mid X _ 1 _ p h4.symm (by omega)]
  rfl

theorem Shows.boolean_dec {b : Buf} {d : BitVec 64} (h : Shows z b (.dec d)) :
    b.boolean = .ok (((narrowBits d.toNat).getD d.toNat) % 256 != 0) := by
  obtain ⟨p, X, Y, h1, h2, h3, h4, _⟩ := h.at' (by simp) (by simp [Val.ty])
  have he : ∃ Z, enc (.dec d) = leBytes 1 (((narrowBits d.toNat).getD d.toNat) % 256) ++ Z := by
    simp only [enc, decBytes]
    split <;> rename_i hn <;> rw [hn] <;> exact ⟨_, by simp [leBytes]; rfl⟩
  obtain ⟨Z, hz⟩ := he
  unfold Buf.boolean readBool
  rw [h3, hz]
  have hs : b.type.simplify = .decimal := by
    rw [h1]; simp only [Val.rawType]
    rcases identifyDecimal_cases d with e | e <;> rw [e] <;> rfl
  rw [hs]
  simp only [h2, Res.ofRead, Res.bind, List.append_assoc]
  rw [readU_mid X _ 1 _ p h4.symm (by omega)]
  rfl

theorem readBytes_length {m : Bytes} {p n : Nat} {bs : Bytes} (h : readBytes m p n = some bs) : bs.length = n := by
  unfold readBytes at h
  split at h
  · cases h; simp; omega
  · cases h

theorem Shows.size_str {b : Buf} {s : Bytes} (h : Shows z b (.str s)) : b.size = .ok s.length := by
  obtain ⟨p, X, Y, h1, h2, h3, h4, _⟩ := h.at' (by simp) (by simp [Val.ty])
  have aux : ∀ w, Res.ofRead (do let n ← readU b.mem w p; readBytes b.mem (p + w) n) = Res.ok s →
      Res.ofRead (readU b.mem w p) = .ok s.length := by
    intro w hs
    cases hr : readU b.mem w p with
    | none => rw [hr] at hs; cases hs
    | some n =>
      rw [hr] at hs
      simp only [Option.bind_eq_bind, Option.bind_some] at hs
      cases hb : readBytes b.mem (p + w) n with
      | none => rw [hb] at hs; cases hs
      | some t => rw [hb] at hs; cases hs; rw [readBytes_length hb]; rfl
  have hs := h.strv
  simp only [Val.rawType] at h1
  unfold Buf.strv at hs
  unfold Buf.size
  rcases identifyString_cases s with e | e <;> rw [e] at h1
  · simp only [h1, h2] at hs ⊢
    exact aux 4 hs
  · simp only [h1, h2] at hs ⊢
    exact aux 2 hs

theorem Shows.size {b : Buf} {v : Val} (h : Shows z b v) : b.size = v.size := by
  have ht := h.getType
  cases v with
  | obj fs => rw [h.size_obj]; rfl
  | arr fs => rw [h.size_arr]; rfl
  | str s => rw [h.size_str]; rfl
  | _ =>
    simp only [Val.size]
    unfold Buf.size
    cases hb : b.type <;> simp only [Buf.getType, hb, RawType.simplify, Val.ty] at ht ⊢ <;> cases ht

/-! ### Lookups -/

/-- Searching a finalized object, as the specification has it. -/
theorem Shows.found {signed : Bool} {b : Buf} {fs : List (Bytes × Val)} (h : Shows z b (.obj fs)) (k : Bytes) :
    ∃ r, Found signed true fs k r ∧ b.hasKey signed k = .ok r.isSome ∧
      (∃ b', b.get signed k = .ok b' ∧ Shows z b' (r.getD .null)) ∧
      match r with
      | none => b.at signed k = .throw .outOfRange
      | some w => ∃ b', b.at signed k = .ok b' ∧ Shows z b' w := by
  have hs := (wf_obj.1 h.wf).1
  rcases h.get (signed := signed) k with ⟨h1, h2, b', h3, h4⟩ | ⟨i, hi, rfl, h1, b', h2, h3, h4⟩
  · refine ⟨none, ?_, h1, ⟨b', h3, h4⟩, h2⟩
    by_cases hp : ∃ f ∈ fs, ¬ PlainKey signed f.1
    · exact .inr ⟨rfl, hp, rfl⟩
    · left
      have hp' : ∀ f ∈ fs, PlainKey signed f.1 := fun f hf => Classical.byContradiction fun hc => hp ⟨f, hf, hc⟩
      cases hl : lookup fs k with
      | none => rfl
      | some w =>
        exfalso
        obtain ⟨p, t1, t2, t3⟩ := h.obj
        obtain ⟨i, hi, e⟩ := List.mem_iff_getElem.1 (lookup_some_mem hl)
        have ek : fs[i].1 = k := by rw [e]
        obtain ⟨kp, hk⟩ := getKey_complete (signed := signed) t3 i hi
          ⟨fun f hf => (hp' f hf).1, fun h f hf _ => (hp' f hf).2.2 h, fun _ f hf => (hp' f hf).2.1⟩
        rw [ek] at hk
        simp [Buf.hasKey, Buf.object, t1, t2, Res.ofRead, Res.bind, hk] at h1
  · refine ⟨some fs[i].2, .inl ?_, h1, ⟨b', h2, h4⟩, b', h3, h4⟩
    exact (lookup_of_mem hs (List.getElem_mem hi)).symm

theorem path_exists (sep : UInt8) (s : Bytes) :
    ∃ ks k, (∀ t ∈ ks, sep ∉ t) ∧ sep ∉ k ∧ s = path sep ks k := by
  induction s with
  | nil => exact ⟨[], [], by simp, by simp, rfl⟩
  | cons c s ih =>
    obtain ⟨ks, k, h1, h2, h3⟩ := ih
    by_cases hc : c = sep
    · exact ⟨[] :: ks, k, by simpa using h1, h2, by simp [path, h3, hc]⟩
    · cases ks with
      | nil => exact ⟨[], c :: k, by simp, by simp [h2, Ne.symm hc], by simp [path, h3]⟩
      | cons t ts =>
        refine ⟨(c :: t) :: ts, k, ?_, h2, by simp [path, h3]⟩
        intro x hx
        rcases List.mem_cons.1 hx with rfl | hx
        · simp only [List.mem_cons, not_or]
          exact ⟨Ne.symm hc, h1 t (by simp)⟩
        · exact h1 x (by simp [hx])

theorem Follows.nil {signed fin : Bool} (v : Val) : Follows signed fin v [] v := by
  cases v <;> simp [Follows]

theorem Follows.not_obj {signed fin : Bool} {v : Val} (h : v.isObject = false) (k : Bytes) (ks : List Bytes) :
    Follows signed fin v (k :: ks) .null := by
  cases v <;> simp_all [Follows, Val.isObject]

/-- `nestedLoop` on anything that stands for a value and searches as `Found` says. -/
theorem nestedLoop_follows {α : Type} {signed fin : Bool} {isObject : α → Bool} {get : α → Bytes → Res α} {null : α}
    {R : α → Val → Prop} (hn : R null .null) (hio : ∀ a v, R a v → isObject a = v.isObject)
    (hget : ∀ a fs k, R a (.obj fs) → ∃ r a', Found signed fin fs k r ∧ get a k = .ok a' ∧ R a' (r.getD .null))
    (sep : UInt8) (k : Bytes) (hk : sep ∉ k) (ks : List Bytes) : ∀ {a : α} {v : Val}, R a v → (∀ t ∈ ks, sep ∉ t) →
      ∃ a' w, nestedLoop isObject get null sep a (path sep ks k) = .ok a' ∧ R a' w ∧
        Follows signed fin v (components ks k) w := by
  induction ks with
  | nil =>
    intro a v h _
    by_cases he : k = []
    · subst he
      exact ⟨a, v, by simp [path, nestedLoop], h, by simpa [components] using Follows.nil v⟩
    · rw [show path sep [] k = k by simp [path], nestedLoop_last hk he]
      simp only [components, he, if_false, List.nil_append, hio a v h]
      cases v with
      | obj fs =>
        obtain ⟨r, a', h1, h2, h3⟩ := hget a fs k h
        exact ⟨a', r.getD .null, by simp [Val.isObject, h2, Res.bind], h3, r, h1, Follows.nil _⟩
      | _ => exact ⟨null, .null, by simp [Val.isObject], hn, by simp [Follows]⟩
  | cons t ts ih =>
    intro a v h hks
    have e1 : path sep (t :: ts) k = t ++ sep :: path sep ts k := by simp [path]
    have e2 : components (t :: ts) k = t :: components ts k := by simp only [components]; split <;> simp
    rw [e1, nestedLoop_sep (hks t (by simp)), e2, hio a v h]
    cases v with
    | obj fs =>
      obtain ⟨r, a', h1, h2, h3⟩ := hget a fs t h
      obtain ⟨b, w, h4, h5, h6⟩ := ih h3 (fun x hx => hks x (by simp [hx]))
      exact ⟨b, w, by simp [Val.isObject, h2, Res.bind, h4], h5, r, h1, h6⟩
    | _ => exact ⟨null, .null, by simp [Val.isObject], hn, by simp [Follows]⟩

/-! ### Packets and their observable state -/

/-- The packet is in the state, with what is needed to go on. -/
def Held (z : Bool) : Pkt → PState → Prop
  | .heap v, s => s = ⟨false, v⟩ ∧ v.WF
  | .buf b, s => s.finalized = true ∧ Shows z b s.value

theorem Held.inState {p : Pkt} {s : PState} (h : Held z p s) : InState p s := by
  cases p with
  | heap v => obtain ⟨rfl, _⟩ := h; exact ⟨rfl, rfl⟩
  | buf b => exact ⟨h.1.symm, by simp [Pkt.toHeap, Shows.value h.2, Res.ofRead]⟩

theorem Held.toHeap {p : Pkt} {s : PState} (h : Held z p s) : p.toHeap = .ok s.value := h.inState.2

theorem Held.wf {p : Pkt} {s : PState} (h : Held z p s) : s.value.WF := by
  cases p with
  | heap v => obtain ⟨rfl, h⟩ := h; exact h
  | buf b => exact Shows.wf h.2

/-- The outcome of a call is the specified one. -/
def Outcome (z : Bool) : Res Pkt → Except Exc PState → Prop
  | .ok p, .ok s => Held z p s
  | .throw e, .error e' => e = e'
  | _, _ => False

theorem wf_lookup {fs : List (Bytes × Val)} (h : (Val.obj fs).WF) (k : Bytes) : ((lookup fs k).getD .null).WF := by
  cases hl : lookup fs k with
  | none => simp [Val.WF]
  | some w => exact ((wf_obj.1 h).2 _ (lookup_some_mem hl)).2

theorem wf_elem {es : List Val} (h : (Val.arr es).WF) {w : Val} (hw : w ∈ es) : w.WF := wf_arr.1 h w hw

theorem wf_idx {es : List Val} (h : (Val.arr es).WF) (i : Nat) : (es[i]?.getD .null).WF := by
  cases he : es[i]? with
  | none => simp [Val.WF]
  | some w => exact wf_elem h (List.mem_of_getElem? he)

theorem wf_head {es : List Val} (h : (Val.arr es).WF) {d : Val} (hd : d.WF) : (es.head?.getD d).WF := by
  cases he : es.head? with
  | none => exact hd
  | some w => exact wf_elem h (List.mem_of_mem_head? he)

theorem wf_last {es : List Val} (h : (Val.arr es).WF) {d : Val} (hd : d.WF) : (es.getLast?.getD d).WF := by
  cases he : es.getLast? with
  | none => exact hd
  | some w => exact wf_elem h (List.mem_of_getLast? he)

theorem getType_eq (v : Val) : v.getType = v.ty := by cases v <;> rfl

theorem heap_read_ok {α : Type} {signed : Bool} {v : Val} (hv : v.WF) {f : α → Pkt} {g : α → PState} (r : PRead α)
    (hr : r.All fun a => Held z (f a) (g a)) :
    ∃ out, ReadOk signed ⟨false, v⟩ (r.map g) out ∧ Outcome z ((r.map f).run signed (.heap v)) out := by
  cases r with
  | get k =>
    cases v with
    | obj fs =>
      exact ⟨_, ⟨_, .inl rfl, rfl⟩, by simp only [PRead.map, PRead.run, Pkt.visit, get_object, Res.bind]
                                       exact ⟨rfl, wf_lookup hv k⟩⟩
    | _ => exact ⟨_, rfl, rfl⟩
  | «at» k =>
    cases v with
    | obj fs =>
      refine ⟨_, ⟨_, .inl rfl, rfl⟩, ?_⟩
      simp only [PRead.map, PRead.run, Pkt.visit, Val.atKey, mapFind_eq]
      cases hl : lookup fs k with
      | none => exact rfl
      | some w => exact ⟨rfl, ((wf_obj.1 hv).2 _ (lookup_some_mem hl)).2⟩
    | _ => exact ⟨_, rfl, rfl⟩
  | getOr k d =>
    cases v with
    | obj fs =>
      refine ⟨_, ⟨_, .inl rfl, rfl⟩, ?_⟩
      simp only [PRead.map, PRead.run, Pkt.visit, Val.get, Val.hasKey, mapFind_eq, Pkt.getType, Val.getType, if_true,
        Pkt.hasKey, Res.bind, id]
      cases hl : lookup fs k with
      | none => exact hr
      | some w => exact ⟨rfl, ((wf_obj.1 hv).2 _ (lookup_some_mem hl)).2⟩
    | _ => exact ⟨_, rfl, hr⟩
  | nested p sep =>
    obtain ⟨ks, k, h1, h2, rfl⟩ := path_exists sep p
    obtain ⟨a, w, h3, h4, h5⟩ := nestedLoop_follows (signed := signed) (fin := false) (isObject := Val.isObject)
      (get := Val.get) (null := .null)
      (R := fun a v => a = v ∧ v.WF) ⟨rfl, by simp [Val.WF]⟩ (fun a v h => by rw [h.1])
      (fun a fs k h => ⟨lookup fs k, _, .inl rfl, by rw [h.1, get_object], rfl, wf_lookup h.2 k⟩) sep k h2 ks
      (a := v) (v := v) ⟨rfl, hv⟩ h1
    refine ⟨_, ⟨ks, k, w, h1, h2, rfl, h5, rfl⟩, ?_⟩
    simp only [PRead.map, PRead.run, Pkt.visit, Val.getNested, h3, Res.bind]
    exact ⟨by rw [h4.1], h4.1 ▸ h4.2⟩
  | getIdx i =>
    cases v with
    | arr es =>
      refine ⟨_, rfl, ?_⟩
      have hw := wf_idx hv i
      have : (if h : i < es.length then es[i] else .null) = es[i]?.getD .null := by
        by_cases h : i < es.length <;> simp [h]
      simp only [PRead.map, PRead.run, Pkt.visit, Val.getIdx, this, Res.bind]
      exact ⟨rfl, hw⟩
    | _ => exact ⟨_, rfl, rfl⟩
  | getIdxOr i d =>
    cases v with
    | arr es =>
      refine ⟨_, rfl, ?_⟩
      have hw := wf_idx hv i
      simp only [PRead.map, PRead.run, Pkt.visit, Val.getIdx, Pkt.getType, Val.getType, if_true, Pkt.size, Val.size, Res.bind, id]
      by_cases h : i < es.length
      · simp only [h, if_true, dite_true, List.getElem?_eq_getElem, Option.getD] at hw ⊢
        exact ⟨rfl, hw⟩
      · rw [List.getElem?_eq_none (by omega)]
        simp only [gt_iff_lt, h, if_false]
        exact hr
    | _ => exact ⟨_, rfl, hr⟩
  | atIdx i =>
    cases v with
    | arr es =>
      refine ⟨_, rfl, ?_⟩
      have hw := wf_idx hv i
      simp only [PRead.map, PRead.run, Pkt.visit, Val.atIdx, Val.size, Res.bind]
      by_cases h : i < es.length
      · simp only [h, if_true, List.getElem?_eq_getElem, Option.getD, Res.ofRead] at hw ⊢
        exact ⟨rfl, hw⟩
      · rw [List.getElem?_eq_none (by omega)]
        simp only [h, if_false]
        exact rfl
    | obj fs =>
      refine ⟨_, rfl, ?_⟩
      simp only [PRead.map, PRead.run, Pkt.visit, Val.atIdx, Val.size, Res.bind]
      by_cases h : i < fs.length
      · simp [h, Outcome, Nat.not_le.2 h]
      · simp [h, Outcome, Nat.not_lt.1 h]
    | str fs =>
      refine ⟨_, rfl, ?_⟩
      simp only [PRead.map, PRead.run, Pkt.visit, Val.atIdx, Val.size, Res.bind]
      by_cases h : i < fs.length
      · simp [h, Outcome, Nat.not_le.2 h]
      · simp [h, Outcome, Nat.not_lt.1 h]
    | _ => exact ⟨_, rfl, rfl⟩
  | front =>
    cases v with
    | arr es => exact ⟨_, rfl, rfl, wf_head hv (by simp [Val.WF])⟩
    | _ => exact ⟨_, rfl, rfl⟩
  | back =>
    cases v with
    | arr es => exact ⟨_, rfl, rfl, wf_last hv (by simp [Val.WF])⟩
    | _ => exact ⟨_, rfl, rfl⟩
  | atFront =>
    cases v with
    | arr es =>
      refine ⟨_, rfl, ?_⟩
      cases es with
      | nil => exact rfl
      | cons e es => exact ⟨rfl, wf_elem hv (by simp)⟩
    | obj fs => cases fs <;> exact ⟨_, rfl, rfl⟩
    | str fs => cases fs <;> exact ⟨_, rfl, rfl⟩
    | _ => exact ⟨_, rfl, rfl⟩
  | atBack =>
    cases v with
    | arr es =>
      refine ⟨_, rfl, ?_⟩
      have hw := wf_last hv (d := .null) (by simp [Val.WF])
      simp only [PRead.map, PRead.run, Pkt.visit, Val.atBack, Val.size, Val.back, Res.bind]
      cases es with
      | nil => exact rfl
      | cons e es =>
        rw [List.getLast?_cons] at hw ⊢
        simp only [List.length_cons, Nat.add_eq_zero_iff, Nat.one_ne_zero, and_false, if_false]
        exact ⟨rfl, hw⟩
    | obj fs => cases fs <;> exact ⟨_, rfl, rfl⟩
    | str fs => cases fs <;> exact ⟨_, rfl, rfl⟩
    | _ => exact ⟨_, rfl, rfl⟩
  | frontOr d =>
    have hd := Held.toHeap hr
    refine ⟨_, rfl, ?_⟩
    simp only [PRead.map, PRead.run, Pkt.getHeap, Res.bind, hd]
    cases v with
    | arr es =>
      cases es with
      | nil => exact ⟨rfl, Held.wf hr⟩
      | cons e es => exact ⟨rfl, wf_elem hv (by simp)⟩
    | _ => exact ⟨rfl, Held.wf hr⟩
  | backOr d =>
    have hd := Held.toHeap hr
    refine ⟨_, rfl, ?_⟩
    simp only [PRead.map, PRead.run, Pkt.getHeap, Res.bind, hd]
    cases v with
    | arr es =>
      have hw := wf_last hv (Held.wf hr)
      cases es with
      | nil => exact ⟨rfl, Held.wf hr⟩
      | cons e es =>
        rw [List.getLast?_cons] at hw
        simp only [Val.backOr, Val.back, List.isEmpty_cons, Bool.false_eq_true, if_false]
        rw [List.getLast?_cons]
        exact ⟨rfl, hw⟩
    | _ => exact ⟨rfl, Held.wf hr⟩

theorem Shows.value_type {b : Buf} {v : Val} (h : Shows z b v) : (b.getType = .object ↔ ∃ fs, v = .obj fs) ∧
    (b.getType = .array ↔ ∃ es, v = .arr es) := by
  rw [h.getType]
  cases v <;> simp [Val.ty]

theorem buf_object_throw {b : Buf} {v : Val} (h : Shows z b v) (hv : ∀ fs, v ≠ .obj fs) : b.object = .throw .typeError := by
  rcases h.object_call with ⟨fs, p, rfl, _⟩ | ⟨_, h1⟩
  · exact absurd rfl (hv fs)
  · exact h1

theorem buf_array_throw {b : Buf} {v : Val} (h : Shows z b v) (hv : ∀ es, v ≠ .arr es) : b.array = .throw .typeError := by
  rcases h.array_call with ⟨fs, p, rfl, _⟩ | ⟨_, h1⟩
  · exact absurd rfl (hv fs)
  · exact h1

theorem buf_read_ok {α : Type} {signed : Bool} {b : Buf} {v : Val} (hv : Shows z b v) {f : α → Pkt} {g : α → PState}
    (r : PRead α) (hr : r.All fun a => Held z (f a) (g a)) :
    ∃ out, ReadOk signed ⟨true, v⟩ (r.map g) out ∧ Outcome z ((r.map f).run signed (.buf b)) out := by
  cases r with
  | get k =>
    by_cases ho : ∃ fs, v = .obj fs
    · obtain ⟨fs, rfl⟩ := ho
      obtain ⟨r, h1, _, ⟨b', h3, h4⟩, _⟩ := hv.found (signed := signed) k
      exact ⟨_, ⟨r, h1, rfl⟩, by simp only [PRead.map, PRead.run, Pkt.visit, h3, Res.bind]; exact ⟨rfl, h4⟩⟩
    · have hb := buf_object_throw hv (fun fs e => ho ⟨fs, e⟩)
      refine ⟨.error .typeError, ?_, ?_⟩
      · cases v <;> first | rfl | exact absurd ⟨_, rfl⟩ ho
      · simp only [PRead.map, PRead.run, Pkt.visit, Buf.get, hb, Res.bind, Outcome]
  | «at» k =>
    by_cases ho : ∃ fs, v = .obj fs
    · obtain ⟨fs, rfl⟩ := ho
      obtain ⟨r, h1, _, _, h3⟩ := hv.found (signed := signed) k
      refine ⟨_, ⟨r, h1, rfl⟩, ?_⟩
      simp only [PRead.map, PRead.run, Pkt.visit]
      cases r with
      | none => simp only at h3; simp only [h3, Res.bind, Outcome]
      | some w =>
        obtain ⟨b', h4, h5⟩ := h3
        simp only [h4, Res.bind]
        exact ⟨rfl, h5⟩
    · have hb := buf_object_throw hv (fun fs e => ho ⟨fs, e⟩)
      refine ⟨.error .typeError, ?_, ?_⟩
      · cases v <;> first | rfl | exact absurd ⟨_, rfl⟩ ho
      · simp only [PRead.map, PRead.run, Pkt.visit, Buf.at, hb, Res.bind, Outcome]
  | getOr k d =>
    by_cases ho : ∃ fs, v = .obj fs
    · have ht := hv.value_type.1.2 ho
      obtain ⟨fs, rfl⟩ := ho
      obtain ⟨r, h1, h2, ⟨b', h3, h4⟩, _⟩ := hv.found (signed := signed) k
      refine ⟨_, ⟨r, h1, rfl⟩, ?_⟩
      simp only [PRead.map, PRead.run, Pkt.visit, Pkt.getType, Pkt.hasKey, ht, if_true, h2, Res.bind, id]
      cases r with
      | none => exact hr
      | some w => simp only [Option.isSome, if_true, h3]; exact ⟨rfl, h4⟩
    · have ht : ¬ b.getType = .object := fun h => ho (hv.value_type.1.1 h)
      refine ⟨.ok (g d), ?_, ?_⟩
      · cases v <;> first | rfl | exact absurd ⟨_, rfl⟩ ho
      · simp only [PRead.map, PRead.run, Pkt.getType, ht, if_false]; exact hr
  | nested p sep =>
    obtain ⟨ks, k, h1, h2, rfl⟩ := path_exists sep p
    obtain ⟨a, w, h3, h4, h5⟩ := nestedLoop_follows (signed := signed) (fin := true)
      (isObject := fun b : Buf => b.type == .object) (get := fun b => b.get signed) (null := b.sub (.null, none))
      (R := Shows z) (shows_null b none) (fun a v h => shows_type_object h)
      (fun a fs k h => by
        obtain ⟨r, h1, _, ⟨b', h3, h4⟩, _⟩ := h.found (signed := signed) k
        exact ⟨r, b', h1, h3, h4⟩) sep k h2 ks (a := b) (v := v) hv h1
    refine ⟨_, ⟨ks, k, w, h1, h2, rfl, h5, rfl⟩, ?_⟩
    simp only [PRead.map, PRead.run, Pkt.visit, Buf.getNested, h3, Res.bind]
    exact ⟨rfl, h4⟩
  | getIdx i =>
    by_cases ho : ∃ es, v = .arr es
    · obtain ⟨es, rfl⟩ := ho
      obtain ⟨b', h3, h4⟩ := hv.getIdx i
      exact ⟨_, rfl, by simp only [PRead.map, PRead.run, Pkt.visit, h3, Res.bind]; exact ⟨rfl, h4⟩⟩
    · have hb := buf_array_throw hv (fun fs e => ho ⟨fs, e⟩)
      refine ⟨.error .typeError, ?_, ?_⟩
      · cases v <;> first | rfl | exact absurd ⟨_, rfl⟩ ho
      · simp only [PRead.map, PRead.run, Pkt.visit, Buf.getIdx, hb, Res.bind, Outcome]
  | getIdxOr i d =>
    by_cases ho : ∃ es, v = .arr es
    · have ht := hv.value_type.2.2 ho
      obtain ⟨es, rfl⟩ := ho
      obtain ⟨b', h3, h4⟩ := hv.getIdx i
      refine ⟨_, rfl, ?_⟩
      simp only [PRead.map, PRead.run, Pkt.visit, Pkt.getType, Pkt.size, ht, if_true, hv.size_arr, Res.bind, id]
      by_cases h : i < es.length
      · simp only [h, if_true, List.getElem?_eq_getElem, Option.getD, h3] at h4 ⊢
        exact ⟨rfl, h4⟩
      · rw [List.getElem?_eq_none (by omega)]
        simp only [gt_iff_lt, h, if_false]
        exact hr
    · have ht : ¬ b.getType = .array := fun h => ho (hv.value_type.2.1 h)
      refine ⟨.ok (g d), ?_, ?_⟩
      · cases v <;> first | rfl | exact absurd ⟨_, rfl⟩ ho
      · simp only [PRead.map, PRead.run, Pkt.getType, ht, if_false]; exact hr
  | atIdx i =>
    by_cases ho : ∃ es, v = .arr es
    · obtain ⟨es, rfl⟩ := ho
      refine ⟨_, rfl, ?_⟩
      simp only [PRead.map, PRead.run, Pkt.visit]
      by_cases h : i < es.length
      · obtain ⟨b', h3, _, h4⟩ := hv.atIdx i h
        simp only [h, List.getElem?_eq_getElem, h3, Res.bind]
        exact ⟨rfl, h4⟩
      · rw [List.getElem?_eq_none (by omega)]
        simp only [hv.atIdx_throw i (by omega), Res.bind, Outcome]
    · have hb := buf_array_throw hv (fun fs e => ho ⟨fs, e⟩)
      refine ⟨.error .typeError, ?_, ?_⟩
      · cases v <;> first | rfl | exact absurd ⟨_, rfl⟩ ho
      · simp only [PRead.map, PRead.run, Pkt.visit, Buf.atIdx, hb, Res.bind, Outcome]
  | front =>
    by_cases ho : ∃ es, v = .arr es
    · obtain ⟨es, rfl⟩ := ho
      obtain ⟨b', h3, h4⟩ := hv.front
      exact ⟨_, rfl, by simp only [PRead.map, PRead.run, Pkt.visit, h3, Res.bind]; exact ⟨rfl, h4⟩⟩
    · have hb := buf_array_throw hv (fun fs e => ho ⟨fs, e⟩)
      refine ⟨.error .typeError, ?_, ?_⟩
      · cases v <;> first | rfl | exact absurd ⟨_, rfl⟩ ho
      · simp only [PRead.map, PRead.run, Pkt.visit, Buf.front, hb, Res.bind, Outcome]
  | back =>
    by_cases ho : ∃ es, v = .arr es
    · obtain ⟨es, rfl⟩ := ho
      obtain ⟨b', h3, h4⟩ := hv.back
      exact ⟨_, rfl, by simp only [PRead.map, PRead.run, Pkt.visit, h3, Res.bind]; exact ⟨rfl, h4⟩⟩
    · have hb := buf_array_throw hv (fun fs e => ho ⟨fs, e⟩)
      refine ⟨.error .typeError, ?_, ?_⟩
      · cases v <;> first | rfl | exact absurd ⟨_, rfl⟩ ho
      · simp only [PRead.map, PRead.run, Pkt.visit, Buf.back, hb, Res.bind, Outcome]
  | atFront =>
    simp only [PRead.map, PRead.run, Pkt.visit, Buf.atFront, hv.size]
    by_cases ho : ∃ es, v = .arr es
    · obtain ⟨es, rfl⟩ := ho
      obtain ⟨b', h3, h4⟩ := hv.front
      refine ⟨_, rfl, ?_⟩
      cases es with
      | nil => exact rfl
      | cons e es => simp only [Val.size, Res.bind, List.length_cons, Nat.add_eq_zero_iff, Nat.one_ne_zero, and_false,
                       if_false, h3]; exact ⟨rfl, h4⟩
    · have hb : b.front = .throw .typeError := by
        simp only [Buf.front, buf_array_throw hv (fun fs e => ho ⟨fs, e⟩), Res.bind]
      simp only [hb]
      cases v with
      | arr es => exact absurd ⟨_, rfl⟩ ho
      | obj fs => cases fs <;> exact ⟨_, rfl, rfl⟩
      | str fs => cases fs <;> exact ⟨_, rfl, rfl⟩
      | _ => exact ⟨_, rfl, rfl⟩
  | atBack =>
    simp only [PRead.map, PRead.run, Pkt.visit, Buf.atBack, hv.size]
    by_cases ho : ∃ es, v = .arr es
    · obtain ⟨es, rfl⟩ := ho
      obtain ⟨b', h3, h4⟩ := hv.back
      refine ⟨_, rfl, ?_⟩
      cases es with
      | nil => exact rfl
      | cons e es =>
        rw [List.getLast?_cons] at h4 ⊢
        simp only [Val.size, Res.bind, List.length_cons, Nat.add_eq_zero_iff, Nat.one_ne_zero, and_false,
                       if_false, h3]
        exact ⟨rfl, h4⟩
    · have hb : b.back = .throw .typeError := by
        simp only [Buf.back, buf_array_throw hv (fun fs e => ho ⟨fs, e⟩), Res.bind]
      simp only [hb]
      cases v with
      | arr es => exact absurd ⟨_, rfl⟩ ho
      | obj fs => cases fs <;> exact ⟨_, rfl, rfl⟩
      | str fs => cases fs <;> exact ⟨_, rfl, rfl⟩
      | _ => exact ⟨_, rfl, rfl⟩
  | frontOr d => exact ⟨_, rfl, rfl⟩
  | backOr d => exact ⟨_, rfl, rfl⟩

theorem read_ok {α : Type} {signed : Bool} {p : Pkt} {s : PState} (h : Held z p s) {f : α → Pkt} {g : α → PState}
    (r : PRead α) (hr : r.All fun a => Held z (f a) (g a)) :
    ∃ out, ReadOk signed s (r.map g) out ∧ Outcome z ((r.map f).run signed p) out := by
  cases p with
  | heap v => obtain ⟨rfl, h⟩ := h; exact heap_read_ok h r hr
  | buf b =>
    obtain ⟨t, v⟩ := s
    obtain ⟨h1, h2⟩ := h
    simp only at h1 h2
    subst h1
    exact buf_read_ok h2 r hr

/-! ### Mutators -/

theorem Held.getType {p : Pkt} {s : PState} (h : Held z p s) : p.getType = s.value.ty := by
  cases p with
  | heap v => obtain ⟨rfl, _⟩ := h; exact getType_eq v
  | buf b => exact Shows.getType h.2

theorem Held.strv {p : Pkt} {s : PState} (h : Held z p s) : p.strv = s.value.strv := by
  cases p with
  | heap v => obtain ⟨rfl, _⟩ := h; cases v <;> rfl
  | buf b => exact Shows.strv' h.2

theorem Held.integer {p : Pkt} {s : PState} (h : Held z p s) : p.integer = s.value.integer := by
  cases p with
  | heap v => obtain ⟨rfl, _⟩ := h; cases v <;> rfl
  | buf b => rw [Pkt.integer, Pkt.visit, Shows.integer h.2]; cases s.value <;> rfl

theorem Res.bind_ok {α β : Type} (a : α) (f : α → Res β) : (Res.ok a).bind f = f a := rfl

theorem mut_heap {v : Val} (hv : v.WF) {op : HOp} (ha : argsWF op) (hnub : op.run v ≠ .ub) :
    ∃ out, (match op.run v with
      | .ok w => out = Except.ok ⟨false, w⟩
      | .throw e => out = .error e
      | .ub => False) ∧ Outcome z ((op.run v).bind fun r => .ok (.heap r)) out := by
  cases hr : op.run v with
  | ok w => exact ⟨_, rfl, rfl, wf_run hv ha hr⟩
  | throw e => exact ⟨_, rfl, rfl⟩
  | ub => exact absurd hr hnub

theorem insert_ne_ub (v k x : Val) : v.insert k x ≠ .ub := by
  unfold Val.insert
  repeat' split
  all_goals simp

theorem set_ne_ub (v k x : Val) : v.set k x ≠ .ub := by
  unfold Val.set
  repeat' split
  all_goals simp

theorem eraseKey_ne_ub (v : Val) (k : Bytes) : v.eraseKey k ≠ .ub := by
  unfold Val.eraseKey
  split <;> simp

theorem eraseIdx_ne_ub (v : Val) (i : Nat) : v.eraseIdx i ≠ .ub := by
  unfold Val.eraseIdx
  repeat' split
  all_goals simp

theorem mut_ok {α : Type} {p : Pkt} {s : PState} (h : Held z p s) {f : α → Pkt} {g : α → PState}
    (m : PMut α) (hm : m.All fun a => Held z (f a) (g a)) :
    ∃ out, MutOk s (m.map g) out ∧ Outcome z ((m.map f).run p) out := by
  cases p with
  | buf b =>
    have hf := h.1
    by_cases he : ∃ k, m = .erase k
    · obtain ⟨k, rfl⟩ := he
      simp only [PMut.map, PMut.run, MutOk, badErase, hf, if_true, Held.getType hm, Held.strv hm, Held.integer hm]
      cases (g k).value <;> exact ⟨_, rfl, rfl⟩
    · refine ⟨.error .stateError, ?_, ?_⟩
      · cases m <;> first | exact absurd ⟨_, rfl⟩ he | simp [PMut.map, MutOk, badErase, hf]
      · cases m <;> first | exact rfl | exact absurd ⟨_, rfl⟩ he
  | heap v =>
    obtain ⟨rfl, hv⟩ := h
    cases m with
    | assign a =>
      exact ⟨_, rfl, by simp only [PMut.map, PMut.run, Pkt.getHeap, Res.bind, Held.toHeap hm]
                        exact ⟨rfl, Held.wf hm⟩⟩
    | insert k a =>
      have := mut_heap (z := z) hv (op := .insert (g k).value (g a).value) (Held.wf hm.2) (insert_ne_ub _ _ _)
      simp only [PMut.map, PMut.run, Pkt.getHeap, Res.bind_ok, Held.toHeap hm.1, Held.toHeap hm.2]
      exact this
    | set k a =>
      have := mut_heap (z := z) hv (op := .set (g k).value (g a).value) (Held.wf hm.2) (set_ne_ub _ _ _)
      simp only [PMut.map, PMut.run, Pkt.getHeap, Res.bind_ok, Held.toHeap hm.1, Held.toHeap hm.2]
      exact this
    | erase k =>
      simp only [PMut.map, PMut.run, Held.getType hm, Held.strv hm, Held.integer hm]
      rcases g k with ⟨t, w⟩
      cases w with
      | str t => exact mut_heap hv (op := .eraseKey t) trivial (eraseKey_ne_ub _ _)
      | int i => exact mut_heap hv (op := .eraseIdx i.toNat) trivial (eraseIdx_ne_ub _ _)
      | _ => exact ⟨_, rfl, rfl⟩
    | eraseKey k => exact mut_heap hv (op := .eraseKey k) trivial (eraseKey_ne_ub _ _)
    | eraseIdx i => exact mut_heap hv (op := .eraseIdx i) trivial (eraseIdx_ne_ub _ _)
    | pushFront a =>
      have := mut_heap (z := z) hv (op := .pushFront (g a).value) (Held.wf hm) (insert_ne_ub v (.int 0) _)
      simp only [PMut.map, PMut.run, Pkt.getHeap, Res.bind_ok, Held.toHeap hm]
      exact this
    | pushBack a =>
      have := mut_heap (z := z) hv (op := .pushBack (g a).value) (Held.wf hm) (by
        simp only [HOp.run, Val.pushBack]
        cases v <;> simp only [Val.size, Res.bind] <;> first | exact insert_ne_ub _ _ _ | simp)
      simp only [PMut.map, PMut.run, Pkt.getHeap, Res.bind_ok, Held.toHeap hm]
      exact this
    | popFront => exact mut_heap hv (op := .popFront) trivial (eraseIdx_ne_ub _ _)
    | popBack =>
      exact mut_heap hv (op := .popBack) trivial (by
        simp only [HOp.run, Val.popBack]
        cases v <;> simp only [Val.size, Res.bind] <;> first | exact eraseIdx_ne_ub _ _ | simp)
    | clear => exact mut_heap hv (op := .clear) trivial (by cases v <;> simp [HOp.run, Val.clear])
    | resize n a =>
      have := mut_heap (z := z) hv (op := .resize n (g a).value) (Held.wf hm) (by
        simp only [HOp.run, Val.resize]
        repeat' split
        all_goals simp)
      simp only [PMut.map, PMut.run, Pkt.getHeap, Res.bind_ok, Held.toHeap hm]
      exact this

/-! ### Switching the representation -/

theorem finalize_held {p : Pkt} {s : PState} (h : Held z p s) : ∃ out, FinalizeOk s out ∧ Outcome z p.finalize out := by
  cases p with
  | buf b =>
    refine ⟨.ok s, ?_, h⟩
    simp only [FinalizeOk, h.1, if_true]
  | heap v =>
    obtain ⟨rfl, hv⟩ := h
    cases v with
    | obj fs =>
      cases hu : upperBound (.obj fs) with
      | none =>
        refine ⟨.error .lengthError, .inr ⟨hu, rfl⟩, ?_⟩
        simp only [Pkt.finalize, Dart.finalize, hu, Res.bind, Outcome]
      | some n =>
        obtain ⟨h1, _⟩ := finalize_ok hv hu
        refine ⟨.ok ⟨true, .obj fs⟩, .inl rfl, ?_⟩
        simp only [Pkt.finalize, h1, Res.bind]
        exact ⟨rfl, Shows.weaken <| shows_root hv h1⟩
    | _ => exact ⟨_, rfl, rfl⟩

theorem definalize_held {p : Pkt} {s : PState} (h : Held z p s) : Outcome z p.definalize (.ok ⟨false, s.value⟩) := by
  cases p with
  | heap v => obtain ⟨rfl, hv⟩ := h; exact ⟨rfl, hv⟩
  | buf b =>
    simp only [Pkt.definalize, Shows.value h.2, Res.ofRead, Res.bind]
    exact ⟨rfl, Shows.wf h.2⟩

/-! ### Programs -/

/-- Each variable is in its state. -/
def AllHeld (z : Bool) (ps : List Pkt) (st : List PState) : Prop :=
  ps.length = st.length ∧ ∀ i (h1 : i < ps.length) (h2 : i < st.length), Held z ps[i] st[i]

theorem AllHeld.var {ps : List Pkt} {st : List PState} (h : AllHeld z ps st) (x : Nat) :
    Held z (pktVar ps x) (stVar st x) := by
  unfold pktVar stVar
  by_cases hx : x < ps.length
  · have hx' : x < st.length := h.1 ▸ hx
    simp only [hx, hx', List.getElem?_eq_getElem, Option.getD]
    exact h.2 x hx hx'
  · rw [List.getElem?_eq_none (by omega), List.getElem?_eq_none (by have := h.1; omega)]
    exact ⟨rfl, by simp [Val.WF]⟩

theorem AllHeld.arg {ps : List Pkt} {st : List PState} (h : AllHeld z ps st) {a : PArg} (ha : constWF a) :
    Held z (a.pkt ps) (argState st a) := by
  cases a with
  | const v => exact ⟨rfl, ha⟩
  | var y => exact h.var y

theorem AllHeld.set {ps : List Pkt} {st : List PState} (h : AllHeld z ps st) {p : Pkt} {s : PState} (hp : Held z p s)
    (x : Nat) : AllHeld z (ps.set x p) (st.set x s) := by
  refine ⟨by simp [h.1], fun i h1 h2 => ?_⟩
  simp only [List.getElem_set]
  split
  · exact hp
  · exact h.2 i _ _

theorem AllHeld.push {ps : List Pkt} {st : List PState} (h : AllHeld z ps st) {p : Pkt} {s : PState} (hp : Held z p s) :
    AllHeld z (ps ++ [p]) (st ++ [s]) := by
  refine ⟨by simp [h.1], fun i h1 h2 => ?_⟩
  simp only [List.getElem_append, h.1]
  split
  · exact h.2 i _ _
  · simp only [List.getElem_singleton]; exact hp

theorem PRead.All.imp {α : Type} {P Q : α → Prop} {r : PRead α} (h : r.All P) (hi : ∀ a, P a → Q a) : r.All Q := by
  cases r <;> first | exact hi _ h | trivial

theorem PMut.All.imp {α : Type} {P Q : α → Prop} {r : PMut α} (h : r.All P) (hi : ∀ a, P a → Q a) : r.All Q := by
  cases r <;> first | exact hi _ h | exact ⟨hi _ h.1, hi _ h.2⟩ | trivial

theorem storeAt_held {ps : List Pkt} {st : List PState} (h : AllHeld z ps st) (x : Nat) {r : Res Pkt}
    {out : Except Exc PState} (ho : Outcome z r out) :
    ∃ ps' st' e, storeAt ps x r = some (ps', e) ∧ AllHeld z ps' st' ∧ Step.stored st' e st x out := by
  cases r with
  | ok p => cases out with
    | ok s => exact ⟨_, _, _, rfl, h.set ho x, rfl, rfl⟩
    | error e => exact ho.elim
  | throw e => cases out with
    | ok s => exact ho.elim
    | error e' => cases ho; exact ⟨_, _, _, rfl, h, rfl, rfl⟩
  | ub => exact ho.elim

theorem storeNew_held {ps : List Pkt} {st : List PState} (h : AllHeld z ps st) {r : Res Pkt}
    {out : Except Exc PState} (ho : Outcome z r out) :
    ∃ ps' st' e, storeNew ps r = some (ps', e) ∧ AllHeld z ps' st' ∧ Step.appended st' e st out := by
  cases r with
  | ok p => cases out with
    | ok s => exact ⟨_, _, _, rfl, h.push ho, rfl, rfl⟩
    | error e => exact ho.elim
  | throw e => cases out with
    | ok s => exact ho.elim
    | error e' => cases ho; exact ⟨_, _, _, rfl, h, rfl, rfl⟩
  | ub => exact ho.elim

theorem fromJson_held {fin : Bool} {sort : List (Bytes × Json) → List (Bytes × Json)} {fill : Nat → Bytes} {size : Nat}
    {j : Json} (h : ParseInput sort fill size j) (hx : z = true → fin = false) :
    ∃ out, ParseOk fin j out ∧ Outcome z (Pkt.fromJson fin sort fill size j) out := by
  obtain ⟨hs, hf, ⟨x, t, ht, rfl⟩, hl, hw, hd⟩ := h
  have hwf := toVal_wf ht hl hw hd
  have hm := means_toVal j hw
  have hlim := lim_of_moderate j hw
  cases fin with
  | true =>
    have hz : z = false := by cases z with | false => rfl | true => cases hx rfl
    subst hz
    cases j with
    | obj fs =>
      obtain ⟨b, h1, h2, _⟩ := fromJson_shows hs hf ht hl hw hd
      refine ⟨_, ⟨_, hm, rfl⟩, ?_⟩
      simp only [Pkt.fromJson, if_true, h1, Res.bind]
      exact ⟨rfl, h2⟩
    | _ => exact ⟨_, rfl, rfl⟩
  | false =>
    cases j with
    | obj fs =>
      refine ⟨_, ⟨_, hm, rfl⟩, ?_⟩
      simp only [Pkt.fromJson, toHeap_obj hlim, Res.bind]
      rw [Json.toVal] at hwf ⊢
      exact ⟨rfl, hwf⟩
    | arr fs =>
      refine ⟨_, ⟨_, hm, rfl⟩, ?_⟩
      simp only [Pkt.fromJson, toHeap_arr hlim, Res.bind]
      rw [Json.toVal] at hwf ⊢
      exact ⟨rfl, hwf⟩
    | num n =>
      refine ⟨.error .typeError, rfl, ?_⟩
      unfold Within at hw
      simp only [Pkt.fromJson, Json.toHeap, Json.events]
      rw [run_single, intEvent_step _ (by omega) (by omega)]
      rfl
    | _ => exact ⟨.error .typeError, rfl, rfl⟩

theorem packet_step_ok {signed : Bool} {ps : List Pkt} {st : List PState} (h : AllHeld z ps st) {op : POp} (hw : opWF z op) :
    ∃ ps' st' e, op.run signed ps = some (ps', e) ∧ AllHeld z ps' st' ∧ Step signed st op st' e := by
  cases op with
  | create a => exact ⟨_, _, _, rfl, h.push (h.arg hw), rfl, rfl⟩
  | mutate x m =>
    obtain ⟨out, h1, h2⟩ := mut_ok (h.var x) m (hw.imp fun a ha => h.arg ha)
    obtain ⟨ps', st', e, h3, h4, h5⟩ := storeAt_held h x h2
    exact ⟨ps', st', e, h3, h4, out, h1, h5⟩
  | finalize x =>
    obtain ⟨out, h1, h2⟩ := finalize_held (h.var x)
    obtain ⟨ps', st', e, h3, h4, h5⟩ := storeAt_held h x h2
    exact ⟨ps', st', e, h3, h4, out, h1, h5⟩
  | definalize x =>
    obtain ⟨ps', st', e, h3, h4, h5⟩ := storeAt_held h x (definalize_held (h.var x))
    exact ⟨ps', st', e, h3, h4, h5⟩
  | fromJson fin sort fill size j =>
    obtain ⟨out, h1, h2⟩ := fromJson_held (fin := fin) hw.1 hw.2
    obtain ⟨ps', st', e, h3, h4, h5⟩ := storeNew_held h h2
    exact ⟨ps', st', e, h3, h4, out, h1, h5⟩
  | read x r =>
    obtain ⟨out, h1, h2⟩ := read_ok (signed := signed) (h.var x) r (hw.imp fun a ha => h.arg ha)
    obtain ⟨ps', st', e, h3, h4, h5⟩ := storeNew_held h h2
    exact ⟨ps', st', e, h3, h4, out, h1, h5⟩

theorem packets_ok {signed : Bool} (ops : List POp) : ∀ {ps : List Pkt} {st : List PState}, AllHeld z ps st →
    (∀ op ∈ ops, opWF z op) →
    ∃ ps' st' es, runPackets signed ps ops = some (ps', es) ∧ AllHeld z ps' st' ∧ Steps signed st ops st' es := by
  induction ops with
  | nil => intro ps st h _; exact ⟨ps, st, [], rfl, h, rfl, rfl⟩
  | cons op ops ih =>
    intro ps st h hw
    obtain ⟨ps', st', e, h1, h2, h3⟩ := packet_step_ok (signed := signed) h (hw op (by simp))
    obtain ⟨ps2, st2, es, h4, h5, h6⟩ := ih h2 (fun o ho => hw o (by simp [ho]))
    exact ⟨ps2, st2, e :: es, by simp [runPackets, h1, h4], h5, st', e, es, h3, h6, rfl⟩

/-! ### Bytes -/

/-- The bytes of a finalized object are those of finalizing its value anew. -/
theorem Shows.getBytes {b : Buf} {fs : List (Bytes × Val)} (h : Shows z b (.obj fs)) :
    ∃ bs, b.getBytes = .ok bs ∧ Image z (.obj fs) bs := by
  obtain ⟨p, h1, h2, hat⟩ := h.obj
  have hs := h.sizeof
  have ht : b.getType = .object := by simp [Buf.getType, h1, RawType.simplify]
  simp only [Buf.sizeof, h1, h2] at hs
  obtain ⟨bs, hr, hi⟩ := hat.image
  refine ⟨bs, ?_, hi⟩
  simp only [Buf.getBytes, ht, if_true, h2, Res.ofRead, Res.bind, hs, hr]

theorem Reached.held {signed : Bool} {p : Pkt} (h : Reached signed z p) : ∃ s, Held z p s := by
  obtain ⟨ops, ps, es, hw, hr, hp⟩ := h
  obtain ⟨ps', st', es', h1, h2, _⟩ := packets_ok (signed := signed) ops (ps := []) (st := []) ⟨rfl, by simp⟩ hw
  rw [hr] at h1
  cases h1
  obtain ⟨i, hi, rfl⟩ := List.mem_iff_getElem.1 hp
  exact ⟨_, h2.2 i hi (h2.1 ▸ hi)⟩

theorem Reached.held_of {signed : Bool} {p : Pkt} (h : Reached signed z p) {v : Val} (hv : p.toHeap = .ok v) :
    Held z p ⟨p.isFinalized, v⟩ := by
  obtain ⟨⟨f, w⟩, h⟩ := Reached.held h
  obtain ⟨h1, h2⟩ := h.inState
  rw [hv] at h2
  cases h2
  rw [h1]
  exact h

theorem map_toHeap_bufs {bs : List Buf} {vs : List Val} (hl : bs.length = vs.length)
    (h : ∀ i (h1 : i < bs.length) (h2 : i < vs.length), Shows z bs[i] vs[i]) :
    (bs.map Pkt.buf).map Pkt.toHeap = vs.map .ok := by
  apply List.ext_getElem
  · simp [hl]
  · intro i h1 h2
    simp only [List.length_map] at h1 h2
    simp [Pkt.toHeap, (h i h1 h2).value, Res.ofRead]

theorem Held.values {p : Pkt} {s : PState} (h : Held z p s) : Contain p.values (contentsOf s.value) := by
  cases p with
  | heap v =>
    obtain ⟨rfl, _⟩ := h
    cases v with
    | obj fs => exact ⟨_, rfl, by simp [Pkt.toHeap]⟩
    | arr es => exact ⟨_, rfl, by simp [Pkt.toHeap]⟩
    | _ => rfl
  | buf b =>
    obtain ⟨f, v⟩ := s
    obtain ⟨rfl, h⟩ := h
    simp only at h
    have hs := h.size
    cases v with
    | obj fs =>
      obtain ⟨bs, h1, h2, h3⟩ := h.values_obj
      refine ⟨bs.map .buf, ?_, map_toHeap_bufs (by simp [h2]) fun i a b => by simpa using h3 i a (h2 ▸ a)⟩
      simp [Pkt.values, Pkt.size, Pkt.visit, hs, h1, Val.size, Res.bind]
    | arr fs =>
      obtain ⟨bs, h1, h2, h3⟩ := h.values_arr
      refine ⟨bs.map .buf, ?_, map_toHeap_bufs (by simp [h2]) fun i a b => h3 i a b⟩
      simp [Pkt.values, Pkt.size, Pkt.visit, hs, h1, Val.size, Res.bind]
    | str t =>
      have hn : b.aggregate = .throw .typeError := by
        have ht := h.getType
        unfold Buf.aggregate
        cases hb : b.type <;> simp only [Buf.getType, hb, RawType.simplify, Val.ty] at ht ⊢ <;> simp_all
      show _ = _
      simp [Pkt.values, Pkt.size, Pkt.visit, hs, Buf.values, hn, Val.size, Res.bind]
    | _ => show _ = _; simp [Pkt.values, Pkt.size, Pkt.visit, hs, Val.size, Res.bind]

theorem Held.keys {p : Pkt} {s : PState} (h : Held z p s) : Contain p.keys (keysOf s.value) := by
  cases p with
  | heap v =>
    obtain ⟨rfl, _⟩ := h
    cases v with
    | obj fs => exact ⟨_, rfl, by simp [Pkt.toHeap]⟩
    | _ => rfl
  | buf b =>
    obtain ⟨f, v⟩ := s
    obtain ⟨rfl, h⟩ := h
    simp only at h
    have hs := h.size
    cases v with
    | obj fs =>
      obtain ⟨bs, h1, h2, h3⟩ := h.keys
      refine ⟨bs.map .buf, ?_, map_toHeap_bufs (by simp [h2]) fun i a b => by simpa using h3 i a (h2 ▸ a)⟩
      simp [Pkt.keys, Pkt.size, Pkt.visit, hs, h1, Val.size, Res.bind]
    | str t =>
      have hn := buf_object_throw h (by simp)
      show _ = _
      simp [Pkt.keys, Pkt.size, Pkt.visit, hs, Buf.keys, hn, Val.size, Res.bind]
    | arr t =>
      have hn := buf_object_throw h (by simp)
      show _ = _
      simp [Pkt.keys, Pkt.size, Pkt.visit, hs, Buf.keys, hn, Val.size, Res.bind]
    | _ => show _ = _; simp [Pkt.keys, Pkt.size, Pkt.visit, hs, Val.size, Res.bind]

theorem Held.size {p : Pkt} {s : PState} (h : Held z p s) : p.size = s.value.size := by
  cases p with
  | heap v => obtain ⟨rfl, _⟩ := h; simp only [Pkt.size, Pkt.visit]; cases v.size <;> rfl
  | buf b => simp only [Pkt.size, Pkt.visit, Shows.size h.2]; cases s.value.size <;> rfl

theorem Held.decimal {p : Pkt} {s : PState} (h : Held z p s) : p.decimal = s.value.decimal := by
  cases p with
  | heap v => obtain ⟨rfl, _⟩ := h; simp only [Pkt.decimal, Pkt.visit]; cases v.decimal <;> rfl
  | buf b => simp only [Pkt.decimal, Pkt.visit, Shows.decimal h.2]; cases s.value.decimal <;> rfl

theorem Held.boolean {p : Pkt} {s : PState} (h : Held z p s) (hi : ∀ i, s.value ≠ .int i) (hd : ∀ d, s.value ≠ .dec d) :
    p.boolean = s.value.boolean := by
  cases p with
  | heap v => obtain ⟨rfl, _⟩ := h; simp only [Pkt.boolean, Pkt.visit]; cases v.boolean <;> rfl
  | buf b => simp only [Pkt.boolean, Pkt.visit, Shows.boolean h.2 hi hd]; cases s.value.boolean <;> rfl

theorem Held.hasKey {signed f : Bool} {p : Pkt} {fs : List (Bytes × Val)} (h : Held z p ⟨f, .obj fs⟩) (k : Bytes)
    (hk : ∀ f ∈ fs, PlainKey signed f.1) : p.hasKey signed k = .ok (lookup fs k).isSome := by
  cases p with
  | heap v =>
    obtain ⟨e, hv⟩ := h
    cases e
    rw [← mapFind_eq]
    rfl
  | buf b =>
    obtain ⟨r, h1, h2, _⟩ := Shows.found (signed := signed) h.2 k
    rcases h1 with rfl | ⟨_, ⟨f, hf, hn⟩, _⟩
    · simp [Pkt.hasKey, Pkt.visit, h2, Res.bind]
    · exact absurd (hk f hf) hn

end Dart
