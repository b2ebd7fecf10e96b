import Verif.Lemmas.Search
import Verif.Spec.Derived

/-
Buffers derived from a finalized one: each stands for a value encoded in the memory.
-/
namespace Dart

variable {z : Bool}

/-- The buffer `b` stands for the value `v`; if `z` is set, with all padding zero. -/
def Shows (z : Bool) (b : Buf) (v : Val) : Prop :=
  (b.type = .null ∧ v = .null) ∨ ∃ p, b.type = v.rawType.forTable ∧ b.addr = some p ∧ At z b.mem p v

theorem identifyString_cases (s : Bytes) :
    (identifyString s).forTable = .bigString ∨ (identifyString s).forTable = .string := by
  unfold identifyString; split
  · simp [RawType.forTable]
  · split <;> simp [RawType.forTable]

theorem identifyInteger_cases (i : BitVec 64) :
    identifyInteger i = .longInteger ∨ identifyInteger i = .integer ∨ identifyInteger i = .shortInteger := by
  unfold identifyInteger; split
  · simp
  · split <;> simp

theorem identifyDecimal_cases (d : BitVec 64) :
    identifyDecimal d = .longDecimal ∨ identifyDecimal d = .decimal := by
  unfold identifyDecimal; split <;> simp

theorem rawType_simplify (v : Val) : v.rawType.forTable.simplify = v.ty := by
  cases v with
  | str s => rcases identifyString_cases s with h | h <;> simp [Val.rawType, h, RawType.simplify, Val.ty]
  | int i => rcases identifyInteger_cases i with h | h | h <;> simp [Val.rawType, h, RawType.simplify, Val.ty, RawType.forTable]
  | dec d => rcases identifyDecimal_cases d with h | h <;> simp [Val.rawType, h, RawType.simplify, Val.ty, RawType.forTable]
  | _ => rfl

/-- Keys are readable as strings. -/
theorem At.obj_key {m : Bytes} {p : Nat} {fs : List (Bytes × Val)} (h : At z m p (.obj fs)) (i : Nat)
    (hi : i < fs.length) : ∃ kp, loadKey m p i = some kp ∧ At z m kp (.str fs[i].1) ∧
      (Val.str fs[i].1).rawType.forTable = .string := by
  obtain ⟨h1, h8, hlen⟩ := h.obj_parts
  obtain ⟨hm, hz, ha, hw, hf⟩ := h
  obtain ⟨e1, e2⟩ := take_split fs i hi
  have hmem : fs[i] ∈ fs := List.getElem_mem hi
  generalize hkv : fs[i] = kv at e1 hmem ⊢
  obtain ⟨k, v⟩ := kv
  have hf' := hf
  simp only [Fits, fitsFields_iff] at hf'
  rw [e1] at hm hz hf
  obtain ⟨r1, _⟩ := obj_field_reads _ _ k v m p hm h8 hf
  rw [e2] at r1
  have h2 : 2 ∣ p := Nat.dvd_trans (by decide) h8
  have hk : k.length ≤ 65535 := (hf'.2 _ hmem).1
  have hid : (identifyString k = .string ∨ identifyString k = .smallString) := by
    unfold identifyString; rw [if_neg (by omega)]; split <;> simp
  refine ⟨_, r1, ⟨by simpa only [Stored] using hm.obj_parts.2.1, fun _ => by simpa only [enc] using hm.obj_parts.2.1, ?_, ?_, ?_⟩, ?_⟩
  · have : (Val.str k).rawType.align = 2 := by
      rcases hid with h | h <;> simp [Val.rawType, h, RawType.align]
    simp only [this]
    exact (Nat.dvd_add_right h2).2 (dvd_alignUp _ _)
  · simp only [Val.WF]; omega
  · simp only [Fits]; omega
  · rcases hid with h | h <;> simp [Val.rawType, h, RawType.forTable]

theorem Shows.getType {b : Buf} {v : Val} (h : Shows z b v) : b.getType = v.ty := by
  rcases h with ⟨h, rfl⟩ | ⟨p, h, _⟩
  · simp [Buf.getType, h, RawType.simplify, Val.ty]
  · rw [Buf.getType, h, rawType_simplify]

theorem Shows.value {b : Buf} {v : Val} (h : Shows z b v) : b.value = some v := by
  rcases h with ⟨h, rfl⟩ | ⟨p, h, ha, hat⟩
  · simp [Buf.value, h]
  · have hd := hat.decode (fuel := b.mem.length + 1) (by have := hat.size_le; omega)
    rw [← h] at hd
    unfold Buf.value
    rw [ha]
    cases hn : b.type <;> rw [hn] at hd <;> first
      | exact hd
      | simpa [Dart.decode] using hd

theorem Shows.obj {b : Buf} {fs : List (Bytes × Val)} (h : Shows z b (.obj fs)) :
    ∃ p, b.type = .object ∧ b.addr = some p ∧ At z b.mem p (.obj fs) := by
  rcases h with ⟨_, h⟩ | ⟨p, h, ha, hat⟩
  · cases h
  · exact ⟨p, h, ha, hat⟩

theorem Shows.arr {b : Buf} {es : List Val} (h : Shows z b (.arr es)) :
    ∃ p, b.type = .array ∧ b.addr = some p ∧ At z b.mem p (.arr es) := by
  rcases h with ⟨_, h⟩ | ⟨p, h, ha, hat⟩
  · cases h
  · exact ⟨p, h, ha, hat⟩

theorem Shows.object_call {b : Buf} {v : Val} (h : Shows z b v) :
    (∃ fs p, v = .obj fs ∧ b.object = .ok p ∧ At z b.mem p (.obj fs)) ∨
    ((∀ fs, v ≠ .obj fs) ∧ b.object = .throw .typeError) := by
  by_cases hv : ∃ fs, v = .obj fs
  · obtain ⟨fs, rfl⟩ := hv
    obtain ⟨p, h1, h2, h3⟩ := h.obj
    exact .inl ⟨fs, p, rfl, by simp [Buf.object, h1, h2, Res.ofRead], h3⟩
  · refine .inr ⟨fun fs e => hv ⟨fs, e⟩, ?_⟩
    have ht := h.getType
    unfold Buf.object
    split
    · rename_i ho
      simp only [Buf.getType, ho, RawType.simplify] at ht
      cases v <;> simp [Val.ty] at ht
      exact absurd ⟨_, rfl⟩ hv
    · rfl

theorem Shows.array_call {b : Buf} {v : Val} (h : Shows z b v) :
    (∃ es p, v = .arr es ∧ b.array = .ok p ∧ At z b.mem p (.arr es)) ∨
    ((∀ es, v ≠ .arr es) ∧ b.array = .throw .typeError) := by
  by_cases hv : ∃ es, v = .arr es
  · obtain ⟨es, rfl⟩ := hv
    obtain ⟨p, h1, h2, h3⟩ := h.arr
    exact .inl ⟨es, p, rfl, by simp [Buf.array, h1, h2, Res.ofRead], h3⟩
  · refine .inr ⟨fun es e => hv ⟨es, e⟩, ?_⟩
    have ht := h.getType
    unfold Buf.array
    split
    · rename_i ho
      simp only [Buf.getType, ho, RawType.simplify] at ht
      cases v <;> simp [Val.ty] at ht
      exact absurd ⟨_, rfl⟩ hv
    · rfl

theorem shows_null (b : Buf) (p : Option Nat) : Shows z (b.sub (.null, p)) .null := .inl ⟨rfl, rfl⟩

theorem shows_at {b : Buf} {p : Nat} {v : Val} (h : At z b.mem p v) :
    Shows z (b.sub (v.rawType.forTable, some p)) v := .inr ⟨p, rfl, rfl, h⟩

theorem shows_at' {b : Buf} {p : Nat} {v : Val} (h : At z b.mem p v) :
    Shows z (b.sub (v.rawType.forTable, if v.rawType.forTable = .null then none else some p)) v := by
  split
  · rename_i hn
    left
    refine ⟨hn, ?_⟩
    have := rawType_simplify v
    rw [hn] at this
    cases v <;> simp [RawType.simplify, Val.ty] at this
    rfl
  · exact shows_at h

/-- The outcome of the search on an encoded object. -/
theorem search_cases {signed : Bool} {m : Bytes} {p : Nat} {fs : List (Bytes × Val)} (hat : At z m p (.obj fs))
    (key : Bytes) :
    (getKey signed m p key = some none ∧ getValueImpl signed m p key = some none) ∨
    (∃ (i : Nat) (hi : i < fs.length) (t : RawType) (kp vp : Nat), fs[i].1 = key ∧ At z m vp fs[i].2 ∧
      getKey signed m p key = some (some (i, t, kp)) ∧ t = fs[i].2.rawType.forTable ∧ loadKey m p i = some kp ∧
      loadValue m p i = some (fs[i].2.rawType.forTable, vp) ∧
      getValueImpl signed m p key =
        some (some (fs[i].2.rawType.forTable, if fs[i].2.rawType.forTable = .null then none else some vp))) := by
  obtain ⟨r, hr⟩ := getKey_total (signed := signed) hat key
  cases r with
  | none => left; exact ⟨hr, by simp [getValueImpl, hr]⟩
  | some x =>
    obtain ⟨i, t, kp⟩ := x
    obtain ⟨hi, h2, h3, h3'⟩ := getKey_sound hat hr
    obtain ⟨hi, vp, h4, h5, h6, h7⟩ := getValueImpl_hit hat hr
    exact .inr ⟨i, hi, t, kp, vp, h4, h5, hr, h3, h3', h6, h7⟩

theorem collect_ok {α : Type} (f : Nat → Res α) (R : Nat → α → Prop) :
    ∀ n, (∀ i, i < n → ∃ a, f i = .ok a ∧ R i a) →
      ∃ l, Res.collect f n = .ok l ∧ l.length = n ∧ ∀ i (h : i < l.length), R i l[i] ∧ f i = .ok l[i] := by
  intro n
  induction n with
  | zero => intro _; exact ⟨[], rfl, rfl, by simp⟩
  | succ n ih =>
    intro h
    obtain ⟨l, h1, h2, h3⟩ := ih (fun i hi => h i (by omega))
    obtain ⟨a, ha, hR⟩ := h n (by omega)
    refine ⟨l ++ [a], by simp [Res.collect, h1, ha, Res.bind], by simp [h2], ?_⟩
    intro i hi
    simp only [List.length_append, List.length_cons, List.length_nil] at hi
    by_cases hl : i < l.length
    · rw [List.getElem_append_left hl]; exact h3 i hl
    · have : i = l.length := by omega
      subst this
      simp only [List.getElem_append_right (Nat.le_refl _), Nat.sub_self, List.getElem_cons_zero]
      rw [h2]; exact ⟨hR, ha⟩

theorem Shows.size_obj {b : Buf} {fs : List (Bytes × Val)} (h : Shows z b (.obj fs)) : b.size = .ok fs.length := by
  obtain ⟨p, h1, h2, h3⟩ := h.obj
  obtain ⟨h4, _⟩ := h3.obj_parts
  simp [Buf.size, h1, h2, Res.ofRead, Res.bind, h4]

theorem Shows.size_arr {b : Buf} {es : List Val} (h : Shows z b (.arr es)) : b.size = .ok es.length := by
  obtain ⟨p, h1, h2, h3⟩ := h.arr
  obtain ⟨h4, _⟩ := h3.arr_parts
  simp [Buf.size, h1, h2, Res.ofRead, Res.bind, h4]

theorem Shows.valueAt_obj {b : Buf} {fs : List (Bytes × Val)} (h : Shows z b (.obj fs)) (i : Nat)
    (hi : i < fs.length) : ∃ b', b.valueAt i = .ok b' ∧ Shows z b' fs[i].2 := by
  obtain ⟨p, h1, h2, h3⟩ := h.obj
  obtain ⟨kp, vp, r1, r2, r2', r3, r4, r5, r6, r7⟩ := h3.obj_field i hi
  exact ⟨_, by simp [Buf.valueAt, h1, h2, Res.ofRead, Res.bind, r6], shows_at r7⟩

theorem Shows.keyAt_obj {b : Buf} {fs : List (Bytes × Val)} (h : Shows z b (.obj fs)) (i : Nat)
    (hi : i < fs.length) : ∃ b', b.keyAt i = .ok b' ∧ Shows z b' (.str fs[i].1) := by
  obtain ⟨p, h1, h2, h3⟩ := h.obj
  obtain ⟨kp, k1, k2, k3⟩ := h3.obj_key i hi
  refine ⟨b.sub (.string, some kp), by simp [Buf.keyAt, Buf.object, h1, h2, Res.ofRead, Res.bind, k1], ?_⟩
  rw [← k3]; exact shows_at k2

theorem Shows.getIdx {b : Buf} {es : List Val} (h : Shows z b (.arr es)) (i : Nat) :
    ∃ b', b.getIdx i = .ok b' ∧ Shows z b' (es[i]?.getD .null) := by
  obtain ⟨p, h1, h2, h3⟩ := h.arr
  obtain ⟨h4, _⟩ := h3.arr_parts
  by_cases hi : i < es.length
  · obtain ⟨vp, r1, r2, r3⟩ := h3.arr_elem i hi
    refine ⟨_, by simp [Buf.getIdx, Buf.array, h1, h2, Res.ofRead, Res.bind, h4, hi, r2]; rfl, ?_⟩
    rw [List.getElem?_eq_getElem hi]
    exact shows_at r3
  · refine ⟨_, by simp [Buf.getIdx, Buf.array, h1, h2, Res.ofRead, Res.bind, h4, hi]; rfl, ?_⟩
    rw [List.getElem?_eq_none (by omega)]
    exact shows_null b none

theorem Shows.atIdx {b : Buf} {es : List Val} (h : Shows z b (.arr es)) (i : Nat) (hi : i < es.length) :
    ∃ b', b.atIdx i = .ok b' ∧ b.getIdx i = .ok b' ∧ Shows z b' es[i] := by
  obtain ⟨p, h1, h2, h3⟩ := h.arr
  obtain ⟨h4, _⟩ := h3.arr_parts
  obtain ⟨vp, r1, r2, r3⟩ := h3.arr_elem i hi
  exact ⟨_, by simp [Buf.atIdx, Buf.array, h1, h2, Res.ofRead, Res.bind, h4, hi, r2],
    by simp [Buf.getIdx, Buf.array, h1, h2, Res.ofRead, Res.bind, h4, hi, r2], shows_at r3⟩

theorem Shows.atIdx_throw {b : Buf} {es : List Val} (h : Shows z b (.arr es)) (i : Nat) (hi : es.length ≤ i) :
    b.atIdx i = .throw .outOfRange := by
  obtain ⟨p, h1, h2, h3⟩ := h.arr
  obtain ⟨h4, _⟩ := h3.arr_parts
  simp [Buf.atIdx, Buf.array, h1, h2, Res.ofRead, Res.bind, h4, Nat.not_lt.2 hi]

theorem Shows.front {b : Buf} {es : List Val} (h : Shows z b (.arr es)) :
    ∃ b', b.front = .ok b' ∧ Shows z b' (es.head?.getD .null) := by
  obtain ⟨p, h1, h2, h3⟩ := h.arr
  obtain ⟨b', h4, h5⟩ := h.getIdx 0
  have hs := h.size_arr
  by_cases h0 : es.length = 0
  · have : es = [] := List.length_eq_zero_iff.1 h0
    subst this
    exact ⟨b.sub (.null, none), by simp [Buf.front, Buf.array, h1, h2, Res.ofRead, Res.bind, hs], shows_null b none⟩
  · refine ⟨b', by simp [Buf.front, Buf.array, h1, h2, Res.ofRead, Res.bind, hs, h0]; exact h4, ?_⟩
    rw [List.head?_eq_getElem?]; exact h5

theorem Shows.back {b : Buf} {es : List Val} (h : Shows z b (.arr es)) :
    ∃ b', b.back = .ok b' ∧ Shows z b' (es.getLast?.getD .null) := by
  obtain ⟨p, h1, h2, h3⟩ := h.arr
  obtain ⟨b', h4, h5⟩ := h.getIdx (es.length - 1)
  have hs := h.size_arr
  by_cases h0 : es.length = 0
  · have : es = [] := List.length_eq_zero_iff.1 h0
    subst this
    exact ⟨b.sub (.null, none), by simp [Buf.back, Buf.array, h1, h2, Res.ofRead, Res.bind, hs], shows_null b none⟩
  · refine ⟨b', by simp [Buf.back, Buf.array, h1, h2, Res.ofRead, Res.bind, hs, h0]; exact h4, ?_⟩
    rw [List.getLast?_eq_getElem?]; exact h5

theorem Shows.get {signed : Bool} {b : Buf} {fs : List (Bytes × Val)} (h : Shows z b (.obj fs)) (key : Bytes) :
    (b.hasKey signed key = .ok false ∧ b.at signed key = .throw .outOfRange ∧
      ∃ b', b.get signed key = .ok b' ∧ Shows z b' .null) ∨
    (∃ (i : Nat) (hi : i < fs.length), fs[i].1 = key ∧ b.hasKey signed key = .ok true ∧
      ∃ b', b.get signed key = .ok b' ∧ b.at signed key = .ok b' ∧ Shows z b' fs[i].2) := by
  obtain ⟨p, h1, h2, h3⟩ := h.obj
  rcases search_cases (signed := signed) h3 key with ⟨g1, g2⟩ | ⟨i, hi, t, kp, vp, e, hat, g1, _, _, _, g2⟩
  · left
    exact ⟨by simp [Buf.hasKey, Buf.object, h1, h2, Res.ofRead, Res.bind, g1],
      by simp [Buf.at, Buf.object, h1, h2, Res.ofRead, Res.bind, g2],
      b.sub (.null, none), by simp [Buf.get, Buf.object, h1, h2, Res.ofRead, Res.bind, g2], shows_null b none⟩
  · right
    exact ⟨i, hi, e, by simp [Buf.hasKey, Buf.object, h1, h2, Res.ofRead, Res.bind, g1],
      _, by simp [Buf.get, Buf.object, h1, h2, Res.ofRead, Res.bind, g2],
      by simp [Buf.at, Buf.object, h1, h2, Res.ofRead, Res.bind, g2], shows_at' hat⟩

theorem Shows.values_obj {b : Buf} {fs : List (Bytes × Val)} (h : Shows z b (.obj fs)) :
    ∃ bs, b.values = .ok bs ∧ bs.length = fs.length ∧
      ∀ i (h1 : i < bs.length) (h2 : i < fs.length), Shows z bs[i] fs[i].2 := by
  obtain ⟨l, h1, h2, h3⟩ := collect_ok b.valueAt (fun i b' => ∀ h2 : i < fs.length, Shows z b' fs[i].2) fs.length
    (fun i hi => by obtain ⟨b', h1, h2⟩ := h.valueAt_obj i hi; exact ⟨b', h1, fun _ => h2⟩)
  obtain ⟨p, g1, g2, _⟩ := h.obj
  exact ⟨l, by simp [Buf.values, Buf.aggregate, g1, g2, Res.ofRead, h.size_obj, Res.bind, h1], h2, fun i a b => (h3 i a).1 b⟩

theorem Shows.values_arr {b : Buf} {es : List Val} (h : Shows z b (.arr es)) :
    ∃ bs, b.values = .ok bs ∧ bs.length = es.length ∧
      ∀ i (h1 : i < bs.length) (h2 : i < es.length), Shows z bs[i] es[i] := by
  obtain ⟨p, k1, k2, _⟩ := h.arr
  obtain ⟨l, h1, h2, h3⟩ := collect_ok b.valueAt (fun i b' => ∀ h2 : i < es.length, Shows z b' es[i]) es.length
    (fun i hi => by
      obtain ⟨b', g1, g2⟩ := h.getIdx i
      rw [List.getElem?_eq_getElem hi] at g2
      exact ⟨b', by simp [Buf.valueAt, k1, g1], fun _ => g2⟩)
  exact ⟨l, by simp [Buf.values, Buf.aggregate, k1, k2, Res.ofRead, h.size_arr, Res.bind, h1], h2, fun i a b => (h3 i a).1 b⟩

theorem Shows.keys {b : Buf} {fs : List (Bytes × Val)} (h : Shows z b (.obj fs)) :
    ∃ bs, b.keys = .ok bs ∧ bs.length = fs.length ∧
      ∀ i (h1 : i < bs.length) (h2 : i < fs.length), Shows z bs[i] (.str fs[i].1) := by
  obtain ⟨l, h1, h2, h3⟩ := collect_ok b.keyAt (fun i b' => ∀ h2 : i < fs.length, Shows z b' (.str fs[i].1)) fs.length
    (fun i hi => by obtain ⟨b', h1, h2⟩ := h.keyAt_obj i hi; exact ⟨b', h1, fun _ => h2⟩)
  obtain ⟨p, g1, g2, _⟩ := h.obj
  exact ⟨l, by simp [Buf.keys, Buf.object, g1, g2, Res.ofRead, h.size_obj, Res.bind, h1], h2, fun i a b => (h3 i a).1 b⟩

theorem Res.bind_eq_ok {α β : Type} {r : Res α} {f : α → Res β} {b : β} :
    r.bind f = .ok b ↔ ∃ a, r = .ok a ∧ f a = .ok b := by
  cases r <;> simp [Res.bind]

/-- `values` succeeds on aggregates only. -/
theorem Shows.values_inv {b : Buf} {v : Val} (h : Shows z b v) {bs : List Buf} (hv : b.values = .ok bs) :
    (∃ fs, v = .obj fs) ∨ (∃ es, v = .arr es) := by
  have ht := h.getType
  simp only [Buf.values, Res.bind_eq_ok] at hv
  obtain ⟨n, _, p, hp, _⟩ := hv
  unfold Buf.aggregate at hp
  split at hp
  · rename_i ho
    simp only [Buf.getType, ho, RawType.simplify] at ht
    cases v <;> simp [Val.ty] at ht
    exact .inl ⟨_, rfl⟩
  · rename_i ho
    simp only [Buf.getType, ho, RawType.simplify] at ht
    cases v <;> simp [Val.ty] at ht
    exact .inr ⟨_, rfl⟩
  · cases hp

theorem Shows.keys_inv {b : Buf} {v : Val} (h : Shows z b v) {bs : List Buf} (hv : b.keys = .ok bs) : ∃ fs, v = .obj fs := by
  rcases h.object_call with ⟨fs, p, h1, _⟩ | ⟨_, h1⟩
  · exact ⟨fs, h1⟩
  · simp only [Buf.keys, Res.bind_eq_ok] at hv
    obtain ⟨n, _, p, hp, _⟩ := hv
    rw [h1] at hp
    cases hp

theorem getIdx_mem {b b' : Buf} {i : Nat} (h : b.getIdx i = .ok b') : b'.mem = b.mem := by
  simp only [Buf.getIdx, Res.bind_eq_ok] at h
  obtain ⟨p, _, n, _, h⟩ := h
  split at h
  · simp only [Res.bind_eq_ok] at h
    obtain ⟨e, _, h⟩ := h
    cases h; rfl
  · cases h; rfl

theorem collect_mem {b : Buf} {f : Nat → Res Buf} (hf : ∀ i b', f i = .ok b' → b'.mem = b.mem) :
    ∀ n bs, Res.collect f n = .ok bs → ∀ b' ∈ bs, b'.mem = b.mem := by
  intro n
  induction n with
  | zero => intro bs h; simp only [Res.collect] at h; cases h; simp
  | succ n ih =>
    intro bs h
    simp only [Res.collect, Res.bind_eq_ok] at h
    obtain ⟨l, h1, a, h2, h3⟩ := h
    cases h3
    intro b' hb
    simp only [List.mem_append, List.mem_cons, List.not_mem_nil, or_false] at hb
    rcases hb with hb | rfl
    · exact ih l h1 b' hb
    · exact hf n _ h2

/-- Reading never changes the memory a buffer refers to. -/
theorem Derived.mem_eq {signed : Bool} {root b : Buf} (h : Derived signed root b) : b.mem = root.mem := by
  induction h with
  | root => rfl
  | get _ hb ih =>
    simp only [Buf.get, Res.bind_eq_ok] at hb
    obtain ⟨p, _, r, _, hb⟩ := hb
    split at hb <;> cases hb <;> exact ih
  | «at» _ hb ih =>
    simp only [Buf.at, Res.bind_eq_ok] at hb
    obtain ⟨p, _, r, _, hb⟩ := hb
    split at hb <;> cases hb; exact ih
  | getIdx _ hb ih => exact (getIdx_mem hb).trans ih
  | atIdx _ hb ih =>
    simp only [Buf.atIdx, Res.bind_eq_ok] at hb
    obtain ⟨p, _, n, _, hb⟩ := hb
    split at hb
    · simp only [Res.bind_eq_ok] at hb
      obtain ⟨e, _, hb⟩ := hb
      cases hb; exact ih
    · cases hb
  | front _ hb ih =>
    simp only [Buf.front, Res.bind_eq_ok] at hb
    obtain ⟨p, _, n, _, hb⟩ := hb
    split at hb
    · cases hb; exact ih
    · exact (getIdx_mem hb).trans ih
  | back _ hb ih =>
    simp only [Buf.back, Res.bind_eq_ok] at hb
    obtain ⟨p, _, n, _, hb⟩ := hb
    split at hb
    · cases hb; exact ih
    · exact (getIdx_mem hb).trans ih
  | values _ hb hmem ih =>
    simp only [Buf.values, Res.bind_eq_ok] at hb
    obtain ⟨n, _, _, _, hb⟩ := hb
    refine (collect_mem ?_ n _ hb _ hmem).trans ih
    intro i b' h
    unfold Buf.valueAt at h
    split at h
    · simp only [Res.bind_eq_ok] at h
      obtain ⟨p, _, e, _, h⟩ := h
      cases h; rfl
    · exact getIdx_mem h
    · cases h
  | keys _ hb hmem ih =>
    simp only [Buf.keys, Res.bind_eq_ok] at hb
    obtain ⟨n, _, _, _, hb⟩ := hb
    refine (collect_mem ?_ n _ hb _ hmem).trans ih
    intro i b' h
    simp only [Buf.keyAt, Res.bind_eq_ok] at h
    obtain ⟨p, _, e, _, h⟩ := h
    cases h; rfl

/-- Every buffer a client can obtain stands for a value. -/
theorem Derived.shows {signed : Bool} {root b : Buf} {v : Val} (hr : Shows z root v) (h : Derived signed root b) :
    ∃ w, Shows z b w := by
  induction h with
  | root => exact ⟨v, hr⟩
  | get _ hb ih =>
    obtain ⟨w, hw⟩ := ih
    rcases hw.object_call with ⟨fs, p, rfl, ho, hat⟩ | ⟨_, h1⟩
    · rcases hw.get (signed := signed) _ with ⟨_, _, b', g, hs⟩ | ⟨i, hi, _, _, b', g, _, hs⟩
      · rw [hb] at g; cases g; exact ⟨_, hs⟩
      · rw [hb] at g; cases g; exact ⟨_, hs⟩
    · rw [Buf.get, h1] at hb; cases hb
  | «at» _ hb ih =>
    obtain ⟨w, hw⟩ := ih
    rcases hw.object_call with ⟨fs, p, rfl, ho, hat⟩ | ⟨_, h1⟩
    · rcases hw.get (signed := signed) _ with ⟨_, g, _⟩ | ⟨i, hi, _, _, b', _, g, hs⟩
      · rw [hb] at g; cases g
      · rw [hb] at g; cases g; exact ⟨_, hs⟩
    · rw [Buf.at, h1] at hb; cases hb
  | getIdx _ hb ih =>
    obtain ⟨w, hw⟩ := ih
    rcases hw.array_call with ⟨es, p, rfl, ho, hat⟩ | ⟨_, h1⟩
    · obtain ⟨b', g, hs⟩ := hw.getIdx _
      rw [hb] at g; cases g
      exact ⟨_, hs⟩
    · rw [Buf.getIdx, h1] at hb; cases hb
  | @atIdx _ _ i _ hb ih =>
    obtain ⟨w, hw⟩ := ih
    rcases hw.array_call with ⟨es, p, rfl, ho, hat⟩ | ⟨_, h1⟩
    · by_cases hi : i < es.length
      · obtain ⟨b', g, g', hs⟩ := hw.atIdx i hi
        rw [hb] at g; cases g
        exact ⟨_, hs⟩
      · rw [hw.atIdx_throw i (by omega)] at hb; cases hb
    · rw [Buf.atIdx, h1] at hb; cases hb
  | front _ hb ih =>
    obtain ⟨w, hw⟩ := ih
    rcases hw.array_call with ⟨es, p, rfl, ho, hat⟩ | ⟨_, h1⟩
    · obtain ⟨b', g, hs⟩ := hw.front
      rw [hb] at g; cases g
      exact ⟨_, hs⟩
    · rw [Buf.front, h1] at hb; cases hb
  | back _ hb ih =>
    obtain ⟨w, hw⟩ := ih
    rcases hw.array_call with ⟨es, p, rfl, ho, hat⟩ | ⟨_, h1⟩
    · obtain ⟨b', g, hs⟩ := hw.back
      rw [hb] at g; cases g
      exact ⟨_, hs⟩
    · rw [Buf.back, h1] at hb; cases hb
  | values _ hb hmem ih =>
    obtain ⟨w, hw⟩ := ih
    obtain ⟨i, hi, rfl⟩ := List.mem_iff_getElem.1 hmem
    rcases hw.values_inv hb with ⟨fs, rfl⟩ | ⟨es, rfl⟩
    · obtain ⟨bs, g, hl, hs⟩ := hw.values_obj
      rw [hb] at g; cases g
      exact ⟨_, hs i hi (by omega)⟩
    · obtain ⟨bs, g, hl, hs⟩ := hw.values_arr
      rw [hb] at g; cases g
      exact ⟨_, hs i hi (by omega)⟩
  | keys _ hb hmem ih =>
    obtain ⟨w, hw⟩ := ih
    obtain ⟨i, hi, rfl⟩ := List.mem_iff_getElem.1 hmem
    obtain ⟨fs, rfl⟩ := hw.keys_inv hb
    obtain ⟨bs, g, hl, hs⟩ := hw.keys
    rw [hb] at g; cases g
    exact ⟨_, hs i hi (by omega)⟩

theorem Shows.forget {b : Buf} {v : Val} (h : Shows z b v) : Shows false b v := by
  rcases h with h | ⟨p, h1, h2, h3⟩
  · exact .inl h
  · exact .inr ⟨p, h1, h2, h3.forget⟩

theorem Shows.weaken {b : Buf} {v : Val} (h : Shows true b v) : Shows z b v := by
  cases z
  · exact h.forget
  · exact h

theorem shows_root {v : Val} {m : Bytes} (hw : v.WF) (h : finalize v = .ok m) : Shows true (Buf.ofBytes m) v := by
  have hr := At.root hw h
  obtain ⟨fs, n, rfl, _⟩ := finalize_eq_ok hw h
  exact .inr ⟨0, rfl, rfl, hr⟩

end Dart
