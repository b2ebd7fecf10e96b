import Verif.Lemmas.ContainerMain
import Verif.Lemmas.Compare
import Verif.Spec.KeyAccess

namespace Dart
open Spec

variable {z : Bool}

/-! ### Optional access -/

theorem optionalAccess_no {α : Type} {g : Bool} {a : Res α} {d : α} (h : g = false) : optionalAccess g a d = .ok d := by
  simp [optionalAccess, h]

theorem optionalAccess_yes {α : Type} {g : Bool} {a : Res α} {d x : α} (h : g = true) (ha : a = .ok x) :
    optionalAccess g a d = .ok x := by
  simp [optionalAccess, h, ha]

theorem Held.numeric {p : Pkt} {s : PState} (h : Held z p s) : Typed.numeric p = s.value.numeric := by
  unfold Typed.numeric
  rw [h.getType, h.integer, h.decimal]
  cases s.value <;> rfl

/-! ### Keys -/

theorem Held.findKey {signed : Bool} {p : Pkt} {f : Bool} {fs : List (Bytes × Val)} (h : Held z p ⟨f, .obj fs⟩)
    (k : Bytes) : ∃ r q, Found signed f fs k r ∧ p.hasKey signed k = .ok r.isSome ∧
      PRead.run signed p (.get k) = .ok q ∧ Held z q ⟨f, r.getD .null⟩ := by
  cases p with
  | heap v =>
    obtain ⟨e, hw⟩ := h
    cases e
    refine ⟨lookup fs k, .heap ((lookup fs k).getD .null), .inl rfl, by rw [← mapFind_eq]; rfl, ?_, rfl, ?_⟩
    · simp [PRead.run, Pkt.visit, Val.get, Res.bind, mapFind_eq]
    · cases hl : lookup fs k with
      | none => trivial
      | some w => exact ((wf_obj.1 hw).2 _ (lookup_some_mem hl)).2
  | buf b =>
    obtain ⟨h1, h2⟩ := h
    cases h1
    obtain ⟨r, hr, hk, ⟨b', hg, hs⟩, _⟩ := Shows.found (signed := signed) h2 k
    exact ⟨r, .buf b', hr, by simp [Pkt.hasKey, Pkt.visit, hk, Res.bind], by simp [PRead.run, Pkt.visit, hg, Res.bind], rfl, hs⟩

theorem getBy_str {signed : Bool} {p k : Pkt} {t : PState} {s : Bytes} (hk : Held z k t) (e : t.value = .str s) :
    p.getBy signed k = PRead.run signed p (.get s) := by
  have h1 := hk.getType
  have h2 := hk.strv
  rw [e] at h1 h2
  simp only [Val.ty] at h1
  simp only [Pkt.getBy, PRead.run, Val.getBy, Buf.getBy, h1, h2, Val.strv, Res.bind_ok]

theorem getBy_int {signed : Bool} {p k : Pkt} {t : PState} {i : BitVec 64} (hk : Held z k t) (e : t.value = .int i) :
    p.getBy signed k = PRead.run signed p (.getIdx i.toNat) := by
  have h1 := hk.getType
  have h2 := hk.integer
  rw [e] at h1 h2
  simp only [Val.ty] at h1
  simp only [Pkt.getBy, PRead.run, Val.getBy, Buf.getBy, h1, h2, Val.integer, Res.bind_ok, asIndex]

theorem getBy_other {signed : Bool} {p k : Pkt} {t : PState} (hk : Held z k t) (h1 : ∀ s, t.value ≠ .str s)
    (h2 : ∀ i, t.value ≠ .int i) : p.getBy signed k = .throw .typeError := by
  have h := hk.getType
  cases e : t.value with
  | str s => exact absurd e (h1 s)
  | int i => exact absurd e (h2 i)
  | _ =>
    rw [e] at h
    simp only [Val.ty] at h
    cases p <;> simp only [Pkt.getBy, Pkt.visit, Val.getBy, Buf.getBy, h, Res.bind]

theorem read_throw {signed : Bool} {p : Pkt} {s : PState} (h : Held z p s) (r : PRead Pkt)
    (hr : (∃ k, r = .get k ∧ ∀ fs, s.value ≠ .obj fs) ∨ (∃ i, r = .getIdx i ∧ ∀ es, s.value ≠ .arr es)) :
    r.run signed p = .throw .typeError := by
  have hm : ∀ g : Pkt → Pkt, (∀ x, g x = x) → r.map g = r := by
    intro g _
    rcases hr with ⟨k, rfl, _⟩ | ⟨k, rfl, _⟩ <;> rfl
  obtain ⟨out, h1, h2⟩ := read_ok (signed := signed) (f := fun a : Pkt => a) (g := fun _ => ⟨false, .null⟩) h r
    (by rcases hr with ⟨k, rfl, _⟩ | ⟨k, rfl, _⟩ <;> trivial)
  rw [hm _ fun _ => rfl] at h2
  have : out = .error .typeError := by
    rcases hr with ⟨k, rfl, hn⟩ | ⟨k, rfl, hn⟩
    · simp only [PRead.map, ReadOk] at h1
      exact h1
    · simp only [PRead.map, ReadOk] at h1
      exact h1
  subst this
  cases hx : r.run signed p with
  | ok q => rw [hx] at h2; exact h2.elim
  | throw e => rw [hx] at h2; rw [show e = _ from h2]
  | ub => rw [hx] at h2; exact h2.elim

theorem Held.hasKey_throw {signed : Bool} {p : Pkt} {s : PState} (h : Held z p s) (hv : ∀ fs, s.value ≠ .obj fs)
    (k : Bytes) : p.hasKey signed k = .throw .typeError := by
  cases p with
  | heap v =>
    obtain ⟨e, _⟩ := h
    cases e
    cases v with
    | obj fs => exact absurd rfl (hv fs)
    | _ => rfl
  | buf b =>
    obtain ⟨_, h⟩ := h
    simp only [Pkt.hasKey, Pkt.visit, Buf.hasKey, buf_object_throw h hv, Res.bind]

/-- An index read as a signed number. -/
theorem idx_signed {es : List Val} (h : es.length < 2 ^ 63) (i : BitVec 64) :
    es[i.toNat]? = if 0 ≤ i.toInt then es[i.toInt.toNat]? else none := by
  have := i.isLt
  by_cases h0 : 2 * i.toNat < 2 ^ 64
  · have : i.toInt = i.toNat := by simp only [BitVec.toInt, if_pos h0]
    rw [this, if_pos (by omega), Int.toNat_natCast]
  · have : i.toInt = i.toNat - 2 ^ 64 := by simp only [BitVec.toInt, if_neg h0]; rfl
    rw [this, if_neg (by omega), List.getElem?_eq_none (by omega)]

/-- Everything about a lookup: the same `r` answers all calls. -/
structure ByKey (z signed : Bool) (p k : Pkt) (s t : PState) (r : Option Val) : Prop where
  found : AtKey signed s t.value r
  get : Matching s.value t.value = true → ∃ q, p.getBy signed k = .ok q ∧ Held z q ⟨s.finalized, r.getD .null⟩
  wrong : Matching s.value t.value = false → p.getBy signed k = .throw .typeError
  key : (∃ fs, s.value = .obj fs) → p.hasKeyBy signed k = .ok r.isSome
  inside : ∀ es i, s.value = .arr es → t.value = .int i → r.isSome = decide (es.length > i.toNat)

theorem byKey {signed : Bool} {p k : Pkt} {s t : PState} (hp : Held z p s) (hk : Held z k t) (ha : Addressable s.value) :
    ∃ r, ByKey z signed p k s t r := by
  obtain ⟨f, v⟩ := s
  have ht := hk.getType
  simp only at ha
  by_cases hs : ∃ b, t.value = .str b
  · obtain ⟨b, hs⟩ := hs
    have hg := getBy_str (signed := signed) (p := p) hk hs
    have ht' : k.getType = .string := by rw [ht, hs]; rfl
    have hb : k.strv = .ok b := by rw [hk.strv, hs]; rfl
    by_cases ho : ∃ fs, v = .obj fs
    · obtain ⟨fs, rfl⟩ := ho
      obtain ⟨r, q, h1, h2, h3, h4⟩ := hp.findKey (signed := signed) b
      refine ⟨r, ?_, fun _ => ⟨q, hg.trans h3, h4⟩, ?_, fun _ => ?_, ?_⟩
      · simp only [AtKey, hs]; exact h1
      · simp [Matching, hs]
      · simp only [Pkt.hasKeyBy, ht', if_true, hb, Res.bind_ok, h2]
      · intro es i h; cases h
    · have ho' : ∀ fs, v ≠ .obj fs := fun fs e => ho ⟨fs, e⟩
      refine ⟨none, ?_, ?_, fun _ => ?_, fun h => absurd h ho, ?_⟩
      · rw [hs]
        cases v <;> first | exact (rfl : (none : Option Val) = none) | exact absurd rfl (ho' _)
      · intro h
        rw [hs] at h
        cases v <;> first | (simp [Matching] at h; done) | exact absurd rfl (ho' _)
      · rw [hg]; exact read_throw hp _ (.inl ⟨b, rfl, ho'⟩)
      · intro es i _ h; rw [hs] at h; cases h
  by_cases hi : ∃ i, t.value = .int i
  · obtain ⟨i, hi⟩ := hi
    have hg := getBy_int (signed := signed) (p := p) hk hi
    have ht' : k.getType ≠ .string := by rw [ht, hi]; simp [Val.ty]
    by_cases ho : ∃ es, v = .arr es
    · obtain ⟨es, rfl⟩ := ho
      obtain ⟨q, h3, h4⟩ := hp.getIdx (signed := signed) i.toNat
      refine ⟨es[i.toNat]?, ?_, fun _ => ⟨q, hg.trans h3, h4⟩, ?_, ?_, ?_⟩
      · simp only [AtKey, hi]; exact idx_signed ha i
      · simp [Matching, hi]
      · rintro ⟨_, h⟩; cases h
      · intro es' j h1 h2
        cases h1
        rw [hi] at h2
        cases h2
        by_cases hlt : i.toNat < es.length
        · simp [hlt]
        · simp [hlt]
    · have ho' : ∀ fs, v ≠ .arr fs := fun fs e => ho ⟨fs, e⟩
      refine ⟨none, ?_, ?_, fun _ => ?_, ?_, ?_⟩
      · rw [hi]
        cases v <;> first | exact (rfl : (none : Option Val) = none) | exact absurd rfl (ho' _)
      · intro h
        rw [hi] at h
        cases v <;> first | (simp [Matching] at h; done) | exact absurd rfl (ho' _)
      · rw [hg]; exact read_throw hp _ (.inr ⟨_, rfl, ho'⟩)
      · intro _; simp [Pkt.hasKeyBy, ht']
      · intro es i h; exact absurd h (ho' es)
  · have hs' : ∀ b, t.value ≠ .str b := fun b e => hs ⟨b, e⟩
    have hi' : ∀ b, t.value ≠ .int b := fun b e => hi ⟨b, e⟩
    refine ⟨none, ?_, ?_, fun _ => getBy_other hk hs' hi', fun _ => ?_, ?_⟩
    · cases v <;> cases e : t.value <;> first | exact (rfl : (none : Option Val) = none) | exact absurd e (hs' _) | exact absurd e (hi' _)
    · intro h
      cases v <;> cases e : t.value <;> first | exact absurd e (hs' _) | exact absurd e (hi' _) | (simp [Matching, e] at h; done)
    · have : k.getType ≠ .string := by
        rw [ht]; cases e : t.value <;> first | exact absurd e (hs' _) | simp [Val.ty]
      simp [Pkt.hasKeyBy, this]
    · intro es i _ h; exact absurd h (hi' i)

/-! ### Conversions without undefined behaviour -/

theorem bind_ne_ub {α β : Type} {x : Res α} {f : α → Res β} (h : x ≠ .ub) (hf : ∀ a, x = .ok a → f a ≠ .ub) : x.bind f ≠ .ub := by
  cases x with
  | ok a => exact hf a rfl
  | throw e => intro h; cases h
  | ub => exact absurd rfl h

theorem castAll_ne_ub {α : Type} {f : Pkt → Res α} : ∀ {ps : List Pkt}, (∀ p ∈ ps, f p ≠ .ub) → castAll f ps ≠ .ub
  | [], _ => by intro h; cases h
  | p :: ps, h => by
    rw [castAll]
    exact bind_ne_ub (h p (by simp)) fun x _ => bind_ne_ub (castAll_ne_ub fun q hq => h q (by simp [hq])) fun _ _ h => nomatch h

theorem castFront_ne_ub {α : Type} {f : Pkt → Res α} : ∀ {ps : List Pkt} {acc : List α}, (∀ p ∈ ps, f p ≠ .ub) → castFront f acc ps ≠ .ub
  | [], _, _ => by intro h; cases h
  | p :: ps, _, h => by
    rw [castFront]
    exact bind_ne_ub (h p (by simp)) fun x _ => castFront_ne_ub fun q hq => h q (by simp [hq])

theorem scalar_ne_ub (s : NativeTy) (v : Val) : ((Pkt.heap v).toNative s).bind s.extract ≠ .ub := by
  cases s with
  | bool => cases v <;> simp [Pkt.toNative, Val.toNative, Val.getType, Val.boolean, Res.bind, NativeTy.extract]
  | _ => cases v <;> simp [Pkt.toNative, Val.toNative, Val.getType, Val.integer, Val.decimal, Val.strv, Res.bind, NativeTy.extract]

theorem emplaceFields_ne_ub {α : Type} {less : Bytes → Bytes → Bool} {f : Pkt → Res α} (hf : ∀ v, f (.heap v) ≠ .ub) :
    ∀ {fs : List (Bytes × Val)} {acc : List (Bytes × α)},
      emplaceFields less f acc (fs.map fun x => .heap (.str x.1)) (fs.map fun x => .heap x.2) ≠ .ub
  | [], _ => by intro h; cases h
  | (k, v) :: fs, _ => by
    simp only [List.map_cons, emplaceFields]
    exact bind_ne_ub (by intro h; cases h) fun _ _ => bind_ne_ub (hf v) fun _ _ => emplaceFields_ne_ub hf

theorem emplaceField_ne_ub {α : Type} {less : Bytes → Bytes → Bool} {f : Pkt → Res α} (hf : ∀ v, f (.heap v) ≠ .ub)
    (acc : List (Bytes × α)) (k : Bytes) (v : Val) : emplaceField less f acc k (.heap v) ≠ .ub := by
  unfold emplaceField
  split
  · rename_i h
    cases v with
    | arr es =>
      refine bind_ne_ub (by intro h; cases h) fun ps hp => bind_ne_ub (castAll_ne_ub fun p hq => ?_) fun _ _ h => nomatch h
      cases hp
      simp only [id_eq, List.mem_map] at hq
      obtain ⟨w, _, rfl⟩ := hq
      exact hf w
    | _ => cases h
  · exact bind_ne_ub (hf v) fun _ _ h => nomatch h

theorem emplaceGroups_ne_ub {α : Type} {less : Bytes → Bytes → Bool} {f : Pkt → Res α} (hf : ∀ v, f (.heap v) ≠ .ub) :
    ∀ {fs : List (Bytes × Val)} {acc : List (Bytes × α)},
      emplaceGroups less f acc (fs.map fun x => .heap (.str x.1)) (fs.map fun x => .heap x.2) ≠ .ub
  | [], _ => by intro h; cases h
  | (k, v) :: fs, _ => by
    simp only [List.map_cons, emplaceGroups]
    exact bind_ne_ub (by intro h; cases h) fun _ _ => bind_ne_ub (emplaceField_ne_ub hf _ _ _) fun _ _ => emplaceGroups_ne_ub hf

theorem heap_values (es : List Val) : (Pkt.heap (.arr es)).values = .ok (es.map .heap) := rfl

theorem heap_fields (fs : List (Bytes × Val)) : (Pkt.heap (.obj fs)).keys = .ok (fs.map fun x => .heap (.str x.1)) ∧
    (Pkt.heap (.obj fs)).values = .ok (fs.map fun x => .heap x.2) := by
  constructor
  · simp [Pkt.keys, Pkt.size, Pkt.visit, Val.size, Val.keys, Res.bind, Function.comp_def]
  · simp [Pkt.values, Pkt.size, Pkt.visit, Val.size, Val.values, Res.bind, Function.comp_def]

theorem heap_arr_type (es : List Val) : (Pkt.heap (.arr es)).getType = .array := rfl

theorem heap_obj_type (fs : List (Bytes × Val)) : (Pkt.heap (.obj fs)).getType = .object := rfl

mutual
theorem fromDart_ne_ub : ∀ (t : CTy) (v : Val), t.fromDart (.heap v) ≠ .ub
  | .scalar s, v => by rw [CTy.fromDart]; exact scalar_ne_ub s v
  | .seq t, .arr es => by
    rw [CTy.fromDart, if_pos (heap_arr_type es), heap_values]
    exact castAll_ne_ub fun p hp => by
      obtain ⟨w, _, rfl⟩ := List.mem_map.1 hp; exact fromDart_ne_ub t w
  | .fwd t, .arr es => by
    rw [CTy.fromDart, if_pos (heap_arr_type es), heap_values]
    exact castFront_ne_ub fun p hp => by
      obtain ⟨w, _, rfl⟩ := List.mem_map.1 (List.mem_reverse.1 hp); exact fromDart_ne_ub t w
  | .array t n, .arr es => by
    rw [CTy.fromDart, if_pos (heap_arr_type es)]
    refine bind_ne_ub (by intro h; cases h) fun m _ => ?_
    split
    · intro h; cases h
    · rw [heap_values]
      exact castAll_ne_ub fun p hp => by
        obtain ⟨w, _, rfl⟩ := List.mem_map.1 hp; exact fromDart_ne_ub t w
  | .map less t, .obj fs => by
    rw [CTy.fromDart, if_pos (heap_obj_type fs), (heap_fields fs).1, (heap_fields fs).2, Res.bind_ok]
    exact emplaceFields_ne_ub fun w => fromDart_ne_ub t w
  | .mmap less t, .obj fs => by
    rw [CTy.fromDart, if_pos (heap_obj_type fs), (heap_fields fs).1, (heap_fields fs).2, Res.bind_ok]
    exact emplaceGroups_ne_ub fun w => fromDart_ne_ub t w
  | .set s less, .arr es => by
    rw [CTy.fromDart, if_pos (heap_arr_type es), heap_values, Res.bind_ok]
    refine bind_ne_ub (castAll_ne_ub fun p hp => ?_) fun _ _ h => nomatch h
    obtain ⟨w, _, rfl⟩ := List.mem_map.1 hp; exact scalar_ne_ub s w
  | .mset s less, .arr es => by
    rw [CTy.fromDart, if_pos (heap_arr_type es), heap_values, Res.bind_ok]
    refine bind_ne_ub (castAll_ne_ub fun p hp => ?_) fun _ _ h => nomatch h
    obtain ⟨w, _, rfl⟩ := List.mem_map.1 hp; exact scalar_ne_ub s w
  | .opt t, v => by
    rw [CTy.fromDart]
    split
    · intro h; cases h
    · exact bind_ne_ub (fromDart_ne_ub t v) fun _ _ h => nomatch h
  | .pair a b, .arr es => by
    rw [CTy.fromDart, if_pos (heap_arr_type es)]
    refine bind_ne_ub (by intro h; cases h) fun m _ => ?_
    split
    · intro h; cases h
    · have hr : ∀ i, ∃ w, PRead.run true (.heap (.arr es)) (.getIdx i) = .ok (.heap w) := by
        intro i
        by_cases hi : i < es.length <;> simp [PRead.run, Pkt.visit, Val.getIdx, Res.bind, hi]
      obtain ⟨w0, h0⟩ := hr 0
      obtain ⟨w1, h1⟩ := hr 1
      rw [h0, Res.bind_ok]
      refine bind_ne_ub (fromDart_ne_ub a w0) fun _ _ => ?_
      rw [h1]
      exact bind_ne_ub (fun h => nomatch h) fun q hq => by
        cases hq; exact bind_ne_ub (fromDart_ne_ub b w1) fun _ _ h => nomatch h
  | .tuple ts, .arr es => by
    rw [CTy.fromDart, if_pos (heap_arr_type es)]
    refine bind_ne_ub (by intro h; cases h) fun m hm => ?_
    split
    · intro h; cases h
    · rename_i hn
      cases hm
      rw [heap_values]
      exact fromDarts_ne_ub ts es (Decidable.not_not.1 hn)
  | .variant ts, v => by rw [CTy.fromDart]; exact fromDartAlt_ne_ub ts v
  | .seq _, .null | .seq _, .bool _ | .seq _, .int _ | .seq _, .dec _ | .seq _, .str _ | .seq _, .obj _
  | .fwd _, .null | .fwd _, .bool _ | .fwd _, .int _ | .fwd _, .dec _ | .fwd _, .str _ | .fwd _, .obj _
  | .array _ _, .null | .array _ _, .bool _ | .array _ _, .int _ | .array _ _, .dec _ | .array _ _, .str _ | .array _ _, .obj _
  | .set _ _, .null | .set _ _, .bool _ | .set _ _, .int _ | .set _ _, .dec _ | .set _ _, .str _ | .set _ _, .obj _
  | .mset _ _, .null | .mset _ _, .bool _ | .mset _ _, .int _ | .mset _ _, .dec _ | .mset _ _, .str _ | .mset _ _, .obj _
  | .pair _ _, .null | .pair _ _, .bool _ | .pair _ _, .int _ | .pair _ _, .dec _ | .pair _ _, .str _ | .pair _ _, .obj _
  | .tuple _, .null | .tuple _, .bool _ | .tuple _, .int _ | .tuple _, .dec _ | .tuple _, .str _ | .tuple _, .obj _
  | .map _ _, .null | .map _ _, .bool _ | .map _ _, .int _ | .map _ _, .dec _ | .map _ _, .str _ | .map _ _, .arr _
  | .mmap _ _, .null | .mmap _ _, .bool _ | .mmap _ _, .int _ | .mmap _ _, .dec _ | .mmap _ _, .str _ | .mmap _ _, .arr _ => by
    rw [CTy.fromDart, if_neg (by simp [Pkt.getType, Val.getType])]; intro h; cases h
theorem fromDarts_ne_ub : ∀ (ts : CTys) (es : List Val), es.length = ts.length → ts.fromDarts (es.map .heap) ≠ .ub
  | .nil, _, _ => by rw [CTys.fromDarts]; intro h; cases h
  | .cons t ts, [], h => by simp [CTys.length] at h
  | .cons t ts, e :: es, h => by
    rw [List.map_cons, CTys.fromDarts]
    exact bind_ne_ub (fromDart_ne_ub t e) fun _ _ =>
      bind_ne_ub (fromDarts_ne_ub ts es (by simpa [CTys.length] using h)) fun _ _ h => nomatch h
theorem fromDartAlt_ne_ub : ∀ (ts : CTys) (v : Val), ts.fromDartAlt (.heap v) ≠ .ub
  | .nil, _ => by rw [CTys.fromDartAlt]; intro h; cases h
  | .cons t ts, v => by
    rw [CTys.fromDartAlt]
    have h := fromDart_ne_ub t v
    split
    · intro h; cases h
    · exact bind_ne_ub (fromDartAlt_ne_ub ts v) fun _ _ h => nomatch h
    · rename_i e; exact absurd e h
end

end Dart
