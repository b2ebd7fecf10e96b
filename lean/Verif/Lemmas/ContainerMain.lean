import Verif.Lemmas.ContainerOut

/-
Container conversions: what they give, and that they can be undone.
-/
namespace Dart
open Spec

variable {z : Bool}

/-! ### To packets -/

theorem scalar_toDart {s : NativeTy} {x : s.type} (h : FitScalar s x) :
    (s.inject x).toDart.WF ∧ StandsScalar s x (s.inject x).toDart := by
  cases s with
  | str => exact ⟨h, rfl⟩
  | _ => exact ⟨trivial, rfl⟩

theorem each_wf {α : Type} {P : α → Val → Prop} {xs : List α} {es : List Val} (h : Each (fun x v => v.WF ∧ P x v) xs es) :
    (Val.arr es).WF ∧ Each P xs es := by
  refine ⟨?_, h.imp fun _ _ _ _ h => h.2⟩
  rw [wf_arr]
  intro v hv
  obtain ⟨x, _, h⟩ := h.mem_right hv
  exact h.1

mutual
theorem toDart_ok : ∀ (t : CTy) (x : t.type), Fit t x → OrdersIn t → ∃ v, t.toDart x = .ok v ∧ v.WF ∧ Stands t x v
  | .scalar s, x, h, _ => by
    rw [Fit] at h
    obtain ⟨h1, h2⟩ := scalar_toDart h
    exact ⟨_, by rw [CTy.toDart], h1, by rw [Stands]; exact h2⟩
  | .seq t, (xs : List t.type), h, ho => by
    replace h : xs.length ≤ 2 ^ 58 ∧ ∀ x ∈ xs, Fit t x := h
    rw [OrdersIn] at ho
    obtain ⟨es, h1, h2⟩ := pushAll_ok (f := t.toDart) (P := fun x v => v.WF ∧ Stands t x v) (xs := xs) (es := [])
      (fun x hx => toDart_ok t x (h.2 x hx) ho) (by simpa using h.1)
    obtain ⟨h2, h3⟩ := each_wf h2
    exact ⟨.arr es, h1, h2, ⟨es, rfl, h3⟩⟩
  | .fwd t, (xs : List t.type), h, ho => by
    replace h : xs.length ≤ 2 ^ 58 ∧ ∀ x ∈ xs, Fit t x := h
    rw [OrdersIn] at ho
    obtain ⟨es, h1, h2⟩ := pushAll_ok (f := t.toDart) (P := fun x v => v.WF ∧ Stands t x v) (xs := xs) (es := [])
      (fun x hx => toDart_ok t x (h.2 x hx) ho) (by simpa using h.1)
    obtain ⟨h2, h3⟩ := each_wf h2
    exact ⟨.arr es, h1, h2, ⟨es, rfl, h3⟩⟩
  | .array t n, (xs : List t.type), h, ho => by
    replace h : xs.length = n ∧ n ≤ 2 ^ 58 ∧ ∀ x ∈ xs, Fit t x := h
    rw [OrdersIn] at ho
    obtain ⟨es, h1, h2⟩ := pushAll_ok (f := t.toDart) (P := fun x v => v.WF ∧ Stands t x v) (xs := xs) (es := [])
      (fun x hx => toDart_ok t x (h.2.2 x hx) ho) (by have := h.1; have := h.2.1; simp; omega)
    obtain ⟨h2, h3⟩ := each_wf h2
    exact ⟨.arr es, h1, h2, ⟨es, rfl, h3⟩⟩
  | .map less t, (m : List (Bytes × t.type)), h, ho => by
    replace h : m.Pairwise (fun a b => less a.1 b.1 = true) ∧ ∀ e ∈ m, e.1.length ≤ 65535 ∧ Fit t e.2 := h
    rw [OrdersIn] at ho
    obtain ⟨fs, h1, h2, h3, h4, _⟩ := addAll_ok (f := t.toDart) (P := Stands t) (m := m) (fs := [])
      (fun e he => ⟨(h.2 e he).1, toDart_ok t e.2 (h.2 e he).2 ho.2⟩) (h.1.imp fun h => ho.1.ne h)
      (wf_obj.2 ⟨by simp [Sorted], by simp⟩) (by simp)
    refine ⟨.obj fs, h1, h2, ?_⟩
    refine ⟨fs, rfl, h3, fun k w hw => ?_⟩
    rcases h4 k w hw with h | ⟨x, hx, _⟩
    · simp at h
    · exact ⟨x, hx⟩
  | .mmap less t, (m : List (Bytes × t.type)), h, ho => by
    replace h : m.length ≤ 2 ^ 58 ∧ m.Pairwise (fun a b => less b.1 a.1 = false) ∧
      ∀ e ∈ m, e.1.length ≤ 65535 ∧ Fit t e.2 := h
    rw [OrdersIn] at ho
    obtain ⟨acc, h1, h2, h3, h4⟩ := accumAll_ok ho.1 (f := t.toDart) (P := fun x v => v.WF ∧ Stands t x v) (m := m) (m₀ := []) (acc := [])
      (fun e he => toDart_ok t e.2 (h.2.2 e he).2 ho.2) (by simpa using h.1) ⟨by simp, by simp, by simp⟩
    simp only [List.nil_append] at h3 h4
    have hk : ∀ e ∈ acc, e.1.length ≤ 65535 := by
      rintro ⟨k, w⟩ he
      obtain ⟨es, rfl, hn, hes⟩ := h3 k w he
      obtain ⟨e, he⟩ := List.exists_mem_of_ne_nil es hn
      obtain ⟨x, hx, _⟩ := hes.mem_right he
      exact (h.2.2 _ (mem_valuesAt.1 hx)).1
    obtain ⟨fs, g1, g2, g3, g4, _⟩ := addAll_ok (f := Res.ok) (P := Eq) (m := acc) (fs := [])
      (fun e he => ⟨hk e he, e.2, rfl, by
        obtain ⟨k, w⟩ := e
        obtain ⟨es, rfl, hn, hes⟩ := h3 k w he
        exact (each_wf hes).1, rfl⟩) (h2.imp fun h => ho.1.ne h)
      (wf_obj.2 ⟨by simp [Sorted], by simp⟩) (by simp)
    refine ⟨.obj fs, ?_, g2, ?_⟩
    · change ((accumAll less t.toDart [] m).bind fun acc => addAll .ok (.obj []) acc) = _
      rw [h1]
      exact g1
    refine ⟨fs, rfl, fun k w hw => ?_, fun k x hx => ?_⟩
    · rcases g4 k w hw with h | ⟨x, hx, rfl⟩
      · simp at h
      · obtain ⟨es, rfl, hn, hes⟩ := h3 _ _ hx
        exact ⟨es, rfl, hn, (each_wf hes).2⟩
    · obtain ⟨w, hw⟩ := h4 k x hx
      obtain ⟨w', hw', _⟩ := g3 k w hw
      exact ⟨w', hw'⟩
  | .set s less, (xs : List s.type), h, _ => by
    replace h : xs.length ≤ 2 ^ 58 ∧ xs.Pairwise (fun a b => less a b = true) ∧ ∀ x ∈ xs, FitScalar s x := h
    obtain ⟨es, h1, h2⟩ := pushAll_ok (f := fun x => .ok (s.inject x).toDart) (P := fun x v => v.WF ∧ StandsScalar s x v) (xs := xs) (es := [])
      (fun x hx => ⟨_, rfl, scalar_toDart (h.2.2 x hx)⟩) (by simpa using h.1)
    obtain ⟨h2, h3⟩ := each_wf h2
    exact ⟨.arr es, h1, h2, ⟨es, rfl, h3⟩⟩
  | .mset s less, (xs : List s.type), h, _ => by
    replace h : xs.length ≤ 2 ^ 58 ∧ xs.Pairwise (fun a b => less b a = false) ∧ ∀ x ∈ xs, FitScalar s x := h
    obtain ⟨es, h1, h2⟩ := pushAll_ok (f := fun x => .ok (s.inject x).toDart) (P := fun x v => v.WF ∧ StandsScalar s x v) (xs := xs) (es := [])
      (fun x hx => ⟨_, rfl, scalar_toDart (h.2.2 x hx)⟩) (by simpa using h.1)
    obtain ⟨h2, h3⟩ := each_wf h2
    exact ⟨.arr es, h1, h2, ⟨es, rfl, h3⟩⟩
  | .opt t, none, _, _ => ⟨.null, by rw [CTy.toDart], trivial, by rw [Stands]⟩
  | .opt t, some x, h, ho => by
    rw [Fit] at h
    rw [OrdersIn] at ho
    rw [CTy.toDart]
    obtain ⟨v, h1, h2, h3⟩ := toDart_ok t x h ho
    exact ⟨v, h1, h2, by rw [Stands]; exact h3⟩
  | .pair a b, (x, y), h, ho => by
    rw [Fit] at h
    rw [OrdersIn] at ho
    obtain ⟨v, h1, h2, h3⟩ := toDart_ok a x h.1 ho.1
    obtain ⟨w, g1, g2, g3⟩ := toDart_ok b y h.2 ho.2
    refine ⟨.arr [v, w], ?_, by rw [wf_arr]; simp [h2, g2], by rw [Stands]; exact ⟨v, w, rfl, h3, g3⟩⟩
    rw [CTy.toDart, h1, Res.bind_ok, g1, Res.bind_ok, makeArray_ok (by simp)]
  | .tuple ts, xs, h, ho => by
    rw [Fit] at h
    rw [OrdersIn] at ho
    obtain ⟨vs, h1, h2, h3, h4⟩ := toDarts_ok ts xs h.2 ho
    refine ⟨.arr vs, ?_, wf_arr.2 h2, by rw [Stands]; exact ⟨vs, rfl, h3⟩⟩
    rw [CTy.toDart, h1, Res.bind_ok, makeArray_ok (by have := h.1; omega)]
  | .variant ts, x, h, ho => by
    rw [Fit] at h
    rw [OrdersIn] at ho
    rw [CTy.toDart]
    obtain ⟨v, h1, h2, h3⟩ := toDartAlt_ok ts x h ho
    exact ⟨v, h1, h2, by rw [Stands]; exact h3⟩
theorem toDarts_ok : ∀ (ts : CTys) (xs : ts.prod), FitAll ts xs → OrdersInAll ts →
    ∃ vs, ts.toDarts xs = .ok vs ∧ (∀ v ∈ vs, v.WF) ∧ StandsAll ts xs vs ∧ vs.length = ts.length
  | .nil, _, _, _ => ⟨[], by rw [CTys.toDarts], by simp, by rw [StandsAll], rfl⟩
  | .cons t ts, (x, xs), h, ho => by
    rw [FitAll] at h
    rw [OrdersInAll] at ho
    obtain ⟨v, h1, h2, h3⟩ := toDart_ok t x h.1 ho.1
    obtain ⟨vs, g1, g2, g3, g4⟩ := toDarts_ok ts xs h.2 ho.2
    refine ⟨v :: vs, ?_, by simpa using ⟨h2, g2⟩, by rw [StandsAll]; exact ⟨h3, g3⟩, by simp [CTys.length, g4]⟩
    rw [CTys.toDarts, h1, Res.bind_ok, g1, Res.bind_ok]
theorem toDartAlt_ok : ∀ (ts : CTys) (x : ts.sum), FitAlt ts x → OrdersInAll ts →
    ∃ v, ts.toDartAlt x = .ok v ∧ v.WF ∧ StandsAlt ts x v
  | .nil, x, _, _ => nomatch x
  | .cons t _, .inl x, h, ho => by
    rw [FitAlt] at h
    rw [OrdersInAll] at ho
    rw [CTys.toDartAlt]
    obtain ⟨v, h1, h2, h3⟩ := toDart_ok t x h ho.1
    exact ⟨v, h1, h2, by rw [StandsAlt]; exact h3⟩
  | .cons _ ts, .inr x, h, ho => by
    rw [FitAlt] at h
    rw [OrdersInAll] at ho
    rw [CTys.toDartAlt]
    obtain ⟨v, h1, h2, h3⟩ := toDartAlt_ok ts x h ho.2
    exact ⟨v, h1, h2, by rw [StandsAlt]; exact h3⟩
end

/-! ### What values stand for -/

theorem givesScalar_ok {s : NativeTy} {x : s.type} {v : Val} (h : StandsScalar s x v) : givesScalar s v.ty = true := by
  cases s <;> (rw [StandsScalar] at h; subst h; simp [givesScalar, Val.ty])

mutual
theorem gives_ok : ∀ (t : CTy) (x : t.type) (v : Val), Stands t x v → gives t v.ty = true
  | .scalar s, x, v, h => by rw [Stands] at h; rw [gives]; exact givesScalar_ok h
  | .seq t, x, v, h => by obtain ⟨es, rfl, _⟩ := h; simp [gives, Val.ty]
  | .fwd t, x, v, h => by obtain ⟨es, rfl, _⟩ := h; simp [gives, Val.ty]
  | .array t _, x, v, h => by obtain ⟨es, rfl, _⟩ := h; simp [gives, Val.ty]
  | .map _ t, x, v, h => by obtain ⟨es, rfl, _⟩ := h; simp [gives, Val.ty]
  | .mmap _ t, x, v, h => by obtain ⟨es, rfl, _⟩ := h; simp [gives, Val.ty]
  | .set _ t, x, v, h => by obtain ⟨es, rfl, _⟩ := h; simp [gives, Val.ty]
  | .mset _ t, x, v, h => by obtain ⟨es, rfl, _⟩ := h; simp [gives, Val.ty]
  | .opt t, none, v, h => by rw [Stands] at h; subst h; simp [gives, Val.ty]
  | .opt t, some x, v, h => by rw [Stands] at h; simp [gives, gives_ok t x v h]
  | .pair a b, (x, y), v, h => by rw [Stands] at h; obtain ⟨es, _, rfl, _⟩ := h; simp [gives, Val.ty]
  | .tuple ts, x, v, h => by rw [Stands] at h; obtain ⟨es, rfl, _⟩ := h; simp [gives, Val.ty]
  | .variant ts, x, v, h => by rw [Stands] at h; rw [gives]; exact givesAny_ok ts x v h
theorem givesAny_ok : ∀ (ts : CTys) (x : ts.sum) (v : Val), StandsAlt ts x v → givesAny ts v.ty = true
  | .nil, x, _, _ => nomatch x
  | .cons t _, .inl x, v, h => by rw [StandsAlt] at h; simp [givesAny, gives_ok t x v h]
  | .cons _ ts, .inr x, v, h => by rw [StandsAlt] at h; simp [givesAny, givesAny_ok ts x v h]
end

/-! ### Packets of the wrong type -/

mutual
theorem fromDart_takes : ∀ (t : CTy) {f : Bool} {p : Pkt} {v : Val}, Held z p ⟨f, v⟩ → takes t v.ty = false →
    t.fromDart p = .throw .typeError
  | .scalar s, f, p, v, hp, h => by
    rw [CTy.fromDart, hp.toNative]
    cases s <;> cases v <;> simp_all [takes, givesScalar, Val.ty, Val.toNative, Val.getType, Val.strv, Res.bind]
  | .seq t, f, p, v, hp, h => by
    rw [CTy.fromDart, hp.getType, if_neg (by simpa [takes, gives] using h)]
  | .fwd t, f, p, v, hp, h => by
    rw [CTy.fromDart, hp.getType, if_neg (by simpa [takes, gives] using h)]
  | .array t _, f, p, v, hp, h => by
    rw [CTy.fromDart, hp.getType, if_neg (by simpa [takes, gives] using h)]
  | .map _ t, f, p, v, hp, h => by
    rw [CTy.fromDart, hp.getType, if_neg (by simpa [takes, gives] using h)]
  | .mmap _ t, f, p, v, hp, h => by
    rw [CTy.fromDart, hp.getType, if_neg (by simpa [takes, gives] using h)]
  | .set _ _, f, p, v, hp, h => by
    rw [CTy.fromDart, hp.getType, if_neg (by simpa [takes, gives] using h)]
  | .mset _ _, f, p, v, hp, h => by
    rw [CTy.fromDart, hp.getType, if_neg (by simpa [takes, gives] using h)]
  | .opt t, f, p, v, hp, h => by
    simp only [takes, Bool.or_eq_false_iff, decide_eq_false_iff_not] at h
    rw [CTy.fromDart, hp.getType, if_neg h.1, fromDart_takes t hp h.2]; rfl
  | .pair _ _, f, p, v, hp, h => by
    rw [CTy.fromDart, hp.getType, if_neg (by simpa [takes, gives] using h)]
  | .tuple _, f, p, v, hp, h => by
    rw [CTy.fromDart, hp.getType, if_neg (by simpa [takes, gives] using h)]
  | .variant ts, f, p, v, hp, h => by
    rw [takes] at h
    exact fromDartAlt_takes ts hp h
theorem fromDartAlt_takes : ∀ (ts : CTys) {f : Bool} {p : Pkt} {v : Val}, Held z p ⟨f, v⟩ → takesAny ts v.ty = false →
    ts.fromDartAlt p = .throw .typeError
  | .nil, _, _, _, _, _ => by rw [CTys.fromDartAlt]
  | .cons t ts, f, p, v, hp, h => by
    simp only [takesAny, Bool.or_eq_false_iff] at h
    rw [CTys.fromDartAlt, fromDart_takes t hp h.1, fromDartAlt_takes ts hp h.2]
    rfl
end

/-! ### And back -/

theorem Held.isArr {f : Bool} {p : Pkt} {es : List Val} (h : Held z p ⟨f, .arr es⟩) : p.getType = .array := h.getType
theorem Held.isObj {f : Bool} {p : Pkt} {fs : List (Bytes × Val)} (h : Held z p ⟨f, .obj fs⟩) : p.getType = .object := h.getType
theorem Held.isNull {f : Bool} {p : Pkt} (h : Held z p ⟨f, .null⟩) : p.getType = .null := h.getType

theorem scalar_fromDart {s : NativeTy} {x : s.type} {v : Val} {p : Pkt} {f : Bool} (h : FitScalar s x) (hs : StandsScalar s x v)
    (hp : Held z p ⟨f, v⟩) : (p.toNative s).bind s.extract = .ok x := by
  rw [hp.toNative]
  cases s with
  | null => cases hs; rfl
  | int t =>
    rw [StandsScalar] at hs
    subst hs
    replace h : 1 ≤ t.bits ∧ t.bits ≤ 64 ∧ InRange t x := h
    change Int at x
    have : t.wrap ((BitVec.ofInt 64 x).toInt) = x := by
      rw [BitVec.toInt_ofInt, wrap_wrap64 h.2.1, wrap_inRange h.1 h.2.2]
    change (Res.ok (t.wrap (BitVec.ofInt 64 x).toInt) : Res Int) = .ok x
    rw [this]
  | _ =>
    rw [StandsScalar] at hs
    subst hs
    simp [Val.toNative, Val.getType, Val.strv, Val.decimal, Val.boolean, Res.bind, NativeTy.extract]

theorem each_fits {α : Type} {F : α → Prop} {S : α → Val → Prop} {c : Pkt → Res α} {f : Bool} {ps : List Pkt} {es : List Val} {xs : List α}
    (hc : ∀ x ∈ xs, ∀ v p, F x → S x v → Held z p ⟨f, v⟩ → c p = .ok x) (hf : ∀ x ∈ xs, F x) (hs : Each S xs es)
    (hp : Each (fun q e => Held z q ⟨f, e⟩) ps es) : Each (fun p x => c p = .ok x) ps xs :=
  hp.trans hs.symm fun p _ v _ x hx h1 h2 => hc x hx v p (hf x hx) h2 h1

mutual
theorem fromDart_ok : ∀ (t : CTy) {x : t.type} {v : Val} {p : Pkt} {f : Bool}, Distinct t → Fit t x → Stands t x v →
    Held z p ⟨f, v⟩ → t.fromDart p = .ok x
  | .scalar s, x, v, p, f, _, hf, hs, hp => by
    rw [Fit] at hf
    rw [Stands] at hs
    exact scalar_fromDart hf hs hp
  | .seq t, (xs : List t.type), v, p, f, hd, hf, hs, hp => by
    rw [Distinct] at hd
    replace hf : xs.length ≤ 2 ^ 58 ∧ ∀ x ∈ xs, Fit t x := hf
    replace hs : ∃ es, v = .arr es ∧ Each (Stands t) xs es := hs
    obtain ⟨es, rfl, hs⟩ := hs
    obtain ⟨ps, h1, h2⟩ := hp.elems
    change (if p.getType = .array then p.values.bind (castAll t.fromDart) else .throw .typeError : Res (List t.type)) = .ok xs
    rw [if_pos hp.isArr, h1, Res.bind_ok,
      castAll_ok (each_fits (fun x _ v p a b c => fromDart_ok t hd a b c) hf.2 hs h2)]
  | .fwd t, (xs : List t.type), v, p, f, hd, hf, hs, hp => by
    rw [Distinct] at hd
    replace hf : xs.length ≤ 2 ^ 58 ∧ ∀ x ∈ xs, Fit t x := hf
    replace hs : ∃ es, v = .arr es ∧ Each (Stands t) xs es := hs
    obtain ⟨es, rfl, hs⟩ := hs
    obtain ⟨ps, h1, h2⟩ := hp.elems
    change (if p.getType = .array then p.values.bind fun vs => castFront t.fromDart [] vs.reverse else .throw .typeError :
      Res (List t.type)) = .ok xs
    rw [if_pos hp.isArr, h1, Res.bind_ok,
      castFront_ok (each_fits (fun x _ v p a b c => fromDart_ok t hd a b c) hf.2 hs h2).reverse]
    simp
  | .array t n, (xs : List t.type), v, p, f, hd, hf, hs, hp => by
    rw [Distinct] at hd
    replace hf : xs.length = n ∧ n ≤ 2 ^ 58 ∧ ∀ x ∈ xs, Fit t x := hf
    replace hs : ∃ es, v = .arr es ∧ Each (Stands t) xs es := hs
    obtain ⟨es, rfl, hs⟩ := hs
    obtain ⟨ps, h1, h2⟩ := hp.elems
    change (if p.getType = .array then
      p.size.bind fun n' => if n' ≠ n then .throw .typeError else p.values.bind (castAll t.fromDart)
      else .throw .typeError : Res (List t.type)) = .ok xs
    rw [if_pos hp.isArr, hp.size, Val.size, Res.bind_ok, if_neg (by simp [← hs.length, hf.1]), h1, Res.bind_ok,
      castAll_ok (each_fits (fun x _ v p a b c => fromDart_ok t hd a b c) hf.2.2 hs h2)]
  | .map less t, (m : List (Bytes × t.type)), v, p, f, hd, hf, hs, hp => by
    rw [Distinct] at hd
    replace hf : m.Pairwise (fun a b => less a.1 b.1 = true) ∧ ∀ e ∈ m, e.1.length ≤ 65535 ∧ Fit t e.2 := hf
    replace hs : ∃ fs, v = .obj fs ∧ (∀ k x, (k, x) ∈ m → ∃ w, (k, w) ∈ fs ∧ Stands t x w) ∧
      ∀ k w, (k, w) ∈ fs → ∃ x, (k, x) ∈ m := hs
    obtain ⟨fs, rfl, hs1, hs2⟩ := hs
    obtain ⟨ks, vs, h1, h2, h3, h4⟩ := hp.fields
    have hw := wf_obj.1 hp.wf
    -- the entries of `m` in the order of the packet
    have key : ∀ gs : List (Bytes × Val), (∀ g ∈ gs, g ∈ fs) → ∃ es : List (Bytes × t.type),
        Each (fun g e => g.1 = e.1 ∧ e ∈ m ∧ Stands t e.2 g.2) gs es := by
      intro gs
      induction gs with
      | nil => exact fun _ => ⟨[], trivial⟩
      | cons g gs ih =>
        intro h
        obtain ⟨es, he⟩ := ih fun g hg => h g (by simp [hg])
        obtain ⟨k, w⟩ := g
        have hg := h (k, w) (by simp)
        obtain ⟨x, hx⟩ := hs2 k w hg
        obtain ⟨w', hw', hst⟩ := hs1 k x hx
        have e1 := lookup_of_mem hw.1 hg
        have e2 := lookup_of_mem hw.1 hw'
        rw [e1] at e2
        cases e2
        exact ⟨(k, x) :: es, ⟨rfl, hx, hst⟩, he⟩
    obtain ⟨es, hes⟩ := key fs fun _ h => h
    obtain ⟨r, r1, r2, r3⟩ := emplaceFields_ok hd.1 (f := t.fromDart) (es := es) (ks := ks) (vs := vs) (acc := [])
      (h3.trans hes fun k _ g _ e _ a b => by rw [a, b.1])
      (h4.trans hes fun v _ g _ e he a b => fromDart_ok t hd.2 (hf.2 e b.2.1).2 b.2.2 a)
      (by simp [InOrder]) (by
        have hn : fs.Pairwise (fun a b => a.1 ≠ b.1) := hw.1.imp fun h => keyLt_ne h
        clear h3 h4 key
        revert hn
        have : ∀ (gs : List (Bytes × Val)) (es : List (Bytes × t.type)),
            Each (fun g e => g.1 = e.1 ∧ e ∈ m ∧ Stands t e.2 g.2) gs es → gs.Pairwise (fun a b => a.1 ≠ b.1) → es.Pairwise (fun a b => a.1 ≠ b.1) := by
          intro gs
          induction gs with
          | nil => intro es h _; cases es with
            | nil => simp
            | cons => exact h.elim
          | cons g gs ih =>
            intro es h hp
            cases es with
            | nil => exact h.elim
            | cons e es =>
              obtain ⟨p1, p2⟩ := List.pairwise_cons.1 hp
              refine List.pairwise_cons.2 ⟨fun e' he' => ?_, ih es h.2 p2⟩
              obtain ⟨g', hg', hr⟩ := Each.mem_right h.2 he'
              rw [← h.1.1, ← hr.1]
              exact p1 g' hg'
        exact this fs es hes) (by simp)
    change (if p.getType = .object then
      p.keys.bind fun ks => p.values.bind fun vs => emplaceFields less t.fromDart [] ks vs
      else .throw .typeError : Res (List (Bytes × t.type))) = .ok m
    rw [if_pos hp.isObj, h1, Res.bind_ok, h2, Res.bind_ok, r1]
    congr 1
    refine inOrder_ext hd.1 r2 hf.1 fun e => ?_
    rw [r3]
    simp only [List.not_mem_nil, false_or]
    constructor
    · intro he
      obtain ⟨g, _, hr⟩ := hes.mem_right he
      exact hr.2.1
    · intro he
      obtain ⟨k, x⟩ := e
      obtain ⟨w, hw', _⟩ := hs1 k x he
      obtain ⟨⟨k', y⟩, hy, hr⟩ := hes.symm.mem_right hw'
      obtain ⟨e1, e2, _⟩ := hr
      simp only at e1 e2
      subst e1
      have : ∀ (m : List (Bytes × t.type)), m.Pairwise (fun a b => less a.1 b.1 = true) → (k, x) ∈ m → (k, y) ∈ m → x = y := by
        intro m hm
        induction m with
        | nil => simp
        | cons c m ih =>
          obtain ⟨p1, p2⟩ := List.pairwise_cons.1 hm
          intro a b
          rcases List.mem_cons.1 a with e | a <;> rcases List.mem_cons.1 b with e' | b
          · rw [← e'] at e; cases e; rfl
          · have := p1 _ b; rw [← e, hd.1.irrefl] at this; cases this
          · have := p1 _ a; rw [← e', hd.1.irrefl] at this; cases this
          · exact ih p2 a b
      rw [this m hf.1 he e2]
      exact hy
  | .mmap less t, (m : List (Bytes × t.type)), v, p, f, hd, hf, hs, hp => by
    rw [Distinct] at hd
    replace hf : m.length ≤ 2 ^ 58 ∧ m.Pairwise (fun a b => less b.1 a.1 = false) ∧
      ∀ e ∈ m, e.1.length ≤ 65535 ∧ Fit t e.2 := hf
    replace hs : ∃ fs, v = .obj fs ∧
      (∀ k w, (k, w) ∈ fs → ∃ es, w = .arr es ∧ es ≠ [] ∧ Each (Stands t) (valuesAt k m) es) ∧
      ∀ k x, (k, x) ∈ m → ∃ w, (k, w) ∈ fs := hs
    obtain ⟨fs, rfl, hs1, hs2⟩ := hs
    obtain ⟨ks, vs, h1, h2, h3, h4⟩ := hp.fields
    have hw := wf_obj.1 hp.wf
    obtain ⟨r, r1, r2, r3, r4⟩ := emplaceGroups_ok hd.1 (f := t.fromDart) (m := m) (fs := fs) (ks := ks) (vs := vs) (acc := [])
      h3 (h4.imp fun q _ g hg hq => by
        obtain ⟨k, w⟩ := g
        obtain ⟨es, rfl, hn, hes⟩ := hs1 k w hg
        simp only at hq
        obtain ⟨ps, p1, p2⟩ := hq.elems
        refine ⟨by rw [hq.getType]; rfl, ps, p1, castAll_ok (each_fits (fun x _ v p a b c => fromDart_ok t hd.2 a b c) ?_ hes p2)⟩
        intro x hx
        exact (hf.2.2 _ (mem_valuesAt.1 hx)).2)
      (by simp [InOrderMulti]) (hw.1.imp fun h => keyLt_ne h) (by simp [valuesAt])
    change (if p.getType = .object then
      p.keys.bind fun ks => p.values.bind fun vs => emplaceGroups less t.fromDart [] ks vs
      else .throw .typeError : Res (List (Bytes × t.type))) = .ok m
    rw [if_pos hp.isObj, h1, Res.bind_ok, h2, Res.bind_ok, r1]
    congr 1
    refine inOrderMulti_ext hd.1 r2 hf.2.1 fun k => ?_
    by_cases hk : ∃ w, (k, w) ∈ fs
    · obtain ⟨w, hw⟩ := hk
      exact r4 _ hw
    · rw [r3 k (by rintro ⟨k', w⟩ he rfl; exact hk ⟨w, he⟩)]
      symm
      rw [show valuesAt k ([] : List (Bytes × t.type)) = [] from rfl, List.eq_nil_iff_forall_not_mem]
      intro x hx
      exact hk (hs2 k x (mem_valuesAt.1 hx))
  | .set s less, (xs : List s.type), v, p, f, hd, hf, hs, hp => by
    rw [Distinct] at hd
    replace hf : xs.length ≤ 2 ^ 58 ∧ xs.Pairwise (fun a b => less a b = true) ∧ ∀ x ∈ xs, FitScalar s x := hf
    replace hs : ∃ es, v = .arr es ∧ Each (StandsScalar s) xs es := hs
    obtain ⟨es, rfl, hs⟩ := hs
    obtain ⟨ps, h1, h2⟩ := hp.elems
    change (if p.getType = .array then
      p.values.bind fun vs => (castAll (fun q => (q.toNative s).bind s.extract) vs).bind fun xs =>
        .ok (xs.foldl (fun acc x => emplace less id x acc) [])
      else .throw .typeError : Res (List s.type)) = .ok xs
    rw [if_pos hp.isArr, h1, Res.bind_ok,
      castAll_ok (each_fits (fun x _ v p a b c => scalar_fromDart a b c) hf.2.2 hs h2), Res.bind_ok,
      emplace_sorted (by simpa using hf.2.1)]
    rfl
  | .mset s less, (xs : List s.type), v, p, f, hd, hf, hs, hp => by
    rw [Distinct] at hd
    replace hf : xs.length ≤ 2 ^ 58 ∧ xs.Pairwise (fun a b => less b a = false) ∧ ∀ x ∈ xs, FitScalar s x := hf
    replace hs : ∃ es, v = .arr es ∧ Each (StandsScalar s) xs es := hs
    obtain ⟨es, rfl, hs⟩ := hs
    obtain ⟨ps, h1, h2⟩ := hp.elems
    change (if p.getType = .array then
      p.values.bind fun vs => (castAll (fun q => (q.toNative s).bind s.extract) vs).bind fun xs =>
        .ok (xs.foldl (fun acc x => emplaceMulti less id x acc) [])
      else .throw .typeError : Res (List s.type)) = .ok xs
    rw [if_pos hp.isArr, h1, Res.bind_ok,
      castAll_ok (each_fits (fun x _ v p a b c => scalar_fromDart a b c) hf.2.2 hs h2), Res.bind_ok,
      emplaceMulti_sorted (by simpa using hf.2.1)]
    rfl
  | .opt t, none, v, p, f, hd, hf, hs, hp => by
    rw [Stands] at hs
    subst hs
    exact if_pos hp.isNull
  | .opt t, some x, v, p, f, hd, hf, hs, hp => by
    rw [Distinct] at hd
    rw [Fit] at hf
    rw [Stands] at hs
    have : v.ty ≠ .null := by
      intro h
      have := gives_ok t x v hs
      rw [h, hd.1] at this
      cases this
    change (if p.getType = .null then .ok none else (t.fromDart p).bind fun x => .ok (some x) : Res (Option t.type)) = .ok (some x)
    rw [hp.getType, if_neg this, fromDart_ok t hd.2 hf hs hp]
    rfl
  | .pair a b, (x, y), v, p, f, hd, hf, hs, hp => by
    rw [Distinct] at hd
    rw [Fit] at hf
    rw [Stands] at hs
    obtain ⟨w, u, rfl, hs1, hs2⟩ := hs
    obtain ⟨q, q1, q2⟩ := hp.getIdx (signed := true) 0
    obtain ⟨r, r1, r2⟩ := hp.getIdx (signed := true) 1
    change (if p.getType = .array then
      p.size.bind fun n => if n ≠ 2 then .throw .typeError else
        (PRead.run true p (.getIdx 0)).bind fun q => (a.fromDart q).bind fun x =>
        (PRead.run true p (.getIdx 1)).bind fun r => (b.fromDart r).bind fun y => .ok (x, y)
      else .throw .typeError : Res (a.type × b.type)) = .ok (x, y)
    rw [if_pos hp.isArr, hp.size, Val.size, Res.bind_ok, if_neg (by simp), q1, Res.bind_ok,
      fromDart_ok a hd.1 hf.1 hs1 q2, Res.bind_ok, r1, Res.bind_ok, fromDart_ok b hd.2 hf.2 hs2 r2]
    rfl
  | .tuple ts, (xs : ts.prod), v, p, f, hd, hf, hs, hp => by
    rw [Distinct] at hd
    replace hf : ts.length ≤ 2 ^ 58 ∧ FitAll ts xs := hf
    replace hs : ∃ es, v = .arr es ∧ StandsAll ts xs es := hs
    obtain ⟨es, rfl, hs⟩ := hs
    obtain ⟨ps, h1, h2⟩ := hp.elems
    obtain ⟨hl, h3⟩ := fromDarts_ok ts hd hf.2 hs h2
    change (if p.getType = .array then
      p.size.bind fun n => if n ≠ ts.length then .throw .typeError else p.values.bind ts.fromDarts
      else .throw .typeError : Res ts.prod) = .ok xs
    rw [if_pos hp.isArr, hp.size, Val.size, Res.bind_ok, if_neg (by simp [hl]), h1, Res.bind_ok, h3]
  | .variant ts, x, v, p, f, hd, hf, hs, hp => by
    rw [Distinct] at hd
    rw [Fit] at hf
    rw [Stands] at hs
    exact fromDartAlt_ok ts hd.1 hd.2 hf hs hp
theorem fromDarts_ok : ∀ (ts : CTys) {xs : ts.prod} {es : List Val} {ps : List Pkt} {f : Bool}, DistinctAll ts → FitAll ts xs →
    StandsAll ts xs es → Each (fun q e => Held z q ⟨f, e⟩) ps es → es.length = ts.length ∧ ts.fromDarts ps = .ok xs
  | .nil, _, es, ps, f, _, _, hs, _ => by
    rw [StandsAll] at hs
    subst hs
    exact ⟨rfl, rfl⟩
  | .cons t ts, (x, xs), e :: es, p :: ps, f, hd, hf, hs, hp => by
    rw [DistinctAll] at hd
    rw [FitAll] at hf
    rw [StandsAll] at hs
    obtain ⟨h1, h2⟩ := fromDarts_ok ts hd.2 hf.2 hs.2 hp.2
    refine ⟨by simp [CTys.length, h1], ?_⟩
    rw [CTys.fromDarts, fromDart_ok t hd.1 hf.1 hs.1 hp.1, Res.bind_ok, h2]
    rfl
  | .cons _ _, (_, _), [], _, _, _, _, hs, _ => False.elim hs
  | .cons _ _, _, _ :: _, [], _, _, _, _, hp => hp.elim
theorem fromDartAlt_ok : ∀ (ts : CTys) {x : ts.sum} {v : Val} {p : Pkt} {f : Bool}, Separate ts → DistinctAll ts → FitAlt ts x →
    StandsAlt ts x v → Held z p ⟨f, v⟩ → ts.fromDartAlt p = .ok x
  | .nil, x, _, _, _, _, _, _, _, _ => nomatch x
  | .cons t _, .inl x, v, p, f, _, hd, hf, hs, hp => by
    rw [DistinctAll] at hd
    rw [FitAlt] at hf
    rw [StandsAlt] at hs
    rw [CTys.fromDartAlt, fromDart_ok t hd.1 hf hs hp]
  | .cons t ts, .inr x, v, p, f, hsep, hd, hf, hs, hp => by
    rw [Separate] at hsep
    rw [DistinctAll] at hd
    rw [FitAlt] at hf
    rw [StandsAlt] at hs
    rw [CTys.fromDartAlt, fromDart_takes t hp (hsep.1 _ (givesAny_ok ts x v hs)), fromDartAlt_ok ts hsep.2 hd.2 hf hs hp]
    rfl
end

/-! ### Finalized packets -/

theorem held_heap {v : Val} (h : v.WF) : Held z (.heap v) ⟨false, v⟩ := ⟨rfl, h⟩

/-- The packet holds the value of the dynamic packet. -/
def Like (z : Bool) (p q : Pkt) : Prop := ∃ f v, Held z p ⟨f, v⟩ ∧ q = .heap v

theorem Like.type {p q : Pkt} (h : Like z p q) : p.getType = q.getType := by
  obtain ⟨f, v, h, rfl⟩ := h
  rw [h.getType, (held_heap (z := z) h.wf).getType]

theorem Like.size {p q : Pkt} (h : Like z p q) : p.size = q.size := by
  obtain ⟨f, v, h, rfl⟩ := h
  rw [h.size, (held_heap (z := z) h.wf).size]

theorem like_heaps {f : Bool} {ps qs : List Pkt} {es : List Val} (hp : Each (fun q e => Held z q ⟨f, e⟩) ps es)
    (hq : Each (fun q e => q = .heap e) qs es) : Each (Like z) ps qs :=
  hp.trans hq.symm fun p _ v _ q _ h1 h2 => ⟨f, v, h1, h2⟩

theorem Like.elems {p q : Pkt} (h : Like z p q) (ha : p.getType = .array) :
    ∃ ps qs, p.values = .ok ps ∧ q.values = .ok qs ∧ Each (Like z) ps qs := by
  obtain ⟨f, v, h, rfl⟩ := h
  rw [h.getType] at ha
  cases v <;> simp only [Val.ty, reduceCtorEq] at ha
  obtain ⟨ps, h1, h2⟩ := h.elems
  exact ⟨ps, _, h1, rfl, like_heaps h2 (each_map_left (each_refl fun _ _ => rfl))⟩

theorem Like.fields {p q : Pkt} (h : Like z p q) (ha : p.getType = .object) :
    ∃ ks ps ks' qs, p.keys = .ok ks ∧ p.values = .ok ps ∧ q.keys = .ok ks' ∧ q.values = .ok qs ∧
      Each (fun k k' => k.strv = k'.strv) ks ks' ∧ Each (Like z) ps qs := by
  obtain ⟨f, v, h, rfl⟩ := h
  rw [h.getType] at ha
  cases v <;> simp only [Val.ty, reduceCtorEq] at ha
  rename_i fs
  obtain ⟨ks, ps, h1, h2, h3, h4⟩ := h.fields
  obtain ⟨ks', qs, g1, g2, g3, g4⟩ := (held_heap (z := z) h.wf).fields
  refine ⟨ks, ps, ks', qs, h1, h2, g1, g2, h3.trans g3.symm fun _ _ _ _ _ _ a b => by rw [a, b],
    h4.trans g4.symm fun p _ g _ q _ a b => ?_⟩
  refine ⟨f, g.2, a, ?_⟩
  cases q with
  | heap w => obtain ⟨e, _⟩ := b; cases e; rfl
  | buf b' => cases b.1

theorem Like.getIdx {p q : Pkt} (h : Like z p q) (ha : p.getType = .array) (i : Nat) :
    ∃ p' q', PRead.run true p (.getIdx i) = .ok p' ∧ PRead.run true q (.getIdx i) = .ok q' ∧ Like z p' q' := by
  obtain ⟨f, v, h, rfl⟩ := h
  rw [h.getType] at ha
  cases v <;> simp only [Val.ty, reduceCtorEq] at ha
  obtain ⟨p', h1, h2⟩ := h.getIdx (signed := true) i
  obtain ⟨q', g1, g2⟩ := (held_heap (z := z) h.wf).getIdx (signed := true) i
  refine ⟨p', q', h1, g1, f, _, h2, ?_⟩
  cases q' with
  | heap w => obtain ⟨e, _⟩ := g2; cases e; rfl
  | buf b' => cases g2.1

theorem Like.toNative {p q : Pkt} (h : Like z p q) (s : NativeTy) : p.toNative s = q.toNative s := by
  obtain ⟨f, v, h, rfl⟩ := h
  rw [h.toNative]; rfl

theorem Like.emplaceField {α : Type} {less : Bytes → Bytes → Bool} {c : Pkt → Res α} (hc : ∀ p q, Like z p q → c p = c q) {p q : Pkt}
    (h : Like z p q) (acc : List (Bytes × α)) (k : Bytes) : Dart.emplaceField less c acc k p = Dart.emplaceField less c acc k q := by
  unfold Dart.emplaceField
  rw [← h.type]
  by_cases ha : p.getType = .array
  · obtain ⟨ps, qs, h1, h2, h3⟩ := h.elems ha
    rw [if_pos ha, if_pos ha, h1, h2, Res.bind_ok, Res.bind_ok, castAll_congr (h3.imp fun p _ q _ h => hc p q h)]
  · rw [if_neg ha, if_neg ha, hc p q h]

mutual
theorem fromDart_same : ∀ (t : CTy) {p q : Pkt}, Like z p q → t.fromDart p = t.fromDart q
  | .scalar s, p, q, h => by rw [CTy.fromDart, CTy.fromDart, h.toNative]
  | .seq t, p, q, h => by
    rw [CTy.fromDart, CTy.fromDart, ← h.type]
    by_cases ha : p.getType = .array
    · obtain ⟨ps, qs, h1, h2, h3⟩ := h.elems ha
      rw [if_pos ha, if_pos ha, h1, h2]
      exact castAll_congr (h3.imp fun p _ q _ h => fromDart_same t h)
    · rw [if_neg ha, if_neg ha]
  | .fwd t, p, q, h => by
    rw [CTy.fromDart, CTy.fromDart, ← h.type]
    by_cases ha : p.getType = .array
    · obtain ⟨ps, qs, h1, h2, h3⟩ := h.elems ha
      rw [if_pos ha, if_pos ha, h1, h2]
      exact castFront_congr _ (h3.reverse.imp fun p _ q _ h => fromDart_same t h)
    · rw [if_neg ha, if_neg ha]
  | .array t n, p, q, h => by
    rw [CTy.fromDart, CTy.fromDart, ← h.type, ← h.size]
    by_cases ha : p.getType = .array
    · obtain ⟨ps, qs, h1, h2, h3⟩ := h.elems ha
      rw [if_pos ha, if_pos ha, h1, h2]
      change (p.size.bind fun n' => if n' ≠ n then .throw .typeError else castAll t.fromDart ps : Res (List t.type)) =
        p.size.bind fun n' => if n' ≠ n then .throw .typeError else castAll t.fromDart qs
      rw [castAll_congr (h3.imp fun p _ q _ h => fromDart_same t h)]
    · rw [if_neg ha, if_neg ha]
  | .map less t, p, q, h => by
    rw [CTy.fromDart, CTy.fromDart, ← h.type]
    by_cases ha : p.getType = .object
    · obtain ⟨ks, ps, ks', qs, h1, h2, h3, h4, h5, h6⟩ := h.fields ha
      rw [if_pos ha, if_pos ha, h1, h2, h3, h4]
      simp only [Res.bind_ok]
      exact emplaceFields_congr _ h5 (h6.imp fun p _ q _ h => fromDart_same t h)
    · rw [if_neg ha, if_neg ha]
  | .mmap less t, p, q, h => by
    rw [CTy.fromDart, CTy.fromDart, ← h.type]
    by_cases ha : p.getType = .object
    · obtain ⟨ks, ps, ks', qs, h1, h2, h3, h4, h5, h6⟩ := h.fields ha
      rw [if_pos ha, if_pos ha, h1, h2, h3, h4]
      simp only [Res.bind_ok]
      exact emplaceGroups_congr _ h5 (h6.imp fun p _ q _ h acc k => Like.emplaceField (fun p q h => fromDart_same t h) h acc k)
    · rw [if_neg ha, if_neg ha]
  | .set s less, p, q, h => by
    rw [CTy.fromDart, CTy.fromDart, ← h.type]
    by_cases ha : p.getType = .array
    · obtain ⟨ps, qs, h1, h2, h3⟩ := h.elems ha
      rw [if_pos ha, if_pos ha, h1, h2, Res.bind_ok, Res.bind_ok,
        castAll_congr (g := fun q => (q.toNative s).bind s.extract) (h3.imp fun p _ q _ h => by rw [h.toNative])]
    · rw [if_neg ha, if_neg ha]
  | .mset s less, p, q, h => by
    rw [CTy.fromDart, CTy.fromDart, ← h.type]
    by_cases ha : p.getType = .array
    · obtain ⟨ps, qs, h1, h2, h3⟩ := h.elems ha
      rw [if_pos ha, if_pos ha, h1, h2, Res.bind_ok, Res.bind_ok,
        castAll_congr (g := fun q => (q.toNative s).bind s.extract) (h3.imp fun p _ q _ h => by rw [h.toNative])]
    · rw [if_neg ha, if_neg ha]
  | .opt t, p, q, h => by rw [CTy.fromDart, CTy.fromDart, ← h.type, fromDart_same t h]
  | .pair a b, p, q, h => by
    rw [CTy.fromDart, CTy.fromDart, ← h.type, ← h.size]
    by_cases ha : p.getType = .array
    · obtain ⟨p0, q0, h1, h2, h3⟩ := h.getIdx ha 0
      obtain ⟨p1, q1, g1, g2, g3⟩ := h.getIdx ha 1
      rw [if_pos ha, if_pos ha, h1, h2, g1, g2]
      simp only [Res.bind_ok, fromDart_same a h3, fromDart_same b g3]
    · rw [if_neg ha, if_neg ha]
  | .tuple ts, p, q, h => by
    rw [CTy.fromDart, CTy.fromDart, ← h.type, ← h.size]
    by_cases ha : p.getType = .array
    · obtain ⟨ps, qs, h1, h2, h3⟩ := h.elems ha
      rw [if_pos ha, if_pos ha, h1, h2]
      change (p.size.bind fun n' => if n' ≠ ts.length then .throw .typeError else ts.fromDarts ps : Res ts.prod) =
        p.size.bind fun n' => if n' ≠ ts.length then .throw .typeError else ts.fromDarts qs
      rw [fromDarts_same ts h3]
    · rw [if_neg ha, if_neg ha]
  | .variant ts, p, q, h => by rw [CTy.fromDart, CTy.fromDart, fromDartAlt_same ts h]
theorem fromDarts_same : ∀ (ts : CTys) {ps qs : List Pkt}, Each (Like z) ps qs → ts.fromDarts ps = ts.fromDarts qs
  | .nil, _, _, _ => by rw [CTys.fromDarts, CTys.fromDarts]
  | .cons t ts, [], [], _ => rfl
  | .cons t ts, p :: ps, q :: qs, h => by
    rw [CTys.fromDarts, CTys.fromDarts, fromDart_same t h.1, fromDarts_same ts h.2]
  | .cons _ _, [], _ :: _, h => h.elim
  | .cons _ _, _ :: _, [], h => h.elim
theorem fromDartAlt_same : ∀ (ts : CTys) {p q : Pkt}, Like z p q → ts.fromDartAlt p = ts.fromDartAlt q
  | .nil, _, _, _ => by rw [CTys.fromDartAlt, CTys.fromDartAlt]
  | .cons t ts, p, q, h => by
    rw [CTys.fromDartAlt, CTys.fromDartAlt, fromDart_same t h, fromDartAlt_same ts h]
end

end Dart
