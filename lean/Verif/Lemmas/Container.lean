import Verif.Lemmas.Native
import Verif.Lemmas.Packet
import Verif.Spec.Container

/-
Facts about container conversions.
-/
namespace Dart
open Spec

variable {z : Bool}

/-! ### Corresponding lists -/

theorem Spec.Each.length {α β : Type} {R : α → β → Prop} : ∀ {xs : List α} {ys : List β}, Each R xs ys → xs.length = ys.length
  | [], [], _ => rfl
  | _ :: xs, _ :: ys, h => by simp [Each.length (xs := xs) (ys := ys) h.2]
  | [], _ :: _, h => h.elim
  | _ :: _, [], h => h.elim

theorem Spec.Each.imp {α β : Type} {R S : α → β → Prop} : ∀ {xs : List α} {ys : List β}, Each R xs ys →
    (∀ x ∈ xs, ∀ y ∈ ys, R x y → S x y) → Each S xs ys
  | [], [], _, _ => trivial
  | x :: xs, y :: ys, h, hi => ⟨hi x (by simp) y (by simp) h.1,
      Each.imp (xs := xs) (ys := ys) h.2 fun a ha b hb => hi a (by simp [ha]) b (by simp [hb])⟩
  | [], _ :: _, h, _ => h.elim
  | _ :: _, [], h, _ => h.elim

theorem Spec.Each.trans {α β γ : Type} {R : α → β → Prop} {S : β → γ → Prop} {T : α → γ → Prop} :
    ∀ {xs : List α} {ys : List β} {zs : List γ}, Each R xs ys → Each S ys zs →
      (∀ x ∈ xs, ∀ y ∈ ys, ∀ z ∈ zs, R x y → S y z → T x z) → Each T xs zs
  | [], [], [], _, _, _ => trivial
  | x :: xs, y :: ys, z :: zs, h, g, hi => ⟨hi x (by simp) y (by simp) z (by simp) h.1 g.1,
      Each.trans (xs := xs) (ys := ys) (zs := zs) h.2 g.2
        fun a ha b hb c hc => hi a (by simp [ha]) b (by simp [hb]) c (by simp [hc])⟩
  | [], _ :: _, _, h, _, _ => h.elim
  | _ :: _, [], _, h, _, _ => h.elim
  | _, [], _ :: _, _, h, _ => h.elim
  | _, _ :: _, [], _, h, _ => h.elim

theorem Spec.Each.symm {α β : Type} {R : α → β → Prop} : ∀ {xs : List α} {ys : List β}, Each R xs ys → Each (fun y x => R x y) ys xs
  | [], [], _ => trivial
  | _ :: xs, _ :: ys, h => ⟨h.1, Each.symm (xs := xs) (ys := ys) h.2⟩
  | [], _ :: _, h => h.elim
  | _ :: _, [], h => h.elim

theorem Spec.Each.append {α β : Type} {R : α → β → Prop} : ∀ {xs : List α} {ys : List β} {us : List α} {vs : List β}, Each R xs ys →
    Each R us vs → Each R (xs ++ us) (ys ++ vs)
  | [], [], _, _, _, g => g
  | _ :: xs, _ :: ys, _, _, h, g => ⟨h.1, Each.append (xs := xs) (ys := ys) h.2 g⟩
  | [], _ :: _, _, _, h, _ => h.elim
  | _ :: _, [], _, _, h, _ => h.elim

theorem Spec.Each.reverse {α β : Type} {R : α → β → Prop} : ∀ {xs : List α} {ys : List β}, Each R xs ys →
    Each R xs.reverse ys.reverse
  | [], [], _ => trivial
  | x :: xs, y :: ys, h => by
    simp only [List.reverse_cons]
    exact Each.append (Each.reverse (xs := xs) (ys := ys) h.2) ⟨h.1, trivial⟩
  | [], _ :: _, h => h.elim
  | _ :: _, [], h => h.elim

theorem Spec.Each.mem_right {α β : Type} {R : α → β → Prop} : ∀ {xs : List α} {ys : List β}, Each R xs ys → ∀ {y}, y ∈ ys → ∃ x ∈ xs, R x y
  | x :: xs, y :: ys, h, b, hb => by
    rcases List.mem_cons.1 hb with rfl | hb
    · exact ⟨x, by simp, h.1⟩
    · obtain ⟨a, ha, hr⟩ := Each.mem_right (xs := xs) (ys := ys) h.2 hb
      exact ⟨a, by simp [ha], hr⟩
  | [], [], _, _, hb => by simp at hb
  | [], _ :: _, h, _, _ => h.elim
  | _ :: _, [], h, _, _ => h.elim

theorem each_of_getElem {α β : Type} {R : α → β → Prop} : ∀ {xs : List α} {ys : List β}, xs.length = ys.length →
    (∀ i (h1 : i < xs.length) (h2 : i < ys.length), R xs[i] ys[i]) → Each R xs ys
  | [], [], _, _ => trivial
  | x :: xs, y :: ys, hl, h => ⟨h 0 (by simp) (by simp), each_of_getElem (by simpa using hl) fun i h1 h2 =>
      h (i + 1) (by simpa using h1) (by simpa using h2)⟩
  | [], _ :: _, hl, _ => by simp at hl
  | _ :: _, [], hl, _ => by simp at hl

theorem each_map_left {α β γ : Type} {R : γ → β → Prop} {f : α → γ} : ∀ {xs : List α} {ys : List β},
    Each (fun x y => R (f x) y) xs ys → Each R (xs.map f) ys
  | [], [], _ => trivial
  | _ :: xs, _ :: ys, h => ⟨h.1, each_map_left (xs := xs) (ys := ys) h.2⟩
  | [], _ :: _, h => h.elim
  | _ :: _, [], h => h.elim

theorem each_refl {α : Type} {R : α → α → Prop} : ∀ {xs : List α}, (∀ x ∈ xs, R x x) → Each R xs xs
  | [], _ => trivial
  | x :: xs, h => ⟨h x (by simp), each_refl fun y hy => h y (by simp [hy])⟩

theorem each_eq {α : Type} : ∀ {xs ys : List α}, Each (fun x y => x = y) xs ys → xs = ys
  | [], [], _ => rfl
  | x :: xs, y :: ys, h => by rw [h.1, each_eq (xs := xs) (ys := ys) h.2]
  | [], _ :: _, h => h.elim
  | _ :: _, [], h => h.elim

/-! ### Elements of packets -/

theorem Held.elems {f : Bool} {p : Pkt} {es : List Val} (h : Held z p ⟨f, .arr es⟩) :
    ∃ ps, p.values = .ok ps ∧ Each (fun q e => Held z q ⟨f, e⟩) ps es := by
  cases p with
  | heap v =>
    obtain ⟨e, hw⟩ := h
    cases e
    rw [wf_arr] at hw
    exact ⟨es.map .heap, rfl, each_map_left (each_refl fun v hv => ⟨rfl, hw v hv⟩)⟩
  | buf b =>
    obtain ⟨rfl, h⟩ := h
    simp only at h
    obtain ⟨bs, h1, h2, h3⟩ := h.values_arr
    refine ⟨bs.map .buf, ?_, each_map_left (each_of_getElem h2 fun i a b => ⟨rfl, h3 i a b⟩)⟩
    simp [Pkt.values, Pkt.size, Pkt.visit, h.size, h1, Val.size, Res.bind]

theorem Held.fields {f : Bool} {p : Pkt} {fs : List (Bytes × Val)} (h : Held z p ⟨f, .obj fs⟩) :
    ∃ ks vs, p.keys = .ok ks ∧ p.values = .ok vs ∧ Each (fun k f => k.strv = .ok f.1) ks fs ∧
      Each (fun q g => Held z q ⟨f, g.2⟩) vs fs := by
  cases p with
  | heap v =>
    obtain ⟨e, hw⟩ := h
    cases e
    rw [wf_obj] at hw
    refine ⟨fs.map fun x => .heap (.str x.1), fs.map fun x => .heap x.2, ?_, ?_, each_map_left (each_refl fun v hv => rfl),
      each_map_left (each_refl fun v hv => ⟨rfl, (hw.2 v hv).2⟩)⟩
    · simp [Pkt.keys, Pkt.size, Pkt.visit, Val.size, Val.keys, Res.bind, Function.comp_def]
    · simp [Pkt.values, Pkt.size, Pkt.visit, Val.size, Val.values, Res.bind, Function.comp_def]
  | buf b =>
    obtain ⟨rfl, h⟩ := h
    simp only at h
    obtain ⟨bs, h1, h2, h3⟩ := h.values_obj
    obtain ⟨ks, g1, g2, g3⟩ := h.keys
    refine ⟨ks.map .buf, bs.map .buf, ?_, ?_, each_map_left (each_of_getElem g2 fun i a b => (g3 i a b).strv),
      each_map_left (each_of_getElem h2 fun i a b => ⟨rfl, h3 i a b⟩)⟩
    · simp [Pkt.keys, Pkt.size, Pkt.visit, h.size, g1, Val.size, Res.bind]
    · simp [Pkt.values, Pkt.size, Pkt.visit, h.size, h1, Val.size, Res.bind]

theorem Held.getIdx {signed f : Bool} {p : Pkt} {es : List Val} (h : Held z p ⟨f, .arr es⟩) (i : Nat) :
    ∃ q, PRead.run signed p (.getIdx i) = .ok q ∧ Held z q ⟨f, es[i]?.getD .null⟩ := by
  cases p with
  | heap v =>
    obtain ⟨e, hw⟩ := h
    cases e
    refine ⟨.heap (es[i]?.getD .null), ?_, rfl, ?_⟩
    · by_cases hi : i < es.length <;> simp [PRead.run, Pkt.visit, Val.getIdx, Res.bind, hi]
    rw [wf_arr] at hw
    cases hi : es[i]? with
    | none => trivial
    | some w => exact hw w (List.mem_of_getElem? hi)
  | buf b =>
    obtain ⟨rfl, h⟩ := h
    obtain ⟨b', h1, h2⟩ := Shows.getIdx h i
    exact ⟨.buf b', by simp [PRead.run, Pkt.visit, h1, Res.bind], rfl, h2⟩

theorem Held.toNative {p : Pkt} {s : PState} (h : Held z p s) (t : NativeTy) : p.toNative t = s.value.toNative t := by
  cases p with
  | heap v => obtain ⟨rfl, _⟩ := h; rfl
  | buf b =>
    have hs := h.2
    simp only [Pkt.toNative]
    generalize s.value = v at hs
    have ht : b.getType = v.getType := by rw [hs.getType, getType_eq]
    cases t with
    | null => simp only [Buf.toNative, Val.toNative, ht]
    | bool =>
      simp only [Buf.toNative, Val.toNative, ht]
      by_cases h : v.getType = .boolean
      · rw [if_pos h, if_pos h, hs.boolean (by rintro i rfl; cases h) (by rintro i rfl; cases h)]
      · rw [if_neg h, if_neg h]
    | int t => simp only [Buf.toNative, Val.toNative, ht, hs.integer]
    | dbl => simp only [Buf.toNative, Val.toNative, ht, hs.decimal]
    | str => simp only [Buf.toNative, Val.toNative, hs.strv']

/-! ### Building arrays and objects -/

theorem pushBack_arr {es : List Val} {v : Val} (h : es.length < 2 ^ 58) : (Val.arr es).pushBack v = .ok (.arr (es ++ [v])) := by
  have : (BitVec.ofNat 64 es.length).toNat = es.length := by rw [BitVec.toNat_ofNat]; omega
  simp only [Val.pushBack, Val.size, Res.bind, Val.insert, this, maxElems]
  rw [if_neg (by omega), if_neg (by omega)]
  simp

theorem pushAll_ok {α : Type} {f : α → Res Val} {P : α → Val → Prop} : ∀ {xs : List α} {es : List Val},
    (∀ x ∈ xs, ∃ v, f x = .ok v ∧ P x v) → es.length + xs.length ≤ 2 ^ 58 →
    ∃ vs, pushAll f (.arr es) xs = .ok (.arr (es ++ vs)) ∧ Each P xs vs
  | [], es, _, _ => ⟨[], by simp [pushAll], trivial⟩
  | x :: xs, es, h, hl => by
    obtain ⟨v, h1, h2⟩ := h x (by simp)
    simp only [List.length_cons] at hl
    obtain ⟨vs, g1, g2⟩ := pushAll_ok (f := f) (P := P) (xs := xs) (es := es ++ [v]) (fun y hy => h y (by simp [hy]))
      (by simp; omega)
    refine ⟨v :: vs, ?_, h2, g2⟩
    simp only [pushAll, h1, Res.bind, pushBack_arr (by omega : es.length < 2 ^ 58), g1]
    simp

theorem pushElems_ok : ∀ {vs es : List Val}, es.length + vs.length ≤ 2 ^ 58 → Val.pushElems (.arr es) vs = .ok (.arr (es ++ vs))
  | [], es, _ => by simp [Val.pushElems]
  | v :: vs, es, hl => by
    simp only [List.length_cons] at hl
    simp only [Val.pushElems, Res.bind, pushBack_arr (by omega : es.length < 2 ^ 58)]
    rw [pushElems_ok (by simp; omega)]
    simp

theorem makeArray_ok {vs : List Val} (h : vs.length ≤ 2 ^ 58) : Val.makeArray vs = .ok (.arr vs) :=
  pushElems_ok (es := []) (by simpa using h)

theorem mem_mapInsert_self (k : Bytes) (v : Val) {fs : List (Bytes × Val)} : (k, v) ∈ mapInsert k v fs := by
  apply lookup_some_mem
  rw [lookup_mapInsert]
  simp [put]

theorem mem_mapInsert_other {k k' : Bytes} {v w : Val} {fs : List (Bytes × Val)} (hs : Sorted fs) (h : (k', w) ∈ fs)
    (hne : k' ≠ k) : (k', w) ∈ mapInsert k v fs := by
  apply lookup_some_mem
  rw [lookup_mapInsert]
  simp [put, hne, lookup_of_mem hs h]

theorem addAll_ok {α : Type} {f : α → Res Val} {P : α → Val → Prop} : ∀ {m : List (Bytes × α)} {fs : List (Bytes × Val)},
    (∀ e ∈ m, e.1.length ≤ 65535 ∧ ∃ v, f e.2 = .ok v ∧ v.WF ∧ P e.2 v) → m.Pairwise (fun a b => a.1 ≠ b.1) →
    (Val.obj fs).WF → (∀ e ∈ m, ∀ g ∈ fs, e.1 ≠ g.1) →
    ∃ gs, addAll f (.obj fs) m = .ok (.obj gs) ∧ (Val.obj gs).WF ∧
      (∀ k x, (k, x) ∈ m → ∃ w, (k, w) ∈ gs ∧ P x w) ∧
      (∀ k w, (k, w) ∈ gs → (k, w) ∈ fs ∨ ∃ x, (k, x) ∈ m ∧ P x w) ∧ (∀ g ∈ fs, g ∈ gs)
  | [], fs, _, _, hw, _ => ⟨fs, rfl, hw, by simp, fun _ _ h => .inl h, fun _ h => h⟩
  | (k, x) :: m, fs, h, hp, hw, hd => by
    obtain ⟨hk, v, h1, h2, h3⟩ := h (k, x) (by simp)
    simp only at hk h1 h2 h3
    obtain ⟨hp1, hp2⟩ := List.pairwise_cons.1 hp
    have hs := (wf_obj.1 hw).1
    obtain ⟨gs, g1, g2, g3, g4, g5⟩ := addAll_ok (f := f) (P := P) (m := m) (fs := mapInsert k v fs)
      (fun e he => h e (by simp [he])) hp2 (wf_mapInsert hw h2 hk) (by
        intro e he g hg
        rcases mem_mapInsert hg with rfl | hg
        · exact fun hc => hp1 e he hc.symm
        · exact hd e (by simp [he]) g hg)
    refine ⟨gs, ?_, g2, ?_, ?_, ?_⟩
    · simp only [addAll, h1, Res.bind, Val.insert, show ¬ k.length > 65535 by omega, if_false, g1]
    · intro k' x' hm
      rcases List.mem_cons.1 hm with e | hm
      · cases e
        exact ⟨v, g5 _ (mem_mapInsert_self k v), h3⟩
      · exact g3 k' x' hm
    · intro k' w hg
      rcases g4 k' w hg with hg | ⟨y, hy, hr⟩
      · rcases mem_mapInsert hg with e | hg
        · cases e
          exact .inr ⟨x, by simp, h3⟩
        · exact .inl hg
      · exact .inr ⟨y, by simp [hy], hr⟩
    · intro g hg
      obtain ⟨k', w⟩ := g
      exact g5 _ (mem_mapInsert_other hs hg fun e => hd (k, x) (by simp) _ hg e.symm)

/-! ### Multimaps -/

theorem valuesAt_append {α : Type} (k : Bytes) (m m' : List (Bytes × α)) : valuesAt k (m ++ m') = valuesAt k m ++ valuesAt k m' := by
  simp [valuesAt]

theorem valuesAt_cons {α : Type} (k k' : Bytes) (x : α) (m : List (Bytes × α)) :
    valuesAt k ((k', x) :: m) = if k' = k then x :: valuesAt k m else valuesAt k m := by
  by_cases h : k' = k <;> simp [valuesAt, h]

theorem mem_valuesAt {α : Type} {k : Bytes} {x : α} {m : List (Bytes × α)} : x ∈ valuesAt k m ↔ (k, x) ∈ m := by
  induction m with
  | nil => simp [valuesAt]
  | cons e m ih =>
    obtain ⟨k', y⟩ := e
    rw [valuesAt_cons]
    by_cases h : k' = k
    · subst h; simp [ih]
    · simp [h, ih, Ne.symm h]

theorem valuesAt_length {α : Type} (k : Bytes) (m : List (Bytes × α)) : (valuesAt k m).length ≤ m.length :=
  List.length_filterMap_le ..

theorem Spec.Orders.asymm {κ : Type} {less : κ → κ → Bool} (h : Orders less) {a b : κ} (hab : less a b = true) : less b a = false := by
  cases hb : less b a with
  | false => rfl
  | true => rw [← h.irrefl a, h.trans hab hb]

theorem Spec.Orders.ne {κ : Type} {less : κ → κ → Bool} (h : Orders less) {a b : κ} (hab : less a b = true) : a ≠ b := by
  rintro rfl; rw [h.irrefl] at hab; cases hab

theorem Spec.Orders.eq {κ : Type} {less : κ → κ → Bool} (h : Orders less) {a b : κ} (hab : less a b = false) (hba : less b a = false) :
    a = b := by
  false_or_by_contra
  rename_i hn
  rcases h.total hn with h | h <;> simp_all

/-- What `accumPush` does to a sorted list of arrays. -/
theorem accumPush_ok {less : Bytes → Bytes → Bool} (ho : Orders less) {k : Bytes} {v : Val} : ∀ {acc : List (Bytes × Val)},
    acc.Pairwise (fun a b => less a.1 b.1 = true) → (∀ e ∈ acc, ∃ es, e.2 = .arr es ∧ es.length < 2 ^ 58) →
    ∃ acc', accumPush less k v acc = .ok acc' ∧ acc'.Pairwise (fun a b => less a.1 b.1 = true) ∧
      (∀ k' w, (k', w) ∈ acc' ↔ (k' ≠ k ∧ (k', w) ∈ acc) ∨
        (k' = k ∧ ((∃ es, (k, .arr es) ∈ acc ∧ w = .arr (es ++ [v])) ∨ ((∀ u, (k, u) ∉ acc) ∧ w = .arr [v]))))
  | [], _, _ => by
    refine ⟨[(k, .arr [v])], ?_, by simp, by simp⟩
    simp [accumPush, pushBack_arr, Res.bind]
  | (k', a) :: r, hp, ha => by
    obtain ⟨hp1, hp2⟩ := List.pairwise_cons.1 hp
    rw [accumPush]
    by_cases h1 : less k' k = true
    · rw [if_pos h1]
      obtain ⟨acc', g1, g2, g3⟩ := accumPush_ok ho (k := k) (v := v) hp2 (fun e he => ha e (by simp [he]))
      rw [g1]
      have hne : k' ≠ k := ho.ne h1
      refine ⟨_, rfl, ?_, ?_⟩
      · rw [List.pairwise_cons]
        refine ⟨fun b hb => ?_, g2⟩
        obtain ⟨k'', w⟩ := b
        rcases (g3 _ _).1 hb with ⟨_, hb⟩ | ⟨rfl, _⟩
        · exact hp1 _ hb
        · exact h1
      · intro k'' w
        simp only [List.mem_cons, g3, Prod.mk.injEq]
        by_cases hk : k'' = k
        · subst hk; simp [Ne.symm hne]
        · simp [hk]
    · rw [if_neg h1]
      by_cases h2 : less k k' = true
      · rw [if_pos h2, pushBack_arr (by simp)]
        have hn : ∀ u, (k, u) ∉ (k', a) :: r := by
          intro u hu
          rcases List.mem_cons.1 hu with e | hu
          · cases e; exact ho.ne h2 rfl
          · exact absurd (ho.asymm h2) (by simp [hp1 _ hu])
        refine ⟨_, rfl, ?_, ?_⟩
        · rw [List.pairwise_cons]
          refine ⟨fun b hb => ?_, hp⟩
          rcases List.mem_cons.1 hb with rfl | hb
          · exact h2
          · exact ho.trans h2 (hp1 _ hb)
        · intro k'' w
          rw [List.mem_cons]
          constructor
          · rintro (e | h)
            · cases e; exact .inr ⟨rfl, .inr ⟨hn, rfl⟩⟩
            · exact .inl ⟨fun e => hn w (e ▸ h), h⟩
          · rintro (⟨_, h⟩ | ⟨rfl, ⟨es, h, _⟩ | ⟨_, rfl⟩⟩)
            · exact .inr h
            · exact absurd h (hn _)
            · exact .inl rfl
      · rw [if_neg h2]
        have he : k' = k := ho.eq (by simpa using h1) (by simpa using h2)
        subst he
        obtain ⟨es, e1, e2⟩ := ha (k', a) (by simp)
        simp only at e1
        subst e1
        rw [pushBack_arr e2]
        have hn : ∀ u, (k', u) ∉ r := fun u hu => by have := hp1 _ hu; simp [ho.irrefl] at this
        refine ⟨_, rfl, ?_, ?_⟩
        · rw [List.pairwise_cons]; exact ⟨hp1, hp2⟩
        · intro k'' w
          simp only [List.mem_cons, Prod.mk.injEq, not_or]
          constructor
          · rintro (⟨rfl, rfl⟩ | h)
            · exact .inr ⟨rfl, .inl ⟨es, .inl ⟨trivial, rfl⟩, rfl⟩⟩
            · exact .inl ⟨fun e => hn w (e ▸ h), .inr h⟩
          · rintro (⟨hk, (⟨e, _⟩ | h)⟩ | ⟨rfl, ⟨es', h, rfl⟩ | ⟨h, rfl⟩⟩)
            · exact absurd e hk
            · exact .inr h
            · rcases h with ⟨_, h⟩ | h
              · cases h; exact .inl ⟨rfl, rfl⟩
              · exact absurd h (hn _)
            · exact absurd ⟨trivial, rfl⟩ (h (.arr es)).1

/-- The arrays collected for the entries `m`. -/
def Collected {α : Type} (less : Bytes → Bytes → Bool) (P : α → Val → Prop) (m : List (Bytes × α)) (acc : List (Bytes × Val)) : Prop :=
  acc.Pairwise (fun a b => less a.1 b.1 = true) ∧
  (∀ k w, (k, w) ∈ acc → ∃ es, w = .arr es ∧ es ≠ [] ∧ Each P (valuesAt k m) es) ∧ ∀ k x, (k, x) ∈ m → ∃ w, (k, w) ∈ acc

theorem accumAll_ok {α : Type} {less : Bytes → Bytes → Bool} (ho : Orders less) {f : α → Res Val} {P : α → Val → Prop} :
    ∀ {m : List (Bytes × α)} {m₀ : List (Bytes × α)} {acc : List (Bytes × Val)},
    (∀ e ∈ m, ∃ v, f e.2 = .ok v ∧ P e.2 v) → m₀.length + m.length ≤ 2 ^ 58 → Collected less P m₀ acc →
    ∃ acc', accumAll less f acc m = .ok acc' ∧ Collected less P (m₀ ++ m) acc'
  | [], m₀, acc, _, _, hc => ⟨acc, rfl, by simpa using hc⟩
  | (k, x) :: m, m₀, acc, h, hl, ⟨c1, c2, c3⟩ => by
    obtain ⟨v, h1, h2⟩ := h (k, x) (by simp)
    simp only [List.length_cons] at h1 h2 hl
    obtain ⟨acc', g1, g2, g3⟩ := accumPush_ok ho (k := k) (v := v) c1 (by
      rintro ⟨k', w⟩ he
      obtain ⟨es, e1, _, e3⟩ := c2 k' w he
      refine ⟨es, e1, ?_⟩
      have := valuesAt_length k' m₀
      have := e3.length
      omega)
    obtain ⟨acc'', k1, k2⟩ := accumAll_ok (less := less) ho (f := f) (P := P) (m := m) (m₀ := m₀ ++ [(k, x)]) (acc := acc')
      (fun e he => h e (by simp [he])) (by simp; omega) (by
        refine ⟨g2, ?_, ?_⟩
        · intro k' w hw
          rw [valuesAt_append, valuesAt_cons]
          rcases (g3 k' w).1 hw with ⟨hk, hw⟩ | ⟨rfl, ⟨es, hw', rfl⟩ | ⟨hn, rfl⟩⟩
          · rw [if_neg (Ne.symm hk)]
            simpa [valuesAt] using c2 k' w hw
          · obtain ⟨es', e1, e2, e3⟩ := c2 _ _ hw'
            cases e1
            rw [if_pos rfl]
            exact ⟨es ++ [v], rfl, by simp, Each.append e3 ⟨h2, trivial⟩⟩
          · rw [if_pos rfl]
            have : valuesAt k' m₀ = [] := by
              rw [List.eq_nil_iff_forall_not_mem]
              intro y hy
              obtain ⟨w, hw⟩ := c3 _ _ (mem_valuesAt.1 hy)
              exact hn _ hw
            rw [this]
            exact ⟨[v], rfl, by simp, h2, trivial⟩
        · intro k' y hy
          rcases List.mem_append.1 hy with hy | hy
          · obtain ⟨w, hw⟩ := c3 _ _ hy
            by_cases hk : k' = k
            · subst hk
              obtain ⟨es, rfl, _⟩ := c2 _ _ hw
              exact ⟨_, (g3 _ _).2 (.inr ⟨rfl, .inl ⟨es, hw, rfl⟩⟩)⟩
            · exact ⟨w, (g3 _ _).2 (.inl ⟨hk, hw⟩)⟩
          · simp only [List.mem_singleton, Prod.mk.injEq] at hy
            obtain ⟨rfl, rfl⟩ := hy
            by_cases hx : ∃ u, (k', u) ∈ acc
            · obtain ⟨u, hu⟩ := hx
              obtain ⟨es, rfl, _⟩ := c2 _ _ hu
              exact ⟨_, (g3 _ _).2 (.inr ⟨rfl, .inl ⟨es, hu, rfl⟩⟩)⟩
            · exact ⟨_, (g3 _ _).2 (.inr ⟨rfl, .inr ⟨fun u hu => hx ⟨u, hu⟩, rfl⟩⟩)⟩)
    refine ⟨acc'', ?_, ?_⟩
    · simp only [accumAll, h1, Res.bind, g1, k1]
    · simpa using k2

end Dart
