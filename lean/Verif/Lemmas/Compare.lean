import Verif.Spec.Compare
import Verif.Lemmas.AbiBytes
import Verif.Lemmas.EqualBuf

/-
Comparing objects of different classes.
-/
namespace Dart

open Spec Abi

theorem nesting_elem {es : List Val} {v : Val} (h : v ∈ es) : v.nesting ≤ nestingElems es := by
  induction es with
  | nil => cases h
  | cons e es ih =>
    simp only [nestingElems]
    rcases List.mem_cons.1 h with rfl | h
    · omega
    · have := ih h; omega

theorem nesting_field {fs : List (Bytes × Val)} {f : Bytes × Val} (h : f ∈ fs) : f.2.nesting ≤ nestingFields fs := by
  induction fs with
  | nil => cases h
  | cons e es ih =>
    obtain ⟨k, v⟩ := e
    simp only [nestingFields]
    rcases List.mem_cons.1 h with rfl | h
    · simp only; omega
    · have := ih h; omega

theorem nesting_idx (es : List Val) (i : Nat) : (es[i]?.getD .null).nesting ≤ nestingElems es := by
  cases h : es[i]? with
  | none => simp [Val.nesting]
  | some v => exact nesting_elem (List.mem_of_getElem? h)

theorem nesting_found {signed f : Bool} {fs : List (Bytes × Val)} {k : Bytes} {r : Option Val} (h : Found signed f fs k r) :
    (r.getD .null).nesting ≤ nestingFields fs := by
  cases r with
  | none => simp [Val.nesting]
  | some v =>
    rcases h with h | ⟨_, _, h⟩
    · exact nesting_field (lookup_some_mem h.symm)
    · cases h

theorem Held.getKey {z signed f : Bool} {p : Pkt} {fs : List (Bytes × Val)} (h : Held z p ⟨f, .obj fs⟩) (k : Bytes) :
    ∃ r q, PRead.run signed p (.get k) = .ok q ∧ Found signed f fs k r ∧ Held z q ⟨f, r.getD .null⟩ := by
  obtain ⟨out, h1, h2⟩ := read_ok (signed := signed) (f := fun a : Pkt => a) (g := fun _ => ⟨false, .null⟩) h (.get k) trivial
  obtain ⟨r, h3, rfl⟩ := h1
  change Outcome z (PRead.run signed p (.get k)) _ at h2
  cases hr : PRead.run signed p (.get k) with
  | ok q => rw [hr] at h2; exact ⟨r, q, rfl, h3, h2⟩
  | throw e => rw [hr] at h2; exact h2.elim
  | ub => rw [hr] at h2; exact h2.elim

/-- What is to be shown of a comparison. -/
def CmpOk (signed : Bool) (x : Res Bool) (a b : PState) : Prop :=
  ∃ r, x = .ok r ∧ (r = true → Cross (Found signed) a b) ∧
    (Findable signed a → Findable signed b → Cross (fun _ => Faithful) a b → r = true)

theorem plain_found {signed f : Bool} {fs : List (Bytes × Val)} (hp : Findable signed ⟨f, .obj fs⟩) {k : Bytes} {r : Option Val}
    (h : Found signed f fs k r) : r = lookup fs k := by
  rcases h with h | ⟨h0, ⟨g, hg, hn⟩, _⟩
  · exact h
  · have : PlainFields signed fs := by simpa [Val.PlainKeys] using hp h0
    exact absurd (plainFields_iff.1 this g hg).1 hn

theorem findable_lookup {signed f : Bool} {fs : List (Bytes × Val)} (hp : Findable signed ⟨f, .obj fs⟩) (k : Bytes) :
    Findable signed ⟨f, (lookup fs k).getD .null⟩ := by
  intro h
  have : PlainFields signed fs := by simpa [Val.PlainKeys] using hp h
  cases hl : lookup fs k with
  | none => simp [Val.PlainKeys]
  | some u => exact (plainFields_iff.1 this _ (lookup_some_mem hl)).2

theorem findable_field {signed f : Bool} {fs : List (Bytes × Val)} (hp : Findable signed ⟨f, .obj fs⟩) {g : Bytes × Val} (hg : g ∈ fs) :
    Findable signed ⟨f, g.2⟩ := by
  intro h
  have : PlainFields signed fs := by simpa [Val.PlainKeys] using hp h
  exact (plainFields_iff.1 this _ hg).2

theorem findable_idx {signed f : Bool} {es : List Val} (hp : Findable signed ⟨f, .arr es⟩) (i : Nat) :
    Findable signed ⟨f, es[i]?.getD .null⟩ := by
  intro h
  have : PlainElems signed es := by simpa [Val.PlainKeys] using hp h
  cases hl : es[i]? with
  | none => simp [Val.PlainKeys]
  | some u => exact plainElems_iff.1 this _ (List.mem_of_getElem? hl)

section generic
variable {z y signed : Bool} {cmp : Pkt → Pkt → Res Bool} {m : Nat}

theorem cmpFields_ok {f g : Bool} {l : Pkt} {fs : List (Bytes × Val)} (hl : Held z l ⟨f, .obj fs⟩)
    (H : ∀ p q a b, Held y p a → Held z q b → a.value.nesting + b.value.nesting < m → CmpOk signed (cmp p q) a b) :
    ∀ (gs : List (Bytes × Val)) (ks vs : List Pkt), Each (fun k f => k.strv = .ok f.1) ks gs →
      Each (fun q x => Held y q ⟨g, x.2⟩) vs gs → nestingFields gs + nestingFields fs < m →
    ∃ r, cmpFields signed cmp l ks vs = .ok r ∧
      (r = true → ∃ s : Bytes → Option Val, (∀ k, Found signed f fs k (s k)) ∧
        ∀ x ∈ gs, Cross (Found signed) ⟨g, x.2⟩ ⟨f, (s x.1).getD .null⟩) ∧
      (Findable signed ⟨f, .obj fs⟩ → (∀ x ∈ gs, Findable signed ⟨g, x.2⟩) →
        (∀ x ∈ gs, Cross (fun _ => Faithful) ⟨g, x.2⟩ ⟨f, (lookup fs x.1).getD .null⟩) → r = true) := by
  have hf : ∀ k, ∃ r : Option Val, Found signed f fs k r ∧ ∃ q, PRead.run signed l (.get k) = .ok q ∧ Held z q ⟨f, r.getD .null⟩ :=
    fun k => by obtain ⟨r, q, h1, h2, h3⟩ := hl.getKey (signed := signed) k; exact ⟨r, h2, q, h1, h3⟩
  let s : Bytes → Option Val := fun k => Classical.choose (hf k)
  have hs : ∀ k, Found signed f fs k (s k) ∧ ∃ q, PRead.run signed l (.get k) = .ok q ∧ Held z q ⟨f, (s k).getD .null⟩ :=
    fun k => Classical.choose_spec (hf k)
  intro gs
  suffices K : ∀ (ks vs : List Pkt), Each (fun k f => k.strv = .ok f.1) ks gs →
      Each (fun q x => Held y q ⟨g, x.2⟩) vs gs → nestingFields gs + nestingFields fs < m →
      ∃ r, cmpFields signed cmp l ks vs = .ok r ∧
      (r = true → ∀ x ∈ gs, Cross (Found signed) ⟨g, x.2⟩ ⟨f, (s x.1).getD .null⟩) ∧
      (Findable signed ⟨f, .obj fs⟩ → (∀ x ∈ gs, Findable signed ⟨g, x.2⟩) →
        (∀ x ∈ gs, Cross (fun _ => Faithful) ⟨g, x.2⟩ ⟨f, (lookup fs x.1).getD .null⟩) → r = true) by
    intro ks vs hk hv hm
    obtain ⟨r, h1, h2, h3⟩ := K ks vs hk hv hm
    exact ⟨r, h1, fun hr => ⟨s, fun k => (hs k).1, h2 hr⟩, h3⟩
  induction gs with
  | nil =>
    intro ks vs hk hv _
    cases ks with
    | cons => exact hk.elim
    | nil => exact ⟨true, by simp [cmpFields], fun _ x hx => (by cases hx), fun _ _ _ => rfl⟩
  | cons x gs ih =>
    intro ks vs hk hv hm
    obtain ⟨kk, w⟩ := x
    cases ks with
    | nil => exact hk.elim
    | cons k ks =>
    cases vs with
    | nil => exact hv.elim
    | cons v vs =>
    obtain ⟨hk1, hk2⟩ := hk
    obtain ⟨hv1, hv2⟩ := hv
    simp only at hk1 hv1
    obtain ⟨q, hq1, hq2⟩ := (hs kk).2
    have hnf := nesting_found (hs kk).1
    simp only [nestingFields] at hm
    obtain ⟨r, c1, c2, c3⟩ := H v q _ _ hv1 hq2 (by simp only; omega)
    simp only [cmpFields, hk1, Res.bind_ok, hq1, c1]
    cases r with
    | false =>
      refine ⟨false, rfl, by simp, fun hp hg hc => ?_⟩
      have e := plain_found hp (hs kk).1
      refine c3 (hg (kk, w) (by simp)) ?_ ?_
      · rw [e]; exact findable_lookup hp kk
      · rw [e]; exact hc (kk, w) (by simp)
    | true =>
      obtain ⟨r, d1, d2, d3⟩ := ih ks vs hk2 hv2 (by omega)
      refine ⟨r, by simpa using d1, fun hr => ?_, fun hp hg hc => d3 hp (fun x hx => hg x (by simp [hx])) fun x hx => hc x (by simp [hx])⟩
      rw [List.forall_mem_cons]
      exact ⟨c2 rfl, d2 hr⟩

theorem cmpElems_ok {f g : Bool} {l r : Pkt} {es gs : List Val} (hl : Held z l ⟨f, .arr es⟩) (hr : Held y r ⟨g, .arr gs⟩)
    (H : ∀ p q a b, Held z p a → Held y q b → a.value.nesting + b.value.nesting < m → CmpOk signed (cmp p q) a b)
    (hm : nestingElems es + nestingElems gs < m) :
    ∀ (n i : Nat), ∃ t, cmpElems signed cmp l r n i = .ok t ∧
      (t = true → ∀ j, i ≤ j → j < i + n → Cross (Found signed) ⟨f, es[j]?.getD .null⟩ ⟨g, gs[j]?.getD .null⟩) ∧
      (Findable signed ⟨f, .arr es⟩ → Findable signed ⟨g, .arr gs⟩ →
        (∀ j, i ≤ j → j < i + n → Cross (fun _ => Faithful) ⟨f, es[j]?.getD .null⟩ ⟨g, gs[j]?.getD .null⟩) → t = true)
  | 0, i => ⟨true, rfl, fun _ j h1 h2 => by omega, fun _ _ _ => rfl⟩
  | n + 1, i => by
    obtain ⟨p, p1, p2⟩ := hl.getIdx (signed := signed) i
    obtain ⟨q, q1, q2⟩ := hr.getIdx (signed := signed) i
    have n1 := nesting_idx es i
    have n2 := nesting_idx gs i
    obtain ⟨t, c1, c2, c3⟩ := H p q _ _ p2 q2 (by simp only; omega)
    simp only [cmpElems, p1, q1, Res.bind_ok, c1]
    cases t with
    | false =>
      exact ⟨false, rfl, by simp, fun hp hg hc => c3 (findable_idx hp i) (findable_idx hg i) (hc i (by omega) (by omega))⟩
    | true =>
      obtain ⟨t, d1, d2, d3⟩ := cmpElems_ok hl hr H hm n (i + 1)
      refine ⟨t, by simpa using d1, fun ht j h1 h2 => ?_, fun hp hg hc => d3 hp hg fun j h1 h2 => hc j (by omega) (by omega)⟩
      by_cases h : j = i
      · subst h; exact c2 rfl
      · exact d2 ht j (by omega) (by omega)

end generic

/-- `generic_compare` on the two sides, given that comparing elements is right. -/
theorem generic_ok {z y signed : Bool} {cmp : Pkt → Pkt → Res Bool} {m : Nat}
    (H : ∀ {z y : Bool} p q a b, Held z p a → Held y q b → a.value.nesting + b.value.nesting < m → CmpOk signed (cmp p q) a b)
    {l r : Pkt} {a b : PState} (hl : Held z l a) (hr : Held y r b) (hm : a.value.nesting + b.value.nesting < m + 1) :
    ∃ t, genericCompare signed cmp l r = .ok t ∧ (t = true → Looks (Found signed) a.finalized b.finalized a.value b.value) ∧
      (Findable signed a → Findable signed b → Looks (fun _ => Faithful) a.finalized b.finalized a.value b.value → t = true) := by
  have hty : ∀ {F f g v w}, Looks F f g v w → v.ty = w.ty := by intro F f g v w h; cases h <;> rfl
  unfold genericCompare
  rw [hl.getType, hr.getType, hl.size, hr.size, hl.strv, hr.strv, hl.integer, hr.integer, hl.decimal, hr.decimal]
  obtain ⟨f, v⟩ := a
  obtain ⟨g, w⟩ := b
  simp only at hm ⊢
  by_cases ht : v.ty ≠ w.ty
  · rw [if_pos ht]
    exact ⟨false, rfl, by simp, fun _ _ h => absurd (hty h) ht⟩
  rw [if_neg ht]
  replace ht : v.ty = w.ty := Classical.byContradiction ht
  cases v with
  | null =>
    cases w <;> simp [Val.ty] at ht
    exact ⟨true, rfl, fun _ => .null, fun _ _ _ => rfl⟩
  | bool c =>
    cases w <;> simp [Val.ty] at ht
    rename_i d
    rw [hl.boolean (by simp) (by simp), hr.boolean (by simp) (by simp)]
    refine ⟨c == d, rfl, fun h => ?_, fun _ _ h => by cases h; simp⟩
    rw [beq_iff_eq] at h; subst h; exact .bool _
  | int c =>
    cases w <;> simp [Val.ty] at ht
    rename_i d
    refine ⟨c == d, rfl, fun h => ?_, fun _ _ h => by cases h; simp⟩
    rw [beq_iff_eq] at h; subst h; exact .int _
  | dec c =>
    cases w <;> simp [Val.ty] at ht
    rename_i d
    refine ⟨decEq c d, rfl, fun h => .dec ((decEq_iff _ _).1 h), fun _ _ h => ?_⟩
    cases h with | dec h => exact (decEq_iff _ _).2 h
  | str c =>
    cases w <;> simp [Val.ty] at ht
    rename_i d
    refine ⟨c == d, rfl, fun h => ?_, fun _ _ h => by cases h; simp⟩
    rw [beq_iff_eq] at h; subst h; exact .str _
  | arr es =>
    cases w <;> simp [Val.ty] at ht
    rename_i gs
    simp only [Val.ty, Val.size, Res.bind_ok]
    by_cases hn : es.length = gs.length
    · rw [if_neg (by simpa using hn)]
      simp only [Val.nesting] at hm
      obtain ⟨t, h1, h2, h3⟩ := cmpElems_ok hl hr H (by omega) es.length 0
      have hi : ∀ {i} (h : i < es.length), es[i]?.getD .null = es[i] ∧ gs[i]?.getD .null = gs[i]'(hn ▸ h) := by
        intro i h
        rw [List.getElem?_eq_getElem h, List.getElem?_eq_getElem (hn ▸ h)]
        exact ⟨rfl, rfl⟩
      refine ⟨t, h1, fun ht => ?_, fun hp hg h => h3 hp hg fun j _ hj => ?_⟩
      · refine .arr hn (fun hf i h => ?_) (fun hf i h => ?_)
        · have := h2 ht i (by omega) (by omega)
          rw [(hi h).1, (hi h).2] at this
          simpa [Cross, hf] using this
        · have := h2 ht i (by omega) (by omega)
          rw [(hi h).1, (hi h).2] at this
          simpa [Cross, hf] using this
      · have hj : j < es.length := by omega
        rw [(hi hj).1, (hi hj).2]
        cases h with
        | arr _ k1 k2 =>
          cases f with
          | true => simpa [Cross] using k1 rfl j hj
          | false => simpa [Cross] using k2 rfl j hj
    · rw [if_pos hn]
      exact ⟨false, rfl, by simp, fun _ _ h => by cases h with | arr h => exact absurd h hn⟩
  | obj fs =>
    cases w <;> simp [Val.ty] at ht
    rename_i gs
    simp only [Val.ty, Val.size, Res.bind_ok]
    by_cases hn : fs.length = gs.length
    · rw [if_neg (by simpa using hn)]
      obtain ⟨ks, vs, k1, k2, k3, k4⟩ := hr.fields
      simp only [Val.nesting] at hm
      obtain ⟨t, h1, h2, h3⟩ := cmpFields_ok (signed := signed) hl H gs ks vs k3 k4 (by omega)
      simp only [k1, k2, Res.bind_ok]
      refine ⟨t, h1, fun ht => ?_, fun hp hg h => h3 hp (fun x hx => findable_field hg hx) fun x hx => ?_⟩
      · obtain ⟨s, s1, s2⟩ := h2 ht
        refine .obj hn s (fun x _ => s1 x.1) (fun hf x hx => ?_) (fun hf x hx => ?_)
        · simpa [Cross, hf] using s2 x hx
        · simpa [Cross, hf] using s2 x hx
      · cases h with
        | obj _ r r1 r2 r3 =>
          rw [← show r x.1 = lookup fs x.1 from r1 x hx]
          cases g with
          | true => simpa [Cross] using r2 rfl x hx
          | false => simpa [Cross] using r3 rfl x hx
    · rw [if_pos hn]
      exact ⟨false, rfl, by simp, fun _ _ h => by cases h with | obj h => exact absurd h hn⟩

theorem cmp_ok {signed : Bool} : ∀ (n : Nat) {z y : Bool} (p q : Pkt) (a b : PState), Held z p a → Held y q b →
    a.value.nesting + b.value.nesting < n → CmpOk signed (Pkt.cmp signed n p q) a b
  | 0, _, _, _, _, _, _, _, _, h => by omega
  | n + 1, z, y, p, q, a, b, hp, hq, h => by
    unfold Pkt.cmp
    have hf := hp.inState.1
    by_cases hpf : p.isFinalized = true
    · rw [if_pos hpf]
      obtain ⟨t, h1, h2, h3⟩ := generic_ok (cmp_ok (signed := signed) n) hp hq (by omega)
      rw [hpf] at hf
      rw [← hf] at h2 h3
      exact ⟨t, h1, fun ht => by simpa [Cross, ← hf] using h2 ht,
        fun h4 h5 h6 => h3 h4 h5 (by simpa [Cross, ← hf] using h6)⟩
    · rw [if_neg hpf]
      obtain ⟨t, h1, h2, h3⟩ := generic_ok (cmp_ok (signed := signed) n) hq hp (by omega)
      have hpf : p.isFinalized = false := by simpa using hpf
      rw [hpf] at hf
      rw [← hf] at h2 h3
      exact ⟨t, h1, fun ht => by simpa [Cross, ← hf] using h2 ht,
        fun h4 h5 h6 => h3 h5 h4 (by simpa [Cross, ← hf] using h6)⟩

theorem eqAcross_ok {z y signed : Bool} {p q : Pkt} {a b : PState} (hp : Held z p a) (hq : Held y q b) :
    CmpOk signed (Pkt.eqAcross signed p q) a b := by
  refine cmp_ok _ p q a b hp hq ?_
  simp only [Pkt.nesting, hp.toHeap, hq.toHeap]
  omega

/-! ### What the comparison means -/

theorem alikeEq_symm {v w : Val} (h : Alike Eq v w) : Alike Eq w v := by
  induction h with
  | null => exact .null
  | bool b => exact .bool b
  | int i => exact .int i
  | dec h => exact .dec ⟨h.2 ▸ h.1, h.2.symm⟩
  | str h => exact .str h.symm
  | arr hl _ ih => exact .arr hl.symm fun i hi => ih i (hl ▸ hi)
  | obj hl hk _ ih => exact .obj hl.symm (fun i hi => (hk i (hl ▸ hi)).symm) fun i hi => ih i (hl ▸ hi)

theorem noNull_arr {es : List Val} (h : NoNullField (.arr es)) : ∀ e ∈ es, NoNullField e := by
  cases h with
  | scalar h => exact absurd rfl (h _)
  | arr h => exact h

theorem noNull_obj {fs : List (Bytes × Val)} (h : NoNullField (.obj fs)) : (∀ f ∈ fs, f.2 ≠ .null) ∧ ∀ f ∈ fs, NoNullField f.2 := by
  cases h with
  | scalar _ h => exact absurd rfl (h _)
  | obj h h' => exact ⟨h, h'⟩

/-- Objects of the same size in which everything in the one is found in the other. -/
theorem alike_of_found {fs gs : List (Bytes × Val)} (hf : (Val.obj fs).WF) (hg : (Val.obj gs).WF) (hl : fs.length = gs.length)
    (h : ∀ g ∈ gs, ∃ u, lookup fs g.1 = some u ∧ Alike Eq u g.2) : Alike Eq (.obj fs) (.obj gs) := by
  have hv := wf_obj.1 hf
  have hw := wf_obj.1 hg
  have hk := keys_eq hv.1 hw.1 hl (by
    intro k hk
    obtain ⟨g, hg, rfl⟩ := List.mem_map.1 hk
    obtain ⟨u, h, _⟩ := h g hg
    exact List.mem_map.2 ⟨(g.1, u), lookup_some_mem h, rfl⟩)
  have hki : ∀ i (h : i < fs.length), fs[i].1 = (gs[i]'(hl ▸ h)).1 := by
    intro i h
    have h1 : (fs.map (·.1))[i]'(by simpa using h) = (gs.map (·.1))[i]'(by simpa using hl ▸ h) := by
      simp only [hk]
    simpa using h1
  refine .obj hl hki fun i hi => ?_
  obtain ⟨u, h2, h4⟩ := h _ (List.getElem_mem (hl ▸ hi))
  have h3 : lookup fs fs[i].1 = some fs[i].2 := lookup_of_mem hv.1 (List.getElem_mem hi)
  rw [hki i hi, h2] at h3
  injection h3 with h3
  exact h3 ▸ h4

theorem looks_alike {signed fl fr : Bool} {v w : Val} (h : Looks (Found signed) fl fr v w) (hv : v.WF) (hw : w.WF) (nv : NoNullField v)
    (nw : NoNullField w) : Alike Eq v w := by
  induction h with
  | null => exact .null
  | bool b => exact .bool b
  | int b => exact .int b
  | dec h => exact .dec h
  | str s => exact .str rfl
  | arr hl q1 q2 ih1 ih2 =>
    rename_i fl fr es gs
    refine .arr hl fun i hi => ?_
    have a1 := wf_arr.1 hv _ (List.getElem_mem hi)
    have a2 := wf_arr.1 hw _ (List.getElem_mem (hl ▸ hi))
    have b1 := noNull_arr nv _ (List.getElem_mem hi)
    have b2 := noNull_arr nw _ (List.getElem_mem (hl ▸ hi))
    cases fl with
    | true => exact ih1 rfl i hi a1 a2 b1 b2
    | false => exact alikeEq_symm (ih2 rfl i hi a2 a1 b2 b1)
  | obj hl r hf h1 h2 ih1 ih2 =>
    rename_i fl fr fs gs
    obtain ⟨n1, n2⟩ := noNull_obj nv
    obtain ⟨n3, n4⟩ := noNull_obj nw
    have hv' := wf_obj.1 hv
    have hw' := wf_obj.1 hw
    refine alike_of_found hv hw hl fun g hg => ?_
    cases e : r g.1 with
    | none =>
      exfalso
      refine n3 g hg ?_
      cases fr with
      | true =>
        have := h1 rfl g hg
        rw [e] at this
        generalize g.2 = x at this
        cases this; rfl
      | false =>
        have := h2 rfl g hg
        rw [e] at this
        generalize g.2 = x at this
        cases this; rfl
    | some u =>
      have hlk : lookup fs g.1 = some u := by
        rcases hf g hg with h | ⟨_, _, h⟩
        · rw [← h, e]
        · rw [e] at h; cases h
      have hm := lookup_some_mem hlk
      refine ⟨u, hlk, ?_⟩
      have a1 := (hv'.2 _ hm).2
      have a2 := (hw'.2 _ hg).2
      have b1 := n2 _ hm
      have b2 := n4 _ hg
      simp only at a1 b1
      cases fr with
      | true =>
        have := ih1 rfl g hg a2 (by rw [e]; exact a1) b2 (by rw [e]; exact b1)
        rw [e] at this
        exact alikeEq_symm this
      | false =>
        have := ih2 rfl g hg (by rw [e]; exact a1) a2 (by rw [e]; exact b1) b2
        rw [e] at this
        exact this

theorem alike_looks {v w : Val} (h : Alike Eq v w) (hv : v.WF) (hw : w.WF) (fl fr : Bool) :
    Looks (fun _ => Faithful) fl fr v w ∧ Looks (fun _ => Faithful) fl fr w v := by
  induction h generalizing fl fr with
  | null => exact ⟨.null, .null⟩
  | bool b => exact ⟨.bool b, .bool b⟩
  | int b => exact ⟨.int b, .int b⟩
  | dec h => exact ⟨.dec h, .dec ⟨h.2 ▸ h.1, h.2.symm⟩⟩
  | str h => subst h; exact ⟨.str _, .str _⟩
  | arr hl q ih =>
    rename_i es gs
    have k : ∀ i (h : i < es.length) fl fr, _ := fun i h => ih i h (wf_arr.1 hv _ (List.getElem_mem h)) (wf_arr.1 hw _ (List.getElem_mem (hl ▸ h)))
    exact ⟨.arr hl (fun _ i h => (k i h fl fr).1) (fun _ i h => (k i h fr fl).2),
      .arr hl.symm (fun _ i h => (k i (hl ▸ h) fl fr).2) (fun _ i h => (k i (hl ▸ h) fr fl).1)⟩
  | obj hl hk q ih =>
    rename_i fs gs
    have hv := wf_obj.1 hv
    have hw := wf_obj.1 hw
    have k : ∀ i (h : i < fs.length) fl fr, _ := fun i h => ih i h (hv.2 _ (List.getElem_mem h)).2 (hw.2 _ (List.getElem_mem (hl ▸ h))).2
    have e1 : ∀ i (h : i < fs.length), lookup fs (gs[i]'(hl ▸ h)).1 = some fs[i].2 := fun i h => by
      rw [← hk i h]; exact lookup_of_mem hv.1 (List.getElem_mem h)
    have e2 : ∀ i (h : i < fs.length), lookup gs fs[i].1 = some (gs[i]'(hl ▸ h)).2 := fun i h => by
      rw [hk i h]; exact lookup_of_mem hw.1 (List.getElem_mem (hl ▸ h))
    refine ⟨.obj hl (lookup fs) (fun _ _ => rfl) (fun _ g hg => ?_) (fun _ g hg => ?_),
      .obj hl.symm (lookup gs) (fun _ _ => rfl) (fun _ g hg => ?_) (fun _ g hg => ?_)⟩ <;>
      obtain ⟨i, hi, rfl⟩ := List.getElem_of_mem hg
    · rw [e1 i (hl ▸ hi)]; exact (k i (hl ▸ hi) fr fl).2
    · rw [e1 i (hl ▸ hi)]; exact (k i (hl ▸ hi) fl fr).1
    · rw [e2 i hi]; exact (k i hi fr fl).1
    · rw [e2 i hi]; exact (k i hi fl fr).2

/-- Objects of different classes, without null fields: equal only if they are alike. -/
theorem cross_alike {signed : Bool} {a b : PState} (h : Cross (Found signed) a b) (ha : a.value.WF) (hb : b.value.WF)
    (na : NoNullField a.value) (nb : NoNullField b.value) : Alike Eq a.value b.value := by
  unfold Cross at h
  split at h
  · exact looks_alike h ha hb na nb
  · exact alikeEq_symm (looks_alike h hb ha nb na)

theorem alike_cross {a b : PState} (h : Alike Eq a.value b.value) (ha : a.value.WF) (hb : b.value.WF) :
    Cross (fun _ => Faithful) a b := by
  unfold Cross
  split
  · exact (alike_looks h ha hb _ _).1
  · exact (alike_looks h ha hb _ _).2

/-! ### Objects of the same class -/

theorem Spec.Consistent.swap {sh : Sharing} {p q : Pkt} (h : Consistent sh p q) : Consistent sh.swap q p :=
  ⟨fun i v w hi => (h.inside i w v hi).symm, fun hp b c hb hc ht => by
    obtain ⟨h1, h2, h3⟩ := h.ptr hp c b hc hb ht.symm
    exact ⟨h1.symm, h2.symm, h3.symm⟩⟩

theorem mixedEq_symm (v w : Val) : mixedEq v w = mixedEq w v := by
  have hd : ∀ a b, decEq a b = decEq b a := fun a b => by
    rw [Bool.eq_iff_iff, decEq_iff, decEq_iff]
    exact ⟨fun h => ⟨h.2 ▸ h.1, h.2.symm⟩, fun h => ⟨h.2 ▸ h.1, h.2.symm⟩⟩
  have hs : ∀ s t, strEq s t = strEq t s := fun s t => by
    rw [Bool.eq_iff_iff, strEq_iff, strEq_iff]
    exact ⟨upToNul_symm, upToNul_symm⟩
  cases v <;> cases w <;> simp [mixedEq, hd, hs, Bool.beq_comm]

theorem mixedEq_iff {v w : Val} (hv : Ordinary v) (hw : Ordinary w) (hs : (∀ es, v ≠ .arr es) ∧ ∀ fs, v ≠ .obj fs) :
    mixedEq v w = true ↔ v = w := by
  have : mixedEq v w = v.eqOp (fun _ _ _ => false) w := by
    cases v <;> cases w <;> simp [mixedEq, Val.eqOp, heapEq]
    · exact absurd rfl (hs.1 _)
    · exact absurd rfl (hs.2 _)
  rw [this]
  constructor
  · intro h
    exact eq_of_alike (alike_of_heapEq (by simp) v [] w (.inl (noNaN_of_ordinary hv)) h) hv hw
  · rintro rfl
    exact heapEq_of_alike _ (alike_refl v (noNaN_of_ordinary hv)) []

theorem eqTyped_answers {signed sameRc : Bool} {sh : Sharing} {p q : Pkt} {a b : PState} (hp : Held true p a) (hq : Held true q b)
    (hc : Consistent sh p q) : ∃ r, Pkt.eqTyped signed sameRc sh p q = .ok r := by
  cases p with
  | heap v =>
    cases q with
    | heap w => exact ⟨_, rfl⟩
    | buf c => obtain ⟨r, h, _⟩ := eqVal_ok (signed := signed) v c _ hq.2; exact ⟨r, h⟩
  | buf d =>
    cases q with
    | heap w => obtain ⟨r, h, _⟩ := eqVal_ok (signed := signed) w d _ hp.2; exact ⟨r, h⟩
    | buf c =>
      obtain ⟨r, h, _⟩ := Buf.eq_ok hp.2 hq.2 (sameObj := false) (samePtr := sh.ptr) (by simp) fun h => hc.ptr h d c rfl rfl
      exact ⟨r, h⟩

theorem plainNums_of_ordinary {v : Val} (h : Ordinary v) : PlainNums v := by
  unfold Ordinary at h
  unfold PlainNums
  induction h with
  | null => exact .null
  | bool b => exact .bool b
  | int i => exact .int i
  | dec h => exact .dec h
  | str _ => exact .str trivial
  | arr _ ih => exact .arr ih
  | obj _ _ ih => exact .obj (fun _ _ => trivial) ih

/-- Finalized values are equal if their bytes are, whatever else. -/
theorem eqTyped_bufs {signed sameRc : Bool} {sh : Sharing} {p q : Pkt} {a b : PState} (hp : Held true p a) (hq : Held true q b)
    (hc : Consistent sh p q) (fa : a.finalized = true) (fb : b.finalized = true) :
    Pkt.eqTyped signed sameRc sh p q = .ok true ↔ a.value = b.value := by
  cases p with
  | heap v => obtain ⟨rfl, _⟩ := hp; cases fa
  | buf d =>
    cases q with
    | heap w => obtain ⟨rfl, _⟩ := hq; cases fb
    | buf c =>
      obtain ⟨r, h, h'⟩ := Buf.eq_ok hp.2 hq.2 (sameObj := false) (samePtr := sh.ptr) (by simp) fun h => hc.ptr h d c rfl rfl
      simp only [Pkt.eqTyped]
      rw [h, ← h', Res.ok.injEq]

theorem eqTyped_iff {signed sameRc : Bool} {sh : Sharing} {p q : Pkt} {a b : PState} (hp : Held true p a) (hq : Held true q b)
    (hc : Consistent sh p q) (oa : Ordinary a.value) (ob : Ordinary b.value) (na : NoNullField a.value) (nb : NoNullField b.value)
    (ka : Findable signed a) (kb : Findable signed b)
    (hs : sameRc = true ∨ a.finalized = true ∨ b.finalized = true ∨ ((∀ es, a.value ≠ .arr es) ∧ ∀ fs, a.value ≠ .obj fs)) :
    Pkt.eqTyped signed sameRc sh p q = .ok true ↔ a.value = b.value := by
  have gen : ∀ {c : Buf} {v w : Val}, Shows true c v → v.PlainKeys signed → NoNullField w → w.WF → PlainNums v → PlainNums w →
      (c.eqVal signed w = .ok true ↔ v = w) := by
    intro c v w h1 h2 h3 h4 h5 h6
    obtain ⟨r, e1, e2, e3⟩ := eqVal_ok (signed := signed) w c v h1
    rw [e1]
    constructor
    · intro h
      injection h with h
      exact eq_of_alikeEq (alike_of_alikeOrNull (e2 h) h1.wf h4 h3) h5 h6
    · rintro rfl
      rw [e3 h2 (alikeOrNull_of_alike (alikeEq_refl h5) h4)]
  cases p with
  | heap v =>
    obtain ⟨rfl, hv⟩ := hp
    cases q with
    | heap w =>
      obtain ⟨rfl, hw⟩ := hq
      simp only [Pkt.eqTyped, Res.ok.injEq]
      cases sameRc with
      | true =>
        rw [if_pos rfl]
        constructor
        · intro h
          exact eq_of_alike (alike_of_heapEq hc.inside v [] w (.inl (noNaN_of_ordinary oa)) h) oa ob
        · rintro rfl
          exact heapEq_of_alike _ (alike_refl v (noNaN_of_ordinary oa)) []
      | false =>
        rw [if_neg (by simp)]
        rcases hs with h | h | h | h
        · cases h
        · cases h
        · cases h
        · exact mixedEq_iff oa ob h
    | buf c =>
      simp only [Pkt.eqTyped]
      rw [gen hq.2 (kb hq.1) na hv (plainNums_of_ordinary ob) (plainNums_of_ordinary oa)]
      exact eq_comm
  | buf d =>
    cases q with
    | heap w =>
      obtain ⟨rfl, hw⟩ := hq
      exact gen hp.2 (ka hp.1) nb hw (plainNums_of_ordinary oa) (plainNums_of_ordinary ob)
    | buf c => exact eqTyped_bufs hp hq hc hp.1 hq.1

theorem eqTyped_symm {signed sameRc : Bool} {sh : Sharing} {p q : Pkt} {a b : PState} (hp : Held true p a) (hq : Held true q b)
    (hc : Consistent sh p q) : Pkt.eqTyped signed sameRc sh p q = Pkt.eqTyped signed sameRc sh.swap q p := by
  cases p with
  | heap v =>
    cases q with
    | heap w =>
      simp only [Pkt.eqTyped]
      cases sameRc with
      | true =>
        rw [if_pos rfl, if_pos rfl, Res.ok.injEq, Bool.eq_iff_iff]
        exact ⟨heapEq_swap v [] w, fun h => heapEq_swap w [] v h⟩
      | false => rw [if_neg (by simp), if_neg (by simp), mixedEq_symm]
    | buf c => rfl
  | buf d =>
    cases q with
    | heap w => rfl
    | buf c =>
      obtain ⟨r, h⟩ := eqTyped_answers (signed := signed) (sameRc := sameRc) hp hq hc
      obtain ⟨t, g⟩ := eqTyped_answers (signed := signed) (sameRc := sameRc) hq hp hc.swap
      have h1 := eqTyped_bufs (signed := signed) (sameRc := sameRc) hp hq hc hp.1 hq.1
      have h2 := eqTyped_bufs (signed := signed) (sameRc := sameRc) hq hp hc.swap hq.1 hp.1
      rw [h, Res.ok.injEq] at h1
      rw [g, Res.ok.injEq] at h2
      rw [h, g, Res.ok.injEq, Bool.eq_iff_iff, h1, h2]
      exact eq_comm

/-! ### Objects of different classes -/

theorem eqAcross_iff {signed : Bool} {p q : Pkt} {a b : PState} (hp : Held true p a) (hq : Held true q b)
    (na : NoNullField a.value) (nb : NoNullField b.value) (ka : Findable signed a) (kb : Findable signed b) :
    Pkt.eqAcross signed p q = .ok true ↔ Alike Eq a.value b.value := by
  obtain ⟨r, h1, h2, h3⟩ := eqAcross_ok (signed := signed) hp hq
  rw [h1, Res.ok.injEq]
  exact ⟨fun h => cross_alike (h2 h) hp.wf hq.wf na nb, fun h => h3 ka kb (alike_cross h hp.wf hq.wf)⟩

theorem eqAcross_symm {signed : Bool} {p q : Pkt} (h : p.isFinalized ≠ q.isFinalized) :
    Pkt.eqAcross signed p q = Pkt.eqAcross signed q p := by
  unfold Pkt.eqAcross
  rw [Nat.add_comm p.nesting]
  simp only [Pkt.cmp]
  cases hp : p.isFinalized <;> cases hq : q.isFinalized <;> rw [hp, hq] at h <;> first | exact absurd rfl h | simp

end Dart
