import Verif.Lemmas.Equal
import Verif.Lemmas.Laws
import Verif.Lemmas.Packet
import Verif.Lemmas.Nested

namespace Dart
open Spec
variable {z : Bool}

/-! ### Finalized values -/

/-- Values of the same type and size have the same raw type. -/
theorem rawType_of_size {v w : Val} (ht : v.ty = w.ty) (hl : sizeVal v = sizeVal w) :
    v.rawType.forTable = w.rawType.forTable := by
  cases v <;> cases w <;> simp [Val.ty] at ht <;> try rfl
  case str s t =>
    simp only [sizeVal, strSize] at hl
    simp only [Val.rawType]
    have hlw : ∀ s : Bytes, 2 ≤ strLw s ∧ (s.length ≤ 65535 → strLw s = 2) := by
      intro s
      unfold strLw identifyString
      refine ⟨?_, fun hs => ?_⟩
      · split <;> omega
      · rw [if_neg (by omega)]
        split
        · rename_i h; split at h <;> cases h
        · rfl
    have hs := hlw s
    have ht := hlw t
    unfold identifyString
    by_cases h1 : s.length > 65535 <;> by_cases h2 : t.length > 65535
    · simp only [h1, h2, if_true]
    · have := ht.2 (by omega); omega
    · have := hs.2 (by omega); omega
    · simp only [h1, h2, if_false]
      split <;> split <;> rfl
  case int i j =>
    simp only [sizeVal] at hl
    simp only [Val.rawType]
    rcases identifyInteger_cases i with hi | hi | hi <;> rcases identifyInteger_cases j with hj | hj | hj <;>
      rw [hi, hj] at hl ⊢ <;> simp [intBytes] at hl
  case dec i j =>
    simp only [sizeVal, decBytes] at hl
    simp only [Val.rawType, identifyDecimal]
    cases hi : narrowBits i.toNat <;> cases hj : narrowBits j.toNat <;> simp [hi, hj] at hl ⊢

/-- The same bytes do not stand for two values of the same type. -/
theorem Image.unique {z y : Bool} {v w : Val} {bs : Bytes} (hv : v.WF) (hw : w.WF) (fv : Fits v) (fw : Fits w)
    (ht : v.ty = w.ty) (iv : Image z v bs) (iw : Image y w bs) : v = w := by
  have hl : sizeVal v = sizeVal w := by rw [← iv.1, ← iw.1]
  have h1 := decode_stored v (sizeVal v + 1) bs 0 iv.2.1 (Nat.dvd_zero _) hv fv (by omega)
  have h2 := decode_stored w (sizeVal v + 1) bs 0 iw.2.1 (Nat.dvd_zero _) hw fw (by omega)
  rw [rawType_of_size ht hl, h2] at h1
  exact (Option.some.inj h1).symm

theorem Shows.addr_some {b : Buf} {v : Val} (h : Shows z b v) (hn : v.ty ≠ .null) :
    ∃ p, b.type = v.rawType.forTable ∧ b.addr = some p ∧ At z b.mem p v := by
  rcases h with ⟨_, rfl⟩ | h
  · exact absurd rfl hn
  · exact h

/-- Comparing finalized values. -/
theorem Buf.eq_image {y : Bool} {b c : Buf} {v w : Val} (hb : Shows z b v) (hc : Shows y c w) {sameObj samePtr : Bool}
    (ho : sameObj = true → b = c)
    (hp : samePtr = true → b.getType = c.getType → b.mem = c.mem ∧ b.addr = c.addr ∧ b.type = c.type) :
    ∃ r, b.eq sameObj samePtr c = .ok r ∧ (r = true → v = w) ∧ (z = true → y = true → v = w → r = true) := by
  unfold Buf.eq
  by_cases h1 : sameObj = true
  · rw [if_pos h1]
    obtain rfl := ho h1
    have := hb.value_eq hc.value
    exact ⟨true, rfl, by simp [this]⟩
  rw [if_neg h1, hb.getType, hc.getType]
  by_cases h2 : v.ty = .null ∧ w.ty = .null
  · rw [if_pos h2]
    cases v <;> simp [Val.ty] at h2
    cases w <;> simp at h2
    exact ⟨true, rfl, by simp⟩
  rw [if_neg h2]
  by_cases h3 : v.ty ≠ w.ty
  · rw [if_pos h3]
    exact ⟨false, rfl, by simp, fun _ _ h => absurd (h ▸ rfl) h3⟩
  rw [if_neg h3]
  have h3 : v.ty = w.ty := Classical.byContradiction h3
  have hn : v.ty ≠ .null := fun h => h2 ⟨h, h3 ▸ h⟩
  by_cases h4 : samePtr = true
  · rw [if_pos h4]
    obtain ⟨e1, e2, e3⟩ := hp h4 (by rw [hb.getType, hc.getType, h3])
    have : b = c := by cases b; cases c; simp only at e1 e2 e3; subst e1; subst e2; subst e3; rfl
    subst this
    have := hb.value_eq hc.value
    exact ⟨true, rfl, by simp [this]⟩
  rw [if_neg h4]
  obtain ⟨p, _, a2, a3⟩ := hb.addr_some hn
  obtain ⟨q, _, d2, d3⟩ := hc.addr_some (h3 ▸ hn)
  simp only [hb.sizeof, hc.sizeof, Res.ofRead, Res.bind_ok]
  by_cases h5 : sizeVal v = sizeVal w
  · rw [if_pos h5, a2, d2]
    simp only [Res.bind_ok]
    obtain ⟨bs, r1, i1⟩ := a3.image
    obtain ⟨cs, r2, i2⟩ := d3.image
    rw [r1, h5, r2]
    simp only [Res.bind_ok]
    refine ⟨_, rfl, ?_⟩
    rw [beq_iff_eq]
    exact ⟨fun h => Image.unique hb.wf hc.wf hb.fits hc.fits h3 i1 (h ▸ i2), fun e1 e2 h => by rw [i1.2.2 e1, i2.2.2 e2, h]⟩
  · rw [if_neg h5]
    exact ⟨false, rfl, by simp, fun _ _ h => absurd (h ▸ rfl) h5⟩

theorem Buf.eq_ok {b c : Buf} {v w : Val} (hb : Shows true b v) (hc : Shows true c w) {sameObj samePtr : Bool}
    (ho : sameObj = true → b = c)
    (hp : samePtr = true → b.getType = c.getType → b.mem = c.mem ∧ b.addr = c.addr ∧ b.type = c.type) :
    ∃ r, b.eq sameObj samePtr c = .ok r ∧ (r = true ↔ v = w) := by
  obtain ⟨r, h1, h2, h3⟩ := Buf.eq_image hb hc ho hp
  exact ⟨r, h1, h2, h3 rfl rfl⟩

/-! ### Finalized against dynamic -/

theorem plainElems_iff {signed : Bool} {es : List Val} : PlainElems signed es ↔ ∀ e ∈ es, e.PlainKeys signed := by
  induction es with
  | nil => simp [PlainElems]
  | cons e es ih => simp [PlainElems, ih]

theorem eqElems_ok {signed : Bool} {b : Buf} {es : List Val} (hb : Shows z b (.arr es)) :
    ∀ (gs : List Val) (i : Nat), es.length = i + gs.length →
    (∀ g ∈ gs, ∀ (c : Buf) (u : Val), Shows z c u → ∃ r, c.eqVal signed g = .ok r ∧
      (r = true → AlikeOrNull (Found signed true) u g) ∧ (u.PlainKeys signed → AlikeOrNull Faithful u g → r = true)) →
    ∃ r, b.eqElems signed i gs = .ok r ∧
      (r = true → ∀ j (h : j < gs.length), AlikeOrNull (Found signed true) (es[i + j]?.getD .null) gs[j]) ∧
      (PlainElems signed es → (∀ j (h : j < gs.length), AlikeOrNull Faithful (es[i + j]?.getD .null) gs[j]) → r = true)
  | [], i, _, _ => ⟨true, by rw [Buf.eqElems], fun _ j h => by simp at h, fun _ _ => rfl⟩
  | g :: gs, i, hl, ih => by
    obtain ⟨c, h1, h2⟩ := hb.getIdx i
    have hi : i < es.length := by simp at hl; omega
    obtain ⟨r, h3, h4, h5⟩ := ih g (by simp) c _ h2
    rw [Buf.eqElems, h1, Res.bind_ok, h3, Res.bind_ok]
    cases r with
    | false =>
      refine ⟨false, by simp, by simp, fun hp h => ?_⟩
      refine h5 ?_ (h 0 (by simp))
      rw [List.getElem?_eq_getElem hi]
      exact plainElems_iff.1 hp _ (List.getElem_mem hi)
    | true =>
      obtain ⟨r, k1, k2, k3⟩ := eqElems_ok (signed := signed) hb gs (i + 1) (by simp at hl; omega)
        (fun g hg => ih g (List.mem_cons_of_mem _ hg))
      refine ⟨r, by simpa using k1, fun hr j hj => ?_, fun hp h => k3 hp fun j hj => ?_⟩
      · cases j with
        | zero => exact h4 rfl
        | succ j =>
          have := k2 hr j (by simpa using hj)
          rwa [show i + 1 + j = i + (j + 1) by omega] at this
      · have := h (j + 1) (by simpa using hj)
        rwa [show i + (j + 1) = i + 1 + j by omega] at this

theorem eqFields_ok {signed : Bool} {b : Buf} {fs : List (Bytes × Val)} (hb : Shows z b (.obj fs)) :
    ∀ (gs : List (Bytes × Val)),
    (∀ g ∈ gs, ∀ (c : Buf) (u : Val), Shows z c u → ∃ r, c.eqVal signed g.2 = .ok r ∧
      (r = true → AlikeOrNull (Found signed true) u g.2) ∧ (u.PlainKeys signed → AlikeOrNull Faithful u g.2 → r = true)) →
    ∃ r, b.eqFields signed gs = .ok r ∧
      (r = true → ∃ s : Bytes → Option Val, (∀ k, Found signed true fs k (s k)) ∧
        ∀ g ∈ gs, AlikeOrNull (Found signed true) ((s g.1).getD .null) g.2) ∧
      (PlainFields signed fs → (∀ g ∈ gs, AlikeOrNull Faithful ((lookup fs g.1).getD .null) g.2) → r = true) := by
  -- the search result for each key
  have hf : ∀ k, ∃ s : Option Val, Found signed true fs k s ∧ ∃ c, b.get signed k = .ok c ∧ Shows z c (s.getD .null) :=
    fun k => by obtain ⟨r, h1, _, h2, _⟩ := hb.found (signed := signed) k; exact ⟨r, h1, h2⟩
  let s : Bytes → Option Val := fun k => Classical.choose (hf k)
  have hs : ∀ k, Found signed true fs k (s k) ∧ ∃ c, b.get signed k = .ok c ∧ Shows z c ((s k).getD .null) :=
    fun k => Classical.choose_spec (hf k)
  have hpl : PlainFields signed fs → ∀ k, s k = lookup fs k := by
    intro hp k
    rcases (hs k).1 with h | ⟨_, ⟨f, hf, hn⟩, _⟩
    · exact h
    · exact absurd (plainFields_iff.1 hp f hf).1 hn
  intro gs ih
  suffices H : ∃ r, b.eqFields signed gs = .ok r ∧
      (r = true → ∀ g ∈ gs, AlikeOrNull (Found signed true) ((s g.1).getD .null) g.2) ∧
      (PlainFields signed fs → (∀ g ∈ gs, AlikeOrNull Faithful ((lookup fs g.1).getD .null) g.2) → r = true) by
    obtain ⟨r, h1, h2, h3⟩ := H
    exact ⟨r, h1, fun hr => ⟨s, fun k => (hs k).1, h2 hr⟩, h3⟩
  induction gs with
  | nil => exact ⟨true, by rw [Buf.eqFields], fun _ g h => by simp at h, fun _ _ => rfl⟩
  | cons g gs iht =>
    obtain ⟨k, w⟩ := g
    obtain ⟨c, h1, h2⟩ := (hs k).2
    obtain ⟨r, h3, h4, h5⟩ := ih (k, w) (by simp) c _ h2
    rw [Buf.eqFields, h1, Res.bind_ok, h3, Res.bind_ok]
    cases r with
    | false =>
      refine ⟨false, by simp, by simp, fun hp h => ?_⟩
      refine h5 ?_ (by rw [hpl hp]; exact h (k, w) (by simp))
      rw [hpl hp]
      cases hlk : lookup fs k with
      | none => simp [Val.PlainKeys]
      | some u => exact (plainFields_iff.1 hp _ (lookup_some_mem hlk)).2
    | true =>
      obtain ⟨r, k1, k2, k3⟩ := iht (fun g hg => ih g (List.mem_cons_of_mem _ hg))
      refine ⟨r, by simpa using k1, fun hr => ?_, fun hp h => k3 hp fun g hg => h g (List.mem_cons_of_mem _ hg)⟩
      rw [List.forall_mem_cons]
      exact ⟨h4 rfl, k2 hr⟩

/-- Comparing a finalized with a dynamic value. -/
theorem eqVal_ok {signed : Bool} (w : Val) : ∀ (b : Buf) (v : Val), Shows z b v → ∃ r, b.eqVal signed w = .ok r ∧
    (r = true → AlikeOrNull (Found signed true) v w) ∧ (v.PlainKeys signed → AlikeOrNull Faithful v w → r = true) := by
  have hty : ∀ {F v w}, AlikeOrNull F v w → v.ty = w.ty := by intro F v w h; cases h <;> rfl
  have hne : ∀ {b : Buf} {v w : Val}, Shows z b v → v.ty ≠ w.ty → ∃ r, b.eqVal signed w = .ok r ∧
      (r = true → AlikeOrNull (Found signed true) v w) ∧ (v.PlainKeys signed → AlikeOrNull Faithful v w → r = true) := by
    intro b v w hb h
    refine ⟨false, ?_, by simp, fun _ ha => absurd (hty ha) h⟩
    rw [Buf.eqVal.eq_def, if_pos (by rw [hb.getType, getType_eq]; exact h)]
  have hin : ∀ (w : Val) {b : Buf} {v : Val}, Shows z b v → v.ty = w.ty → ¬ b.getType ≠ w.getType := by
    intro w b v hb h; rw [hb.getType, getType_eq, h]; simp
  induction w using Val.ind with
  | hnull =>
    intro b v hb
    cases v <;> first | (refine hne hb ?_; simp [Val.ty]; done) | skip
    exact ⟨true, by rw [Buf.eqVal.eq_def, if_neg (hin .null hb rfl)], fun _ => .null, fun _ _ => rfl⟩
  | hbool c =>
    intro b v hb
    cases v <;> first | (refine hne hb ?_; simp [Val.ty]; done) | skip
    rename_i d
    refine ⟨d == c, ?_, fun h => by rw [beq_iff_eq] at h; subst h; exact .bool _, fun _ h => by cases h; simp⟩
    rw [Buf.eqVal.eq_def, if_neg (hin (.bool c) hb rfl)]
    simp only [hb.boolean (by simp) (by simp), Val.boolean, Res.bind_ok]
  | hint c =>
    intro b v hb
    cases v <;> first | (refine hne hb ?_; simp [Val.ty]; done) | skip
    rename_i d
    refine ⟨d == c, ?_, fun h => by rw [beq_iff_eq] at h; subst h; exact .int _, fun _ h => by cases h; simp⟩
    rw [Buf.eqVal.eq_def, if_neg (hin (.int c) hb rfl)]
    simp only [hb.integer, Val.integer, Res.bind_ok]
  | hdec c =>
    intro b v hb
    cases v <;> first | (refine hne hb ?_; simp [Val.ty]; done) | skip
    rename_i d
    refine ⟨decEq d c, ?_, fun h => .dec ((decEq_iff _ _).1 h), fun _ h => by cases h with | dec h => exact (decEq_iff _ _).2 h⟩
    rw [Buf.eqVal.eq_def, if_neg (hin (.dec c) hb rfl)]
    simp only [hb.decimal, Val.decimal, Res.bind_ok]
  | hstr c =>
    intro b v hb
    cases v <;> first | (refine hne hb ?_; simp [Val.ty]; done) | skip
    rename_i d
    refine ⟨d == c, ?_, fun h => by rw [beq_iff_eq] at h; subst h; exact .str _, fun _ h => by cases h; simp⟩
    rw [Buf.eqVal.eq_def, if_neg (hin (.str c) hb rfl)]
    simp only [hb.strv', Val.strv, Res.bind_ok]
  | harr gs ih =>
    intro b v hb
    cases v <;> first | (refine hne hb ?_; simp [Val.ty]; done) | skip
    rename_i es
    rw [Buf.eqVal.eq_def, if_neg (hin (.arr gs) hb rfl)]
    simp only [hb.size_arr, Res.bind_ok]
    by_cases hl : es.length = gs.length
    · rw [if_neg (by simpa using hl)]
      obtain ⟨r, h1, h2, h3⟩ := eqElems_ok (signed := signed) hb gs 0 (by omega) ih
      refine ⟨r, h1, fun hr => .arr hl fun i hi => ?_, fun hp h => h3 (by simpa [Val.PlainKeys] using hp) ?_⟩
      · have := h2 hr i hi
        rwa [Nat.zero_add, List.getElem?_eq_getElem (hl ▸ hi)] at this
      · cases h with
        | arr _ h =>
          intro j hj
          rw [Nat.zero_add, List.getElem?_eq_getElem (hl ▸ hj)]
          exact h j hj
    · rw [if_pos hl]
      exact ⟨false, rfl, by simp, fun _ h => by cases h with | arr h => exact absurd h hl⟩
  | hobj gs ih =>
    intro b v hb
    cases v <;> first | (refine hne hb ?_; simp [Val.ty]; done) | skip
    rename_i fs
    rw [Buf.eqVal.eq_def, if_neg (hin (.obj gs) hb rfl)]
    simp only [hb.size_obj, Res.bind_ok]
    by_cases hl : fs.length = gs.length
    · rw [if_neg (by simpa using hl)]
      obtain ⟨r, h1, h2, h3⟩ := eqFields_ok (signed := signed) hb gs ih
      refine ⟨r, h1, fun hr => ?_, fun hp h => h3 (by simpa [Val.PlainKeys] using hp) ?_⟩
      · obtain ⟨s, s1, s2⟩ := h2 hr
        exact .obj hl s (fun f _ => s1 f.1) s2
      · cases h with
        | obj _ r h4 h5 =>
          intro g hg
          rw [← show r g.1 = lookup fs g.1 from h4 g hg]
          exact h5 g hg
    · rw [if_pos hl]
      exact ⟨false, rfl, by simp, fun _ h => by cases h with | obj h => exact absurd h hl⟩

/-! ### What the comparison means -/

theorem sorted_nodup {fs : List (Bytes × Val)} (h : Sorted fs) : (fs.map (·.1)).Nodup :=
  nodup_of_strict (fun f : Bytes × Val => f.1) h

theorem keys_eq {fs gs : List (Bytes × Val)} (hf : Sorted fs) (hg : Sorted gs) (hl : fs.length = gs.length)
    (hs : ∀ k ∈ gs.map (·.1), k ∈ fs.map (·.1)) : fs.map (·.1) = gs.map (·.1) := by
  have hs' : ∀ k ∈ fs.map (·.1), k ∈ gs.map (·.1) := by
    intro k hk
    refine Classical.byContradiction fun hn => ?_
    have h1 : (k :: gs.map (·.1)).Nodup := List.nodup_cons.2 ⟨hn, sorted_nodup hg⟩
    have h2 := nodup_length_le h1 (ks := fs.map (·.1)) (by
      intro x hx
      rcases List.mem_cons.1 hx with rfl | hx
      · exact hk
      · exact hs x hx)
    simp at h2; omega
  have hm : ∀ l : List (Bytes × Val), Sorted l → Sorted (l.map fun f => (f.1, Val.null)) := by
    intro l h
    unfold Sorted at h ⊢
    rw [List.pairwise_map]
    exact h
  have hk : ∀ l : List (Bytes × Val), (l.map fun f => (f.1, Val.null)).map (·.1) = l.map (·.1) := by
    intro l; simp
  have := sorted_ext (hm fs hf) (hm gs hg) (by
    funext k
    have key : ∀ l : List (Bytes × Val), ∀ v, lookup (l.map fun f => (f.1, Val.null)) k = some v → v = .null := by
      intro l v h
      have := lookup_some_mem h
      simp only [List.mem_map, Prod.mk.injEq] at this
      obtain ⟨_, _, _, h⟩ := this
      exact h.symm
    have iff : ∀ l : List (Bytes × Val), (lookup (l.map fun f => (f.1, Val.null)) k).isSome ↔ k ∈ l.map (·.1) := by
      intro l; rw [lookup_isSome_iff, hk]
    have h1 := iff fs
    have h2 := iff gs
    cases e1 : lookup (fs.map fun f => (f.1, Val.null)) k with
    | none =>
      cases e2 : lookup (gs.map fun f => (f.1, Val.null)) k with
      | none => rfl
      | some v =>
        rw [e1] at h1; rw [e2] at h2
        exact absurd (h1.2 (hs k (h2.1 rfl))) (by simp)
    | some u =>
      cases e2 : lookup (gs.map fun f => (f.1, Val.null)) k with
      | none =>
        rw [e1] at h1; rw [e2] at h2
        exact absurd (h2.2 (hs' k (h1.1 rfl))) (by simp)
      | some v => rw [key fs u e1, key gs v e2])
  rw [← hk fs, ← hk gs, this]

theorem alike_of_alikeOrNull {signed : Bool} {v w : Val} (h : AlikeOrNull (Found signed true) v w) (hv : v.WF)
    (hw : w.WF) (hn : NoNullField w) : Alike Eq v w := by
  induction h with
  | null => exact .null
  | bool b => exact .bool b
  | int b => exact .int b
  | dec h => exact .dec h
  | str s => exact .str rfl
  | arr hl _ ih =>
    refine .arr hl fun i hi => ih i (hl ▸ hi) (wf_arr.1 hv _ (List.getElem_mem _)) (wf_arr.1 hw _ (List.getElem_mem _)) ?_
    cases hn with
    | scalar h => exact absurd rfl (h _)
    | arr h => exact h _ (List.getElem_mem _)
  | obj hl r hf ha ih =>
    rename_i fs gs
    obtain ⟨hn1, hn2⟩ : (∀ f ∈ gs, f.2 ≠ .null) ∧ (∀ f ∈ gs, NoNullField f.2) := by
      cases hn with
      | scalar _ h => exact absurd rfl (h _)
      | obj h h' => exact ⟨h, h'⟩
    have hv := wf_obj.1 hv
    have hw := wf_obj.1 hw
    have hr : ∀ g ∈ gs, ∃ u, r g.1 = some u ∧ lookup fs g.1 = some u := by
      intro g hg
      have h1 := ha g hg
      cases e : r g.1 with
      | none =>
        rw [e] at h1
        simp only [Option.getD_none] at h1
        have : g.2 = .null := by generalize g.2 = x at h1; cases h1; rfl
        exact absurd this (hn1 g hg)
      | some u =>
        rcases hf g hg with h | ⟨_, _, h⟩
        · rw [e] at h; exact ⟨u, rfl, h.symm⟩
        · rw [e] at h; cases h
    have hk := keys_eq hv.1 hw.1 hl (by
      intro k hk
      obtain ⟨g, hg, rfl⟩ := List.mem_map.1 hk
      obtain ⟨u, _, h⟩ := hr g hg
      exact List.mem_map.2 ⟨(g.1, u), lookup_some_mem h, rfl⟩)
    have hki : ∀ i (h : i < fs.length), fs[i].1 = (gs[i]'(hl ▸ h)).1 := by
      intro i h
      have h1 : (fs.map (·.1))[i]'(by simpa using h) = (gs.map (·.1))[i]'(by simpa using hl ▸ h) := by
        simp only [hk]
      simpa using h1
    refine .obj hl hki fun i hi => ?_
    have hgi : gs[i]'(hl ▸ hi) ∈ gs := List.getElem_mem _
    obtain ⟨u, h1, h2⟩ := hr _ hgi
    have h3 : lookup fs fs[i].1 = some fs[i].2 := lookup_of_mem hv.1 (List.getElem_mem hi)
    rw [hki i hi, h2] at h3
    injection h3 with h3
    have := ih _ hgi (by rw [h1, h3]; exact (hv.2 _ (List.getElem_mem hi)).2) (hw.2 _ hgi).2 (hn2 _ hgi)
    rw [h1, h3] at this
    exact this

theorem alikeOrNull_of_alike {v w : Val} (h : Alike Eq v w) (hv : v.WF) : AlikeOrNull Faithful v w := by
  induction h with
  | null => exact .null
  | bool b => exact .bool b
  | int b => exact .int b
  | dec h => exact .dec h
  | str h => subst h; exact .str _
  | arr hl _ ih => exact .arr hl fun i hi => ih i (hl ▸ hi) (wf_arr.1 hv _ (List.getElem_mem _))
  | obj hl hk ha ih =>
    rename_i fs gs
    have hv := wf_obj.1 hv
    refine .obj hl (lookup fs) (fun _ _ => rfl) fun g hg => ?_
    obtain ⟨i, hi, rfl⟩ := List.getElem_of_mem hg
    have hi' : i < fs.length := hl ▸ hi
    have hlk : lookup fs fs[i].1 = some fs[i].2 := lookup_of_mem hv.1 (List.getElem_mem hi')
    rw [← hk i hi', hlk]
    exact ih i hi' (hv.2 _ (List.getElem_mem hi')).2

theorem alikeOrNull_found {signed : Bool} {v w : Val} (h : AlikeOrNull (Found signed true) v w) (hp : v.PlainKeys signed) :
    AlikeOrNull Faithful v w := by
  induction h with
  | null => exact .null
  | bool b => exact .bool b
  | int b => exact .int b
  | dec h => exact .dec h
  | str s => exact .str s
  | arr hl _ ih =>
    exact .arr hl fun i hi => ih i hi (plainElems_iff.1 (by simpa [Val.PlainKeys] using hp) _ (List.getElem_mem _))
  | obj hl r hf ha ih =>
    rename_i fs gs
    have hp : PlainFields signed fs := by simpa [Val.PlainKeys] using hp
    have hr : ∀ g ∈ gs, r g.1 = lookup fs g.1 := by
      intro g hg
      rcases hf g hg with h | ⟨_, ⟨f, hf, hn⟩, _⟩
      · exact h
      · exact absurd (plainFields_iff.1 hp f hf).1 hn
    refine .obj hl r hr fun g hg => ih g hg ?_
    rw [hr g hg]
    cases e : lookup fs g.1 with
    | none => simp [Val.PlainKeys]
    | some u => exact (plainFields_iff.1 hp _ (lookup_some_mem e)).2

theorem eq_of_alikeEq {v w : Val} (h : Alike Eq v w) (hv : PlainNums v) (hw : PlainNums w) : v = w := by
  induction h with
  | null => rfl
  | bool b => rfl
  | int i => rfl
  | dec h =>
    cases hv with
    | dec hv =>
    cases hw with
    | dec hw =>
    rw [plainNum_eq h hv hw]
  | str h => rw [h]
  | arr hl _ ih =>
    congr 1
    exact List.ext_getElem hl fun i h1 h2 =>
      ih i h1 (every_elem hv _ (List.getElem_mem _)) (every_elem hw _ (List.getElem_mem _))
  | obj hl hk _ ih =>
    congr 1
    refine List.ext_getElem hl fun i h1 h2 => ?_
    have hv := every_field hv _ (List.getElem_mem h1)
    have hw := every_field hw _ (List.getElem_mem h2)
    exact Prod.ext (hk i h1) (ih i h1 hv.2 hw.2)

theorem alikeEq_refl {v : Val} (h : PlainNums v) : Alike Eq v v := by
  induction h with
  | null => exact .null
  | bool b => exact .bool b
  | int i => exact .int i
  | dec h => exact .dec ⟨h.1, rfl⟩
  | str _ => exact .str rfl
  | arr _ ih => exact .arr rfl fun i h => ih _ (List.getElem_mem h)
  | obj _ _ ih => exact .obj rfl (fun i h => rfl) fun i h => ih _ (List.getElem_mem h)

end Dart
