import Verif.Lemmas.ContainerMain
import Verif.Lemmas.Nested
import Verif.Lemmas.Float
import Verif.Spec.ContainerCompare

/-
Facts about comparing packets with containers.
-/
namespace Dart
open Spec

variable {z : Bool}

/-- The call answers whether `P` holds. -/
def Answers (c : Res Bool) (P : Prop) : Prop := ∃ r, c = .ok r ∧ (r = true ↔ P)

theorem answers_false {P : Prop} (h : ¬ P) : Answers (.ok false) P := ⟨false, rfl, by simp [h]⟩
theorem answers_true {P : Prop} (h : P) : Answers (.ok true) P := ⟨true, rfl, by simp [h]⟩
theorem Answers.iff {c : Res Bool} {P Q : Prop} (h : Answers c P) (hpq : P ↔ Q) : Answers c Q := by
  obtain ⟨r, h1, h2⟩ := h
  exact ⟨r, h1, h2.trans hpq⟩

theorem Answers.and {c : Res Bool} {d : Res Bool} {P Q : Prop} (h : Answers c P) (g : P → Answers d Q) :
    Answers (c.bind fun r => if r then d else .ok false) (P ∧ Q) := by
  obtain ⟨r, rfl, h2⟩ := h
  cases r with
  | false => exact answers_false fun hp => by simpa using h2.2 hp.1
  | true =>
    obtain ⟨s, rfl, g2⟩ := g (h2.1 rfl)
    exact ⟨s, rfl, by rw [g2]; exact ⟨fun q => ⟨h2.1 rfl, q⟩, fun q => q.2⟩⟩

/-! ### Lists -/

theorem eqAll_ok {α : Type} {f : Pkt → α → Res Bool} {R : Val → α → Prop} : ∀ {es : List Val} {xs : List α}, es.length = xs.length →
    (∀ e ∈ es, ∀ x ∈ xs, Answers (f (.heap e) x) (R e x)) → Answers (eqAll f (es.map .heap) xs) (Each R es xs)
  | [], [], _, _ => answers_true trivial
  | e :: es, x :: xs, hl, h => (h e (by simp) x (by simp)).and fun _ =>
      eqAll_ok (by simpa using hl) fun e he x hx => h e (by simp [he]) x (by simp [hx])
  | [], _ :: _, hl, _ => by simp at hl
  | _ :: _, [], hl, _ => by simp at hl

theorem eqForward_ok {α : Type} {f : Pkt → α → Res Bool} {R : Val → α → Prop} : ∀ {es : List Val} {xs : List α}, es.length ≤ xs.length →
    (∀ e ∈ es, ∀ x ∈ xs, Answers (f (.heap e) x) (R e x)) → Answers (eqForward f (es.map .heap) xs) (Each R es xs)
  | [], [], _, _ => answers_true trivial
  | [], _ :: _, _, _ => answers_false fun h => h
  | e :: es, x :: xs, hl, h => (h e (by simp) x (by simp)).and fun _ =>
      eqForward_ok (by simpa using hl) fun e he x hx => h e (by simp [he]) x (by simp [hx])
  | _ :: _, [], hl, _ => by simp at hl

theorem mapCompare_ok {α : Type} {signed : Bool} {f : Pkt → α → Res Bool} {R : Val → α → Prop} {fs : List (Bytes × Val)} :
    ∀ {m : List (Bytes × α)}, (∀ e ∈ m, Answers (f (.heap ((lookup fs e.1).getD .null)) e.2) (R ((lookup fs e.1).getD .null) e.2)) →
    Answers (eqFields signed f (.heap (.obj fs)) m) (∀ e ∈ m, R ((lookup fs e.1).getD .null) e.2)
  | [], _ => answers_true (by simp)
  | (k, x) :: m, h => by
    have hg : PRead.run signed (.heap (.obj fs)) (.get k) = .ok (.heap ((lookup fs k).getD .null)) := by
      simp [PRead.run, Pkt.visit, Val.get, Res.bind, mapFind_eq]
    rw [eqFields, hg, Res.bind_ok]
    refine ((h (k, x) (by simp)).and fun _ => mapCompare_ok (m := m) fun e he => h e (by simp [he])).iff ?_
    simp

theorem takeEqual_ok {α : Type} {f : Pkt → α → Res Bool} {R : Val → α → Prop} {e : Val} : ∀ {xs : List α},
    (∀ x ∈ xs, Answers (f (.heap e) x) (R e x)) →
    ∃ rs, takeEqual f (.heap e) xs = .ok rs ∧ ∀ r, r ∈ rs ↔ ∃ l x l', xs = l ++ x :: l' ∧ r = l ++ l' ∧ R e x
  | [], _ => ⟨[], rfl, by simp⟩
  | x :: xs, h => by
    obtain ⟨b, h1, h2⟩ := h x (by simp)
    obtain ⟨rs, g1, g2⟩ := takeEqual_ok (f := f) (R := R) (e := e) (xs := xs) fun y hy => h y (by simp [hy])
    refine ⟨_, by rw [takeEqual, h1, Res.bind_ok, g1, Res.bind_ok], fun r => ?_⟩
    have key : r ∈ rs.map (x :: ·) ↔ ∃ l y l', x :: xs = (x :: l) ++ y :: l' ∧ r = (x :: l) ++ l' ∧ R e y := by
      simp only [List.mem_map, g2]
      constructor
      · rintro ⟨_, ⟨l, y, l', rfl, rfl, hr⟩, rfl⟩
        exact ⟨l, y, l', rfl, rfl, hr⟩
      · rintro ⟨l, y, l', e1, rfl, hr⟩
        exact ⟨l ++ l', ⟨l, y, l', by simpa using e1, rfl, hr⟩, rfl⟩
    have other : (∃ l y l', x :: xs = l ++ y :: l' ∧ r = l ++ l' ∧ R e y) ↔
        (r = xs ∧ R e x) ∨ ∃ l y l', x :: xs = (x :: l) ++ y :: l' ∧ r = (x :: l) ++ l' ∧ R e y := by
      constructor
      · rintro ⟨l, y, l', e1, e2, hr⟩
        cases l with
        | nil => simp only [List.nil_append, List.cons.injEq] at e1 e2; obtain ⟨rfl, rfl⟩ := e1; exact .inl ⟨e2, hr⟩
        | cons a l =>
          simp only [List.cons_append, List.cons.injEq] at e1
          obtain ⟨rfl, e1⟩ := e1
          exact .inr ⟨l, y, l', by simp [e1], e2, hr⟩
      · rintro (⟨rfl, hr⟩ | ⟨l, y, l', e1, e2, hr⟩)
        · exact ⟨[], x, r, rfl, rfl, hr⟩
        · exact ⟨x :: l, y, l', e1, e2, hr⟩
    rw [other, ← key]
    cases b with
    | true => simp [h2.1 rfl]
    | false =>
      have : ¬ R e x := fun hr => by simpa using h2.2 hr
      simp [this]

theorem anyRes_ok {α : Type} {f : α → Res Bool} {P : α → Prop} : ∀ {xs : List α}, (∀ x ∈ xs, Answers (f x) (P x)) →
    Answers (anyRes f xs) (∃ x ∈ xs, P x)
  | [], _ => answers_false (by simp)
  | x :: xs, h => by
    obtain ⟨b, h1, h2⟩ := h x (by simp)
    obtain ⟨c, g1, g2⟩ := anyRes_ok (xs := xs) fun y hy => h y (by simp [hy])
    rw [anyRes, h1, Res.bind_ok]
    cases b with
    | true => exact answers_true ⟨x, by simp, h2.1 rfl⟩
    | false =>
      have : ¬ P x := fun hp => by simpa using h2.2 hp
      exact ⟨c, g1, by rw [g2]; simp [this]⟩

theorem permutes_ok {α : Type} {f : Pkt → α → Res Bool} {R : Val → α → Prop} : ∀ {es : List Val} {xs : List α},
    es.length = xs.length → (∀ e ∈ es, ∀ x ∈ xs, Answers (f (.heap e) x) (R e x)) →
    Answers (permutes f (es.map .heap) xs) (Matched R es xs)
  | [], xs, hl, _ => by
    have : xs = [] := List.length_eq_zero_iff.1 hl.symm
    subst this
    exact answers_true ⟨[], .refl _, trivial⟩
  | e :: es, xs, hl, h => by
    obtain ⟨rs, h1, h2⟩ := takeEqual_ok (f := f) (R := R) (e := e) fun x hx => h e (by simp) x hx
    have ih := fun r (hr : r ∈ rs) => permutes_ok (f := f) (R := R) (es := es) (xs := r) (by
      obtain ⟨l, x, l', rfl, rfl, _⟩ := (h2 r).1 hr
      simp only [List.length_cons, List.length_append] at hl ⊢
      omega) (by
      obtain ⟨l, x, l', rfl, rfl, _⟩ := (h2 r).1 hr
      intro e he x hx
      refine h e (by simp [he]) x ?_
      rcases List.mem_append.1 hx with hx | hx <;> simp [hx])
    rw [List.map_cons, permutes, h1, Res.bind_ok]
    refine (anyRes_ok ih).iff ?_
    constructor
    · rintro ⟨r, hr, zs, hz, he⟩
      obtain ⟨l, x, l', rfl, rfl, hx⟩ := (h2 r).1 hr
      exact ⟨x :: zs, (hz.cons x).trans List.perm_middle.symm, hx, he⟩
    · rintro ⟨zs, hz, he⟩
      cases zs with
      | nil => exact he.elim
      | cons x zs =>
        obtain ⟨l, l', rfl⟩ := List.append_of_mem (hz.mem_iff.1 (List.mem_cons_self ..))
        exact ⟨l ++ l', (h2 _).2 ⟨l, x, l', rfl, rfl, he.1⟩, zs, (hz.trans List.perm_middle).cons_inv, he.2⟩

theorem callEach_ok {α : Type} {f : Pkt → α → Res Bool} {p : Pkt} : ∀ {xs : List α}, (∀ x ∈ xs, ∃ r, f p x = .ok r) →
    callEach f p xs = .ok ()
  | [], _ => rfl
  | x :: xs, h => by
    obtain ⟨r, h1⟩ := h x (by simp)
    rw [callEach, h1, Res.bind_ok, callEach_ok fun y hy => h y (by simp [hy])]

theorem callAll_ok {α : Type} {f : Pkt → α → Res Bool} : ∀ {ps : List Pkt} {xs : List α}, (∀ p ∈ ps, ∀ x ∈ xs, ∃ r, f p x = .ok r) →
    callAll f ps xs = .ok ()
  | [], _, _ => rfl
  | p :: ps, xs, h => by
    rw [callAll, callEach_ok (h p (by simp)), Res.bind_ok, callAll_ok fun q hq => h q (by simp [hq])]

theorem isPermutation_ok {α : Type} {f : Pkt → α → Res Bool} {R : Val → α → Prop} {es : List Val} {xs : List α}
    (hl : es.length = xs.length) (h : ∀ e ∈ es, ∀ x ∈ xs, Answers (f (.heap e) x) (R e x)) :
    Answers (isPermutation f (es.map .heap) xs) (Matched R es xs) := by
  rw [isPermutation, callAll_ok (fun p hp x hx => ?_), Res.bind_ok]
  · exact permutes_ok hl h
  · obtain ⟨e, he, rfl⟩ := List.mem_map.1 hp
    obtain ⟨r, hr, _⟩ := h e he x hx
    exact ⟨r, hr⟩

theorem sized_ok {v : Val} {n : Nat} {c : List Pkt → Res Bool} {P : List Val → Prop}
    (h : ∀ es, v = .arr es → es.length = n → Answers (c (es.map .heap)) (P es)) (hl : ∀ es, P es → es.length = n) :
    Answers (sized (.heap v) n c) (∃ es, v = .arr es ∧ P es) := by
  cases v with
  | arr es =>
    by_cases hn : es.length = n
    · refine (show Answers (sized (.heap (.arr es)) n c) (P es) from ?_).iff (by simp)
      have : sized (.heap (.arr es)) n c = c (es.map .heap) := by
        show (if es.length ≠ n then Res.ok false else _) = _
        rw [if_neg (by simp [hn])]
        rfl
      rw [this]
      exact h es rfl hn
    · have : sized (.heap (.arr es)) n c = .ok false := by
        show (if es.length ≠ n then Res.ok false else _) = _
        rw [if_pos hn]
      rw [this]
      exact answers_false (by rintro ⟨es', e, hp⟩; cases e; exact hn (hl _ hp))
  | _ => exact answers_false (by simp)

/-! ### Scalars -/

theorem smallFields_iff {fs : List (Bytes × Val)} : SmallFields fs ↔ ∀ f ∈ fs, SmallInts f.2 := by
  induction fs with
  | nil => simp [SmallFields]
  | cons f fs ih => obtain ⟨k, v⟩ := f; simp [SmallFields, ih]

theorem smallElems_iff {es : List Val} : SmallElems es ↔ ∀ e ∈ es, SmallInts e := by
  induction es with
  | nil => simp [SmallElems]
  | cons e es ih => simp [SmallElems, ih]

theorem number_answers (v : Val) {x : Native} (hx : (∃ t i, x = .int t i) ∨ ∃ d, x = .dbl d)
    (hm : Moderate v x) : Answers (v.eqNative x) (SameNumber v x) := by
  rcases hx with ⟨t, n, rfl⟩ | ⟨e, rfl⟩
  · cases v with
    | int i =>
      refine ⟨_, rfl, ?_⟩
      have h1 := toInt_moderate hm.2
      simp only [beq_iff_eq, SameNumber]
      exact ⟨fun h => by rw [h, h1], fun h => BitVec.eq_of_toInt_eq (by rw [h, h1])⟩
    | dec d =>
      have h1 := toInt_moderate (x := n) hm
      refine ⟨decEq d (intToDouble n), by simp [Val.eqNative, Val.getType, Val.decimal, Res.bind, h1], ?_⟩
      have h2 := intToDouble_isInt (i := n) hm
      rw [decEq_iff]
      unfold NumEq SameNumber IsInt at *
      rw [h2]
      exact ⟨fun h => h.2, fun h => ⟨by rw [h]; simp, h⟩⟩
    | _ => exact ⟨false, rfl, by simp [SameNumber]⟩
  · cases v with
    | int i =>
      refine ⟨_, rfl, ?_⟩
      have h2 := intToDouble_isInt (i := i.toInt) hm
      rw [decEq_iff]
      unfold NumEq SameNumber IsInt at *
      rw [h2]
      exact ⟨fun h => h.2.symm, fun h => ⟨by simp, h.symm⟩⟩
    | dec d =>
      refine ⟨_, rfl, ?_⟩
      rw [decEq_iff]; rfl
    | _ => exact ⟨false, rfl, by simp [SameNumber]⟩

theorem scalar_answers {s : NativeTy} {v : Val} {x : s.type} (hv : SmallInts v) (hx : SmallScalar s x) :
    Answers ((Pkt.heap v).eqNative (s.inject x)) (SameScalar s v x) := by
  cases s with
  | null => refine ⟨_, rfl, ?_⟩; cases v <;> simp [SameScalar, Val.getType]
  | bool => cases v with
    | bool c => exact ⟨_, rfl, (beq_iff_eq (α := Bool)).trans ⟨fun h => congrArg Val.bool h, fun h => Val.bool.inj h⟩⟩
    | _ => exact answers_false (by simp [SameScalar])
  | str => cases v with
    | str c => exact ⟨_, rfl, (beq_iff_eq (α := Bytes)).trans ⟨fun h => congrArg Val.str h, fun h => Val.str.inj h⟩⟩
    | _ => exact answers_false (by simp [SameScalar])
  | int t =>
    refine number_answers v (.inl ⟨t, x, rfl⟩) ?_
    cases v <;> first | exact ⟨hv, hx⟩ | exact hx
  | dbl =>
    refine number_answers v (.inr ⟨x, rfl⟩) ?_
    cases v <;> first | exact hv | trivial

/-! ### Counting keys -/

theorem subset_of_length : ∀ {l l' : List Bytes}, l.Pairwise (· ≠ ·) → (∀ k ∈ l, k ∈ l') → l'.length ≤ l.length → ∀ k ∈ l', k ∈ l
  | [], l', _, _, hl, k, hk => by
    have : l' = [] := List.length_eq_zero_iff.1 (by simpa using hl)
    subst this
    cases hk
  | a :: l, l', hp, hs, hl, k, hk => by
    obtain ⟨p1, p2⟩ := List.pairwise_cons.1 hp
    have ha := hs a (by simp)
    have he := List.length_erase_of_mem ha
    by_cases hka : k = a
    · simp [hka]
    · have := subset_of_length (l := l) (l' := l'.erase a) p2 (fun b hb => by
        rw [List.mem_erase_of_ne (Ne.symm (p1 b hb))]
        exact hs b (by simp [hb])) (by simp only [List.length_cons] at hl; omega) k ((List.mem_erase_of_ne hka).2 hk)
      simp [this]

/-! ### Null -/

mutual
theorem same_null : ∀ (t : CTy) (x : t.type), Same t .null x → gives t .null = true
  | .scalar s, x, h => by
    rw [Same] at h
    cases s <;> simp_all [SameScalar, SameNumber, gives, givesScalar]
  | .seq t, (xs : List t.type), h => by obtain ⟨es, e, _⟩ := h; cases e
  | .fwd t, (xs : List t.type), h => by obtain ⟨es, e, _⟩ := h; cases e
  | .array t _, (xs : List t.type), h => by obtain ⟨es, e, _⟩ := h; cases e
  | .map _ t, (m : List (Bytes × t.type)), h => by obtain ⟨es, e, _⟩ := h; cases e
  | .mmap _ t, (m : List (Bytes × t.type)), h => by obtain ⟨es, e, _⟩ := h; cases e
  | .set s _, (xs : List s.type), h => by obtain ⟨es, e, _⟩ := h; cases e
  | .mset s _, (xs : List s.type), h => by obtain ⟨es, e, _⟩ := h; cases e
  | .opt t, _, _ => by simp [gives]
  | .pair a b, (x, y), h => by obtain ⟨w, u, e, _⟩ := h; cases e
  | .tuple ts, xs, h => by obtain ⟨es, e, _⟩ := h; cases e
  | .variant ts, x, h => by rw [gives]; exact sameAlt_null ts x h
theorem sameAlt_null : ∀ (ts : CTys) (x : ts.sum), SameAlt ts .null x → givesAny ts .null = true
  | .nil, x, _ => nomatch x
  | .cons t _, .inl x, h => by rw [SameAlt] at h; simp [givesAny, same_null t x h]
  | .cons _ ts, .inr x, h => by rw [SameAlt] at h; simp [givesAny, sameAlt_null ts x h]
end

/-! ### The comparison -/

theorem small_elem {es : List Val} (h : SmallInts (.arr es)) {e : Val} (he : e ∈ es) : SmallInts e := by
  rw [SmallInts, smallElems_iff] at h; exact h e he
theorem small_field {fs : List (Bytes × Val)} (h : SmallInts (.obj fs)) (k : Bytes) : SmallInts ((lookup fs k).getD .null) := by
  rw [SmallInts, smallFields_iff] at h
  cases hl : lookup fs k with
  | none => simp [SmallInts]
  | some w => exact h _ (lookup_some_mem hl)

theorem lookup_same {R : Prop} {Q : Val → Prop} {fs : List (Bytes × Val)} (hs : Sorted fs) {k : Bytes} (hn : ¬ Q .null)
    (_ : R = R) : Q ((lookup fs k).getD .null) ↔ ∃ w, (k, w) ∈ fs ∧ Q w := by
  cases hl : lookup fs k with
  | none =>
    simp only [Option.getD_none, hn, false_iff, not_exists, not_and]
    intro w hw
    rw [lookup_of_mem hs hw] at hl; cases hl
  | some w =>
    simp only [Option.getD_some]
    constructor
    · exact fun h => ⟨w, lookup_some_mem hl, h⟩
    · rintro ⟨u, hu, h⟩
      rw [lookup_of_mem hs hu] at hl; cases hl
      exact h

mutual
theorem compare_ok {signed : Bool} : ∀ (t : CTy) {v : Val} {x : t.type}, Comparable t → Fit t x → v.WF → SmallInts v → SmallIn t x →
    Answers (t.compare signed (.heap v) x) (Same t v x)
  | .scalar s, v, x, _, _, _, hv, hx => scalar_answers hv hx
  | .seq t, v, (xs : List t.type), hc, hf, hw, hv, hx => by
    replace hf : xs.length ≤ 2 ^ 58 ∧ ∀ x ∈ xs, Fit t x := hf
    replace hx : ∀ x ∈ xs, SmallIn t x := hx
    refine sized_ok (P := fun es => Each (Same t) es xs) (fun es e hl => ?_) fun es h => h.length
    subst e
    exact eqAll_ok hl fun e he x hm => compare_ok t hc (hf.2 x hm) (wf_elem hw he) (small_elem hv he) (hx x hm)
  | .array t n, v, (xs : List t.type), hc, hf, hw, hv, hx => by
    replace hf : xs.length = n ∧ n ≤ 2 ^ 58 ∧ ∀ x ∈ xs, Fit t x := hf
    replace hx : ∀ x ∈ xs, SmallIn t x := hx
    refine sized_ok (P := fun es => Each (Same t) es xs) (fun es e hl => ?_) fun es h => by rw [h.length, hf.1]
    subst e
    exact eqAll_ok (hl.trans hf.1.symm) fun e he x hm => compare_ok t hc (hf.2.2 x hm) (wf_elem hw he) (small_elem hv he) (hx x hm)
  | .map less t, v, (m : List (Bytes × t.type)), hc, hf, hw, hv, hx => by
    replace hc : Orders less ∧ gives t .null = false ∧ Comparable t := hc
    replace hf : m.Pairwise (fun a b => less a.1 b.1 = true) ∧ ∀ e ∈ m, e.1.length ≤ 65535 ∧ Fit t e.2 := hf
    replace hx : ∀ e ∈ m, SmallIn t e.2 := hx
    cases v with
    | obj fs =>
      have hwf := wf_obj.1 hw
      by_cases hn : fs.length = m.length
      · have hcmp : (CTy.map less t).compare signed (.heap (.obj fs)) m = eqFields signed (t.compare signed) (.heap (.obj fs)) m := by
          show (if fs.length ≠ m.length then Res.ok false else _) = _
          rw [if_neg (by simp [hn])]
        rw [hcmp]
        refine (mapCompare_ok (R := Same t) fun e he => ?_).iff ?_
        · refine compare_ok t hc.2.2 (hf.2 e he).2 ?_ (small_field hv _) (hx e he)
          cases hl : lookup fs e.1 with
          | none => trivial
          | some w => exact (hwf.2 _ (lookup_some_mem hl)).2
        · have hnull : ∀ x : t.type, ¬ Same t .null x := fun x h => by
            have := same_null t x h; rw [hc.2.1] at this; cases this
          constructor
          · intro h
            have h1 : ∀ k x, (k, x) ∈ m → ∃ w, (k, w) ∈ fs ∧ Same t w x := fun k x hm =>
              (lookup_same (R := True) (Q := fun w => Same t w x) hwf.1 (hnull x) rfl).1 (h _ hm)
            refine ⟨fs, rfl, h1, fun k w hk => ?_⟩
            have := subset_of_length (l := m.map (·.1)) (l' := fs.map (·.1))
              (List.Pairwise.map _ (fun a b h => hc.1.ne h) hf.1)
              (by
                intro k hk
                obtain ⟨⟨k', x⟩, hm, rfl⟩ := List.mem_map.1 hk
                obtain ⟨w, hw, _⟩ := h1 k' x hm
                exact List.mem_map.2 ⟨_, hw, rfl⟩) (by simp [hn]) k (List.mem_map.2 ⟨_, hk, rfl⟩)
            obtain ⟨⟨k', x⟩, hm, rfl⟩ := List.mem_map.1 this
            exact ⟨x, hm⟩
          · rintro ⟨fs', e, h1, _⟩ ⟨k, x⟩ hm
            cases e
            exact (lookup_same (R := True) (Q := fun w => Same t w x) hwf.1 (hnull x) rfl).2 (h1 k x hm)
      · have hcmp : (CTy.map less t).compare signed (.heap (.obj fs)) m = .ok false := by
          show (if fs.length ≠ m.length then Res.ok false else _) = _
          rw [if_pos hn]
        rw [hcmp]
        refine answers_false ?_
        rintro ⟨fs', e, h1, h2⟩
        cases e
        apply hn
        have hnk : ∀ l : List (Bytes × t.type), l.Pairwise (fun a b => less a.1 b.1 = true) → (l.map (·.1)).Pairwise (· ≠ ·) := fun l h =>
          List.Pairwise.map _ (fun a b h => hc.1.ne h) h
        have hnf : (fs.map (·.1)).Pairwise (· ≠ ·) := List.Pairwise.map _ (fun a b h => keyLt_ne h) hwf.1
        have le : ∀ {l l' : List Bytes}, l.Pairwise (· ≠ ·) → (∀ k ∈ l, k ∈ l') → l.length ≤ l'.length := by
          intro l
          induction l with
          | nil => simp
          | cons a l ih =>
            intro l' hp hs
            obtain ⟨p1, p2⟩ := List.pairwise_cons.1 hp
            have := ih (l' := l'.erase a) p2 fun b hb => by
              rw [List.mem_erase_of_ne (Ne.symm (p1 b hb))]; exact hs b (by simp [hb])
            rw [List.length_erase_of_mem (hs a (by simp))] at this
            have : 0 < l'.length := List.length_pos_of_mem (hs a (by simp))
            simp only [List.length_cons]
            omega
        have l1 := le hnf (l' := m.map (·.1)) (by
          intro k hk
          obtain ⟨⟨k', w⟩, hm, rfl⟩ := List.mem_map.1 hk
          obtain ⟨x, hx⟩ := h2 k' w hm
          exact List.mem_map.2 ⟨_, hx, rfl⟩)
        have l2 := le (hnk m hf.1) (l' := fs.map (·.1)) (by
          intro k hk
          obtain ⟨⟨k', w⟩, hm, rfl⟩ := List.mem_map.1 hk
          obtain ⟨x, hx, _⟩ := h1 k' w hm
          exact List.mem_map.2 ⟨_, hx, rfl⟩)
        simp only [List.length_map] at l1 l2
        omega
    | _ => exact answers_false (by rintro ⟨fs, e, _⟩; cases e)
  | .set s less, v, (xs : List s.type), _, _, hw, hv, hx => by
    replace hx : ∀ x ∈ xs, SmallScalar s x := hx
    refine sized_ok (P := fun es => Matched (SameScalar s) es xs) (fun es e hl => ?_) fun es h => ?_
    · subst e
      exact isPermutation_ok hl fun e he x hm => scalar_answers (small_elem hv he) (hx x hm)
    · obtain ⟨zs, h1, h2⟩ := h
      rw [h2.length, h1.length_eq]
  | .mset s less, v, (xs : List s.type), _, _, hw, hv, hx => by
    replace hx : ∀ x ∈ xs, SmallScalar s x := hx
    refine sized_ok (P := fun es => Matched (SameScalar s) es xs) (fun es e hl => ?_) fun es h => ?_
    · subst e
      exact isPermutation_ok hl fun e he x hm => scalar_answers (small_elem hv he) (hx x hm)
    · obtain ⟨zs, h1, h2⟩ := h
      rw [h2.length, h1.length_eq]
  | .opt t, v, none, _, _, _, _, _ => ⟨_, rfl, by cases v <;> simp [Same, Pkt.getType, Val.getType]⟩
  | .opt t, v, some x, hc, hf, hw, hv, hx => compare_ok t (v := v) (x := x) hc hf hw hv hx
  | .pair a b, v, (x, y), hc, hf, hw, hv, hx => by
    cases v with
    | arr es =>
      by_cases hn : es.length = 2
      · match es, hn with
        | [u, w], _ =>
          have hcmp : (CTy.pair a b).compare signed (.heap (.arr [u, w])) (x, y) =
              (a.compare signed (.heap u) x).bind fun r => if r then b.compare signed (.heap w) y else .ok false := rfl
          rw [hcmp]
          refine ((compare_ok a hc.1 hf.1 (wf_elem hw (by simp)) (small_elem hv (by simp)) hx.1).and fun _ =>
            compare_ok b hc.2 hf.2 (wf_elem hw (by simp)) (small_elem hv (by simp)) hx.2).iff ?_
          rw [Same]
          constructor
          · exact fun h => ⟨u, w, rfl, h.1, h.2⟩
          · rintro ⟨u', w', e, h⟩; cases e; exact h
      · have hcmp : (CTy.pair a b).compare signed (.heap (.arr es)) (x, y) = .ok false := by
          show (if es.length ≠ 2 then Res.ok false else _) = _
          rw [if_pos hn]
        rw [hcmp]
        refine answers_false ?_
        rintro ⟨u, w, e, _⟩
        cases e
        exact hn rfl
    | _ => exact answers_false (by rintro ⟨_, _, e, _⟩; cases e)
  | .tuple ts, v, (xs : ts.prod), hc, hf, hw, hv, hx => by
    replace hf : ts.length ≤ 2 ^ 58 ∧ FitAll ts xs := hf
    refine sized_ok (P := fun es => SameAll ts es xs) (fun es e hl => ?_) fun es h => sameAll_length ts h
    subst e
    exact compares_ok ts hc hf.2 (fun e he => wf_elem hw he) (fun e he => small_elem hv he) hx hl
  | .variant ts, v, x, hc, hf, hw, hv, hx => compareAlt_ok ts hc hf hw hv hx
theorem sameAll_length : ∀ (ts : CTys) {es : List Val} {xs : ts.prod}, SameAll ts es xs → es.length = ts.length
  | .nil, es, _, h => by rw [SameAll] at h; subst h; rfl
  | .cons t ts, e :: es, (x, xs), h => by simp [CTys.length, sameAll_length ts h.2]
  | .cons _ _, [], _, h => False.elim h
theorem compares_ok {signed : Bool} : ∀ (ts : CTys) {es : List Val} {xs : ts.prod}, ComparableAll ts → FitAll ts xs → (∀ e ∈ es, e.WF) →
    (∀ e ∈ es, SmallInts e) → SmallInAll ts xs → es.length = ts.length → Answers (ts.compares signed (es.map .heap) xs) (SameAll ts es xs)
  | .nil, es, _, _, _, _, _, _, hl => answers_true (List.length_eq_zero_iff.1 hl)
  | .cons t ts, e :: es, (x, xs), hc, hf, hw, hv, hx, hl =>
    (compare_ok t hc.1 hf.1 (hw e (by simp)) (hv e (by simp)) hx.1).and fun _ =>
      compares_ok ts hc.2 hf.2 (fun e he => hw e (by simp [he])) (fun e he => hv e (by simp [he])) hx.2
        (by simpa [CTys.length] using hl)
  | .cons _ _, [], (_, _), _, _, _, _, _, hl => by simp [CTys.length] at hl
theorem compareAlt_ok {signed : Bool} : ∀ (ts : CTys) {v : Val} {x : ts.sum}, ComparableAll ts → FitAlt ts x → v.WF → SmallInts v →
    SmallInAlt ts x → Answers (ts.compareAlt signed (.heap v) x) (SameAlt ts v x)
  | .nil, _, x, _, _, _, _, _ => nomatch x
  | .cons t _, v, .inl x, hc, hf, hw, hv, hx => compare_ok t hc.1 hf hw hv hx
  | .cons _ ts, v, .inr x, hc, hf, hw, hv, hx => compareAlt_ok ts hc.2 hf hw hv hx
end

end Dart
