import Verif.Model.Cow

/-
Copy on write: counting owners, and which values a change of the heap leaves alone.
-/
namespace Dart.Cow

/-! ### Counting -/

/-- Number of values in `l` pointing to `a`. -/
def occ (a : Nat) (l : List Ref) : Nat := l.countP fun r => r.addr == some a

/-- The count stored at `a`. -/
def cnt (c : Cells) (a : Nat) : Nat := ((c.at a).map (·.count)).getD 0

/-- Every count is the number of owners: values in `own` and values owned by live cells; and live
cells have an owner. -/
structure Counted (c : Cells) (own : List Ref) : Prop where
  eq : ∀ a, occ a own + occ a c.refs = cnt c a
  pos : ∀ a x, c.at a = some x → 0 < x.count

@[simp] theorem occ_nil (a : Nat) : occ a [] = 0 := rfl
theorem occ_append (a : Nat) (l m : List Ref) : occ a (l ++ m) = occ a l + occ a m := by simp [occ]
theorem occ_cons (a : Nat) (r : Ref) (l : List Ref) : occ a (r :: l) = occ a [r] + occ a l := by
  rw [← occ_append]; rfl
theorem occ_one_none {a : Nat} {r : Ref} (h : r.addr ≠ some a) : occ a [r] = 0 := by
  simp [occ, h]
theorem occ_one {a : Nat} {r : Ref} (h : r.addr = some a) : occ a [r] = 1 := by
  simp [occ, h]
theorem occ_pos {a : Nat} {r : Ref} {l : List Ref} (h : r ∈ l) (ha : r.addr = some a) : 0 < occ a l := by
  rw [occ, List.countP_pos_iff]
  exact ⟨r, h, by simp [ha]⟩
theorem addr_ne_of_occ {a : Nat} {r : Ref} {l : List Ref} (h : r ∈ l) (ho : occ a l = 0) : r.addr ≠ some a := by
  intro ha
  have := occ_pos h ha
  omega

theorem occ_set {a i : Nat} {l : List Ref} (r : Ref) (h : i < l.length) :
    occ a (l.set i r) + occ a [l[i]] = occ a l + occ a [r] := by
  induction l generalizing i with
  | nil => simp at h
  | cons x l ih =>
    cases i with
    | zero =>
      simp only [List.set_cons_zero, List.getElem_cons_zero]
      rw [occ_cons a r l, occ_cons a x l]; omega
    | succ i =>
      simp only [List.set_cons_succ, List.getElem_cons_succ]
      have := ih (i := i) (by simpa using h)
      rw [occ_cons a x (l.set i r), occ_cons a x l]; omega

/-! ### Cells -/

def optRefs : Option Cell → List Ref
  | some x => x.body.refs
  | none => []

theorem refs_eq (c : Cells) : c.refs = c.flatMap optRefs := by
  unfold Cells.refs
  congr 1

theorem refs_append (c d : Cells) : Cells.refs (c ++ d) = c.refs ++ d.refs := by
  simp [refs_eq]

theorem at_lt {c : Cells} {a : Nat} {x : Cell} (h : c.at a = some x) : a < c.length := by
  simp only [Cells.at, Option.join_eq_some_iff] at h
  exact (List.getElem?_eq_some_iff.1 h).1

theorem at_get {c : Cells} {a : Nat} {x : Cell} (h : c.at a = some x) : c[a]? = some (some x) := by
  simpa only [Cells.at, Option.join_eq_some_iff] using h

theorem at_set_self {c : Cells} {a : Nat} {y : Option Cell} (h : a < c.length) : Cells.at (c.set a y) a = y := by
  simp [Cells.at, h]

theorem at_set_ne {c : Cells} {a b : Nat} {y : Option Cell} (h : a ≠ b) : Cells.at (c.set a y) b = c.at b := by
  simp [Cells.at, h]

theorem at_append {c : Cells} {d : Cells} {a : Nat} (h : a < c.length) : Cells.at (c ++ d) a = c.at a := by
  simp [Cells.at, List.getElem?_append_left h]

theorem at_append_new {c : Cells} {y : Option Cell} : Cells.at (c ++ [y]) c.length = y := by
  simp [Cells.at]

theorem occ_refs_set {c : Cells} {b : Nat} {x : Cell} (y : Option Cell) (h : c.at b = some x) (a : Nat) :
    occ a (Cells.refs (c.set b y)) + occ a x.body.refs = occ a c.refs + occ a (optRefs y) := by
  have h' := at_get h
  rw [refs_eq, refs_eq]
  clear h
  induction c generalizing b with
  | nil => simp at h'
  | cons z c ih =>
    cases b with
    | zero =>
      simp only [List.getElem?_cons_zero, Option.some.injEq] at h'
      subst h'
      simp only [List.set_cons_zero, List.flatMap_cons, occ_append, optRefs]
      omega
    | succ b =>
      simp only [List.getElem?_cons_succ] at h'
      have := ih h'
      simp only [List.set_cons_succ, List.flatMap_cons, occ_append]
      omega

theorem refs_length_set {c : Cells} {b : Nat} {x : Cell} (y : Option Cell) (h : c.at b = some x) :
    (Cells.refs (c.set b y)).length + x.body.refs.length = c.refs.length + (optRefs y).length := by
  have h' := at_get h
  rw [refs_eq, refs_eq]
  clear h
  induction c generalizing b with
  | nil => simp at h'
  | cons z c ih =>
    cases b with
    | zero =>
      simp only [List.getElem?_cons_zero, Option.some.injEq] at h'
      subst h'
      simp only [List.set_cons_zero, List.flatMap_cons, List.length_append, optRefs]
      omega
    | succ b =>
      simp only [List.getElem?_cons_succ] at h'
      have := ih h'
      simp only [List.set_cons_succ, List.flatMap_cons, List.length_append]
      omega

theorem mem_refs {c : Cells} {a : Nat} {x : Cell} {r : Ref} (h : c.at a = some x) (hr : r ∈ x.body.refs) : r ∈ c.refs := by
  rw [refs_eq, List.mem_flatMap]
  exact ⟨some x, List.mem_of_getElem? (at_get h), hr⟩

theorem cnt_some {c : Cells} {a : Nat} {x : Cell} (h : c.at a = some x) : cnt c a = x.count := by
  simp [cnt, h]

theorem cnt_set_self {c : Cells} {a : Nat} {x : Cell} (h : a < c.length) : cnt (c.set a (some x)) a = x.count := by
  simp [cnt, at_set_self h]

theorem cnt_set_ne {c : Cells} {a b : Nat} {y : Option Cell} (h : a ≠ b) : cnt (c.set a y) b = cnt c b := by
  simp [cnt, at_set_ne h]

theorem Counted.live {c : Cells} {own : List Ref} (h : Counted c own) {a : Nat} (ho : 0 < occ a own + occ a c.refs) :
    ∃ x, c.at a = some x := by
  have := h.eq a
  cases hx : c.at a with
  | some x => exact ⟨x, rfl⟩
  | none => simp only [cnt, hx, Option.map_none, Option.getD_none] at this; omega

/-! ### Views -/

/-- Same bodies. -/
def SameBodies (c c' : Cells) : Prop := ∀ a, (c'.at a).map (·.body) = (c.at a).map (·.body)

theorem mapFields_congr {f g : Ref → Option Val} (fs : List (Bytes × Ref)) (h : ∀ r ∈ fs.map (·.2), f r = g r) :
    mapFields f fs = mapFields g fs := by
  induction fs with
  | nil => rfl
  | cons p fs ih =>
    simp only [mapFields]
    rw [h p.2 (by simp), ih fun r hr => h r (by simp only [List.map_cons, List.mem_cons]; exact .inr hr)]

theorem mapElems_congr {f g : Ref → Option Val} (es : List Ref) (h : ∀ r ∈ es, f r = g r) :
    mapElems f es = mapElems g es := by
  induction es with
  | nil => rfl
  | cons p fs ih =>
    simp only [mapElems]
    rw [h p (by simp), ih fun r hr => h r (by simp [hr])]

theorem mapFields_mono {f g : Ref → Option Val} (fs : List (Bytes × Ref)) (h : ∀ r v, f r = some v → g r = some v) :
    ∀ vs, mapFields f fs = some vs → mapFields g fs = some vs := by
  induction fs with
  | nil => intro vs h; exact h
  | cons p fs ih =>
    intro vs hv
    simp only [mapFields, Option.bind_eq_some_iff, Option.map_eq_some_iff] at hv ⊢
    obtain ⟨v, h1, ws, h2, h3⟩ := hv
    exact ⟨v, h _ _ h1, ws, ih _ h2, h3⟩

theorem mapElems_mono {f g : Ref → Option Val} (fs : List Ref) (h : ∀ r v, f r = some v → g r = some v) :
    ∀ vs, mapElems f fs = some vs → mapElems g fs = some vs := by
  induction fs with
  | nil => intro vs h; exact h
  | cons p fs ih =>
    intro vs hv
    simp only [mapElems, Option.bind_eq_some_iff, Option.map_eq_some_iff] at hv ⊢
    obtain ⟨v, h1, ws, h2, h3⟩ := hv
    exact ⟨v, h _ _ h1, ws, ih _ h2, h3⟩

theorem view_obj (c : Cells) (n a : Nat) : view c (n + 1) (.obj a) =
    match c.at a with
    | some ⟨_, .fields fs⟩ => (mapFields (view c n) fs).map .obj
    | _ => none := rfl
theorem view_arr (c : Cells) (n a : Nat) : view c (n + 1) (.arr a) =
    match c.at a with
    | some ⟨_, .elems es⟩ => (mapElems (view c n) es).map .arr
    | _ => none := rfl

/-- Two heaps that agree, wherever `P` holds, on all bodies, whose contents again satisfy `P`. -/
theorem view_agree {c c' : Cells} (P : Ref → Prop)
    (h : ∀ r a, P r → r.addr = some a → (c'.at a).map (·.body) = (c.at a).map (·.body))
    (hc : ∀ r a x, P r → r.addr = some a → c.at a = some x → ∀ r' ∈ x.body.refs, P r') :
    ∀ d r, P r → view c' d r = view c d r := by
  intro d
  induction d with
  | zero => intro r hr; cases r <;> simp [view]
  | succ d ih =>
    intro r hr
    cases r with
    | obj a =>
      rw [view_obj, view_obj]
      have h1 := h _ a hr rfl
      have h2 := fun x => hc _ a x hr rfl
      cases hx : c.at a with
      | none => rw [hx] at h1; simp only [Option.map_none, Option.map_eq_none_iff] at h1; rw [h1]
      | some x =>
        obtain ⟨n, body⟩ := x
        rw [hx] at h1
        simp only [Option.map_some, Option.map_eq_some_iff] at h1
        obtain ⟨⟨n', body'⟩, h1, h3⟩ := h1
        simp only at h3; subst h3
        rw [h1]
        cases body' with
        | fields fs =>
          simp only
          rw [mapFields_congr fs fun r hr => ih r (h2 _ hx r hr)]
        | elems es => rfl
    | arr a =>
      rw [view_arr, view_arr]
      have h1 := h _ a hr rfl
      have h2 := fun x => hc _ a x hr rfl
      cases hx : c.at a with
      | none => rw [hx] at h1; simp only [Option.map_none, Option.map_eq_none_iff] at h1; rw [h1]
      | some x =>
        obtain ⟨n, body⟩ := x
        rw [hx] at h1
        simp only [Option.map_some, Option.map_eq_some_iff] at h1
        obtain ⟨⟨n', body'⟩, h1, h3⟩ := h1
        simp only at h3; subst h3
        rw [h1]
        cases body' with
        | fields fs => rfl
        | elems es =>
          simp only
          rw [mapElems_congr es fun r hr => ih r (h2 _ hx r hr)]
    | _ => simp [view]

theorem view_sameBodies {c c' : Cells} (h : SameBodies c c') (d : Nat) (r : Ref) : view c' d r = view c d r :=
  view_agree (fun _ => True) (fun _ a _ _ => h a) (fun _ _ _ _ _ _ _ _ => trivial) d r trivial

/-- A change at an address nobody refers to. -/
theorem view_set {c : Cells} {a : Nat} (y : Option Cell) (h : occ a c.refs = 0) {r : Ref} (hr : r.addr ≠ some a) (d : Nat) :
    view (c.set a y) d r = view c d r := by
  refine view_agree (fun r => r.addr ≠ some a) (fun r b hr hb => ?_) (fun r b x hr hb hx r' hr' => ?_) d r hr
  · rw [at_set_ne]; intro e; subst e; exact hr hb
  · exact addr_ne_of_occ (mem_refs hx hr') h

theorem view_mono {c : Cells} {d : Nat} : ∀ {d' r v}, view c d r = some v → d ≤ d' → view c d' r = some v := by
  induction d with
  | zero =>
    intro d' r v h _
    cases r <;> simp_all [view]
  | succ d ih =>
    intro d' r v h hd
    obtain ⟨e, rfl⟩ : ∃ e, d' = e + 1 := ⟨d' - 1, by omega⟩
    cases r with
    | obj a =>
      rw [view_obj] at h ⊢
      split at h
      · rw [Option.map_eq_some_iff] at h ⊢
        obtain ⟨vs, h1, h2⟩ := h
        exact ⟨vs, mapFields_mono _ (fun r v h => ih h (by omega)) _ h1, h2⟩
      · cases h
    | arr a =>
      rw [view_arr] at h ⊢
      split at h
      · rw [Option.map_eq_some_iff] at h ⊢
        obtain ⟨vs, h1, h2⟩ := h
        exact ⟨vs, mapElems_mono _ (fun r v h => ih h (by omega)) _ h1, h2⟩
      · cases h
    | _ => simpa [view] using h

theorem view_append {c : Cells} (y : Option Cell) {d : Nat} : ∀ {r v}, view c d r = some v → view (c ++ [y]) d r = some v := by
  induction d with
  | zero =>
    intro r v h
    cases r <;> simp_all [view]
  | succ d ih =>
    intro r v h
    cases r with
    | obj a =>
      rw [view_obj] at h ⊢
      split at h
      · rename_i hx
        rw [at_append (at_lt hx), hx]
        rw [Option.map_eq_some_iff] at h ⊢
        obtain ⟨vs, h1, h2⟩ := h
        exact ⟨vs, mapFields_mono _ (fun r v h => ih h) _ h1, h2⟩
      · cases h
    | arr a =>
      rw [view_arr] at h ⊢
      split at h
      · rename_i hx
        rw [at_append (at_lt hx), hx]
        rw [Option.map_eq_some_iff] at h ⊢
        obtain ⟨vs, h1, h2⟩ := h
        exact ⟨vs, mapElems_mono _ (fun r v h => ih h) _ h1, h2⟩
      · cases h
    | _ => simpa [view] using h

/-! ### Increments -/

theorem optRefs_some (x : Cell) : optRefs (some x) = x.body.refs := rfl

theorem sameBodies_refs {c c' : Cells} (hl : c'.length = c.length) (h : SameBodies c c') : c'.refs = c.refs := by
  rw [refs_eq, refs_eq]
  have : c'.map optRefs = c.map optRefs := by
    apply List.ext_getElem?
    intro i
    rw [List.getElem?_map, List.getElem?_map]
    by_cases hi : i < c.length
    · have h1 := h i
      simp only [Cells.at, List.getElem?_eq_getElem hi, List.getElem?_eq_getElem (hl ▸ hi), Option.join_some] at h1
      rw [List.getElem?_eq_getElem hi, List.getElem?_eq_getElem (hl ▸ hi)]
      simp only [Option.map_some, Option.some.injEq]
      cases h2 : c[i] with
      | none =>
        rw [h2] at h1
        simp only [Option.map_none, Option.map_eq_none_iff] at h1
        rw [h1]
      | some x =>
        rw [h2] at h1
        simp only [Option.map_some, Option.map_eq_some_iff] at h1
        obtain ⟨y, h1, h3⟩ := h1
        rw [h1]
        simp only [optRefs, h3]
    · rw [List.getElem?_eq_none (by omega), List.getElem?_eq_none (by omega)]
  rw [List.flatMap_def, List.flatMap_def, this]

/-- Changing a count only. -/
theorem sameBodies_set {c : Cells} {a : Nat} {x : Cell} (n : Nat) (h : c.at a = some x) :
    SameBodies c (c.set a (some { x with count := n })) := by
  intro b
  by_cases hb : a = b
  · subst hb; rw [at_set_self (at_lt h), h]; rfl
  · rw [at_set_ne hb]

theorem incr_ok {c : Cells} {own : List Ref} (h : Counted c own) {r : Ref} (hr : r ∈ own ∨ r ∈ c.refs) :
    ∃ c', incr c r = some c' ∧ Counted c' (r :: own) ∧ SameBodies c c' ∧ c'.length = c.length := by
  unfold incr
  cases ha : r.addr with
  | none =>
    refine ⟨c, rfl, ⟨fun a => ?_, h.pos⟩, fun _ => rfl, rfl⟩
    rw [occ_cons, occ_one_none (by rw [ha]; simp)]
    have := h.eq a
    omega
  | some a =>
    obtain ⟨x, hx⟩ := h.live (a := a) (by
      rcases hr with hr | hr
      · have := occ_pos hr ha; omega
      · have := occ_pos hr ha; omega)
    simp only [hx, Option.map_some]
    have hsb := sameBodies_set (x.count + 1) hx
    refine ⟨_, rfl, ⟨fun b => ?_, fun b y hy => ?_⟩, hsb, by simp⟩
    · rw [sameBodies_refs (by simp) hsb, occ_cons]
      have := h.eq b
      by_cases hb : a = b
      · subst hb
        rw [cnt_set_self (at_lt hx), occ_one ha]
        rw [cnt_some hx] at this
        simp only
        omega
      · rw [cnt_set_ne hb, occ_one_none (by rw [ha]; simpa using hb)]
        omega
    · by_cases hb : a = b
      · subst hb
        rw [at_set_self (at_lt hx)] at hy
        cases hy
        exact Nat.succ_pos _
      · rw [at_set_ne hb] at hy
        exact h.pos b y hy

theorem SameBodies.trans {c c' c'' : Cells} (h : SameBodies c c') (h' : SameBodies c' c'') : SameBodies c c'' :=
  fun a => (h' a).trans (h a)

theorem incrAll_ok {c : Cells} {own rs : List Ref} (h : Counted c own) (hr : ∀ r ∈ rs, r ∈ own ∨ r ∈ c.refs) :
    ∃ c', incrAll c rs = some c' ∧ Counted c' (rs ++ own) ∧ SameBodies c c' ∧ c'.length = c.length := by
  induction rs generalizing c own with
  | nil => exact ⟨c, rfl, h, fun _ => rfl, rfl⟩
  | cons r rs ih =>
    obtain ⟨c1, h1, h2, h3, h4⟩ := incr_ok h (hr r (by simp))
    obtain ⟨c2, h5, h6, h7, h8⟩ := ih h2 (fun r' hr' => by
      rw [sameBodies_refs h4 h3]
      rcases hr r' (by simp [hr']) with h | h
      · exact .inl (by simp [h])
      · exact .inr h)
    refine ⟨c2, by rw [incrAll, h1]; exact h5, ⟨fun a => ?_, h6.pos⟩, h3.trans h7, h8.trans h4⟩
    have := h6.eq a
    rw [occ_append, occ_cons] at this
    rw [occ_append, occ_cons]
    omega

/-! ### Destroying values -/

theorem drops_ok : ∀ (n : Nat) {c : Cells} {w own : List Ref}, Counted c (w ++ own) → w.length + c.refs.length ≤ n →
    ∃ c', drops n w c = some c' ∧ Counted c' own ∧ c'.length = c.length ∧ (∀ a, cnt c' a ≤ cnt c a) ∧
      ∀ r ∈ own, ∀ d, view c' d r = view c d r := by
  intro n
  induction n with
  | zero =>
    intro c w own h hn
    have : w = [] := List.length_eq_zero_iff.1 (by omega)
    subst this
    exact ⟨c, rfl, h, rfl, fun _ => Nat.le_refl _, fun _ _ _ => rfl⟩
  | succ n ih =>
    intro c w own h hn
    cases w with
    | nil => exact ⟨c, rfl, h, rfl, fun _ => Nat.le_refl _, fun _ _ _ => rfl⟩
    | cons r w =>
      simp only [List.length_cons] at hn
      simp only [drops]
      cases ha : r.addr with
      | none =>
        refine ih ⟨fun a => ?_, h.pos⟩ (by omega)
        have := h.eq a
        rw [List.cons_append, occ_cons, occ_one_none (by rw [ha]; simp)] at this
        omega
      | some a =>
        obtain ⟨x, hx⟩ := h.live (a := a) (by
          have := occ_pos (l := r :: w ++ own) (r := r) (by simp) ha
          omega)
        simp only [hx]
        have hcnt := h.eq a
        rw [cnt_some hx, List.cons_append, occ_cons, occ_one ha] at hcnt
        split
        · rename_i hgt
          have hsb := sameBodies_set (x.count - 1) hx
          suffices hC : Counted (c.set a (some { x with count := x.count - 1 })) (w ++ own) by
            obtain ⟨c', h1, h2, h3, hle, h4⟩ := ih hC (by rw [sameBodies_refs (by simp) hsb]; omega)
            refine ⟨c', h1, h2, by simpa using h3, fun b => Nat.le_trans (hle b) ?_, fun r hr d => (h4 r hr d).trans (view_sameBodies hsb d r)⟩
            by_cases hb : a = b
            · subst hb; rw [cnt_set_self (at_lt hx), cnt_some hx]; exact Nat.sub_le _ _
            · rw [cnt_set_ne hb]; exact Nat.le_refl _
          refine ⟨fun b => ?_, fun b y hy => ?_⟩
          · rw [sameBodies_refs (by simp) hsb]
            have := h.eq b
            rw [List.cons_append, occ_cons] at this
            by_cases hb : a = b
            · subst hb
              rw [cnt_set_self (at_lt hx)]
              simp only
              omega
            · rw [cnt_set_ne hb]
              rw [occ_one_none (by rw [ha]; simpa using hb)] at this
              omega
          · by_cases hb : a = b
            · subst hb
              rw [at_set_self (at_lt hx)] at hy
              cases hy
              simp only
              omega
            · rw [at_set_ne hb] at hy
              exact h.pos b y hy
        · rename_i hle
          have hone := h.pos a x hx
          have hz1 : occ a (w ++ own) = 0 := by omega
          have hz2 : occ a c.refs = 0 := by omega
          have hlen := refs_length_set none hx
          suffices hC : Counted (c.set a none) ((x.body.refs ++ w) ++ own) by
            obtain ⟨c', h1, h2, h3, hle, h4⟩ := ih hC
              (by simp only [List.length_append, optRefs, List.length_nil] at hlen ⊢; omega)
            refine ⟨c', h1, h2, by simpa using h3, fun b => Nat.le_trans (hle b) ?_,
              fun r hr d => (h4 r hr d).trans (view_set _ hz2 ?_ d)⟩
            · by_cases hb : a = b
              · subst hb; simp [cnt, at_set_self (at_lt hx)]
              · rw [cnt_set_ne hb]; exact Nat.le_refl _
            · exact addr_ne_of_occ (l := w ++ own) (by simp [hr]) hz1
          refine ⟨fun b => ?_, fun b y hy => ?_⟩
          · have h5 := h.eq b
            have h6 := occ_refs_set none hx b
            simp only [optRefs, occ_nil] at h6
            simp only [List.cons_append, List.append_assoc, occ_append] at h5 ⊢
            rw [occ_cons, occ_append] at h5
            by_cases hb : a = b
            · subst hb
              have : cnt (c.set a none) a = 0 := by simp [cnt, at_set_self (at_lt hx)]
              have h7 : occ a x.body.refs ≤ occ a c.refs := by omega
              rw [occ_append] at hz1
              rw [this]; omega
            · rw [cnt_set_ne hb]
              rw [occ_one_none (by rw [ha]; simpa using hb)] at h5
              omega
          · by_cases hb : a = b
            · subst hb; rw [at_set_self (at_lt hx)] at hy; cases hy
            · rw [at_set_ne hb] at hy
              exact h.pos b y hy

/-- Every cell of `c'` has the contents it has in `c`. -/
def Sub (c' c : Cells) : Prop := ∀ b y, c'.at b = some y → ∃ x, c.at b = some x ∧ x.body = y.body

theorem Sub.refl (c : Cells) : Sub c c := fun _ y h => ⟨y, h, rfl⟩

theorem Sub.trans {c'' c' c : Cells} (h : Sub c'' c') (h' : Sub c' c) : Sub c'' c := by
  intro b y hy
  obtain ⟨x, hx, e⟩ := h b y hy
  obtain ⟨z, hz, e'⟩ := h' b x hx
  exact ⟨z, hz, e'.trans e⟩

theorem SameBodies.sub {c c' : Cells} (h : SameBodies c c') : Sub c' c := by
  intro b y hy
  have := h b
  rw [hy] at this
  simp only [Option.map_some] at this
  obtain ⟨x, hx, e⟩ := Option.map_eq_some_iff.1 this.symm
  exact ⟨x, hx, e⟩

theorem sub_set {c : Cells} {a : Nat} {x : Cell} {y : Option Cell} (h : c.at a = some x)
    (hy : ∀ z, y = some z → z.body = x.body) : Sub (c.set a y) c := by
  intro b z hz
  by_cases hb : a = b
  · subst hb
    rw [at_set_self (at_lt h)] at hz
    exact ⟨x, h, (hy z hz).symm⟩
  · rw [at_set_ne hb] at hz
    exact ⟨z, hz, rfl⟩

theorem drops_sub : ∀ (n : Nat) {c c' : Cells} {w : List Ref}, drops n w c = some c' → Sub c' c := by
  intro n
  induction n with
  | zero =>
    intro c c' w h
    cases w with
    | nil => simp only [drops] at h; cases h; exact Sub.refl _
    | cons r w => simp [drops] at h
  | succ n ih =>
    intro c c' w h
    cases w with
    | nil => simp only [drops] at h; cases h; exact Sub.refl _
    | cons r w =>
      simp only [drops] at h
      split at h
      · exact ih h
      · split at h
        · cases h
        · rename_i x hx
          split at h
          · exact (ih h).trans (sub_set hx (fun z hz => by cases hz; rfl))
          · exact (ih h).trans (sub_set hx (fun z hz => by cases hz))

end Dart.Cow
