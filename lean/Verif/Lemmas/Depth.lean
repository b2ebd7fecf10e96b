import Verif.Lemmas.ValidEnc
import Verif.Lemmas.Bound
import Verif.Model.Depth

/-
Helper lemmas about the number of nested calls.
-/
namespace Dart
open Spec

/-! ### What an accepted table says about its children -/

theorem validFields_child {rec : RawType → Nat → Nat → Verdict} {m : Bytes} {p total : Nat} : ∀ {k idx prev : Nat},
    validFields rec m p total k idx prev = .ok true → ∀ i, idx ≤ i → i < idx + k →
      ∃ vt vp b, loadValue m p i = some (vt, vp) ∧ rec vt vp b = .ok true
  | 0, _, _, _, i, h1, h2 => by omega
  | k + 1, idx, prev, h, i, h1, h2 => by
    unfold validFields at h
    simp only [Verdict.and_true, rd_bind_true] at h
    obtain ⟨kp, _, _, _, ⟨vt, vp⟩, hv, _, hr, hrest⟩ := h
    by_cases hi : i = idx
    · subst hi
      exact ⟨vt, vp, _, hv, hr⟩
    · exact validFields_child hrest i (by omega) (by omega)

theorem validElems_child {rec : RawType → Nat → Nat → Verdict} {m : Bytes} {p total : Nat} : ∀ {k idx prev : Nat},
    validElems rec m p total k idx prev = .ok true → ∀ i, idx ≤ i → i < idx + k →
      ∃ vt vp b, loadElem m p i = some (vt, vp) ∧ rec vt vp b = .ok true
  | 0, _, _, _, i, h1, h2 => by omega
  | k + 1, idx, prev, h, i, h1, h2 => by
    unfold validElems at h
    simp only [Verdict.and_true, rd_bind_true] at h
    obtain ⟨⟨vt, vp⟩, hv, _, hr, hrest⟩ := h
    by_cases hi : i = idx
    · subst hi
      exact ⟨vt, vp, _, hv, hr⟩
    · exact validElems_child hrest i (by omega) (by omega)

/-! ### Restoring -/

theorem foldlM_inv {α : Type} {f : α → Nat → Option α} {P : α → Prop} : ∀ (l : List Nat) (a b : α),
    (∀ a i b, i ∈ l → P a → f a i = some b → P b) → P a → l.foldlM f a = some b → P b
  | [], a, b, _, ha, h => by
    simp only [List.foldlM_nil, Option.pure_def, Option.some.injEq] at h
    exact h ▸ ha
  | i :: l, a, b, hf, ha, h => by
    simp only [List.foldlM_cons, Option.bind_eq_bind, Option.bind_eq_some_iff] at h
    obtain ⟨c, hc, h⟩ := h
    exact foldlM_inv l c b (fun a i b hi => hf a i b (by simp [hi])) (hf a i c (by simp) ha hc) h

theorem levels_mapInsert (k : Bytes) (v : Val) (d : Nat) (hv : levels v ≤ d) :
    ∀ l : List (Bytes × Val), levelsFields l ≤ d → levelsFields (mapInsert k v l) ≤ d
  | [], _ => by simp only [mapInsert, levelsFields]; omega
  | (k', v') :: l, h => by
    simp only [levelsFields] at h
    have ih := levels_mapInsert k v d hv l (by omega)
    unfold mapInsert
    split
    · simp only [levelsFields]; omega
    · split
      · simp only [levelsFields]; omega
      · simp only [levelsFields]; omega

theorem levelsElems_append (es : List Val) (v : Val) : levelsElems (es ++ [v]) = max (levelsElems es) (levels v) := by
  induction es with
  | nil => simp [levelsElems]
  | cons e es ih => simp only [List.cons_append, levelsElems, ih]; omega

/-- What is restored is nested at most as deep as the calls: children restored within `d` levels give a value of `d + 1`. -/
theorem decode_within {R : RawType → Nat → Prop} {m : Bytes} {d f : Nat}
    (hR : ∀ t p v, R t p → decode f m t p = some v → levels v ≤ d) {t : RawType} {p : Nat} {v : Val}
    (ho : t = .object → ∀ i n, numElems m p = some n → i < n → ∀ x, loadValue m p i = some x → R x.1 x.2)
    (ha : t = .array → ∀ i n, numElems m p = some n → i < n → ∀ x, loadElem m p i = some x → R x.1 x.2)
    (h : decode (f + 1) m t p = some v) : levels v ≤ d + 1 := by
  cases t with
  | object =>
    simp only [decode, Option.bind_eq_bind, Option.bind_eq_some_iff] at h
    obtain ⟨n, hn, fs, hfs, h⟩ := h
    cases h
    have := foldlM_inv (P := fun fs => levelsFields fs ≤ d) _ _ _ (fun a i b hi hP hf => by
      simp only [Option.bind_eq_bind, Option.bind_eq_some_iff] at hf
      obtain ⟨kp, _, k, _, ⟨vt, vp⟩, hv, w, hw, hf⟩ := hf
      cases hf
      exact levels_mapInsert k w d (hR _ _ _ (ho rfl i n hn (List.mem_range.1 hi) _ hv) hw) a hP)
      (Nat.zero_le _) hfs
    simp only [levels]
    omega
  | array =>
    simp only [decode, Option.bind_eq_bind, Option.bind_eq_some_iff] at h
    obtain ⟨n, hn, es, hes, h⟩ := h
    cases h
    have := foldlM_inv (P := fun es => levelsElems es ≤ d) _ _ _ (fun a i b hi hP hf => by
      simp only [Option.bind_eq_bind, Option.bind_eq_some_iff] at hf
      obtain ⟨⟨vt, vp⟩, hv, w, hw, hf⟩ := hf
      cases hf
      have := hR _ _ _ (ha rfl i n hn (List.mem_range.1 hi) _ hv) hw
      rw [levelsElems_append]
      omega)
      (Nat.zero_le _) hes
    simp only [levels]
    omega
  | null => cases h; simp [levels]
  | _ =>
    simp only [decode, Option.map_eq_some_iff] at h
    obtain ⟨_, _, h⟩ := h
    subst h
    simp [levels]

theorem decode_needs : ∀ (d : Nat) {m : Bytes} {t : RawType} {p : Nat} {v : Val}, decode d m t p = some v → levels v ≤ d
  | 0, _, _, _, _, h => by simp [decode] at h
  | d + 1, m, t, p, v, h =>
    decode_within (R := fun _ _ => True) (d := d) (fun _ _ _ _ h => decode_needs d h) (fun _ _ _ _ _ _ _ => trivial)
      (fun _ _ _ _ _ _ _ => trivial) h

/-- Whoever has accepted bytes has made at least as many nested calls as what they show is nested. -/
theorem valid_needs : ∀ (d f : Nat) {m : Bytes} {t : RawType} {p b : Nat} {v : Val}, validBuffer m d t p b = .ok true →
    decode f m t p = some v → levels v ≤ d
  | 0, _, _, _, _, _, _, h, _ => by simp [validBuffer] at h
  | _, 0, _, _, _, _, _, _, h => by simp [decode] at h
  | d + 1, f + 1, m, t, p, b, v, hv, h => by
    refine decode_within (R := fun t p => ∃ b, validBuffer m d t p b = .ok true) (d := d) ?_ ?_ ?_ h
    · rintro t p v ⟨b, hb⟩ h
      exact valid_needs d f hb h
    · rintro rfl i n hn hi x hx
      obtain ⟨_, total, _, _, n', hn', _, _, hl⟩ := validTable_true.1 hv
      cases hn.symm.trans hn'
      obtain ⟨vt, vp, b, h1, h2⟩ := validFields_child hl i (by omega) (by omega)
      cases hx.symm.trans h1
      exact ⟨b, h2⟩
    · rintro rfl i n hn hi x hx
      obtain ⟨_, total, _, _, n', hn', _, _, hl⟩ := validTable_true.1 hv
      cases hn.symm.trans hn'
      obtain ⟨vt, vp, b, h1, h2⟩ := validElems_child hl i (by omega) (by omega)
      cases hx.symm.trans h1
      exact ⟨b, h2⟩

/-! ### A larger stack only helps against running out of it -/

/-- `a` runs out of stack, or is `b`. -/
def OrOut (a b : Verdict) : Prop := a = .error .fuel ∨ a = b

theorem OrOut.and {a a' : Verdict} {b b' : Unit → Verdict} (h : OrOut a a') (hb : OrOut (b ()) (b' ())) :
    OrOut (a.and b) (a'.and b') := by
  rcases h with rfl | rfl
  · exact .inl rfl
  · cases a with
    | error e => exact .inr rfl
    | ok x => cases x with
      | false => exact .inr rfl
      | true => exact hb

theorem OrOut.bind {α : Type} {o : Option α} {f f' : α → Verdict} (hf : ∀ x, OrOut (f x) (f' x)) :
    OrOut (rd o >>= f) (rd o >>= f') := by
  cases o with
  | none => exact .inr rfl
  | some x => exact hf x

theorem validFields_out {rec rec' : RawType → Nat → Nat → Verdict} (hrec : ∀ t q b, OrOut (rec t q b) (rec' t q b)) (m : Bytes)
    (p total : Nat) : ∀ k idx prev, OrOut (validFields rec m p total k idx prev) (validFields rec' m p total k idx prev)
  | 0, _, _ => .inr rfl
  | k + 1, idx, prev => by
    unfold validFields
    refine OrOut.bind fun kp => OrOut.and (.inr rfl) (OrOut.and (hrec _ _ _) (OrOut.bind fun x => ?_))
    exact OrOut.and (.inr rfl) (OrOut.and (hrec _ _ _) (validFields_out hrec m p total k _ _))

theorem validElems_out {rec rec' : RawType → Nat → Nat → Verdict} (hrec : ∀ t q b, OrOut (rec t q b) (rec' t q b)) (m : Bytes)
    (p total : Nat) : ∀ k idx prev, OrOut (validElems rec m p total k idx prev) (validElems rec' m p total k idx prev)
  | 0, _, _ => .inr rfl
  | k + 1, idx, prev => by
    unfold validElems
    exact OrOut.bind fun x => OrOut.and (.inr rfl) (OrOut.and (hrec _ _ _) (validElems_out hrec m p total k _ _))

theorem validTable_out {m : Bytes} {p bytes : Nat} {loop loop' : Nat → Nat → Verdict} (h : ∀ t n, OrOut (loop t n) (loop' t n)) :
    OrOut (validTable m p bytes loop) (validTable m p bytes loop') := by
  unfold validTable
  exact OrOut.and (.inr rfl) (OrOut.bind fun _ => OrOut.and (.inr rfl) (OrOut.bind fun _ => OrOut.and (.inr rfl)
    (OrOut.and (.inr rfl) (h _ _))))

theorem validBuffer_out (m : Bytes) : ∀ fuel fuel' t p bytes, fuel ≤ fuel' →
    OrOut (validBuffer m fuel t p bytes) (validBuffer m fuel' t p bytes)
  | 0, _, _, _, _, _ => .inl rfl
  | fuel + 1, 0, _, _, _, h => by omega
  | fuel + 1, fuel' + 1, t, p, bytes, h => by
    cases t <;> unfold validBuffer <;> try exact .inr rfl
    case object =>
      exact validTable_out fun total n => validFields_out
        (fun t q b => validBuffer_out m fuel fuel' t q b (by omega)) m p total n 0 p
    case array =>
      exact validTable_out fun total n => validElems_out
        (fun t q b => validBuffer_out m fuel fuel' t q b (by omega)) m p total n 0 p

theorem foldlM_mono {α : Type} {f g : α → Nat → Option α} (h : ∀ a i b, f a i = some b → g a i = some b) :
    ∀ (l : List Nat) (a b : α), l.foldlM f a = some b → l.foldlM g a = some b
  | [], _, _, h' => h'
  | i :: l, a, b, h' => by
    simp only [List.foldlM_cons, Option.bind_eq_bind, Option.bind_eq_some_iff] at h' ⊢
    obtain ⟨c, hc, h'⟩ := h'
    exact ⟨c, h a i c hc, foldlM_mono h l c b h'⟩

theorem decode_out (m : Bytes) : ∀ fuel fuel' t p v, fuel ≤ fuel' → decode fuel m t p = some v → decode fuel' m t p = some v
  | 0, _, _, _, _, _, h => by simp [decode] at h
  | fuel + 1, 0, _, _, _, h, _ => by omega
  | fuel + 1, fuel' + 1, t, p, v, hle, h => by
    cases t
    case object =>
      simp only [decode, Option.bind_eq_bind, Option.bind_eq_some_iff] at h ⊢
      obtain ⟨n, hn, fs, hfs, h⟩ := h
      refine ⟨n, hn, fs, foldlM_mono (fun a i b hf => ?_) _ _ _ hfs, h⟩
      simp only [Option.bind_eq_bind, Option.bind_eq_some_iff] at hf ⊢
      obtain ⟨kp, h1, k, h2, x, h3, w, h4, h5⟩ := hf
      exact ⟨kp, h1, k, h2, x, h3, w, decode_out m fuel fuel' _ _ _ (by omega) h4, h5⟩
    case array =>
      simp only [decode, Option.bind_eq_bind, Option.bind_eq_some_iff] at h ⊢
      obtain ⟨n, hn, es, hes, h⟩ := h
      refine ⟨n, hn, es, foldlM_mono (fun a i b hf => ?_) _ _ _ hes, h⟩
      simp only [Option.bind_eq_bind, Option.bind_eq_some_iff] at hf ⊢
      obtain ⟨x, h3, w, h4, h5⟩ := hf
      exact ⟨x, h3, w, decode_out m fuel fuel' _ _ _ (by omega) h4, h5⟩
    all_goals exact h

/-! ### At most one call in sixteen bytes -/

theorem validTable_total' {m : Bytes} {p bytes : Nat} {loop : Nat → Nat → Verdict} (hm : p + bytes ≤ m.length)
    (hl : ∀ total n, readU m 4 p = some total → total ≤ bytes → 8 + 8 * n ≤ total →
      (∀ i, i < n → ∃ t, entType m p i = some t) → ∃ r, loop total n = .ok r) :
    ∃ r, validTable m p bytes loop = .ok r := by
  unfold validTable
  refine Verdict.and_total (check_total _) fun h1 => ?_
  rw [check_true] at h1
  obtain ⟨total, htot⟩ := readU_some (m := m) (w := 4) (p := p) (by omega)
  refine rd_bind_total total htot ?_
  refine Verdict.and_total (check_total _) fun h2 => ?_
  rw [check_true] at h2
  obtain ⟨n, hn⟩ := readU_some (m := m) (w := 4) (p := p + 4) (by omega)
  refine rd_bind_total n hn ?_
  refine Verdict.and_total (check_total _) fun h3 => ?_
  rw [check_true] at h3
  refine Verdict.and_total (typesValid_total m p n (by omega)) fun h4 => ?_
  exact hl total n htot h2 h3 (typesValid_true h4)

/-- The first child, or beyond it. -/
def Beyond (m : Bytes) (p q : Nat) : Prop := ∃ off, entOff m p 0 = some off ∧ p + off ≤ q

theorem validFields_total' {rec : RawType → Nat → Nat → Verdict} {m : Bytes} {p total n : Nat}
    (hm : p + total ≤ m.length) (hn : 8 + 8 * n ≤ total)
    (hrec : ∀ t q, p < q → q ≤ p + total → t.align ∣ q → Beyond m p q → ∃ r, rec t q (total - (q - p)) = .ok r)
    (hstr : ∀ q b, rec .string q b = .ok true → ∃ len, readU m 2 q = some len)
    (ht : ∀ i, i < n → ∃ t, entType m p i = some t) :
    ∀ k idx prev, idx + k = n → p ≤ prev → (idx = 0 ∨ Beyond m p prev) →
      ∃ r, validFields rec m p total k idx prev = .ok r
  | 0, _, _, _, _, _ => ⟨_, rfl⟩
  | k + 1, idx, prev, hk, hp, hb => by
    unfold validFields
    obtain ⟨off, ho, hkey⟩ := loadKey_some (m := m) (p := p) (i := idx) (by omega)
    refine rd_bind_total _ hkey ?_
    refine Verdict.and_total (childAddr_total _ _ _ _ _) fun h1 => ?_
    rw [childAddr_true] at h1
    have b1 : Beyond m p (p + off) := by
      rcases hb with rfl | ⟨o, h2, h3⟩
      · exact ⟨off, ho, Nat.le_refl _⟩
      · exact ⟨o, h2, by omega⟩
    refine Verdict.and_total (hrec _ _ (by omega) (by omega) h1.2.2 b1) fun h2 => ?_
    obtain ⟨len, hlen⟩ := hstr _ _ h2
    obtain ⟨t, ht'⟩ := ht idx (by omega)
    refine rd_bind_total _ (loadValue_of ho ht' hlen) ?_
    refine Verdict.and_total (childAddr_total _ _ _ _ _) fun h3 => ?_
    rw [childAddr_true] at h3
    obtain ⟨o, h4, h5⟩ := b1
    refine Verdict.and_total (hrec _ _ (by omega) (by omega) h3.2.2 ⟨o, h4, by omega⟩) fun _ => ?_
    exact validFields_total' hm hn hrec hstr ht k (idx + 1) _ (by omega) (by omega) (.inr ⟨o, h4, by omega⟩)

theorem validElems_total' {rec : RawType → Nat → Nat → Verdict} {m : Bytes} {p total n : Nat}
    (hm : p + total ≤ m.length) (hn : 8 + 8 * n ≤ total)
    (hrec : ∀ t q, p < q → q ≤ p + total → t.align ∣ q → Beyond m p q → ∃ r, rec t q (total - (q - p)) = .ok r)
    (ht : ∀ i, i < n → ∃ t, entType m p i = some t) :
    ∀ k idx prev, idx + k = n → p ≤ prev → (idx = 0 ∨ Beyond m p prev) →
      ∃ r, validElems rec m p total k idx prev = .ok r
  | 0, _, _, _, _, _ => ⟨_, rfl⟩
  | k + 1, idx, prev, hk, hp, hb => by
    unfold validElems
    obtain ⟨off, ho, hkey⟩ := loadKey_some (m := m) (p := p) (i := idx) (by omega)
    obtain ⟨t, ht'⟩ := ht idx (by omega)
    refine rd_bind_total _ (loadElem_of ho ht') ?_
    refine Verdict.and_total (childAddr_total _ _ _ _ _) fun h3 => ?_
    rw [childAddr_true] at h3
    have b1 : Beyond m p (p + off) := by
      rcases hb with rfl | ⟨o, h2, h3⟩
      · exact ⟨off, ho, Nat.le_refl _⟩
      · exact ⟨o, h2, by omega⟩
    refine Verdict.and_total (hrec _ _ (by omega) (by omega) h3.2.2 b1) fun _ => ?_
    exact validElems_total' hm hn hrec ht k (idx + 1) _ (by omega) (by omega) (.inr b1)

/-- Enough room for the calls an element needs: one for every sixteen bytes, or its table is empty. -/
def Room (m : Bytes) (fuel : Nat) (t : RawType) (p bytes : Nat) : Prop :=
  1 ≤ fuel ∧ (isTable t → 8 ∣ p ∧ (bytes / 16 + 1 ≤ fuel ∨ ∃ total, readU m 4 p = some total ∧ total < 16))

theorem room_child {m : Bytes} {fuel : Nat} {p bytes total n : Nat}
    (h : 8 ∣ p ∧ (bytes / 16 + 1 ≤ fuel + 1 ∨ ∃ total, readU m 4 p = some total ∧ total < 16))
    (hr : readU m 4 p = some total) (ht : total ≤ bytes) (hn : 8 + 8 * (n + 1) ≤ total) {t : RawType} {q : Nat} (h1 : p < q)
    (h2 : q ≤ p + total) (ha : t.align ∣ q) (hb : Beyond m p q) : Room m fuel t q (total - (q - p)) := by
  obtain ⟨h8, h⟩ := h
  have h : bytes / 16 + 1 ≤ fuel + 1 := by
    rcases h with h | ⟨t', h3, h4⟩
    · exact h
    · cases hr.symm.trans h3
      omega
  refine ⟨by omega, fun h' => ?_⟩
  have h8 : 8 ∣ q := by rcases h' with rfl | rfl <;> exact ha
  refine ⟨h8, ?_⟩
  by_cases hq : p + 16 ≤ q
  · exact .inl (by omega)
  · obtain ⟨off, ho, hoff⟩ := hb
    refine .inr ⟨off, ?_, by omega⟩
    have : q = p + 8 + 8 * 0 := by omega
    rw [this]
    exact ho

theorem validBuffer_total' (m : Bytes) : ∀ fuel t p bytes, p + bytes ≤ m.length →
    Room m fuel t p bytes → ∃ r, validBuffer m fuel t p bytes = .ok r
  | 0, _, _, _, _, h => absurd h.1 (by omega)
  | fuel + 1, t, p, bytes, hm, h => by
    cases t <;> unfold validBuffer <;> try exact check_total _
    case object =>
      have h := h.2 (Or.inl rfl)
      refine validTable_total' hm fun total n hr ht hn hty => ?_
      cases n with
      | zero => exact ⟨_, rfl⟩
      | succ n =>
        refine validFields_total' (by omega) hn (fun t q h1 h2 h3 h4 => ?_)
          (fun q b => validBuffer_string) hty (n + 1) 0 p (by omega) (by omega) (.inl rfl)
        exact validBuffer_total' m fuel t q _ (by omega) (room_child h hr ht hn h1 h2 h3 h4)
    case array =>
      have h := h.2 (Or.inr rfl)
      refine validTable_total' hm fun total n hr ht hn hty => ?_
      cases n with
      | zero => exact ⟨_, rfl⟩
      | succ n =>
        refine validElems_total' (by omega) hn (fun t q h1 h2 h3 h4 => ?_) hty (n + 1) 0 p (by omega) (by omega) (.inl rfl)
        exact validBuffer_total' m fuel t q _ (by omega) (room_child h hr ht hn h1 h2 h3 h4)
    all_goals first
      | exact validString_total m _ p bytes hm
      | exact ⟨_, rfl⟩

/-! ### Deep documents -/

theorem nest_rawType (n : Nat) : (nest n).rawType = .array := by cases n <;> rfl

theorem levels_nest (n : Nat) : levels (nest n) = n + 1 := by
  induction n with
  | zero => rfl
  | succ n ih => simp only [nest, levels, levelsElems, ih]; omega

theorem levels_nested (n : Nat) : levels (nested n) = n + 2 := by
  simp only [nested, levels, levelsFields, levels_nest]
  omega

theorem nest_wf (n : Nat) : (nest n).WF := by
  induction n with
  | zero => simp [nest, Val.WF, wfElems_iff]
  | succ n ih => simpa [nest, Val.WF, wfElems_iff] using ih

theorem nested_wf (n : Nat) : (nested n).WF := by
  have := nest_wf n
  simp [nested, Val.WF, wfFields_iff, this]

theorem nest_harmless (n : Nat) : (nest n).NullsHarmless := by
  induction n with
  | zero => simp [nest, Val.NullsHarmless, NullsHarmlessElems]
  | succ n ih => simp [nest, Val.NullsHarmless, NullsHarmlessElems, ih]

theorem nested_harmless (n : Nat) : (nested n).NullsHarmless := by
  simp [nested, Val.NullsHarmless, NullsHarmlessFields, nest_harmless]

theorem nest_size (n : Nat) : sizeVal (nest n) = 16 * n + 8 := by
  induction n with
  | zero => rfl
  | succ n ih =>
    simp only [nest, sizeVal, elemsEnd, nest_rawType, RawType.align, ih, List.length_cons, List.length_nil]
    show alignUp 16 8 + _ = _
    have : alignUp 16 8 = 16 := by decide
    omega

theorem nested_size (n : Nat) : sizeVal (nested n) = 16 * n + 32 := by
  simp only [nested, sizeVal, fieldsEnd, nest_rawType, nest_size]
  have h1 : alignUp (alignUp (8 + 8 * [(([] : Bytes), nest n)].length) 2 + strSize []) RawType.array.align = 24 := by
    simp only [List.length_cons, List.length_nil]
    decide
  rw [h1]
  rw [alignUp_of_dvd (by decide) (by omega)]
  omega

theorem nest_bound (n : Nat) (h : 31 * n + 16 < 2 ^ 32) : upperBound (nest n) = some (31 * n + 16) := by
  induction n with
  | zero => rfl
  | succ n ih =>
    have ih := ih (by omega)
    simp only [nest, upperBound, elemsUB, ih, nest_rawType, Option.bind_eq_bind, Option.bind_some, List.length_cons,
      List.length_nil, RawType.align]
    rw [if_neg (by omega)]
    congr 1
    omega

theorem nested_finalize (n : Nat) (h : 31 * n + 64 < 2 ^ 32) :
    ∃ m, finalize (nested n) = .ok m ∧ getBytes m = some (enc (nested n)) ∧ Fits (nested n) := by
  have hu : ∃ b, upperBound (nested n) = some b := by
    have h1 : alignUp (8 + 8 * (0 + 1 + 1) + (stringUB [] + (8 - 1) + (31 * n + 16 + (RawType.string.align - 1)) + 0)) 8
        < 31 * n + 64 := by
      have e : RawType.string.align = 2 := rfl
      have e' : stringUB [] = 3 := by decide
      rw [e, e']
      unfold alignUp
      omega
    simp only [nested, upperBound, fieldsUB, nest_bound n (by omega), nest_rawType, Option.bind_eq_bind, Option.bind_some,
      List.length_cons, List.length_nil, show RawType.array.align = 8 from rfl]
    rw [if_neg (by omega)]
    exact ⟨_, rfl⟩
  obtain ⟨b, hb⟩ := hu
  obtain ⟨h1, _, h3⟩ := finalize_ok (nested_wf n) hb
  exact ⟨_, h1, getBytes_enc _ h3.1 _, h3⟩

end Dart
