import Verif.Model.Validate
import Verif.Lemmas.Basic

/-
Helper lemmas about the validator.
-/
namespace Dart

/-! ### Combinators -/

theorem Verdict.and_true {a : Verdict} {b : Unit → Verdict} :
    a.and b = .ok true ↔ a = .ok true ∧ b () = .ok true := by
  unfold Verdict.and
  split <;> simp_all

theorem Verdict.and_total {a : Verdict} {b : Unit → Verdict} (ha : ∃ r, a = .ok r)
    (hb : a = .ok true → ∃ r, b () = .ok r) : ∃ r, a.and b = .ok r := by
  obtain ⟨r, rfl⟩ := ha
  cases r
  · exact ⟨false, rfl⟩
  · exact hb rfl

theorem check_true {c : Prop} [Decidable c] : check c = .ok true ↔ c := by
  simp [check]

theorem check_total (c : Prop) [Decidable c] : ∃ r, check c = .ok r := ⟨_, rfl⟩

theorem rd_ok {α : Type} {o : Option α} {a : α} : rd o = .ok a ↔ o = some a := by
  cases o <;> simp [rd]

theorem rd_bind_true {α : Type} {o : Option α} {f : α → Verdict} :
    (rd o >>= f) = .ok true ↔ ∃ a, o = some a ∧ f a = .ok true := by
  cases o with
  | none => simp [rd, bind, Except.bind]
  | some a => simp [rd, bind, Except.bind]

theorem rd_bind_total {α : Type} {o : Option α} {f : α → Verdict} (a : α) (h : o = some a)
    (hf : ∃ r, f a = .ok r) : ∃ r, (rd o >>= f) = .ok r := by
  subst h; exact hf

/-! ### Reads -/

theorem readU_some {m : Bytes} {w p : Nat} (h : p + w ≤ m.length) : ∃ x, readU m w p = some x := by
  unfold readU readBytes
  rw [if_pos h]
  exact ⟨_, rfl⟩

theorem readU_bound {m : Bytes} {w p x : Nat} (h : readU m w p = some x) :
    p + w ≤ m.length ∧ x < 256 ^ w := by
  unfold readU readBytes at h
  split at h
  · rename_i hp
    refine ⟨hp, ?_⟩
    simp only [Option.map_some, Option.some.injEq] at h
    have := leNat_lt ((m.drop p).take w)
    rw [h, List.length_take, List.length_drop, Nat.min_eq_left (by omega)] at this
    exact this
  · simp at h

theorem readBytes_some {m : Bytes} {p n : Nat} (h : p + n ≤ m.length) :
    ∃ x, readBytes m p n = some x := by
  unfold readBytes
  rw [if_pos h]
  exact ⟨_, rfl⟩

theorem readBytes_append {m e : Bytes} {p n : Nat} {x : Bytes} (h : readBytes m p n = some x) :
    readBytes (m ++ e) p n = some x := by
  unfold readBytes at h ⊢
  split at h
  · rename_i hp
    rw [if_pos (by simp; omega), ← h, List.drop_append_of_le_length (by omega),
      List.take_append_of_le_length (by simp; omega)]
  · simp at h

theorem readU_append {m e : Bytes} {w p x : Nat} (h : readU m w p = some x) :
    readU (m ++ e) w p = some x := by
  unfold readU at h ⊢
  rw [Option.map_eq_some_iff] at h ⊢
  obtain ⟨b, hb, hx⟩ := h
  exact ⟨b, readBytes_append hb, hx⟩

theorem entOff_append {m e : Bytes} {p i x : Nat} (h : entOff m p i = some x) :
    entOff (m ++ e) p i = some x := readU_append h

theorem entType_append {m e : Bytes} {p i : Nat} {t : RawType} (h : entType m p i = some t) :
    entType (m ++ e) p i = some t := by
  unfold entType at h ⊢
  rw [Option.bind_eq_some_iff] at h ⊢
  obtain ⟨a, ha, ht⟩ := h
  exact ⟨a, readU_append ha, ht⟩

theorem loadKey_append {m e : Bytes} {p i x : Nat} (h : loadKey m p i = some x) :
    loadKey (m ++ e) p i = some x := by
  unfold loadKey at h ⊢
  simp only [Option.bind_eq_bind, Option.bind_eq_some_iff] at h ⊢
  obtain ⟨a, ha, ht⟩ := h
  exact ⟨a, entOff_append ha, ht⟩

theorem afterKey_append {m e : Bytes} {t : RawType} {kp x : Nat} (h : afterKey m t kp = some x) :
    afterKey (m ++ e) t kp = some x := by
  unfold afterKey findSizeof at h ⊢
  simp only [Option.bind_eq_bind, Option.bind_eq_some_iff, Option.map_eq_some_iff] at h ⊢
  obtain ⟨a, ⟨n, hn, ha⟩, ht⟩ := h
  exact ⟨a, ⟨n, readU_append hn, ha⟩, ht⟩

theorem loadValue_append {m e : Bytes} {p i : Nat} {x : RawType × Nat}
    (h : loadValue m p i = some x) : loadValue (m ++ e) p i = some x := by
  unfold loadValue at h ⊢
  simp only [Option.bind_eq_bind, Option.bind_eq_some_iff] at h ⊢
  obtain ⟨a, ha, t, ht, q, hq, hx⟩ := h
  exact ⟨a, entOff_append ha, t, entType_append ht, q, afterKey_append hq, hx⟩

theorem loadElem_append {m e : Bytes} {p i : Nat} {x : RawType × Nat}
    (h : loadElem m p i = some x) : loadElem (m ++ e) p i = some x := by
  unfold loadElem at h ⊢
  simp only [Option.bind_eq_bind, Option.bind_eq_some_iff] at h ⊢
  obtain ⟨t, ht, a, ha, hx⟩ := h
  exact ⟨t, entType_append ht, a, entOff_append ha, hx⟩

/-! ### The validator terminates inside the claimed bytes -/

theorem validString_total (m : Bytes) (t : RawType) (p bytes : Nat) (h : p + bytes ≤ m.length) :
    ∃ r, validString m t p bytes = .ok r := by
  unfold validString
  refine Verdict.and_total (check_total _) fun h1 => ?_
  rw [check_true] at h1
  obtain ⟨len, hlen⟩ := readU_some (m := m) (w := strWidth t) (p := p) (by omega)
  refine rd_bind_total len hlen ?_
  refine Verdict.and_total (check_total _) fun h2 => ?_
  rw [check_true] at h2
  obtain ⟨z, hz⟩ := readU_some (m := m) (w := 1) (p := p + strWidth t + len) (by omega)
  exact rd_bind_total z hz (check_total _)

theorem validString_true {m : Bytes} {t : RawType} {p bytes : Nat}
    (h : validString m t p bytes = .ok true) :
    ∃ len, readU m (strWidth t) p = some len ∧ strWidth t + len + 1 ≤ bytes ∧
      readU m 1 (p + strWidth t + len) = some 0 := by
  unfold validString at h
  simp only [Verdict.and_true, check_true, rd_bind_true] at h
  obtain ⟨_, len, hlen, h2, z, hz, h3⟩ := h
  exact ⟨len, hlen, h2, h3 ▸ hz⟩

theorem typesValid_total (m : Bytes) (p : Nat) : ∀ n, p + 8 + 8 * n ≤ m.length →
    ∃ r, typesValid m p n = .ok r
  | 0, _ => ⟨_, rfl⟩
  | n + 1, h => by
    unfold typesValid
    refine Verdict.and_total (typesValid_total m p n (by omega)) fun _ => ?_
    obtain ⟨c, hc⟩ := readU_some (m := m) (w := 1) (p := p + 8 + 8 * n + 4) (by omega)
    exact rd_bind_total c hc (check_total _)

theorem typesValid_true {m : Bytes} {p : Nat} : ∀ {n}, typesValid m p n = .ok true →
    ∀ i, i < n → ∃ t, entType m p i = some t
  | 0, _, i, hi => absurd hi (Nat.not_lt_zero _)
  | n + 1, h, i, hi => by
    unfold typesValid at h
    simp only [Verdict.and_true, check_true, rd_bind_true] at h
    obtain ⟨h1, c, hc, ht⟩ := h
    by_cases hin : i < n
    · exact typesValid_true h1 i hin
    · have hi : i = n := by omega
      subst hi
      obtain ⟨t, ht⟩ := Option.isSome_iff_exists.1 ht
      exact ⟨t, by unfold entType; rw [hc]; exact ht⟩

theorem childAddr_total (p total prev q : Nat) (t : RawType) :
    ∃ r, childAddr p total prev q t = .ok r := by
  unfold childAddr
  exact Verdict.and_total (check_total _) fun _ =>
    Verdict.and_total (check_total _) fun _ => check_total _

theorem childAddr_true {p total prev q : Nat} {t : RawType} :
    childAddr p total prev q t = .ok true ↔ q - p ≤ total ∧ prev < q ∧ t.align ∣ q := by
  unfold childAddr
  simp only [Verdict.and_true, check_true]
  constructor
  · rintro ⟨a, b, c⟩
    exact ⟨a, b, c ▸ dvd_alignUp q t.align⟩
  · rintro ⟨a, b, c⟩
    exact ⟨a, b, alignUp_of_dvd (align_pos t) c⟩

theorem entOff_some {m : Bytes} {p i : Nat} (h : p + 8 + 8 * (i + 1) ≤ m.length) :
    ∃ x, entOff m p i = some x := readU_some (by omega)

theorem loadKey_some {m : Bytes} {p i : Nat} (h : p + 8 + 8 * (i + 1) ≤ m.length) :
    ∃ off, entOff m p i = some off ∧ loadKey m p i = some (p + off) := by
  obtain ⟨off, ho⟩ := entOff_some h
  exact ⟨off, ho, by unfold loadKey; rw [ho]; rfl⟩

theorem loadKey_inv {m : Bytes} {p i kp : Nat} (h : loadKey m p i = some kp) :
    ∃ off, entOff m p i = some off ∧ kp = p + off := by
  unfold loadKey at h
  simp only [Option.bind_eq_bind, Option.bind_eq_some_iff, Option.some.injEq] at h
  obtain ⟨off, ho, h⟩ := h
  exact ⟨off, ho, h.symm⟩

theorem loadValue_of {m : Bytes} {p i off len : Nat} {t : RawType} (ho : entOff m p i = some off)
    (ht : entType m p i = some t) (hl : readU m 2 (p + off) = some len) :
    loadValue m p i = some (t, alignUp (p + off + (2 + len + 1)) t.align) := by
  unfold loadValue
  rw [ho, ht]
  simp only [Option.bind_eq_bind, Option.bind_some]
  unfold afterKey findSizeof
  rw [hl]
  rfl

theorem loadElem_of {m : Bytes} {p i off : Nat} {t : RawType} (ho : entOff m p i = some off)
    (ht : entType m p i = some t) : loadElem m p i = some (t, p + off) := by
  unfold loadElem
  rw [ho, ht]
  rfl

/-- Types with children. -/
def isTable (t : RawType) : Prop := t = .object ∨ t = .array

instance (t : RawType) : Decidable (isTable t) := inferInstanceAs (Decidable (_ ∨ _))

/-- Enough recursion depth left for an element. -/
def Enough (fuel : Nat) (t : RawType) (p bytes : Nat) : Prop :=
  1 ≤ fuel ∧ (isTable t → 8 ∣ p ∧ bytes / 8 + 2 ≤ fuel)

theorem validFields_total {rec : RawType → Nat → Nat → Verdict} {m : Bytes} {p total n : Nat}
    (hm : p + total ≤ m.length) (hn : 8 + 8 * n ≤ total)
    (hrec : ∀ t q, p < q → q ≤ p + total → t.align ∣ q → ∃ r, rec t q (total - (q - p)) = .ok r)
    (hstr : ∀ q b, rec .string q b = .ok true → ∃ len, readU m 2 q = some len)
    (ht : ∀ i, i < n → ∃ t, entType m p i = some t) :
    ∀ k idx prev, idx + k = n → p ≤ prev → ∃ r, validFields rec m p total k idx prev = .ok r
  | 0, _, _, _, _ => ⟨_, rfl⟩
  | k + 1, idx, prev, hk, hp => by
    unfold validFields
    obtain ⟨off, ho, hkey⟩ := loadKey_some (m := m) (p := p) (i := idx) (by omega)
    refine rd_bind_total _ hkey ?_
    refine Verdict.and_total (childAddr_total _ _ _ _ _) fun h1 => ?_
    rw [childAddr_true] at h1
    refine Verdict.and_total (hrec _ _ (by omega) (by omega) h1.2.2) fun h2 => ?_
    obtain ⟨len, hlen⟩ := hstr _ _ h2
    obtain ⟨t, ht'⟩ := ht idx (by omega)
    refine rd_bind_total _ (loadValue_of ho ht' hlen) ?_
    refine Verdict.and_total (childAddr_total _ _ _ _ _) fun h3 => ?_
    rw [childAddr_true] at h3
    refine Verdict.and_total (hrec _ _ (by omega) (by omega) h3.2.2) fun _ => ?_
    exact validFields_total hm hn hrec hstr ht k (idx + 1) _ (by omega) (by omega)

theorem validElems_total {rec : RawType → Nat → Nat → Verdict} {m : Bytes} {p total n : Nat}
    (hm : p + total ≤ m.length) (hn : 8 + 8 * n ≤ total)
    (hrec : ∀ t q, p < q → q ≤ p + total → t.align ∣ q → ∃ r, rec t q (total - (q - p)) = .ok r)
    (ht : ∀ i, i < n → ∃ t, entType m p i = some t) :
    ∀ k idx prev, idx + k = n → p ≤ prev → ∃ r, validElems rec m p total k idx prev = .ok r
  | 0, _, _, _, _ => ⟨_, rfl⟩
  | k + 1, idx, prev, hk, hp => by
    unfold validElems
    obtain ⟨off, ho, hkey⟩ := loadKey_some (m := m) (p := p) (i := idx) (by omega)
    obtain ⟨t, ht'⟩ := ht idx (by omega)
    refine rd_bind_total _ (loadElem_of ho ht') ?_
    refine Verdict.and_total (childAddr_total _ _ _ _ _) fun h3 => ?_
    rw [childAddr_true] at h3
    refine Verdict.and_total (hrec _ _ (by omega) (by omega) h3.2.2) fun _ => ?_
    exact validElems_total hm hn hrec ht k (idx + 1) _ (by omega) (by omega)

theorem validTable_total {m : Bytes} {p bytes : Nat} {loop : Nat → Nat → Verdict}
    (hm : p + bytes ≤ m.length)
    (hl : ∀ total n, total ≤ bytes → 8 + 8 * n ≤ total →
      (∀ i, i < n → ∃ t, entType m p i = some t) → ∃ r, loop total n = .ok r) :
    ∃ r, validTable m p bytes loop = .ok r := by
  unfold validTable
  refine Verdict.and_total (check_total _) fun h1 => ?_
  rw [check_true] at h1
  obtain ⟨total, htot⟩ := readU_some (m := m) (w := 4) (p := p) (by omega)
  refine rd_bind_total total htot ?_
  refine Verdict.and_total (check_total _) fun h2 => ?_
  rw [check_true] at h2
  obtain ⟨n, hn⟩ := readU_some (m := m) (w := 4) (p := p + 4) (by omega)
  refine rd_bind_total n hn ?_
  refine Verdict.and_total (check_total _) fun h3 => ?_
  rw [check_true] at h3
  refine Verdict.and_total (typesValid_total m p n (by omega)) fun h4 => ?_
  exact hl total n h2 h3 (typesValid_true h4)

theorem validBuffer_string {m : Bytes} {fuel q b : Nat}
    (h : validBuffer m fuel .string q b = .ok true) : ∃ len, readU m 2 q = some len := by
  cases fuel with
  | zero => simp [validBuffer] at h
  | succ fuel =>
    obtain ⟨len, hl, _⟩ := validString_true (t := .string) h
    exact ⟨len, hl⟩

theorem enough_child {fuel : Nat} {p bytes total : Nat} (h : 8 ∣ p ∧ bytes / 8 + 2 ≤ fuel + 1)
    (ht : total ≤ bytes) {t : RawType} {q : Nat} (h1 : p < q)
    (h2 : q ≤ p + total) (ha : t.align ∣ q) : Enough fuel t q (total - (q - p)) := by
  refine ⟨by omega, fun h' => ?_⟩
  have h8 : 8 ∣ q := by rcases h' with rfl | rfl <;> exact ha
  exact ⟨h8, by omega⟩

theorem validBuffer_total (m : Bytes) : ∀ fuel t p bytes, p + bytes ≤ m.length →
    Enough fuel t p bytes → ∃ r, validBuffer m fuel t p bytes = .ok r
  | 0, _, _, _, _, h => absurd h.1 (by omega)
  | fuel + 1, t, p, bytes, hm, h => by
    cases t <;> unfold validBuffer <;> try exact check_total _
    case object =>
      have h := h.2 (Or.inl rfl)
      refine validTable_total hm fun total n ht hn hty => ?_
      refine validFields_total (by omega) hn (fun t q h1 h2 h3 => ?_)
        (fun q b => validBuffer_string) hty n 0 p (by omega) (by omega)
      exact validBuffer_total m fuel t q _ (by omega) (enough_child h ht h1 h2 h3)
    case array =>
      have h := h.2 (Or.inr rfl)
      refine validTable_total hm fun total n ht hn hty => ?_
      refine validElems_total (by omega) hn (fun t q h1 h2 h3 => ?_) hty n 0 p (by omega) (by omega)
      exact validBuffer_total m fuel t q _ (by omega) (enough_child h ht h1 h2 h3)
    all_goals first
      | exact validString_total m _ p bytes hm
      | exact ⟨_, rfl⟩

/-! ### Monotonicity: more memory and more fuel do not change a verdict -/

/-- `b` returns whatever `a` returns. -/
def VLe (a b : Verdict) : Prop := ∀ r, a = .ok r → b = .ok r

theorem VLe.refl (a : Verdict) : VLe a a := fun _ h => h

theorem VLe.and {a a' : Verdict} {b b' : Unit → Verdict} (h : VLe a a') (hb : VLe (b ()) (b' ())) :
    VLe (a.and b) (a'.and b') := by
  intro r hr
  unfold Verdict.and at hr ⊢
  cases a with
  | error e => simp at hr
  | ok x =>
    rw [h x rfl]
    cases x
    · exact hr
    · exact hb r hr

theorem VLe.bind {α : Type} {o o' : Option α} {f f' : α → Verdict}
    (h : ∀ x, o = some x → o' = some x) (hf : ∀ x, VLe (f x) (f' x)) :
    VLe (rd o >>= f) (rd o' >>= f') := by
  intro r hr
  cases o with
  | none => simp [rd, Bind.bind, Except.bind] at hr
  | some x => rw [h x rfl]; exact hf x r hr

theorem validString_append (m e : Bytes) (t : RawType) (p bytes : Nat) :
    VLe (validString m t p bytes) (validString (m ++ e) t p bytes) := by
  unfold validString
  refine VLe.and (VLe.refl _) (VLe.bind (fun x => readU_append) fun x => ?_)
  exact VLe.and (VLe.refl _) (VLe.bind (fun x => readU_append) fun x => VLe.refl _)

theorem typesValid_append (m e : Bytes) (p : Nat) : ∀ n,
    VLe (typesValid m p n) (typesValid (m ++ e) p n)
  | 0 => VLe.refl _
  | n + 1 => by
    unfold typesValid
    exact VLe.and (typesValid_append m e p n) (VLe.bind (fun x => readU_append) fun x => VLe.refl _)

theorem validFields_append {rec rec' : RawType → Nat → Nat → Verdict}
    (hrec : ∀ t q b, VLe (rec t q b) (rec' t q b)) (m e : Bytes) (p total : Nat) :
    ∀ k idx prev,
      VLe (validFields rec m p total k idx prev) (validFields rec' (m ++ e) p total k idx prev)
  | 0, _, _ => VLe.refl _
  | k + 1, idx, prev => by
    unfold validFields
    refine VLe.bind (fun x => loadKey_append) fun kp => ?_
    refine VLe.and (VLe.refl _) (VLe.and (hrec _ _ _) ?_)
    refine VLe.bind (fun x => loadValue_append) fun x => ?_
    refine VLe.and (VLe.refl _) (VLe.and (hrec _ _ _) ?_)
    exact validFields_append hrec m e p total k _ _

theorem validElems_append {rec rec' : RawType → Nat → Nat → Verdict}
    (hrec : ∀ t q b, VLe (rec t q b) (rec' t q b)) (m e : Bytes) (p total : Nat) :
    ∀ k idx prev,
      VLe (validElems rec m p total k idx prev) (validElems rec' (m ++ e) p total k idx prev)
  | 0, _, _ => VLe.refl _
  | k + 1, idx, prev => by
    unfold validElems
    refine VLe.bind (fun x => loadElem_append) fun x => ?_
    refine VLe.and (VLe.refl _) (VLe.and (hrec _ _ _) ?_)
    exact validElems_append hrec m e p total k _ _

theorem validTable_append {m e : Bytes} {p bytes : Nat} {loop loop' : Nat → Nat → Verdict}
    (h : ∀ t n, VLe (loop t n) (loop' t n)) :
    VLe (validTable m p bytes loop) (validTable (m ++ e) p bytes loop') := by
  unfold validTable
  refine VLe.and (VLe.refl _) (VLe.bind (fun x => readU_append) fun x => ?_)
  refine VLe.and (VLe.refl _) (VLe.bind (fun x => readU_append) fun x => ?_)
  exact VLe.and (VLe.refl _) (VLe.and (typesValid_append m e p _) (h _ _))

theorem validBuffer_append (m e : Bytes) : ∀ fuel k t p bytes,
    VLe (validBuffer m fuel t p bytes) (validBuffer (m ++ e) (fuel + k) t p bytes)
  | 0, _, _, _, _ => fun r h => by simp [validBuffer] at h
  | fuel + 1, k, t, p, bytes => by
    rw [show fuel + 1 + k = fuel + k + 1 by omega]
    cases t <;> unfold validBuffer <;> try exact VLe.refl _
    case object =>
      exact validTable_append fun total n => validFields_append
        (fun t q b => validBuffer_append m e fuel k t q b) m e p total n 0 p
    case array =>
      exact validTable_append fun total n => validElems_append
        (fun t q b => validBuffer_append m e fuel k t q b) m e p total n 0 p
    all_goals exact validString_append m e _ p bytes

theorem validBuffer_fuel (m : Bytes) {fuel fuel' : Nat} (hf : fuel ≤ fuel') (t : RawType)
    (p bytes : Nat) : VLe (validBuffer m fuel t p bytes) (validBuffer m fuel' t p bytes) := by
  have := validBuffer_append m [] fuel (fuel' - fuel) t p bytes
  rwa [List.append_nil, show fuel + (fuel' - fuel) = fuel' by omega] at this

theorem enough_root (m : Bytes) (t : RawType) : Enough (m.length + 1) t 0 m.length ∨
    (m.length < 8 ∧ isTable t) := by
  by_cases h : m.length < 8 ∧ isTable t
  · exact Or.inr h
  · refine Or.inl ⟨by omega, fun ht => ⟨Nat.dvd_zero 8, ?_⟩⟩
    have : ¬ m.length < 8 := fun hl => h ⟨hl, ht⟩
    omega

theorem validTable_short {m : Bytes} {p bytes : Nat} {loop : Nat → Nat → Verdict} (h : bytes < 8) :
    validTable m p bytes loop = .ok false := by
  unfold validTable check
  rw [decide_eq_false (by omega)]
  rfl

theorem validBuffer_short {m : Bytes} {fuel bytes p : Nat} {t : RawType} (h : bytes < 8)
    (ht : isTable t) : validBuffer m (fuel + 1) t p bytes = .ok false := by
  rcases ht with rfl | rfl <;> exact validTable_short h

end Dart

namespace Dart

theorem isValid_total (m : Bytes) : ∃ r, isValid m = .ok r := by
  rcases enough_root m .object with h | ⟨h, ht⟩
  · exact validBuffer_total m _ _ _ _ (by omega) h
  · exact ⟨_, validBuffer_short h ht⟩

/-- What `validTable` checks. -/
theorem validTable_true {m : Bytes} {p bytes : Nat} {loop : Nat → Nat → Verdict} :
    validTable m p bytes loop = .ok true ↔
      8 ≤ bytes ∧ ∃ total, readU m 4 p = some total ∧ total ≤ bytes ∧ ∃ n, numElems m p = some n ∧
        8 + 8 * n ≤ total ∧ typesValid m p n = .ok true ∧ loop total n = .ok true := by
  unfold validTable
  simp only [Verdict.and_true, check_true, rd_bind_true]

/-- Only the recorded size matters, not how many more bytes are claimed. -/
theorem validTable_claim {m : Bytes} {p bytes bytes' total : Nat} {loop : Nat → Nat → Verdict}
    (h : readU m 4 p = some total) (h1 : total ≤ bytes) (h2 : total ≤ bytes')
    (h8 : 8 ≤ bytes) (h8' : 8 ≤ bytes') :
    validTable m p bytes loop = validTable m p bytes' loop := by
  unfold validTable check
  rw [h]
  simp only [rd, bind, Except.bind]
  rw [decide_eq_true h1, decide_eq_true h2, decide_eq_true h8, decide_eq_true h8']

theorem readU_take {m : Bytes} {w p x k : Nat} (h : readU m w p = some x) (hk : p + w ≤ k) :
    readU (m.take k) w p = some x := by
  obtain ⟨hb, _⟩ := readU_bound h
  obtain ⟨y, hy⟩ := readU_some (m := m.take k) (w := w) (p := p) (by rw [List.length_take]; omega)
  have := readU_append (e := m.drop k) hy
  rw [List.take_append_drop, h] at this
  rw [hy, this]

end Dart
