import Verif.Model.ValidCost
import Verif.Lemmas.ValidEnc

/-
The counting validator returns the verdicts of the validator; an upper bound of its steps on any bytes,
a better one on bytes the library made.
-/
namespace Dart

/-! ### The verdicts -/

theorem Counted.and_fst (a : Counted) (b : Unit → Counted) :
    (a.and b).1 = a.1.and fun u => (b u).1 := by
  unfold Counted.and Verdict.and
  split <;> rename_i h <;> rw [h]

theorem Counted.tick_fst (a : Counted) : a.tick.1 = a.1 := rfl
theorem Counted.free_fst (v : Verdict) : (Counted.free v).1 = v := rfl

theorem rdThen_fst {α : Type} (o : Option α) (f : α → Counted) :
    (rdThen o f).1 = (rd o >>= fun a => (f a).1) := by
  cases o <;> rfl

theorem typesValidN_fst (m : Bytes) (p : Nat) : ∀ n, (typesValidN m p n).1 = typesValid m p n
  | 0 => rfl
  | n + 1 => by
    unfold typesValidN typesValid
    rw [Counted.and_fst, typesValidN_fst m p n]
    simp only [Counted.tick_fst, rdThen_fst, Counted.free_fst]

theorem validFieldsN_fst {rN : RawType → Nat → Nat → Counted} {r : RawType → Nat → Nat → Verdict}
    (h : ∀ t p b, (rN t p b).1 = r t p b) (m : Bytes) (p total : Nat) :
    ∀ k idx prev, (validFieldsN rN m p total k idx prev).1 = validFields r m p total k idx prev
  | 0, _, _ => rfl
  | k + 1, idx, prev => by
    unfold validFieldsN validFields
    simp only [Counted.and_fst, rdThen_fst, Counted.free_fst, h, validFieldsN_fst h m p total k]

theorem validElemsN_fst {rN : RawType → Nat → Nat → Counted} {r : RawType → Nat → Nat → Verdict}
    (h : ∀ t p b, (rN t p b).1 = r t p b) (m : Bytes) (p total : Nat) :
    ∀ k idx prev, (validElemsN rN m p total k idx prev).1 = validElems r m p total k idx prev
  | 0, _, _ => rfl
  | k + 1, idx, prev => by
    unfold validElemsN validElems
    simp only [Counted.and_fst, rdThen_fst, Counted.free_fst, h, validElemsN_fst h m p total k]

theorem validTableN_fst {lN : Nat → Nat → Counted} {l : Nat → Nat → Verdict}
    (h : ∀ t n, (lN t n).1 = l t n) (m : Bytes) (p bytes : Nat) :
    (validTableN m p bytes lN).1 = validTable m p bytes l := by
  unfold validTableN validTable
  simp only [Counted.and_fst, rdThen_fst, Counted.free_fst, h, typesValidN_fst]

theorem validBufferN_fst (m : Bytes) : ∀ fuel t p bytes,
    (validBufferN m fuel t p bytes).1 = validBuffer m fuel t p bytes
  | 0, _, _, _ => rfl
  | fuel + 1, t, p, bytes => by
    unfold validBufferN
    rw [Counted.tick_fst]
    cases t <;> first
      | rfl
      | (unfold validBuffer
         exact validTableN_fst (fun total n => validFieldsN_fst (validBufferN_fst m fuel) m p total n 0 p)
           m p bytes)
      | (unfold validBuffer
         exact validTableN_fst (fun total n => validElemsN_fst (validBufferN_fst m fuel) m p total n 0 p)
           m p bytes)

theorem isValidN_fst (m : Bytes) : (isValidN m).1 = isValid m := validBufferN_fst m _ _ _ _

/-! ### Steps -/

/-- The steps of two checks in a row. -/
theorem Counted.and_snd_le {a : Counted} {b : Unit → Counted} {x y : Nat} (ha : a.2 ≤ x)
    (hb : a.1 = .ok true → (b ()).2 ≤ y) : (a.and b).2 ≤ x + y := by
  unfold Counted.and
  split
  · rename_i h
    have := hb h
    show a.2 + (b ()).2 ≤ _
    omega
  · show a.2 ≤ _; omega
  · show a.2 ≤ _; omega

theorem Counted.free_and_snd {v : Verdict} {b : Unit → Counted} {y : Nat}
    (hb : v = .ok true → (b ()).2 ≤ y) : ((Counted.free v).and b).2 ≤ y := by
  have := Counted.and_snd_le (a := Counted.free v) (b := b) (x := 0) (y := y) (Nat.le_refl _) hb
  omega

theorem Counted.and_true_snd {a : Counted} {b : Unit → Counted} (ha : a.1 = .ok true) :
    (a.and b).2 = a.2 + (b ()).2 := by
  unfold Counted.and
  rw [ha]

theorem rdThen_snd {α : Type} {o : Option α} {f : α → Counted} {y : Nat}
    (h : ∀ a, o = some a → (f a).2 ≤ y) : (rdThen o f).2 ≤ y := by
  cases o with
  | none => exact Nat.zero_le _
  | some a => exact h a rfl

theorem typesValidN_snd (m : Bytes) (p : Nat) : ∀ n, (typesValidN m p n).2 ≤ n
  | 0 => Nat.le_refl _
  | n + 1 => by
    unfold typesValidN
    refine Counted.and_snd_le (typesValidN_snd m p n) fun _ => ?_
    show (rdThen _ _).2 + 1 ≤ 1
    have := rdThen_snd (o := readU m 1 (p + 8 + 8 * n + 4)) (y := 0)
      (f := fun c => Counted.free (check ((RawType.ofCode c).isSome = true))) (fun _ _ => Nat.le_refl _)
    omega

/-! ### Any bytes -/

theorem four_pow_mono {a b : Nat} (h : a ≤ b) : 4 ^ a ≤ 4 ^ b := Nat.pow_le_pow_right (by decide) h

theorem le_four_pow (r : Nat) : r + 1 ≤ 4 ^ r := Nat.lt_pow_self (by decide)

/-- A bound for the loop over children lying in the `r` bytes after `prev`, if a child with `b` bytes
left takes at most `b + 4 ^ b` steps. -/
theorem validElemsN_le {rec : RawType → Nat → Nat → Counted} (m : Bytes) (p total : Nat)
    (hrec : ∀ t q b, (rec t q b).2 ≤ b + 4 ^ b) :
    ∀ k idx prev r, p ≤ prev → p + total = prev + r →
      (validElemsN rec m p total k idx prev).2 + 1 ≤ 4 ^ r
  | 0, _, _, r, _, _ => Nat.one_le_pow _ _ (by decide)
  | k + 1, idx, prev, r, hp, hr => by
    have h1 : 1 ≤ 4 ^ r := Nat.one_le_pow _ _ (by decide)
    suffices h : (validElemsN rec m p total (k + 1) idx prev).2 ≤ 4 ^ r - 1 by omega
    unfold validElemsN
    refine rdThen_snd fun tv _ => Counted.free_and_snd fun hc => ?_
    obtain ⟨hc1, hc2, _⟩ := childAddr_true.1 hc
    obtain ⟨r', hr'⟩ : ∃ r', p + total = tv.2 + r' := ⟨p + total - tv.2, by omega⟩
    have e : total - (tv.2 - p) = r' := by omega
    have ih := validElemsN_le m p total hrec k (idx + 1) tv.2 r' (by omega) hr'
    have hx := hrec tv.1 tv.2 r'
    have h4 : 4 * 4 ^ r' ≤ 4 ^ r := by
      rw [Nat.mul_comm, ← Nat.pow_succ]; exact four_pow_mono (by omega)
    have h5 := le_four_pow r'
    rw [e]
    refine Nat.le_trans (Counted.and_snd_le hx fun _ => Nat.le_refl _) ?_
    show r' + 4 ^ r' + (validElemsN rec m p total k (idx + 1) tv.2).2 ≤ _
    omega

theorem validFieldsN_le {rec : RawType → Nat → Nat → Counted} (m : Bytes) (p total : Nat)
    (hstr : ∀ q b, (rec .string q b).2 ≤ 1)
    (hrec : ∀ t q b, (rec t q b).2 ≤ b + 4 ^ b) :
    ∀ k idx prev r, p ≤ prev → p + total = prev + r →
      (validFieldsN rec m p total k idx prev).2 + 1 ≤ 4 ^ r
  | 0, _, _, r, _, _ => Nat.one_le_pow _ _ (by decide)
  | k + 1, idx, prev, r, hp, hr => by
    have h1 : 1 ≤ 4 ^ r := Nat.one_le_pow _ _ (by decide)
    suffices h : (validFieldsN rec m p total (k + 1) idx prev).2 ≤ 4 ^ r - 1 by omega
    unfold validFieldsN
    refine rdThen_snd fun kp _ => Counted.free_and_snd fun hk => ?_
    obtain ⟨hk1, hk2, _⟩ := childAddr_true.1 hk
    have hr0 : 1 ≤ r := by omega
    have h40 : 4 ≤ 4 ^ r := by
      have := four_pow_mono hr0
      omega
    refine Nat.le_trans (Counted.and_snd_le (y := 4 ^ r - 2) (hstr _ _) fun _ => ?_) (by omega)
    refine rdThen_snd fun tv _ => Counted.free_and_snd fun hc => ?_
    obtain ⟨hc1, hc2, _⟩ := childAddr_true.1 hc
    obtain ⟨r', hr'⟩ : ∃ r', p + total = tv.2 + r' := ⟨p + total - tv.2, by omega⟩
    have e : total - (tv.2 - p) = r' := by omega
    have ih := validFieldsN_le m p total hstr hrec k (idx + 1) tv.2 r' (by omega) hr'
    have hx := hrec tv.1 tv.2 r'
    have h4 : 4 * 4 ^ r' ≤ 4 ^ r := by
      rw [Nat.mul_comm, ← Nat.pow_succ]; exact four_pow_mono (by omega)
    have h5 := le_four_pow r'
    rw [e]
    refine Nat.le_trans (Counted.and_snd_le hx fun _ => Nat.le_refl _) ?_
    show r' + 4 ^ r' + (validFieldsN rec m p total k (idx + 1) tv.2).2 ≤ _
    omega

theorem validTableN_le {m : Bytes} {p bytes : Nat} {loop : Nat → Nat → Counted}
    (h : ∀ total n, (loop total n).2 + 1 ≤ 4 ^ total) :
    (validTableN m p bytes loop).2 + 1 ≤ bytes + 4 ^ bytes := by
  have h1 : 1 ≤ 4 ^ bytes := Nat.one_le_pow _ _ (by decide)
  suffices h : (validTableN m p bytes loop).2 ≤ bytes + (4 ^ bytes - 1) by omega
  unfold validTableN
  refine Counted.free_and_snd fun _ => rdThen_snd fun total _ => Counted.free_and_snd fun ht =>
    rdThen_snd fun n _ => Counted.free_and_snd fun hn => ?_
  rw [check_true] at ht hn
  refine Nat.le_trans (Counted.and_snd_le (typesValidN_snd m p n) fun _ => Nat.le_refl _) ?_
  have := h total n
  have h2 := four_pow_mono ht
  show n + (loop total n).2 ≤ _
  omega

theorem validBufferN_le (m : Bytes) : ∀ fuel t p bytes,
    (validBufferN m fuel t p bytes).2 ≤ bytes + 4 ^ bytes
  | 0, _, _, _ => Nat.zero_le _
  | fuel + 1, t, p, bytes => by
    have h1 : 1 ≤ 4 ^ bytes := Nat.one_le_pow _ _ (by decide)
    have hstr : ∀ q b, (validBufferN m fuel .string q b).2 ≤ 1 := by
      intro q b
      cases fuel with
      | zero => exact Nat.zero_le _
      | succ n => exact Nat.le_refl _
    unfold validBufferN
    cases t <;> first
      | exact validTableN_le fun total n => validFieldsN_le m p total hstr (validBufferN_le m fuel) n 0 p total
          (Nat.le_refl _) rfl
      | exact validTableN_le fun total n => validElemsN_le m p total (validBufferN_le m fuel) n 0 p total
          (Nat.le_refl _) rfl
      | (show 0 + 1 ≤ _; omega)

end Dart

/-! ### Bytes the library made -/

namespace Dart

variable {z : Bool}

theorem rdThen_some {α : Type} (a : α) (f : α → Counted) : rdThen (some a) f = f a := rfl

theorem validFieldsN_enc_le {rec : RawType → Nat → Nat → Counted} {fs : List (Bytes × Val)}
    {m : Bytes} {p : Nat} (hm : Stored m p (.obj fs)) (hz : z = true → HasBytes m p (enc (.obj fs)))
    (h8 : 8 ∣ p) (hf : Fits (.obj fs)) (hw : (Val.obj fs).WF)
    (hstr : ∀ q b, (rec .string q b).2 ≤ 1)
    (hrec : ∀ v, (∃ k, (k, v) ∈ fs) → ∀ q bytes, At z m q v →
      (rec v.rawType.forTable q bytes).2 ≤ sizeVal v + 1) :
    ∀ (b a : List (Bytes × Val)) (prev : Nat), fs = a ++ b →
      (validFieldsN rec m p (sizeVal (.obj fs)) b.length a.length (p + prev)).2 +
        fieldsEnd (8 + 8 * fs.length) a ≤ fieldsEnd (8 + 8 * fs.length) fs
  | [], a, _, hab => by
    rw [List.append_nil] at hab
    show 0 + _ ≤ _
    rw [hab]
    omega
  | (k, v) :: b, a, prev, hab => by
    have hmem : (k, v) ∈ fs := by rw [hab]; simp
    have hoff : fieldsEnd (8 + 8 * fs.length) a = objStart a b := by rw [hab]; simp [objStart]
    have hend : fieldsEnd (8 + 8 * fs.length) (a ++ [(k, v)]) = valOff (objStart a b) k v + sizeVal v := by
      rw [fieldsEnd_append, hoff]; rfl
    have ih := validFieldsN_enc_le hm hz h8 hf hw hstr hrec b (a ++ [(k, v)]) (valOff (objStart a b) k v)
      (by rw [hab]; simp)
    rw [hend] at ih
    rw [hoff]
    have hf' := hf
    have hw' := hw
    simp only [Fits, fitsFields_iff] at hf'
    simp only [Val.WF, wfFields_iff] at hw'
    obtain ⟨b1, b2, b3, b4⟩ := obj_bounds a b k v
    have hks : 3 ≤ strSize k := by
      unfold strSize
      rw [strLw_le (hf'.2 _ hmem).1]
      omega
    rw [hab] at hm hz hf
    obtain ⟨r1, r2, r3, r4, _⟩ := obj_field_reads a b k v m p hm h8 hf
    have hvat : At z m (p + valOff (objStart a b) k v) v :=
      ⟨hm.obj_parts.2.2, fun e => (hz e).obj_val,
        (Nat.dvd_add_right (Nat.dvd_trans (align_dvd_eight _) h8)).2 (dvd_alignUp _ _),
        (hw'.2 _ hmem).2, (hf'.2 _ hmem).2⟩
    rw [List.length_append] at ih
    have e : (a.length + [(k, v)].length) = a.length + 1 := rfl
    rw [e] at ih
    generalize hend' : fieldsEnd (8 + 8 * fs.length) fs = E at ih ⊢
    suffices h : (validFieldsN rec m p (sizeVal (.obj fs)) (b.length + 1) a.length (p + prev)).2 ≤
        E - objStart a b by
      simp only [List.length_cons]
      omega
    unfold validFieldsN
    rw [r1, rdThen_some]
    refine Counted.free_and_snd fun _ => ?_
    refine Nat.le_trans (Counted.and_snd_le (hstr _ _) fun _ => Nat.le_refl _) ?_
    rw [r4, rdThen_some]
    refine Nat.le_trans (Nat.add_le_add_left (Counted.free_and_snd (y := sizeVal v + 1 +
      (E - (valOff (objStart a b) k v + sizeVal v))) fun _ => ?_) 1) ?_
    · refine Nat.le_trans (Counted.and_snd_le (hrec v ⟨k, hmem⟩ _ _ hvat) fun _ => Nat.le_refl _) ?_
      dsimp only
      omega
    · omega

theorem validElemsN_enc_le {rec : RawType → Nat → Nat → Counted} {es : List Val}
    {m : Bytes} {p : Nat} (hm : Stored m p (.arr es)) (hz : z = true → HasBytes m p (enc (.arr es)))
    (h8 : 8 ∣ p) (hf : Fits (.arr es)) (hw : (Val.arr es).WF)
    (hrec : ∀ v ∈ es, ∀ q bytes, At z m q v → (rec v.rawType.forTable q bytes).2 ≤ sizeVal v + 1) :
    ∀ (b a : List Val) (prev : Nat), es = a ++ b →
      (validElemsN rec m p (sizeVal (.arr es)) b.length a.length (p + prev)).2 +
        elemsEnd (8 + 8 * es.length) a ≤ elemsEnd (8 + 8 * es.length) es + b.length
  | [], a, _, hab => by
    rw [List.append_nil] at hab
    show 0 + _ ≤ _
    rw [hab]
    omega
  | v :: b, a, prev, hab => by
    have hmem : v ∈ es := by rw [hab]; simp
    have hoff : elemsEnd (8 + 8 * es.length) a = arrStart a b := by rw [hab]; simp [arrStart]
    have hend : elemsEnd (8 + 8 * es.length) (a ++ [v]) = elemOff a b v + sizeVal v := by
      rw [elemsEnd_append, hoff]; rfl
    have ih := validElemsN_enc_le hm hz h8 hf hw hrec b (a ++ [v]) (elemOff a b v) (by rw [hab]; simp)
    rw [hend] at ih
    rw [hoff]
    have hf' := hf
    have hw' := hw
    simp only [Fits, fitsElems_iff] at hf'
    simp only [Val.WF, wfElems_iff] at hw'
    obtain ⟨b1, b2, b3⟩ := arr_bounds a b v
    rw [hab] at hm hz hf
    simp only [Fits] at hf
    have r4 := arr_elem_reads a b v m p hm hf.1
    have hal : v.rawType.align ∣ p + elemOff a b v :=
      (Nat.dvd_add_right (Nat.dvd_trans (align_dvd_eight _) h8)).2 (dvd_alignUp _ _)
    have hvat : At z m (p + elemOff a b v) v :=
      ⟨hm.arr_parts.2, fun e => (hz e).arr_val, hal, hw' _ hmem, hf'.2 _ hmem⟩
    rw [List.length_append] at ih
    have e : (a.length + [v].length) = a.length + 1 := rfl
    rw [e] at ih
    generalize hend' : elemsEnd (8 + 8 * es.length) es = E at ih ⊢
    suffices h : (validElemsN rec m p (sizeVal (.arr es)) (b.length + 1) a.length (p + prev)).2 ≤
        E + (b.length + 1) - arrStart a b by
      simp only [List.length_cons]
      omega
    unfold validElemsN
    rw [r4, rdThen_some]
    refine Counted.free_and_snd fun _ => ?_
    refine Nat.le_trans (Counted.and_snd_le (hrec v hmem _ _ hvat) fun _ => Nat.le_refl _) ?_
    dsimp only
    omega

theorem validTableN_enc_le {m : Bytes} {p bytes total n y : Nat} {loop : Nat → Nat → Counted}
    (ht : readU m 4 p = some total) (hn : numElems m p = some n) (hl : (loop total n).2 ≤ y) :
    (validTableN m p bytes loop).2 ≤ n + y := by
  unfold validTableN
  refine Counted.free_and_snd fun _ => ?_
  rw [ht, rdThen_some]
  refine Counted.free_and_snd fun _ => ?_
  rw [hn, rdThen_some]
  refine Counted.free_and_snd fun _ => ?_
  exact Counted.and_snd_le (typesValidN_snd m p n) fun _ => hl

/-- The steps of the validator on an encoded value. -/
theorem At.steps : ∀ (v : Val) (m : Bytes) (p bytes fuel : Nat), At z m p v →
    (validBufferN m fuel v.rawType.forTable p bytes).2 ≤ sizeVal v + 1 ∧
    (isTable v.rawType → (validBufferN m fuel v.rawType.forTable p bytes).2 ≤ sizeVal v) := by
  intro v
  induction v using Val.ind with
  | hobj fs ih =>
    intro m p bytes fuel hat
    suffices h : (validBufferN m fuel .object p bytes).2 ≤ sizeVal (.obj fs) from
      ⟨Nat.le_succ_of_le h, fun _ => h⟩
    have hhead := sizeVal_header hat (Or.inl rfl)
    obtain ⟨hn, h8, _⟩ := hat.obj_parts
    obtain ⟨hm, hz, ha, hw, hf⟩ := hat
    cases fuel with
    | zero => exact Nat.zero_le _
    | succ fuel =>
      have hl := validFieldsN_enc_le (rec := validBufferN m fuel) hm hz h8 hf hw
        (by
          intro q b
          cases fuel with
          | zero => exact Nat.zero_le _
          | succ n => exact Nat.le_refl _)
        (fun v ⟨k, hk⟩ q bytes hat => (ih _ hk m q bytes fuel hat).1) fs [] 0 rfl
      have h1 := le_alignUp (fieldsEnd (8 + 8 * fs.length) fs) (a := 8) (by decide)
      have h2 := validTableN_enc_le (bytes := bytes)
        (loop := fun total n => validFieldsN (validBufferN m fuel) m p total n 0 p) hhead hn
        (y := fieldsEnd (8 + 8 * fs.length) fs - (8 + 8 * fs.length))
        (by
          have h3 : fieldsEnd (8 + 8 * fs.length) [] = 8 + 8 * fs.length := rfl
          rw [h3] at hl
          exact Nat.le_sub_of_add_le hl)
      have h4 := le_fieldsEnd (8 + 8 * fs.length) fs
      show (validTableN m p bytes _).2 + 1 ≤ _
      have h5 : sizeVal (.obj fs) = alignUp (fieldsEnd (8 + 8 * fs.length) fs) 8 := by simp only [sizeVal]
      omega
  | harr es ih =>
    intro m p bytes fuel hat
    suffices h : (validBufferN m fuel .array p bytes).2 ≤ sizeVal (.arr es) from
      ⟨Nat.le_succ_of_le h, fun _ => h⟩
    have hhead := sizeVal_header hat (Or.inr rfl)
    obtain ⟨hn, h8, _⟩ := hat.arr_parts
    obtain ⟨hm, hz, ha, hw, hf⟩ := hat
    cases fuel with
    | zero => exact Nat.zero_le _
    | succ fuel =>
      have hl := validElemsN_enc_le (rec := validBufferN m fuel) hm hz h8 hf hw
        (fun v hv q bytes hat => (ih _ hv m q bytes fuel hat).1) es [] 0 rfl
      have h2 := validTableN_enc_le (bytes := bytes)
        (loop := fun total n => validElemsN (validBufferN m fuel) m p total n 0 p) hhead hn
        (y := elemsEnd (8 + 8 * es.length) es + es.length - (8 + 8 * es.length))
        (by
          have h3 : elemsEnd (8 + 8 * es.length) [] = 8 + 8 * es.length := rfl
          rw [h3] at hl
          exact Nat.le_sub_of_add_le hl)
      have h4 := le_elemsEnd (8 + 8 * es.length) es
      show (validTableN m p bytes _).2 + 1 ≤ _
      have h5 : sizeVal (.arr es) = elemsEnd (8 + 8 * es.length) es := by simp only [sizeVal]
      omega
  | hnull =>
    intro m p bytes fuel hat
    refine ⟨?_, fun h => by rcases h with h | h <;> cases h⟩
    cases fuel with
    | zero => exact Nat.zero_le _
    | succ fuel => exact Nat.le_refl _
  | hbool b =>
    intro m p bytes fuel hat
    refine ⟨?_, fun h => by rcases h with h | h <;> cases h⟩
    cases fuel with
    | zero => exact Nat.zero_le _
    | succ fuel => show 1 ≤ _; omega
  | hint i =>
    intro m p bytes fuel hat
    simp only [Val.rawType]
    cases fuel with
    | zero =>
      refine ⟨Nat.zero_le _, fun _ => Nat.zero_le _⟩
    | succ fuel =>
      rcases identifyInteger_cases i with h | h | h <;> rw [h] <;>
        exact ⟨by show 1 ≤ _; omega, fun h => by rcases h with h | h <;> cases h⟩
  | hdec d =>
    intro m p bytes fuel hat
    simp only [Val.rawType]
    cases fuel with
    | zero =>
      refine ⟨Nat.zero_le _, fun _ => Nat.zero_le _⟩
    | succ fuel =>
      rcases identifyDecimal_cases d with h | h <;> rw [h] <;>
        exact ⟨by show 1 ≤ _; omega, fun h => by rcases h with h | h <;> cases h⟩
  | hstr s =>
    intro m p bytes fuel hat
    simp only [Val.rawType]
    cases fuel with
    | zero =>
      refine ⟨Nat.zero_le _, fun _ => Nat.zero_le _⟩
    | succ fuel =>
      rcases identifyString_cases' s with h | h | h <;> rw [h] <;>
        exact ⟨by show 1 ≤ _; omega, fun h => by rcases h with h | h <;> cases h⟩

theorem steps_finalized {v : Val} {m : Bytes} (hw : v.WF) (h : finalize v = .ok m) :
    validSteps m ≤ m.length := by
  have hat := At.root hw h
  have hs := hat.size_le
  obtain ⟨fs, n, rfl, _⟩ := finalize_eq_ok hw h
  have := (At.steps _ m 0 m.length (m.length + 1) hat).2 (Or.inl rfl)
  exact Nat.le_trans this (by omega)

end Dart
