import Verif.Model.Equal
import Verif.Spec.Equal
import Verif.Lemmas.Float
import Verif.Lemmas.Str
import Verif.Lemmas.Locate

namespace Dart
open Spec

theorem decEq_iff (a b : BitVec 64) : decEq a b = true ↔ NumEq a b := by
  have hn : ∀ d : BitVec 64, (d.toNat / 2 ^ 52 % 2 ^ 11 == 2047 && d.toNat % 2 ^ 52 != 0) = true ↔
      doubleVal d.toNat = .nan := by
    intro d
    unfold doubleVal
    by_cases he : d.toNat / 2 ^ 52 % 2 ^ 11 = 2047
    · by_cases hm : d.toNat % 2 ^ 52 = 0 <;> simp [he, hm]
    · simp [he]
  have hz : ∀ d : BitVec 64, d.toNat % 2 ^ 63 = 0 → doubleVal d.toNat = .finite 0 := by
    intro d h
    have hd := d.isLt
    have he : d.toNat = 0 ∨ d.toNat = 2 ^ 63 := by omega
    rcases he with e | e <;> rw [e] <;> rfl
  unfold decEq NumEq
  simp only [Bool.and_eq_true, Bool.not_eq_true', ← Bool.not_eq_true, hn, Bool.or_eq_true, beq_iff_eq]
  constructor
  · rintro ⟨⟨h1, h2⟩, h | ⟨h3, h4⟩⟩
    · subst h; exact ⟨h1, rfl⟩
    · exact ⟨h1, (hz a h3).trans (hz b h4).symm⟩
  · rintro ⟨h1, h2⟩
    refine ⟨⟨h1, h2 ▸ h1⟩, ?_⟩
    rcases doubleVal_inj a.isLt b.isLt h2 h1 with h | h
    · exact .inl (BitVec.eq_of_toNat_eq h)
    · exact .inr h

theorem cstring_eq_iff : ∀ s t : Bytes, s.length = t.length →
    (cstring s = cstring t ↔ ∃ n, s.take n = t.take n ∧ (n = s.length ∨ (s[n]? = some 0 ∧ t[n]? = some 0)))
  | [], [], _ => by simp
  | [], _ :: _, h => by simp at h
  | _ :: _, [], h => by simp at h
  | a :: s, b :: t, h => by
    have ih := cstring_eq_iff s t (by simpa using h)
    unfold cstring at ih ⊢
    by_cases ha : a = 0 <;> by_cases hb : b = 0
    · subst ha; subst hb
      simp only [ne_eq, not_true_eq_false, decide_false, List.takeWhile_cons_of_neg, Bool.false_eq_true,
        not_false_eq_true, true_iff]
      exact ⟨0, rfl, .inr ⟨rfl, rfl⟩⟩
    · subst ha
      simp only [List.takeWhile_cons, ne_eq, not_true_eq_false, decide_false, hb, not_false_eq_true, decide_true,
        if_true, Bool.false_eq_true, if_false]
      constructor
      · intro h; cases h
      · rintro ⟨n, h1, h2⟩
        cases n with
        | zero => rcases h2 with h2 | ⟨_, h2⟩ <;> simp at h2; exact absurd h2 hb
        | succ n => simp at h1; exact absurd h1.1.symm hb
    · subst hb
      simp only [List.takeWhile_cons, ne_eq, not_true_eq_false, decide_false, ha, not_false_eq_true, decide_true,
        if_true, Bool.false_eq_true, if_false]
      constructor
      · intro h; cases h
      · rintro ⟨n, h1, h2⟩
        cases n with
        | zero => rcases h2 with h2 | ⟨h2, _⟩ <;> simp at h2; exact absurd h2 ha
        | succ n => simp at h1; exact absurd h1.1 ha
    · simp only [List.takeWhile_cons, ne_eq, ha, hb, not_false_eq_true, decide_true, if_true, List.cons.injEq]
      rw [ih]
      constructor
      · rintro ⟨rfl, n, h1, h2⟩
        exact ⟨n + 1, by simp [h1], by simpa using h2⟩
      · rintro ⟨n, h1, h2⟩
        cases n with
        | zero => rcases h2 with h2 | ⟨h2, _⟩ <;> simp at h2; exact absurd h2 ha
        | succ n =>
          simp only [List.take_succ_cons, List.cons.injEq] at h1
          exact ⟨h1.1, n, h1.2, by simpa using h2⟩

theorem strEq_iff (s t : Bytes) : strEq s t = true ↔ UpToNul s t := by
  unfold strEq UpToNul
  rw [Bool.and_eq_true, beq_iff_eq, beq_iff_eq]
  exact ⟨fun ⟨h, h'⟩ => ⟨h, (cstring_eq_iff s t h).1 h'⟩, fun ⟨h, h'⟩ => ⟨h, (cstring_eq_iff s t h).2 h'⟩⟩

theorem upToNul_refl (s : Bytes) : UpToNul s s := ⟨rfl, s.length, rfl, .inl rfl⟩

theorem upToNul_iff_strEq (s t : Bytes) : UpToNul s t ↔ s.length = t.length ∧ cstring s = cstring t := by
  rw [← strEq_iff]; simp [strEq]

theorem upToNul_symm {s t : Bytes} (h : UpToNul s t) : UpToNul t s := by
  rw [upToNul_iff_strEq] at h ⊢; exact ⟨h.1.symm, h.2.symm⟩

theorem upToNul_trans {s t u : Bytes} (h : UpToNul s t) (h' : UpToNul t u) : UpToNul s u := by
  rw [upToNul_iff_strEq] at h h' ⊢; exact ⟨h.1.trans h'.1, h.2.trans h'.2⟩

theorem cstring_of_no_nul {s : Bytes} (h : 0 ∉ s) : cstring s = s := by
  unfold cstring
  induction s with
  | nil => rfl
  | cons a s ih =>
    simp only [List.mem_cons, not_or] at h
    rw [List.takeWhile_cons_of_pos (by simpa using fun e => h.1 e.symm), ih h.2]

theorem upToNul_eq {s t : Bytes} (hs : 0 ∉ s) (ht : 0 ∉ t) (h : UpToNul s t) : s = t := by
  rw [upToNul_iff_strEq, cstring_of_no_nul hs, cstring_of_no_nul ht] at h; exact h.2

section lists
variable {same : List Nat → Val → Val → Bool}

theorem elemsEq_iff : ∀ (es gs : List Val) (hl : es.length = gs.length) (p : List Nat) (i : Nat),
    elemsEq same es p i gs = true ↔
      ∀ j (h : j < es.length), heapEq same es[j] ((i + j) :: p) (gs[j]'(hl ▸ h)) = true
  | [], gs, _, p, i => by simp [elemsEq]
  | _ :: _, [], h, _, _ => by simp at h
  | e :: es, g :: gs, hl, p, i => by
    rw [elemsEq, Bool.and_eq_true, elemsEq_iff es gs (by simpa using hl) p (i + 1)]
    constructor
    · rintro ⟨h1, h2⟩ j hj
      cases j with
      | zero => exact h1
      | succ j =>
        have := h2 j (by simpa using hj)
        rwa [show i + 1 + j = i + (j + 1) by omega] at this
    · intro h
      refine ⟨h 0 (by simp), fun j hj => ?_⟩
      have := h (j + 1) (by simpa using hj)
      rwa [show i + (j + 1) = i + 1 + j by omega] at this

theorem fieldsEq_iff : ∀ (fs gs : List (Bytes × Val)) (hl : fs.length = gs.length) (p : List Nat) (i : Nat),
    fieldsEq same fs p i gs = true ↔
      ∀ j (h : j < fs.length),
        (same (2 * (i + j) :: p) (.str fs[j].1) (.str (gs[j]'(hl ▸ h)).1) || strEq fs[j].1 (gs[j]'(hl ▸ h)).1) = true ∧
        heapEq same fs[j].2 ((2 * (i + j) + 1) :: p) (gs[j]'(hl ▸ h)).2 = true
  | [], gs, _, p, i => by simp [fieldsEq]
  | _ :: _, [], h, _, _ => by simp at h
  | (k, e) :: fs, (l, g) :: gs, hl, p, i => by
    rw [fieldsEq, Bool.and_eq_true, Bool.and_eq_true, fieldsEq_iff fs gs (by simpa using hl) p (i + 1)]
    constructor
    · rintro ⟨h1, h2⟩ j hj
      cases j with
      | zero => exact h1
      | succ j =>
        have := h2 j (by simpa using hj)
        rwa [show i + 1 + j = i + (j + 1) by omega] at this
    · intro h
      refine ⟨h 0 (by simp), fun j hj => ?_⟩
      have := h (j + 1) (by simpa using hj)
      rwa [show i + (j + 1) = i + 1 + j by omega] at this
end lists

theorem arr_heapEq {same : List Nat → Val → Val → Bool} (es : List Val) (p : List Nat) (gs : List Val) :
    heapEq same (.arr es) p (.arr gs) = true ↔ same p (.arr es) (.arr gs) = true ∨
      ∃ hl : es.length = gs.length, ∀ j (h : j < es.length), heapEq same es[j] (j :: p) (gs[j]'(hl ▸ h)) = true := by
  rw [heapEq, Bool.or_eq_true, Bool.and_eq_true, beq_iff_eq]
  refine or_congr Iff.rfl ⟨fun ⟨h, h'⟩ => ⟨h, ?_⟩, fun ⟨h, h'⟩ => ⟨h, ?_⟩⟩
  · have := (elemsEq_iff es gs h p 0).1 h'; simpa using this
  · exact (elemsEq_iff es gs h p 0).2 (by simpa using h')

theorem obj_heapEq {same : List Nat → Val → Val → Bool} (fs : List (Bytes × Val)) (p : List Nat) (gs : List (Bytes × Val)) :
    heapEq same (.obj fs) p (.obj gs) = true ↔ same p (.obj fs) (.obj gs) = true ∨
      ∃ hl : fs.length = gs.length, ∀ j (h : j < fs.length),
        (same (2 * j :: p) (.str fs[j].1) (.str (gs[j]'(hl ▸ h)).1) || strEq fs[j].1 (gs[j]'(hl ▸ h)).1) = true ∧
        heapEq same fs[j].2 ((2 * j + 1) :: p) (gs[j]'(hl ▸ h)).2 = true := by
  rw [heapEq, Bool.or_eq_true, Bool.and_eq_true, beq_iff_eq]
  refine or_congr Iff.rfl ⟨fun ⟨h, h'⟩ => ⟨h, ?_⟩, fun ⟨h, h'⟩ => ⟨h, ?_⟩⟩
  · have := (fieldsEq_iff fs gs h p 0).1 h'; simpa using this
  · exact (fieldsEq_iff fs gs h p 0).2 (by simpa using h')

/-- Values that are alike compare equal, whatever is shared. -/
theorem heapEq_of_alike (same : List Nat → Val → Val → Bool) {v w : Val} (h : Alike UpToNul v w) :
    ∀ p, heapEq same v p w = true := by
  induction h with
  | null => intro p; simp [heapEq]
  | bool b => intro p; simp [heapEq]
  | int i => intro p; simp [heapEq]
  | dec h => intro p; simp [heapEq, (decEq_iff _ _).2 h]
  | str h => intro p; simp [heapEq, (strEq_iff _ _).2 h]
  | arr hl _ ih => intro p; exact (arr_heapEq _ _ _).2 (.inr ⟨hl, fun j h => ih j h _⟩)
  | obj hl hk _ ih =>
    intro p
    exact (obj_heapEq _ _ _).2 (.inr ⟨hl, fun j h => ⟨by rw [(strEq_iff _ _).2 (hk j h)]; simp, ih j h _⟩⟩)

theorem alike_refl (v : Val) (h : NoNaN v) : Alike UpToNul v v := by
  unfold NoNaN at h
  induction h with
  | null => exact .null
  | bool b => exact .bool b
  | int i => exact .int i
  | dec h => exact .dec ⟨h, rfl⟩
  | str _ => exact .str (upToNul_refl _)
  | arr _ ih => exact .arr rfl fun i h => ih _ (List.getElem_mem h)
  | obj _ _ ih => exact .obj rfl (fun i h => upToNul_refl _) fun i h => ih _ (List.getElem_mem h)

theorem every_elem {S : List UInt8 → Prop} {D : BitVec 64 → Prop} {es : List Val} (h : Every S D (.arr es)) :
    ∀ e ∈ es, Every S D e := by
  cases h; assumption

theorem every_field {S : List UInt8 → Prop} {D : BitVec 64 → Prop} {fs : List (Bytes × Val)} (h : Every S D (.obj fs)) :
    ∀ f ∈ fs, S f.1 ∧ Every S D f.2 := by
  cases h with
  | obj h1 h2 => exact fun f hf => ⟨h1 f hf, h2 f hf⟩

/-- Values that compare equal are alike, if they are free of NaN or nothing is shared. -/
theorem alike_of_heapEq {same : List Nat → Val → Val → Bool} (hs : ∀ p v w, same p v w = true → v = w) :
    ∀ (v : Val) (p : List Nat) (w : Val), (NoNaN v ∨ ∀ p v w, same p v w = false) →
      heapEq same v p w = true → Alike UpToNul v w := by
  have hr : ∀ {p v w}, (NoNaN v ∨ ∀ p v w, same p v w = false) → same p v w = true → Alike UpToNul v w :=
    fun hn h => by
      obtain rfl := hs _ _ _ h
      rcases hn with hn | hn
      · exact alike_refl _ hn
      · rw [hn] at h; cases h
  intro v
  induction v using Val.ind with
  | hnull => intro p w hn h; cases w <;> simp [heapEq] at h <;> first | exact hr hn h | exact .null
  | hbool b =>
    intro p w hn h
    cases w <;> simp [heapEq] at h <;> first | exact hr hn h | skip
    rcases h with h | h
    · exact hr hn h
    · subst h; exact .bool b
  | hint b =>
    intro p w hn h
    cases w <;> simp [heapEq] at h <;> first | exact hr hn h | skip
    rcases h with h | h
    · exact hr hn h
    · subst h; exact .int b
  | hdec b =>
    intro p w hn h
    cases w <;> simp [heapEq] at h <;> first | exact hr hn h | skip
    rcases h with h | h
    · exact hr hn h
    · exact .dec ((decEq_iff _ _).1 h)
  | hstr b =>
    intro p w hn h
    cases w <;> simp [heapEq] at h <;> first | exact hr hn h | skip
    rcases h with h | h
    · exact hr hn h
    · exact .str ((strEq_iff _ _).1 h)
  | harr es ih =>
    intro p w hn h
    cases w with
    | arr gs =>
      rcases (arr_heapEq _ _ _).1 h with h | ⟨hl, h⟩
      · exact hr hn h
      · exact .arr hl fun i hi => ih _ (List.getElem_mem hi) _ _
          (hn.imp (fun hn => every_elem hn _ (List.getElem_mem hi)) id) (h i hi)
    | _ => simp [heapEq] at h; exact hr hn h
  | hobj fs ih =>
    intro p w hn h
    cases w with
    | obj gs =>
      rcases (obj_heapEq _ _ _).1 h with h | ⟨hl, h⟩
      · exact hr hn h
      · refine .obj hl (fun i hi => ?_) fun i hi => ih _ (List.getElem_mem hi) _ _
          (hn.imp (fun hn => (every_field hn _ (List.getElem_mem hi)).2) id) (h i hi).2
        have := (h i hi).1
        rw [Bool.or_eq_true] at this
        rcases this with h | h
        · have := hs _ _ _ h
          injection this with this
          rw [this]; exact upToNul_refl _
        · exact (strEq_iff _ _).1 h
    | _ => simp [heapEq] at h; exact hr hn h

theorem plainNum_eq {a b : BitVec 64} (h : NumEq a b) (ha : PlainNum a) (hb : PlainNum b) : a = b := by
  rcases doubleVal_inj a.isLt b.isLt h.2 h.1 with e | ⟨ha', hb'⟩
  · rw [BitVec.eq_of_toNat_eq e]
  · have key : ∀ d : BitVec 64, PlainNum d → d.toNat % 2 ^ 63 = 0 → d = 0#64 := by
      intro d hd hz
      have := d.isLt
      rcases (show d.toNat = 0 ∨ d.toNat = 2 ^ 63 by omega) with e | e
      · exact BitVec.eq_of_toNat_eq e
      · exact absurd (BitVec.eq_of_toNat_eq e) hd.2
    rw [key a ha ha', key b hb hb']

/-- Ordinary values that are alike are the same. -/
theorem eq_of_alike {v w : Val} (h : Alike UpToNul v w) (hv : Ordinary v) (hw : Ordinary w) : v = w := by
  unfold Ordinary at hv hw
  induction h with
  | null => rfl
  | bool b => rfl
  | int i => rfl
  | dec h =>
    cases hv with
    | dec hv =>
    cases hw with
    | dec hw =>
    rw [plainNum_eq h hv hw]
  | str h =>
    cases hv with
    | str hv =>
    cases hw with
    | str hw => rw [upToNul_eq hv hw h]
  | arr hl _ ih =>
    congr 1
    exact List.ext_getElem hl fun i h1 h2 =>
      ih i h1 (every_elem hv _ (List.getElem_mem _)) (every_elem hw _ (List.getElem_mem _))
  | obj hl hk _ ih =>
    congr 1
    refine List.ext_getElem hl fun i h1 h2 => ?_
    have hv := every_field hv _ (List.getElem_mem h1)
    have hw := every_field hw _ (List.getElem_mem h2)
    exact Prod.ext (upToNul_eq hv.1 hw.1 (hk i h1)) (ih i h1 hv.2 hw.2)

theorem noNaN_of_ordinary {v : Val} (h : Ordinary v) : NoNaN v := by
  unfold Ordinary at h
  unfold NoNaN
  induction h with
  | null => exact .null
  | bool b => exact .bool b
  | int i => exact .int i
  | dec h => exact .dec h.1
  | str _ => exact .str trivial
  | arr _ ih => exact .arr ih
  | obj _ _ ih => exact .obj (fun _ _ => trivial) ih

theorem alike_symm {v w : Val} (h : Alike UpToNul v w) : Alike UpToNul w v := by
  induction h with
  | null => exact .null
  | bool b => exact .bool b
  | int i => exact .int i
  | dec h => exact .dec ⟨h.2 ▸ h.1, h.2.symm⟩
  | str h => exact .str (upToNul_symm h)
  | arr hl _ ih => exact .arr hl.symm fun i h => ih i (hl ▸ h)
  | obj hl hk _ ih => exact .obj hl.symm (fun i h => upToNul_symm (hk i (hl ▸ h))) fun i h => ih i (hl ▸ h)

theorem alike_trans {v w x : Val} (h : Alike UpToNul v w) (h' : Alike UpToNul w x) : Alike UpToNul v x := by
  induction h generalizing x with
  | null => exact h'
  | bool b => exact h'
  | int i => exact h'
  | dec h => cases h' with | dec h' => exact .dec ⟨h.1, h.2.trans h'.2⟩
  | str h => cases h' with | str h' => exact .str (upToNul_trans h h')
  | arr hl _ ih =>
    cases h' with
    | arr hl' h' => exact .arr (hl.trans hl') fun i h => ih i h (h' i (hl ▸ h))
  | obj hl hk _ ih =>
    cases h' with
    | obj hl' hk' h' =>
      exact .obj (hl.trans hl') (fun i h => upToNul_trans (hk i h) (hk' i (hl ▸ h))) fun i h => ih i h (h' i (hl ▸ h))

theorem alike_noNaN {v w : Val} (h : Alike UpToNul v w) : NoNaN v := by
  unfold NoNaN
  induction h with
  | null => exact .null
  | bool b => exact .bool b
  | int i => exact .int i
  | dec h => exact .dec h.1
  | str _ => exact .str trivial
  | arr hl _ ih => exact .arr fun e he => by obtain ⟨i, h, rfl⟩ := List.getElem_of_mem he; exact ih i h
  | obj hl _ _ ih =>
    exact .obj (fun _ _ => trivial) fun e he => by obtain ⟨i, h, rfl⟩ := List.getElem_of_mem he; exact ih i h

theorem decEq_comm (a b : BitVec 64) : decEq a b = decEq b a := by
  rw [Bool.eq_iff_iff, decEq_iff, decEq_iff]
  exact ⟨fun h => ⟨h.2 ▸ h.1, h.2.symm⟩, fun h => ⟨h.2 ▸ h.1, h.2.symm⟩⟩

theorem strEq_comm (s t : Bytes) : strEq s t = strEq t s := by
  rw [Bool.eq_iff_iff, strEq_iff, strEq_iff]
  exact ⟨upToNul_symm, upToNul_symm⟩

/-- Swapping the sides. -/
theorem heapEq_swap {same : List Nat → Val → Val → Bool} : ∀ (v : Val) (p : List Nat) (w : Val),
    heapEq same v p w = true → heapEq (fun p a b => same p b a) w p v = true := by
  intro v
  induction v using Val.ind with
  | hnull => intro p w h; cases w <;> simp [heapEq] at h ⊢ <;> exact h
  | hbool b =>
    intro p w h; cases w <;> simp [heapEq] at h ⊢ <;> first | exact h | exact h.imp id Eq.symm
  | hint b =>
    intro p w h; cases w <;> simp [heapEq] at h ⊢ <;> first | exact h | exact h.imp id Eq.symm
  | hdec b =>
    intro p w h; cases w <;> simp [heapEq] at h ⊢ <;> first | exact h | exact h.imp id fun h => decEq_comm _ _ ▸ h
  | hstr b =>
    intro p w h; cases w <;> simp [heapEq] at h ⊢ <;> first | exact h | exact h.imp id fun h => strEq_comm _ _ ▸ h
  | harr es ih =>
    intro p w h
    cases w with
    | arr gs =>
      rw [arr_heapEq] at h ⊢
      exact h.imp id fun ⟨hl, h⟩ => ⟨hl.symm, fun j hj => ih _ (List.getElem_mem _) _ _ (h j (hl ▸ hj))⟩
    | _ => simp [heapEq] at h ⊢; exact h
  | hobj fs ih =>
    intro p w h
    cases w with
    | obj gs =>
      rw [obj_heapEq] at h ⊢
      exact h.imp id fun ⟨hl, h⟩ => ⟨hl.symm, fun j hj =>
        ⟨by rw [strEq_comm]; exact (h j (hl ▸ hj)).1, ih _ (List.getElem_mem _) _ _ (h j (hl ▸ hj)).2⟩⟩
    | _ => simp [heapEq] at h ⊢; exact h

end Dart
