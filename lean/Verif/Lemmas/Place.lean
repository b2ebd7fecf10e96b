import Verif.Model.Place
import Verif.Lemmas.HostileEmbed

/-
Validation anywhere in memory.
-/
namespace Dart

/-- What is read in `M` from `lo` on is read in `M'` as well, `d` bytes further. -/
def Shift (M M' : Bytes) (lo d : Nat) : Prop := ∀ q n x, lo ≤ q → readBytes M q n = some x → readBytes M' (d + q) n = some x

theorem VLe.bind_map {α β : Type} {o : Option α} {o' : Option β} {f : α → Verdict} {f' : β → Verdict} (g : α → β)
    (h : ∀ x, o = some x → o' = some (g x)) (hf : ∀ x, o = some x → VLe (f x) (f' (g x))) : VLe (rd o >>= f) (rd o' >>= f') := by
  intro r hr
  cases o with
  | none => cases hr
  | some x =>
    rw [h x rfl]
    exact hf x rfl r hr

section
variable {M M' : Bytes} {lo d : Nat} (h : Shift M M' lo d)
include h

theorem Shift.readU {w q r x : Nat} (hq : lo ≤ q) (hr : r = d + q) (hx : readU M w q = some x) : Dart.readU M' w r = some x := by
  subst hr
  unfold Dart.readU at hx ⊢
  rw [Option.map_eq_some_iff] at hx ⊢
  obtain ⟨b, hb, e⟩ := hx
  exact ⟨b, h _ _ _ hq hb, e⟩

theorem Shift.entType {q i : Nat} {t : RawType} (hq : lo ≤ q) (ht : entType M q i = some t) : Dart.entType M' (d + q) i = some t := by
  unfold Dart.entType at ht ⊢
  rw [Option.bind_eq_some_iff] at ht ⊢
  obtain ⟨x, h1, h2⟩ := ht
  exact ⟨x, h.readU (by omega) (by omega) h1, h2⟩

theorem Shift.entOff {q i o : Nat} (hq : lo ≤ q) (ho : entOff M q i = some o) : Dart.entOff M' (d + q) i = some o :=
  h.readU (by omega) (by omega) ho

theorem Shift.loadKey {q i kp : Nat} (hq : lo ≤ q) (hk : loadKey M q i = some kp) : Dart.loadKey M' (d + q) i = some (d + kp) := by
  obtain ⟨off, ho, rfl⟩ := loadKey_inv hk
  unfold Dart.loadKey
  rw [h.entOff hq ho, ← Nat.add_assoc]; rfl

theorem Shift.loadElem {q i : Nat} {e : RawType × Nat} (hq : lo ≤ q) (hv : loadElem M q i = some e) :
    Dart.loadElem M' (d + q) i = some (e.1, d + e.2) := by
  unfold Dart.loadElem at hv ⊢
  simp only [Option.bind_eq_bind, Option.bind_eq_some_iff] at hv ⊢
  obtain ⟨t', ht, off, ho, hv⟩ := hv
  cases hv
  exact ⟨_, h.entType hq ht, _, h.entOff hq ho, by rw [Nat.add_assoc]⟩

theorem Shift.loadValue (h8 : 8 ∣ d) {q i : Nat} {e : RawType × Nat} (hq : lo ≤ q) (hv : loadValue M q i = some e) :
    Dart.loadValue M' (d + q) i = some (e.1, d + e.2) := by
  obtain ⟨t, vp⟩ := e
  obtain ⟨off, ho, ht, ha⟩ := loadValue_inv hv
  unfold afterKey at ha
  simp only [Option.bind_eq_bind, Option.bind_eq_some_iff, findSizeof, Option.map_eq_some_iff] at ha
  obtain ⟨sz, ⟨len, hl, rfl⟩, ha⟩ := ha
  cases ha
  have e : alignUp (d + q + off + (2 + len + 1)) t.align = d + alignUp (q + off + (2 + len + 1)) t.align := by
    rw [show d + q + off + (2 + len + 1) = q + off + (2 + len + 1) + d by omega,
      alignUp_add_right (align_pos t) (Nat.dvd_trans (align_dvd_eight t) h8)]; omega
  unfold Dart.loadValue afterKey
  rw [h.entOff hq ho, h.entType hq ht]
  simp only [Option.bind_eq_bind, Option.bind_some, findSizeof]
  rw [h.readU (q := q + off) (by omega) (by omega) hl]
  simp only [Option.map_some, Option.bind_some, e]

theorem Shift.validString {t : RawType} {q b : Nat} (hq : lo ≤ q) : VLe (validString M t q b) (Dart.validString M' t (d + q) b) := by
  unfold Dart.validString
  refine VLe.and (VLe.refl _) (VLe.bind (fun x => h.readU hq rfl) fun x => ?_)
  exact VLe.and (VLe.refl _) (VLe.bind (fun y => h.readU (by omega) (by omega)) fun _ => VLe.refl _)

theorem Shift.typesValid {q : Nat} (hq : lo ≤ q) : ∀ n, VLe (typesValid M q n) (Dart.typesValid M' (d + q) n)
  | 0 => VLe.refl _
  | n + 1 => by
    unfold Dart.typesValid
    exact VLe.and (Shift.typesValid hq n) (VLe.bind (fun x => h.readU (by omega) (by omega)) fun x => VLe.refl _)

end

theorem childAddr_shift {d : Nat} (h8 : 8 ∣ d) (p total prev q : Nat) (t : RawType) :
    childAddr (d + p) total (d + prev) (d + q) t = childAddr p total prev q t := by
  unfold childAddr check
  have e1 : d + q - (d + p) = q - p := by omega
  have e2 : (d + prev < d + q) = (prev < q) := by simp
  have e3 : (alignUp (d + q) t.align = d + q) = (alignUp q t.align = q) := by
    rw [Nat.add_comm d q, alignUp_add_right (align_pos t) (Nat.dvd_trans (align_dvd_eight t) h8)]
    simp
  simp only [e1, e2, e3]

theorem loadValue_above {m : Bytes} {p i : Nat} {e : RawType × Nat} (h : loadValue m p i = some e) : p ≤ e.2 := by
  obtain ⟨t, vp⟩ := e
  obtain ⟨off, ho, ht, ha⟩ := loadValue_inv h
  unfold afterKey at ha
  simp only [Option.bind_eq_bind, Option.bind_eq_some_iff] at ha
  obtain ⟨sz, _, ha⟩ := ha
  cases ha
  have := le_alignUp (p + off + sz) (align_pos t)
  show p ≤ alignUp (p + off + sz) t.align
  omega

section
variable {M M' : Bytes} {lo d : Nat} (h : Shift M M' lo d) (h8 : 8 ∣ d)
include h h8

theorem Shift.validFields {rec rec' : RawType → Nat → Nat → Verdict} {p total : Nat} (hp : lo ≤ p)
    (hrec : ∀ t q b, lo ≤ q → VLe (rec t q b) (rec' t (d + q) b)) : ∀ k idx prev,
      VLe (validFields rec M p total k idx prev) (Dart.validFields rec' M' (d + p) total k idx (d + prev))
  | 0, _, _ => VLe.refl _
  | k + 1, idx, prev => by
    unfold Dart.validFields
    refine VLe.bind_map (d + ·) (fun x hx => h.loadKey hp hx) fun kp hk => ?_
    obtain ⟨off, _, rfl⟩ := loadKey_inv hk
    refine VLe.and (by rw [childAddr_shift h8]; exact VLe.refl _) ?_
    refine VLe.and (by rw [show d + (p + off) - (d + p) = p + off - p by omega]; exact hrec _ _ _ (by omega)) ?_
    refine VLe.bind_map (fun e => (e.1, d + e.2)) (fun x hx => h.loadValue h8 hp hx) fun e hv => ?_
    obtain ⟨t, vp⟩ := e
    have := loadValue_above hv
    dsimp only at this ⊢
    refine VLe.and (by rw [childAddr_shift h8]; exact VLe.refl _) ?_
    refine VLe.and (by rw [show d + vp - (d + p) = vp - p by omega]; exact hrec _ _ _ (by omega)) ?_
    exact Shift.validFields hp hrec k _ _

theorem Shift.validElems {rec rec' : RawType → Nat → Nat → Verdict} {p total : Nat} (hp : lo ≤ p)
    (hrec : ∀ t q b, lo ≤ q → VLe (rec t q b) (rec' t (d + q) b)) : ∀ k idx prev,
      VLe (validElems rec M p total k idx prev) (Dart.validElems rec' M' (d + p) total k idx (d + prev))
  | 0, _, _ => VLe.refl _
  | k + 1, idx, prev => by
    unfold Dart.validElems
    refine VLe.bind_map (fun e => (e.1, d + e.2)) (fun x hx => h.loadElem hp hx) fun e hv => ?_
    obtain ⟨t, vp⟩ := e
    unfold Dart.loadElem at hv
    simp only [Option.bind_eq_bind, Option.bind_eq_some_iff] at hv
    obtain ⟨t', _, off, _, hv⟩ := hv
    cases hv
    dsimp only
    refine VLe.and (by rw [childAddr_shift h8]; exact VLe.refl _) ?_
    refine VLe.and (by rw [show d + (p + off) - (d + p) = p + off - p by omega]; exact hrec _ _ _ (by omega)) ?_
    exact Shift.validElems hp hrec k _ _

theorem Shift.validTable {p bytes : Nat} (hp : lo ≤ p) {loop loop' : Nat → Nat → Verdict} (hl : ∀ t n, VLe (loop t n) (loop' t n)) :
    VLe (validTable M p bytes loop) (Dart.validTable M' (d + p) bytes loop') := by
  unfold Dart.validTable
  refine VLe.and (VLe.refl _) (VLe.bind (fun x => h.readU hp rfl) fun x => ?_)
  refine VLe.and (VLe.refl _) (VLe.bind (fun x => h.readU (by omega) (by omega)) fun x => ?_)
  exact VLe.and (VLe.refl _) (VLe.and (h.typesValid hp _) (hl _ _))

theorem Shift.validBuffer : ∀ fuel t p b, lo ≤ p → VLe (validBuffer M fuel t p b) (Dart.validBuffer M' fuel t (d + p) b)
  | 0, _, _, _, _ => fun r hr => by simp [Dart.validBuffer] at hr
  | fuel + 1, t, p, b, hp => by
    cases t <;> unfold Dart.validBuffer <;> try exact VLe.refl _
    case object =>
      exact h.validTable h8 hp fun total n => h.validFields h8 hp (fun t q b hq => Shift.validBuffer fuel t q b hq) n 0 p
    case array =>
      exact h.validTable h8 hp fun total n => h.validElems h8 hp (fun t q b hq => Shift.validBuffer fuel t q b hq) n 0 p
    all_goals exact h.validString hp

end

/-- Whatever stands around the bytes, as long as their address stays the same modulo eight. -/
theorem shift_around (x before m after : Bytes) (d : Nat) (hd : before.length = d + x.length) :
    Shift (x ++ m) (before ++ m ++ after) x.length d := fun q n z hq hz => by
  unfold readBytes at hz ⊢
  split at hz
  · rename_i hb
    rw [List.length_append] at hb
    rw [if_pos (by simp only [List.length_append]; omega)]
    rw [← hz]
    congr 1
    obtain ⟨k, rfl⟩ := Nat.exists_eq_add_of_le hq
    have e1 : (before ++ m ++ after).drop (d + (x.length + k)) = (m ++ after).drop k := by
      rw [show d + (x.length + k) = before.length + k by omega, ← List.drop_drop, List.append_assoc, List.drop_left]
    have e2 : (x ++ m).drop (x.length + k) = m.drop k := by rw [← List.drop_drop, List.drop_left]
    rw [e1, e2, List.drop_append_of_le_length (by omega), List.take_append_of_le_length (by simp only [List.length_drop]; omega)]
  · cases hz

/-- The validator answers at any address. -/
theorem validIn_total (x m : Bytes) : ∃ r, validBuffer (x ++ m) (m.length + 1) .object x.length m.length = .ok r := by
  by_cases hs : m.length < 8
  · exact ⟨_, validBuffer_short hs (.inl rfl)⟩
  unfold validBuffer
  have hm : x.length + m.length ≤ (x ++ m).length := by simp
  refine validTable_total hm fun total n ht hn hty => ?_
  refine validFields_total (by omega) hn (fun t q h1 h2 h3 => ?_) (fun q b => validBuffer_string) hty n 0 _ (by omega) (by omega)
  refine validBuffer_total _ _ t q _ (by omega) ⟨by omega, fun h' => ?_⟩
  have h8 : 8 ∣ q := by rcases h' with rfl | rfl <;> exact h3
  exact ⟨h8, by omega⟩

/-- The verdict is that for any other bytes before, at the same address modulo eight, and none after. -/
theorem isValidIn_eq (x before m after : Bytes) (hx : x.length ≤ before.length) (h8 : 8 ∣ before.length - x.length) :
    isValidIn before m after = validBuffer (x ++ m) (m.length + 1) .object x.length m.length := by
  obtain ⟨r, hr⟩ := validIn_total x m
  have := (shift_around x before m after (before.length - x.length) (by omega)).validBuffer h8 _ .object x.length m.length (Nat.le_refl _) r hr
  rw [show before.length - x.length + x.length = before.length by omega] at this
  rw [hr, isValidIn, this]

/-- The address of the first key of accepted bytes is even. -/
theorem isValidIn_first_key {before m after : Bytes} {n : Nat} (h : isValidIn before m after = .ok true) (hn : numElems m 0 = some (n + 1)) :
    ∃ off, entOff m 0 0 = some off ∧ 2 ∣ before.length + off := by
  rw [isValidIn_eq before before m after (Nat.le_refl _) (by simp)] at h
  unfold validBuffer at h
  obtain ⟨_, total, ht, hb, n', hn', hnt, _, hl⟩ := validTable_true.1 h
  have sh := shift_around [] before m [] before.length (by simp)
  simp only [List.nil_append, List.append_nil, List.length_nil] at sh
  have e : numElems (before ++ m) before.length = some (n + 1) := sh.readU (q := 0 + 4) (by omega) (by omega) hn
  rw [e] at hn'
  cases hn'
  obtain ⟨off, ho⟩ := entOff_some (m := m) (p := 0) (i := 0) (by omega)
  refine ⟨off, ho, ?_⟩
  unfold validFields at hl
  simp only [rd_bind_true, Verdict.and_true, childAddr_true] at hl
  obtain ⟨kp, hk, ⟨_, _, ha⟩, _⟩ := hl
  obtain ⟨off', ho', rfl⟩ := loadKey_inv hk
  have := sh.entOff (Nat.zero_le _) ho
  rw [Nat.add_zero, ho'] at this
  cases this
  exact ha

end Dart
