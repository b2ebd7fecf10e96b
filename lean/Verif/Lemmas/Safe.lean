import Verif.Lemmas.Validate
import Verif.Lemmas.Shows

/-
What the validator establishes, and why it makes every read safe.
-/
namespace Dart

/-- The element of type `t` at `p` can be read, to any depth; the first argument bounds the depth. -/
def Safe (m : Bytes) : Nat → RawType → Nat → Prop
  | 0, _, _ => False
  | f + 1, t, p => t.align ∣ p ∧
    match t with
    | .null => True
    | .object => ∃ n, numElems m p = some n ∧ p + 8 + 8 * n ≤ m.length ∧
        (n < 2 ^ 29 ∧ ∃ total, readU m 4 p = some total ∧ 8 + 8 * n ≤ total ∧ p + total ≤ m.length ∧
          ∃ g, validBuffer m g .object p total = .ok true) ∧
        ∀ i, i < n → ∃ kp vt vp, loadKey m p i = some kp ∧ Safe m f .string kp ∧
          loadValue m p i = some (vt, vp) ∧ Safe m f vt vp
    | .array => ∃ n, numElems m p = some n ∧ p + 8 + 8 * n ≤ m.length ∧
        (n < 2 ^ 29 ∧ ∃ total, readU m 4 p = some total ∧ 8 + 8 * n ≤ total ∧ p + total ≤ m.length ∧
          ∃ g, validBuffer m g .array p total = .ok true) ∧
        ∀ i, i < n → ∃ vt vp, loadElem m p i = some (vt, vp) ∧ Safe m f vt vp
    | .string => ∃ len, readU m 2 p = some len ∧ p + 2 + len + 1 ≤ m.length
    | .smallString => ∃ len, readU m 2 p = some len ∧ p + 2 + len + 1 ≤ m.length
    | .bigString => ∃ len, readU m 4 p = some len ∧ p + 4 + len + 1 ≤ m.length
    | .shortInteger => p + 2 ≤ m.length
    | .integer => p + 4 ≤ m.length
    | .longInteger => p + 8 ≤ m.length
    | .decimal => p + 4 ≤ m.length
    | .longDecimal => p + 8 ≤ m.length
    | .boolean => p + 1 ≤ m.length

theorem Safe.mono {m : Bytes} : ∀ {f k : Nat} {t : RawType} {p : Nat}, Safe m f t p →
    Safe m (f + k) t p
  | 0, _, _, _, h => h.elim
  | f + 1, k, t, p, h => by
    rw [show f + 1 + k = f + k + 1 by omega]
    cases t <;> unfold Safe at h ⊢ <;> try exact h
    case object =>
      obtain ⟨ha, n, hn, hb, hl, hc⟩ := h
      refine ⟨ha, n, hn, hb, hl, fun i hi => ?_⟩
      obtain ⟨kp, vt, vp, h1, h2, h3, h4⟩ := hc i hi
      exact ⟨kp, vt, vp, h1, h2.mono, h3, h4.mono⟩
    case array =>
      obtain ⟨ha, n, hn, hb, hl, hc⟩ := h
      refine ⟨ha, n, hn, hb, hl, fun i hi => ?_⟩
      obtain ⟨vt, vp, h3, h4⟩ := hc i hi
      exact ⟨vt, vp, h3, h4.mono⟩

theorem validFields_safe {rec : RawType → Nat → Nat → Verdict} {S : RawType → Nat → Prop}
    {m : Bytes} {p total : Nat}
    (hrec : ∀ t q, p < q → q ≤ p + total → t.align ∣ q → rec t q (total - (q - p)) = .ok true → S t q) :
    ∀ k idx prev, p ≤ prev → validFields rec m p total k idx prev = .ok true →
      ∀ i, idx ≤ i → i < idx + k → ∃ kp vt vp, loadKey m p i = some kp ∧ S .string kp ∧
        loadValue m p i = some (vt, vp) ∧ S vt vp
  | 0, _, _, _, _, i, h1, h2 => by omega
  | k + 1, idx, prev, hp, h, i, h1, h2 => by
    unfold validFields at h
    simp only [rd_bind_true, Verdict.and_true, childAddr_true] at h
    obtain ⟨kp, hk, ⟨a1, a2, a3⟩, hs, ⟨vt, vp⟩, hv, ⟨b1, b2, b3⟩, hvv, hrest⟩ := h
    by_cases hi : i = idx
    · subst hi
      exact ⟨kp, vt, vp, hk, hrec _ _ (by omega) (by omega) a3 hs, hv,
        hrec _ _ (by omega) (by omega) b3 hvv⟩
    · exact validFields_safe hrec k (idx + 1) vp (by omega) hrest i (by omega) (by omega)

theorem validElems_safe {rec : RawType → Nat → Nat → Verdict} {S : RawType → Nat → Prop}
    {m : Bytes} {p total : Nat}
    (hrec : ∀ t q, p < q → q ≤ p + total → t.align ∣ q → rec t q (total - (q - p)) = .ok true → S t q) :
    ∀ k idx prev, p ≤ prev → validElems rec m p total k idx prev = .ok true →
      ∀ i, idx ≤ i → i < idx + k → ∃ vt vp, loadElem m p i = some (vt, vp) ∧ S vt vp
  | 0, _, _, _, _, i, h1, h2 => by omega
  | k + 1, idx, prev, hp, h, i, h1, h2 => by
    unfold validElems at h
    simp only [rd_bind_true, Verdict.and_true, childAddr_true] at h
    obtain ⟨⟨vt, vp⟩, hv, ⟨b1, b2, b3⟩, hvv, hrest⟩ := h
    by_cases hi : i = idx
    · subst hi
      exact ⟨vt, vp, hv, hrec _ _ (by omega) (by omega) b3 hvv⟩
    · exact validElems_safe hrec k (idx + 1) vp (by omega) hrest i (by omega) (by omega)

theorem validBuffer_safe (m : Bytes) : ∀ f t p bytes, p + bytes ≤ m.length → t.align ∣ p →
    validBuffer m f t p bytes = .ok true → Safe m f t p
  | 0, _, _, _, _, _, h => by simp [validBuffer] at h
  | f + 1, t, p, bytes, hm, ha, h => by
    cases t <;> unfold validBuffer at h <;> unfold Safe <;> refine ⟨ha, ?_⟩
    case object =>
      obtain ⟨h8, total, ht, hb, n, hn, hnt, _, hl⟩ := validTable_true.1 h
      have := (readU_bound ht).2
      have hv := (validTable_claim ht (Nat.le_refl total) hb (by omega) h8).trans h
      refine ⟨n, hn, by omega, ⟨by omega, total, ht, by omega, by omega, f + 1, hv⟩, fun i hi => ?_⟩
      refine validFields_safe (S := Safe m f) ?_ n 0 p (by omega) hl i (by omega) (by omega)
      intro t q h1 h2 h3 h4
      exact validBuffer_safe m f t q _ (by omega) h3 h4
    case array =>
      obtain ⟨h8, total, ht, hb, n, hn, hnt, _, hl⟩ := validTable_true.1 h
      have := (readU_bound ht).2
      have hv := (validTable_claim ht (Nat.le_refl total) hb (by omega) h8).trans h
      refine ⟨n, hn, by omega, ⟨by omega, total, ht, by omega, by omega, f + 1, hv⟩, fun i hi => ?_⟩
      refine validElems_safe (S := Safe m f) ?_ n 0 p (by omega) hl i (by omega) (by omega)
      intro t q h1 h2 h3 h4
      exact validBuffer_safe m f t q _ (by omega) h3 h4
    case string =>
      obtain ⟨len, hl, h1, _⟩ := validString_true h
      exact ⟨len, hl, by simp only [strWidth] at h1; omega⟩
    case smallString =>
      obtain ⟨len, hl, h1, _⟩ := validString_true h
      exact ⟨len, hl, by simp only [strWidth] at h1; omega⟩
    case bigString =>
      obtain ⟨len, hl, h1, _⟩ := validString_true h
      exact ⟨len, hl, by simp only [strWidth] at h1; omega⟩
    case null => trivial
    all_goals
      rw [check_true] at h
      omega

/-! ### Reads of safe elements -/

theorem strv_some {m : Bytes} {t : RawType} {p len : Nat} (h : readU m (strWidth t) p = some len)
    (hb : p + strWidth t + len ≤ m.length) : ∃ s, strv m t p = some s := by
  unfold strv
  rw [h]
  exact readBytes_some hb

theorem Safe.string {m : Bytes} {f p : Nat} (h : Safe m f .string p) :
    ∃ s, strv m .string p = some s := by
  cases f with
  | zero => exact h.elim
  | succ f =>
    obtain ⟨_, len, hl, hb⟩ := h
    exact strv_some hl (by simp only [strWidth]; omega)

theorem Safe.align {m : Bytes} {f p : Nat} {t : RawType} (h : Safe m f t p) : t.align ∣ p := by
  cases f with
  | zero => exact h.elim
  | succ f => exact h.1

theorem searchCompare_some {signed : Bool} {m : Bytes} {p n f : Nat} {key : Bytes}
    (hb : p + 8 + 8 * n ≤ m.length)
    (hc : ∀ i, i < n → ∃ kp, loadKey m p i = some kp ∧ Safe m f .string kp) {i : Nat} (hi : i < n) :
    ∃ c, searchCompare signed m p key i = some c := by
  obtain ⟨len, hl⟩ := readU_some (m := m) (w := 1) (p := p + 8 + 8 * i + 5) (by omega)
  obtain ⟨p0, h0⟩ := readU_some (m := m) (w := 1) (p := p + 8 + 8 * i + 6) (by omega)
  obtain ⟨p1, h1⟩ := readU_some (m := m) (w := 1) (p := p + 8 + 8 * i + 7) (by omega)
  obtain ⟨kp, hk, hs⟩ := hc i hi
  obtain ⟨off, ho, hkp⟩ := loadKey_inv hk
  obtain ⟨s, hs⟩ := hs.string
  unfold searchCompare
  rw [hl, h0, h1, ho]
  simp only [Option.bind_eq_bind, Option.bind_some]
  rw [← hkp, hs]
  split
  · exact ⟨_, rfl⟩
  · exact ⟨_, rfl⟩

theorem searchKey_safe {signed : Bool} {m : Bytes} {p n f : Nat} {key : Bytes}
    (hb : p + 8 + 8 * n ≤ m.length)
    (hc : ∀ i, i < n → ∃ kp, loadKey m p i = some kp ∧ Safe m f .string kp)
    (ht : ∀ i, i < n → ∃ t, entType m p i = some t) :
    ∀ (fuel : Nat) (lo hi : Int), 0 ≤ lo → hi < n → hi - lo + 1 < fuel → 0 < fuel →
      ∃ r, searchKey signed m p key fuel lo hi = some r
  | 0, _, _, _, _, _, h => absurd h (Nat.lt_irrefl _)
  | fuel + 1, lo, hi, h0, hh, hf, _ => by
    unfold searchKey
    by_cases hlt : hi < lo
    · rw [if_pos hlt]; exact ⟨_, rfl⟩
    · rw [if_neg hlt]
      have hmid : (lo + hi).tdiv 2 = (lo + hi) / 2 := Int.tdiv_eq_ediv_of_nonneg (by omega)
      rw [hmid]
      show ∃ r, (searchCompare signed m p key ((lo + hi) / 2).toNat).bind _ = some r
      have hm : ((lo + hi) / 2).toNat < n := by omega
      obtain ⟨c, hc'⟩ := searchCompare_some (signed := signed) (key := key) hb hc hm
      rw [hc']
      simp only [Option.bind_eq_bind, Option.bind_some]
      show ∃ r, ite _ _ _ = some r
      split
      · obtain ⟨t, ht⟩ := ht _ hm
        obtain ⟨kp, hk, _⟩ := hc _ hm
        obtain ⟨off, ho, _⟩ := loadKey_inv hk
        rw [ht, ho]; exact ⟨_, rfl⟩
      · split
        · exact searchKey_safe hb hc ht fuel _ _ (by omega) (by omega) (by omega) (by omega)
        · exact searchKey_safe hb hc ht fuel _ _ (by omega) (by omega) (by omega) (by omega)

theorem loadValue_inv {m : Bytes} {p i : Nat} {t : RawType} {vp : Nat}
    (h : loadValue m p i = some (t, vp)) :
    ∃ off, entOff m p i = some off ∧ entType m p i = some t ∧ afterKey m t (p + off) = some vp := by
  unfold loadValue at h
  simp only [Option.bind_eq_bind, Option.bind_eq_some_iff, Option.some.injEq, Prod.mk.injEq] at h
  obtain ⟨off, ho, t', ht, q, hq, h1, h2⟩ := h
  subst h1 h2
  exact ⟨off, ho, ht, hq⟩

/-- Lookup in a safe object returns, and what it finds is a field of the object. -/
theorem Safe.getKey {signed : Bool} {m : Bytes} {p f : Nat} (h : Safe m (f + 1) .object p)
    (key : Bytes) : ∃ r, Dart.getKey signed m p key = some r ∧
      ∀ i t kp, r = some (i, t, kp) → ∃ vp, afterKey m t kp = some vp ∧ Safe m f t vp := by
  obtain ⟨_, n, hn, hb, ⟨hlt, _⟩, hc⟩ := h
  have hc1 : ∀ i, i < n → ∃ kp, loadKey m p i = some kp ∧ Safe m f .string kp := by
    intro i hi
    obtain ⟨kp, _, _, h1, h2, _, _⟩ := hc i hi
    exact ⟨kp, h1, h2⟩
  have hc2 : ∀ i, i < n → ∃ t, entType m p i = some t := by
    intro i hi
    obtain ⟨_, vt, vp, _, _, h3, _⟩ := hc i hi
    obtain ⟨_, _, ht, _⟩ := loadValue_inv h3
    exact ⟨vt, ht⟩
  obtain ⟨r, hr⟩ := searchKey_safe (signed := signed) (key := key) hb hc1 hc2 (n + 1) 0 ((n : Int) - 1)
    (by omega) (by omega) (by omega) (by omega)
  refine ⟨r, ?_, ?_⟩
  · unfold Dart.getKey
    rw [hn]
    simp only [Option.bind_eq_bind, Option.bind_some]
    rw [toInt32_small hlt]
    exact hr
  · intro i t kp hi
    subst hi
    obtain ⟨h1, h2, h3, h4, _⟩ := searchKey_sound _ _ _ (by omega) hr
    obtain ⟨kp', vt, vp, k1, k2, k3, k4⟩ := hc i (by omega)
    obtain ⟨off, ho, ht, ha⟩ := loadValue_inv k3
    obtain ⟨off', ho', hkp⟩ := loadKey_inv h3
    rw [ho] at ho'; cases ho'
    rw [ht] at h4; cases h4
    exact ⟨vp, hkp ▸ ha, k4⟩

theorem readInt_some {m : Bytes} {p : Nat} : ∀ {t : RawType} {f : Nat}, Safe m f t p →
    (t = .shortInteger ∨ t = .integer ∨ t = .longInteger) → ∃ x, readInt m t p = some x
  | _, 0, h, _ => h.elim
  | _, f + 1, h, ht => by
    rcases ht with rfl | rfl | rfl
    · obtain ⟨x, hx⟩ := readU_some h.2
      exact ⟨_, by simp [readInt, hx]; rfl⟩
    · obtain ⟨x, hx⟩ := readU_some h.2
      exact ⟨_, by simp [readInt, hx]; rfl⟩
    · obtain ⟨x, hx⟩ := readU_some h.2
      exact ⟨_, by simp [readInt, hx]; rfl⟩

theorem readDec_some {m : Bytes} {p : Nat} : ∀ {t : RawType} {f : Nat}, Safe m f t p →
    (t = .decimal ∨ t = .longDecimal) → ∃ x, readDec m t p = some x
  | _, 0, h, _ => h.elim
  | _, f + 1, h, ht => by
    rcases ht with rfl | rfl
    · obtain ⟨x, hx⟩ := readU_some h.2
      exact ⟨_, by simp [readDec, hx]; rfl⟩
    · obtain ⟨x, hx⟩ := readU_some h.2
      exact ⟨_, by simp [readDec, hx]; rfl⟩

theorem readBool_some {m : Bytes} {p : Nat} (h : p + 1 ≤ m.length) : ∃ x, readBool m p = some x := by
  obtain ⟨x, hx⟩ := readU_some h
  exact ⟨_, by simp [readBool, hx]; rfl⟩

theorem foldlM_some {α : Type} {β : Type} (f : β → α → Option β) :
    ∀ (l : List α) (b : β), (∀ a ∈ l, ∀ b, ∃ b', f b a = some b') → ∃ b', l.foldlM f b = some b'
  | [], b, _ => ⟨b, rfl⟩
  | a :: l, b, h => by
    obtain ⟨b', hb⟩ := h a (by simp) b
    obtain ⟨b'', hb'⟩ := foldlM_some f l b' fun x hx => h x (by simp [hx])
    exact ⟨b'', by rw [List.foldlM_cons, hb]; exact hb'⟩

/-- Conversion of a safe element to a dynamic value succeeds. -/
theorem Safe.decode {m : Bytes} : ∀ {f : Nat} {t : RawType} {p : Nat}, Safe m f t p →
    ∃ v, Dart.decode f m t p = some v
  | 0, _, _, h => h.elim
  | f + 1, t, p, h => by
    cases t <;> unfold Dart.decode
    case object =>
      obtain ⟨_, n, hn, hb, _, hc⟩ := h
      obtain ⟨fs, hfs⟩ := foldlM_some (fun acc idx => do
        let kp ← loadKey m p idx
        let k ← strv m .string kp
        let (vt, vp) ← loadValue m p idx
        let v ← Dart.decode f m vt vp
        some (mapInsert k v acc)) (List.range n) [] (by
          intro i hi acc
          obtain ⟨kp, vt, vp, h1, h2, h3, h4⟩ := hc i (List.mem_range.1 hi)
          obtain ⟨s, hs⟩ := h2.string
          obtain ⟨v, hv⟩ := h4.decode
          exact ⟨_, by rw [h1]; simp only [Option.bind_eq_bind, Option.bind_some, hs, h3, hv]; rfl⟩)
      exact ⟨.obj fs, by rw [hn]; simp only [Option.bind_eq_bind, Option.bind_some]; simp only [Option.bind_eq_bind] at hfs; rw [hfs]; rfl⟩
    case array =>
      obtain ⟨_, n, hn, hb, _, hc⟩ := h
      obtain ⟨fs, hfs⟩ := foldlM_some (fun acc idx => do
        let (vt, vp) ← loadElem m p idx
        let v ← Dart.decode f m vt vp
        some (acc ++ [v])) (List.range n) [] (by
          intro i hi acc
          obtain ⟨vt, vp, h3, h4⟩ := hc i (List.mem_range.1 hi)
          obtain ⟨v, hv⟩ := h4.decode
          exact ⟨_, by rw [h3]; simp only [Option.bind_eq_bind, Option.bind_some, hv]; rfl⟩)
      exact ⟨.arr fs, by rw [hn]; simp only [Option.bind_eq_bind, Option.bind_some]; simp only [Option.bind_eq_bind] at hfs; rw [hfs]; rfl⟩
    case string =>
      obtain ⟨s, hs⟩ := h.string
      exact ⟨.str s, by rw [hs]; rfl⟩
    case smallString =>
      obtain ⟨_, len, hl, hb⟩ := h
      obtain ⟨s, hs⟩ := strv_some (t := .smallString) hl (by simp only [strWidth]; omega)
      exact ⟨.str s, by rw [hs]; rfl⟩
    case bigString =>
      obtain ⟨_, len, hl, hb⟩ := h
      obtain ⟨s, hs⟩ := strv_some (t := .bigString) hl (by simp only [strWidth]; omega)
      exact ⟨.str s, by rw [hs]; rfl⟩
    case shortInteger =>
      obtain ⟨x, hx⟩ := readInt_some h (by simp)
      exact ⟨.int x, by rw [hx]; rfl⟩
    case integer =>
      obtain ⟨x, hx⟩ := readInt_some h (by simp)
      exact ⟨.int x, by rw [hx]; rfl⟩
    case longInteger =>
      obtain ⟨x, hx⟩ := readInt_some h (by simp)
      exact ⟨.int x, by rw [hx]; rfl⟩
    case decimal =>
      obtain ⟨x, hx⟩ := readDec_some h (by simp)
      exact ⟨.dec x, by rw [hx]; rfl⟩
    case longDecimal =>
      obtain ⟨x, hx⟩ := readDec_some h (by simp)
      exact ⟨.dec x, by rw [hx]; rfl⟩
    case boolean =>
      obtain ⟨x, hx⟩ := readBool_some h.2
      exact ⟨.bool x, by rw [hx]; rfl⟩
    case null => exact ⟨.null, rfl⟩

/-! ### The buffer interface on safe buffers -/

/-- A buffer whose contents are safe. -/
def SafeBuf (b : Buf) : Prop :=
  b.type = .null ∨ ∃ p, b.addr = some p ∧ Safe b.mem (b.mem.length + 1) b.type p

/-- Outcome `ok` with `P`, or an exception satisfying `E`; never undefined behaviour. -/
def Res.Post {α : Type} (P : α → Prop) (E : Exc → Prop) : Res α → Prop
  | .ok a => P a
  | .throw e => E e
  | .ub => False

theorem Res.Post.bind {α β : Type} {Q : α → Prop} {P : β → Prop} {E : Exc → Prop} {r : Res α}
    {f : α → Res β} (h : r.Post Q E) (hf : ∀ a, Q a → (f a).Post P E) : (r.bind f).Post P E := by
  cases r with
  | ok a => exact hf a h
  | throw e => exact h
  | ub => exact h

theorem Res.Post.ofRead {α : Type} {P : α → Prop} {E : Exc → Prop} {o : Option α} (a : α)
    (h : o = some a) (hp : P a) : (Res.ofRead o).Post P E := by
  subst h; exact hp

theorem Res.Post.mono {α : Type} {P Q : α → Prop} {E F : Exc → Prop} {r : Res α} (h : r.Post P E)
    (hp : ∀ a, P a → Q a) (he : ∀ e, E e → F e) : r.Post Q F := by
  cases r with
  | ok a => exact hp a h
  | throw e => exact he e h
  | ub => exact h

theorem Res.Post.not_ub {α : Type} {P : α → Prop} {E : Exc → Prop} {r : Res α} (h : r.Post P E) :
    r ≠ .ub := by
  intro hr; subst hr; exact h

theorem Res.Post.ok {α : Type} {P : α → Prop} {E : Exc → Prop} {r : Res α} (h : r.Post P E) {a : α}
    (ha : r = .ok a) : P a := by
  subst ha; exact h

theorem Safe.sub {b : Buf} {t : RawType} {p f : Nat} (h : Safe b.mem f t p)
    (hf : f ≤ b.mem.length + 1) : SafeBuf (b.sub (t, some p)) := by
  refine Or.inr ⟨p, rfl, ?_⟩
  have := h.mono (k := b.mem.length + 1 - f)
  rwa [show f + (b.mem.length + 1 - f) = b.mem.length + 1 by omega] at this

theorem safe_null (b : Buf) (a : Option Nat) : SafeBuf (b.sub (.null, a)) := Or.inl rfl

theorem SafeBuf.addr {b : Buf} (h : SafeBuf b) (ht : b.type ≠ .null) :
    ∃ p, b.addr = some p ∧ Safe b.mem (b.mem.length + 1) b.type p := by
  rcases h with h | h
  · exact absurd h ht
  · exact h

theorem SafeBuf.object {b : Buf} (h : SafeBuf b) :
    b.object.Post (fun p => b.type = .object ∧ Safe b.mem (b.mem.length + 1) .object p)
      (fun e => e = .typeError ∧ b.type ≠ .object) := by
  unfold Buf.object
  cases ht : b.type <;> try exact ⟨rfl, by simp⟩
  obtain ⟨p, ha, hs⟩ := h.addr (by simp [ht])
  exact Res.Post.ofRead p ha ⟨rfl, ht ▸ hs⟩

theorem SafeBuf.array {b : Buf} (h : SafeBuf b) :
    b.array.Post (fun p => b.type = .array ∧ Safe b.mem (b.mem.length + 1) .array p)
      (fun e => e = .typeError ∧ b.type ≠ .array) := by
  unfold Buf.array
  cases ht : b.type <;> try exact ⟨rfl, by simp⟩
  obtain ⟨p, ha, hs⟩ := h.addr (by simp [ht])
  exact Res.Post.ofRead p ha ⟨rfl, ht ▸ hs⟩

theorem Safe.getValueImpl {signed : Bool} {b : Buf} {p : Nat}
    (h : Safe b.mem (b.mem.length + 1) .object p) (key : Bytes) :
    ∃ r, Dart.getValueImpl signed b.mem p key = some r ∧ ∀ e, r = some e → SafeBuf (b.sub e) := by
  obtain ⟨r, hr, hs⟩ := Safe.getKey (signed := signed) h key
  unfold Dart.getValueImpl
  rw [hr]
  simp only [Option.bind_eq_bind, Option.bind_some]
  cases r with
  | none => exact ⟨none, rfl, by simp⟩
  | some r =>
    obtain ⟨i, t, kp⟩ := r
    obtain ⟨vp, ha, hv⟩ := hs i t kp rfl
    by_cases hn : t = .null
    · refine ⟨some (.null, none), by simp [hn], ?_⟩
      intro e he; cases he
      exact safe_null b none
    · refine ⟨some (t, some vp), by simp [hn, ha], ?_⟩
      intro e he; cases he
      exact hv.sub (by omega)

theorem SafeBuf.get {b : Buf} (h : SafeBuf b) (signed : Bool) (key : Bytes) :
    (b.get signed key).Post SafeBuf (fun e => e = .typeError ∧ b.type ≠ .object) := by
  unfold Buf.get
  refine h.object.bind fun p hp => ?_
  obtain ⟨r, hr, hs⟩ := Safe.getValueImpl (signed := signed) hp.2 key
  refine (Res.Post.ofRead (P := (r = ·)) r hr rfl).bind ?_
  rintro _ rfl
  cases r with
  | none => exact safe_null b none
  | some e => exact hs e rfl

theorem SafeBuf.at {b : Buf} (h : SafeBuf b) (signed : Bool) (key : Bytes) :
    (b.at signed key).Post SafeBuf
      (fun e => e = .outOfRange ∨ e = .typeError ∧ b.type ≠ .object) := by
  unfold Buf.at
  refine (h.object.mono (fun _ h => h) (fun _ h => Or.inr h)).bind fun p hp => ?_
  obtain ⟨r, hr, hs⟩ := Safe.getValueImpl (signed := signed) hp.2 key
  refine (Res.Post.ofRead (P := (r = ·)) r hr rfl).bind ?_
  rintro _ rfl
  cases r with
  | none => exact Or.inl rfl
  | some e => exact hs e rfl

theorem SafeBuf.hasKey {b : Buf} (h : SafeBuf b) (signed : Bool) (key : Bytes) :
    (b.hasKey signed key).Post (fun _ => True) (fun e => e = .typeError ∧ b.type ≠ .object) := by
  unfold Buf.hasKey
  refine h.object.bind fun p hp => ?_
  obtain ⟨r, hr, hs⟩ := Safe.getKey (signed := signed) hp.2 key
  exact (Res.Post.ofRead (P := fun _ => True) r hr trivial).bind fun _ _ => trivial

theorem Safe.elem {b : Buf} {p : Nat} (h : Safe b.mem (b.mem.length + 1) .array p) :
    ∃ n, numElems b.mem p = some n ∧ ∀ i, i < n → ∃ e : RawType × Nat, loadElem b.mem p i = some e ∧
      SafeBuf (b.sub (e.1, some e.2)) := by
  obtain ⟨_, n, hn, _, _, hc⟩ := h
  refine ⟨n, hn, fun i hi => ?_⟩
  obtain ⟨vt, vp, h1, h2⟩ := hc i hi
  exact ⟨(vt, vp), h1, h2.sub (by omega)⟩

theorem SafeBuf.getIdx {b : Buf} (h : SafeBuf b) (i : Nat) :
    (b.getIdx i).Post SafeBuf (fun e => e = .typeError ∧ b.type ≠ .array) := by
  unfold Buf.getIdx
  refine h.array.bind fun p hp => ?_
  obtain ⟨n, hn, hc⟩ := hp.2.elem
  refine (Res.Post.ofRead (P := (n = ·)) n hn rfl).bind ?_
  rintro _ rfl
  split
  · obtain ⟨e, he, hs⟩ := hc i (by assumption)
    refine (Res.Post.ofRead (P := (e = ·)) e he rfl).bind ?_
    rintro _ rfl
    exact hs
  · exact safe_null b none

theorem SafeBuf.atIdx {b : Buf} (h : SafeBuf b) (i : Nat) :
    (b.atIdx i).Post SafeBuf (fun e => e = .outOfRange ∨ e = .typeError ∧ b.type ≠ .array) := by
  unfold Buf.atIdx
  refine (h.array.mono (fun _ h => h) (fun _ h => Or.inr h)).bind fun p hp => ?_
  obtain ⟨n, hn, hc⟩ := hp.2.elem
  refine (Res.Post.ofRead (P := (n = ·)) n hn rfl).bind ?_
  rintro _ rfl
  split
  · obtain ⟨e, he, hs⟩ := hc i (by assumption)
    refine (Res.Post.ofRead (P := (e = ·)) e he rfl).bind ?_
    rintro _ rfl
    exact hs
  · exact Or.inl rfl

theorem SafeBuf.strv {b : Buf} (h : SafeBuf b) :
    b.strv.Post (fun _ => True) (fun e => e = .typeError ∧ b.getType ≠ .string) := by
  unfold Buf.strv Buf.getType
  cases ht : b.type <;> try exact ⟨rfl, by simp [RawType.simplify]⟩
  all_goals
    obtain ⟨p, ha, hs⟩ := h.addr (by simp [ht])
    refine (Res.Post.ofRead (P := (p = ·)) p ha rfl).bind ?_
    rintro _ rfl
    rw [ht] at hs
    obtain ⟨_, len, hl, hb⟩ := hs
    obtain ⟨s, hs⟩ := strv_some (m := b.mem) (t := b.type) (p := p) (len := len)
      (by rw [ht]; exact hl) (by rw [ht]; simp only [strWidth]; omega)
    exact Res.Post.ofRead s (ht ▸ hs) trivial

theorem SafeBuf.integer {b : Buf} (h : SafeBuf b) :
    b.integer.Post (fun _ => True) (fun e => e = .typeError ∧ b.getType ≠ .integer) := by
  unfold Buf.integer Buf.getType
  cases ht : b.type <;> try exact ⟨rfl, by simp [RawType.simplify]⟩
  all_goals
    obtain ⟨p, ha, hs⟩ := h.addr (by simp [ht])
    refine (Res.Post.ofRead (P := (p = ·)) p ha rfl).bind ?_
    rintro _ rfl
    rw [ht] at hs
    obtain ⟨x, hx⟩ := readInt_some hs (by simp)
    exact Res.Post.ofRead x hx trivial

theorem SafeBuf.decimal {b : Buf} (h : SafeBuf b) :
    b.decimal.Post (fun _ => True) (fun e => e = .typeError ∧ b.getType ≠ .decimal) := by
  unfold Buf.decimal Buf.getType
  cases ht : b.type <;> try exact ⟨rfl, by simp [RawType.simplify]⟩
  all_goals
    obtain ⟨p, ha, hs⟩ := h.addr (by simp [ht])
    refine (Res.Post.ofRead (P := (p = ·)) p ha rfl).bind ?_
    rintro _ rfl
    rw [ht] at hs
    obtain ⟨x, hx⟩ := readDec_some hs (by simp)
    exact Res.Post.ofRead x hx trivial

theorem SafeBuf.boolean {b : Buf} (h : SafeBuf b) :
    b.boolean.Post (fun _ => True) (fun e => e = .typeError ∧ b.getType ≠ .boolean) := by
  unfold Buf.boolean Buf.getType
  cases ht : b.type <;> try exact ⟨rfl, by simp [RawType.simplify]⟩
  all_goals
    obtain ⟨p, ha, hs⟩ := h.addr (by simp [ht])
    refine (Res.Post.ofRead (P := (p = ·)) p ha rfl).bind ?_
    rintro _ rfl
    rw [ht] at hs
    obtain ⟨_, hs⟩ := hs
    obtain ⟨x, hx⟩ := readBool_some (m := b.mem) (p := p) (by omega)
    exact Res.Post.ofRead x hx trivial

/-- Types that have a size. -/
def Ty.sized : Ty → Prop
  | .object => True
  | .array => True
  | .string => True
  | _ => False

theorem SafeBuf.size {b : Buf} (h : SafeBuf b) :
    b.size.Post (fun n => ∀ p, b.addr = some p → isTable b.type → numElems b.mem p = some n)
      (fun e => e = .typeError ∧ ¬ b.getType.sized) := by
  unfold Buf.size Buf.getType
  cases ht : b.type <;> try exact ⟨rfl, by simp [RawType.simplify, Ty.sized]⟩
  case object =>
    obtain ⟨p, ha, hs⟩ := h.addr (by simp [ht])
    refine (Res.Post.ofRead (P := (p = ·)) p ha rfl).bind ?_
    rintro _ rfl
    rw [ht] at hs
    obtain ⟨_, n, hn, _⟩ := hs
    refine Res.Post.ofRead n hn fun q hq _ => ?_
    rw [ha] at hq; cases hq; exact hn
  case array =>
    obtain ⟨p, ha, hs⟩ := h.addr (by simp [ht])
    refine (Res.Post.ofRead (P := (p = ·)) p ha rfl).bind ?_
    rintro _ rfl
    rw [ht] at hs
    obtain ⟨_, n, hn, _⟩ := hs
    refine Res.Post.ofRead n hn fun q hq _ => ?_
    rw [ha] at hq; cases hq; exact hn
  all_goals
    obtain ⟨p, ha, hs⟩ := h.addr (by simp [ht])
    refine (Res.Post.ofRead (P := (p = ·)) p ha rfl).bind ?_
    rintro _ rfl
    rw [ht] at hs
    obtain ⟨_, n, hn, _⟩ := hs
    exact Res.Post.ofRead n hn fun q _ hq => by rcases hq with hq | hq <;> simp at hq

theorem SafeBuf.front {b : Buf} (h : SafeBuf b) :
    b.front.Post SafeBuf (fun e => e = .typeError ∧ b.type ≠ .array) := by
  unfold Buf.front
  refine h.array.bind fun p hp => ?_
  refine (h.size.mono (Q := fun _ => True) (fun _ _ => trivial) (fun e he => ?_)).bind fun n _ => ?_
  · exfalso; apply he.2; simp [Buf.getType, hp.1, RawType.simplify, Ty.sized]
  · split
    · exact safe_null b none
    · exact h.getIdx 0

theorem SafeBuf.back {b : Buf} (h : SafeBuf b) :
    b.back.Post SafeBuf (fun e => e = .typeError ∧ b.type ≠ .array) := by
  unfold Buf.back
  refine h.array.bind fun p hp => ?_
  refine (h.size.mono (Q := fun _ => True) (fun _ _ => trivial) (fun e he => ?_)).bind fun n _ => ?_
  · exfalso; apply he.2; simp [Buf.getType, hp.1, RawType.simplify, Ty.sized]
  · split
    · exact safe_null b none
    · exact h.getIdx _

theorem collect_post {α : Type} {f : Nat → Res α} {P : α → Prop} {E : Exc → Prop} :
    ∀ n, (∀ i, i < n → (f i).Post P E) → (Res.collect f n).Post (fun l => ∀ a ∈ l, P a) E
  | 0, _ => by simp [Res.collect, Res.Post]
  | n + 1, h => by
    unfold Res.collect
    refine (collect_post n fun i hi => h i (by omega)).bind fun l hl => ?_
    refine (h n (by omega)).bind fun a ha => ?_
    intro x hx
    rw [List.mem_append, List.mem_singleton] at hx
    rcases hx with hx | rfl
    · exact hl x hx
    · exact ha

theorem SafeBuf.values {b : Buf} (h : SafeBuf b) :
    b.values.Post (fun l => ∀ x ∈ l, SafeBuf x)
      (fun e => e = .typeError ∧ b.type ≠ .object ∧ b.type ≠ .array) := by
  unfold Buf.values
  refine Res.Post.bind (Q := fun n => ∀ p, b.addr = some p → isTable b.type → numElems b.mem p = some n)
    (h.size.mono (fun _ h => h) fun e he => ⟨he.1, ?_, ?_⟩) fun n hn => ?_
  · intro ht; apply he.2; simp [Buf.getType, ht, RawType.simplify, Ty.sized]
  · intro ht; apply he.2; simp [Buf.getType, ht, RawType.simplify, Ty.sized]
  · refine Res.Post.bind (Q := fun _ => True) ?_ fun _ _ => ?_
    · unfold Buf.aggregate
      cases ht : b.type <;> try exact ⟨rfl, by simp, by simp⟩
      all_goals
        obtain ⟨p, ha, _⟩ := h.addr (by simp [ht])
        exact Res.Post.ofRead (P := fun _ => True) p ha trivial
    refine collect_post n fun i hi => ?_
    unfold Buf.valueAt
    cases ht : b.type <;> try exact ⟨rfl, by simp, by simp⟩
    case object =>
      obtain ⟨p, ha, hs⟩ := h.addr (by simp [ht])
      refine (Res.Post.ofRead (P := (p = ·)) p ha rfl).bind ?_
      rintro _ rfl
      have hn := hn p ha (Or.inl ht)
      rw [ht] at hs
      obtain ⟨_, n', hn', _, _, hc⟩ := hs
      rw [hn] at hn'; cases hn'
      obtain ⟨_, vt, vp, _, _, h3, h4⟩ := hc i hi
      refine (Res.Post.ofRead (P := ((vt, vp) = ·)) (vt, vp) h3 rfl).bind ?_
      rintro _ rfl
      exact h4.sub (by omega)
    case array =>
      exact (h.getIdx i).mono (fun _ h => h) fun e he => absurd ht he.2

theorem SafeBuf.keys {b : Buf} (h : SafeBuf b) :
    b.keys.Post (fun l => ∀ x ∈ l, SafeBuf x) (fun e => e = .typeError ∧ b.type ≠ .object) := by
  unfold Buf.keys
  refine Res.Post.bind (Q := fun n => ∀ p, b.addr = some p → isTable b.type → numElems b.mem p = some n)
    (h.size.mono (fun _ h => h) fun e he => ⟨he.1, ?_⟩) fun n hn => ?_
  · intro ht; apply he.2; simp [Buf.getType, ht, RawType.simplify, Ty.sized]
  · refine Res.Post.bind (Q := fun _ => True) ?_ fun _ _ => ?_
    · unfold Buf.object
      cases ht : b.type <;> try exact ⟨rfl, by simp⟩
      obtain ⟨p, ha, _⟩ := h.addr (by simp [ht])
      exact Res.Post.ofRead (P := fun _ => True) p ha trivial
    refine collect_post n fun i hi => ?_
    unfold Buf.keyAt Buf.object
    cases ht : b.type <;> try exact ⟨rfl, by simp⟩
    obtain ⟨p, ha, hs⟩ := h.addr (by simp [ht])
    refine (Res.Post.ofRead (P := (p = ·)) p ha rfl).bind ?_
    rintro _ rfl
    have hn := hn p ha (Or.inl ht)
    rw [ht] at hs
    obtain ⟨_, n', hn', _, _, hc⟩ := hs
    rw [hn] at hn'; cases hn'
    obtain ⟨kp, vt, vp, h1, h2, h3, h4⟩ := hc i hi
    refine (Res.Post.ofRead (P := (kp = ·)) kp h1 rfl).bind ?_
    rintro _ rfl
    exact h2.sub (by omega)

theorem SafeBuf.value {b : Buf} (h : SafeBuf b) : ∃ v, b.value = some v := by
  unfold Buf.value
  cases ht : b.type <;> try exact ⟨.null, rfl⟩
  all_goals
    obtain ⟨p, ha, hs⟩ := h.addr (by simp [ht])
    rw [ht] at hs
    obtain ⟨v, hv⟩ := hs.decode
    rw [ha]
    exact ⟨v, hv⟩

theorem Derived.safe {signed : Bool} {root b : Buf} (hr : SafeBuf root) (h : Derived signed root b) :
    SafeBuf b := by
  induction h with
  | root => exact hr
  | get _ h ih => exact (ih.get signed _).ok h
  | «at» _ h ih => exact (ih.at signed _).ok h
  | getIdx _ h ih => exact (ih.getIdx _).ok h
  | atIdx _ h ih => exact (ih.atIdx _).ok h
  | front _ h ih => exact ih.front.ok h
  | back _ h ih => exact ih.back.ok h
  | values _ h hm ih => exact ih.values.ok h _ hm
  | keys _ h hm ih => exact ih.keys.ok h _ hm

theorem accepts_safe {m : Bytes} (h : accepts m) : SafeBuf (Buf.ofBytes m) :=
  Or.inr ⟨0, rfl, validBuffer_safe m _ _ _ _ (by omega) (Nat.dvd_zero _) h⟩

theorem ok_of_post {α : Type} {P : α → Prop} {E : Exc → Prop} {r : Res α} (h : r.Post P E)
    (he : ∀ e, ¬ E e) : ∃ a, r = .ok a := by
  cases r with
  | ok a => exact ⟨a, rfl⟩
  | throw e => exact absurd h (he e)
  | ub => exact h.elim

end Dart
