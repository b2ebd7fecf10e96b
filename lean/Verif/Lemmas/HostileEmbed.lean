import Verif.Lemmas.HostileCut
import Verif.Lemmas.Depth

/-
What is read from a part of the memory is what is read from all of it.
-/
namespace Dart

/-- The memory `c` lies in `m`, from `p` on. -/
def LiesIn (c m : Bytes) (p : Nat) : Prop := ∀ q n x, readBytes c q n = some x → readBytes m (p + q) n = some x

theorem LiesIn.cut {m : Bytes} {p N : Nat} (hN : p + N ≤ m.length) : LiesIn (cutOut m p N) m p := fun q n x h => by
  have hb : q + n ≤ N := by
    have hl : (cutOut m p N).length = N := by simp [cutOut]; omega
    unfold readBytes at h
    split at h
    · omega
    · cases h
  rw [← readBytes_cut hN hb]; exact h

section
variable {c m : Bytes} {p : Nat} (h : LiesIn c m p)
include h

theorem LiesIn.readU {w q x : Nat} (hx : readU c w q = some x) : readU m w (p + q) = some x := by
  unfold Dart.readU at hx ⊢
  rw [Option.map_eq_some_iff] at hx ⊢
  obtain ⟨y, h1, h2⟩ := hx
  exact ⟨y, h _ _ _ h1, h2⟩

theorem LiesIn.readU' {w q r x : Nat} (hr : r = p + q) (hx : Dart.readU c w q = some x) : Dart.readU m w r = some x := hr ▸ h.readU hx

theorem LiesIn.numElems {q n : Nat} (hn : numElems c q = some n) : Dart.numElems m (p + q) = some n :=
  h.readU' (by omega) hn

theorem LiesIn.entOff {q i o : Nat} (ho : entOff c q i = some o) : Dart.entOff m (p + q) i = some o := h.readU' (by omega) ho

theorem LiesIn.entType {q i : Nat} {t : RawType} (ht : entType c q i = some t) : Dart.entType m (p + q) i = some t := by
  unfold Dart.entType at ht ⊢
  rw [Option.bind_eq_some_iff] at ht ⊢
  obtain ⟨x, h1, h2⟩ := ht
  exact ⟨x, h.readU' (by omega) h1, h2⟩

theorem LiesIn.loadKey {q i kp : Nat} (hk : loadKey c q i = some kp) : Dart.loadKey m (p + q) i = some (p + kp) := by
  obtain ⟨off, ho, rfl⟩ := loadKey_inv hk
  unfold Dart.loadKey
  rw [h.entOff ho, ← Nat.add_assoc]; rfl

theorem LiesIn.strv {t : RawType} {q : Nat} {s : Bytes} (hs : strv c t q = some s) : Dart.strv m t (p + q) = some s := by
  unfold Dart.strv at hs ⊢
  simp only [Option.bind_eq_bind, Option.bind_eq_some_iff] at hs ⊢
  obtain ⟨n, h1, h2⟩ := hs
  exact ⟨n, h.readU h1, by rw [Nat.add_assoc]; exact h _ _ _ h2⟩

theorem LiesIn.loadValue (h8 : 8 ∣ p) {q i vp : Nat} {t : RawType} (hv : loadValue c q i = some (t, vp)) :
    Dart.loadValue m (p + q) i = some (t, p + vp) := by
  obtain ⟨off, ho, ht, ha⟩ := loadValue_inv hv
  unfold afterKey at ha
  simp only [Option.bind_eq_bind, Option.bind_eq_some_iff, findSizeof, Option.map_eq_some_iff] at ha
  obtain ⟨sz, ⟨len, hl, rfl⟩, ha⟩ := ha
  cases ha
  have e : alignUp (p + q + off + (2 + len + 1)) t.align = p + alignUp (q + off + (2 + len + 1)) t.align := by
    rw [show p + q + off + (2 + len + 1) = q + off + (2 + len + 1) + p by omega,
      alignUp_add_right (align_pos t) (Nat.dvd_trans (align_dvd_eight t) h8)]; omega
  unfold Dart.loadValue afterKey
  rw [h.entOff ho, h.entType ht]
  simp only [Option.bind_eq_bind, Option.bind_some, findSizeof]
  rw [h.readU' (q := q + off) (by omega) hl]
  simp only [Option.map_some, Option.bind_some, e]

theorem LiesIn.loadElem {q i vp : Nat} {t : RawType} (hv : loadElem c q i = some (t, vp)) :
    Dart.loadElem m (p + q) i = some (t, p + vp) := by
  unfold Dart.loadElem at hv ⊢
  simp only [Option.bind_eq_bind, Option.bind_eq_some_iff] at hv ⊢
  obtain ⟨t', ht, off, ho, hv⟩ := hv
  cases hv
  exact ⟨_, h.entType ht, _, h.entOff ho, by rw [Nat.add_assoc]⟩

theorem LiesIn.readInt {t : RawType} {q : Nat} {x : BitVec 64} (hx : readInt c t q = some x) : Dart.readInt m t (p + q) = some x := by
  cases t <;> simp only [Dart.readInt, Option.map_eq_some_iff] at hx ⊢ <;> first
    | cases hx; done
    | (obtain ⟨y, h1, h2⟩ := hx; exact ⟨y, h.readU h1, h2⟩)

theorem LiesIn.readDec {t : RawType} {q : Nat} {x : BitVec 64} (hx : readDec c t q = some x) : Dart.readDec m t (p + q) = some x := by
  cases t <;> simp only [Dart.readDec, Option.map_eq_some_iff] at hx ⊢ <;> first
    | cases hx; done
    | (obtain ⟨y, h1, h2⟩ := hx; exact ⟨y, h.readU h1, h2⟩)

theorem LiesIn.readBool {q : Nat} {x : Bool} (hx : readBool c q = some x) : Dart.readBool m (p + q) = some x := by
  simp only [Dart.readBool, Option.map_eq_some_iff] at hx ⊢
  obtain ⟨y, h1, h2⟩ := hx
  exact ⟨y, h.readU h1, h2⟩
end

theorem foldlM_imp {α β : Type} {f g : β → α → Option β} (h : ∀ b a c, f b a = some c → g b a = some c) :
    ∀ (l : List α) (b : β) {c : β}, l.foldlM f b = some c → l.foldlM g b = some c
  | [], _, _, hc => hc
  | a :: l, b, c, hc => by
    rw [List.foldlM_cons] at hc ⊢
    simp only [Option.bind_eq_bind, Option.bind_eq_some_iff] at hc ⊢
    obtain ⟨d, h1, h2⟩ := hc
    exact ⟨d, h _ _ _ h1, foldlM_imp h l d h2⟩

/-- What can be decoded in a part is decoded alike in the whole. -/
theorem LiesIn.decode {c m : Bytes} {p : Nat} (h : LiesIn c m p) (h8 : 8 ∣ p) : ∀ {f : Nat} {t : RawType} {q : Nat} {v : Val},
    decode f c t q = some v → Dart.decode f m t (p + q) = some v
  | 0, _, _, _, hv => by simp [Dart.decode] at hv
  | f + 1, t, q, v, hv => by
    cases t <;> unfold Dart.decode at hv ⊢
    case object =>
      simp only [Option.bind_eq_bind, Option.bind_eq_some_iff] at hv ⊢
      obtain ⟨n, hn, fs, hfs, hv⟩ := hv
      refine ⟨n, h.numElems hn, fs, ?_, hv⟩
      refine foldlM_imp (fun acc i acc' hc => ?_) _ _ hfs
      simp only [Option.bind_eq_some_iff] at hc ⊢
      obtain ⟨kp, h1, k, h2, ⟨vt, vp⟩, h3, w, h4, h5⟩ := hc
      exact ⟨_, h.loadKey h1, _, h.strv h2, _, h.loadValue h8 h3, _, h.decode h8 h4, h5⟩
    case array =>
      simp only [Option.bind_eq_bind, Option.bind_eq_some_iff] at hv ⊢
      obtain ⟨n, hn, fs, hfs, hv⟩ := hv
      refine ⟨n, h.numElems hn, fs, ?_, hv⟩
      refine foldlM_imp (fun acc i acc' hc => ?_) _ _ hfs
      simp only [Option.bind_eq_some_iff] at hc ⊢
      obtain ⟨⟨vt, vp⟩, h3, w, h4, h5⟩ := hc
      exact ⟨_, h.loadElem h3, _, h.decode h8 h4, h5⟩
    case null => exact hv
    all_goals
      rw [Option.map_eq_some_iff] at hv ⊢
      obtain ⟨x, hx, rfl⟩ := hv
      first | exact ⟨x, h.strv hx, rfl⟩ | exact ⟨x, h.readInt hx, rfl⟩ | exact ⟨x, h.readDec hx, rfl⟩ | exact ⟨x, h.readBool hx, rfl⟩

/-- An object cut out shows what it showed in its place. -/
theorem cut_value {b : Buf} {p n : Nat} (ht : b.type = .object) (hp : b.addr = some p) (h8 : 8 ∣ p) (hn : p + n ≤ b.mem.length)
    (ha : accepts (cutOut b.mem p n)) : ∃ v, b.value = some v ∧ (Buf.ofBytes (cutOut b.mem p n)).value = some v := by
  obtain ⟨v, hv⟩ := (accepts_safe ha).value
  refine ⟨v, ?_, hv⟩
  have hl : (cutOut b.mem p n).length = n := by simp [cutOut]; omega
  have hd : decode ((cutOut b.mem p n).length + 1) (cutOut b.mem p n) .object 0 = some v := hv
  have := decode_out b.mem _ (b.mem.length + 1) _ _ _ (by omega) ((LiesIn.cut hn).decode h8 hd)
  simp only [Buf.value, ht, hp]
  exact this

end Dart
