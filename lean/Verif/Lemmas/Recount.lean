import Verif.Lemmas.AbiMove
import Verif.Spec.Recount

namespace Dart
open Spec

variable {z : Bool}

mutual
theorem transmogrify_val (v : Val) (hw : v.WF) (hs : Storable v) : v.transmogrify = .ok v := by
  cases v with
  | obj fs =>
    simp only [Val.WF] at hw
    simp only [Storable] at hs
    simp only [Val.transmogrify]
    simpa using transFields_all fs [] hw.2 hs (by simpa using hw.1)
  | arr es =>
    simp only [Val.WF] at hw
    simp only [Storable] at hs
    simp only [Val.transmogrify]
    simpa using transElems_all es [] hw hs.2 (by simpa using hs.1)
  | _ => rfl
theorem transFields_all (fs done : List (Bytes × Val)) (hw : WFFields fs) (hs : StorableFields fs)
    (ho : (done ++ fs).Pairwise fun a b => KeyBefore a.1 b.1) : transFields (.obj done) fs = .ok (.obj (done ++ fs)) := by
  cases fs with
  | nil => simp [transFields]
  | cons f fs =>
    obtain ⟨k, v⟩ := f
    simp only [WFFields] at hw
    simp only [StorableFields] at hs
    have hi : (Val.obj done).insert (.str k) v = .ok (.obj (done ++ [(k, v)])) := by
      simp only [Val.insert, if_neg (show ¬ k.length > 65535 by omega)]
      rw [mapInsert_append done k v fun f hf => keyLt_iff_spec.2 ((List.pairwise_append.1 ho).2.2 f hf (k, v) (by simp))]
    simp only [transFields, transmogrify_val v hw.2.1 hs.1, Res.bind_ok, hi]
    rw [transFields_all fs (done ++ [(k, v)]) hw.2.2 hs.2 (by simpa using ho)]
    simp
theorem transElems_all (es done : List Val) (hw : WFElems es) (hs : StorableElems es)
    (hl : (done ++ es).length ≤ 2 ^ 58) : transElems (.arr done) es = .ok (.arr (done ++ es)) := by
  cases es with
  | nil => simp [transElems]
  | cons v es =>
    simp only [WFElems] at hw
    simp only [StorableElems] at hs
    have hi : (Val.arr done).pushBack v = .ok (.arr (done ++ [v])) :=
      pushBack_ok (by simp only [List.length_append, List.length_cons] at hl; omega) v
    simp only [transElems, transmogrify_val v hw.1 hs.1, Res.bind_ok, hi]
    rw [transElems_all es (done ++ [v]) hw.2 hs.2 (by simpa using hl)]
    simp
end

/-- Owning a copy of the bytes: the same object and the same bytes. -/
theorem Image.adopted {fs : List (Bytes × Val)} {bs : Bytes} (hw : (Val.obj fs).WF) (hf : Fits (.obj fs)) (h : Image z (.obj fs) bs) :
    Shows z (Buf.ofBytes bs) (.obj fs) ∧ (Buf.ofBytes bs).getBytes = .ok bs := by
  have hs : Shows z (Buf.ofBytes bs) (.obj fs) := by
    refine .inr ⟨0, rfl, rfl, ?_⟩
    have := h.at (X := []) (Y := []) (p := 0) rfl (Nat.dvd_zero _) hw hf
    simpa [Buf.ofBytes] using this
  refine ⟨hs, ?_⟩
  have hz := hs.sizeof
  simp only [Buf.sizeof, Buf.ofBytes] at hz
  have hr : readBytes bs 0 (sizeVal (.obj fs)) = some bs := by
    rw [← h.1, readBytes_at (by omega)]
    simp
  simp only [Buf.getBytes, Buf.ofBytes, Buf.getType, RawType.simplify, if_true, Res.ofRead, Res.bind, hz, hr]

theorem transmogrify_held {p : Pkt} {s : PState} (h : Held z p s) (hs : Storable s.value)
    (ho : s.finalized = true → ∃ fs, s.value = .obj fs) :
    ∃ q, p.transmogrify = .ok q ∧ Held z q s ∧ q.getBytes = p.getBytes := by
  cases p with
  | heap v =>
    obtain ⟨rfl, hw⟩ := h
    refine ⟨.heap v, ?_, ⟨rfl, hw⟩, rfl⟩
    simp only [Pkt.transmogrify, Pkt.visit, transmogrify_val v hw hs, Res.bind_ok]
  | buf b =>
    obtain ⟨fin, v⟩ := s
    obtain ⟨rfl, h⟩ := h
    obtain ⟨fs, rfl⟩ := ho rfl
    simp only at h
    obtain ⟨bs, h1, h2⟩ := h.getBytes
    obtain ⟨h3, h4⟩ := h2.adopted h.wf h.fits
    refine ⟨.buf (Buf.ofBytes bs), ?_, ⟨rfl, h3⟩, ?_⟩
    · simp only [Pkt.transmogrify, Pkt.visit, Buf.transmogrify, Buf.dupBytes, h1, Res.bind_ok]
    · simp only [Pkt.getBytes, Pkt.getBuffer, Res.bind_ok, h1, h4]

theorem transmogrifyN_held {s : PState} (hs : Storable s.value) (ho : s.finalized = true → ∃ fs, s.value = .obj fs) :
    ∀ (n : Nat) {p : Pkt}, Held z p s → ∃ q, p.transmogrifyN n = .ok q ∧ Held z q s ∧ q.getBytes = p.getBytes
  | 0, p, h => ⟨p, rfl, h, rfl⟩
  | n + 1, p, h => by
    obtain ⟨q, h1, h2, h3⟩ := transmogrify_held h hs ho
    obtain ⟨r, h4, h5, h6⟩ := transmogrifyN_held hs ho n h2
    exact ⟨r, by simp only [Pkt.transmogrifyN, h1, Res.bind_ok, h4], h5, h6.trans h3⟩

theorem transmogrify_part {b : Buf} {v : Val} (h : Shows z b v) (hv : ∀ fs, v ≠ .obj fs) :
    (Pkt.buf b).transmogrify = .throw .typeError := by
  have ht : b.getType ≠ .object := by
    rw [h.getType]
    cases v <;> first | exact absurd rfl (hv _) | exact fun h => nomatch h
  simp only [Pkt.transmogrify, Pkt.visit, Buf.transmogrify, Buf.dupBytes, Buf.getBytes, if_neg ht]
  rfl

end Dart
