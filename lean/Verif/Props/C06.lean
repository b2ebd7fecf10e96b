import Verif.Lemmas.Reach
import Verif.Model.Sample

/-
C06: finalized bytes are canonical.
-/
namespace Dart.Props

/-- C06: two dynamic values finalize to the same network bytes exactly when they are the same value. -/
theorem C06_bytes_equal_iff_values_equal (v w : Val) (m m' : Bytes) (hv : v.WF) (hw : w.WF)
    (h : finalize v = .ok m) (h' : finalize w = .ok m') : getBytes m = getBytes m' ↔ v = w := by
  constructor
  · intro hb
    obtain ⟨fs, n, rfl, _, hm, h1, h2⟩ := finalize_eq_ok hv h
    obtain ⟨gs, n', rfl, _, hm', h1', h2'⟩ := finalize_eq_ok hw h'
    have a : getBytes m = some (enc (.obj fs)) := by
      rw [hm]; exact getBytes_enc fs (by simp only [Fits] at h2; exact h2.1) _
    have b : getBytes m' = some (enc (.obj gs)) := by
      rw [hm']; exact getBytes_enc gs (by simp only [Fits] at h2'; exact h2'.1) _
    rw [a, b] at hb
    exact enc_injective hv hw h2 h2' rfl (Option.some.inj hb)
  · rintro rfl
    rw [h] at h'; cases h'; rfl

/-- C06: every byte of the allocation, padding included, is determined by the value: the network
bytes are followed by zeros only, so equal values give equal memory and different values different
network bytes. -/
theorem C06_different_values_differ (v w : Val) (m m' : Bytes) (hv : v.WF) (hw : w.WF)
    (h : finalize v = .ok m) (h' : finalize w = .ok m') (hne : v ≠ w) : getBytes m ≠ getBytes m' :=
  fun e => hne ((C06_bytes_equal_iff_values_equal v w m m' hv hw h h').1 e)

/-- Non-vacuity: `{"a": 1}` and `{"a": 1.0}` both finalize, to different bytes. -/
example : (finalize (.obj [([97], .int 1)])).toOption.isSome ∧
    (finalize (.obj [([97], .dec 0x3ff0000000000000)])).toOption.isSome ∧
    ((finalize (.obj [([97], .int 1)])).toOption.bind getBytes) ≠
      ((finalize (.obj [([97], .dec 0x3ff0000000000000)])).toOption.bind getBytes) := by
  decide +kernel

end Dart.Props
