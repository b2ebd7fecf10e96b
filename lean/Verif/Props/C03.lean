import Verif.Lemmas.Reach
import Verif.Model.Sample

/-
C03: finalize then definalize returns the same value.
-/
namespace Dart.Props

/-- C03: if finalizing a dynamic value succeeds, converting the buffer back yields the very same
value (keys, order, nesting, strings with any bytes, integers, double bit patterns). -/
theorem C03_finalize_definalize (v : Val) (m : Bytes) (hw : v.WF) (h : finalize v = .ok m) :
    definalize m = some v := by
  obtain ⟨fs, n, rfl, _, hm, h1, h2⟩ := finalize_eq_ok hw h
  refine (At.root hw h).decode ?_
  have : m.length = n := by rw [hm]; simp [enc_length]; omega
  omega

/-- C03: finalizing succeeds on every object whose size bound is within 32 bits, so the
round trip is total there. -/
theorem C03_roundtrip_total (fs : List (Bytes × Val)) (n : Nat) (hw : (Val.obj fs).WF)
    (hb : upperBound (.obj fs) = some n) :
    ∃ m, finalize (.obj fs) = .ok m ∧ definalize m = some (.obj fs) :=
  ⟨_, (finalize_ok hw hb).1, C03_finalize_definalize _ _ hw (finalize_ok hw hb).1⟩

/-- C03: finalizing again after the round trip gives the same buffer. -/
theorem C03_refinalize (v w : Val) (m : Bytes) (hw : v.WF) (h : finalize v = .ok m)
    (hd : definalize m = some w) : finalize w = .ok m := by
  rw [C03_finalize_definalize v m hw h] at hd
  cases hd; exact h

/-- Non-vacuity: a nested sample with every kind of value finalizes (to 232 bytes). -/
example : sample.WF ∧ (finalize sample).toOption.map List.length = some 232 :=
  ⟨sample_wf, by decide +kernel⟩
/-- A string with an embedded NUL also finalizes. -/
example : (finalize (.obj [([97], .str [1, 0, 2])])).toOption.map List.length = some 40 := by
  decide +kernel

end Dart.Props
