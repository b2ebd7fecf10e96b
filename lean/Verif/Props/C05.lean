import Verif.Lemmas.Shows
import Verif.Model.Sample

/-
C05: everything reachable in a finalized buffer is aligned for its type.
-/
namespace Dart.Props

/-- C05: the address of every value or key a client can reach in a finalized buffer is a multiple
of the alignment of its type (8 for objects, arrays and 8-byte numbers, 4, 2 or 1 otherwise), relative
to the 8-byte aligned allocation. -/
theorem C05_alignment (signed : Bool) (v : Val) (m : Bytes) (hw : v.WF) (h : finalize v = .ok m)
    (b : Buf) (hb : Derived signed (Buf.ofBytes m) b) (p : Nat) (hp : b.addr = some p) : b.type.align ∣ p := by
  obtain ⟨x, hx⟩ := hb.shows (shows_root hw h)
  rcases hx with ⟨ht, _⟩ | ⟨q, ht, ha, _, _, hal, _⟩
  · rw [ht]; exact Nat.one_dvd p
  · rw [ha] at hp; cases hp
    rw [ht, forTable_align]; exact hal

/-- C05: everything reachable lies inside the recorded size of the buffer. -/
theorem C05_inside (signed : Bool) (v : Val) (m : Bytes) (hw : v.WF) (h : finalize v = .ok m)
    (b : Buf) (hb : Derived signed (Buf.ofBytes m) b) (p : Nat) (hp : b.addr = some p) (hn : b.type ≠ .null) :
    p < m.length := by
  have hmem := hb.mem_eq
  obtain ⟨x, hx⟩ := hb.shows (shows_root hw h)
  rcases hx with ⟨ht, _⟩ | ⟨q, ht, ha, hat⟩
  · exact absurd ht hn
  · rw [ha] at hp; cases hp
    have hs := hat.size_le
    rw [hmem] at hs
    have h0 : 0 < sizeVal x := by
      cases x with
      | null => exact absurd ht hn
      | bool b => simp [sizeVal]
      | int i => simp only [sizeVal]; rcases identifyInteger_cases i with e | e | e <;> simp [e, intBytes]
      | dec i => simp only [sizeVal, decBytes]; split <;> simp
      | str s => simp only [sizeVal, strSize]; omega
      | arr es => have := le_elemsEnd (8 + 8 * es.length) es; simp only [sizeVal]; omega
      | obj fs =>
        have h1 := le_fieldsEnd (8 + 8 * fs.length) fs
        have h2 := le_alignUp (fieldsEnd (8 + 8 * fs.length) fs) (a := 8) (by decide)
        simp only [sizeVal]; omega
    simp only [Buf.ofBytes] at hs
    omega

/-- C05: the recorded size of a finalized object is a multiple of 8, so that objects can be
stored one after the other. -/
theorem C05_size_multiple_of_8 (v : Val) (m : Bytes) (hw : v.WF) (h : finalize v = .ok m) :
    ∃ bs, getBytes m = some bs ∧ 8 ∣ bs.length := by
  obtain ⟨fs, n, rfl, _, hm, h1, h2⟩ := finalize_eq_ok hw h
  simp only [Fits] at h2
  refine ⟨enc (.obj fs), by rw [hm]; exact getBytes_enc fs h2.1 _, ?_⟩
  rw [enc_length]; simp only [sizeVal]; exact dvd_alignUp _ _

/-- Non-vacuity: in the sample the nested object of key "cc" is an object at an address divisible
by 8 and its member "k" a 4-byte decimal at an address divisible by 4. -/
example : (match finalize sample with
    | .ok m => match (Buf.ofBytes m).get true [99, 99] with
      | .ok b => match b.get true [107] with
        | .ok b' => some (b.type, b.addr, b'.type, b'.addr)
        | _ => none
      | _ => none
    | _ => none) = some (.object, some 120, .decimal, some 140) := by decide +kernel

end Dart.Props
