import Verif.Lemmas.Make
import Verif.Lemmas.Size

/-
Merging without a limit on the size of the result.
-/
namespace Dart

/-- Reading back four bytes written at the beginning. -/
theorem readU_written {m m' : Bytes} {x : Nat} (h : writeBytes m 0 (leBytes 4 x) = some m') : readU m' 4 0 = some (x % 2 ^ 32) := by
  unfold writeBytes at h
  split at h
  · cases h
    simp only [List.take_zero, List.nil_append]
    unfold readU
    rw [show leBytes 4 x ++ List.drop (0 + (leBytes 4 x).length) m = [] ++ (leBytes 4 x ++ List.drop (0 + (leBytes 4 x).length) m) from rfl,
      readBytes_mid [] (leBytes 4 x) _ 0 4 rfl (by simp)]
    simp only [Option.map_some, leNat_leBytes]
  · cases h

theorem realign_end {elems guess off e : Nat} {m m' : Bytes} (hg : elems ≤ guess) (h : realign elems guess off m = some (m', e)) :
    e = off - 8 * (guess - elems) := by
  simp only [realign, Option.bind_eq_bind, Option.bind_eq_some_iff] at h
  obtain ⟨_, _, t, _, _, _, _, _, _, _, _, _, h⟩ := h
  cases h
  rw [alignUp_of_dvd (align_pos t) (Nat.dvd_trans (align_dvd_eight t) (by omega))]
  omega

/-- The size recorded for a merged object is what is left of its size in 32 bits. -/
theorem objectFromCopies_sizeof (xs : List (SrcField × Bytes × Val)) (hx : ∀ x ∈ xs, SrcOf z x.1 x.2)
    (guess : Nat) (hg : xs.length ≤ guess) (m m' : Bytes) (h : objectFromCopies guess (xs.map (·.1)) m = some m') :
    readU m' 4 0 = some (sizeVal (.obj (xs.map (·.2))) % 2 ^ 32) := by
  simp only [objectFromCopies, Option.bind_eq_bind, Option.bind_eq_some_iff, finishObject, List.length_map] at h
  obtain ⟨m1, h1, ⟨m2, e⟩, h2, m3, h3, ⟨m4, e'⟩, h4, h5⟩ := h
  obtain ⟨e1, _, _⟩ := writeFields_fits xs hx _ _ _ _ _ h2
  rw [readU_written h5]
  suffices hs : e' = fieldsEnd (8 + 8 * xs.length) (xs.map (·.2)) by simp only [sizeVal, List.length_map, hs]
  by_cases hne : xs.length = guess
  · simp only [hne, ne_eq, not_true_eq_false, if_false, Option.some.injEq, Prod.mk.injEq] at h4
    obtain ⟨rfl, rfl⟩ := h4
    rw [e1, hne]
  · simp only [ne_eq, hne, not_false_eq_true, if_true] at h4
    have := realign_end hg h4
    have hs := fieldsEnd_shift (xs.map (·.2)) (8 * (guess - xs.length)) (Nat.dvd_mul_right _ _) (8 + 8 * xs.length)
    rw [show 8 + 8 * xs.length + 8 * (guess - xs.length) = 8 + 8 * guess by omega] at hs
    omega

theorem merge_sizeof {b c d : Buf} {fs gs : List (Bytes × Val)} (hb : Shows z b (.obj fs)) (hc : Shows z c (.obj gs))
    (h : b.merge c = .ok d) : d.sizeof = some (sizeVal (.obj (mergeFields fs gs)) % 2 ^ 32) := by
  obtain ⟨zs, z2, z3, he⟩ := merge_eq hb hc
  have hlz : zs.length = (mergeFields fs gs).length := by rw [← z2]; simp
  have hle := mergeFields_length fs gs
  rw [he] at h
  cases hr : objectFromCopies (fs.length + gs.length) (zs.map (·.1)) (zeros (sizeVal (.obj fs) + sizeVal (.obj gs))) with
  | none => rw [hr] at h; cases h
  | some m' =>
    rw [hr] at h; cases h
    have := objectFromCopies_sizeof zs z3 _ (by omega) _ _ hr
    rw [z2] at this
    simpa only [Buf.sizeof, Buf.ofBytes, findSizeof] using this

/-- The copying constructor without a gap behind the table: the size of the result does not matter. -/
theorem objectFromCopies_full (xs : List (SrcField × (Bytes × Val) × Bytes)) (hx : ∀ x ∈ xs, Writes (copyWriter x.1) x.2)
    (total : Nat) (hend : fieldsEnd (8 + 8 * xs.length) (xs.map (·.2.1)) ≤ total) :
    ∃ m, objectFromCopies xs.length (xs.map (·.1)) (zeros total) = some m := by
  have hge := le_fieldsEnd (8 + 8 * xs.length) (xs.map (·.2.1))
  have hz : zeros total = zeros 4 ++ (zeros 4 ++ (zeros (8 * xs.length) ++ (zeros 0 ++
      (zeros (total - (8 + 8 * xs.length)) ++ [])))) := by
    simp only [List.append_nil, ← zeros_add]; congr 1; omega
  have hmap : (xs.map (·.1)).map copyWriter = (xs.map fun x => (copyWriter x.1, x.2)).map (·.1) := by simp
  have hmap2 : xs.map (·.2) = (xs.map fun x => (copyWriter x.1, x.2)).map (·.2) := by simp
  have hmap3 : xs.map (·.2.1) = (xs.map fun x => (copyWriter x.1, x.2)).map (·.2.1) := by simp
  have hl0 : leBytes 4 0 = zeros 4 := rfl
  have hW := writeFields_ok (xs.map fun x => (copyWriter x.1, x.2))
    (by
      intro x hx'
      obtain ⟨y, hy, rfl⟩ := List.mem_map.1 hx'
      exact hx y hy)
    (zeros 4 ++ zeros 4) (zeros 0) [] 0 (8 + 8 * xs.length) (total - (8 + 8 * xs.length))
    (by simp) (by simp) (by rw [← hmap3]; omega)
  rw [← hmap, ← hmap2, ← hmap3] at hW
  simp only [List.length_map, List.append_assoc, List.append_nil] at hW
  unfold objectFromCopies
  rw [hz]
  simp only [List.append_nil]
  rw [writeBytes_mid (zeros 4) (zeros 4) _ _ _ (by simp) (by simp)]
  simp only [Option.bind_eq_bind, Option.bind_some, hl0]
  rw [hW]
  simp only [Option.bind_some, List.length_map]
  rw [writeBytes_mid (zeros 4) (zeros 4) _ _ _ (by simp) (by simp)]
  simp only [Option.bind_some, ne_eq, not_true_eq_false, if_false, finishObject]
  rw [← List.nil_append (zeros 4 ++ _), writeBytes_mid [] (zeros 4) _ _ 0 rfl (by simp)]
  exact ⟨_, rfl⟩

/-- Merging objects without common keys succeeds, whatever the size, if the fields fit. -/
theorem merge_disjoint {b c : Buf} {fs gs : List (Bytes × Val)} (hb : Shows z b (.obj fs)) (hc : Shows z c (.obj gs))
    (hl : (mergeFields fs gs).length = fs.length + gs.length)
    (hfit : fieldsEnd (8 + 8 * (fs.length + gs.length)) (mergeFields fs gs) ≤ sizeVal (.obj fs) + sizeVal (.obj gs)) :
    ∃ d, b.merge c = .ok d := by
  obtain ⟨zs, z2, z3, he⟩ := merge_eq hb hc
  have hlz : zs.length = fs.length + gs.length := by rw [← hl, ← z2]; simp
  obtain ⟨ys, rfl, hy⟩ := choose_images zs (fun x h => (z3 x h).writes)
  have e1 : (ys.map (·.1)).map (·.1) = (ys.map fun y => (y.1.1, y.1.2, y.2)).map (·.1) := by simp
  have e2 : (ys.map (·.1)).map (·.2) = (ys.map fun y => (y.1.1, y.1.2, y.2)).map (·.2.1) := by simp
  obtain ⟨m, hm⟩ := objectFromCopies_full (ys.map fun y => (y.1.1, y.1.2, y.2))
    (by
      intro x hx'
      obtain ⟨y, hy', rfl⟩ := List.mem_map.1 hx'
      exact (hy y hy').2) (sizeVal (.obj fs) + sizeVal (.obj gs))
    (by rw [← e2, z2]; simp only [List.length_map] at hlz ⊢; rw [hlz]; exact hfit)
  simp only [List.length_map] at hlz hm
  rw [hlz] at hm
  rw [he, e1, hm]
  exact ⟨_, rfl⟩

end Dart
