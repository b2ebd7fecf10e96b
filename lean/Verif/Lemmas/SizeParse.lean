import Verif.Lemmas.FromJson
import Verif.Lemmas.SizeMerge

/-
Parsing into a finalized buffer without a limit on the size of the result.
-/
namespace Dart
open Spec

/-- Members that are below 4 GiB each. -/
theorem fitsFields_of_sizes : ∀ {fs : List (Bytes × Val)}, OrderedFields fs → (∀ f ∈ fs, sizeVal f.2 < 2 ^ 32) → FitsFields fs
  | [], _, _ => trivial
  | (k, v) :: fs, ho, h => by
    unfold OrderedFields at ho
    unfold FitsFields
    exact ⟨ho.1, (wf_of_size v ho.2.1 (h _ List.mem_cons_self)).2,
      fitsFields_of_sizes ho.2.2 fun f hf => h f (List.mem_cons_of_mem _ hf)⟩

/-- The size recorded by the layout of an object is what is left of its size in 32 bits. -/
theorem layoutVal_sizeof {fs : List (Bytes × Val)} (hf : FitsFields fs) {m m' : Bytes} {n : Nat}
    (hm : sizeVal (.obj fs) ≤ m.length) (h : layoutVal (.obj fs) 0 m = some (m', n)) :
    findSizeof m' .object 0 = some (sizeVal (.obj fs) % 2 ^ 32) := by
  have hle := le_alignUp (fieldsEnd (8 + 8 * fs.length) fs) (a := 8) (by decide)
  have hle2 := le_fieldsEnd (8 + 8 * fs.length) fs
  simp only [sizeVal] at hm
  simp only [layoutVal, Option.bind_eq_bind, Option.bind_eq_some_iff] at h
  obtain ⟨a, ha, ⟨b, o⟩, hb, c, hc, _, _, h⟩ := h
  cases h
  obtain ⟨a', ea, la⟩ := writeBytes_inb (m := m) (p := 0 + 4) (bs := leBytes 4 fs.length) (by simp; omega)
  rw [ha] at ea; cases ea
  obtain ⟨b', eb, _⟩ := layoutFields_stored fs (p := 0) (i := 0) (off := 8 + 8 * fs.length) (m := a)
    (Nat.dvd_zero _) hf (by omega) (by omega)
  rw [hb] at eb; cases eb
  simp only [findSizeof, sizeVal]
  exact readU_written hc

/-- The same for a parsed buffer. -/
theorem fromJson_sizeof {sort : List (Bytes × Json) → List (Bytes × Json)} (hs : Sorts sort) {fill : Nat → Bytes}
    (hf : ∀ n, (fill n).length = n) {x : Extensions} {t : Bytes} {fs : List (Bytes × Json)}
    (ht : IsText x t (.obj fs)) (hw : Within (.obj fs)) (hd : DistinctNames (.obj fs)) {us : List (Bytes × Val)}
    (hu : (Json.obj fs).toVal = .obj us) (hm : ∀ f ∈ us, sizeVal f.2 < 2 ^ 32) {b : Buf}
    (hb : Buf.fromJson sort fill t.length (.obj fs) = .ok b) : b.sizeof = some (sizeVal (.obj us) % 2 ^ 32) := by
  have h1 := isText_length ht
  have h2 := size_span ((Json.obj fs).arrange sort)
  rw [arrange_span fun fs => (hs fs).1] at h2
  have hi := arrange_image hs _ hw hd
  rw [hi, hu] at h2
  have hl := hf (t.length * 8)
  have ho := ordered_toVal _ hw
  rw [hu] at ho
  unfold Val.Ordered at ho
  simp only [Buf.fromJson, lower_image, hi, hu] at hb
  split at hb
  · rename_i m' n e
    cases hb
    exact layoutVal_sizeof (fitsFields_of_sizes ho.2 hm) (by omega) e
  · cases hb

/-- A text of `n` plain characters. -/
theorem charsText_plain (n : Nat) : CharsText (List.replicate n 0x61) (List.replicate n 0x61) := by
  induction n with
  | zero => exact .nil
  | succ n ih => rw [List.replicate_succ]; exact .plain (by decide) (by decide) (by decide) ih

end Dart
