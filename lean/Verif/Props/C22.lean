import Verif.Lemmas.EqualBuf

/-
C22: comparing finalized values. `b.eq sameObj samePtr c` is `b == c`; the code first asks whether both
are the same C++ object and whether both point to the same place, and `sameObj` and `samePtr` are the
answers.
-/
namespace Dart.Props
open Spec

/-- For all finalized objects a client can come by other than by parsing JSON, whatever their origin and whatever
memory they share: the comparison reads within the buffers, throws nothing, and says equal exactly if both hold the
same value. -/
theorem C22_equal_iff_same_value {signed : Bool} {b c : Buf} (hb : Obtained signed true b) (hc : Obtained signed true c)
    {fs gs : List (Bytes × Val)} (hv : b.value = some (.obj fs)) (hw : c.value = some (.obj gs))
    {sameObj samePtr : Bool} (ho : sameObj = true → b = c) (hp : samePtr = true → b.mem = c.mem ∧ b.addr = c.addr) :
    ∃ r, b.eq sameObj samePtr c = .ok r ∧ (r = true ↔ fs = gs) := by
  have h1 := hb.shows_value hv
  have h2 := hc.shows_value hw
  obtain ⟨r, h3, h4⟩ := Buf.eq_ok h1 h2 ho fun h _ => by
    obtain ⟨_, t1, _⟩ := h1.obj
    obtain ⟨_, t2, _⟩ := h2.obj
    exact ⟨(hp h).1, (hp h).2, t1.trans t2.symm⟩
  exact ⟨r, h3, h4.trans ⟨fun h => by injection h, fun h => by rw [h]⟩⟩

/-- The same for all parts of finalized objects, of any type. Here it is assumed that parts at the same
place have the same representation. -/
theorem C22_equal_iff_same_value_parts {signed : Bool} {b c : Buf} (hb : Obtained signed true b) (hc : Obtained signed true c)
    {sameObj samePtr : Bool} (ho : sameObj = true → b = c)
    (hp : samePtr = true → b.getType = c.getType → b.mem = c.mem ∧ b.addr = c.addr ∧ b.type = c.type) :
    ∃ r, b.eq sameObj samePtr c = .ok r ∧ (r = true ↔ b.value = c.value) := by
  obtain ⟨v, h1⟩ := hb.shows
  obtain ⟨w, h2⟩ := hc.shows
  obtain ⟨r, h3, h4⟩ := Buf.eq_ok h1 h2 ho hp
  refine ⟨r, h3, h4.trans ?_⟩
  rw [h1.value, h2.value]
  exact ⟨fun h => by rw [h], fun h => by injection h⟩

/-- With parsed JSON involved, as said at C43, equal values can compare unequal; but what compares equal holds the same
value. -/
theorem C22_equal_implies_same_value {signed exact : Bool} {b c : Buf} (hb : Obtained signed exact b)
    (hc : Obtained signed exact c) {sameObj samePtr : Bool} (ho : sameObj = true → b = c)
    (hp : samePtr = true → b.getType = c.getType → b.mem = c.mem ∧ b.addr = c.addr ∧ b.type = c.type) :
    ∃ r, b.eq sameObj samePtr c = .ok r ∧ (r = true → b.value = c.value) := by
  obtain ⟨v, h1⟩ := hb.shows
  obtain ⟨w, h2⟩ := hc.shows
  obtain ⟨r, h3, h4, _⟩ := Buf.eq_image h1 h2 ho hp
  exact ⟨r, h3, fun h => by rw [h1.value, h2.value, h4 h]⟩

/-- Finalizing preserves inequality and equality exactly: finalized objects are equal if and only if the
dynamic objects they were made from are the same. -/
theorem C22_equal_iff_same_source {v w : Val} {m n : Bytes} (hv : v.WF) (hw : w.WF) (h : finalize v = .ok m)
    (h' : finalize w = .ok n) :
    ∃ r, (Buf.ofBytes m).eq false false (Buf.ofBytes n) = .ok r ∧ (r = true ↔ v = w) :=
  Buf.eq_ok (shows_root hv h) (shows_root hw h') (by simp) (by simp)

/-! Concrete cases. -/

/-- `{"a": n, "b": [null, "x"]}`. -/
def eqBufSample (n : Nat) : Val := .obj [([97], .int (BitVec.ofNat 64 n)), ([98], .arr [.null, .str [120]])]

example : (do
    let m ← (finalize (eqBufSample 1)).toOption
    let n ← (finalize (eqBufSample 2)).toOption
    let o ← (finalize (eqBufSample 1)).toOption
    some ((Buf.ofBytes m).eq false false (Buf.ofBytes n), (Buf.ofBytes m).eq false false (Buf.ofBytes o))) =
    some (.ok false, .ok true) := by decide +kernel
/-- An integer of two bytes against one of four. -/
example : (do
    let m ← (finalize (eqBufSample 5)).toOption
    let n ← (finalize (eqBufSample 65541)).toOption
    let x ← ((Buf.ofBytes m).get true [97]).toOption
    let y ← ((Buf.ofBytes n).get true [97]).toOption
    some (x.eq false false y, x.eq false false x)) = some (.ok false, .ok true) := by decide +kernel

end Dart.Props
