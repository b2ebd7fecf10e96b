import Verif.Model.Iter
import Verif.Lemmas.EqualBuf

/-
Iterators over finalized aggregates.
-/
namespace Dart

variable {z : Bool}
open Spec

theorem LLIter.eq_iff {a b : LLIter} : a.eq b = true ↔ a.base = b.base ∧ a.idx = b.idx := by
  simp [LLIter.eq]

/-- What an iterator into `b` at `p` sees at each position below `n`. -/
def Sees (z : Bool) (b : Buf) (p : Nat) (l : Loader) (vs : List Val) : Prop :=
  ∀ i (h : i < vs.length), ∃ x, (BufIter.mk b ⟨i, p, l⟩).deref = .ok x ∧ Shows z x vs[i]

theorem Shows.begin_obj {b : Buf} {fs : List (Bytes × Val)} (h : Shows z b (.obj fs)) :
    ∃ p, b.begin = .ok ⟨b, 0, p, .value⟩ ∧ b.end = .ok ⟨b, fs.length, p, .value⟩ ∧
      b.keyBegin = .ok ⟨b, 0, p, .key⟩ ∧ b.keyEnd = .ok ⟨b, fs.length, p, .key⟩ ∧ b.object = .ok p ∧
      At z b.mem p (.obj fs) ∧
      Sees z b p .value (fs.map fun f => f.2) ∧ Sees z b p .key (fs.map fun f => .str f.1) ∧ fs.length < 2 ^ 29 := by
  obtain ⟨p, h1, h2, h3⟩ := h.obj
  obtain ⟨h4, _, h5⟩ := h3.obj_parts
  refine ⟨p, by simp [Buf.begin, h1, h2, Res.ofRead, Res.bind], by simp [Buf.end, h1, h2, Res.ofRead, Res.bind, h4],
    by simp [Buf.keyBegin, Buf.object, h1, h2, Res.ofRead, Res.bind],
    by simp [Buf.keyEnd, Buf.object, h1, h2, Res.ofRead, Res.bind, h4],
    by simp [Buf.object, h1, h2, Res.ofRead], h3, ?_, ?_, h5⟩
  · intro i hi
    have hi' : i < fs.length := by simpa using hi
    obtain ⟨kp, vp, r1, r2, r2', r3, r4, r5, r6, r7⟩ := h3.obj_field i hi'
    refine ⟨b.sub (fs[i].2.rawType.forTable, some vp), by
      simp [BufIter.deref, LLIter.deref, r6, Res.ofRead, Res.bind], ?_⟩
    simp only [List.getElem_map]
    exact shows_at r7
  · intro i hi
    have hi' : i < fs.length := by simpa using hi
    obtain ⟨kp, k1, k2, k3⟩ := h3.obj_key i hi'
    refine ⟨b.sub (.string, some kp), by simp [BufIter.deref, LLIter.deref, k1, Res.ofRead, Res.bind], ?_⟩
    simp only [List.getElem_map]
    rw [← k3]; exact shows_at k2

theorem Shows.begin_arr {b : Buf} {es : List Val} (h : Shows z b (.arr es)) :
    ∃ p, b.begin = .ok ⟨b, 0, p, .elem⟩ ∧ b.end = .ok ⟨b, es.length, p, .elem⟩ ∧
      At z b.mem p (.arr es) ∧ Sees z b p .elem es ∧ es.length < 2 ^ 29 := by
  obtain ⟨p, h1, h2, h3⟩ := h.arr
  obtain ⟨h4, _, h5⟩ := h3.arr_parts
  refine ⟨p, by simp [Buf.begin, h1, h2, Res.ofRead, Res.bind], by simp [Buf.end, h1, h2, Res.ofRead, Res.bind, h4],
    h3, ?_, h5⟩
  intro i hi
  obtain ⟨vp, r1, r2, r3⟩ := h3.arr_elem i hi
  exact ⟨b.sub (es[i].rawType.forTable, some vp), by
      simp [BufIter.deref, LLIter.deref, h4, hi, r2, Res.ofRead, Res.bind], shows_at r3⟩

theorem loop_ok {b : Buf} {p : Nat} {l : Loader} {vs : List Val} (hs : Sees z b p l vs) (hn : vs.length < 2 ^ 29)
    (l' : Loader) : ∀ (k i : Nat), i ≤ vs.length → vs.length - i = k →
      ∃ bs, (∀ fuel, k ≤ fuel → (BufIter.mk b ⟨i, p, l⟩).loop fuel ⟨b, vs.length, p, l'⟩ = some (.ok bs)) ∧
        bs.map Buf.value = (vs.drop i).map some := by
  intro k
  induction k with
  | zero =>
    intro i hi h0
    have : i = vs.length := by omega
    subst this
    refine ⟨[], ?_, by simp⟩
    intro fuel _
    cases fuel <;> simp [BufIter.loop, BufIter.eq, LLIter.eq]
  | succ k ih =>
    intro i hi h0
    obtain ⟨x, hx, hv⟩ := hs i (by omega)
    obtain ⟨bs, h1, h2⟩ := ih (i + 1) (by omega) (by omega)
    refine ⟨x :: bs, ?_, ?_⟩
    · intro fuel hf
      obtain ⟨fuel, rfl⟩ : ∃ f, fuel = f + 1 := ⟨fuel - 1, by omega⟩
      have hne : ¬ i = vs.length := by omega
      have hm : (i + 1) % 2 ^ 64 = i + 1 := Nat.mod_eq_of_lt (by omega)
      have h1' := h1 fuel (by omega)
      simp only [BufIter.loop, BufIter.eq, LLIter.eq, BufIter.incr, LLIter.incr, hm, h1', hx]
      simp [hne, Res.bind]
    · rw [List.drop_eq_getElem_cons (by omega : i < vs.length)]
      simp only [List.map_cons, h2, hv.value]

theorem rloop_ok {b : Buf} {p : Nat} {l : Loader} {vs : List Val} (hs : Sees z b p l vs) (hn : vs.length < 2 ^ 29)
    (l' : Loader) : ∀ (i : Nat), i ≤ vs.length →
      ∃ bs, (∀ fuel, i ≤ fuel → (BufIter.mk b ⟨i, p, l⟩).rloop fuel ⟨b, 0, p, l'⟩ = some (.ok bs)) ∧
        bs.map Buf.value = (vs.take i).reverse.map some := by
  intro i
  induction i with
  | zero =>
    intro hi
    refine ⟨[], ?_, by simp⟩
    intro fuel _
    cases fuel <;> simp [BufIter.rloop, BufIter.eq, LLIter.eq]
  | succ i ih =>
    intro hi
    obtain ⟨x, hx, hv⟩ := hs i (by omega)
    obtain ⟨bs, h1, h2⟩ := ih (by omega)
    refine ⟨x :: bs, ?_, ?_⟩
    · intro fuel hf
      obtain ⟨fuel, rfl⟩ : ∃ f, fuel = f + 1 := ⟨fuel - 1, by omega⟩
      have hm : (i + 1 + (2 ^ 64 - 1)) % 2 ^ 64 = i := by omega
      have h1' := h1 fuel (by omega)
      simp only [BufIter.rloop, BufIter.eq, LLIter.eq, BufIter.rderef, BufIter.decr, LLIter.decr, hm, h1', hx]
      simp [Res.bind]
    · rw [List.take_succ_eq_append_getElem (by omega : i < vs.length)]
      simp only [List.reverse_append, List.reverse_singleton, List.singleton_append, List.map_cons, h2, hv.value]

theorem searchable_of_plain {signed : Bool} {fs : List (Bytes × Val)} (hp : ∀ f ∈ fs, PlainKey signed f.1)
    (key : Bytes) : Searchable signed fs key :=
  ⟨fun f hf => (hp f hf).1, fun hs f hf _ => (hp f hf).2.2 hs, fun _ f hf => (hp f hf).2.1⟩

theorem Shows.find {signed : Bool} {b : Buf} {fs : List (Bytes × Val)} (_ : Shows z b (.obj fs)) (key : Bytes)
    {p : Nat} (hp : b.object = .ok p) (hat : At z b.mem p (.obj fs)) (junk : Nat) :
    (b.find signed junk key = .ok ⟨b, junk, p, .value⟩ ∧ b.findKey signed junk key = .ok ⟨b, junk, p, .key⟩ ∧
      ((∀ f ∈ fs, PlainKey signed f.1) → ∀ f ∈ fs, f.1 ≠ key)) ∨
    (∃ (i : Nat) (hi : i < fs.length), fs[i].1 = key ∧ b.find signed junk key = .ok ⟨b, i, p, .value⟩ ∧
      b.findKey signed junk key = .ok ⟨b, i, p, .key⟩) := by
  rcases search_cases (signed := signed) hat key with ⟨g1, _⟩ | ⟨i, hi, t, kp, vp, e, _, g1, _⟩
  · refine .inl ⟨by simp [Buf.find, hp, Res.bind, searchIdx, g1, Res.ofRead],
      by simp [Buf.findKey, hp, Res.bind, searchIdx, g1, Res.ofRead], ?_⟩
    intro hpl f hf e
    obtain ⟨i, hi, e'⟩ := List.mem_iff_getElem.1 hf
    obtain ⟨kp, hk⟩ := getKey_complete (signed := signed) hat i hi (searchable_of_plain hpl _)
    rw [e', e, g1] at hk
    cases hk
  · exact .inr ⟨i, hi, e, by simp [Buf.find, hp, Res.bind, searchIdx, g1, Res.ofRead],
      by simp [Buf.findKey, hp, Res.bind, searchIdx, g1, Res.ofRead]⟩

end Dart
