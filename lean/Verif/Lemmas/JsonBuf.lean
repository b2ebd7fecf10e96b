import Verif.Lemmas.Packet
import Verif.Lemmas.Json
import Verif.Lemmas.Laws

/-
Serializing finalized values, helpers.
-/
namespace Dart

variable {z : Bool}
open Spec

theorem collect_map {α : Type} {f : Nat → Res α} {g : Nat → α} : ∀ (n : Nat), (∀ i, i < n → f i = .ok (g i)) →
    Res.collect f n = .ok ((List.range n).map g)
  | 0, _ => rfl
  | n + 1, h => by
    rw [Res.collect, collect_map n (fun i hi => h i (by omega)), h n (by omega), List.range_succ]
    simp [Res.bind]

theorem range_map_getD {α β : Type} (l : List α) (d : α) (g : α → β) :
    (List.range l.length).map (fun i => g (l[i]?.getD d)) = l.map g := by
  apply List.ext_getElem
  · simp
  · intro i h1 h2
    simp only [List.length_map, List.length_range] at h1 h2
    simp [h2]

theorem serializeFields_eq : ∀ fs : List (Bytes × Val),
    serializeFields fs = (fs.map fun f => Event.key (cut32 f.1) :: f.2.serialize).flatten
  | [] => rfl
  | (k, v) :: fs => by simp [serializeFields, serializeFields_eq fs]

theorem serializeElems_eq : ∀ es : List Val, serializeElems es = (es.map Val.serialize).flatten
  | [] => rfl
  | v :: es => by simp [serializeElems, serializeElems_eq es]

theorem sizeVal_field_lt {fs : List (Bytes × Val)} {f : Bytes × Val} (h : f ∈ fs) : sizeVal f.2 < sizeVal (.obj fs) := by
  obtain ⟨a, b, rfl⟩ := List.append_of_mem h
  obtain ⟨k, v⟩ := f
  have := obj_bounds a b k v
  show sizeVal v < _
  omega

theorem sizeVal_elem_lt {es : List Val} {v : Val} (h : v ∈ es) : sizeVal v < sizeVal (.arr es) := by
  obtain ⟨a, b, rfl⟩ := List.append_of_mem h
  have := arr_bounds a b v
  omega

theorem Shows.serialize : ∀ (v : Val) (fuel : Nat) (b : Buf), Shows z b v → sizeVal v < fuel →
    b.serialize fuel = .ok v.serialize := by
  apply Val.ind
  · intro fuel b h hf
    obtain ⟨fuel, rfl⟩ : ∃ f, fuel = f + 1 := ⟨fuel - 1, by omega⟩
    simp only [Buf.serialize, h.getType, Val.ty, Val.serialize]
  · intro x fuel b h hf
    obtain ⟨fuel, rfl⟩ : ∃ f, fuel = f + 1 := ⟨fuel - 1, by omega⟩
    simp only [Buf.serialize, h.getType, Val.ty, h.boolean (by simp) (by simp), Val.boolean, Res.bind, Val.serialize]
  · intro x fuel b h hf
    obtain ⟨fuel, rfl⟩ : ∃ f, fuel = f + 1 := ⟨fuel - 1, by omega⟩
    simp only [Buf.serialize, h.getType, Val.ty, h.integer, Val.integer, Res.bind, Val.serialize]
  · intro x fuel b h hf
    obtain ⟨fuel, rfl⟩ : ∃ f, fuel = f + 1 := ⟨fuel - 1, by omega⟩
    simp only [Buf.serialize, h.getType, Val.ty, h.decimal, Val.decimal, Res.bind, Val.serialize]
  · intro x fuel b h hf
    obtain ⟨fuel, rfl⟩ : ∃ f, fuel = f + 1 := ⟨fuel - 1, by omega⟩
    simp only [Buf.serialize, h.getType, Val.ty, h.strv', Val.strv, Res.bind, Val.serialize]
  · intro es ih fuel b h hf
    obtain ⟨fuel, rfl⟩ : ∃ f, fuel = f + 1 := ⟨fuel - 1, by omega⟩
    simp only [Buf.serialize, h.getType, Val.ty, h.size_arr, Res.bind]
    rw [collect_map (g := fun i => (es[i]?.getD .null).serialize) es.length ?_]
    · simp only [Val.serialize, range_map_getD es .null Val.serialize, serializeElems_eq]
    · intro i hi
      obtain ⟨b', h1, h2⟩ := h.getIdx i
      have : b.valueAt i = .ok b' := by
        obtain ⟨p, ht, _⟩ := h.arr
        unfold Buf.valueAt; rw [ht]; exact h1
      rw [this]
      simp only [List.getElem?_eq_getElem hi, Option.getD_some] at h2 ⊢
      have hlt := sizeVal_elem_lt (List.getElem_mem hi)
      exact ih _ (List.getElem_mem hi) fuel b' h2 (by omega)
  · intro fs ih fuel b h hf
    obtain ⟨fuel, rfl⟩ : ∃ f, fuel = f + 1 := ⟨fuel - 1, by omega⟩
    simp only [Buf.serialize, h.getType, Val.ty, h.size_obj, Res.bind]
    rw [collect_map (g := fun i => Event.key (cut32 (fs[i]?.getD ([], .null)).1) :: (fs[i]?.getD ([], .null)).2.serialize)
      fs.length ?_]
    · simp only [Val.serialize, range_map_getD fs ([], .null) (fun f => Event.key (cut32 f.1) :: f.2.serialize),
        serializeFields_eq]
    · intro i hi
      obtain ⟨kb, h1, h2⟩ := h.keyAt_obj i hi
      obtain ⟨vb, h3, h4⟩ := h.valueAt_obj i hi
      simp only [h1, h3, h2.strv, List.getElem?_eq_getElem hi, Option.getD_some]
      have hlt := sizeVal_field_lt (List.getElem_mem hi)
      rw [ih _ (List.getElem_mem hi) fuel vb h4 (by omega)]

theorem Shows.sizeVal_le {b : Buf} {v : Val} (h : Shows z b v) : sizeVal v ≤ b.mem.length := by
  rcases h with ⟨_, rfl⟩ | ⟨p, _, _, h⟩
  · simp [sizeVal]
  · have := h.size_le; omega

end Dart
