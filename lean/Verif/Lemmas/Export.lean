import Verif.Lemmas.Packet
import Verif.Lemmas.Own

/-
Parts of a finalized object as bytes.
-/
namespace Dart

variable {z : Bool}

/-- What holds of a value and passes from aggregates to their parts holds of every value a client can get
at. -/
theorem Derived.shows_closed {P : Val → Prop} (hn : P .null) (hk : ∀ k, P (.str k))
    (ho : ∀ {fs}, P (.obj fs) → ∀ (i : Nat) (hi : i < fs.length), P fs[i].2)
    (ha : ∀ {es}, P (.arr es) → ∀ (i : Nat) (hi : i < es.length), P es[i])
    {signed : Bool} {root b : Buf} {v : Val} (hr : Shows z root v) (hv : P v) (h : Derived signed root b) :
    ∃ w, Shows z b w ∧ P w := by
  have hd : ∀ {es : List Val}, P (.arr es) → ∀ i : Nat, P (es[i]?.getD .null) := by
    intro es h i
    by_cases hi : i < es.length
    · rw [List.getElem?_eq_getElem hi]; exact ha h i hi
    · rw [List.getElem?_eq_none (by omega)]; exact hn
  induction h with
  | root => exact ⟨v, hr, hv⟩
  | get _ hb ih =>
    obtain ⟨w, hw, hp⟩ := ih
    rcases hw.object_call with ⟨fs, p, rfl, _, hat⟩ | ⟨_, h1⟩
    · rcases hw.get (signed := signed) _ with ⟨_, _, b', g, hs⟩ | ⟨i, hi, _, _, b', g, _, hs⟩
      · rw [hb] at g; cases g; exact ⟨_, hs, hn⟩
      · rw [hb] at g; cases g; exact ⟨_, hs, ho hp i hi⟩
    · rw [Buf.get, h1] at hb; cases hb
  | «at» _ hb ih =>
    obtain ⟨w, hw, hp⟩ := ih
    rcases hw.object_call with ⟨fs, p, rfl, _, hat⟩ | ⟨_, h1⟩
    · rcases hw.get (signed := signed) _ with ⟨_, g, _⟩ | ⟨i, hi, _, _, b', _, g, hs⟩
      · rw [hb] at g; cases g
      · rw [hb] at g; cases g; exact ⟨_, hs, ho hp i hi⟩
    · rw [Buf.at, h1] at hb; cases hb
  | getIdx _ hb ih =>
    obtain ⟨w, hw, hp⟩ := ih
    rcases hw.array_call with ⟨es, p, rfl, _, hat⟩ | ⟨_, h1⟩
    · obtain ⟨b', g, hs⟩ := hw.getIdx _
      rw [hb] at g; cases g
      exact ⟨_, hs, hd hp _⟩
    · rw [Buf.getIdx, h1] at hb; cases hb
  | @atIdx _ _ i _ hb ih =>
    obtain ⟨w, hw, hp⟩ := ih
    rcases hw.array_call with ⟨es, p, rfl, _, hat⟩ | ⟨_, h1⟩
    · by_cases hi : i < es.length
      · obtain ⟨b', g, g', hs⟩ := hw.atIdx i hi
        rw [hb] at g; cases g
        exact ⟨_, hs, ha hp i hi⟩
      · rw [hw.atIdx_throw i (by omega)] at hb; cases hb
    · rw [Buf.atIdx, h1] at hb; cases hb
  | front _ hb ih =>
    obtain ⟨w, hw, hp⟩ := ih
    rcases hw.array_call with ⟨es, p, rfl, _, hat⟩ | ⟨_, h1⟩
    · obtain ⟨b', g, hs⟩ := hw.front
      rw [hb] at g; cases g
      exact ⟨_, hs, by first | exact hd hp _ | (cases es <;> first | exact hn | exact ha hp 0 (by simp))⟩
    · rw [Buf.front, h1] at hb; cases hb
  | back _ hb ih =>
    obtain ⟨w, hw, hp⟩ := ih
    rcases hw.array_call with ⟨es, p, rfl, _, hat⟩ | ⟨_, h1⟩
    · obtain ⟨b', g, hs⟩ := hw.back
      rw [hb] at g; cases g
      exact ⟨_, hs, by rw [List.getLast?_eq_getElem?]; exact hd hp _⟩
    · rw [Buf.back, h1] at hb; cases hb
  | values _ hb hmem ih =>
    obtain ⟨w, hw, hp⟩ := ih
    obtain ⟨i, hi, rfl⟩ := List.mem_iff_getElem.1 hmem
    rcases hw.values_inv hb with ⟨fs, rfl⟩ | ⟨es, rfl⟩
    · obtain ⟨bs, g, hl, hs⟩ := hw.values_obj
      rw [hb] at g; cases g
      exact ⟨_, hs i hi (by omega), ho hp i (by omega)⟩
    · obtain ⟨bs, g, hl, hs⟩ := hw.values_arr
      rw [hb] at g; cases g
      exact ⟨_, hs i hi (by omega), ha hp i (by omega)⟩
  | keys _ hb hmem ih =>
    obtain ⟨w, hw, hp⟩ := ih
    obtain ⟨i, hi, rfl⟩ := List.mem_iff_getElem.1 hmem
    obtain ⟨fs, rfl⟩ := hw.keys_inv hb
    obtain ⟨bs, g, hl, hs⟩ := hw.keys
    rw [hb] at g; cases g
    exact ⟨_, hs i hi (by omega), hk _⟩

theorem fieldsUB_some : ∀ {fs : List (Bytes × Val)}, (fieldsUB fs).isSome → ∀ f ∈ fs, (upperBound f.2).isSome
  | (k, v) :: fs, h, f, hf => by
    simp only [fieldsUB, Option.bind_eq_bind, Option.isSome_iff_exists, Option.bind_eq_some_iff] at h
    obtain ⟨_, a, ha, b, hb, _⟩ := h
    rcases List.mem_cons.1 hf with rfl | hf
    · simp [ha]
    · exact fieldsUB_some (by simp [hb]) f hf

theorem elemsUB_some : ∀ {es : List Val}, (elemsUB es).isSome → ∀ v ∈ es, (upperBound v).isSome
  | v :: es, h, f, hf => by
    simp only [elemsUB, Option.bind_eq_bind, Option.isSome_iff_exists, Option.bind_eq_some_iff] at h
    obtain ⟨_, a, ha, b, hb, _⟩ := h
    rcases List.mem_cons.1 hf with rfl | hf
    · simp [ha]
    · exact elemsUB_some (by simp [hb]) f hf

/-- Every part of what can be finalized has a bound on its size. -/
theorem Derived.bounded {signed : Bool} {v : Val} {m : Bytes} (hw : v.WF) (h : finalize v = .ok m) {b : Buf}
    (hb : Derived signed (Buf.ofBytes m) b) : ∃ w, Shows true b w ∧ (upperBound w).isSome := by
  refine Derived.shows_closed (P := fun w => (upperBound w).isSome) (by simp [upperBound]) (by simp [upperBound]) ?_ ?_
    (shows_root hw h) ?_ hb
  · intro fs hp i hi
    refine fieldsUB_some (fs := fs) ?_ _ (List.getElem_mem hi)
    simp only [upperBound, Option.bind_eq_bind, Option.isSome_iff_exists, Option.bind_eq_some_iff] at hp
    obtain ⟨_, a, ha, _⟩ := hp
    simp [ha]
  · intro es hp i hi
    refine elemsUB_some (es := es) ?_ _ (List.getElem_mem hi)
    simp only [upperBound, Option.bind_eq_bind, Option.isSome_iff_exists, Option.bind_eq_some_iff] at hp
    obtain ⟨_, a, ha, _⟩ := hp
    simp [ha]
  · obtain ⟨_, _, _, hu, _⟩ := finalize_eq_ok hw h
    simp [hu]

/-- An object anywhere in a finalized one: its bytes are those of finalizing it alone. -/
theorem Derived.exported {signed : Bool} {v : Val} {m : Bytes} (hw : v.WF) (h : finalize v = .ok m) {b : Buf}
    (hb : Derived signed (Buf.ofBytes m) b) {fs : List (Bytes × Val)} (hv : b.value = some (.obj fs)) :
    ∃ g m', b.getBytes = .ok g ∧ finalize (.obj fs) = .ok m' ∧ getBytes m' = some g ∧
      (Buf.ofBytes g).value = some (.obj fs) ∧ (Buf.ofBytes g).getBytes = .ok g := by
  obtain ⟨w, hs, hu⟩ := hb.bounded hw h
  rw [hs.value] at hv
  cases hv
  obtain ⟨g, hg, hi⟩ := hs.getBytes
  obtain ⟨p, h1, h2, h3⟩ := hs.obj
  obtain ⟨n, hn⟩ := Option.isSome_iff_exists.1 hu
  obtain ⟨hf, _, hfit⟩ := finalize_ok h3.wf hn
  have he : g = enc (.obj fs) := hi.2.2 rfl
  subst he
  have hat : At true (enc (.obj fs)) 0 (.obj fs) :=
    At.of_bytes (hasBytes_iff.2 ⟨[], [], by simp, rfl⟩) (Nat.dvd_zero _) h3.wf hfit
  have hsh : Shows true (Buf.ofBytes (enc (.obj fs))) (.obj fs) := .inr ⟨0, rfl, rfl, hat⟩
  obtain ⟨g', hg', hi'⟩ := hsh.getBytes
  refine ⟨_, _, hg, hf, ?_, hsh.value, by rw [hg', hi'.2.2 rfl]⟩
  simp only [Fits] at hfit
  exact getBytes_enc fs hfit.1 _

end Dart
