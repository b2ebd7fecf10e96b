import Verif.Lemmas.ViewMem

/-
C78: the library's own `string_view` as a pointer and a length. `m` is the memory, variables start default-constructed. The
specification (`Spec/ViewMem.lean`) runs the same statements on plain strings.
-/
namespace Dart.Props
open Spec
open SView hiding compare

/-- Programs that keep to the preconditions never read outside of what they may, all their answers are those of plain strings, and
at the end all views show the strings they should. -/
theorem C78_programs {m : Bytes} (hm : m.length < 2 ^ 64) (ops : List VOp) (hl : VLegalRun m (fun _ => []) ops) :
    ∃ f, vrun m (fun _ => .null) ops = some (f, (vspecRun m (fun _ => []) ops).2) ∧
      ∀ x, (f x).toString m = .ok ((vspecRun m (fun _ => []) ops).1 x) ∧ (f x).size = ((vspecRun m (fun _ => []) ops).1 x).length := by
  obtain ⟨f, h1, h2⟩ := vrun_ok hm ops (fun _ => Rep.null m) hl
  refine ⟨f, h1, fun x => ⟨?_, (h2 x).len⟩⟩
  unfold Vw.toString
  rw [(h2 x).len, (h2 x).read (by omega), part_whole]

/-- C78 (partial): printing a view (to a stream) prints exactly its characters if, and only if, there is no NUL among them and the
memory behind them holds one. Missing: that it always does, which is false, see below. -/
theorem C78_stream_partial {m : Bytes} {p n : Nat} (h : p + n ≤ m.length) :
    (Vw.range p n).stream m = .ok (part m p n) ↔ (0 ∉ part m p n ∧ m[p + n]? = some 0) := by
  have hl := part_length h
  show Res.ofRead (cstrAt m p) = _ ↔ _
  have hsplit : m.drop p = part m p n ++ m.drop (p + n) := by
    unfold part
    rw [← List.drop_drop, List.take_append_drop]
  constructor
  · intro hs
    have hc : cstrAt m p = some (part m p n) := by
      cases hc : cstrAt m p with
      | none => rw [hc] at hs; cases hs
      | some r => rw [hc] at hs; cases hs; rfl
    unfold cstrAt at hc
    simp only at hc
    split at hc
    · rename_i hlt
      simp only [Option.some.injEq] at hc
      have h0 : 0 ∉ part m p n := by
        rw [← hc]
        intro hz
        have := List.all_takeWhile (p := (· != 0)) (l := m.drop p)
        have := List.all_eq_true.1 this 0 hz
        simp at this
      refine ⟨h0, ?_⟩
      rw [hc, hl] at hlt
      rw [hsplit, List.takeWhile_append_of_pos (fun a ha => by simp only [bne_iff_ne]; rintro rfl; exact h0 ha)] at hc
      have hnil : (m.drop (p + n)).takeWhile (· != 0) = [] := by simpa using hc
      rw [List.drop_eq_getElem_cons hlt, List.takeWhile_cons] at hnil
      split at hnil
      · cases hnil
      · rename_i hne
        rw [List.getElem?_eq_getElem hlt]
        simpa using hne
    · cases hc
  · rintro ⟨h0, hz⟩
    obtain ⟨hlt, hz'⟩ := List.getElem?_eq_some_iff.1 hz
    rw [cstrAt_some (Nat.le_add_right p n) hz, untilNul, hsplit,
      List.takeWhile_append_of_pos (fun a ha => by simp only [bne_iff_ne]; rintro rfl; exact h0 ha), List.drop_eq_getElem_cons hlt, hz']
    simp [Res.ofRead]

/-- C78, negation: printing the first part of a C string prints all of it. -/
theorem C78_stream_beyond (s t : Bytes) (hs : 0 ∉ s) (ht : 0 ∉ t) :
    (Vw.range 0 s.length).toString (s ++ t ++ [0]) = .ok s ∧ (Vw.range 0 s.length).stream (s ++ t ++ [0]) = .ok (s ++ t) := by
  have hr : Rep (s ++ t ++ [0]) (.range 0 s.length) s := by
    have := Rep.range (m := s ++ t ++ [0]) (p := 0) (n := s.length) (by simp only [List.length_append]; omega)
    rwa [show part (s ++ t ++ [0]) 0 s.length = s by simp [part]] at this
  refine ⟨by simpa [Vw.toString, Vw.range, part] using hr.read (o := 0) (n := s.length) (by omega), ?_⟩
  have hp : part (s ++ t ++ [0]) 0 (s ++ t).length = s ++ t := by rw [part_zero, List.take_left]
  have := (C78_stream_partial (m := s ++ t ++ [0]) (p := 0) (n := (s ++ t).length) (by simp)).2
    ⟨by rw [hp]; simp [hs, ht], by simp⟩
  rw [hp] at this
  exact this

/-- C78, negation: a NUL among the characters ends what is printed. -/
theorem C78_stream_cut (s t : Bytes) (hs : 0 ∉ s) :
    (Vw.range 0 (s ++ 0 :: t).length).toString (s ++ 0 :: t) = .ok (s ++ 0 :: t) ∧
    (Vw.range 0 (s ++ 0 :: t).length).stream (s ++ 0 :: t) = .ok s := by
  have hr : Rep (s ++ 0 :: t) (.range 0 (s ++ 0 :: t).length) (s ++ 0 :: t) := by
    have := Rep.range (m := s ++ 0 :: t) (p := 0) (n := (s ++ 0 :: t).length) (by omega)
    rwa [part_whole] at this
  refine ⟨by rw [Vw.toString, hr.len, hr.read (by omega), part_whole], ?_⟩
  have := (C78_stream_partial (m := s ++ 0 :: t) (p := 0) (n := s.length) (by simp)).2 ⟨by simpa [part] using hs, by simp⟩
  simpa [part, Vw.stream, Vw.range] using this

/-- C78, negation: printing a default-constructed view, or one of memory with no NUL behind it, is undefined. -/
theorem C78_stream_undefined (m : Bytes) : Vw.null.stream m = .ub ∧ (0 ∉ m → (Vw.range 0 m.length).stream m = .ub) := by
  refine ⟨rfl, fun h => ?_⟩
  show Res.ofRead (cstrAt m 0) = _
  have : m.takeWhile (· != 0) = m := by
    have := List.takeWhile_append_of_pos (p := (· != 0)) (l₁ := m) (l₂ := []) (fun a ha => by simp only [bne_iff_ne]; rintro rfl; exact h ha)
    simpa using this
  simp [cstrAt, this, Res.ofRead]

/-- C78, negation: comparing from an offset past the end throws if the other side is a view, as the standard demands; if it is a C
string the exception cannot leave the function, and the program ends. -/
theorem C78_compare_ends (m : Bytes) (v w : Vw) (offset count p : Nat) (h : v.size < offset) :
    v.compareAt m offset count w = .throw .outOfRange ∧ v.compareCstr m offset count p = .ub := by
  have : v.substr offset count = .throw .outOfRange := by
    unfold Vw.substr
    exact if_pos h
  simp only [Vw.compareAt, Vw.compareCstr, this, Res.bind, noexcept, and_self]

/-! Concrete cases: memory `"hello, world\0x"`. -/

/-- The memory. -/
def greetingMemory : Bytes := "hello, world".toUTF8.toList ++ [0, 120]

/-- The whole C string, its second word, the first with a letter taken off either end, an exception caught, an empty view. -/
def greetingProgram : List VOp :=
  [.cstr 0 0, .size 0, .substr 1 0 7 100, .toString 1, .substr 2 0 0 5, .removePrefix 2 1, .removeSuffix 2 1, .forward 2, .backward 2,
   .front 2, .back 2, .substr 3 0 13 1, .at 1 5, .idx 1 4, .compare 1 2, .swap 1 2, .compare 1 2, .copy 2 2 1, .size 3, .toString 3,
   .substr 3 0 12 4, .compareAt 0 7 5 2, .compareCstr 0 7 5 7, .compareAt 3 1 1 0, .range 4 13 1, .toString 4]

/-- Its answers. -/
def greetingAnswers : List VAns :=
  [.none, .num 12, .none, .chars "world".toUTF8.toList, .none, .none, .none, .chars "ell".toUTF8.toList, .chars "lle".toUTF8.toList,
   .char 101, .char 108, .threw .outOfRange, .threw .outOfRange, .char 100, .num 1, .none, .num (-1), .chars "or".toUTF8.toList, .num 0,
   .chars [], .none, .num 0, .num 0, .threw .outOfRange, .none, .chars [120]]

instance decVLegal (m : Bytes) (e : Vars Bytes) (op : VOp) : Decidable (VLegal m e op) :=
  have (p : Nat) : Decidable (∃ q, p ≤ q ∧ m[q]? = some 0) :=
    if h : ∃ q ∈ List.range m.length, p ≤ q ∧ m[q]? = some 0 then isTrue (let ⟨q, _, h⟩ := h; ⟨q, h⟩)
    else isFalse fun ⟨q, h1, h2⟩ => h ⟨q, List.mem_range.2 (List.getElem?_eq_some_iff.1 h2).1, h1, h2⟩
  by cases op <;> simp only [VLegal] <;> infer_instance

instance decVLegalRun (m : Bytes) : ∀ (e : Vars Bytes) (ops : List VOp), Decidable (VLegalRun m e ops)
  | _, [] => isTrue trivial
  | e, op :: ops => have := decVLegalRun m (vspec m e op).1 ops; inferInstanceAs (Decidable (_ ∧ _))

example : VLegalRun greetingMemory (fun _ => []) greetingProgram ∧ (vspecRun greetingMemory (fun _ => []) greetingProgram).2 = greetingAnswers ∧
    (vrun greetingMemory (fun _ => .null) greetingProgram).map (·.2) = some greetingAnswers := by
  decide +kernel

example : (Vw.range 7 5).stream greetingMemory = .ok "world".toUTF8.toList ∧ (Vw.range 0 5).stream greetingMemory = .ok "hello, world".toUTF8.toList ∧
    (Vw.range 13 1).stream greetingMemory = .ub := by
  decide +kernel

end Dart.Props
