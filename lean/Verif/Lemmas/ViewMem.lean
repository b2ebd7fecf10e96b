import Verif.Spec.ViewMem
import Verif.Lemmas.StringView

/-
Helper lemmas: a view shows a string of memory.
-/
namespace Dart.SView
open Spec

/-- The view shows the string. -/
structure Rep (m : Bytes) (v : Vw) (s : Bytes) : Prop where
  len : v.len = s.length
  mem : s = [] ∨ ∃ p, v.base = some p ∧ p + s.length ≤ m.length ∧ part m p s.length = s

theorem part_part (s : Bytes) (p n o c : Nat) : part (part s p n) o c = part s (p + o) (min c (n - o)) := by
  unfold part
  rw [List.drop_take, List.take_take, List.drop_drop]

theorem part_length {s : Bytes} {p n : Nat} (h : p + n ≤ s.length) : (part s p n).length = n := by
  unfold part
  rw [List.length_take, List.length_drop]
  omega

theorem part_clip (s : Bytes) (o c : Nat) : part s o (min c (s.length - o)) = part s o c := by
  unfold part
  rw [← List.length_drop, List.take_eq_take_iff]
  omega

theorem Rep.read {m : Bytes} {v : Vw} {s : Bytes} (h : Rep m v s) {o n : Nat} (hn : o + n ≤ s.length) :
    v.read m o n = .ok (part s o n) := by
  unfold Vw.read
  by_cases h0 : n = 0
  · rw [if_pos h0, h0]; simp [part]
  · rw [if_neg h0]
    rcases h.mem with rfl | ⟨p, h1, h2, h3⟩
    · simp at hn; omega
    · rw [h1]
      simp only [Option.bind_some, readBytes]
      rw [if_pos (by omega)]
      show Res.ok (part m (p + o) n) = _
      rw [← h3, part_part, Nat.min_eq_left (by omega)]

/-- A part of what a view shows. -/
theorem Rep.sub {m : Bytes} {v : Vw} {s : Bytes} (h : Rep m v s) {o n : Nat} (hn : o + n ≤ s.length) :
    Rep m ⟨v.base.map (· + o), n⟩ (part s o n) := by
  have hl := part_length hn
  refine ⟨hl.symm, ?_⟩
  rcases h.mem with rfl | ⟨p, h1, h2, h3⟩
  · simp [part]
  · right
    refine ⟨p + o, by rw [h1]; rfl, by omega, ?_⟩
    rw [hl]
    conv => rhs; rw [← h3, part_part, Nat.min_eq_left (by omega)]

theorem part_zero (s : Bytes) (n : Nat) : part s 0 n = s.take n := by simp [part]

theorem part_whole (s : Bytes) : part s 0 s.length = s := by simp [part]

theorem part_tail (s : Bytes) (o : Nat) : part s o (s.length - o) = s.drop o := by
  simp [part, ← List.length_drop]

theorem part_one {s : Bytes} {i : Nat} (h : i < s.length) : part s i 1 = [s[i]] := by
  unfold part
  rw [List.drop_eq_getElem_cons h]
  rfl

theorem Rep.idx {m : Bytes} {v : Vw} {s : Bytes} (h : Rep m v s) {i : Nat} (hi : i < s.length) : v.idx m i = .ok s[i] := by
  unfold Vw.idx
  rw [h.read (by omega), part_one hi]
  rfl

theorem Rep.null (m : Bytes) : Rep m Vw.null [] := ⟨rfl, .inl rfl⟩

theorem Rep.range {m : Bytes} {p n : Nat} (h : p + n ≤ m.length) : Rep m (Vw.range p n) (part m p n) := by
  have hl := part_length h
  exact ⟨hl.symm, .inr ⟨p, rfl, by omega, by rw [hl]⟩⟩

theorem takeWhile_prefix (s : Bytes) (f : UInt8 → Bool) : s.take (s.takeWhile f).length = s.takeWhile f := by
  induction s with
  | nil => rfl
  | cons a s ih =>
    by_cases h : f a
    · simp [List.takeWhile_cons, h, ih]
    · simp [List.takeWhile_cons, h]

theorem takeWhile_short : ∀ (s : Bytes) (i : Nat), s[i]? = some 0 → (s.takeWhile (· != 0)).length ≤ i
  | [], _, h => by simp at h
  | a :: s, 0, h => by
    simp only [List.getElem?_cons_zero, Option.some.injEq] at h
    subst h
    simp
  | a :: s, i + 1, h => by
    simp only [List.getElem?_cons_succ] at h
    have := takeWhile_short s i h
    rw [List.takeWhile_cons]
    split
    · simp only [List.length_cons]; omega
    · simp

theorem cstrAt_some {m : Bytes} {p q : Nat} (hp : p ≤ q) (hq : m[q]? = some 0) : cstrAt m p = some (untilNul (m.drop p)) := by
  unfold cstrAt untilNul
  have h1 := takeWhile_short (m.drop p) (q - p) (by rw [List.getElem?_drop, show p + (q - p) = q by omega]; exact hq)
  obtain ⟨h2, _⟩ := List.getElem?_eq_some_iff.1 hq
  simp only
  rw [if_pos (by omega)]

theorem Rep.cstr {m : Bytes} {p q : Nat} (hp : p ≤ q) (hq : m[q]? = some 0) :
    ∃ v, Vw.cstr m p = .ok v ∧ Rep m v (untilNul (m.drop p)) := by
  have h1 := takeWhile_short (m.drop p) (q - p) (by rw [List.getElem?_drop, show p + (q - p) = q by omega]; exact hq)
  obtain ⟨h2, _⟩ := List.getElem?_eq_some_iff.1 hq
  unfold Vw.cstr
  rw [cstrAt_some hp hq]
  refine ⟨_, rfl, rfl, .inr ⟨p, rfl, ?_, takeWhile_prefix _ _⟩⟩
  unfold untilNul
  omega

theorem traitsCompare_lex : ∀ (s t : Bytes),
    (let r := min s.length t.length
     let comp := traitsCompare (s.take r) (t.take r) r
     (if comp ≠ 0 then comp else if s.length < t.length then -1 else if s.length > t.length then 1 else 0)) = lexCompare s t
  | [], [] => by simp [traitsCompare, lexCompare]
  | [], b :: t => by simp [traitsCompare, lexCompare]
  | a :: s, [] => by simp [traitsCompare, lexCompare]
  | a :: s, b :: t => by
    have ih := traitsCompare_lex s t
    simp only [List.length_cons, Nat.succ_min_succ, List.take_succ_cons, traitsCompare, lexCompare] at ih ⊢
    by_cases h1 : a < b
    · have h1' : a.toNat < b.toNat := h1
      simp [h1, h1']
    · have h1' : ¬ a.toNat < b.toNat := h1
      by_cases h2 : b < a
      · have h2' : b.toNat < a.toNat := h2
        simp [h1, h2, h1', h2']
      · have h2' : ¬ b.toNat < a.toNat := h2
        rw [if_neg h1, if_neg h2, if_neg h1', if_neg h2', ← ih]
        simp only [Nat.add_lt_add_iff_right, gt_iff_lt]

theorem Rep.compare {m : Bytes} {v w : Vw} {s t : Bytes} (h : Rep m v s) (h' : Rep m w t) :
    Vw.compare m v w = .ok (lexCompare s t) := by
  unfold Vw.compare
  rw [h.len, h'.len]
  simp only
  rw [h.read (by omega), h'.read (by omega)]
  simp only [Res.bind, part_zero]
  rw [← traitsCompare_lex s t]

theorem Rep.substr {m : Bytes} {v : Vw} {s : Bytes} (h : Rep m v s) {o : Nat} (c : Nat) (ho : o ≤ s.length) :
    ∃ w, v.substr o c = .ok w ∧ Rep m w (part s o c) := by
  unfold Vw.substr
  rw [h.len, if_neg (by omega)]
  refine ⟨_, rfl, ?_⟩
  rw [← part_clip]
  exact h.sub (by omega)

theorem Rep.substr_out {m : Bytes} {v : Vw} {s : Bytes} (h : Rep m v s) {o : Nat} (c : Nat) (ho : ¬ o ≤ s.length) :
    v.substr o c = .throw .outOfRange := by
  unfold Vw.substr
  rw [h.len, if_pos (by omega)]

/-- All variables. -/
def Shows (m : Bytes) (e : Vars Vw) (e' : Vars Bytes) : Prop := ∀ x, Rep m (e x) (e' x)

theorem Shows.set {m : Bytes} {e : Vars Vw} {e' : Vars Bytes} (h : Shows m e e') {x : Nat} {v : Vw} {s : Bytes} (hv : Rep m v s) :
    Shows m (setVar e x v) (setVar e' x s) := by
  intro y
  unfold setVar
  split
  · exact hv
  · exact h y

theorem wrap_sub {a n : Nat} (ha : a < 2 ^ 64) (h : n ≤ a) : (a + (2 ^ 64 - n)) % 2 ^ 64 = a - n := by
  omega

theorem Rep.bound {m : Bytes} {v : Vw} {s : Bytes} (h : Rep m v s) (hm : m.length < 2 ^ 64) : s.length < 2 ^ 64 := by
  rcases h.mem with rfl | ⟨p, _, h2, _⟩
  · decide
  · omega

theorem vstep_ok {m : Bytes} (hm : m.length < 2 ^ 64) {e : Vars Vw} {e' : Vars Bytes} (h : Shows m e e') (op : VOp)
    (hl : VLegal m e' op) : ∃ f, vstep m e op = some (f, (vspec m e' op).2) ∧ Shows m f (vspec m e' op).1 := by
  cases op with
  | null x => exact ⟨_, rfl, h.set (.null m)⟩
  | range x p n => exact ⟨_, rfl, h.set (.range hl)⟩
  | cstr x p =>
    obtain ⟨q, hp, hq⟩ := hl
    obtain ⟨v, h1, h2⟩ := Rep.cstr hp hq
    refine ⟨_, ?_, h.set h2⟩
    simp only [vstep, h1]
    rfl
  | assign x y => exact ⟨_, rfl, h.set (h y)⟩
  | swap x y =>
    simp only [vstep, vspec]
    refine ⟨_, rfl, ?_⟩
    split
    · rename_i hxy
      subst hxy
      intro z
      unfold setVar
      split
      · rename_i hz; subst hz; exact h _
      · exact h z
    · exact (h.set (h y)).set (h x)
  | substr x y o c =>
    simp only [vstep, vspec, Vw.substr, (h y).len]
    by_cases ho : o ≤ (e' y).length
    · rw [if_neg (by omega), if_pos ho]
      refine ⟨_, rfl, h.set ?_⟩
      rw [← part_clip]
      exact (h y).sub (by omega)
    · rw [if_pos (by omega), if_neg ho]
      exact ⟨_, rfl, h⟩
  | removePrefix x n =>
    simp only [VLegal] at hl
    refine ⟨_, rfl, h.set ?_⟩
    have := (h x).sub (o := n) (n := (e' x).length - n) (by omega)
    unfold Vw.removePrefix
    rw [(h x).len, wrap_sub ((h x).bound hm) hl]
    rwa [part_tail] at this
  | removeSuffix x n =>
    simp only [VLegal] at hl
    refine ⟨_, rfl, h.set ?_⟩
    have := (h x).sub (o := 0) (n := (e' x).length - n) (by omega)
    unfold Vw.removeSuffix
    rw [(h x).len, wrap_sub ((h x).bound hm) hl]
    rw [part_zero] at this
    simpa using this
  | size x => exact ⟨_, by simp only [vstep, vspec, Vw.size, (h x).len]; rfl, h⟩
  | «at» x i =>
    refine ⟨e, ?_, h⟩
    simp only [vstep, vspec, Vw.at, (h x).len]
    by_cases hi : i < (e' x).length
    · rw [if_neg (by omega), (h x).idx hi, List.getElem?_eq_getElem hi]
      rfl
    · rw [if_pos (by omega), List.getElem?_eq_none (by omega)]
      rfl
  | idx x i =>
    simp only [VLegal] at hl
    refine ⟨e, ?_, h⟩
    simp only [vstep, vspec, (h x).idx hl, List.getElem?_eq_getElem hl]
    rfl
  | front x =>
    simp only [VLegal] at hl
    have hp := List.length_pos_iff.2 hl
    refine ⟨e, ?_, h⟩
    simp only [vstep, vspec, Vw.front, (h x).idx hp, List.head?_eq_getElem?, List.getElem?_eq_getElem hp]
    rfl
  | back x =>
    simp only [VLegal] at hl
    have hp := List.length_pos_iff.2 hl
    have hb := (h x).bound hm
    refine ⟨e, ?_, h⟩
    have hi : (e' x).length - 1 < (e' x).length := by omega
    simp only [vstep, vspec, Vw.back, (h x).len]
    rw [show (((e' x).length + (2 ^ 64 - 1)) % 2 ^ 64) = (e' x).length - 1 from wrap_sub hb (by omega), (h x).idx hi,
      List.getLast?_eq_getElem?, List.getElem?_eq_getElem hi]
    rfl
  | copy x c o =>
    refine ⟨e, ?_, h⟩
    simp only [vstep, vspec, Vw.copy, (h x).len]
    by_cases ho : o ≤ (e' x).length
    · rw [if_neg (by omega), if_pos ho, (h x).read (by omega), part_clip]
      rfl
    · rw [if_pos (by omega), if_neg ho]
      rfl
  | toString x =>
    refine ⟨e, ?_, h⟩
    simp only [vstep, vspec, Vw.toString, (h x).len]
    rw [(h x).read (by omega), part_whole]
    rfl
  | forward x =>
    refine ⟨e, ?_, h⟩
    simp only [vstep, vspec, Vw.forward, (h x).len]
    rw [(h x).read (by omega), part_whole]
    rfl
  | backward x =>
    refine ⟨e, ?_, h⟩
    simp only [vstep, vspec, Vw.backward, (h x).len]
    rw [(h x).read (by omega), part_whole]
    rfl
  | compare x y =>
    refine ⟨e, ?_, h⟩
    simp only [vstep, vspec, (h x).compare (h y)]
    rfl
  | compareAt x o c y =>
    refine ⟨e, ?_, h⟩
    simp only [vstep, vspec, Vw.compareAt]
    by_cases ho : o ≤ (e' x).length
    · obtain ⟨w, h1, h2⟩ := (h x).substr c ho
      rw [h1, if_pos ho]
      simp only [Res.bind, h2.compare (h y)]
      rfl
    · rw [(h x).substr_out c ho, if_neg ho]
      rfl
  | compareCstr x o c p =>
    refine ⟨e, ?_, h⟩
    obtain ⟨ho, q, hp, hq⟩ := hl
    simp only [vstep, vspec, Vw.compareCstr]
    obtain ⟨w, h1, h2⟩ := (h x).substr c ho
    obtain ⟨u, h3, h4⟩ := Rep.cstr hp hq
    rw [h1, if_pos ho, h3]
    simp only [Res.bind, h2.compare h4, noexcept]
    rfl

theorem vrun_ok {m : Bytes} (hm : m.length < 2 ^ 64) : ∀ (ops : List VOp) {e : Vars Vw} {e' : Vars Bytes}, Shows m e e' →
    VLegalRun m e' ops → ∃ f, vrun m e ops = some (f, (vspecRun m e' ops).2) ∧ Shows m f (vspecRun m e' ops).1
  | [], e, e', h, _ => ⟨e, rfl, h⟩
  | op :: ops, e, e', h, hl => by
    obtain ⟨f, h1, h2⟩ := vstep_ok hm h op hl.1
    obtain ⟨g, h3, h4⟩ := vrun_ok hm ops h2 hl.2
    refine ⟨g, ?_, h4⟩
    simp only [vrun, h1, h3, Option.bind_eq_bind, Option.bind_some, vspecRun]

end Dart.SView
