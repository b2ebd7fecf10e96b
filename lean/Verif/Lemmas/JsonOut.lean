import Verif.Model.JsonOut
import Verif.Spec.JsonOut
import Verif.Lemmas.JsonBuf

/-
The text of a value.
-/
namespace Dart.JOut
open Spec

/-! ### What the writer writes -/

section
variable (dbl : BitVec 64 → Bytes) (nan : Bool)

mutual
/-- The text of a value. -/
def textOf : Val → Bytes
  | .obj fs => 0x7b :: (fieldsFrom true fs ++ [0x7d])
  | .arr es => 0x5b :: (elemsFrom true es ++ [0x5d])
  | .str s => quote (cut32 s)
  | .int i => intText i.toInt
  | .dec d => doubleText dbl nan d
  | .bool b => if b then [0x74, 0x72, 0x75, 0x65] else [0x66, 0x61, 0x6c, 0x73, 0x65]
  | .null => [0x6e, 0x75, 0x6c, 0x6c]
def fieldsFrom : Bool → List (Bytes × Val) → Bytes
  | _, [] => []
  | first, (k, v) :: fs => (if first then [] else [0x2c]) ++ (quote (cut32 k) ++ 0x3a :: (textOf v ++ fieldsFrom false fs))
def elemsFrom : Bool → List Val → Bytes
  | _, [] => []
  | first, v :: es => (if first then [] else [0x2c]) ++ (textOf v ++ elemsFrom false es)
end

theorem run_append (w : Writer) (a b : List Event) : w.run dbl nan (a ++ b) = (w.run dbl nan a).run dbl nan b := List.foldl_append

theorem put_append (w : Writer) (a b : Bytes) : w.put (a ++ b) = ⟨(w.put a).out ++ b, (w.put a).levels⟩ := by
  unfold Writer.put
  cases w.levels <;> simp

mutual
theorem run_val : ∀ (v : Val) (w : Writer), w.run dbl nan v.serialize = w.put (textOf dbl nan v)
  | .obj fs, w => by
    rw [Val.serialize, textOf, show ∀ (e : Event) es, e :: es = [e] ++ es from fun _ _ => rfl, run_append, run_append,
      show w.run dbl nan [.startObject] = w.open false [0x7b] from rfl]
    unfold Writer.open
    rw [run_fields fs _ 0 _ rfl]
    show Writer.close _ _ = _
    have := put_append w [0x7b] (fieldsFrom dbl nan true fs ++ [0x7d])
    rw [List.singleton_append] at this
    rw [this]
    simp [Writer.close]
  | .arr es, w => by
    rw [Val.serialize, textOf, show ∀ (e : Event) es, e :: es = [e] ++ es from fun _ _ => rfl, run_append, run_append,
      show w.run dbl nan [.startArray] = w.open true [0x5b] from rfl]
    unfold Writer.open
    rw [run_elems es _ 0 _]
    show Writer.close _ _ = _
    have := put_append w [0x5b] (elemsFrom dbl nan true es ++ [0x5d])
    rw [List.singleton_append] at this
    rw [this]
    simp [Writer.close]
  | .str s, w => by rw [textOf]; rfl
  | .int i, w => by rw [textOf]; rfl
  | .dec d, w => by rw [textOf]; rfl
  | .bool b, w => by rw [textOf]; rfl
  | .null, w => by rw [textOf]; rfl
theorem run_fields : ∀ (fs : List (Bytes × Val)) (out : Bytes) (c : Nat) (ls : List Level), c % 2 = 0 →
    (Writer.mk out (⟨false, c⟩ :: ls)).run dbl nan (serializeFields fs) =
      ⟨out ++ fieldsFrom dbl nan (c == 0) fs, ⟨false, c + 2 * fs.length⟩ :: ls⟩
  | [], out, c, ls, _ => by simp [serializeFields, fieldsFrom, Writer.run]
  | (k, v) :: fs, out, c, ls, hc => by
    rw [serializeFields, show ∀ (e : Event) es, e :: es = [e] ++ es from fun _ _ => rfl, run_append, run_append, run_val v,
      show (Writer.mk out (⟨false, c⟩ :: ls)).run dbl nan [.key (cut32 k)] = (Writer.mk out (⟨false, c⟩ :: ls)).put (quote (cut32 k)) from rfl]
    simp only [Writer.put]
    rw [run_fields fs _ _ _ (by omega)]
    have h1 : Level.sep ⟨false, c⟩ = if (c == 0) = true then [] else [0x2c] := by
      simp only [Level.sep, hc]
      by_cases h : c = 0 <;> simp [h]
    have h2 : Level.sep ⟨false, c + 1⟩ = [0x3a] := by
      simp only [Level.sep]
      rw [if_neg (by omega), if_neg (by decide), if_neg (by omega)]
    rw [h1, h2, fieldsFrom]
    simp only [List.append_assoc, List.length_cons, List.cons_append, List.nil_append, beq_iff_eq]
    congr 3
    all_goals try omega
theorem run_elems : ∀ (es : List Val) (out : Bytes) (c : Nat) (ls : List Level),
    (Writer.mk out (⟨true, c⟩ :: ls)).run dbl nan (serializeElems es) =
      ⟨out ++ elemsFrom dbl nan (c == 0) es, ⟨true, c + es.length⟩ :: ls⟩
  | [], out, c, ls => by simp [serializeElems, elemsFrom, Writer.run]
  | v :: es, out, c, ls => by
    rw [serializeElems, run_append, run_val v]
    simp only [Writer.put]
    rw [run_elems es]
    have h1 : Level.sep ⟨true, c⟩ = if (c == 0) = true then [] else [0x2c] := by
      simp only [Level.sep]
      by_cases h : c = 0 <;> simp [h]
    rw [h1, elemsFrom]
    simp only [List.append_assoc, List.length_cons]
    congr 3
    omega
end

theorem written (v : Val) : (Writer.start.run dbl nan v.serialize).out = textOf dbl nan v := by
  rw [run_val]; rfl
end

/-! ### That it is JSON -/

theorem natText_small {n : Nat} (h : n < 10) : natText n = [UInt8.ofNat (0x30 + n)] := by rw [natText, if_pos h]
theorem natText_big {n : Nat} (h : ¬ n < 10) : natText n = natText (n / 10) ++ [UInt8.ofNat (0x30 + n % 10)] := by rw [natText, if_neg h]

theorem digit_ok : ∀ n, n < 10 → 0x30 ≤ UInt8.ofNat (0x30 + n) ∧ UInt8.ofNat (0x30 + n) ≤ 0x39 ∧ (UInt8.ofNat (0x30 + n)).toNat - 0x30 = n := by
  decide

theorem natText_digits (n : Nat) : Digits (natText n) ∧ digitsValue (natText n) = n ∧ ((natText n).head? = some 0x30 → n = 0) := by
  induction n using Nat.strongRecOn with
  | ind n ih =>
    by_cases h : n < 10
    · rw [natText_small h]
      obtain ⟨h1, h2, h3⟩ := digit_ok n h
      refine ⟨⟨by simp, fun c hc => ?_⟩, by simp only [digitsValue, List.foldl_cons, List.foldl_nil, h3]; omega, fun he => ?_⟩
      · rw [List.mem_singleton.1 hc]; exact ⟨h1, h2⟩
      · simp only [List.head?_cons, Option.some.injEq] at he
        rw [he] at h3
        exact h3.symm
    · rw [natText_big h]
      obtain ⟨⟨d1, d2⟩, d3, d4⟩ := ih (n / 10) (by omega)
      obtain ⟨h1, h2, h3⟩ := digit_ok (n % 10) (by omega)
      refine ⟨⟨by simp, fun c hc => ?_⟩, ?_, fun he => ?_⟩
      · rcases List.mem_append.1 hc with hc | hc
        · exact d2 c hc
        · rw [List.mem_singleton.1 hc]; exact ⟨h1, h2⟩
      · unfold digitsValue at d3 ⊢
        rw [List.foldl_append, d3]
        simp only [List.foldl_cons, List.foldl_nil, h3]
        omega
      · have := d4 (by
          cases hn : natText (n / 10) with
          | nil => exact absurd hn d1
          | cons a l => rw [hn] at he; exact he)
        omega

theorem natText_single {n : Nat} (h : (natText n).head? = some 0x30) : (natText n).length = 1 := by
  rw [(natText_digits n).2.2 h, natText_small (by decide)]; rfl

theorem intText_is (i : Int) : IntText (intText i) i := by
  obtain ⟨h1, h2, _⟩ := natText_digits i.natAbs
  refine ⟨natText i.natAbs, h1, natText_single, ?_⟩
  unfold intText
  split
  · exact .inr ⟨rfl, by rw [h2]; omega⟩
  · exact .inl ⟨rfl, by rw [h2]; omega⟩

theorem hex_ok : ∀ n, n < 16 → hexDigit (hexText n) = some n := by decide

theorem charsText_escape : ∀ s : Bytes, CharsText (s.flatMap escape) s
  | [] => .nil
  | c :: s => by
    have ih := charsText_escape s
    rw [List.flatMap_cons]
    unfold escape
    split
    · rename_i h
      refine .short ?_ ih
      rcases h with rfl | rfl <;> simp [shortEscapes]
    · rename_i h
      split
      · rename_i h1; subst h1; exact .short (by simp [shortEscapes]) ih
      split
      · rename_i h1; subst h1; exact .short (by simp [shortEscapes]) ih
      split
      · rename_i h1; subst h1; exact .short (by simp [shortEscapes]) ih
      split
      · rename_i h1; subst h1; exact .short (by simp [shortEscapes]) ih
      split
      · rename_i h1; subst h1; exact .short (by simp [shortEscapes]) ih
      split
      · rename_i h1
        have hc : c.toNat < 32 := h1
        have hu := CharsText.unicode (u := [0x5c, 0x75, 0x30, 0x30, hexText (c.toNat / 16), hexText (c.toNat % 16)]) (n := c.toNat)
          ⟨0x30, 0x30, _, _, 0, 0, c.toNat / 16, c.toNat % 16, rfl, by decide, by decide, hex_ok _ (by omega), hex_ok _ (by omega), by omega⟩
          (.inl (by omega)) ih
        rw [show utf8 c.toNat = [c] by unfold utf8; rw [if_pos (by omega)]; simp] at hu
        exact hu
      · rename_i h1
        exact .plain (by simpa using h1) (fun e => h (.inl e)) (fun e => h (.inr e)) ih

theorem quote_is (s : Bytes) : StringText (quote s) s := ⟨_, charsText_escape s, rfl⟩

section
variable {dbl : BitVec 64 → Bytes} {nan : Bool} (hd : PrintsNumbers dbl)
include hd

theorem double_is {d : BitVec 64} (h : nan = true ∨ FiniteDouble d) : ValueText (writes nan) (doubleText dbl nan d) (.dbl d) := by
  unfold doubleText
  split
  · rename_i e
    rcases h with rfl | ⟨n, h⟩
    · exact .nan d rfl ⟨_, .inl rfl, .inl rfl⟩
    · rw [e] at h; cases h
  · rename_i neg e
    rcases h with rfl | ⟨n, h⟩
    · cases neg
      · exact .nan d rfl ⟨_, .inl rfl, .inr (.inr rfl)⟩
      · exact .nan d rfl ⟨_, .inr rfl, .inr (.inr rfl)⟩
    · rw [e] at h; cases h
  · rename_i n e
    obtain ⟨i, f, e, n, h1, h2, h3, h4, h5⟩ := hd d ⟨_, e⟩
    rw [h5]
    exact .dbl d h1 h2 h3 h4

mutual
theorem textOf_is : ∀ (v : Val), v.WF → (nan = true ∨ AllFinite v) → ValueText (writes nan) (textOf dbl nan v) (asJson v)
  | .obj [], _, _ => by rw [textOf, fieldsFrom, asJson, asFields]; exact .obj0 (w := []) .nil
  | .obj (f :: fs), hw, h => by
    rw [textOf, asJson]
    refine .obj (fields_is (f :: fs) (by simp) (by unfold Val.WF at hw; exact hw.2) (h.imp_right fun h => ?_))
    cases h with
    | obj _ h => exact h
  | .arr [], _, _ => by rw [textOf, elemsFrom, asJson, asElems]; exact .arr0 (w := []) .nil
  | .arr (e :: es), hw, h => by
    rw [textOf, asJson]
    refine .arr (elems_is (e :: es) (by simp) (by unfold Val.WF at hw; exact hw) (h.imp_right fun h => ?_))
    cases h with
    | arr h => exact h
  | .str s, hw, _ => by
    unfold Val.WF at hw
    rw [textOf, asJson, cut32_short hw]
    exact .str (quote_is s)
  | .int i, _, _ => by
    rw [textOf, asJson]
    have := BitVec.le_toInt i
    have := BitVec.toInt_lt (x := i)
    exact .num (intText_is _) (by omega) (by omega)
  | .dec d, _, h => by
    rw [textOf, asJson]
    refine double_is hd (h.imp_right fun h => ?_)
    cases h with
    | dec h => exact h
  | .bool b, _, _ => by
    rw [textOf, asJson]
    cases b
    · exact .false
    · exact .true
  | .null, _, _ => by rw [textOf, asJson]; exact .null
theorem fields_is : ∀ (fs : List (Bytes × Val)), fs ≠ [] → WFFields fs → (nan = true ∨ ∀ f ∈ fs, AllFinite f.2) →
    MembersText (writes nan) (fieldsFrom dbl nan true fs) (asFields fs)
  | [], h, _, _ => absurd rfl h
  | [(k, v)], _, hw, h => by
    unfold WFFields at hw
    have ht := textOf_is v hw.2.1 (h.imp_right fun h => h (k, v) (by simp))
    have := MembersText.one (w₁ := []) (w₂ := []) (w₃ := []) (w₄ := []) (c := []) .nil .nil .nil .nil (quote_is k) ht (.inl rfl)
    rw [fieldsFrom, fieldsFrom, asFields, asFields, cut32_short (by omega)]
    simpa using this
  | (k, v) :: f :: fs, _, hw, h => by
    have hw' := hw
    unfold WFFields at hw
    have ht := textOf_is v hw.2.1 (h.imp_right fun h => h (k, v) (by simp))
    have ih := fields_is (f :: fs) (by simp) hw.2.2 (h.imp_right fun h g hg => h g (List.mem_cons_of_mem _ hg))
    have := MembersText.cons (w₁ := []) (w₂ := []) (w₃ := []) (w₄ := []) .nil .nil .nil .nil (quote_is k) ht ih
    rw [fieldsFrom, asFields, cut32_short (by omega)]
    rw [show fieldsFrom dbl nan false (f :: fs) = 0x2c :: fieldsFrom dbl nan true (f :: fs) by
      obtain ⟨k', v'⟩ := f
      simp [fieldsFrom]]
    simpa using this
theorem elems_is : ∀ (es : List Val), es ≠ [] → WFElems es → (nan = true ∨ ∀ e ∈ es, AllFinite e) →
    ElemsText (writes nan) (elemsFrom dbl nan true es) (asElems es)
  | [], h, _, _ => absurd rfl h
  | [v], _, hw, h => by
    unfold WFElems at hw
    have ht := textOf_is v hw.1 (h.imp_right fun h => h v (by simp))
    have := ElemsText.one (w := []) (w' := []) (c := []) .nil .nil ht (.inl rfl)
    rw [elemsFrom, elemsFrom, asElems, asElems]
    simpa using this
  | v :: f :: es, _, hw, h => by
    unfold WFElems at hw
    have ht := textOf_is v hw.1 (h.imp_right fun h => h v (by simp))
    have ih := elems_is (f :: es) (by simp) hw.2 (h.imp_right fun h g hg => h g (List.mem_cons_of_mem _ hg))
    have := ElemsText.cons (w := []) (w' := []) .nil .nil ht ih
    rw [elemsFrom, asElems]
    rw [show elemsFrom dbl nan false (f :: es) = 0x2c :: elemsFrom dbl nan true (f :: es) by simp [elemsFrom]]
    simpa using this
end
end

end Dart.JOut
