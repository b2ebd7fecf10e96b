import Verif.Lemmas.CowFail
import Verif.Props.C37

/-
C76: when memory runs out, a statement over dynamic values is executed or nothing happened.
-/
namespace Dart.Props
open Spec.Indep

/-- Any program over any number of variables, in which any allocations of any statements fail (while shared storage is copied
— after any number of values —, for its control block, while keys and values are converted, while maps and vectors
grow): each statement is executed as in C16, or it throws `std::bad_alloc` and no variable shows another value. Statements
in which no allocation fails are executed. Nothing freed is used.

Missing for the full property: see below; and what C16 leaves out. -/
theorem C76_all_or_nothing_partial (k : Share.Kind) (n : Nat) (ops : List (Cow.Op × Cow.Fault))
    (hvars : ∀ o ∈ ops, ∀ x ∈ uses o.1, x < n) (hcov : SurvivableRun k (Cow.init n) ops) :
    ∃ e, AllOrNothing (init n) ops (Cow.runF k (Cow.init n) ops).2 e ∧
      ∀ x, Holds (Cow.runF k (Cow.init n) ops).1 x (e.var x) := by
  obtain ⟨e, h1, h2, _⟩ := Cow.runF_ok (k := k) (Cow.sim_init n) (by simpa [Cow.init] using hvars) hcov
  exact ⟨e, h1, h2.holds⟩

/-- The executed statements never are undefined. -/
theorem C76_defined_partial (k : Share.Kind) (n : Nat) (ops : List (Cow.Op × Cow.Fault))
    (hvars : ∀ o ∈ ops, ∀ x ∈ uses o.1, x < n) (hcov : SurvivableRun k (Cow.init n) ops) :
    .done .ub ∉ (Cow.runF k (Cow.init n) ops).2 := by
  obtain ⟨e, h1, hh⟩ := C76_all_or_nothing_partial k n ops hvars hcov
  clear hh
  revert h1
  generalize (Cow.runF k (Cow.init n) ops).2 = ends
  generalize init n = e₀
  clear hcov hvars
  induction ops generalizing ends e₀ with
  | nil =>
    cases ends with
    | nil => intro _ h; cases h
    | cons _ _ => exact fun h => h.elim
  | cons o ops ih =>
    obtain ⟨op, f⟩ := o
    cases ends with
    | nil => exact fun h => h.elim
    | cons r ends =>
      cases r with
      | badAlloc =>
        intro h hm
        cases hm with
        | tail _ hm => exact ih _ _ h.2 hm
      | done r =>
        intro h hm
        cases hm with
        | head => exact indep_no_ub e₀ op h.1.symm
        | tail _ hm => exact ih _ _ h.2 hm

/-- After any such program `refcount()` of live storage is the number of values that refer to it, and storage nobody refers to
is freed: what was built before an allocation failed is not lost. -/
theorem C76_counts_exact_partial (k : Share.Kind) (n : Nat) (ops : List (Cow.Op × Cow.Fault))
    (hvars : ∀ o ∈ ops, ∀ x ∈ uses o.1, x < n) (hcov : SurvivableRun k (Cow.init n) ops) (a : Nat) :
    match (Cow.runF k (Cow.init n) ops).1.cells.at a with
    | some cell => cell.count = owners (Cow.runF k (Cow.init n) ops).1 a ∧ 0 < cell.count
    | none => owners (Cow.runF k (Cow.init n) ops).1 a = 0 := by
  obtain ⟨e, _, h1, _⟩ := Cow.runF_ok (k := k) (Cow.sim_init n) (by simpa [Cow.init] using hvars) hcov
  have := h1.counted.eq a
  rw [Cow.occ, Cow.occ, List.countP_eq_length_filter, List.countP_eq_length_filter] at this
  cases hc : (Cow.runF k (Cow.init n) ops).1.cells.at a with
  | none => simpa [owners, Cow.cnt, hc] using this
  | some cell =>
    rw [Cow.cnt_some hc] at this
    exact ⟨this.symm, h1.counted.pos a cell hc⟩

/-- When all variables are scalars again, all storage is freed, whatever failed before. -/
theorem C76_no_leak_partial (k : Share.Kind) (n : Nat) (ops : List (Cow.Op × Cow.Fault))
    (hvars : ∀ o ∈ ops, ∀ x ∈ uses o.1, x < n) (hcov : SurvivableRun k (Cow.init n) ops)
    (hdone : ∀ x < n, ∃ v, Holds (Cow.runF k (Cow.init n) ops).1 x v ∧ (∀ f, v ≠ .obj f) ∧ (∀ f, v ≠ .arr f)) (a : Nat) :
    (Cow.runF k (Cow.init n) ops).1.cells.at a = none := by
  obtain ⟨e, _, h1, hl⟩ := Cow.runF_ok (k := k) (Cow.sim_init n) (by simpa [Cow.init] using hvars) hcov
  refine Cow.no_live h1.counted h1.whole (fun r hr => ?_) a
  obtain ⟨i, hi, rfl⟩ := List.getElem_of_mem hr
  have hin : i < n := by rw [hl] at hi; simpa [Cow.init] using hi
  obtain ⟨v, ⟨d, hd⟩, h2, h3⟩ := hdone i hin
  rw [Cow.var_eq hi] at hd
  cases hr' : (Cow.runF k (Cow.init n) ops).1.vars[i] with
  | obj b =>
    rw [hr'] at hd
    obtain ⟨_, _, _, vs, _, _, rfl⟩ := Cow.holds_obj ⟨d, hd⟩
    exact absurd rfl (h2 _)
  | arr b =>
    rw [hr'] at hd
    obtain ⟨_, _, _, vs, _, _, rfl⟩ := Cow.holds_arr ⟨d, hd⟩
    exact absurd rfl (h3 _)
  | _ => rfl

/-- A statement in whose execution no allocation fails is executed as ever. -/
theorem C76_no_fault (k : Share.Kind) (s : Cow.State) (op : Cow.Op) (hdef : (Cow.step s op).2 ≠ .ub) :
    Cow.stepF k s .none op = ((Cow.step s op).1, .done (Cow.step s op).2) := by
  have cw : ∀ x (o : Cow.State → Option Cow.Out), (Cow.orUb s ((Cow.cow s x).bind o)).2 ≠ .ub →
      ∃ s', Cow.cowFail k s x 1 .none = some (s', false) := by
    intro x o h
    have h' : Cow.cow s x ≠ none := by
      intro hn
      rw [hn] at h
      exact h rfl
    obtain ⟨s', hs⟩ := Option.ne_none_iff_exists'.1 h'
    unfold Cow.cow at h'
    unfold Cow.cowFail
    cases ha : (s.var x).addr with
    | none => exact ⟨s, rfl⟩
    | some a =>
      rw [ha] at h'
      simp only at h' ⊢
      cases hc : s.cells.at a with
      | none => rw [hc] at h'; exact absurd rfl h'
      | some cell =>
        rw [hc] at h'
        simp only at h' ⊢
        by_cases hgt : cell.count > 1
        · rw [if_pos hgt]
          exact ⟨s', by rw [Cow.cowOver_one, hs]; rfl⟩
        · rw [if_neg hgt]; exact ⟨s, rfl⟩
  cases op with
  | insert x key y m =>
    obtain ⟨s', hs⟩ := cw x _ hdef
    simp [Cow.stepF, Cow.putF, hs, Cow.orUbF]
  | set x key y m =>
    obtain ⟨s', hs⟩ := cw x _ hdef
    simp [Cow.stepF, Cow.putF, hs, Cow.orUbF]
  | erase x key =>
    obtain ⟨s', hs⟩ := cw x _ hdef
    simp [Cow.stepF, Cow.eraseF, hs, Cow.orUbF]
  | _ => rfl

/-! ### What is wrong -/

/-- `make_object()` and `make_array()` without memory: undefined behaviour instead of `std::bad_alloc`. -/
theorem C76_make_undefined (k : Share.Kind) (s : Cow.State) (x : Nat) :
    (Cow.stepF k s .grow (.fresh x .obj)).2 = .done .ub ∧ (Cow.stepF k s .grow (.fresh x .arr)).2 = .done .ub := ⟨rfl, rfl⟩

/-- Strings of up to 23 characters take no memory that could run out, longer ones do; nothing changes if it has. -/
theorem C76_short_strings (k : Share.Kind) (s : Cow.State) (x : Nat) (t : Bytes) :
    (t.length ≤ 23 → ∀ f, Cow.stepF k s f (.fresh x (.str t)) = Cow.stepF k s .none (.fresh x (.str t))) ∧
    (23 < t.length → Cow.stepF k s .grow (.fresh x (.str t)) = (s, .badAlloc)) := by
  refine ⟨fun h f => ?_, fun h => if_pos h⟩
  cases f with
  | grow => exact if_neg (show ¬ t.length > 23 by omega)
  | _ => rfl

/-- `set` replaces a value in place: nothing has to grow. -/
theorem C76_set_in_place (k : Share.Kind) (s : Cow.State) (x y : Nat) (key : Cow.Key) (m : Cow.Mode)
    (hdef : (Cow.step s (.set x key y m)).2 ≠ .ub) :
    Cow.stepF k s .grow (.set x key y m) = ((Cow.step s (.set x key y m)).1, .done (Cow.step s (.set x key y m)).2) := by
  rw [← C76_no_fault k s (.set x key y m) hdef]
  have h : Cow.cowFail k s x 1 .grow = Cow.cowFail k s x 1 .none := rfl
  simp [Cow.stepF, Cow.putF, h]

/-- `insert` of anything that can be inserted needs memory for it and fails without; what is refused is refused all the same. -/
theorem C76_insert_grows (k : Share.Kind) (s : Cow.State) (x y : Nat) (key : Cow.Key) (m : Cow.Mode)
    (hdef : (Cow.step s (.insert x key y m)).2 ≠ .ub) :
    ((Cow.step s (.insert x key y m)).2 = .ok () → (Cow.stepF k s .grow (.insert x key y m)).2 = .badAlloc) ∧
    (∀ e, (Cow.step s (.insert x key y m)).2 = .throw e →
      Cow.stepF k s .grow (.insert x key y m) = ((Cow.step s (.insert x key y m)).1, .done (.throw e))) := by
  obtain ⟨s', hs⟩ : ∃ s', Cow.cow s x = some s' := by
    cases hn : Cow.cow s x with
    | some s' => exact ⟨s', rfl⟩
    | none => exact absurd (by simp only [Cow.step, Cow.insert, hn]; rfl) hdef
  have hf : Cow.cowFail k s x 1 .grow = some (s', false) := by
    have hs' := hs
    unfold Cow.cow at hs
    unfold Cow.cowFail
    cases ha : (s.var x).addr with
    | none => rw [ha] at hs; cases hs; rfl
    | some a =>
      rw [ha] at hs
      simp only at hs ⊢
      cases hc : s.cells.at a with
      | none => rw [hc] at hs; cases hs
      | some cell =>
        rw [hc] at hs
        simp only at hs ⊢
        by_cases hgt : cell.count > 1
        · rw [if_pos hgt, Cow.cowOver_one, hs']; rfl
        · rw [if_neg hgt] at hs ⊢; cases hs; rfl
  have hstep : Cow.stepF k s .grow (.insert x key y m) = if Cow.reachesGrow s' x key = true then (s', .badAlloc)
      else ((Cow.step s (.insert x key y m)).1, .done (Cow.step s (.insert x key y m)).2) := by
    simp [Cow.stepF, Cow.putF, hf, Cow.orUbF]
  rw [hstep]
  have key' : (Cow.step s (.insert x key y m)).2 = .ok () ↔ Cow.reachesGrow s' x key = true := by
    revert hdef
    simp only [Cow.step, Cow.insert, hs, Option.bind_some]
    cases key with
    | name n =>
      simp only [Cow.reachesGrow]
      by_cases hk : n.length > 65535
      · rw [if_pos hk]
        simp [Cow.orUb, show ¬ n.length ≤ 65535 by omega]
      · rw [if_neg hk]
        cases hv : s'.var x with
        | obj a =>
          intro hdef
          simp only at hdef ⊢
          have : n.length ≤ 65535 := by omega
          simp only [this, decide_true, Bool.and_self, iff_true]
          generalize ho : (Option.bind (s'.cells.at a) _ : Option Cow.Out) = o at hdef ⊢
          cases o with
          | none => exact absurd rfl hdef
          | some o =>
            rw [Option.bind_eq_some_iff] at ho
            obtain ⟨cell, -, ho⟩ := ho
            cases hb : cell.body with
            | elems es => rw [hb] at ho; cases ho
            | fields fs =>
              rw [hb] at ho
              simp only [Option.bind_eq_some_iff, Option.map_eq_some_iff] at ho
              obtain ⟨_, -, _, -, rfl⟩ := ho
              rfl
        | _ => simp [Cow.orUb]
    | index i =>
      simp only [Cow.reachesGrow]
      cases hv : s'.var x with
      | arr a =>
        simp only
        cases hc : s'.cells.at a with
        | none => intro hdef; exact absurd rfl hdef
        | some cell =>
          obtain ⟨c, body⟩ := cell
          cases body with
          | fields fs => intro hdef; exact absurd rfl hdef
          | elems es =>
            simp only [Option.bind_some]
            by_cases h1 : i.toNat > es.length
            · rw [if_pos h1]
              simp [Cow.orUb, show ¬ i.toNat ≤ es.length by omega]
            · rw [if_neg h1]
              by_cases h2 : es.length ≥ maxElems
              · rw [if_pos h2]
                simp [Cow.orUb, show ¬ es.length < maxElems by omega]
              · rw [if_neg h2]
                intro hdef
                have h3 : i.toNat ≤ es.length := by omega
                have h4 : es.length < maxElems := by omega
                simp only [h3, h4, decide_true, Bool.and_self, iff_true]
                generalize ho : (Option.bind (Cow.store s' a _ _ _ _) _ : Option Cow.Out) = o at hdef ⊢
                cases o with
                | none => exact absurd rfl hdef
                | some o =>
                  simp only [Option.bind_eq_some_iff, Option.map_eq_some_iff] at ho
                  obtain ⟨_, -, _, -, rfl⟩ := ho
                  rfl
      | _ => simp [Cow.orUb]
  refine ⟨fun h => ?_, fun e h => ?_⟩
  · rw [if_pos (key'.1 h)]
  · rw [if_neg fun hr => ?_, h]
    have := key'.2 hr
    rw [h] at this
    cases this

example : (let s := (Cow.run (Cow.init 2) [.fresh 0 .obj]).1
    ((Cow.step s (.insert 0 (.name [97]) 1 .const)).2, (Cow.stepF .std s .grow (.insert 0 (.name [97]) 1 .const)).2,
      (Cow.stepF .std s .grow (.insert 0 (.index 0) 1 .const)).2)) = (.ok (), .badAlloc, .done (.throw .typeError)) := by
  decide +kernel

/-- `resize` of an array needs memory only if it becomes longer; if there is none, nothing changes. -/
theorem C76_resize_grows (k : Share.Kind) (s : Cow.State) (x a n y c : Nat) (es : List Cow.Ref) (hx : s.var x = .arr a)
    (ha : s.cells.at a = some ⟨c, .elems es⟩) (hn : n ≤ maxElems) :
    (n ≤ es.length → Cow.stepF k s .grow (.resize x n y) = Cow.stepF k s .none (.resize x n y)) ∧
    (es.length < n → Cow.stepF k s .grow (.resize x n y) = (s, .badAlloc)) := by
  refine ⟨fun h => ?_, fun h => ?_⟩
  · simp only [Cow.stepF, Cow.resizeF, hx, ha]
    rw [if_neg (by omega)]
  · simp only [Cow.stepF, Cow.resizeF, hx, ha]
    rw [if_pos ⟨h, hn⟩]

/-- With the counters of the library: if the control block of the copy cannot be allocated, the copy is lost. All variables are
null in the end, and a map is left. -/
theorem C76_copy_lost : (Cow.runF .own (Cow.init 3) [(.fresh 0 .obj, .none), (.copy 1 0, .none), (.fresh 2 .null, .none),
      (.insert 0 (.name [97]) 2 .const, .block), (.fresh 0 .null, .none), (.fresh 1 .null, .none)]) =
    (⟨[none, some ⟨1, .fields []⟩], [.null, .null, .null]⟩,
      [.done (.ok ()), .done (.ok ()), .done (.ok ()), .badAlloc, .done (.ok ()), .done (.ok ())]) := by decide +kernel

/-- `erase(iterator)` reports missing memory as an iterator of the wrong type: the same erasure succeeds if memory is there. -/
theorem C76_erase_misreports :
    (let s := (Cow.run (Cow.init 2) [.fresh 0 .obj, .insert 0 (.name [97]) 1 .const, .copy 1 0]).1
     (Cow.eraseFoundF .std s 0 [97] (.copy 0)).2 = .done (.throw .typeError) ∧
     (Cow.eraseFoundF .std s 0 [97] (.copy 0)).1 = s ∧
     (Cow.eraseFoundF .std s 0 [97] .none).2 = .done (.ok ())) := by decide +kernel

/-! Concrete cases: an object with an array in it is shared; every statement that follows first fails in all the ways it can and
is then repeated. -/

/-- The program. -/
def starved : List (Cow.Op × Cow.Fault) :=
  [(.fresh 0 .obj, .none), (.fresh 1 .arr, .none), (.fresh 2 (.str (List.replicate 30 97)), .grow),
    (.fresh 2 (.str (List.replicate 30 97)), .none), (.insert 1 (.index 0) 2 .rvalue, .grow), (.insert 1 (.index 0) 2 .rvalue, .none),
    (.insert 0 (.name [97]) 1 .const, .convert), (.insert 0 (.name [97]) 1 .const, .grow), (.insert 0 (.name [97]) 1 .const, .none),
    (.copy 3 0, .none), (.erase 0 (.name [97]), .copy 1), (.erase 0 (.name [97]), .block), (.set 0 (.name [97]) 2 .const, .copy 1),
    (.set 0 (.name [97]) 2 .const, .block), (.insert 1 (.index 1) 0 .const, .copy 1), (.erase 0 (.name [97]), .none)]

example : (Cow.runF .std (Cow.init 4) starved).2.map (fun o => decide (o = .badAlloc)) =
    [false, false, true, false, true, false, true, true, false, false, true, true, true, true, true, false] := by decide +kernel

instance survivableDec (k : Share.Kind) (f : Cow.Fault) : (op : Cow.Op) → Decidable (Survivable k f op)
  | .fresh _ v => by cases v <;> simp only [Survivable] <;> infer_instance
  | .copy .. | .move .. | .get .. | .insert .. | .set .. | .erase .. | .clear .. | .resize .. => by
    simp only [Survivable]; infer_instance

instance survivableRunDec (k : Share.Kind) : (s : Cow.State) → (ops : List (Cow.Op × Cow.Fault)) → Decidable (SurvivableRun k s ops)
  | _, [] => isTrue trivial
  | s, (op, f) :: ops =>
    have := survivableRunDec k (Cow.stepF k s f op).1 ops
    inferInstanceAs (Decidable ((Covered s op ∧ Survivable k f op) ∧ SurvivableRun k (Cow.stepF k s f op).1 ops))

example : SurvivableRun .std (Cow.init 4) starved := by decide +kernel
example : ∀ o ∈ starved, ∀ x ∈ uses o.1, x < 4 := by decide +kernel

example : (Cow.runF .std (Cow.init 4) starved).1.cells.map (·.map (·.count)) = [some 1, some 2, none, none, some 1] := by decide +kernel

end Dart.Props
