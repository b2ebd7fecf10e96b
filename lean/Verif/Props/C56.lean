import Verif.Lemmas.TypedInv
import Verif.Props.C33

/-
C56: programs on typed wrappers and packets see the values they put there.
-/
namespace Dart.Props
open Dart.Typed Dart.Spec

/-- Every program ends as the specification `StepsOk` says: in a state that looks the same, having given the same answers
and thrown the same exceptions, or by ending the program. -/
theorem C56_program {signed : Bool} {ops : List Op} (hw : ∀ op ∈ ops, OpWF op) (hf : ProgFits signed start ops) :
    (∃ st log a, run signed start ops = .done st log ∧ StepsOk signed ⟨[], []⟩ ops (some (a, log)) ∧ Looks st a) ∨
    (run signed start ops = .terminate ∧ StepsOk signed ⟨[], []⟩ ops none) := by
  obtain ⟨r, h1, h2⟩ := steps_ok ops rel_start hw hf
  cases he : run signed start ops with
  | done st log =>
    rw [he] at h2
    cases r with
    | none => exact h2.elim
    | some x =>
      obtain ⟨h2, rfl⟩ := h2
      exact .inl ⟨st, _, x.1, rfl, h1, h2.looks⟩
  | ub => rw [he] at h2; cases r <;> exact h2.elim
  | terminate =>
    rw [he] at h2
    cases r with
    | none => exact .inr ⟨rfl, h1⟩
    | some x => exact h2.elim

/-- The arithmetic `StepsOk` speaks of: the operands are taken as doubles nearest to them, the result is a double nearest to
the exact one, and `++` and `--` add and subtract one. -/
theorem C56_arithmetic {v : Val} {x : BitVec 64} (hv : number v = some x) : NumberAs v x ∧
    (∀ op t, (∀ i, t = .int i → i.natAbs ≤ 2 ^ 64) → ∃ y, NativeAs t y ∧ ∀ p q,
      Spec.doubleVal x.toNat = .finite p → Spec.doubleVal y.toNat = .finite q →
      Spec.Correct (ArithOp.meaning op) p q ((Arith.assign op t).result x).toNat) ∧
    ∀ p, Spec.doubleVal x.toNat = .finite p →
      Spec.Correct .plus p (1 * 2 ^ 1074) (Arith.incr.result x).toNat ∧
      Spec.Correct .minus p (1 * 2 ^ 1074) (Arith.decr.result x).toNat := by
  have hone : Spec.doubleVal (intToDouble 1).toNat = .finite (1 * 2 ^ 1074) := by
    have : (intToDouble 1).toNat = 1023 * 2 ^ 52 := by decide +kernel
    rw [this]
    simp only [Spec.doubleVal, Spec.signed]
    simp
    decide +kernel
  refine ⟨?_, fun op t ht => ?_, fun p hp => ⟨builtin_correct .add hp hone, builtin_correct .sub hp hone⟩⟩
  · cases v <;> simp only [number, Option.some.injEq, reduceCtorEq] at hv
    · subst hv
      rename_i i
      refine .int i (intToDouble_nearest ?_)
      have h3 := BitVec.toInt_lt (x := i)
      have h4 := BitVec.le_toInt i
      omega
    · subst hv; exact .dec _
  · obtain ⟨_, _, _, h⟩ := operands_as (n := .dec x) (t := t) ⟨.inr ⟨x, rfl⟩, ht⟩
    exact ⟨t.toDouble, h, fun p q hp hq => builtin_correct op hp hq⟩

/-- What a mutator is called. -/
def mutName {α : Type} : PMut α → String
  | .assign _ => "="
  | .insert _ _ => "insert"
  | .set _ _ => "set"
  | .erase _ => "erase"
  | .eraseKey _ => "erase(string_view)"
  | .eraseIdx _ => "erase(size_type)"
  | .pushFront _ => "push_front"
  | .pushBack _ => "push_back"
  | .popFront => "pop_front"
  | .popBack => "pop_back"
  | .clear => "clear"
  | .resize _ _ => "resize"

/-- What a read is called. -/
def readName {α : Type} : PRead α → String
  | .get _ => "get(string_view)"
  | .at _ => "at(string_view)"
  | .getIdx _ => "get(size_type)"
  | .atIdx _ => "at(size_type)"
  | .front => "front"
  | .back => "back"
  | .atFront => "at_front"
  | .atBack => "at_back"
  | .nested _ _ => "get_nested"
  | .getOr _ _ => "get_or(string_view)"
  | .getIdxOr _ _ => "get_or(size_type)"
  | .frontOr _ => "front_or"
  | .backOr _ => "back_or"

/-- No mutator succeeds on a scalar. -/
theorem scalar_mut {v : Val} (ho : ∀ fs, v ≠ .obj fs) (ha : ∀ es, v ≠ .arr es) {m : PMut PState} (h : mutName m ≠ "=")
    {out : PState} : ¬ MutOk ⟨false, v⟩ m (.ok out) := by
  have h1 : ∀ k w, (∃ e, v.insert k w = .throw e) := by
    intro k w
    unfold Val.insert
    cases k <;> try exact ⟨_, rfl⟩
    · cases v <;> first | exact ⟨_, rfl⟩ | exact absurd rfl (ha _)
    · simp only
      split
      · exact ⟨_, rfl⟩
      · cases v <;> first | exact ⟨_, rfl⟩ | exact absurd rfl (ho _)
  have h2 : ∀ k w, (∃ e, v.set k w = .throw e) := by
    intro k w
    unfold Val.set
    cases k <;> try exact ⟨_, rfl⟩
    · cases v <;> first | exact ⟨_, rfl⟩ | exact absurd rfl (ha _)
    · simp only
      split
      · exact ⟨_, rfl⟩
      · cases v <;> first | exact ⟨_, rfl⟩ | exact absurd rfl (ho _)
  have h3 : ∀ k, (∃ e, v.eraseKey k = .throw e) := by
    intro k; cases v <;> first | exact ⟨_, rfl⟩ | exact absurd rfl (ho _)
  have h4 : ∀ k, (∃ e, v.eraseIdx k = .throw e) := by
    intro k; cases v <;> first | exact ⟨_, rfl⟩ | exact absurd rfl (ha _)
  have run : ∀ (op : HOp) e, mutCall m = .inl op → op.run v = .throw e → ¬ MutOk ⟨false, v⟩ m (.ok out) := by
    intro op e ho hr hm
    unfold MutOk at hm
    split at hm
    · cases hm
    · simp [ho, hr] at hm
  cases m with
  | assign a => exact absurd rfl h
  | insert k a => obtain ⟨e, he⟩ := h1 k.value a.value; exact run _ e rfl he
  | set k a => obtain ⟨e, he⟩ := h2 k.value a.value; exact run _ e rfl he
  | erase k =>
    have : ∃ e, v.erase k.value = .throw e := by
      unfold Val.erase
      cases k.value <;> first | exact ⟨_, rfl⟩ | exact h3 _ | exact h4 _
    obtain ⟨e, he⟩ := this
    exact run _ e rfl he
  | eraseKey k => obtain ⟨e, he⟩ := h3 k; exact run _ e rfl he
  | eraseIdx i => obtain ⟨e, he⟩ := h4 i; exact run _ e rfl he
  | pushFront a => obtain ⟨e, he⟩ := h1 (.int 0) a.value; exact run _ e rfl he
  | pushBack a =>
    have : ∃ e, v.pushBack a.value = .throw e := by
      unfold Val.pushBack
      cases hs : v.size with
      | ok n => exact h1 (.int (BitVec.ofNat 64 n)) a.value
      | throw e => exact ⟨e, rfl⟩
      | ub => cases v <;> first | exact absurd rfl (ho _) | exact absurd rfl (ha _) | (simp [Val.size] at hs)
    obtain ⟨e, he⟩ := this
    exact run _ e rfl he
  | popFront => obtain ⟨e, he⟩ := h4 0; exact run _ e rfl he
  | popBack =>
    have : ∃ e, v.popBack = .throw e := by
      unfold Val.popBack
      cases hs : v.size with
      | ok n => exact h4 _
      | throw e => exact ⟨e, rfl⟩
      | ub => cases v <;> first | exact absurd rfl (ho _) | exact absurd rfl (ha _) | (simp [Val.size] at hs)
    obtain ⟨e, he⟩ := this
    exact run _ e rfl he
  | clear =>
    have : ∃ e, v.clear = .throw e := by
      cases v <;> first | exact ⟨_, rfl⟩ | exact absurd rfl (ho _) | exact absurd rfl (ha _)
    obtain ⟨e, he⟩ := this
    exact run _ e rfl he
  | resize n d =>
    have : ∃ e, v.resize n d.value = .throw e := by
      cases v <;> first | exact ⟨_, rfl⟩ | exact absurd rfl (ha _)
    obtain ⟨e, he⟩ := this
    exact run _ e rfl he

/-- A wrapper has the calls that make sense for its type: the questions that have an answer for every packet or for some
value of the type (and the two number types), the mutators other than assignment that succeed with some arguments on some
value of the type, and the lookups by key for objects, by position for arrays. -/
theorem C56_interface (signed : Bool) (k : Kind) :
    (∀ q, k.offers q = true ↔ (∃ o, plain k ⟨false, .null⟩ q = some o) ∨
      (∃ v o, k.Means v ∧ Answer signed k ⟨false, v⟩ q o) ∨ (k = .number ∧ (q = .integer ∨ q = .decimal))) ∧
    (∀ m : PMut PState, k.offersMut m = true ↔ mutName m ≠ "=" ∧ ∃ v m' out, k.Means v ∧ mutName m = mutName m' ∧
      MutOk ⟨false, v⟩ m' (.ok out)) ∧
    ∀ r : PRead PState, k.offersRead r = true ↔
      (k = .object ∧ readName r ∈ ["get(string_view)", "at(string_view)", "get_or(string_view)", "get_nested"]) ∨
      (k = .array ∧ readName r ∈ ["get(size_type)", "at(size_type)", "get_or(size_type)", "front", "back", "at_front",
        "at_back", "front_or", "back_or"]) := by
  refine ⟨?_, ?_, ?_⟩
  · intro q
    constructor
    · intro h
      cases k <;> cases q <;> simp only [Kind.offers, Bool.false_eq_true] at h <;>
        first
        | exact .inl ⟨_, rfl⟩
        | exact .inr (.inr ⟨rfl, .inl rfl⟩)
        | exact .inr (.inr ⟨rfl, .inr rfl⟩)
        | exact .inr (.inl ⟨.obj [], _, ⟨_, rfl⟩, rfl⟩)
        | exact .inr (.inl ⟨.arr [], _, ⟨_, rfl⟩, rfl⟩)
        | exact .inr (.inl ⟨.str [], _, ⟨_, rfl⟩, rfl⟩)
        | exact .inr (.inl ⟨.bool true, _, ⟨_, rfl⟩, rfl⟩)
        | exact .inr (.inl ⟨.obj [], _, ⟨_, rfl⟩, ⟨_, rfl⟩, rfl⟩)
        | exact .inr (.inl ⟨.arr [], _, ⟨_, rfl⟩, ⟨_, rfl⟩, rfl⟩)
        | exact .inr (.inl ⟨.str [], _, ⟨_, rfl⟩, ⟨_, rfl⟩, rfl⟩)
        | exact .inr (.inl ⟨.bool true, _, ⟨_, rfl⟩, ⟨_, rfl⟩, rfl⟩)
        | exact .inr (.inl ⟨.int 0, _, .inl ⟨_, rfl⟩, .inl ⟨_, rfl⟩, rfl⟩)
        | exact .inr (.inl ⟨.dec 0, _, .inr ⟨_, rfl⟩, _, rfl, rfl⟩)
        | skip
      exact .inr (.inl ⟨.obj [], _, ⟨_, rfl⟩, none, .inl rfl, rfl⟩)
    · rintro (⟨o, h⟩ | ⟨v, o, h, h'⟩ | ⟨rfl, rfl | rfl⟩)
      · cases k <;> cases q <;> first | rfl | simp [plain] at h
      · cases k <;> simp only [Kind.Means] at h
        · obtain ⟨_, rfl⟩ := h
          cases q <;> first | rfl | (simp [Answer, number] at h')
        · obtain ⟨_, rfl⟩ := h
          cases q <;> first | rfl | (simp [Answer, number] at h')
        · obtain ⟨_, rfl⟩ := h
          cases q <;> first | rfl | (simp [Answer, number] at h')
        · rcases h with ⟨_, rfl⟩ | ⟨_, rfl⟩ <;> cases q <;> first | rfl | (simp [Answer, number] at h')
        · obtain ⟨_, rfl⟩ := h
          cases q <;> first | rfl | (simp [Answer, number] at h')
      · rfl
      · rfl
  · intro m
    constructor
    · intro h
      cases k <;> cases m <;> simp only [Kind.offersMut, Bool.false_eq_true] at h <;>
        refine ⟨by simp only [mutName]; decide, ?_⟩
      · exact ⟨.obj [], .insert ⟨false, .str []⟩ ⟨false, .null⟩, _, ⟨_, rfl⟩, rfl, rfl⟩
      · exact ⟨.obj [([], .null)], .set ⟨false, .str []⟩ ⟨false, .null⟩, _, ⟨_, rfl⟩, rfl, rfl⟩
      · exact ⟨.obj [], .erase ⟨false, .str []⟩, _, ⟨_, rfl⟩, rfl, rfl⟩
      · exact ⟨.obj [], .eraseKey [], _, ⟨_, rfl⟩, rfl, rfl⟩
      · exact ⟨.obj [], .clear, _, ⟨_, rfl⟩, rfl, rfl⟩
      · exact ⟨.arr [], .insert ⟨false, .int 0⟩ ⟨false, .null⟩, _, ⟨_, rfl⟩, rfl, rfl⟩
      · exact ⟨.arr [.null], .set ⟨false, .int 0⟩ ⟨false, .null⟩, _, ⟨_, rfl⟩, rfl, rfl⟩
      · exact ⟨.arr [], .erase ⟨false, .int 0⟩, _, ⟨_, rfl⟩, rfl, rfl⟩
      · exact ⟨.arr [], .eraseIdx 0, _, ⟨_, rfl⟩, rfl, rfl⟩
      · exact ⟨.arr [], .pushFront ⟨false, .null⟩, _, ⟨_, rfl⟩, rfl, rfl⟩
      · exact ⟨.arr [], .pushBack ⟨false, .null⟩, _, ⟨_, rfl⟩, rfl, rfl⟩
      · exact ⟨.arr [], .popFront, _, ⟨_, rfl⟩, rfl, rfl⟩
      · exact ⟨.arr [], .popBack, _, ⟨_, rfl⟩, rfl, rfl⟩
      · exact ⟨.arr [], .clear, _, ⟨_, rfl⟩, rfl, rfl⟩
      · exact ⟨.arr [], .resize 0 ⟨false, .null⟩, _, ⟨_, rfl⟩, rfl, rfl⟩
    · rintro ⟨h, v, m', out, hv, hn, hm⟩
      have hs : k.offersMut m = k.offersMut m' := by
        cases m <;> cases m' <;> first | rfl | (simp only [mutName] at hn; exact absurd hn (by decide)) |
          (cases k <;> rfl)
      rw [hs]
      rw [hn] at h
      clear hs hn m
      cases k <;> simp only [Kind.Means] at hv
      · obtain ⟨fs, rfl⟩ := hv
        cases m' <;> first | rfl | (exact absurd rfl h) |
          (simp [MutOk, badErase, mutCall, HOp.run, Val.eraseIdx, Val.pushFront, Val.insert, Val.popFront, Val.resize,
            Val.pushBack, Val.popBack, Val.size, Res.bind] at hm)
      · obtain ⟨es, rfl⟩ := hv
        cases m' <;> first | rfl | (exact absurd rfl h) | (simp [MutOk, badErase, mutCall, HOp.run, Val.eraseKey] at hm)
      · obtain ⟨es, rfl⟩ := hv
        exact absurd hm (scalar_mut (by simp) (by simp) h)
      · rcases hv with ⟨i, rfl⟩ | ⟨d, rfl⟩ <;> exact absurd hm (scalar_mut (by simp) (by simp) h)
      · obtain ⟨b, rfl⟩ := hv
        exact absurd hm (scalar_mut (by simp) (by simp) h)
  · intro r
    cases k <;> cases r <;> simp [Kind.offersRead, readName]

/-- Unwrapping what was wrapped gives back the packet. -/
theorem C56_roundtrip {signed : Bool} {st : State} {x : Nat} {p : Pkt} (hx : st.packets[x]? = some p) {k : Kind}
    (hp : k.Typed p.getType) : ∃ log,
    run signed st [.wrap k x false, .unwrap st.wraps.length false] =
      .done ⟨st.packets ++ [p], st.wraps ++ [(k, p)]⟩ log := by
  have ht := (test_iff k _).2 hp
  have : (Op.wrap k x false).run signed st = .next ⟨st.packets, st.wraps ++ [(k, p)]⟩ .nothing := by
    simp only [Op.run, hx, ht, if_true]; rfl
  refine ⟨[.inl .nothing, .inl .nothing], ?_⟩
  have h2 : (Op.unwrap st.wraps.length false).run signed ⟨st.packets, st.wraps ++ [(k, p)]⟩ =
      .next ⟨st.packets ++ [p], st.wraps ++ [(k, p)]⟩ .nothing := by
    simp [Op.run, State.wrap, State.addPacket]
  simp [run, this, h2]

/-- Moving a wrapper out and back in. -/
example : (match run true start [.make .string (.str [104]), .unwrap 0 true, .wrap .string 0 true, .ask 1 .strv, .ask 0 .isNull]
    with | .done st log => some (st.wraps.map fun x => (x.1, x.2.getType), log) | _ => none) =
    some ([(.string, .null), (.string, .string)],
      [.inl .nothing, .inl .nothing, .inl .nothing, .inl (.bytes [104]), .inl (.bool true)]) := by decide +kernel

end Dart.Props
