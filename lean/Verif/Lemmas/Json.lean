import Verif.Spec.Json
import Verif.Lemmas.Heap
import Verif.Lemmas.Basic

/-
JSON, helpers.
-/
namespace Dart
open Spec

/-- The integer an event carries. -/
def wrapInt (n : Int) : BitVec 64 := BitVec.ofInt 64 n

mutual
/-- The value the parser builds. -/
def Json.toVal : Json → Val
  | .null => .null
  | .bool b => .bool b
  | .num n => .int (wrapInt n)
  | .dbl d => .dec d
  | .str s => .str s
  | .arr es => .arr (toElems es)
  | .obj fs => .obj (toFields [] fs)
def toElems : List Json → List Val
  | [] => []
  | e :: es => e.toVal :: toElems es
def toFields : List (Bytes × Val) → List (Bytes × Json) → List (Bytes × Val)
  | acc, [] => acc
  | acc, (k, j) :: fs => toFields (mapInsert k j.toVal acc) fs
end

mutual
/-- The limits the parser needs: as `Within`, with whole numbers up to 2^64. -/
def Json.Lim : Json → Prop
  | .arr es => es.length ≤ 2 ^ 58 ∧ LimElems es
  | .obj fs => LimFields fs
  | .num n => -2 ^ 63 ≤ n ∧ n < 2 ^ 64
  | _ => True
def LimElems : List Json → Prop
  | [] => True
  | j :: es => Json.Lim j ∧ LimElems es
def LimFields : List (Bytes × Json) → Prop
  | [] => True
  | (k, j) :: fs => k.length ≤ 65535 ∧ Json.Lim j ∧ LimFields fs
end

/-- States in which a value can come. -/
def Parser.Ready (s : Parser) : Prop :=
  (∃ gs k, s.currObj = .obj gs ∧ s.currKey = .str k) ∨
  (∃ vs, s.currObj = .arr vs ∧ s.currKey = .null ∧ vs.length < 2 ^ 58)

theorem pushBack_ok {vs : List Val} (h : vs.length < 2 ^ 58) (v : Val) : (Val.arr vs).pushBack v = .ok (.arr (vs ++ [v])) := by
  have h1 : (BitVec.ofNat 64 vs.length).toNat = vs.length := by
    rw [BitVec.toNat_ofNat]; exact Nat.mod_eq_of_lt (by omega)
  simp only [Val.pushBack, Val.size, Res.bind, Val.insert, h1, maxElems]
  rw [if_neg (Nat.lt_irrefl _), if_neg (by omega)]
  simp

theorem intEvent_step (s : Parser) {n : Int} (h1 : -2 ^ 63 ≤ n) (h2 : n < 2 ^ 64) :
    s.step (intEvent n) = s.embed (.int (wrapInt n)) := by
  unfold intEvent wrapInt
  split
  · split
    · simp only [Parser.step]
      congr 2
      apply BitVec.eq_of_toNat_eq
      simp only [BitVec.toNat_setWidth, BitVec.toNat_ofInt]
      simp only [Nat.reducePow, Int.reducePow] at *
      omega
    · simp only [Parser.step]
  · split
    · simp only [Parser.step]
      congr 2
      apply BitVec.eq_of_toInt_eq
      rw [BitVec.toInt_signExtend_of_le (by omega), BitVec.toInt_ofInt, toInt_ofInt64, bmod_self (by omega) (by omega),
        Int.bmod_def]
      simp only [Nat.reducePow, Int.reducePow] at *
      omega
    · simp only [Parser.step]

theorem run_append (s : Parser) (a b : List Event) : s.run (a ++ b) = (s.run a).bind fun t => t.run b := by
  induction a generalizing s with
  | nil => rfl
  | cons e a ih =>
    simp only [List.cons_append, Parser.run]
    cases s.step e with
    | ok t => simp only [Res.bind]; exact ih t
    | throw e => rfl
    | ub => rfl

theorem run_single (s : Parser) (e : Event) : s.run [e] = s.step e := by
  simp only [Parser.run]; cases s.step e <;> rfl

/-- An aggregate within an aggregate: what happens at its end is what happens for a scalar. -/
theorem endAggregate_ok {s : Parser} (h : s.Ready) (e v : Val) :
    ({ s.startAggregate e with currKey := .null, currObj := v } : Parser).endAggregate = s.embed v := by
  rcases h with ⟨gs, k, h1, h2⟩ | ⟨vs, h1, h2, h3⟩
  · simp [Parser.startAggregate, Parser.endAggregate, Parser.embed, h1, h2, Val.truthy]
  · simp [Parser.startAggregate, Parser.endAggregate, Parser.embed, h1, h2, Val.truthy]

theorem startAggregate_key {s : Parser} (h : s.Ready) (e : Val) : (s.startAggregate e).currKey = .null := by
  rcases h with ⟨gs, k, h1, h2⟩ | ⟨vs, h1, h2, h3⟩ <;> simp [Parser.startAggregate, h2, Val.truthy]

mutual
theorem run_events : ∀ (j : Json) (s : Parser), j.Lim → s.Ready → s.run j.events = s.embed j.toVal
  | .null, s, _, _ => run_single s _
  | .bool b, s, _, _ => run_single s _
  | .num n, s, h, _ => by
    rw [Json.events, run_single, Json.toVal]; unfold Json.Lim at h; exact intEvent_step s h.1 h.2
  | .dbl d, s, _, _ => run_single s _
  | .str t, s, _, _ => run_single s _
  | .arr es, s, h, hr => by
    unfold Json.Lim at h
    have hk := startAggregate_key hr (.arr [])
    rw [Json.events, Json.toVal]
    simp only [Parser.run, Parser.step, Res.bind]
    rw [run_append, run_elems es (s.startAggregate (.arr [])) [] h.2 rfl hk (by simpa using h.1)]
    simp only [Res.bind, run_single, Parser.step, List.nil_append]
    have := endAggregate_ok hr (.arr []) (.arr (toElems es))
    rw [← hk] at this
    exact this
  | .obj fs, s, h, hr => by
    unfold Json.Lim at h
    have hk := startAggregate_key hr (.obj [])
    rw [Json.events, Json.toVal]
    simp only [Parser.run, Parser.step, Res.bind]
    rw [run_append, run_fields fs (s.startAggregate (.obj [])) [] h rfl hk]
    simp only [Res.bind, run_single, Parser.step]
    have := endAggregate_ok hr (.obj []) (.obj (toFields [] fs))
    rw [← hk] at this
    exact this
theorem run_elems : ∀ (es : List Json) (s : Parser) (vs : List Val), LimElems es → s.currObj = .arr vs → s.currKey = .null →
    vs.length + es.length ≤ 2 ^ 58 → s.run (elemEvents es) = .ok { s with currObj := .arr (vs ++ toElems es) }
  | [], s, vs, _, h1, _, _ => by
    simp only [elemEvents, Parser.run, toElems, List.append_nil, ← h1]
  | j :: es, s, vs, h, h1, h2, h3 => by
    unfold LimElems at h
    simp only [List.length_cons] at h3
    rw [elemEvents, run_append, run_events j s h.1 (.inr ⟨vs, h1, h2, by omega⟩)]
    have : s.embed j.toVal = .ok { s with currObj := .arr (vs ++ [j.toVal]) } := by
      simp only [Parser.embed, h1, pushBack_ok (show vs.length < 2 ^ 58 by omega), Res.bind]
    rw [this]
    simp only [Res.bind]
    rw [run_elems es { s with currObj := .arr (vs ++ [j.toVal]) } (vs ++ [j.toVal]) h.2 rfl h2 (by simp; omega)]
    simp only [toElems, List.append_assoc, List.cons_append, List.nil_append]
theorem run_fields : ∀ (fs : List (Bytes × Json)) (s : Parser) (gs : List (Bytes × Val)), LimFields fs →
    s.currObj = .obj gs → s.currKey = .null → s.run (fieldEvents fs) = .ok { s with currObj := .obj (toFields gs fs) }
  | [], s, gs, _, h1, _ => by
    simp only [fieldEvents, Parser.run, toFields, ← h1]
  | (k, j) :: fs, s, gs, h, h1, h2 => by
    unfold LimFields at h
    rw [fieldEvents]
    simp only [Parser.run, Parser.step, Res.bind]
    rw [run_append, run_events j { s with currKey := .str k } h.2.1 (.inl ⟨gs, k, h1, rfl⟩)]
    have : ({ s with currKey := .str k } : Parser).embed j.toVal = .ok { s with currObj := .obj (mapInsert k j.toVal gs) } := by
      simp only [Parser.embed, h1, Val.insert, if_neg (show ¬ k.length > 65535 by omega), Res.bind, ← h2]
    rw [this]
    simp only [Res.bind]
    rw [run_fields fs { s with currObj := .obj (mapInsert k j.toVal gs) } (mapInsert k j.toVal gs) h.2.2 rfl h2]
    simp only [toFields]
end

/-- The root. -/
theorem toHeap_arr {es : List Json} (h : (Json.arr es).Lim) : (Json.arr es).toHeap = .ok (.arr (toElems es)) := by
  unfold Json.Lim at h
  simp only [Json.toHeap, Json.events, Parser.run, Parser.step, Res.bind]
  rw [run_append, run_elems es _ [] h.2 rfl rfl (by simpa using h.1)]
  rfl

theorem toHeap_obj {fs : List (Bytes × Json)} (h : (Json.obj fs).Lim) : (Json.obj fs).toHeap = .ok (.obj (toFields [] fs)) := by
  unfold Json.Lim at h
  simp only [Json.toHeap, Json.events, Parser.run, Parser.step, Res.bind]
  rw [run_append, run_fields fs _ [] h rfl rfl]
  rfl

/-! ### the value built -/

theorem lastOf_nil (k : Bytes) : lastOf [] k = none := rfl

theorem lastOf_cons (a : Bytes) (j : Json) (fs : List (Bytes × Json)) (k : Bytes) :
    lastOf ((a, j) :: fs) k = (lastOf fs k).orElse fun _ => if k = a then some j else none := by
  unfold lastOf
  rw [List.reverse_cons, List.find?_append]
  cases fs.reverse.find? (fun f => f.1 == k) with
  | some f => rfl
  | none =>
    by_cases h : k = a
    · simp [h]
    · have : (a == k) = false := by simpa using fun e => h e.symm
      simp [this, h]

theorem lastOf_mem {fs : List (Bytes × Json)} {k : Bytes} {j : Json} (h : lastOf fs k = some j) : (k, j) ∈ fs := by
  unfold lastOf at h
  cases hf : fs.reverse.find? (fun f => f.1 == k) with
  | none => rw [hf] at h; cases h
  | some f =>
    rw [hf] at h
    cases h
    have h1 := List.mem_of_find?_eq_some hf
    have h2 := List.find?_some hf
    simp only [beq_iff_eq] at h2
    subst h2
    simpa using h1

theorem toFields_sorted : ∀ (fs : List (Bytes × Json)) (acc : List (Bytes × Val)), Sorted acc → Sorted (toFields acc fs)
  | [], _, h => h
  | (_, _) :: fs, acc, h => by rw [toFields]; exact toFields_sorted fs _ (mapInsert_sorted h)

theorem lookup_toFields : ∀ (fs : List (Bytes × Json)) (acc : List (Bytes × Val)) (k : Bytes),
    lookup (toFields acc fs) k = ((lastOf fs k).map Json.toVal).orElse fun _ => lookup acc k
  | [], acc, k => by rw [toFields, lastOf_nil]; rfl
  | (a, j) :: fs, acc, k => by
    rw [toFields, lookup_toFields fs, lastOf_cons]
    cases h : lastOf fs k with
    | some x => rfl
    | none =>
      simp only [Option.map_none, Option.orElse_none]
      rw [lookup_mapInsert]
      by_cases h : k = a
      · subst h; simp [put]
      · simp [put, h]

mutual
theorem means_toVal : ∀ (j : Json), Within j → Means j j.toVal
  | .null, _ => .null
  | .bool b, _ => .bool b
  | .num n, h => by
    unfold Within at h
    exact .num (by rw [wrapInt, toInt_ofInt64, bmod_self (by omega) (by omega)])
  | .dbl d, _ => .dbl d
  | .str s, _ => .str s
  | .arr es, h => by
    unfold Within at h
    have := means_elems es h.2
    rw [Json.toVal]
    exact .arr this.1 this.2
  | .obj fs, h => by
    unfold Within at h
    have hm := means_fields fs h
    rw [Json.toVal]
    refine .obj (sorted_iff.2 (toFields_sorted fs [] List.Pairwise.nil)) ?_ ?_
    · intro k
      rw [lookup_toFields]
      cases lastOf fs k <;> rfl
    · intro k j w h1 h2
      rw [lookup_toFields, h1] at h2
      cases h2
      exact hm (k, j) (lastOf_mem h1)
theorem means_elems : ∀ (es : List Json), WithinElems es → es.length = (toElems es).length ∧
    ∀ i (h1 : i < es.length) (h2 : i < (toElems es).length), Means es[i] (toElems es)[i]
  | [], _ => ⟨rfl, fun i h1 => by simp at h1⟩
  | j :: es, h => by
    unfold WithinElems at h
    have := means_elems es h.2
    refine ⟨by simp [toElems, this.1], fun i h1 h2 => ?_⟩
    cases i with
    | zero => simpa [toElems] using means_toVal j h.1
    | succ i =>
      simp only [toElems, List.length_cons, Nat.add_lt_add_iff_right] at h1 h2
      simpa [toElems] using this.2 i h1 h2
theorem means_fields : ∀ (fs : List (Bytes × Json)), WithinFields fs → ∀ f ∈ fs, Means f.2 f.2.toVal
  | [], _, _, hf => by cases hf
  | (_, j) :: fs, h, f, hf => by
    unfold WithinFields at h
    rcases List.mem_cons.1 hf with rfl | hf
    · exact means_toVal j h.2.1
    · exact means_fields fs h.2.2 f hf
end

mutual
theorem lim_of_moderate : ∀ (j : Json), Within j → j.Lim
  | .null, _ => trivial
  | .bool b, _ => trivial
  | .num n, h => by unfold Within at h; exact ⟨h.1, by omega⟩
  | .dbl d, _ => trivial
  | .str s, _ => trivial
  | .arr es, h => by unfold Within at h; exact ⟨h.1, limElems_of_moderate es h.2⟩
  | .obj fs, h => by unfold Within at h; exact limFields_of_moderate fs h
theorem limElems_of_moderate : ∀ (es : List Json), WithinElems es → LimElems es
  | [], _ => trivial
  | j :: es, h => by unfold WithinElems at h; exact ⟨lim_of_moderate j h.1, limElems_of_moderate es h.2⟩
theorem limFields_of_moderate : ∀ (fs : List (Bytes × Json)), WithinFields fs → LimFields fs
  | [], _ => trivial
  | (k, j) :: fs, h => by
    unfold WithinFields at h; exact ⟨h.1, lim_of_moderate j h.2.1, limFields_of_moderate fs h.2.2⟩
end

/-! ### what the serializer writes, as a document -/

mutual
def asJson : Val → Json
  | .null => .null
  | .bool b => .bool b
  | .int i => .num i.toInt
  | .dec d => .dbl d
  | .str s => .str s
  | .arr es => .arr (asElems es)
  | .obj fs => .obj (asFields fs)
def asElems : List Val → List Json
  | [] => []
  | v :: es => asJson v :: asElems es
def asFields : List (Bytes × Val) → List (Bytes × Json)
  | [] => []
  | (k, v) :: fs => (k, asJson v) :: asFields fs
end

theorem asElems_length : ∀ es : List Val, (asElems es).length = es.length
  | [] => rfl
  | _ :: es => by simp [asElems, asElems_length es]

theorem cut32_short {s : Bytes} (h : s.length < 2 ^ 32) : cut32 s = s := by
  rw [cut32, Nat.mod_eq_of_lt h, List.take_length]

mutual
theorem asJson_events : ∀ (v : Val), v.WF → v.serialize.map deliver = (asJson v).events
  | .null, _ => rfl
  | .bool b, _ => rfl
  | .int i, _ => rfl
  | .dec d, _ => rfl
  | .str s, h => by
    unfold Val.WF at h
    simp only [Val.serialize, cut32_short h]; rfl
  | .arr es, h => by
    rw [Val.serialize, asJson, Json.events, List.map_cons, List.map_append, asElems_events es (by simpa [Val.WF] using h)]; rfl
  | .obj fs, h => by
    rw [Val.serialize, asJson, Json.events, List.map_cons, List.map_append,
      asFields_events fs (by unfold Val.WF at h; exact h.2)]; rfl
theorem asElems_events : ∀ (es : List Val), WFElems es → (serializeElems es).map deliver = elemEvents (asElems es)
  | [], _ => rfl
  | v :: es, h => by
    unfold WFElems at h
    rw [serializeElems, asElems, elemEvents, List.map_append, asJson_events v h.1, asElems_events es h.2]
theorem asFields_events : ∀ (fs : List (Bytes × Val)), WFFields fs → (serializeFields fs).map deliver = fieldEvents (asFields fs)
  | [], _ => rfl
  | (k, v) :: fs, h => by
    unfold WFFields at h
    rw [serializeFields, asFields, fieldEvents, List.map_cons, List.map_append, asJson_events v h.2.1, asFields_events fs h.2.2,
      cut32_short (by omega)]; rfl
end

mutual
theorem asJson_lim : ∀ (v : Val), v.WF → ArraysFit v → (asJson v).Lim
  | .null, _, _ => trivial
  | .bool b, _, _ => trivial
  | .int i, _, _ => ⟨BitVec.le_toInt i, by have := BitVec.toInt_lt (x := i); omega⟩
  | .dec d, _, _ => trivial
  | .str s, _, _ => trivial
  | .arr es, h, ha => by
    unfold ArraysFit at ha
    rw [asJson]
    exact ⟨by rw [asElems_length]; exact ha.1, asElems_lim es (by simpa [Val.WF] using h) ha.2⟩
  | .obj fs, h, ha => by
    unfold ArraysFit at ha
    rw [asJson]
    exact asFields_lim fs (by unfold Val.WF at h; exact h.2) ha
theorem asElems_lim : ∀ (es : List Val), WFElems es → ArraysFitElems es → LimElems (asElems es)
  | [], _, _ => trivial
  | v :: es, h, ha => by
    unfold WFElems at h; unfold ArraysFitElems at ha
    exact ⟨asJson_lim v h.1 ha.1, asElems_lim es h.2 ha.2⟩
theorem asFields_lim : ∀ (fs : List (Bytes × Val)), WFFields fs → ArraysFitFields fs → LimFields (asFields fs)
  | [], _, _ => trivial
  | (k, v) :: fs, h, ha => by
    unfold WFFields at h; unfold ArraysFitFields at ha
    exact ⟨h.1, asJson_lim v h.2.1 ha.1, asFields_lim fs h.2.2 ha.2⟩
end

mutual
theorem asJson_toVal : ∀ (v : Val), v.WF → (asJson v).toVal = v
  | .null, _ => rfl
  | .bool b, _ => rfl
  | .int i, _ => by simp [asJson, Json.toVal, wrapInt]
  | .dec d, _ => rfl
  | .str s, _ => rfl
  | .arr es, h => by rw [asJson, Json.toVal, asElems_toElems es (by simpa [Val.WF] using h)]
  | .obj fs, h => by
    rw [asJson, Json.toVal]
    have := asFields_toFields fs [] (by unfold Val.WF at h; exact h.2) (wf_obj.1 h).1
    simpa using this
theorem asElems_toElems : ∀ (es : List Val), WFElems es → toElems (asElems es) = es
  | [], _ => rfl
  | v :: es, h => by
    unfold WFElems at h
    rw [asElems, toElems, asJson_toVal v h.1, asElems_toElems es h.2]
theorem asFields_toFields : ∀ (fs acc : List (Bytes × Val)), WFFields fs → Sorted (acc ++ fs) →
    toFields acc (asFields fs) = acc ++ fs
  | [], acc, _, _ => by simp [asFields, toFields]
  | (k, v) :: fs, acc, h, hs => by
    unfold WFFields at h
    rw [asFields, toFields, asJson_toVal v h.2.1]
    have h1 : ∀ f ∈ acc, keyLt f.1 k = true := fun f hf => (List.pairwise_append.1 hs).2.2 f hf (k, v) (by simp)
    rw [mapInsert_append acc k v h1, asFields_toFields fs _ h.2.2 (by simpa using hs)]
    simp
end

/-! ### names that are too long -/

mutual
theorem lim_of_not_long : ∀ (j : Json), ¬ LongName j → OtherLimits j → j.Lim
  | .null, _, _ => trivial
  | .bool b, _, _ => trivial
  | .num n, _, h => h
  | .dbl d, _, _ => trivial
  | .str s, _, _ => trivial
  | .arr es, hn, h => by
    unfold LongName at hn; unfold OtherLimits at h; exact ⟨h.1, limElems_of_not_long es hn h.2⟩
  | .obj fs, hn, h => by
    unfold LongName at hn; unfold OtherLimits at h; exact limFields_of_not_long fs hn h
theorem limElems_of_not_long : ∀ (es : List Json), ¬ LongNameElems es → OtherLimitsElems es → LimElems es
  | [], _, _ => trivial
  | j :: es, hn, h => by
    unfold LongNameElems at hn; unfold OtherLimitsElems at h
    exact ⟨lim_of_not_long j (fun x => hn (.inl x)) h.1, limElems_of_not_long es (fun x => hn (.inr x)) h.2⟩
theorem limFields_of_not_long : ∀ (fs : List (Bytes × Json)), ¬ LongNameFields fs → OtherLimitsFields fs → LimFields fs
  | [], _, _ => trivial
  | (k, j) :: fs, hn, h => by
    unfold LongNameFields at hn; unfold OtherLimitsFields at h
    exact ⟨by omega, lim_of_not_long j (fun x => hn (.inr (.inl x))) h.1,
      limFields_of_not_long fs (fun x => hn (.inr (.inr x))) h.2⟩
end

mutual
theorem run_long : ∀ (j : Json) (s : Parser), OtherLimits j → LongName j → (s.Ready ∨ s = Parser.start) →
    s.run j.events = .throw .invalidArgument
  | .null, _, _, h, _ => by simp [LongName] at h
  | .bool b, _, _, h, _ => by simp [LongName] at h
  | .num n, _, _, h, _ => by simp [LongName] at h
  | .dbl d, _, _, h, _ => by simp [LongName] at h
  | .str s, _, _, h, _ => by simp [LongName] at h
  | .arr es, s, hl, h, hr => by
    unfold LongName at h; unfold OtherLimits at hl
    have hk : (s.startAggregate (.arr [])).currKey = .null := by
      rcases hr with hr | rfl
      · exact startAggregate_key hr _
      · rfl
    rw [Json.events]
    simp only [Parser.run, Parser.step, Res.bind]
    rw [run_append, run_long_elems es _ [] hl.2 h rfl hk (by simpa using hl.1)]; rfl
  | .obj fs, s, hl, h, hr => by
    unfold LongName at h; unfold OtherLimits at hl
    have hk : (s.startAggregate (.obj [])).currKey = .null := by
      rcases hr with hr | rfl
      · exact startAggregate_key hr _
      · rfl
    rw [Json.events]
    simp only [Parser.run, Parser.step, Res.bind]
    rw [run_append, run_long_fields fs _ [] hl h rfl hk]; rfl
theorem run_long_elems : ∀ (es : List Json) (s : Parser) (vs : List Val), OtherLimitsElems es → LongNameElems es →
    s.currObj = .arr vs → s.currKey = .null → vs.length + es.length ≤ 2 ^ 58 →
    s.run (elemEvents es) = .throw .invalidArgument
  | [], _, _, _, h, _, _, _ => by simp [LongNameElems] at h
  | j :: es, s, vs, hl, h, h1, h2, h3 => by
    unfold OtherLimitsElems at hl
    simp only [List.length_cons] at h3
    have hr : s.Ready := .inr ⟨vs, h1, h2, by omega⟩
    rw [elemEvents, run_append]
    by_cases hj : LongName j
    · rw [run_long j s hl.1 hj (.inl hr)]; rfl
    · have h' : LongNameElems es := by
        unfold LongNameElems at h; exact h.resolve_left hj
      rw [run_events j s (lim_of_not_long j hj hl.1) hr]
      simp only [Parser.embed, h1, pushBack_ok (show vs.length < 2 ^ 58 by omega), Res.bind]
      exact run_long_elems es _ (vs ++ [j.toVal]) hl.2 h' rfl h2 (by simp; omega)
theorem run_long_fields : ∀ (fs : List (Bytes × Json)) (s : Parser) (gs : List (Bytes × Val)), OtherLimitsFields fs →
    LongNameFields fs → s.currObj = .obj gs → s.currKey = .null → s.run (fieldEvents fs) = .throw .invalidArgument
  | [], _, _, _, h, _, _ => by simp [LongNameFields] at h
  | (k, j) :: fs, s, gs, hl, h, h1, h2 => by
    unfold OtherLimitsFields at hl
    have hr : ({ s with currKey := .str k } : Parser).Ready := .inl ⟨gs, k, h1, rfl⟩
    rw [fieldEvents]
    simp only [Parser.run, Parser.step, Res.bind]
    rw [run_append]
    by_cases hj : LongName j
    · rw [run_long j _ hl.1 hj (.inl hr)]; rfl
    · rw [run_events j _ (lim_of_not_long j hj hl.1) hr]
      simp only [Parser.embed, h1, Val.insert]
      by_cases hk : k.length > 65535
      · rw [if_pos hk]; rfl
      · rw [if_neg hk]
        have h' : LongNameFields fs := by
          unfold LongNameFields at h
          exact (h.resolve_left (by omega)).resolve_left hj
        simp only [Res.bind]
        exact run_long_fields fs _ _ hl.2 h' rfl rfl
end

end Dart
