import Verif.Lemmas.MapKeys
import Verif.Props.C45
import Verif.Props.C67

/-
C87: comparing a packet with a value of a C++ type is `noexcept` and has an answer; and maps of the standard library with
keys that are not strings, which the same templates accept, but which cannot be converted to packets, lose fields or end
the program.
-/
namespace Dart.Props
open Spec KMap

variable {signed exact : Bool} {p : Pkt} {v : Val}

/-- `p == x` has an answer and does not end the program, for packets in either state, whatever they hold, and for all types
modelled.
Missing for the full property: `forward_list` (see C45), and maps with keys that are not strings, for which it is wrong. -/
theorem C87_always_answers_partial (h : Reached signed exact p) (hv : p.toHeap = .ok v) {t : CTy} (hn : NoForward t)
    {x : t.type} (hf : Fit t x) : ∃ b, equals signed t p x = .returns b := by
  obtain ⟨b, e⟩ := compare_answers (signed := signed) t x (Reached.held_of h hv) hn hf
  exact ⟨b, by rw [equals, e]; rfl⟩

/-- For keys that are strings, maps and multimaps behave as in C44 and C45. -/
theorem C87_string_keys (less : Bytes → Bytes → Bool) (t : CTy) (p : Pkt) (m : List (Bytes × t.type)) :
    (mapToDart .str t m = (CTy.map less t).toDart m ∧ multiToDart .str t less m = (CTy.mmap less t).toDart m) ∧
    (mapFromDart .str t less p = (CTy.map less t).fromDart p ∧ multiFromDart .str t less p = (CTy.mmap less t).fromDart p) ∧
    equalsMap .str t signed p m = equals signed (.map less t) p m ∧
    equalsMulti .str t signed less p m = equals signed (.mmap less t) p m := by
  refine ⟨⟨addAll_str .., ?_⟩, ⟨?_, ?_⟩, ?_, ?_⟩
  · show (KMap.accumAll .str less t.toDart [] m).bind (fun acc => KMap.addAll .str .ok (.obj []) acc) =
      (Dart.accumAll less t.toDart [] m).bind fun acc => Dart.addAll .ok (.obj []) acc
    have e : KMap.accumAll .str less t.toDart [] m = Dart.accumAll less t.toDart [] m := accumAll_str less t.toDart [] m
    rw [e]
    congr 1; funext acc
    exact addAll_str .ok (.obj []) acc
  · show (if p.getType = .object then p.keys.bind fun ks => p.values.bind fun vs => KMap.emplaceFields .str less t.fromDart [] ks vs
      else .throw .typeError) =
      if p.getType = .object then p.keys.bind fun ks => p.values.bind fun vs => Dart.emplaceFields less t.fromDart [] ks vs
      else .throw .typeError
    congr 2; funext ks
    congr 1; funext vs
    exact emplaceFields_str less t.fromDart [] ks vs
  · show (if p.getType = .object then p.keys.bind fun ks => p.values.bind fun vs => KMap.emplaceGroups .str less t.fromDart [] ks vs
      else .throw .typeError) =
      if p.getType = .object then p.keys.bind fun ks => p.values.bind fun vs => Dart.emplaceGroups less t.fromDart [] ks vs
      else .throw .typeError
    congr 2; funext ks
    congr 1; funext vs
    exact emplaceGroups_str less t.fromDart [] ks vs
  · show noexceptCall (if p.getType ≠ .object then .ok false
      else p.size.bind fun n => if n ≠ m.length then .ok false else KMap.eqFields .str signed (t.compare signed) p m) = _
    have e : KMap.eqFields .str signed (t.compare signed) p m = Dart.eqFields signed (t.compare signed) p m := eqFields_str _ _ _
    rw [e]
    rfl
  · show noexceptCall (if p.getType ≠ .object then .ok false
      else KMap.eqGroups .str signed (t.compare signed) p (KMap.runs less m)) = _
    have e : KMap.eqGroups .str signed (t.compare signed) p (KMap.runs less m) =
        Dart.eqGroups signed (t.compare signed) p (Dart.runs less m) := by
      exact (eqGroups_str _ _ _).trans (congrArg (Dart.eqGroups signed (t.compare signed) p) (runs_str less m))
    rw [e]
    rfl

variable {s : NativeTy} {t : CTy}

/-! What is wrong, for maps from `bool`, from integers and from `double`. -/

/-- Comparing a packet with such a map ends the program exactly if the packet is an object of the same size, which is not
zero. (There is an answer before the keys are looked at otherwise.) -/
theorem C87_map_comparison_ends_program (hs : Plain s) (h : Reached signed exact p) (hv : p.toHeap = .ok v) (m : Elems s t) :
    equalsMap s t signed p m = match v with
      | .obj fs => if fs.length ≠ m.length then .returns false else if m.length = 0 then .returns true else .terminates
      | _ => .returns false := by
  have hp := Reached.held_of h hv
  have ht := hp.getType
  cases v with
  | obj fs =>
    have hz : p.size = .ok fs.length := hp.size
    rw [equalsMap, mapBody, if_neg (by rw [ht]; simp [Val.ty]), hz, Res.bind_ok]
    by_cases hl : fs.length = m.length
    · rw [if_neg (by simp [hl])]
      show _ = if fs.length ≠ m.length then Ended.returns false else if m.length = 0 then Ended.returns true else Ended.terminates
      rw [if_neg (by simp [hl])]
      cases m with
      | nil => rfl
      | cons e m =>
        obtain ⟨k, x⟩ := e
        rw [KMap.eqFields, find_throws hs hp k]
        rfl
    · rw [if_pos hl]
      show _ = if fs.length ≠ m.length then Ended.returns false else if m.length = 0 then Ended.returns true else Ended.terminates
      rw [if_pos hl]
      rfl
  | _ => rw [equalsMap, mapBody, if_pos (by rw [ht]; simp [Val.ty])]; rfl

/-- Comparing an object with such a multimap ends the program unless the multimap is empty. -/
theorem C87_multimap_comparison_ends_program (hs : Plain s) (h : Reached signed exact p) (hv : p.toHeap = .ok v)
    (less : s.type → s.type → Bool) (m : Elems s t) :
    equalsMulti s t signed less p m = match v with
      | .obj _ => if m.length = 0 then .returns true else .terminates
      | _ => .returns false := by
  have hp := Reached.held_of h hv
  have ht := hp.getType
  cases v with
  | obj fs =>
    rw [equalsMulti, multiBody, if_neg (by rw [ht]; simp [Val.ty])]
    cases m with
    | nil => rfl
    | cons e m =>
      obtain ⟨⟨k, xs⟩, gs, hg⟩ := runs_ne less e m
      rw [hg, KMap.eqGroups, find_throws hs hp k]
      rfl
  | _ => rw [equalsMulti, multiBody, if_pos (by rw [ht]; simp [Val.ty])]; rfl

/-- No such map but the empty one can be converted to a packet. -/
theorem C87_no_conversion_to_packets (hs : Plain s) (ho : OrdersIn t) (m : Elems s t) (hf : ∀ e ∈ m, Fit t e.2) :
    mapToDart s t m = if m.length = 0 then .ok (.obj []) else .throw .typeError := by
  cases m with
  | nil => rfl
  | cons e m =>
    obtain ⟨k, x⟩ := e
    obtain ⟨v, h1, _⟩ := toDart_ok t x (hf (k, x) (by simp)) ho
    rw [mapToDart, KMap.addAll, h1, Res.bind_ok, insert_throws hs]
    rfl

/-- Nor can such a multimap. -/
theorem C87_no_multimap_conversion_to_packets (hs : Plain s) (ho : OrdersIn t) (less : s.type → s.type → Bool) (m : Elems s t)
    (hf : ∀ e ∈ m, Fit t e.2) :
    (m = [] → multiToDart s t less m = .ok (.obj [])) ∧ (m ≠ [] → ∃ e, multiToDart s t less m = .throw e) := by
  refine ⟨by rintro rfl; rfl, fun hm => ?_⟩
  rcases accumAll_ne less ho hf (acc := []) (by simp) with ⟨e, h1⟩ | ⟨acc, h1, h2⟩
  · exact ⟨e, by rw [multiToDart, h1]; rfl⟩
  · cases acc with
    | nil => exact absurd rfl (h2 (.inr hm))
    | cons g acc =>
      obtain ⟨k, w⟩ := g
      refine ⟨.typeError, ?_⟩
      rw [multiToDart, h1, Res.bind_ok, KMap.addAll, Res.bind_ok, insert_throws hs]
      rfl

/-- No object but the empty one can be converted to a map or multimap from integers or doubles. -/
theorem C87_no_conversion_from_packets (hs : Plain s) (hb : s ≠ .bool) (h : Reached signed exact p) {fs : List (Bytes × Val)}
    (hv : p.toHeap = .ok (.obj fs)) (less : s.type → s.type → Bool) :
    mapFromDart s t less p = (if fs.length = 0 then .ok [] else .throw .typeError) ∧
    multiFromDart s t less p = (if fs.length = 0 then .ok [] else .throw .typeError) := by
  have hp := Reached.held_of h hv
  have ht : p.getType = .object := hp.getType
  obtain ⟨ks, h1, h2⟩ := Held_keyPkts hp
  obtain ⟨_, vs, _, h3, _, h4⟩ := hp.fields
  rw [mapFromDart, multiFromDart, if_pos ht, if_pos ht, h1, h3]
  simp only [Res.bind_ok]
  match fs, ks, vs, h2, h4 with
  | [], [], [], _, _ => exact ⟨rfl, rfl⟩
  | f :: fs, k :: ks, w :: vs, h2, h4 =>
    rw [KMap.emplaceFields, KMap.emplaceGroups, castKey_throws hs hb h2.1]
    exact ⟨rfl, rfl⟩
  | [], _ :: _, _, h2, _ => exact h2.elim
  | [], [], _ :: _, _, h4 => exact h4.elim
  | _ :: _, [], _, h2, _ => exact h2.elim
  | _ :: _, _ :: _, [], _, h4 => exact h4.elim

/-- An object converts to a map from `bool`, but all of its keys become `true`: only the first field is left. -/
theorem C87_bool_keys_lose_fields (h : Reached signed exact p) {fs : List (Bytes × Val)} (hv : p.toHeap = .ok (.obj fs))
    {less : Bool → Bool → Bool} (hl : less true true = false) {xs : List t.type}
    (hx : Each (fun f x => t.fromDart (.heap f.2) = .ok x) fs xs) :
    mapFromDart .bool t less p = .ok (match xs with | [] => [] | x :: _ => [(true, x)]) := by
  have hp := Reached.held_of h hv
  have ht : p.getType = .object := hp.getType
  obtain ⟨ks, h1, h2⟩ := Held_keyPkts hp
  obtain ⟨_, vs, _, h3, _, h4⟩ := hp.fields
  suffices KMap.emplaceFields .bool less t.fromDart [] ks vs = .ok (match xs with | [] => [] | x :: _ => [(true, x)]) by
    show (if p.getType = .object then p.keys.bind fun ks => p.values.bind fun vs => KMap.emplaceFields .bool less t.fromDart [] ks vs
      else .throw .typeError) = _
    rw [if_pos ht, h1, Res.bind_ok, h3, Res.bind_ok]
    exact this
  have step : ∀ {k w : Pkt} {g : Bytes × Val} {x : t.type}, Held exact k ⟨p.isFinalized, .str g.1⟩ → Held exact w ⟨p.isFinalized, g.2⟩ →
      t.fromDart (.heap g.2) = .ok x → castKey .bool k = .ok true ∧ t.fromDart w = .ok x := fun a b c =>
    ⟨castKey_bool a, by rw [fromDart_same (z := exact) t ⟨_, _, b, rfl⟩]; exact c⟩
  have more : ∀ {fs : List (Bytes × Val)} {ks vs : List Pkt} {xs : List t.type} (y : t.type),
      Each (fun k g => Held exact k ⟨p.isFinalized, .str g.1⟩) ks fs → Each (fun q g => Held exact q ⟨p.isFinalized, g.2⟩) vs fs →
      Each (fun f x => t.fromDart (.heap f.2) = .ok x) fs xs →
      KMap.emplaceFields .bool less t.fromDart [(true, y)] ks vs = .ok [(true, y)] := by
    intro fs
    induction fs with
    | nil =>
      intro ks vs xs y a b c
      cases ks with
      | nil => cases vs with
        | nil => rfl
        | cons _ _ => exact b.elim
      | cons _ _ => exact a.elim
    | cons g fs ih =>
      intro ks vs xs y a b c
      cases ks with
      | nil => exact a.elim
      | cons k ks => cases vs with
        | nil => exact b.elim
        | cons w vs => cases xs with
          | nil => exact c.elim
          | cons x xs =>
            obtain ⟨e1, e2⟩ := step a.1 b.1 c.1
            have e3 : emplace less (fun e : Bool × t.type => e.1) (true, x) [(true, y)] = [(true, y)] := by
              simp [emplace, hl]
            refine (emplaceFields_step (s := .bool) e1 e2).trans ?_
            exact (congrArg (fun acc => KMap.emplaceFields .bool less t.fromDart acc ks vs) e3).trans (ih y a.2 b.2 c.2)
  match fs, ks, vs, xs, h2, h4, hx with
  | [], [], [], [], _, _, _ => rfl
  | g :: fs, k :: ks, w :: vs, x :: xs, h2, h4, hx =>
    obtain ⟨e1, e2⟩ := step h2.1 h4.1 hx.1
    refine (emplaceFields_step (s := .bool) e1 e2).trans ?_
    exact more x h2.2 h4.2 hx.2
  | [], _ :: _, _, _, h2, _, _ => exact h2.elim
  | [], [], _ :: _, _, _, h4, _ => exact h4.elim
  | [], [], [], _ :: _, _, _, hx => exact hx.elim
  | _ :: _, [], _, _, h2, _, _ => exact h2.elim
  | _ :: _, _ :: _, [], _, _, h4, _ => exact h4.elim
  | _ :: _, _ :: _, _ :: _, [], _, _, hx => exact hx.elim

/-! Concrete cases. -/

/-- `std::map<int, bool>`. -/
abbrev tyInt : NativeTy := .int ⟨32, true⟩

/-- `{"a": true} == std::map<int, bool> {{1, true}}` ends the program, also if the key looks like the integer. -/
example : equalsMap tyInt (.scalar .bool) true (.heap (.obj [([97], .bool true)])) [((1 : Int), true)] = .terminates := rfl
example : equalsMap tyInt (.scalar .bool) true (.heap (.obj [([49], .bool true)])) [((1 : Int), true)] = .terminates := rfl
/-- An empty object does not, nor does an array. -/
example : equalsMap tyInt (.scalar .bool) true (.heap (.obj [])) [((1 : Int), true)] = .returns false := rfl
example : equalsMap tyInt (.scalar .bool) true (.heap (.arr [.bool true])) [((1 : Int), true)] = .returns false := rfl
example : equalsMulti tyInt (.scalar .bool) true (fun a b : Int => decide (a < b)) (.heap (.obj [])) [((1 : Int), true)] =
    .terminates := rfl
example : mapFromDart .bool (.scalar .bool) (fun a b => !a && b) (.heap (.obj [([97], .bool true), ([98], .bool false)])) =
    .ok [(true, true)] := rfl
example : mapToDart tyInt (.scalar .bool) [((1 : Int), true)] = .throw .typeError := rfl
example : Plain tyInt := ⟨(nomatch ·), (nomatch ·)⟩
example : equalsMap .str (.scalar .bool) true (.heap (.obj [([97], .bool true)])) [([97], true)] = .returns true := rfl

end Dart.Props
