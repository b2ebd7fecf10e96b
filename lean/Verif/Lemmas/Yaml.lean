import Verif.Spec.Yaml
import Verif.Lemmas.Json

/-
YAML, helpers.
-/
namespace Dart
open Spec

/-! ### the machine does what the JSON parser does -/

/-- The machine with the variables of the JSON parser. -/
def Parser.lift (p : Parser) (st : YState) (sts : List YState) : YParser :=
  ⟨p.currKey, p.currObj, p.keyStack, p.objStack, sts, st⟩

/-- What the state says of the variables. -/
def Parser.ReadyIn (p : Parser) : YState → Prop
  | .scalar => False
  | .key => ∃ gs, p.currObj = .obj gs ∧ p.currKey = .null
  | .value => ∃ gs k, p.currObj = .obj gs ∧ p.currKey = .str k
  | .element => ∃ vs, p.currObj = .arr vs ∧ p.currKey = .null

/-- The state after a node. -/
def YState.after (st : YState) : YState := if st = .value then .key else st

/-- The machine and the parser go together. -/
def Sim (strtod : Strtod) (p : Parser) (st : YState) (sts : List YState) (ye : List YEvent) (je : List Event) (st' : YState) :
    Prop :=
  (p.lift st sts).run strtod ye = (p.run je).bind (fun q => .ok (q.lift st' sts)) ∧
  ∀ q, p.run je = .ok q → q.ReadyIn st' ∧ q.keyStack = p.keyStack ∧ q.objStack = p.objStack

theorem yrun_append (strtod : Strtod) (s : YParser) (a b : List YEvent) :
    s.run strtod (a ++ b) = (s.run strtod a).bind fun t => t.run strtod b := by
  induction a generalizing s with
  | nil => rfl
  | cons e a ih =>
    simp only [List.cons_append, YParser.run]
    cases s.step strtod e with
    | ok t => simp only [Res.bind]; exact ih t
    | throw e => rfl
    | ub => rfl

theorem yrun_single (strtod : Strtod) (s : YParser) (e : YEvent) : s.run strtod [e] = s.step strtod e := by
  simp only [YParser.run]; cases s.step strtod e <;> rfl

theorem Sim.append {strtod : Strtod} {p : Parser} {st st1 st2 : YState} {sts : List YState} {a a' : List YEvent}
    {b b' : List Event} (h : Sim strtod p st sts a b st1)
    (h' : ∀ q, p.run b = .ok q → q.ReadyIn st1 → Sim strtod q st1 sts a' b' st2) :
    Sim strtod p st sts (a ++ a') (b ++ b') st2 := by
  refine ⟨?_, fun q hq => ?_⟩
  · rw [yrun_append, run_append, h.1]
    cases hr : p.run b with
    | ok q => exact (h' q hr (h.2 q hr).1).1
    | throw e => rfl
    | ub => rfl
  · rw [run_append] at hq
    cases hr : p.run b with
    | ok r =>
      rw [hr] at hq
      have h1 := h.2 r hr
      have h2 := (h' r hr h1.1).2 q hq
      exact ⟨h2.1, h2.2.1.trans h1.2.1, h2.2.2.trans h1.2.2⟩
    | throw e => rw [hr] at hq; cases hq
    | ub => rw [hr] at hq; cases hq

theorem embed_ready {p q : Parser} {st : YState} (h : p.ReadyIn st) (hst : st = .value ∨ st = .element) {v : Val}
    (hq : p.embed v = .ok q) : q.ReadyIn st.after ∧ q.keyStack = p.keyStack ∧ q.objStack = p.objStack := by
  rcases hst with rfl | rfl
  · obtain ⟨gs, k, h1, h2⟩ := h
    simp only [Parser.embed, h1, h2, Val.insert] at hq
    split at hq
    · cases hq
    · cases hq; exact ⟨⟨_, rfl, rfl⟩, rfl, rfl⟩
  · obtain ⟨vs, h1, h2⟩ := h
    simp only [Parser.embed, h1] at hq
    cases hp : (Val.arr vs).pushBack v with
    | ok o =>
      rw [hp] at hq
      cases hq
      simp only [Val.pushBack, Val.size, Res.bind, Val.insert] at hp
      repeat' split at hp
      all_goals first | (cases hp; done) | (cases hp; exact ⟨⟨_, rfl, h2⟩, rfl, rfl⟩)
    | throw e => rw [hp] at hq; cases hq
    | ub => rw [hp] at hq; cases hq

/-- A scalar. -/
theorem sim_scalar {strtod : Strtod} {p : Parser} {st : YState} (h : p.ReadyIn st) (hst : st = .value ∨ st = .element)
    (sts : List YState) (q : Bool) (t : Bytes) {e : Event} (he : ∀ p : Parser, p.step e = p.embed (parseScalar strtod t)) :
    Sim strtod p st sts [.scalar q t] [e] st.after := by
  refine ⟨?_, fun q hq => ?_⟩
  · rw [yrun_single, run_single, he]
    rcases hst with rfl | rfl
    · obtain ⟨gs, k, h1, h2⟩ := h
      simp only [YParser.step, Parser.lift, Parser.embed, h1, h2]
      cases (Val.obj gs).insert (.str k) (parseScalar strtod t) <;> rfl
    · obtain ⟨vs, h1, h2⟩ := h
      simp only [YParser.step, Parser.lift, Parser.embed, h1, h2]
      cases (Val.arr vs).pushBack (parseScalar strtod t) <;> rfl
  · rw [run_single, he] at hq
    exact embed_ready h hst hq

theorem startAggregate_readyIn {p : Parser} {st : YState} (h : p.ReadyIn st) (hst : st = .value ∨ st = .element) (e : Val) :
    (p.startAggregate e).currKey = .null := by
  rcases hst with rfl | rfl
  · obtain ⟨gs, k, h1, h2⟩ := h; simp [Parser.startAggregate, h2, Val.truthy]
  · obtain ⟨gs, h1, h2⟩ := h; simp [Parser.startAggregate, h2, Val.truthy]

theorem startNode_lift (p : Parser) (st : YState) (sts : List YState) (e : Val) (st' : YState) :
    (p.lift st sts).startNode e st' = (p.startAggregate e).lift st' (st :: sts) := rfl

theorem intoParent_lift (p : Parser) (st : YState) (sts : List YState) :
    (p.lift st sts).intoParent = p.endAggregate.bind fun q => .ok (q.lift st sts) := by
  obtain ⟨pk, po, pks, pos⟩ := p
  simp only [YParser.intoParent, Parser.endAggregate, Parser.lift]
  cases pos with
  | nil => rfl
  | cons parent objs =>
    cases parent with
    | obj fs =>
      cases pks with
      | nil => rfl
      | cons k ks => simp only []; cases (Val.obj fs).insert k po <;> rfl
    | _ => simp only []; generalize Val.pushBack _ po = r; cases r <;> rfl

theorem endAggregate_embed {p q : Parser} {st : YState} (h : p.ReadyIn st) (hst : st = .value ∨ st = .element) {e : Val}
    (h1 : q.currKey = .null) (h2 : q.keyStack = (p.startAggregate e).keyStack) (h3 : q.objStack = (p.startAggregate e).objStack) :
    q.endAggregate = p.embed q.currObj := by
  obtain ⟨qk, qo, qks, qos⟩ := q
  simp only at h1 h2 h3
  subst h1 h2 h3
  rcases hst with rfl | rfl
  · obtain ⟨gs, k, h1, h2⟩ := h
    simp [Parser.startAggregate, Parser.endAggregate, Parser.embed, h1, h2, Val.truthy]
  · obtain ⟨gs, h1, h2⟩ := h
    simp [Parser.startAggregate, Parser.endAggregate, Parser.embed, h1, h2, Val.truthy]

/-- An aggregate. -/
theorem sim_node {strtod : Strtod} {p : Parser} {st : YState} (h : p.ReadyIn st) (hst : st = .value ∨ st = .element)
    (sts : List YState) (e : Val) (st' : YState) {ys ye : YEvent} {js je : Event} {a : List YEvent} {b : List Event}
    (h1 : ∀ s : YParser, s.step strtod ys = .ok (s.startNode e st'))
    (h2 : ∀ s : YParser, s.step strtod ye = s.intoParent.bind YParser.restore)
    (h3 : ∀ p : Parser, p.step js = .ok (p.startAggregate e)) (h4 : ∀ p : Parser, p.step je = p.endAggregate)
    (hk : ∀ q : Parser, q.ReadyIn st' → q.currKey = .null)
    (ha : Sim strtod (p.startAggregate e) st' (st :: sts) a b st') :
    Sim strtod p st sts (ys :: (a ++ [ye])) (js :: (b ++ [je])) st.after := by
  refine ⟨?_, fun q hq => ?_⟩
  · simp only [YParser.run, Parser.run, h1, h3, Res.bind, startNode_lift]
    rw [yrun_append, run_append, ha.1]
    cases hr : (p.startAggregate e).run b with
    | ok q =>
      simp only [Res.bind, yrun_single, run_single, h2, h4, intoParent_lift]
      cases q.endAggregate <;> rfl
    | throw e => rfl
    | ub => rfl
  · simp only [Parser.run, h3, Res.bind] at hq
    rw [run_append] at hq
    cases hr : (p.startAggregate e).run b with
    | ok r =>
      rw [hr] at hq
      obtain ⟨g1, g2, g3⟩ := ha.2 r hr
      simp only [Res.bind, run_single, h4] at hq
      rw [endAggregate_embed h hst (hk r g1) g2 g3] at hq
      exact embed_ready h hst hq
    | throw e => rw [hr] at hq; cases hq
    | ub => rw [hr] at hq; cases hq

/-- Scalars as they should be. -/
def ScalarsFine (strtod : Strtod) : Prop := ∀ t j, Usual t → Resolves strtod t j → ∃ e, j.events = [e] ∧
  ∀ p : Parser, p.step e = p.embed (parseScalar strtod t)

mutual
theorem sim_yaml {strtod : Strtod} (hs : ScalarsFine strtod) : ∀ (y : Yaml) (j : Json) (p : Parser) (st : YState) (sts : List YState),
    AsJson strtod y j → UsualIn strtod y → p.ReadyIn st → st = .value ∨ st = .element →
    Sim strtod p st sts y.events j.events st.after
  | .scalar q t, j, p, st, sts, hj, hu, hr, hst => by
    have : Resolves strtod t j := by
      cases hj with
      | quoted => exact hu.2 rfl
      | plain h => exact h
    obtain ⟨e, h1, h2⟩ := hs t j hu.1 this
    rw [Yaml.events, h1]
    exact sim_scalar hr hst sts q t h2
  | .seq es, j, p, st, sts, hj, hu, hr, hst => by
    cases hj with
    | @seq _ js hj =>
      rw [Yaml.events, Json.events]
      refine sim_node hr hst sts (.arr []) .element (fun _ => rfl) (fun _ => rfl) (fun _ => rfl) (fun _ => rfl)
        (fun q hq => hq.choose_spec.2) ?_
      exact sim_elems hs es js _ (st :: sts) hj hu ⟨[], rfl, startAggregate_readyIn hr hst _⟩
  | .map fs, j, p, st, sts, hj, hu, hr, hst => by
    cases hj with
    | @map _ ms hj =>
      rw [Yaml.events, Json.events]
      refine sim_node hr hst sts (.obj []) .key (fun _ => rfl) (fun _ => rfl) (fun _ => rfl) (fun _ => rfl)
        (fun q hq => hq.choose_spec.2) ?_
      exact sim_members hs fs ms _ (st :: sts) hj hu ⟨[], rfl, startAggregate_readyIn hr hst _⟩
  | .alias, j, p, st, sts, hj, hu, hr, hst => by cases hj
theorem sim_elems {strtod : Strtod} (hs : ScalarsFine strtod) : ∀ (es : List Yaml) (js : List Json) (p : Parser) (sts : List YState),
    AsElems strtod es js → UsualElems strtod es → p.ReadyIn .element →
    Sim strtod p .element sts (elemYEvents es) (elemEvents js) .element
  | [], js, p, sts, hj, hu, hr => by
    cases hj
    exact ⟨rfl, fun q hq => by cases hq; exact ⟨hr, rfl, rfl⟩⟩
  | y :: es, js, p, sts, hj, hu, hr => by
    cases hj with
    | @cons _ j _ js h1 h2 =>
      rw [elemYEvents, elemEvents]
      exact (sim_yaml hs y j p .element sts h1 hu.1 hr (.inr rfl)).append fun q _ hq => sim_elems hs es js q sts h2 hu.2 hq
theorem sim_members {strtod : Strtod} (hs : ScalarsFine strtod) : ∀ (fs : List (Yaml × Yaml)) (ms : List (Bytes × Json)) (p : Parser)
    (sts : List YState), AsMembers strtod fs ms → UsualMembers strtod fs → p.ReadyIn .key →
    Sim strtod p .key sts (fieldYEvents fs) (fieldEvents ms) .key
  | [], js, p, sts, hj, hu, hr => by
    cases hj
    exact ⟨rfl, fun q hq => by cases hq; exact ⟨hr, rfl, rfl⟩⟩
  | (ky, y) :: fs, ms, p, sts, hj, hu, hr => by
    cases hj with
    | @cons q k _ j _ ms h1 h2 =>
      rw [fieldYEvents, fieldEvents]
      have hk : Sim strtod p .key sts (Yaml.scalar q k).events [.key k] .value := by
        refine ⟨rfl, fun q hq => ?_⟩
        cases hq
        obtain ⟨gs, g1, g2⟩ := hr
        exact ⟨⟨gs, k, g1, rfl⟩, rfl, rfl⟩
      refine hk.append fun q' _ hq' => ?_
      exact (sim_yaml hs y j q' .value sts h1 hu.1 hq' (.inl rfl)).append fun q _ hq => sim_members hs fs ms q sts h2 hu.2 hq
end

/-- The root. -/
theorem parseYaml_seq {strtod : Strtod} (hs : ScalarsFine strtod) {es : List Yaml} {js : List Json} (hj : AsElems strtod es js)
    (hu : UsualElems strtod es) : parseYaml strtod (some (.seq es)) = (Json.arr js).toHeap := by
  have h := sim_elems hs es js (Parser.start.startAggregate (.arr [])) [.scalar] hj hu ⟨[], rfl, rfl⟩
  simp only [parseYaml, Option.map_some, Option.getD_some, Yaml.events, Json.toHeap, Json.events, YParser.run, YParser.step,
    Parser.run, Parser.step, Res.bind]
  rw [show YParser.start = Parser.start.lift .scalar [] from rfl, startNode_lift, yrun_append, run_append, h.1]
  cases hr : (Parser.start.startAggregate (.arr [])).run (elemEvents js) with
  | ok q =>
    obtain ⟨⟨vs, g1, g2⟩, g3, g4⟩ := h.2 q hr
    have g4 : q.objStack = [] := g4
    have he : q.endAggregate = .ok q := by simp only [Parser.endAggregate, g4]
    simp only [Res.bind, yrun_single, run_single, YParser.step, Parser.step, intoParent_lift, he]
    simp [YParser.restore, Parser.lift, g1, Val.truthy]
  | throw e => rfl
  | ub => rfl

theorem parseYaml_map {strtod : Strtod} (hs : ScalarsFine strtod) {fs : List (Yaml × Yaml)} {ms : List (Bytes × Json)}
    (hj : AsMembers strtod fs ms) (hu : UsualMembers strtod fs) : parseYaml strtod (some (.map fs)) = (Json.obj ms).toHeap := by
  have h := sim_members hs fs ms (Parser.start.startAggregate (.obj [])) [.scalar] hj hu ⟨[], rfl, rfl⟩
  simp only [parseYaml, Option.map_some, Option.getD_some, Yaml.events, Json.toHeap, Json.events, YParser.run, YParser.step,
    Parser.run, Parser.step, Res.bind]
  rw [show YParser.start = Parser.start.lift .scalar [] from rfl, startNode_lift, yrun_append, run_append, h.1]
  cases hr : (Parser.start.startAggregate (.obj [])).run (fieldEvents ms) with
  | ok q =>
    obtain ⟨⟨vs, g1, g2⟩, g3, g4⟩ := h.2 q hr
    have g4 : q.objStack = [] := g4
    have he : q.endAggregate = .ok q := by simp only [Parser.endAggregate, g4]
    simp only [Res.bind, yrun_single, run_single, YParser.step, Parser.step, intoParent_lift, he]
    simp [YParser.restore, Parser.lift, g1, Val.truthy]
  | throw e => rfl
  | ub => rfl

/-! ### aliases -/

mutual
theorem alias_event : ∀ (y : Yaml), HasAlias y → YEvent.alias ∈ y.events
  | .scalar _ _, h => h.elim
  | .seq es, h => by rw [Yaml.events]; simp [alias_elems es h]
  | .map fs, h => by rw [Yaml.events]; simp [alias_members fs h]
  | .alias, _ => by simp [Yaml.events]
theorem alias_elems : ∀ (es : List Yaml), HasAliasElems es → YEvent.alias ∈ elemYEvents es
  | [], h => h.elim
  | y :: es, h => by
    rw [elemYEvents]
    exact List.mem_append.2 (h.elim (fun h => .inl (alias_event y h)) fun h => .inr (alias_elems es h))
theorem alias_members : ∀ (fs : List (Yaml × Yaml)), HasAliasMembers fs → YEvent.alias ∈ fieldYEvents fs
  | [], h => h.elim
  | (k, y) :: fs, h => by
    rw [fieldYEvents]
    rcases h with h | h | h
    · exact List.mem_append.2 (.inl (alias_event k h))
    · exact List.mem_append.2 (.inr (List.mem_append.2 (.inl (alias_event y h))))
    · exact List.mem_append.2 (.inr (List.mem_append.2 (.inr (alias_members fs h))))
end

theorem run_alias (strtod : Strtod) : ∀ (es : List YEvent) (s t : YParser), YEvent.alias ∈ es → s.run strtod es ≠ .ok t
  | [], _, _, h, _ => by cases h
  | e :: es, s, t, h, hr => by
    rw [YParser.run] at hr
    rcases List.mem_cons.1 h with rfl | h
    · cases hr
    · cases hs : s.step strtod e with
      | ok s' => rw [hs] at hr; exact run_alias strtod es s' t h hr
      | throw e => rw [hs] at hr; cases hr
      | ub => rw [hs] at hr; cases hr

/-! ### a mapping or sequence as a key -/

theorem fieldYEvents_append : ∀ (fs gs : List (Yaml × Yaml)), fieldYEvents (fs ++ gs) = fieldYEvents fs ++ fieldYEvents gs
  | [], _ => rfl
  | (k, y) :: fs, gs => by
    rw [List.cons_append, fieldYEvents, fieldYEvents, fieldYEvents_append fs gs]; simp only [List.append_assoc]

/-- A key of this kind where there is no enclosing object. -/
theorem run_complex {strtod : Strtod} (hs : ScalarsFine strtod) {k : Yaml} {j : Json} (hk : (∃ es, k = .seq es) ∨ ∃ fs, k = .map fs)
    (hj : AsJson strtod k j) (hu : UsualIn strtod k) (hl : j.Lim) {p : Parser} (hp : p.ReadyIn .key) (h0 : p.keyStack = [])
    (sts : List YState) : (p.lift .key sts).run strtod k.events = .ub := by
  obtain ⟨gs, g1, g2⟩ := hp
  have e1 : ∀ v, (p.startAggregate v).currKey = .null := fun v => by simp [Parser.startAggregate, g2, Val.truthy]
  have e2 : ∀ v, (p.startAggregate v).keyStack = [] := fun v => by simp [Parser.startAggregate, g2, Val.truthy, h0]
  have e3 : ∀ v, (p.startAggregate v).objStack = .obj gs :: p.objStack := fun v => by simp [Parser.startAggregate, g1, Val.truthy]
  rcases hk with ⟨es, rfl⟩ | ⟨fs, rfl⟩
  · cases hj with
    | @seq _ js hj =>
      unfold Json.Lim at hl
      have h := sim_elems hs es js (p.startAggregate (.arr [])) (.key :: sts) hj hu ⟨[], rfl, e1 _⟩
      have hr := run_elems js (p.startAggregate (.arr [])) [] hl.2 rfl (e1 _) (by simpa using hl.1)
      rw [Yaml.events]
      simp only [YParser.run, YParser.step, Res.bind, startNode_lift]
      rw [yrun_append, h.1, hr]
      simp only [Res.bind, yrun_single, YParser.step, intoParent_lift, Parser.endAggregate, e3, e2]
  · cases hj with
    | @map _ ms hj =>
      unfold Json.Lim at hl
      have h := sim_members hs fs ms (p.startAggregate (.obj [])) (.key :: sts) hj hu ⟨[], rfl, e1 _⟩
      have hr := run_fields ms (p.startAggregate (.obj [])) [] hl rfl (e1 _)
      rw [Yaml.events]
      simp only [YParser.run, YParser.step, Res.bind, startNode_lift]
      rw [yrun_append, h.1, hr]
      simp only [Res.bind, yrun_single, YParser.step, intoParent_lift, Parser.endAggregate, e3, e2]

theorem parseYaml_complex {strtod : Strtod} (hs : ScalarsFine strtod) {fs rest : List (Yaml × Yaml)} {ms : List (Bytes × Json)}
    {k v : Yaml} {j : Json} (hf : AsMembers strtod fs ms) (hfu : UsualMembers strtod fs) (hfl : LimFields ms)
    (hk : (∃ es, k = .seq es) ∨ ∃ fs, k = .map fs) (hj : AsJson strtod k j) (hu : UsualIn strtod k) (hl : j.Lim) :
    parseYaml strtod (some (.map (fs ++ (k, v) :: rest))) = .ub := by
  have h := sim_members hs fs ms (Parser.start.startAggregate (.obj [])) [.scalar] hf hfu ⟨[], rfl, rfl⟩
  have hr := run_fields ms (Parser.start.startAggregate (.obj [])) [] hfl rfl rfl
  have hq := h.2 _ hr
  have hc := run_complex hs hk hj hu hl hq.1 (hq.2.1.trans rfl) [.scalar]
  simp only [parseYaml, Option.map_some, Option.getD_some, Yaml.events, YParser.run, YParser.step, Res.bind]
  rw [show YParser.start = Parser.start.lift .scalar [] from rfl, startNode_lift, yrun_append, fieldYEvents_append, yrun_append,
    h.1, hr]
  simp only [Res.bind]
  rw [fieldYEvents, yrun_append, hc]
  rfl

end Dart
