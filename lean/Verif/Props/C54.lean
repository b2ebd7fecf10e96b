import Verif.Lemmas.TypedInv

/-
C54: a typed wrapper (`dart::object`, `dart::array`, `dart::string`, `dart::number`, `dart::flag`) holds a value of the
type its class names.
-/
namespace Dart.Props
open Dart.Typed

/-- Any program that does not assign through the reference `definalize` returns: at the end every wrapper is of its type
or null. Nothing is assumed about the packets the wrappers are made of. -/
theorem C54_typed_partial {signed : Bool} {ops : List Op} (h : ∀ op ∈ ops, ¬ op.throughRef) {st : State}
    {log : List (Obs ⊕ Exc)} (hr : run signed start ops = .done st log) :
    ∀ x ∈ st.wraps, x.1.Typed x.2.getType ∨ x.2.getType = .null := fun x hx =>
  (sound_run (e := True) ops (fun x hx => by simp [start] at hx) h (fun _ _ _ => trivial) hr x hx).imp_right (·.2)

/-- If moreover it never moves from a wrapper, none is null. -/
theorem C54_never_null_partial {signed : Bool} {ops : List Op} (h : ∀ op ∈ ops, ¬ op.throughRef)
    (hm : ∀ op ∈ ops, ¬ op.movesWrap) {st : State} {log : List (Obs ⊕ Exc)} (hr : run signed start ops = .done st log) :
    ∀ x ∈ st.wraps, x.1.Typed x.2.getType := fun x hx =>
  (sound_run (e := False) ops (fun x hx => by simp [start] at hx) h hm hr x hx).resolve_right fun h => h.1

/-- A program to which both apply, making a number, a string, and an object, filling, finalizing and copying it. -/
def typedExample : List Op :=
  [.make .number (.int 1), .make .string (.str [104, 105]), .make .object (.obj []),
   .mutate 2 (.insert (.const (.str [110])) (.const (.int 7))), .finalize 2, .read 2 (.get [110]), .wrap .number 0 true,
   .dup 2 false, .definalize 4, .mutate 4 .clear, .concat 1 [33], .arith 0 .incr]

example : (∀ op ∈ typedExample, ¬ op.throughRef) ∧ (∀ op ∈ typedExample, ¬ op.movesWrap) ∧
    (match run true start typedExample with
      | .done st _ => some (st.wraps.map fun x => (x.1, x.2.getType, x.2.isFinalized))
      | _ => none) = some [(.number, .decimal, false), (.string, .string, false), (.object, .object, true),
        (.number, .integer, true), (.object, .object, false)] := by
  refine ⟨by simp [typedExample, Op.throughRef], by simp [typedExample, Op.movesWrap], by decide +kernel⟩

/-- The full statement is false: `o.definalize() = p` puts any packet into an object wrapper. -/
theorem C54_negation : ∀ t : Ty, ∃ (ops : List Op) (st : State) (log : List (Obs ⊕ Exc)),
    (∀ op ∈ ops, OpWF op) ∧ run true start ops = .done st log ∧ ∃ p, st.wraps = [(.object, p)] ∧ p.getType = t := by
  intro t
  have key : ∀ v : Val, v.WF → ∃ (ops : List Op) (st : State) (log : List (Obs ⊕ Exc)),
      (∀ op ∈ ops, OpWF op) ∧ run true start ops = .done st log ∧
      ∃ p, st.wraps = [(.object, p)] ∧ p.getType = v.getType := by
    intro v hv
    refine ⟨[.packet (.create (.const v)), .make .object (.obj []), .assignThrough 0 0], _, _, ?_, rfl, _, rfl, rfl⟩
    simp [OpWF, Spec.opWF, Spec.constWF, hv, Val.WF, WFFields]
  cases t with
  | object => exact key (.obj []) (by simp [Val.WF, WFFields])
  | array => exact key (.arr []) (by simp [Val.WF, WFElems])
  | string => exact key (.str []) (by simp [Val.WF])
  | integer => exact key (.int 0) (by simp [Val.WF])
  | decimal => exact key (.dec 0) (by simp [Val.WF])
  | boolean => exact key (.bool true) (by simp [Val.WF])
  | null => exact key .null (by simp [Val.WF])

/-- Making a wrapper of a packet works exactly when the packet is of the type, and the wrapper then holds that packet. -/
theorem C54_conversion {signed : Bool} {st : State} {x : Nat} {p : Pkt} (hx : st.packets[x]? = some p) (k : Kind)
    (move : Bool) :
    (k.Typed p.getType ∧ ∃ st', (Op.wrap k x move).run signed st = .next st' .nothing ∧ st'.wraps = st.wraps ++ [(k, p)]) ∨
    (¬ k.Typed p.getType ∧ ∃ st', (Op.wrap k x move).run signed st = .throw st' .typeError ∧ st'.wraps = st.wraps) := by
  simp only [Op.run, hx, ← test_iff]
  by_cases ht : k.test p.getType = true
  · simp only [ht, if_true]
    exact .inl ⟨trivial, _, rfl, by cases move <;> rfl⟩
  · simp only [ht]
    exact .inr ⟨by simp, _, rfl, by cases move <;> cases k <;> rfl⟩

/-- A conversion that throws changes nothing, if it copies the packet or the class is not object or array. -/
theorem C54_failed_conversion_partial {signed : Bool} {st : State} {x : Nat} {p : Pkt} (hx : st.packets[x]? = some p)
    {k : Kind} {move : Bool} (hk : move = false ∨ k = .string ∨ k = .number ∨ k = .flag) (hp : ¬ k.Typed p.getType) :
    (Op.wrap k x move).run signed st = .throw st .typeError := by
  rw [← test_iff] at hp
  simp only [Op.run, hx, hp]
  rcases hk with rfl | rfl | rfl | rfl <;> simp [Kind.takesFirst]

/-- Otherwise the packet is lost: it is null afterwards. -/
theorem C54_failed_conversion_negation {signed : Bool} {st : State} {x : Nat} {p : Pkt} (hx : st.packets[x]? = some p)
    {k : Kind} (hk : k = .object ∨ k = .array) (hp : ¬ k.Typed p.getType) :
    ∃ st' q, (Op.wrap k x true).run signed st = .throw st' .typeError ∧ st'.packets = st.packets.set x q ∧
      q.getType = .null := by
  rw [← test_iff] at hp
  simp only [Op.run, hx, hp]
  rcases hk with rfl | rfl <;> exact ⟨_, _, rfl, rfl, movedFrom_type p⟩

/-- For example moving the number 5 into an object wrapper. -/
example : ((Op.wrap .object 0 true).run true ⟨[.heap (.int 5)], []⟩) = .throw ⟨[.heap .null], []⟩ .typeError := rfl

/-! ### Queries of a wrapper with a packet that does not fit -/

/-- Throws type errors only. -/
def onlyTypeErrors {α : Type} (r : Res α) : Prop := ∀ e, r = .throw e → e = .typeError

theorem ote_ok {α : Type} (a : α) : onlyTypeErrors (.ok a) := fun e h => by cases h
theorem ote_type {α : Type} : onlyTypeErrors (.throw .typeError : Res α) := fun e h => by cases h; rfl
theorem ote_read {α : Type} (o : Option α) : onlyTypeErrors (Res.ofRead o) := fun e h => by cases o <;> cases h
theorem ote_bind {α β : Type} {r : Res α} {f : α → Res β} (h : onlyTypeErrors r) (hf : ∀ a, onlyTypeErrors (f a)) :
    onlyTypeErrors (r.bind f) := by
  intro e he
  cases r with
  | ok a => exact hf a e he
  | throw e' => cases he; exact h e rfl
  | ub => cases he
theorem ote_visit {α β γ : Type} {f : Val → Res α} {g : Buf → Res β} (h : α → γ) (k : β → γ) (p : Pkt)
    (hf : ∀ v, onlyTypeErrors (f v)) (hg : ∀ b, onlyTypeErrors (g b)) : onlyTypeErrors (p.visit f g h k) := by
  cases p with
  | heap v => exact ote_bind (hf v) fun a => ote_ok _
  | buf b => exact ote_bind (hg b) fun a => ote_ok _
theorem ote_reads {α β : Type} (o : Option α) (f : α → Option β) :
    onlyTypeErrors ((Res.ofRead o).bind fun p => Res.ofRead (f p)) := ote_bind (ote_read o) fun p => ote_read _

theorem ote_size (p : Pkt) : onlyTypeErrors p.size := by
  refine ote_visit _ _ p (fun v => ?_) fun b => ?_
  · cases v <;> first | exact ote_ok _ | exact ote_type
  · simp only [Buf.size]; cases b.type <;> first | exact ote_reads _ _ | exact ote_type
theorem ote_strv (p : Pkt) : onlyTypeErrors p.strv := by
  cases p with
  | heap v => cases v <;> first | exact ote_ok _ | exact ote_type
  | buf b => simp only [Pkt.strv, Buf.strv]; cases b.type <;> first | exact ote_reads _ _ | exact ote_type
theorem ote_hasKey (signed : Bool) (p : Pkt) (k : Bytes) : onlyTypeErrors (p.hasKey signed k) := by
  refine ote_visit _ _ p (fun v => ?_) fun b => ?_
  · cases v <;> first | exact ote_ok _ | exact ote_type
  · refine ote_bind ?_ fun p => ote_bind (ote_read _) fun r => ote_ok _
    simp only [Buf.object]; cases b.type <;> first | exact ote_read _ | exact ote_type
theorem ote_integer (p : Pkt) : onlyTypeErrors p.integer := by
  refine ote_visit _ _ p (fun v => ?_) fun b => ?_
  · cases v <;> first | exact ote_ok _ | exact ote_type
  · simp only [Buf.integer]; cases b.type <;> first | exact ote_reads _ _ | exact ote_type
theorem ote_decimal (p : Pkt) : onlyTypeErrors p.decimal := by
  refine ote_visit _ _ p (fun v => ?_) fun b => ?_
  · cases v <;> first | exact ote_ok _ | exact ote_type
  · simp only [Buf.decimal]; cases b.type <;> first | exact ote_reads _ _ | exact ote_type
theorem ote_boolean (p : Pkt) : onlyTypeErrors p.boolean := by
  refine ote_visit _ _ p (fun v => ?_) fun b => ?_
  · cases v <;> first | exact ote_ok _ | exact ote_type
  · simp only [Buf.boolean]; cases b.type.simplify <;> first | exact ote_reads _ _ | exact ote_type
theorem ote_numeric (p : Pkt) : onlyTypeErrors (numeric p) := by
  simp only [numeric]
  cases p.getType <;> first | exact ote_bind (ote_integer p) fun _ => ote_ok _ | exact ote_decimal p | exact ote_type

/-- Whatever packet a wrapper of whatever class has come to hold, a query that throws throws a type error; and making a view
of the wrapper tests the packet again: it throws exactly if the packet does not fit the class. -/
theorem C54_queries_throw_type_errors (signed : Bool) (k : Kind) (p : Pkt) :
    (∀ (q : Query) (e : Exc), ask signed k p q = .throw e → e = .typeError) ∧
    (ask signed k p .view = .throw .typeError ↔ ¬ k.Typed p.getType) ∧
    (k.Typed p.getType → ask signed k p .view = .ok (.type p.getType)) := by
  refine ⟨?_, ?_, ?_⟩
  · intro q
    show onlyTypeErrors (ask signed k p q)
    cases q with
    | isNull => exact ote_ok _
    | getType => exact ote_ok _
    | isFinalized => exact ote_ok _
    | truth =>
      cases k with
      | flag =>
        simp only [ask]
        split
        · exact ote_ok _
        · exact ote_bind (ote_boolean p) fun _ => ote_ok _
      | _ => exact ote_ok _
    | view =>
      simp only [ask]
      split
      · exact ote_ok _
      · exact ote_type
    | size => exact ote_bind (ote_size p) fun _ => ote_ok _
    | empty => exact ote_bind (ote_size p) fun _ => ote_ok _
    | hasKey key => exact ote_bind (ote_hasKey signed p key) fun _ => ote_ok _
    | strv => exact ote_bind (ote_strv p) fun _ => ote_ok _
    | charAt i =>
      refine ote_bind (ote_size p) fun n => ?_
      split
      · exact ote_ok _
      · exact ote_bind (ote_strv p) fun _ => ote_ok _
    | numeric => exact ote_bind (ote_numeric p) fun _ => ote_ok _
    | toDouble =>
      simp only [ask]
      split
      · exact ote_bind (ote_integer p) fun _ => ote_ok _
      · exact ote_bind (ote_decimal p) fun _ => ote_ok _
    | boolean => exact ote_bind (ote_boolean p) fun _ => ote_ok _
    | integer => exact ote_bind (ote_integer p) fun _ => ote_ok _
    | decimal => exact ote_bind (ote_decimal p) fun _ => ote_ok _
  · rw [← test_iff]
    simp only [ask]
    cases k.test p.getType <;> simp
  · intro h
    rw [← test_iff] at h
    simp only [ask, h, if_true]

/-- A number wrapper that was moved from: null, so making a view throws. -/
example : ask true .number (.heap .null) .view = .throw .typeError ∧
    ask true .number (.heap (.int 3)) .view = .ok (.type .integer) := ⟨rfl, rfl⟩

end Dart.Props
