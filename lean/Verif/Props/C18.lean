import Verif.Lemmas.Packet
import Verif.Model.Sample

/-
C18: a packet is at every moment dynamic or finalized, and its value does not depend on which.
`PState` is what a client sees of a packet: a flag and a value; `Spec.Steps` says what each call does
to these states and which exception it throws; `Reached` are the packets a program can have.
-/
namespace Dart.Props
open Dart.Spec

/-- For every program over any number of packets, mixing creation, copying, parsing, mutation, finalizing,
definalizing and reads, with packets of either kind as arguments: the program never runs into
undefined behaviour, and the variables end up, and the steps throw, as specified on states. Partial:
a search in a finalized object with a key that is not plain may miss (`Spec.Found`, see C02); a few
reads answer differently in the two representations (see below). -/
theorem C18_history_partial (signed : Bool) (ops : List POp) (hw : ∀ op ∈ ops, opWF false op) :
    ∃ ps es st, runPackets signed [] ops = some (ps, es) ∧ Steps signed [] ops st es ∧
      ps.length = st.length ∧ ∀ x, InState (pktVar ps x) (stVar st x) := by
  obtain ⟨ps, st, es, h1, h2, h3⟩ := packets_ok (z := false) (signed := signed) ops (ps := []) (st := []) ⟨rfl, by simp⟩ hw
  exact ⟨ps, es, st, h1, h3, h2.1, fun x => (h2.var x).inState⟩

/-- Every packet of every program contains a value. -/
theorem C18_reached_has_value (signed exact : Bool) (p : Pkt) (h : Reached signed exact p) : ∃ v, p.toHeap = .ok v := by
  obtain ⟨s, hs⟩ := Reached.held h
  exact ⟨_, hs.toHeap⟩

/-- Finalizing keeps the value. -/
theorem C18_finalize_keeps_value (signed exact : Bool) (p q : Pkt) (v : Val) (h : Reached signed exact p)
    (hv : p.toHeap = .ok v) (hq : p.finalize = .ok q) : q.isFinalized = true ∧ q.toHeap = .ok v := by
  obtain ⟨out, h1, h2⟩ := finalize_held (Reached.held_of h hv)
  rw [hq] at h2
  cases out with
  | error e => exact h2.elim
  | ok s =>
    obtain ⟨h3, h4⟩ := Held.inState h2
    rw [h3, h4]
    unfold FinalizeOk at h1
    cases hf : p.isFinalized <;> simp only [hf] at h1
    · cases v <;> simp at h1
      subst h1; exact ⟨rfl, rfl⟩
    · cases h1; exact ⟨rfl, rfl⟩

/-- Definalizing always succeeds and keeps the value. -/
theorem C18_definalize_keeps_value (signed exact : Bool) (p : Pkt) (v : Val) (h : Reached signed exact p)
    (hv : p.toHeap = .ok v) : ∃ q, p.definalize = .ok q ∧ q.isFinalized = false ∧ q.toHeap = .ok v := by
  have h2 := definalize_held (Reached.held_of h hv)
  cases hq : p.definalize with
  | ok q => rw [hq] at h2; exact ⟨q, rfl, Held.inState h2⟩
  | throw e => rw [hq] at h2; exact h2.elim
  | ub => rw [hq] at h2; exact h2.elim

/-- Every mutator throws on every finalized packet, whatever the arguments: `state_error`, except that
erasing by something that is neither a string nor an integer is a `type_error`. A call that throws
leaves the packet as it was (`storeAt`, proved for programs in `C18_history_partial`). -/
theorem C18_mutators_throw_when_finalized (signed exact : Bool) (p : Pkt) (m : PMut Pkt) (hf : p.isFinalized = true)
    (hm : m.All (Reached signed exact)) : m.run p = .throw .stateError ∨
      (∃ k, m = .erase k ∧ k.getType ≠ .string ∧ k.getType ≠ .integer ∧ m.run p = .throw .typeError) := by
  cases p with
  | heap v => simp [Pkt.isFinalized] at hf
  | buf b =>
    cases m with
    | erase k =>
      obtain ⟨s, hs⟩ := Reached.held (show Reached signed exact k from hm)
      simp only [PMut.run]
      have ht := hs.getType
      cases hk : s.value <;> simp only [hk, Val.ty] at ht <;> simp only [ht]
      case int i => left; simp [hs.integer, hk, Val.integer, Res.bind, Pkt.getHeap]
      case str t => left; simp [hs.strv, hk, Val.strv, Res.bind, Pkt.getHeap]
      all_goals exact .inr ⟨k, rfl, by rw [ht]; decide, by rw [ht]; decide, trivial⟩
    | _ => left; rfl

/-- On a dynamic packet a mutator does what it does on the dynamic value (which C15 proves right). -/
theorem C18_mutators_work_when_dynamic (signed exact : Bool) (v k a : Val) (p q : Pkt) (hk : Reached signed exact p)
    (_ : Reached signed exact q) (ek : p.toHeap = .ok k) (ea : q.toHeap = .ok a) :
    (PMut.insert p q).run (.heap v) = (v.insert k a).bind (fun w => .ok (.heap w)) ∧
    (PMut.set p q).run (.heap v) = (v.set k a).bind (fun w => .ok (.heap w)) ∧
    (PMut.erase p).run (.heap v) = (v.erase k).bind (fun w => .ok (.heap w)) ∧
    (PMut.pushBack q).run (.heap v) = (v.pushBack a).bind (fun w => .ok (.heap w)) ∧
    (PMut.pushFront q).run (.heap v) = (v.pushFront a).bind (fun w => .ok (.heap w)) ∧
    PMut.clear.run (.heap v) = v.clear.bind (fun w => .ok (.heap w)) := by
  have hp := Reached.held_of hk ek
  refine ⟨?_, ?_, ?_, ?_, ?_, ?_⟩ <;> simp only [PMut.run, ek, ea, Pkt.getHeap, Res.bind_ok]
  have ht := hp.getType
  cases k <;> simp only [Val.ty] at ht <;> simp only [ht] <;>
    simp [hp.integer, hp.strv, Val.integer, Val.strv, Val.erase, Res.bind]

/-- Byte access works exactly in the finalized state: on a dynamic packet it throws `state_error`, on a
finalized one it yields the bytes of the object (or a `type_error` for parts that are no objects), which are those of
finalizing its value anew if nothing was parsed into a finalized packet. -/
theorem C18_bytes_exactly_when_finalized (signed exact : Bool) (p : Pkt) (v : Val) (h : Reached signed exact p)
    (hv : p.toHeap = .ok v) :
    (p.isFinalized = false → p.getBytes = .throw .stateError) ∧
    (p.isFinalized = true → match v with
      | .obj _ => ∃ bs, p.getBytes = .ok bs ∧ (exact = true → ∀ m, finalize v = .ok m → getBytes m = some bs)
      | _ => p.getBytes = .throw .typeError) := by
  have hp := Reached.held_of h hv
  cases p with
  | heap w => exact ⟨fun _ => rfl, fun hc => by simp [Pkt.isFinalized] at hc⟩
  | buf b =>
    refine ⟨fun hc => by simp [Pkt.isFinalized] at hc, fun _ => ?_⟩
    obtain ⟨_, hs⟩ := hp
    simp only at hs
    have ht := hs.getType
    cases v with
    | obj fs =>
      obtain ⟨bs, h1, h2⟩ := hs.getBytes
      refine ⟨bs, h1, fun hx m hm => ?_⟩
      rw [h2.2.2 hx]
      exact (new_bytes (Y := []) hs.wf hm).2
    | _ =>
      simp only [Val.ty] at ht
      simp [Pkt.getBytes, Pkt.getBuffer, Res.bind, Buf.getBytes, ht]

/-- Reads agree in both states: two packets with the same value answer alike, whichever state each of
them is in. Partial: `boolean()` not on numbers, and `has_key` for objects with plain keys (see C02);
the reads that return packets are covered by `C18_history_partial`. -/
theorem C18_reads_agree_partial (signed exact : Bool) (p q : Pkt) (v : Val) (hp : Reached signed exact p)
    (hq : Reached signed exact q) (ep : p.toHeap = .ok v) (eq : q.toHeap = .ok v) :
    p.getType = q.getType ∧ p.size = q.size ∧ p.strv = q.strv ∧ p.integer = q.integer ∧ p.decimal = q.decimal ∧
    ((∀ i, v ≠ .int i) → (∀ d, v ≠ .dec d) → p.boolean = q.boolean) ∧
    (∀ k fs, v = .obj fs → (∀ f ∈ fs, PlainKey signed f.1) → p.hasKey signed k = q.hasKey signed k) ∧
    Contain p.values (contentsOf v) ∧ Contain q.values (contentsOf v) ∧
    Contain p.keys (keysOf v) ∧ Contain q.keys (keysOf v) := by
  have hp := Reached.held_of hp ep
  have hq := Reached.held_of hq eq
  refine ⟨hp.getType.trans hq.getType.symm, hp.size.trans hq.size.symm, hp.strv.trans hq.strv.symm,
    hp.integer.trans hq.integer.symm, hp.decimal.trans hq.decimal.symm,
    fun h1 h2 => (hp.boolean h1 h2).trans (hq.boolean h1 h2).symm,
    fun k fs hv hk => ?_, hp.values, hq.values, hp.keys, hq.keys⟩
  subst hv
  exact (hp.hasKey k hk).trans (hq.hasKey k hk).symm

/-! ### Where the states do not agree -/

/-- The claim for all reads is false: these calls answer differently before and after finalizing.
`front_or`/`back_or` work on a dynamic packet only, a finalized number passes for a boolean, `at` with
an index on a string throws different exceptions. -/
theorem C18_reads_agree_false :
    (∃ v m, v.WF ∧ finalize v = .ok m ∧ ∃ w, (PRead.frontOr (.heap .null)).run true (.heap v) = .ok w ∧
      (PRead.frontOr (.heap .null)).run true (.buf (Buf.ofBytes m)) = .throw .stateError) ∧
    (∃ v m b, v.WF ∧ finalize v = .ok m ∧ (Buf.ofBytes m).get true [97] = .ok b ∧
      v.get [97] = .ok (.int 1) ∧ (Pkt.heap (.int 1)).boolean = .throw .typeError ∧ (Pkt.buf b).boolean = .ok true) ∧
    (∃ v m b, v.WF ∧ finalize v = .ok m ∧ (Buf.ofBytes m).get true [97] = .ok b ∧ v.get [97] = .ok (.str []) ∧
      (Pkt.heap (.str [])).visit (·.atIdx 0) (·.atIdx 0) Pkt.heap Pkt.buf = .throw .outOfRange ∧
      (Pkt.buf b).visit (·.atIdx 0) (·.atIdx 0) Pkt.heap Pkt.buf = .throw .typeError) := by
  have ex : ∀ v : Val, (finalize v).toOption ≠ none → ∃ m, finalize v = .ok m := by
    intro v h
    cases hf : finalize v with
    | ok m => exact ⟨m, rfl⟩
    | _ => rw [hf] at h; exact absurd rfl h
  refine ⟨?_, ?_, ?_⟩
  · obtain ⟨m, hm⟩ := ex (.obj []) (by decide +kernel)
    exact ⟨.obj [], m, by simp [Val.WF, WFFields], hm, _, rfl, rfl⟩
  · have hw : (Val.obj [([97], .int 1)]).WF := by simp [Val.WF, WFFields]
    obtain ⟨m, hm⟩ := ex (.obj [([97], .int 1)]) (by decide +kernel)
    have h2 : ((finalize (.obj [([97], .int 1)])).bind fun m => ((Buf.ofBytes m).get true [97]).bind fun b => b.boolean) = .ok true := by
      decide +kernel
    rw [hm] at h2
    simp only [Res.bind_ok, Res.bind_eq_ok] at h2
    obtain ⟨b, h3, h4⟩ := h2
    exact ⟨_, m, b, hw, hm, h3, rfl, rfl, by simp [Pkt.boolean, Pkt.visit, h4, Res.bind]⟩
  · have hw : (Val.obj [([97], .str [])]).WF := by simp [Val.WF, WFFields]
    obtain ⟨m, hm⟩ := ex (.obj [([97], .str [])]) (by decide +kernel)
    have h2 := (shows_root hw hm).get (signed := true) [97]
    rcases h2 with ⟨h1, _⟩ | ⟨i, hi, _, _, b, h3, _, h4⟩
    · have : ((finalize (.obj [([97], .str [])])).bind fun m => (Buf.ofBytes m).hasKey true [97]) = .ok true := by
        decide +kernel
      rw [hm, Res.bind_ok, h1] at this
      cases this
    · obtain rfl : i = 0 := by simp at hi; exact hi
      refine ⟨_, m, b, hw, hm, h3, rfl, rfl, ?_⟩
      simp only [Pkt.visit, Buf.atIdx, buf_array_throw h4 (by simp), Res.bind]

/-- What `boolean()` answers for numbers: a dynamic packet refuses, a finalized one reports whether the first byte of the
stored number is not zero: the lowest byte of an integer, and of a decimal the lowest byte of its bits as a `float` if
that is exact, otherwise as a `double`. -/
theorem C18_boolean_of_numbers (signed exact : Bool) (p : Pkt) (hp : Reached signed exact p) :
    (∀ i, p.toHeap = .ok (.int i) →
      p.boolean = if p.isFinalized then .ok (i.toNat % 256 != 0) else .throw .typeError) ∧
    ∀ d, p.toHeap = .ok (.dec d) →
      p.boolean = if p.isFinalized then .ok ((narrowBits d.toNat).getD d.toNat % 256 != 0) else .throw .typeError := by
  constructor
  · intro i hi
    have h := Reached.held_of hp hi
    cases p with
    | heap v =>
      obtain ⟨h1, _⟩ := h
      injection h1 with _ h1
      subst h1; rfl
    | buf b => simp only [Pkt.boolean, Pkt.visit, Shows.boolean_int h.2]; rfl
  · intro d hd
    have h := Reached.held_of hp hd
    cases p with
    | heap v =>
      obtain ⟨h1, _⟩ := h
      injection h1 with _ h1
      subst h1; rfl
    | buf b => simp only [Pkt.boolean, Pkt.visit, Shows.boolean_dec h.2]; rfl

/-! Concrete cases: a history with a finalized packet that is read, mutated in vain, and definalized. -/

/-- Create, finalize, read a part, try to clear, definalize, clear. -/
def story : List POp := [.create (.const sample), .finalize 0, .read 0 (.get [98]), .mutate 0 .clear,
  .definalize 0, .mutate 0 (.insert (.const (.str [122])) (.var 1)), .read 0 (.at [98])]

example : (∀ op ∈ story, opWF true op) := by
  simp only [story, List.mem_cons, List.not_mem_nil, or_false, forall_eq_or_imp, forall_eq]
  simp [opWF, PMut.All, PRead.All, constWF, sample_wf, Val.WF]
/-- Parse `{"a":[1,-2.5],"\n":null}` (see C20) into a finalized and a dynamic packet, and read from both. -/
def jsonStory (j : Json) : List POp := [.fromJson true sortMembers (List.replicate · 7) 24 j,
  .fromJson false sortMembers zeros 24 j, .read 0 (.get [97]), .read 1 (.at [98]), .fromJson true sortMembers zeros 4 .null]

example : (runPackets true [] (jsonStory (.obj [([97], .arr [.num 1, .dbl 0xc004000000000000]), ([10], .null)]))).map
    (fun r => (r.1.map Pkt.isFinalized, r.2)) =
    some ([true, false, true], [none, none, none, some .outOfRange, some .typeError]) := by decide +kernel
example : (runPackets true [] story).map (fun r => (r.1.map Pkt.isFinalized, r.2)) =
    some ([false, true, false], [none, none, none, some .stateError, none, none, none]) := by decide +kernel

end Dart.Props
