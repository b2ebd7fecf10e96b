import Verif.Lemmas.AbiBytes
import Verif.Props.C64
import Verif.Props.C20

/-
C65: sending objects as raw bytes through the C interface, and parsing text.
-/
namespace Dart.Props

open Dart.Spec Dart.Abi

/-- Send a finalized object: copy its bytes (`dart_dup_bytes`), and make a packet of them (`dart_take_bytes_rc_err`), with
whatever kind of counter. The packet is finalized, has the same value and the same bytes, and owns them; nothing else has
changed. This holds after every program that keeps the rules. -/
theorem C65_round_trip {signed : Bool} (P : XProg) (h : XCareful signed P ZState.empty) {s : XState} {os : List XOut}
    (hr : P.run signed XState.empty = some (s, os)) {x y p rc : Nat} {o : Obj} {fs : List (Bytes × Val)}
    (ho : s.core.objs y = some o) (hf : o.pkt.isFinalized = true) (hv : o.pkt.toHeap = .ok (.obj fs))
    (hx : s.core.objs x = none) (hrc : rc = 1 ∨ rc = 2) :
    ∃ bs s₁ s₂ q, (XCall.dupBytes p y).run signed s = some (s₁, .bytes (some bs)) ∧
      (XCall.takeBytes false x rc p).run signed s₁ = some (s₂, .plain (.code .noError)) ∧
      s₂.core.objs x = some ⟨.packet, rc, q⟩ ∧ q.isFinalized = true ∧ q.toHeap = .ok (.obj fs) ∧ q.getBytes = .ok bs ∧
      (∀ z, z ≠ x → s₂.core.objs z = s.core.objs z) ∧ s₂.blocks p = .dangling ∧ (∀ q, q ≠ p → s₂.blocks q = s.blocks q) ∧
      s₂.core.lost = s.core.lost := by
  obtain ⟨a, ha⟩ := careful_held h hr
  obtain ⟨b, _, hb, hc⟩ := ha.obj ho
  obtain ⟨h1, h2⟩ := runBytes_enc hb hc hf hv
  have hd : (XCall.dupBytes p y).run signed s = some (s.point p (.owned (enc (.obj fs))), .bytes (some (enc (.obj fs)))) := by
    simp only [XCall.run, ho, h1, Option.map_some, Blk.ofBytes]
  have hbl : (s.point p (.owned (enc (.obj fs)))).blocks p = .owned (enc (.obj fs)) := by simp [XState.point, upd]
  have hst := (adopt_held h2).inState
  refine ⟨_, _, _, .buf (Buf.ofBytes (enc (.obj fs))), hd, takeBytes_owned hbl hrc, ?_, hst.1, hst.2, ?_, ?_, ?_, ?_, ?_⟩
  · simp [XState.point, XState.release, CState.put, upd]
  · simp [Pkt.getBytes, Pkt.getBuffer, Res.bind, adopted_bytes h2]
  · intro z hz; simp [XState.point, CState.put, upd, hz]
  · simp [XState.point, XState.release, upd]
  · intro q hq; simp [XState.point, XState.release, upd, hq]
  · simp [XState.point, CState.put, hx]

/-- Two finalized objects of the same value have the same bytes, whatever programs made them, of whatever class they are and
whatever counters they have. -/
theorem C65_same_bytes {signed : Bool} (P Q : XProg) (hP : XCareful signed P ZState.empty) (hQ : XCareful signed Q ZState.empty)
    {s t : XState} {os ps : List XOut} (hs : P.run signed XState.empty = some (s, os)) (ht : Q.run signed XState.empty = some (t, ps))
    {y z : Nat} {o o' : Obj} {fs : List (Bytes × Val)} (hy : s.core.objs y = some o) (hz : t.core.objs z = some o')
    (hf : o.pkt.isFinalized = true) (hf' : o'.pkt.isFinalized = true) (hv : o.pkt.toHeap = .ok (.obj fs))
    (hv' : o'.pkt.toHeap = .ok (.obj fs)) :
    ∃ bs, (XCall.getBytes y).run signed s = some (s, .bytes (some bs)) ∧ (XCall.getBytes z).run signed t = some (t, .bytes (some bs)) := by
  obtain ⟨a, ha⟩ := careful_held hP hs
  obtain ⟨b, _, hb, hc⟩ := ha.obj hy
  obtain ⟨a', ha'⟩ := careful_held hQ ht
  obtain ⟨b', _, hb', hc'⟩ := ha'.obj hz
  refine ⟨enc (.obj fs), ?_, ?_⟩
  · simp only [XCall.run, hy, (runBytes_enc hb hc hf hv).1, Option.map_some]
  · simp only [XCall.run, hz, (runBytes_enc hb' hc' hf' hv').1, Option.map_some]

/-- And the converse: objects with the same bytes have the same value. -/
theorem C65_bytes_decide {signed : Bool} (P Q : XProg) (hP : XCareful signed P ZState.empty) (hQ : XCareful signed Q ZState.empty)
    {s t : XState} {os ps : List XOut} (hs : P.run signed XState.empty = some (s, os)) (ht : Q.run signed XState.empty = some (t, ps))
    {y z : Nat} {bs : Bytes} (hy : (XCall.getBytes y).run signed s = some (s, .bytes (some bs)))
    (hz : (XCall.getBytes z).run signed t = some (t, .bytes (some bs))) :
    ∃ o o' fs, s.core.objs y = some o ∧ t.core.objs z = some o' ∧ o.pkt.toHeap = .ok (.obj fs) ∧ o'.pkt.toHeap = .ok (.obj fs) := by
  have key : ∀ {R : XProg} {u : XState} {rs : List XOut} {w : Nat}, XCareful signed R ZState.empty →
      R.run signed XState.empty = some (u, rs) → (XCall.getBytes w).run signed u = some (u, .bytes (some bs)) →
      ∃ o, u.core.objs w = some o ∧ (Pkt.buf (Buf.ofBytes bs)).toHeap = o.pkt.toHeap ∧ ∃ fs, o.pkt.toHeap = .ok (.obj fs) := by
    intro R u rs w hR hu hw
    obtain ⟨a, ha⟩ := careful_held hR hu
    simp only [XCall.run] at hw
    cases ho : u.core.objs w with
    | none => rw [ho] at hw; cases hw
    | some o =>
      rw [ho] at hw
      obtain ⟨b, _, hb, hc⟩ := ha.obj ho
      obtain ⟨r, h1, h2, _⟩ := bytes_ok hb hc
      simp only [h1, Option.map_some, Option.some.injEq, Prod.mk.injEq, XOut.bytes.injEq, true_and] at hw
      subst hw
      unfold BytesOf at h2
      split at h2
      · split at h2
        · rename_i fs hfs
          obtain ⟨bs', h3, _, h4⟩ := h2
          cases h4
          have e1 := h3.2
          have e2 := hb.2.2.inState.2
          rw [hfs] at e2
          exact ⟨o, rfl, e1.trans e2.symm, fs, e2⟩
        · cases h2
      · cases h2
  obtain ⟨o, h1, h2, fs, h3⟩ := key hP hs hy
  obtain ⟨o', h4, h5, fs', h6⟩ := key hQ ht hz
  exact ⟨o, o', fs, h1, h4, h3, h5.symm.trans (h2.trans h3)⟩

/-- From text to a received object. Parse a text (`dart_from_json_rc_err`), finalize (`dart_lower`), copy the bytes and make a
packet of them: unless the object is too large for the format, every call succeeds, and the packet received is what the text
stands for. This holds after every program that keeps the rules. -/
theorem C65_text_to_received {signed : Bool} (P : XProg) (h : XCareful signed P ZState.empty) {s : XState} {os : List XOut}
    (hr : P.run signed XState.empty = some (s, os)) {x y z p rc rc' : Nat} (hx : s.core.objs x = none) (hy : s.core.objs y = none)
    (hz : s.core.objs z = none) (hxy : y ≠ x) (hzx : z ≠ x) (hzy : z ≠ y) (hp : ∀ b, s.blocks p ≠ .owned b) (hrc : rc = 1 ∨ rc = 2)
    (hrc' : rc' = 1 ∨ rc' = 2) {ms : List (Bytes × Json)} (hj : Parsable (.obj ms)) :
    ∃ v s₁, Means (.obj ms) v ∧ (XCall.fromJson false x rc (some (.obj ms))).run signed s = some (s₁, .plain (.code .noError)) ∧
      (upperBound v ≠ none → ∃ bs s₂ s₃ s₄ q, (XCall.plain (.conv false y x .lower)).run signed s₁ = some (s₂, .plain (.code .noError)) ∧
        (XCall.dupBytes p y).run signed s₂ = some (s₃, .bytes (some bs)) ∧
        (XCall.takeBytes false z rc' p).run signed s₃ = some (s₄, .plain (.code .noError)) ∧
        s₄.core.objs z = some ⟨.packet, rc', q⟩ ∧ q.isFinalized = true ∧ q.toHeap = .ok v) := by
  obtain ⟨a, ha⟩ := careful_held h hr
  have hax : ∀ {w}, s.core.objs w = none → a.core.objs w = none := by
    intro w hw
    have := ha.core.1 w
    rw [hw] at this
    cases hb : a.core.objs w with
    | none => rfl
    | some b => rw [hb] at this; exact this.elim
  obtain ⟨s₁, a₁, o₁, r1, d1, k1, _⟩ := xcall_ok (signed := signed) ha (c := .fromJson false x rc (some (.obj ms)))
    ⟨hax hx, fun d hd => by cases hd; exact hj⟩
  obtain ⟨r, m, q, hpar, hcon, rfl, rfl⟩ := d1
  obtain ⟨v, hm, rfl⟩ := hpar
  simp only [Constructs, if_pos hrc, Bool.false_eq_true, if_false] at hcon
  obtain ⟨rfl, rfl⟩ := hcon
  refine ⟨v, s₁, hm, r1, fun hub => ?_⟩
  obtain ⟨fs, rfl⟩ : ∃ fs, v = .obj fs := by
    cases hm; exact ⟨_, rfl⟩
  obtain ⟨s₂, a₂, o₂, r2, d2, k2, _⟩ := xcall_ok (signed := signed) k1 (c := .plain (.conv false y x .lower))
    ⟨by simp [AState.set, hxy, hax hy], by simp [AState.set]⟩
  obtain ⟨m, q, ⟨b, r, hb, hcv, hmk⟩, rfl, rfl⟩ := d2
  simp only [AState.set, if_true] at hb
  cases hb
  have hr' : r = .ok ⟨true, .obj fs⟩ := by
    simp only [Converts, FinalizeOk, Bool.false_eq_true, if_false] at hcv
    rcases hcv with hcv | ⟨hcv, _⟩
    · exact hcv
    · exact absurd hcv hub
  subst hr'
  simp only [Makes, Bool.false_eq_true, if_false] at hmk
  obtain ⟨rfl, rfl⟩ := hmk
  have hbl : ∀ w, a.blocks p ≠ .object w := by
    intro w hw
    have := ha.blocks p
    rw [hw] at this
    cases hs : s.blocks p with
    | owned b => exact hp b hs
    | null => rw [hs] at this; exact this
    | dangling => rw [hs] at this; exact this
  obtain ⟨s₃, a₃, o₃, r3, d3, k3, _⟩ := xcall_ok (signed := signed) k2 (c := .dupBytes p y)
    ⟨by simp [AState.set], hbl⟩
  obtain ⟨b, r, hb, hby, rfl, rfl⟩ := d3
  simp only [AState.set, if_true] at hb
  cases hb
  simp only [BytesOf, if_true] at hby
  obtain ⟨bs, _, _, rfl⟩ := hby
  obtain ⟨s₄, a₄, o₄, r4, d4, k4, _⟩ := xcall_ok (signed := signed) k3 (c := .takeBytes false z rc' p)
    ⟨by simp [ZState.aim, AState.set, hzx, hzy, hax hz], by simp [ZState.aim]⟩
  obtain ⟨m, q, hcon, rfl, rfl⟩ := d4
  simp only [Constructs, if_pos hrc', ZState.aim, Adopted, Bool.false_eq_true, if_false, if_true, reduceCtorEq] at hcon
  obtain ⟨rfl, rfl⟩ := hcon
  have hfin : ∃ q, s₄.core.objs z = some ⟨.packet, rc', q⟩ ∧ Held true q ⟨true, .obj fs⟩ := by
    have hz4 := k4.core.1 z
    rw [(giveUp_with _ _ p).2] at hz4
    obtain ⟨⟨rep, c, q⟩, h1, h2, h3, h4⟩ := hz4.of_some (b := ⟨.packet, rc', ⟨true, .obj fs⟩⟩) (by simp [AState.set])
    simp only at h2 h3
    subst h2 h3
    exact ⟨q, h1, h4⟩
  obtain ⟨q, h1, h2⟩ := hfin
  exact ⟨bs, s₂, s₃, s₄, q, r2, r3, r4, h1, h2.inState.1, h2.inState.2⟩

/-- A call that parses and reports an error leaves the variable **live**: it is a null packet that has to be destroyed. (The
calls that copy, get or convert leave nothing behind when they fail, `C52_failed_call_changes_nothing`.) -/
theorem C65_failed_parse_live {signed : Bool} (s : XState) {x rc : Nat} (hrc : rc = 1 ∨ rc = 2) :
    ∃ s', (XCall.fromJson false x rc none).run signed s = some (s', .plain (.code .parseError)) ∧
      s'.core.objs x = some ⟨.packet, rc, .heap .null⟩ ∧
      (Call.destroy x).run signed s'.core = some (s'.core.drop x, .code .noError) := by
  refine ⟨{ s with core := s.core.put x ⟨.packet, rc, .heap .null⟩ }, ?_, ?_, ?_⟩
  · simp only [XCall.run, parseText, CState.construct, if_pos hrc, XState.with, Option.map_some, Bool.false_eq_true, if_false, errCode]
  · simp [CState.put, upd]
  · simp [Call.run, CState.put, upd]

/-- Unless there is no such counter: then nothing is live, and destroying the variable is undefined behaviour. So a caller who
got an error has to know which one it was. -/
theorem C65_failed_parse_not_live {signed : Bool} (s : XState) {x rc : Nat} (hrc : ¬ (rc = 1 ∨ rc = 2)) (hx : s.core.objs x = none)
    (j : Option Json) :
    (XCall.fromJson false x rc j).run signed s = some (s, .plain (.code .clientError)) ∧ (Call.destroy x).run signed s.core = none := by
  constructor
  · simp only [XCall.run, CState.construct, if_neg hrc, XState.with, Option.map_some, Bool.false_eq_true, if_false, CState.spoil, hx]
  · simp [Call.run, hx]

/-- The calls that take bytes own them from the beginning: also if they fail the caller must not free them. -/
theorem C65_failed_take_frees {signed : Bool} (s : XState) {x rc p : Nat} {bs : Bytes} (hrc : ¬ (rc = 1 ∨ rc = 2))
    (hx : s.core.objs x = none) (hp : s.blocks p = .owned bs) :
    ∃ s', (XCall.takeBytes false x rc p).run signed s = some (s', .plain (.code .clientError)) ∧ s'.core = s.core ∧
      (XCall.free p).run signed s' = none := by
  refine ⟨s.release p, ?_, rfl, ?_⟩
  · simp only [XCall.run, hp, CState.construct, if_neg hrc, XState.with, Option.map_some, Bool.false_eq_true, if_false, CState.spoil, hx]
    rfl
  · simp [XCall.run, XState.release, hp, upd]

/-- Bytes can be given away or freed once: afterwards both are undefined behaviour. -/
theorem C65_bytes_once {signed : Bool} (s : XState) {p : Nat} {bs : Bytes} (hp : s.blocks p = .owned bs) :
    ∃ s', (XCall.free p).run signed s = some (s', .plain .object) ∧ (XCall.free p).run signed s' = none ∧
      ∀ byVal x rc, (XCall.takeBytes byVal x rc p).run signed s' = none := by
  refine ⟨s.release p, by simp [XCall.run, hp], by simp [XCall.run, XState.release, hp, upd], ?_⟩
  intro byVal x rc
  simp [XCall.run, XState.release, hp, upd]

/-! ### Programs -/

theorem sampleMembers_parsable : Parsable (.obj sampleMembers) :=
  ⟨⟨_, _, sampleText_isText, by decide⟩, by simp [sampleMembers, Within, WithinFields, WithinElems],
    by simp [sampleMembers, DistinctNames, DistinctFields, DistinctElems]⟩

/-- Parse `{"a":[1,-2.5],"\n":null}` and finalize it. -/
def c65Prog : XProg :=
  .call (.fromJson false 0 1 (some (.obj sampleMembers))) fun _ => .call (.plain (.conv false 1 0 .lower)) fun _ => .stop

/-- It keeps the rules, and leaves a finalized object to send. -/
example : XCareful true c65Prog ZState.empty ∧
    (c65Prog.run true XState.empty).map (fun r => ((r.1.core.objs 1).map fun o => (o.pkt.isFinalized, o.pkt.getType), (r.1.core.objs 2).isNone)) =
      some (some (true, .object), true) := by
  refine ⟨⟨⟨rfl, fun d hd => by cases hd; exact sampleMembers_parsable⟩, fun a1 o1 h1 => ⟨?_, fun _ _ _ => trivial⟩⟩, ?_⟩
  · obtain ⟨r, m, q, ⟨v, _, rfl⟩, hc, rfl, rfl⟩ := h1
    simp only [Constructs] at hc
    obtain ⟨rfl, _⟩ := hc
    simp [XAllowed, Allowed, AState.set, ZState.empty, AState.empty]
  · decide +kernel

/-- Parse, finalize, send, and read what was received; destroy everything. -/
example : ((XProg.call (.fromJson false 0 1 (some (.obj sampleMembers))) fun _ =>
    .call (.plain (.conv false 1 0 .lower)) fun _ =>
    .call (.dupBytes 0 1) fun _ =>
    .call (.takeBytes false 2 2 0) fun _ =>
    .call (.plain (.query 2 .size)) fun _ =>
    .call (.plain (.get false 3 2 (.key [0x61]))) fun _ =>
    .call (.plain (.get false 4 3 (.idx 0))) fun _ =>
    .call (.plain (.query 4 .int)) fun _ =>
    .call (.fromJson false 5 2 none) fun _ =>
    .call (.plain (.query 5 .getType)) fun _ => .stop).run true XState.empty).map
      (fun r => (r.2.filterMap fun
        | .plain (.code e) => some (e, 0)
        | .plain (.size (some n)) => some (.noError, n)
        | .plain (.int (.ok i)) => some (.noError, i.toNat)
        | _ => none, r.1.core.lost, r.1.leaked)) = some
    ([(.noError, 0), (.noError, 0), (.noError, 0), (.noError, 2), (.noError, 0), (.noError, 0), (.noError, 1), (.parseError, 0)],
      0, 0) := by decide +kernel

end Dart.Props
