import Verif.Spec.AbiMove
import Verif.Lemmas.AbiCalls
import Verif.Lemmas.Rvalue

/-
Moving, parsing and raw bytes in the C interface do what they are specified to do.
-/
namespace Dart

open Spec Abi

variable {z : Bool}

/-- Heaps are dynamic and buffers are finalized. -/
def ClassOk (b : AObj) : Prop := (b.rep = .heap → b.st.finalized = false) ∧ (b.rep = .buffer → b.st.finalized = true)

def ClassesOk (a : AState) : Prop := ∀ x b, a.objs x = some b → ClassOk b

theorem ClassesOk.set {a : AState} (h : ClassesOk a) (x : Nat) {o : Option AObj} (ho : ∀ b, o = some b → ClassOk b) :
    ClassesOk (a.set x o) := by
  intro y b hb
  simp only [AState.set] at hb
  split at hb
  · exact ho b hb
  · exact h y b hb

theorem ClassesOk.put {a : AState} (h : ClassesOk a) (x : Nat) {b : AObj} (hb : ClassOk b) : ClassesOk (a.set x (some b)) :=
  h.set x fun c hc => by cases hc; exact hb

theorem classOk_packet {rc : Nat} {st : PState} : ClassOk ⟨.packet, rc, st⟩ :=
  ⟨fun h => (by cases h), fun h => (by cases h)⟩

theorem makes_classes {a a' : AState} {byVal : Bool} {x : Nat} {rep : Rep} {rc : Nat} {r : Except Exc PState} {o : Out}
    (h : ClassesOk a) (hr : ∀ p, r = .ok p → ClassOk ⟨rep, rc, p⟩) (hm : Makes a byVal x rep rc r a' o) : ClassesOk a' := by
  cases r with
  | ok p => obtain ⟨rfl, _⟩ := hm; exact h.put x (hr p rfl)
  | error e =>
    cases byVal
    · obtain ⟨rfl, _⟩ := hm; exact h
    · obtain ⟨rfl, _⟩ := hm
      refine h.put x ⟨fun hh => ?_, fun hh => ?_⟩
      · simp only at hh ⊢; subst hh; rfl
      · simp only at hh ⊢; subst hh; rfl

theorem mutOk_dynamic {s p : PState} {m : PMut PState} (h : MutOk s m (.ok p)) : s.finalized = false ∧ p.finalized = false := by
  unfold MutOk at h
  split at h
  · cases h
  · split at h
    · cases h
    · rename_i hf
      refine ⟨by simpa using hf, ?_⟩
      split at h
      · cases h; rfl
      · split at h
        · cases h; rfl
        · cases h
        · exact h.elim

theorem call_classes {signed : Bool} {a a' : AState} {c : Call} {o : Out} (h : ClassesOk a) (hc : CallDoes signed a c a' o) :
    ClassesOk a' := by
  have its : ∀ {i it}, ClassesOk (a.setIt i it) := h
  cases c with
  | init packet x rc v =>
    simp only [CallDoes] at hc
    split at hc
    · obtain ⟨rfl, _⟩ := hc
      exact h.put x ⟨fun _ => rfl, fun hh => by cases packet <;> cases hh⟩
    · obtain ⟨rfl, _⟩ := hc; exact h
  | initBuffer x rc =>
    simp only [CallDoes] at hc
    split at hc
    · obtain ⟨rfl, _⟩ := hc; exact h.put x ⟨fun hh => (by cases hh), fun _ => rfl⟩
    · obtain ⟨rfl, _⟩ := hc; exact h
  | copy byVal x y =>
    obtain ⟨b, hb, hm⟩ := hc
    exact makes_classes h (fun p hp => by cases hp; exact h y b hb) hm
  | change x m =>
    obtain ⟨b, hb, ⟨_, rfl, _⟩ | ⟨_, _, rfl, _⟩ | ⟨hr, _, r, hm, hc⟩⟩ := hc
    · exact h
    · exact h
    · cases r with
      | ok p => obtain ⟨rfl, _⟩ := hc; exact h.put x ⟨fun _ => (mutOk_dynamic hm).2, fun hh => absurd hh hr⟩
      | error e => obtain ⟨rfl, _⟩ := hc; exact h
  | get byVal x y w =>
    obtain ⟨b, r, _, _, hm⟩ := hc
    exact makes_classes h (fun p _ => classOk_packet) hm
  | conv byVal x y c =>
    obtain ⟨b, r, _, hr, hm⟩ := hc
    refine makes_classes h (fun p hp => ?_) hm
    subst hp
    cases c with
    | toHeap => cases hr; exact ⟨fun _ => rfl, fun hh => by cases hh⟩
    | toBuffer =>
      refine ⟨fun hh => (by cases hh), fun _ => ?_⟩
      simp only [Converts, FinalizeOk] at hr
      rw [if_neg (by simp)] at hr
      split at hr
      · rcases hr with hr | ⟨_, hr⟩ <;> cases hr; rfl
      · cases hr
    | lower => exact classOk_packet
    | lift => exact classOk_packet
  | query y q => obtain ⟨b, _, rfl, _⟩ := hc; exact h
  | destroy x => obtain ⟨rfl, _⟩ := hc; exact h.set x fun b hb => by cases hb
  | itInit keys i y =>
    obtain ⟨b, _, hc⟩ := hc
    split at hc <;> obtain ⟨rfl, _⟩ := hc <;> exact h
  | itCopy i j => obtain ⟨it, _, rfl, _⟩ := hc; exact h
  | itGet byVal x i =>
    obtain ⟨it, _, hc⟩ := hc
    split at hc
    · exact makes_classes h (fun p _ => classOk_packet) hc
    · split at hc
      · obtain ⟨rfl, _⟩ := hc; exact h.put x classOk_packet
      · obtain ⟨rfl, _⟩ := hc; exact h
  | itNext i => obtain ⟨it, _, rfl, _⟩ := hc; exact h
  | itDone i => obtain ⟨it, _, rfl, _⟩ := hc; exact h
  | itDestroy i => obtain ⟨rfl, _⟩ := hc; exact h
  | itDoneDestroy i x =>
    obtain ⟨it, _, hc⟩ := hc
    split at hc
    · obtain ⟨rfl, _⟩ := hc
      cases x with
      | none => exact h
      | some x => exact ClassesOk.set (a := a.setIt i none) h x fun b hb => by cases hb
    · obtain ⟨rfl, _⟩ := hc; exact h

/-! ### Bytes and pointers -/

def HeldBlk : Blk → ABlk → Prop
  | .null, .null => True
  | .owned b, .object v => (∃ fs, v = .obj fs) ∧ v.WF ∧ Fits v ∧ Image true v b
  | .dangling, .gone => True
  | _, _ => False

structure XHeld (s : XState) (a : ZState) : Prop where
  core : MemHeld true s.core a.core
  classes : ClassesOk a.core
  blocks : ∀ p, HeldBlk (s.blocks p) (a.blocks p)

theorem xHeld_empty : XHeld XState.empty ZState.empty := 
  ⟨memHeld_empty, fun _ _ h => (by cases h), fun _ => trivial⟩

theorem adopt_held {b : Bytes} {v : Val} (h : HeldBlk (.owned b) (.object v)) : Held true (.buf (Buf.ofBytes b)) ⟨true, v⟩ := by
  obtain ⟨⟨fs, rfl⟩, hw, hf, hi⟩ := h
  refine ⟨rfl, .inr ⟨0, rfl, rfl, ?_⟩⟩
  have := hi.at (X := []) (Y := []) (p := 0) rfl (Nat.dvd_zero _) hw hf
  simpa [Buf.ofBytes] using this

theorem XHeld.shows {s : XState} {a : ZState} (h : XHeld s a) : XMemoryShows s a := by
  refine ⟨h.core.shows, fun p => ?_⟩
  have := h.blocks p
  cases hs : s.blocks p <;> cases ha : a.blocks p <;> rw [hs, ha] at this <;>
    first | trivial | exact this.elim | exact (adopt_held this).inState

theorem heldBlk_upd {f : Nat → Blk} {g : Nat → ABlk} (h : ∀ p, HeldBlk (f p) (g p)) {q : Nat} {b : Blk} {c : ABlk} (hb : HeldBlk b c) :
    ∀ p, HeldBlk (upd f q b p) (if p = q then c else g p) := by
  intro p
  unfold upd
  split
  · exact hb
  · exact h p

theorem XHeld.release {s : XState} {a : ZState} (h : XHeld s a) (p : Nat) :
    ∀ q, HeldBlk ((s.release p).blocks q) ((a.giveUp p).blocks q) := by
  have := h.blocks p
  unfold XState.release ZState.giveUp
  cases hs : s.blocks p <;> cases ha : a.blocks p <;> rw [hs, ha] at this <;>
    first | exact this.elim | exact h.blocks | exact heldBlk_upd h.blocks (b := .dangling) (c := .gone) trivial

theorem giveUp_core (a : ZState) (p : Nat) : (a.giveUp p).core = a.core := by
  unfold ZState.giveUp
  split <;> rfl

theorem giveUp_with (a : ZState) (m : AState) (p : Nat) : (({ a with core := m } : ZState).giveUp p).blocks = (a.giveUp p).blocks ∧
    (({ a with core := m } : ZState).giveUp p).core = m := by
  unfold ZState.giveUp
  simp only
  split <;> exact ⟨rfl, rfl⟩

/-! ### The calls -/

theorem slotCall_eq {a : AState} {y : Nat} {c : AObj} (ha : a.objs y = some c) (w : Slot) : slotCall c.st w = (cxxCall (w.mut y)).map (argOf a) := by
  cases w <;> simp [slotCall, Slot.mut, cxxCall, PMut.map, argOf, ha]

theorem construct_ok {s : CState} {a : AState} (h : MemHeld z s a) {x : Nat} (hx : a.objs x = none) (byVal : Bool) (rc : Nat)
    {r : Res Pkt} {out : Except Exc PState} (hr : Outcome z r out) :
    ∃ s' a' o, s.construct byVal x rc r = some (s', o) ∧ Constructs a byVal x rc out a' o ∧ MemHeld z s' a' ∧ s'.lost = s.lost := by
  have hs := (h.1 x).of_none hx
  have hnull : ∀ n, HeldObj z ⟨.packet, n, .heap .null⟩ ⟨.packet, n, ⟨false, .null⟩⟩ := fun n => ⟨rfl, rfl, rfl, by simp [Val.WF]⟩
  simp only [CState.construct, Constructs]
  by_cases hrc : rc = 1 ∨ rc = 2
  · simp only [if_pos hrc]
    cases r with
    | ok p =>
      cases out with
      | error e => exact hr.elim
      | ok st => exact ⟨_, _, _, rfl, ⟨rfl, rfl⟩, h.put x ⟨rfl, rfl, hr⟩, put_lost hs _⟩
    | throw e =>
      cases out with
      | ok st => exact hr.elim
      | error e' =>
        cases hr
        cases byVal
        · exact ⟨_, _, _, rfl, ⟨rfl, by rw [codeFor_eq]⟩, h.put x (hnull rc), put_lost hs _⟩
        · exact ⟨_, _, _, rfl, ⟨rfl, rfl⟩, h.put x (hnull 1), put_lost hs _⟩
    | ub => cases out <;> exact hr.elim
  · simp only [if_neg hrc]
    cases byVal
    · exact ⟨s, a, .code .clientError, by simp [spoil_none hs], ⟨rfl, rfl⟩, h, rfl⟩
    · exact ⟨_, _, _, rfl, ⟨rfl, rfl⟩, h.put x (hnull 1), put_lost hs _⟩

theorem constructs_classes {a a' : AState} {byVal : Bool} {x rc : Nat} {r : Except Exc PState} {o : Out}
    (h : ClassesOk a) (hm : Constructs a byVal x rc r a' o) : ClassesOk a' := by
  unfold Constructs at hm
  split at hm
  · split at hm
    · obtain ⟨rfl, _⟩ := hm; exact h.put x classOk_packet
    · split at hm <;> obtain ⟨rfl, _⟩ := hm <;> exact h.put x classOk_packet
  · split at hm
    · obtain ⟨rfl, _⟩ := hm; exact h.put x classOk_packet
    · obtain ⟨rfl, _⟩ := hm; exact h

theorem parseText_held {j : Option Json} (hj : ∀ d, j = some d → Parsable d) : ∃ r, Parses j r ∧ Outcome z (parseText j) r := by
  cases j with
  | none => exact ⟨_, rfl, rfl⟩
  | some j =>
    obtain ⟨⟨x, t, ht, hl⟩, hw, hd⟩ := hj j rfl
    have hwf := toVal_wf ht hl hw hd
    have hm := means_toVal j hw
    have hlim := lim_of_moderate j hw
    simp only [Parses, parseText]
    cases j with
    | obj fs =>
      refine ⟨_, ⟨_, hm, rfl⟩, ?_⟩
      simp only [toHeap_obj hlim, Res.bind]
      rw [Json.toVal] at hwf ⊢
      exact ⟨rfl, hwf⟩
    | arr fs =>
      refine ⟨_, ⟨_, hm, rfl⟩, ?_⟩
      simp only [toHeap_arr hlim, Res.bind]
      rw [Json.toVal] at hwf ⊢
      exact ⟨rfl, hwf⟩
    | num n =>
      refine ⟨.error .typeError, rfl, ?_⟩
      unfold Within at hw
      simp only [Json.toHeap, Json.events]
      rw [run_single, intEvent_step _ (by omega) (by omega)]
      rfl
    | _ => exact ⟨.error .typeError, rfl, rfl⟩

theorem bytes_ok {o : Obj} {b : AObj} (h : HeldObj true o b) (hc : ClassOk b) :
    ∃ r, runBytes o = some r ∧ BytesOf b r ∧
      HeldBlk (.ofBytes r) (if r = none then .null else .object b.st.value) := by
  obtain ⟨rep, rc, p⟩ := o
  obtain ⟨rep', rc', f, v⟩ := b
  obtain ⟨hr, _, hh⟩ := h
  simp only at hr hh
  subst hr
  cases p with
  | heap w =>
    obtain ⟨he, _⟩ := hh
    cases he
    refine ⟨none, ?_, rfl, trivial⟩
    simp only [runBytes, Pkt.getBytes, Pkt.getBuffer, Res.bind]
    split <;> rfl
  | buf b =>
    obtain ⟨hf, hh⟩ := hh
    simp only at hf hh
    subst hf
    have hrep : rep ≠ .heap := fun e => by have := hc.1 e; cases this
    simp only [runBytes, if_neg hrep, Pkt.getBytes, Pkt.getBuffer, Res.bind, BytesOf]
    cases v with
    | obj fs =>
      obtain ⟨bs, h1, h2⟩ := hh.getBytes
      obtain ⟨p, _, _, hat⟩ := hh.obj
      have hblk : HeldBlk (.owned bs) (.object (.obj fs)) := ⟨⟨fs, rfl⟩, hat.wf, hat.fits, h2⟩
      rw [h1]
      refine ⟨some bs, rfl, ?_, hblk⟩
      rw [if_pos trivial]
      refine ⟨bs, (adopt_held hblk).inState, fun m hm => ?_, rfl⟩
      obtain ⟨bs', h3, h4⟩ := (shows_root hat.wf hm).getBytes
      rw [h3, h4.2.2 rfl, h2.2.2 rfl]
    | _ =>
      have ht : b.getBytes = .throw .typeError := by
        have := hh.getType
        simp only [Val.ty] at this
        rw [Buf.getBytes, this, if_neg (by decide)]
      rw [ht]
      exact ⟨none, rfl, rfl, trivial⟩

theorem empties_iff {b c : AObj} {o a : Obj} (hb : HeldObj z o b) (hc : HeldObj z a c) (hk : ClassOk c)
    (hf : o.pkt.isFinalized = false) (w : Slot) :
    (w.empties o.pkt a = true ↔ Empties b c true w) ∧ (a.castEmpties = true ↔ Empties b c false w) := by
  obtain ⟨rep, rc, p⟩ := o
  obtain ⟨rep', rc', st⟩ := b
  obtain ⟨repc, rcc, q⟩ := a
  obtain ⟨repc', rcc', f, v⟩ := c
  obtain ⟨h1, _, h2⟩ := hb
  obtain ⟨h3, _, h4⟩ := hc
  simp only at h1 h2 h3 h4 hf
  subst h1; subst h3
  cases p with
  | buf b => cases hf
  | heap u =>
    obtain ⟨rfl, _⟩ := h2
    cases q with
    | buf q =>
      obtain ⟨h4, _⟩ := h4
      simp only at h4
      subst h4
      have hrep : repc ≠ .heap := fun e => by have := hk.1 e; cases this
      have : ∀ ok, ¬ Empties ⟨rep, rc', false, u⟩ ⟨repc, rcc', true, v⟩ ok w := fun ok h => by cases h.2.1
      constructor
      · simp [Slot.empties, hrep, Obj.castEmpties, this]
      · simp [Obj.castEmpties, this]
    | heap q =>
      obtain ⟨h4, _⟩ := h4
      cases h4
      cases repc with
      | packet => simp [Slot.empties, Obj.castEmpties, Empties]
      | buffer => simp [Slot.empties, Obj.castEmpties, Empties]
      | heap =>
        refine ⟨?_, by simp [Obj.castEmpties, Empties]⟩
        simp only [Slot.empties, if_true, Empties, true_and]
        cases w with
        | objInsert k =>
          simp only [Slot.copies, NewKey, Slot.objInsert.injEq, forall_eq']
          cases u with
          | obj fs =>
            simp only [Val.obj.injEq, exists_eq_left', mapFind_eq]
            cases lookup fs k <;> simp
          | _ => simp
        | _ => simp [Slot.copies]

theorem takeFrom_ok {s : CState} {a : AState} (h : MemHeld z s a) (hk : ClassesOk a) {y : Nat} {o : Obj} {c : AObj} (hc : HeldObj z o c)
    {b : Bool} {P : Prop} (hb : b = true ↔ P) (hP : P → c.rep ≠ .buffer) :
    ∃ a', LeftBehind a y c P a' ∧ MemHeld z (s.takeFrom y o b) a' ∧ ClassesOk a' ∧ (s.takeFrom y o b).lost = s.lost := by
  cases b with
  | false =>
    have hp : ¬ P := fun hp => by have := hb.2 hp; cases this
    exact ⟨a, .inr ⟨hp, rfl⟩, h, hk, rfl⟩
  | true =>
    have hp := hb.1 rfl
    refine ⟨_, .inl ⟨hp, rfl⟩, h.set y (o := some { o with pkt := .heap .null }) (b := some { c with st := ⟨false, .null⟩ })
      ⟨hc.1, hc.2.1, rfl, by simp [Val.WF]⟩ _, hk.put y ⟨fun _ => rfl, fun e => absurd e (hP hp)⟩, rfl⟩

theorem take_ok {s : CState} {a : AState} (h : MemHeld z s a) (hk : ClassesOk a) {x y : Nat} {w : Slot} (hx : a.objs x ≠ none)
    (hy : a.objs y ≠ none) (hxy : y ≠ x) (hw : ∀ k, w = .objInsert k ∨ w = .objSet k → k.length < 2 ^ 32) :
    ∃ s' a' o b c, runTake s x w y = some (s', o) ∧ a.objs x = some b ∧ a.objs y = some c ∧ Takes a x b w y c a' o ∧
      MemHeld z s' a' ∧ ClassesOk a' ∧ s'.lost = s.lost := by
  obtain ⟨b, hb⟩ := Option.ne_none_iff_exists'.1 hx
  obtain ⟨c, hcy⟩ := Option.ne_none_iff_exists'.1 hy
  obtain ⟨o, ho, hbo⟩ := (h.1 x).of_some hb
  obtain ⟨q, hq, hcq⟩ := (h.1 y).of_some hcy
  simp only [runTake, ho, hq]
  by_cases hrep : o.rep = .buffer
  · exact ⟨s, a, _, b, c, by rw [if_pos hrep], hb, hcy, .inl ⟨hbo.1 ▸ hrep, rfl, rfl⟩, h, hk, rfl⟩
  rw [if_neg hrep]
  have hrep' : b.rep ≠ .buffer := hbo.1 ▸ hrep
  by_cases hrc : q.rc = o.rc
  rotate_left
  · rw [if_pos (by simpa using hrc)]
    exact ⟨s, a, _, b, c, rfl, hb, hcy, .inr (.inl ⟨hrep', by rw [← hbo.2.1, ← hcq.2.1]; exact hrc, rfl, rfl⟩), h, hk, rfl⟩
  rw [if_neg (by simpa using hrc), if_neg hxy]
  have hrc' : c.rc = b.rc := by rw [← hbo.2.1, ← hcq.2.1]; exact hrc
  obtain ⟨r, h1, h2⟩ := mut_ok (f := CVal.pkt s) (g := argOf a) hbo.2.2 (cxxCall (w.mut y)) (by
    have hd := cVal_held h (.dart y) hy
    cases w with
    | objInsert k => exact ⟨cVal_held h (.str k) (hw k (.inl rfl)), hd⟩
    | objSet k => exact ⟨cVal_held h (.str k) (hw k (.inr rfl)), hd⟩
    | arrInsert i => exact ⟨cVal_held h (.int _) trivial, hd⟩
    | arrSet i => exact ⟨cVal_held h (.int _) trivial, hd⟩)
  rw [← slotCall_eq hcy] at h1
  rw [cxxCall_eq] at h2
  cases hfin : o.pkt.isFinalized with
  | true =>
    rw [if_pos rfl]
    have hbf : b.st.finalized = true := by rw [← hbo.2.2.inState.1, hfin]
    have hm : MutOk b.st (slotCall c.st w) (.error .stateError) := by
      unfold MutOk
      rw [if_neg (by cases w <;> simp [slotCall, badErase]), if_pos hbf]
    exact ⟨s, a, _, b, c, rfl, hb, hcy,
      .inr (.inr ⟨hrep', hrc', _, hm, .inr ⟨fun he => (by have := he.1; rw [hbf] at this; cases this), rfl⟩, rfl⟩), h, hk, rfl⟩
  | false =>
    rw [if_neg (by simp)]
    obtain ⟨he1, he2⟩ := empties_iff hbo hcq (hk y c hcy) hfin w
    have hnb : ∀ ok, Empties b c ok w → c.rep ≠ .buffer := by
      intro ok he e
      have := he.2.2
      rw [e] at this
      exact this
    cases hres : ((w.mut y).call.map (CVal.pkt s)).run o.pkt with
    | ok p =>
      rw [hres] at h2
      cases r with
      | error e => exact h2.elim
      | ok st =>
        have hset := h.set x (o := some { o with pkt := p }) (b := some { b with st := st }) ⟨hbo.1, hbo.2.1, h2⟩ s.lost
        have hkset : ClassesOk (a.set x (some { b with st := st })) :=
          hk.put x ⟨fun _ => (mutOk_dynamic h1).2, fun e => absurd e hrep'⟩
        obtain ⟨a', g1, g2, g3, g4⟩ := takeFrom_ok (y := y) hset hkset hcq he1 (hnb true)
        exact ⟨_, a', _, b, c, rfl, hb, hcy, .inr (.inr ⟨hrep', hrc', _, h1, g1, rfl⟩), g2, g3, g4⟩
    | throw e =>
      rw [hres] at h2
      cases r with
      | ok st => exact h2.elim
      | error e' =>
        cases h2
        obtain ⟨a', g1, g2, g3, g4⟩ := takeFrom_ok (y := y) h hk hcq he2 (hnb false)
        exact ⟨_, a', _, b, c, rfl, hb, hcy, .inr (.inr ⟨hrep', hrc', _, h1, g1, by rw [codeFor_eq]⟩), g2, g3, g4⟩
    | ub => rw [hres] at h2; cases r <;> exact h2.elim

theorem xcall_ok {signed : Bool} {s : XState} {a : ZState} (h : XHeld s a) {c : XCall} (hw : XAllowed a c) :
    ∃ s' a' o, c.run signed s = some (s', o) ∧ XCallDoes signed a c a' o ∧ XHeld s' a' ∧ s'.core.lost = s.core.lost ∧
      s'.leaked = s.leaked := by
  cases c with
  | plain c =>
    obtain ⟨s', a', o, h1, h2, h3, h4⟩ := call_ok (signed := signed) h.core hw
    exact ⟨{ s with core := s' }, _, .plain o, by simp only [XCall.run, XState.with, h1, Option.map_some], ⟨a', o, h2, rfl, rfl⟩,
      ⟨h3, call_classes h.classes h2, h.blocks⟩, h4, rfl⟩
  | move byVal x y =>
    obtain ⟨hx, hy⟩ := hw
    obtain ⟨b, hb⟩ := Option.ne_none_iff_exists'.1 hy
    obtain ⟨o, ho, hbo⟩ := (h.core.1 y).of_some hb
    have hxy : x ≠ y := by rintro rfl; exact hy hx
    have hs := (h.core.1 x).of_none hx
    have h1 := h.core.set y (o := some { o with pkt := o.pkt.movedFrom }) (b := some { b with st := ⟨b.st.finalized, .null⟩ })
      ⟨hbo.1, hbo.2.1, hbo.2.2.leftover⟩ s.core.lost
    have hk := h.classes y b hb
    refine ⟨{ s with core := (s.core.change y { o with pkt := o.pkt.movedFrom }).put x o }, _, _, ?_, ⟨b, hb, rfl, rfl⟩,
      ⟨h1.put x hbo, ?_, h.blocks⟩, ?_, rfl⟩
    · simp only [XCall.run, XState.with, runMove, ho, hxy, false_and, if_false, Option.map_some]
    · exact (h.classes.put y (b := { b with st := ⟨b.st.finalized, .null⟩ }) ⟨hk.1, hk.2⟩).put x hk
    · refine put_lost ?_ _
      simp [CState.change, upd, hxy, hs]
  | take x w y =>
    obtain ⟨hx, hy, hxy, hk⟩ := hw
    obtain ⟨s', a', o, b, c, h1, h2, h3, h4, h5, h6, h7⟩ := take_ok (w := w) h.core h.classes hx hy hxy hk
    exact ⟨{ s with core := s' }, _, .plain o, by simp only [XCall.run, XState.with, h1, Option.map_some], ⟨b, c, a', o, h2, h3, h4, rfl, rfl⟩,
      ⟨h5, h6, h.blocks⟩, h7, rfl⟩
  | fromJson byVal x rc j =>
    obtain ⟨hx, hj⟩ := hw
    obtain ⟨r, h1, h2⟩ := parseText_held (z := true) hj
    obtain ⟨s', a', o, h3, h4, h5, h6⟩ := construct_ok h.core hx byVal rc h2
    exact ⟨{ s with core := s' }, _, .plain o, by simp only [XCall.run, XState.with, h3, Option.map_some], ⟨r, a', o, h1, h4, rfl, rfl⟩,
      ⟨h5, constructs_classes h.classes h4, h.blocks⟩, h6, rfl⟩
  | getBytes y =>
    obtain ⟨b, hb⟩ := Option.ne_none_iff_exists'.1 hw
    obtain ⟨o, ho, hbo⟩ := (h.core.1 y).of_some hb
    obtain ⟨r, h1, h2, _⟩ := bytes_ok hbo (h.classes y b hb)
    exact ⟨s, a, .bytes r, by simp only [XCall.run, ho, h1, Option.map_some], ⟨b, r, hb, h2, rfl, rfl⟩, h, rfl, rfl⟩
  | dupBytes p y =>
    obtain ⟨hy, hp⟩ := hw
    obtain ⟨b, hb⟩ := Option.ne_none_iff_exists'.1 hy
    obtain ⟨o, ho, hbo⟩ := (h.core.1 y).of_some hb
    obtain ⟨r, h1, h2, h3⟩ := bytes_ok hbo (h.classes y b hb)
    refine ⟨s.point p (.ofBytes r), _, .bytes r,
      by simp only [XCall.run, ho, h1, Option.map_some], ⟨b, r, hb, h2, rfl, rfl⟩,
      ⟨h.core, h.classes, heldBlk_upd h.blocks h3⟩, rfl, ?_⟩
    have := h.blocks p
    simp only [XState.point]
    cases hs : s.blocks p with
    | owned bs =>
      cases ha : a.blocks p with
      | object v => exact absurd ha (hp v)
      | _ => rw [hs, ha] at this; exact this.elim
    | _ => rfl
  | takeBytes byVal x rc p =>
    obtain ⟨hx, hp⟩ := hw
    have hblk := h.blocks p
    have hrel := h.release p
    have hr : Outcome true (s.blocks p).packet (Adopted (a.blocks p)) ∧ s.blocks p ≠ .dangling := by
      cases hs : s.blocks p <;> cases ha : a.blocks p <;> rw [hs, ha] at hblk <;>
        first | exact hblk.elim | exact absurd ha hp | exact ⟨rfl, by simp⟩ | exact ⟨adopt_held hblk, by simp⟩
    obtain ⟨s', a', o, h3, h4, h5, h6⟩ := construct_ok h.core hx byVal rc hr.1
    obtain ⟨g1, g2⟩ := giveUp_with a a' p
    refine ⟨{ s.release p with core := s' }, _, .plain o, ?_, ⟨a', o, h4, rfl, rfl⟩, ⟨?_, ?_, ?_⟩, h6, rfl⟩
    · simp only [XCall.run]
      split
      · rename_i hd; exact absurd hd hr.2
      · simp only [XState.with, h3, Option.map_some]
    · rw [g2]; exact h5
    · rw [g2]; exact constructs_classes h.classes h4
    · rw [g1]; exact hrel
  | free p =>
    have hblk := h.blocks p
    have hd : s.blocks p ≠ .dangling := by
      intro hs
      rw [hs] at hblk
      cases ha : a.blocks p <;> rw [ha] at hblk <;> first | exact hblk.elim | exact hw ha
    refine ⟨s.release p, _, _, ?_, ⟨rfl, rfl⟩, ⟨?_, ?_, h.release p⟩, rfl, rfl⟩
    · simp only [XCall.run]
    · rw [giveUp_core]; exact h.core
    · rw [giveUp_core]; exact h.classes

theorem xprog_ok {signed : Bool} (P : XProg) : ∀ {s : XState} {a : ZState}, XHeld s a → XCareful signed P a →
    ∃ s' a' os, P.run signed s = some (s', os) ∧ XProgDoes signed P a a' os ∧ XHeld s' a' ∧ s'.core.lost = s.core.lost ∧
      s'.leaked = s.leaked := by
  induction P with
  | stop => intro s a h _; exact ⟨s, a, [], rfl, ⟨rfl, rfl⟩, h, rfl, rfl⟩
  | call c next ih =>
    intro s a h hc
    obtain ⟨s1, a1, o, h1, h2, h3, h4, h4'⟩ := xcall_ok (signed := signed) h hc.1
    obtain ⟨s2, a2, os, h5, h6, h7, h8, h9⟩ := ih o h3 (hc.2 a1 o h2)
    exact ⟨s2, a2, o :: os, by simp [XProg.run, h1, h5], ⟨a1, o, os, h2, h6, rfl⟩, h7, h8.trans h4, h9.trans h4'⟩

end Dart
