import Verif.Lemmas.Export
import Verif.Spec.Export
import Verif.Model.Sample

/-
C75: the bytes given out for finalized values, and the buffers made from them.
-/
namespace Dart.Props
open Spec Own

/-- C75: an object at any depth in a finalized one gives out, by `get_bytes`, exactly the bytes finalizing it
alone would give; they show the object again and give out the same bytes. -/
theorem C75_parts_stand_alone (signed : Bool) (v : Val) (m : Bytes) (hw : v.WF) (h : finalize v = .ok m) (b : Buf)
    (hb : Derived signed (Buf.ofBytes m) b) (fs : List (Bytes × Val)) (hv : b.value = some (.obj fs)) :
    ∃ g m', b.getBytes = .ok g ∧ finalize (.obj fs) = .ok m' ∧ getBytes m' = some g ∧
      (Buf.ofBytes g).value = some (.obj fs) ∧ (Buf.ofBytes g).getBytes = .ok g := hb.exported hw h hv

/-- C75: of anything but an object `get_bytes` throws. -/
theorem C75_only_objects (signed : Bool) (v : Val) (m : Bytes) (hw : v.WF) (h : finalize v = .ok m) (b : Buf)
    (hb : Derived signed (Buf.ofBytes m) b) (x : Val) (hv : b.value = some x) (hx : x.ty ≠ .object) :
    b.getBytes = .throw .typeError := by
  obtain ⟨w, hs⟩ := hb.shows (shows_root hw h)
  rw [hs.value] at hv
  cases hv
  unfold Buf.getBytes
  rw [if_neg]
  rw [hs.getType]
  exact hx

theorem keeps_of {signed : Bool} {s : State} (hi : Inv s) {w : Nat} {x : Val} (ho : OwnsItsMemory (s.var w))
    (hv : valueOf s w = some x) : GoesOnShowing signed s w x := by
  intro ops t ha hr
  have h := run_owner ops hi ho ha hr
  exact ⟨by rw [valueOf, h.2.1]; exact hv, h.2.2⟩

theorem var_set_eq {s : State} {v : Nat} {h : Handle} (hv : v < s.vars.length) : (s.set v h).var v = h := by
  simp [State.var, State.set, hv]

/-- C75: in any program, duplicating the bytes of a variable that holds an object, whole or part, and making a
buffer of the duplicate gives a variable that shows the same object and keeps showing it. -/
theorem C75_duplicate (signed : Bool) (n : Nat) (s : State) (hr : Reachable signed n s) (v w c k : Nat) (root : Val)
    (hw : root.WF) (hp : PartOf signed s w root c) (fs : List (Bytes × Val)) (hx : valueOf s w = some (.obj fs))
    (hv : v < s.vars.length) :
    ∃ t, s.run signed [.dupBytes w k, .fromUnique v (some s.blocks.length)] = .ok t ∧
      GoesOnShowing signed t v (.obj fs) := by
  obtain ⟨⟨kk, m, hm, hfin, hd⟩, href, ⟨p, hpos⟩⟩ := hp
  obtain ⟨g, m', hg, _, _, hval, _⟩ := hd.exported hw hfin hx
  obtain ⟨x, hs⟩ := hd.shows (shows_root hw hfin)
  have hx' := hx
  rw [valueOf, hs.value] at hx'
  cases hx'
  obtain ⟨q, h1, h2, _⟩ := hs.obj
  have hal : s.alive c = true := alive_iff.2 (.inr (.inr ⟨w, href⟩))
  have hty : (s.var w).type = .object := by
    have : (s.buf (s.var w)).type = (s.var w).type := by simp only [State.buf, hpos]
    rw [← this]; exact h1
  have had : (s.buf (s.var w)).addr = some p := by simp only [State.buf, hpos]
  unfold Buf.getBytes at hg
  rw [if_pos (by simp [Buf.getType, h1, RawType.simplify]), had] at hg
  simp only [Res.ofRead, Res.bind] at hg
  cases hz : findSizeof (s.buf (s.var w)).mem .object p with
  | none => rw [hz] at hg; cases hg
  | some z =>
    simp only [hz, readBytes] at hg
    split at hg
    · rename_i u hu
      cases hg
      split at hu
      · rename_i hle
        cases hu
        have e1 : s.step signed (.dupBytes w k) = .ok { (s.alloc (8 * k) (((s.buf (s.var w)).mem.drop p).take z)).1 with
            excl := s.blocks.length :: s.excl } := by
          simp only [State.step, hty, if_true, hpos, Option.all_some, hal, hz, Res.ofRead, Res.bind]
          rw [if_pos hle]
        have hb8 : (s.blocks ++ [(⟨8 * k, ((s.buf (s.var w)).mem.drop p).take z⟩ : Block)])[s.blocks.length]? =
            some ⟨8 * k, ((s.buf (s.var w)).mem.drop p).take z⟩ := by simp
        have h8 : 8 * k % 8 = 0 := by omega
        have e2 : ∃ t, s.run signed [.dupBytes w k, .fromUnique v (some s.blocks.length)] = .ok t ∧
            t.buf (t.var v) = Buf.ofBytes (((s.buf (s.var w)).mem.drop p).take z) ∧ OwnsItsMemory (t.var v) := by
          simp only [State.run, e1]
          simp only [State.step, State.alloc, State.validate, hb8, h8, Res.bind, Option.all_some, List.mem_cons,
            true_or, decide_true, if_true]
          refine ⟨_, rfl, ?_, ?_⟩
          · rw [var_set_eq (by exact hv)]
            simp [State.set, State.buf, Buf.ofBytes]
          · rw [var_set_eq (by exact hv)]
            intro b p hp
            simp at hp ⊢
            exact hp.1
        obtain ⟨t, ht, hbuf, ho⟩ := e2
        refine ⟨t, ht, keeps_of ?_ ho ?_⟩
        · exact inv_run _ (inv_reachable hr) ht
        · rw [valueOf, hbuf]; exact hval
      · cases hu
    · cases hg

/-- What sharing the bytes of a variable and making a buffer of them gives: the whole finalized value, from
whatever part it was shared. -/
theorem share_whole (signed : Bool) (n : Nat) (s : State) (hr : Reachable signed n s) (v w c : Nat) (root : Val)
    (hw : root.WF) (hp : PartOf signed s w root c) (x : Val) (hx : valueOf s w = some x) (hn : x ≠ .null)
    (hv : v < s.vars.length) :
    ∃ t, s.run signed [.shareBytes w, .fromShared v (some c)] = .ok t ∧ GoesOnShowing signed t v root := by
  obtain ⟨⟨kk, m, hm, hfin, hd⟩, href, ⟨p, hpos⟩⟩ := hp
  obtain ⟨y, hs⟩ := hd.shows (shows_root hw hfin)
  rw [valueOf, hs.value] at hx
  cases hx
  have hty : (s.var w).type ≠ .null := by
    have : (s.buf (s.var w)).type = (s.var w).type := by simp only [State.buf, hpos]
    rw [← this]
    rcases hs with ⟨_, h⟩ | ⟨q, h, _⟩
    · exact absurd h hn
    · rw [h]
      intro h0
      have := rawType_simplify x
      rw [h0] at this
      cases x <;> simp [RawType.simplify, Val.ty] at this
      exact hn rfl
  have h8 : 8 * kk % 8 = 0 := by omega
  have e : ∃ t, s.run signed [.shareBytes w, .fromShared v (some c)] = .ok t ∧
      t.buf (t.var v) = Buf.ofBytes m ∧ OwnsItsMemory (t.var v) := by
    simp only [State.run, State.step, if_neg hty, href, State.validate, hm, h8, Res.bind, Option.all_some,
      List.mem_cons, true_or, decide_true, if_true]
    refine ⟨_, rfl, ?_, ?_⟩
    · rw [var_set_eq (by exact hv)]
      simp [State.set, State.buf, Buf.ofBytes, hm]
    · rw [var_set_eq (by exact hv)]
      intro b p hp
      simp at hp ⊢
      exact hp.1
  obtain ⟨t, ht, hbuf, ho⟩ := e
  refine ⟨t, ht, keeps_of (inv_run _ (inv_reachable hr) ht) ho ?_⟩
  rw [valueOf, hbuf]
  exact (shows_root hw hfin).value

/-- C75 (partial): sharing the bytes of a variable that holds a whole finalized object, and making a buffer of
them, gives a variable that shows the same object and keeps showing it. Missing are parts of finalized objects,
for which it is false, see `C75_share_part_wrong`. -/
theorem C75_share_partial (signed : Bool) (n : Nat) (s : State) (hr : Reachable signed n s) (v w c : Nat) (root : Val)
    (hw : root.WF) (hp : PartOf signed s w root c) (hx : valueOf s w = some root) (hv : v < s.vars.length) :
    ∃ t, s.run signed [.shareBytes w, .fromShared v (some c)] = .ok t ∧ GoesOnShowing signed t v root := by
  refine share_whole signed n s hr v w c root hw hp root hx ?_ hv
  obtain ⟨⟨_, m, _, hfin, _⟩, _⟩ := hp
  obtain ⟨fs, _, rfl, _⟩ := finalize_eq_ok hw hfin
  simp

/-- C75, negation: sharing the bytes of a part, whatever it is, and making a buffer of them gives a variable that
shows something else: the whole. -/
theorem C75_share_part_wrong (signed : Bool) (n : Nat) (s : State) (hr : Reachable signed n s) (v w c : Nat)
    (root : Val) (hw : root.WF) (hp : PartOf signed s w root c) (x : Val) (hx : valueOf s w = some x)
    (hne : x ≠ root) (hn : x ≠ .null) (hv : v < s.vars.length) :
    ∃ t, s.run signed [.shareBytes w, .fromShared v (some c)] = .ok t ∧ valueOf t v = some root ∧
      valueOf t v ≠ some x := by
  obtain ⟨t, ht, hk⟩ := share_whole signed n s hr v w c root hw hp x hx hn hv
  have := (hk [] t (by simp) rfl).1
  exact ⟨t, ht, this, by rw [this]; simp; exact fun h => hne h.symm⟩

/-- C75: the bytes and the length `share_bytes` gives are those `get_bytes` gives for the whole; null is
refused. -/
theorem C75_share_bytes (signed : Bool) (v : Val) (m : Bytes) (hw : v.WF) (h : finalize v = .ok m) (b : Buf)
    (hb : Derived signed (Buf.ofBytes m) b) (x : Val) (hv : b.value = some x) :
    (x = .null → b.shareBytes = .throw .typeError) ∧ (x ≠ .null → b.shareBytes = (Buf.ofBytes m).getBytes) := by
  obtain ⟨y, hs⟩ := hb.shows (shows_root hw h)
  rw [hs.value] at hv
  cases hv
  have hm : b.mem = m := hb.mem_eq
  have hty : b.type = .null ↔ x = .null := by
    rcases hs with ⟨h1, h2⟩ | ⟨q, h1, _⟩
    · exact ⟨fun _ => h2, fun _ => h1⟩
    · rw [h1]
      constructor
      · intro h0
        have := rawType_simplify x
        rw [h0] at this
        cases x <;> simp [RawType.simplify, Val.ty] at this
        rfl
      · rintro rfl; rfl
  unfold Buf.shareBytes
  constructor
  · intro hn; rw [if_pos (hty.2 hn)]
  · intro hn
    rw [if_neg (fun e => hn (hty.1 e)), hm]
    rfl

/-- C75: a dynamic packet has no bytes to share or give out. -/
theorem C75_dynamic (v : Val) : (Pkt.heap v).shareBytes = .throw .stateError ∧ (Pkt.heap v).getBytes = .throw .stateError :=
  ⟨rfl, rfl⟩

/-! Concrete cases. -/

/-- `{"k": {"j": "x"}}` -/
def nestedSample : Val := .obj [([107], .obj [([106], .str [120])])]

/-- The bytes of `nestedSample`. -/
def nestedBytes : Bytes := (finalize nestedSample).toOption.getD []

/-- The state after making a buffer of these bytes and looking up `"k"`. -/
def nestedState : State :=
  ((State.start 3).run true [.alloc 16 nestedBytes, .fromUnique 0 (some 0), .get 1 0 [107]]).toOption.getD (State.start 0)

/-- It is reachable, and its variables 0 and 1 hold the whole and the part. -/
example : Reachable true 3 nestedState ∧ PartOf true nestedState 0 nestedSample 0 ∧
    PartOf true nestedState 1 nestedSample 0 := by
  have h0 : finalize nestedSample = .ok nestedBytes := by decide +kernel
  have h1 : nestedState.blocks[0]? = some ⟨8 * 2, nestedBytes⟩ := by decide +kernel
  have h2 : nestedState.buf (nestedState.var 0) = Buf.ofBytes nestedBytes := by decide +kernel
  have h3 : (Buf.ofBytes nestedBytes).get true [107] = .ok (nestedState.buf (nestedState.var 1)) := by decide +kernel
  refine ⟨⟨[.alloc 16 nestedBytes, .fromUnique 0 (some 0), .get 1 0 [107]], by decide +kernel⟩,
    ⟨⟨2, _, h1, h0, ?_⟩, by decide +kernel, ⟨0, by decide +kernel⟩⟩,
    ⟨⟨2, _, h1, h0, ?_⟩, by decide +kernel, ⟨24, by decide +kernel⟩⟩⟩
  · rw [h2]; exact .root
  · exact .get .root h3

/-- Duplicating the part makes the part; sharing it makes the whole. -/
example : (match nestedState.run true [.dupBytes 1 5, .fromUnique 2 (some 1)] with
      | .ok t => match valueOf t 2 with | some (.obj [([106], .str [120])]) => true | _ => false
      | _ => false) = true ∧
    (match nestedState.run true [.shareBytes 1, .fromShared 2 (some 0)] with
      | .ok t => match valueOf t 2 with | some (.obj [([107], .obj _)]) => true | _ => false
      | _ => false) = true := by decide +kernel

end Dart.Props
