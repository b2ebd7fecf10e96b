import Verif.Lemmas.Own
import Verif.Model.Sample

/-
C35: buffers made from bytes of the caller. `s.buf (s.var v)` is what the functions reading variable `v` see
in state `s`; it is `Buf.ofBytes m` for the object with the bytes `m`.
-/
namespace Dart.Props
open Spec Own

/-- A buffer that owns the memory it reads stays readable and reads the same, whatever the program does with
other variables and the caller with their memory. -/
theorem C35_owner_keeps_its_value {signed : Bool} {n : Nat} {s : State} (hr : Reachable signed n s) {v : Nat}
    (ho : OwnsItsMemory (s.var v)) {ops : List Op} (ha : ∀ op ∈ ops, ¬ Assigns v op) {t : State}
    (h : s.run signed ops = .ok t) : Readable t (t.var v) ∧ t.buf (t.var v) = s.buf (s.var v) :=
  have := run_owner ops (inv_reachable hr) ho ha h
  ⟨this.2.2, this.2.1⟩

/-- The constructors taking a pointer with its ownership make a buffer that reads the bytes pointed at and
owns them. -/
theorem C35_owning_constructors {signed : Bool} {s t : State} {v b : Nat} (hv : v < s.vars.length) {op : Op}
    (hop : op = .fromUnique v (some b) ∨ op = .fromShared v (some b)) (h : s.step signed op = .ok t) :
    ∃ m, s.blocks[b]? = some m ∧ t.buf (t.var v) = Buf.ofBytes m.bytes ∧ OwnsItsMemory (t.var v) := by
  have key : ∀ {s : State} {b c : Nat}, s.validate (some b) = .ok c → c = b ∧ ∃ m, s.blocks[b]? = some m := by
    intro s b c hc
    obtain ⟨h1, h2⟩ := validate_ok hc
    cases h1
    exact ⟨rfl, _, List.getElem?_eq_getElem h2⟩
  rcases hop with rfl | rfl
  · simp only [State.step] at h
    split at h
    · obtain ⟨c, hc, h'⟩ := Res.bind_eq_ok.1 h
      obtain ⟨rfl, m, hm⟩ := key hc
      cases h'
      refine ⟨m, hm, ?_, ?_⟩
      · simp [State.var, State.set, State.buf, hv, hm, Buf.ofBytes]
      · intro b p hp
        simp [State.var, State.set, hv] at hp ⊢
        exact hp.1
    · cases h
  · simp only [State.step] at h
    split at h
    · obtain ⟨c, hc, h'⟩ := Res.bind_eq_ok.1 h
      obtain ⟨rfl, m, hm⟩ := key hc
      cases h'
      refine ⟨m, hm, ?_, ?_⟩
      · simp [State.var, State.set, State.buf, hv, hm, Buf.ofBytes]
      · intro b p hp
        simp [State.var, State.set, hv] at hp ⊢
        exact hp.1
    · cases h

/-- These constructors throw for null and for pointers that are not aligned to 8 bytes, and the caller keeps
what they own. -/
theorem C35_bad_pointers (signed : Bool) (s : State) (v : Nat) :
    s.step signed (.fromUnique v none) = .throw .invalidArgument ∧
    s.step signed (.fromShared v none) = .throw .invalidArgument ∧
    ∀ b m, s.blocks[b]? = some m → m.base % 8 ≠ 0 →
      (b ∈ s.excl → s.step signed (.fromUnique v (some b)) = .throw .invalidArgument) ∧
      (b ∈ s.shared → s.step signed (.fromShared v (some b)) = .throw .invalidArgument) := by
  refine ⟨rfl, rfl, fun b m hm h8 => ⟨fun hb => ?_, fun hb => ?_⟩⟩
  · simp [State.step, State.validate, hm, h8, hb, Res.bind]
  · simp [State.step, State.validate, hm, h8, hb, Res.bind]

/-- A sub-value reads in the memory of the whole and owns it if the whole does. -/
theorem C35_parts {signed : Bool} {s t : State} {v w : Nat} (hv : v < s.vars.length) {key : Bytes}
    (h : s.step signed (.get v w key) = .ok t) : ∃ e, (s.buf (s.var w)).get signed key = .ok e ∧
      (t.buf (t.var v)).type = e.type ∧ (e.type ≠ .null → t.buf (t.var v) = e) ∧
      (OwnsItsMemory (s.var w) → OwnsItsMemory (t.var v)) := by
  simp only [State.step] at h
  split at h
  · obtain ⟨e, he, h⟩ := Res.bind_eq_ok.1 h
    cases h
    have hvar : (s.set v ((s.var w).sub e)).var v = (s.var w).sub e := by simp [State.var, State.set, hv]
    refine ⟨e, he, ?_, ?_, ?_⟩
    · rw [hvar]
      unfold Handle.sub
      split
      · rename_i hn; rw [hn]; rfl
      · unfold State.buf; split <;> rfl
    · intro hn
      rw [hvar]
      have hmem := he
      unfold Buf.get at hmem
      obtain ⟨p, hp, hmem⟩ := Res.bind_eq_ok.1 hmem
      obtain ⟨r, hr, hmem⟩ := Res.bind_eq_ok.1 hmem
      cases hpos : (s.var w).pos with
      | none =>
        unfold State.buf at hp
        simp only [hpos, Buf.object] at hp
        split at hp <;> cases hp
      | some q =>
        cases r with
        | none => cases hmem; exact absurd rfl hn
        | some x =>
          cases hmem
          have hr' : getValueImpl signed (s.buf (s.var w)).mem p key = some (some x) := by
            cases hg : getValueImpl signed (s.buf (s.var w)).mem p key with
            | none => rw [hg] at hr; cases hr
            | some y => rw [hg] at hr; cases hr; rfl
          rcases getValueImpl_addr hr' with h0 | ⟨a, ha⟩
          · exact absurd h0 hn
          · exact buf_sub hpos hn (p := a) (by simp only [Buf.sub, ha])
    · intro ho; rw [hvar]; exact owns_sub ho e
  · cases h

/-- Copies and moved-to variables read the same as the original did, and own it if the original did. -/
theorem C35_copies {signed : Bool} {s t : State} {v w : Nat} (hv : v < s.vars.length) {op : Op}
    (hop : op = .copy v w ∨ op = .move v w) (h : s.step signed op = .ok t) :
    t.var v = s.var w ∧ t.buf (t.var v) = s.buf (s.var w) := by
  have : t.var v = s.var w ∧ t.blocks = s.blocks := by
    rcases hop with rfl | rfl
    · cases h; exact ⟨by simp [State.var, State.set, hv], rfl⟩
    · simp only [State.step] at h
      split at h
      · rename_i e; cases h; exact ⟨by rw [e], rfl⟩
      · rename_i e; cases h
        exact ⟨by rw [var_set_ne e]; simp [State.var, State.set, hv], rfl⟩
  refine ⟨this.1, ?_⟩
  rw [this.1]
  simp only [State.buf, this.2]

/-- In programs that do not use the constructor from a span, all buffers own the memory they read, hence can
always be read and never change under the program's hands.
Missing for the full property: the constructor from a span, which is wrong (see below). -/
theorem C35_independent_partial {signed : Bool} {n : Nat} {ops : List Op} (hn : ∀ op ∈ ops, NotSpan op) {s : State}
    (hs : (State.start n).run signed ops = .ok s) (v : Nat) {more : List Op} (ha : ∀ op ∈ more, ¬ Assigns v op)
    {t : State} (ht : s.run signed more = .ok t) :
    Readable s (s.var v) ∧ Readable t (t.var v) ∧ t.buf (t.var v) = s.buf (s.var v) := by
  have ho : OwnsItsMemory (s.var v) := by
    refine run_owns ops ?_ hn hs v
    intro w
    have : (State.start n).var w = .null := by
      unfold State.start State.var
      by_cases h : w < n <;> simp [h]
    rw [this]; exact owns_null
  exact ⟨(C35_owner_keeps_its_value ⟨ops, hs⟩ ho (ops := []) (by simp) rfl).1,
    C35_owner_keeps_its_value ⟨ops, hs⟩ ho ha ht⟩

/-- The bytes given out by `dup_bytes` make an equal buffer that owns its memory (this is what `transmogrify`
does). -/
theorem C35_duplicates {signed : Bool} {s : State} {v w b k : Nat} (hv : v < s.vars.length)
    (hw : s.var w = ⟨.object, some (b, 0), some b⟩) {g : Bytes} (hg : getBytes (s.buf (s.var w)).mem = some g) :
    ∃ t, s.run signed [.dupBytes w k, .fromUnique v (some s.blocks.length)] = .ok t ∧
      t.buf (t.var v) = Buf.ofBytes g ∧ OwnsItsMemory (t.var v) := by
  have hal : s.alive b = true := alive_iff.2 (.inr (.inr ⟨w, by rw [hw]⟩))
  generalize hm : (s.buf (s.var w)).mem = m at hg
  unfold getBytes at hg
  cases hz : findSizeof m .object 0 with
  | none => simp [hz] at hg
  | some z =>
    simp only [hz, Option.bind_eq_bind, Option.bind_some, readBytes] at hg
    split at hg
    · rename_i hle
      cases hg
      have h1 : s.step signed (.dupBytes w k) = .ok { (s.alloc (8 * k) ((m.drop 0).take z)).1 with excl := s.blocks.length :: s.excl } := by
        simp only [State.step, hm]
        simp only [hw, Option.all_some, hal, if_true, hz, Res.ofRead, Res.bind]
        rw [if_pos hle]
      simp only [State.run, h1]
      have h2 : (s.blocks ++ [⟨8 * k, (m.drop 0).take z⟩])[s.blocks.length]? = some ⟨8 * k, (m.drop 0).take z⟩ := by simp
      have h3 : 8 * k % 8 = 0 := by omega
      simp only [State.step, State.alloc, State.validate, h2, h3, Res.bind, Option.all_some, List.mem_cons, true_or,
        decide_true, if_true]
      refine ⟨_, rfl, ?_, ?_⟩
      · simp [State.var, State.set, State.buf, hv, Buf.ofBytes]
      · intro b p hp
        simp [State.var, State.set, hv] at hp ⊢
        exact hp.1
    · cases hg

/-! What is wrong with the constructor from a span. -/

/-- The caller allocates `m`, constructs a buffer from it "by copying" and then changes a byte: the buffer shows
the change, whatever the bytes and the change are. -/
theorem C35_span_shows_callers_memory_wrong (signed : Bool) {m : Bytes} (hm : m ≠ []) (base k off : Nat) (x : UInt8) :
    ∃ t, (State.start 1).run signed [.alloc base m, .fromSpan 0 0 0 m.length k, .write 0 off x] = .ok t ∧
      t.buf (t.var 0) = Buf.ofBytes (m.set off x) := by
  have : m.length ≠ 0 := fun h => hm (List.length_eq_zero_iff.1 h)
  refine ⟨_, by simp [State.run, State.step, State.start, State.alloc, State.alive, this]; rfl, ?_⟩
  simp [State.var, State.set, State.buf, Buf.ofBytes, Block.write]

/-- When the caller frees the memory instead, the buffer can no longer be read. -/
theorem C35_span_dangles_wrong (signed : Bool) {m : Bytes} (hm : m ≠ []) (base k : Nat) :
    ∃ t, (State.start 1).run signed [.alloc base m, .fromSpan 0 0 0 m.length k, .free 0] = .ok t ∧
      ¬ Readable t (t.var 0) := by
  have : m.length ≠ 0 := fun h => hm (List.length_eq_zero_iff.1 h)
  refine ⟨_, by simp [State.run, State.step, State.start, State.alloc, State.alive, this]; rfl, ?_⟩
  intro h
  have := h 0 0 (by simp [State.var, State.set])
  simp [State.alive, State.set] at this

/-! Concrete cases. -/

/-- The finalized object `{"k": "x"}`, as bytes. -/
def sampleBytes : Bytes := (finalize (.obj [([107], .str [120])])).toOption.getD []

/-- Allocating, giving the memory away, looking up a part, dropping the whole, and then writing to other memory:
the part still reads "x". -/
example : ∃ t, (State.start 2).run true [.alloc 16 sampleBytes, .fromUnique 0 (some 0), .get 1 0 [107], .drop 0,
    .alloc 64 [1, 2], .write 1 0 7] = .ok t ∧ (t.buf (t.var 1)).strv = .ok [120] ∧ t.alive 0 = true :=
  ⟨_, rfl, by decide +kernel, by decide +kernel⟩
/-- The same with the constructor from a span; the last write is to the byte holding the "x". -/
example : ∃ t, (State.start 2).run true [.alloc 16 sampleBytes, .fromSpan 0 0 0 40 5, .get 1 0 [107],
    .write 0 22 121] = .ok t ∧ (t.buf (t.var 1)).strv = .ok [121] :=
  ⟨_, rfl, by decide +kernel⟩
example : (State.start 1).step true (.fromUnique 0 none) = .throw .invalidArgument := rfl
example : getBytes sampleBytes = some (sampleBytes.take 24) := by decide +kernel

end Dart.Props
