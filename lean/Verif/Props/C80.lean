import Verif.Lemmas.HostileCopy
import Verif.Lemmas.HostileResult
import Verif.Lemmas.HostileChain
import Verif.Model.Recount
import Verif.Model.Sample

/-
C80: bytes from an untrusted source that `is_valid` accepts stay harmless when they are compared, exported, converted, embedded in
new objects, projected and merged.
-/
namespace Dart.Props
open Spec

/-- C80: whatever is reached in accepted bytes can be compared with anything reached in other accepted bytes, with dynamic values and
native values, be written out as JSON events, converted to native types and searched by a path: all of that returns or throws. -/
theorem C80_reads_are_defined (signed : Bool) (m m' : Bytes) (h : accepts m) (h' : accepts m') (b c : Buf)
    (hb : Derived signed (Buf.ofBytes m) b) (hc : Derived signed (Buf.ofBytes m') c) :
    (∀ same ptr, ∃ r, b.eq same ptr c = .ok r) ∧ (∀ w, ∃ r, b.eqVal signed w = .ok r) ∧
    (∀ x, ∃ r, b.eqNative x = .ok r) ∧ (∃ l, b.serialize (b.mem.length + 1) = .ok l) ∧
    (∀ t, b.toNative t ≠ .ub) ∧ ∀ path sep, ∃ d, b.getNested signed path sep = .ok d := by
  have sb := hb.safe (accepts_safe h)
  have sc := hc.safe (accepts_safe h')
  refine ⟨fun so sp => sb.eq sc so sp, fun w => sb.eqVal w, sb.eqNative, sb.serialize, sb.toNative, fun path sep => ?_⟩
  obtain ⟨d, hd, _⟩ := sb.getNested signed path sep
  exact ⟨d, hd⟩

/-- The bytes of an object are as many as its header says. -/
theorem sizeof_of_bytes {b : Buf} {bs : Bytes} (h : b.getBytes = .ok bs) : b.type = .object ∧ b.sizeof = some bs.length := by
  unfold Buf.getBytes at h
  split at h
  · rename_i ht
    have ht := type_of_getType.1 ht
    cases ha : b.addr with
    | none => rw [ha] at h; cases h
    | some p =>
      rw [ha] at h
      simp only [Res.ofRead, Res.bind_ok] at h
      cases hz : findSizeof b.mem .object p with
      | none => rw [hz] at h; cases h
      | some n =>
        rw [hz] at h
        simp only [Res.bind_ok] at h
        cases hr : readBytes b.mem p n with
        | none => rw [hr] at h; cases h
        | some bs' =>
          rw [hr] at h
          simp only [Res.ok.injEq] at h
          subst h
          refine ⟨ht, ?_⟩
          simp only [Buf.sizeof, ht, ha, hz, readBytes_length hr]
  · cases h

/-- C80: every object reached in accepted bytes can be exported (`get_bytes`, `dup_bytes`), and what is exported is accepted again and
holds the same value. -/
theorem C80_exported_is_accepted (signed : Bool) (m : Bytes) (h : accepts m) (b : Buf) (hb : Derived signed (Buf.ofBytes m) b)
    (ho : b.getType = .object) : ∃ bs v, b.getBytes = .ok bs ∧ b.dupBytes = .ok bs ∧ accepts bs ∧
      b.value = some v ∧ (Buf.ofBytes bs).value = some v := by
  have ht := type_of_getType.1 ho
  obtain ⟨p, hp, hs⟩ := (hb.safe (accepts_safe h)).addr (by simp [ht])
  rw [ht] at hs
  obtain ⟨n, h1, hn, h2, h3⟩ := hs.accepted
  have hg : b.getBytes = .ok (cutOut b.mem p n) := by
    simp only [Buf.getBytes, ho, if_true, hp, h1, h2, Res.ofRead, Res.bind_ok]
  obtain ⟨v, v1, v2⟩ := cut_value ht hp hs.align hn h3
  exact ⟨_, v, hg, hg, h3, v1, v2⟩

/-- What is passed to `make_object`: dynamic values whose size can be told, and anything reached in accepted bytes. -/
inductive Offered (signed : Bool) : Pkt → Prop
  | value {v : Val} : v.WF → (upperBound v).isSome → Offered signed (.heap v)
  | part {m : Bytes} {b : Buf} : accepts m → Derived signed (Buf.ofBytes m) b → Offered signed (.buf b)

/-- C80: `make_object` on dynamic values and parts of accepted bytes in any mixture, keys included, writes nothing outside of what it
allocates: it gives an object or throws `std::invalid_argument`. -/
theorem C80_make_object_is_defined (signed : Bool) (args : List Pkt) (h : ∀ x ∈ args, Offered signed x) :
    Buf.makeObject args = .throw .invalidArgument ∨ ∃ b, Buf.makeObject args = .ok b := by
  refine makeObject_usable args fun x hx => ?_
  cases h x hx with
  | value hw hu => exact ⟨hw, Option.isSome_iff_exists.1 hu⟩
  | part hm hb => exact hb.safe (accepts_safe hm)

/-- C80: iterating over an object reached in accepted bytes shows some fields. -/
theorem C80_fields_exist (signed : Bool) (m : Bytes) (h : accepts m) (b : Buf) (hb : Derived signed (Buf.ofBytes m) b)
    (ho : b.getType = .object) : ∃ ps, Pieces b ps :=
  pieces_exist (hb.safe (accepts_safe h)) (type_of_getType.1 ho)

/-- C80: projecting an object reached in accepted bytes whose keys are in order: exactly when the fields picked, laid out one
behind the other after a table for as many fields as keys were asked for, end within the size of the object, the result is defined. -/
theorem C80_project_exactly (signed : Bool) (m : Bytes) (h : accepts m) (b : Buf) (hb : Derived signed (Buf.ofBytes m) b)
    (bs : Bytes) (hbs : b.getBytes = .ok bs) (ps : List Piece) (hps : Pieces b ps) (hr : KeysRise ps) (ks : List Bytes) :
    (endOf (8 + 8 * ks.length) (ps.filter (·.key ∈ ks)) ≤ bs.length → ∃ c, b.project ks = .ok c) ∧
    (bs.length < endOf (8 + 8 * ks.length) (ps.filter (·.key ∈ ks)) → b.project ks = .ub) := by
  obtain ⟨ht, hz⟩ := sizeof_of_bytes hbs
  exact project_iff (hb.safe (accepts_safe h)) ht hps hr ks hz

/-- C80: injecting nothing into an object reached in accepted bytes (which copies it): defined exactly when the fields, laid out one
behind the other, end within the size of the object and eight bytes more. -/
theorem C80_inject_nothing_exactly (signed : Bool) (m : Bytes) (h : accepts m) (b : Buf) (hb : Derived signed (Buf.ofBytes m) b)
    (bs : Bytes) (hbs : b.getBytes = .ok bs) (ps : List Piece) (hps : Pieces b ps) :
    (endOf (8 + 8 * ps.length) ps ≤ bs.length + 8 → ∃ c, b.inject [] = .ok c) ∧
    (bs.length + 8 < endOf (8 + 8 * ps.length) ps → b.inject [] = .ub) := by
  obtain ⟨ht, hz⟩ := sizeof_of_bytes hbs
  exact inject_nil_iff (hb.safe (accepts_safe h)) ht hps hz

/-- C80, for objects whose fields do not overlap and whose keys are in order: projecting on no more keys than there are fields, and
injecting nothing, stay within the memory allocated.

Missing for the full property: fields that overlap (or hide in one another), repeated keys, and more keys than fields; all of them
are accepted by `is_valid`, and the full claim is false for them (see below). -/
theorem C80_project_inject_separate_partial (signed : Bool) (m : Bytes) (h : accepts m) (b : Buf) (hb : Derived signed (Buf.ofBytes m) b)
    (bs : Bytes) (hbs : b.getBytes = .ok bs) (ps : List Piece) (hps : Pieces b ps) (a : Nat) (ha : b.addr = some a)
    (hsep : FieldsApart b ps a bs.length) :
    (KeysRise ps → ∀ ks : List Bytes, ks.length ≤ ps.length → ∃ c, b.project ks = .ok c) ∧ ∃ c, b.inject [] = .ok c := by
  obtain ⟨ht, hz⟩ := sizeof_of_bytes hbs
  have hend := separate_ends (hb.safe (accepts_safe h)) ht hps ha hz hsep
  refine ⟨fun hr ks hk => (C80_project_exactly signed m h b hb bs hbs ps hps hr ks).1 ?_,
    (C80_inject_nothing_exactly signed m h b hb bs hbs ps hps).1 (by omega)⟩
  exact Nat.le_trans (endOf_sublist List.filter_sublist (by omega)) hend

/-- C80, for objects that take a multiple of eight bytes and whose keys are in order: the result of projecting, if it is defined, has
exactly the fields asked for, with their values, and if none of them is null it is accepted by `is_valid` (so that everything said here
about accepted bytes is true of it).

Missing for the full property: other sizes and nulls, for which it is false (see below). -/
theorem C80_project_result_partial (signed : Bool) (m : Bytes) (h : accepts m) (b : Buf) (hb : Derived signed (Buf.ofBytes m) b)
    (bs : Bytes) (hbs : b.getBytes = .ok bs) (h8 : 8 ∣ bs.length) (fs : List (Bytes × Val)) (hf : IterShows b fs)
    (hr : fs.Pairwise fun x y => KeyBefore x.1 y.1) (ks : List Bytes) (c : Buf) (hc : b.project ks = .ok c) :
    IterShows c (fs.filter (·.1 ∈ ks)) ∧ ((∀ f ∈ fs, f.1 ∈ ks → f.2 ≠ .null) → accepts c.mem ∧ c = Buf.ofBytes c.mem) := by
  obtain ⟨ht, hz⟩ := sizeof_of_bytes hbs
  obtain ⟨h1, h2, h3, _⟩ := project_result (hb.safe (accepts_safe h)) ht hf hr hc hz h8
  exact ⟨h2, fun hn => ⟨h3 hn, h1⟩⟩

/-- C80, for objects that take multiples of eight bytes (less than 4 GiB together) and whose keys are in order: the result of merging
them, if it is defined, has the fields of both, those of the second where they share a key, in order, and if none of them is null it is
accepted by `is_valid`.

Missing for the full property: other sizes and nulls, for which it is false (see below). -/
theorem C80_merge_result_partial (signed : Bool) (m m' : Bytes) (h : accepts m) (h' : accepts m') (b c : Buf)
    (hb : Derived signed (Buf.ofBytes m) b) (hc : Derived signed (Buf.ofBytes m') c) (bs cs : Bytes) (hbs : b.getBytes = .ok bs)
    (hcs : c.getBytes = .ok cs) (h8 : 8 ∣ bs.length + cs.length) (hlt : bs.length + cs.length < 2 ^ 32)
    (fs gs : List (Bytes × Val)) (hf : IterShows b fs) (hg : IterShows c gs) (hr : fs.Pairwise fun x y => KeyBefore x.1 y.1)
    (hr' : gs.Pairwise fun x y => KeyBefore x.1 y.1) (d : Buf) (hd : b.merge c = .ok d) :
    ∃ us, IterShows d us ∧ us.Pairwise (fun x y => KeyBefore x.1 y.1) ∧ (∀ k, lookup us k = (lookup gs k).or (lookup fs k)) ∧
      ((∀ f ∈ fs ++ gs, f.2 ≠ .null) → accepts d.mem ∧ d = Buf.ofBytes d.mem) := by
  obtain ⟨ht, hz⟩ := sizeof_of_bytes hbs
  obtain ⟨ht', hz'⟩ := sizeof_of_bytes hcs
  obtain ⟨h1, h2, h3, _⟩ := merge_result (hb.safe (accepts_safe h)) ht (hc.safe (accepts_safe h')) ht' hf hg hr hz hz' h8 hlt hd
  have sf := sorted_iff.1 hr
  have sg := sorted_iff.1 hr'
  refine ⟨_, h2, sorted_iff.2 (mergeFields_sorted sf sg), lookup_mergeFields sf sg, fun hn => ⟨h3 fun f hf => hn f ?_, h1⟩⟩
  exact List.mem_append.2 (mem_mergeFields fs hf)

/-- C80, for programs that project and merge in any order and number, beginning with accepted bytes whose sizes are multiples of
eight, whose keys are in order and which hold no null, less than 4 GiB together: if no step is undefined, the result holds exactly the
fields it should, each once and in order, and is accepted by `is_valid`.

Missing for the full property: other bytes, for which it is false (see above and below), and that every step is defined, which is
false as well (`C80_negation_overlap`; for merging also C12). -/
theorem C80_chains_partial (e : Chain) (he : e.Good) (hw : e.weight < 2 ^ 32) (c : Buf) (hc : e.run = .ok c) :
    ∃ us, IterShows c us ∧ us.Pairwise (fun x y => KeyBefore x.1 y.1) ∧ (∀ k, lookup us k = e.holds k) ∧
      accepts c.mem ∧ c = Buf.ofBytes c.mem := by
  obtain ⟨us, r, hl, _⟩ := chain_result e he hw hc
  exact ⟨us, r.shows, r.ordered, hl, r.accepted, r.whole⟩

/-- C80, for the same programs: overlapping fields are gone after one step. What projecting or merging has given can be projected
again on no more keys than it has fields, and be copied by injecting nothing, without leaving the memory allocated.

Missing for the full property: more keys than fields (see C12). -/
theorem C80_after_one_step_partial (e : Chain) (he : e.Good) (hw : e.weight < 2 ^ 32) (hm : e.isMade = true) (c : Buf)
    (hc : e.run = .ok c) (us : List (Bytes × Val)) (hu : IterShows c us) :
    (∀ ks : List Bytes, ks.length ≤ us.length → ∃ d, (Chain.pick e ks).run = .ok d) ∧ ∃ d, c.inject [] = .ok d := by
  obtain ⟨us', r, _, hs⟩ := chain_result e he hw hc
  obtain ⟨es, hs⟩ := hs hm
  have := iterShows_unique hu r.shows
  subst this
  obtain ⟨h1, h2⟩ := r.next hs
  refine ⟨fun ks hk => ?_, h2⟩
  obtain ⟨d, hd⟩ := h1 ks hk
  exact ⟨d, by simp only [Chain.run, hc, Res.bind_ok]; exact hd⟩

/-! ### Where it is false -/

/-- 21 bytes: the field "a" is true; the size is not padded to a multiple of eight. -/
def unpadded : Bytes := leBytes 4 21 ++ leBytes 4 1 ++ (leBytes 4 16 ++ [10, 1, 97, 0]) ++ [1, 0, 97, 0] ++ [1]

/-- What projecting it on "a" gives: 21 bytes which say of themselves that they are 24. -/
def unpaddedPick : Bytes := leBytes 4 24 ++ leBytes 4 1 ++ (leBytes 4 16 ++ [10, 1, 97, 0]) ++ [1, 0, 97, 0] ++ [1]

/-- C80 is false: bytes accepted by `is_valid` whose size is no multiple of eight are projected into an object that claims to be larger
than what was allocated for it: exporting, copying or comparing it reads past the end, and `is_valid` refuses it. -/
theorem C80_negation_unpadded : accepts unpadded ∧ (Buf.ofBytes unpadded).project [[97]] = .ok (Buf.ofBytes unpaddedPick) ∧
    (Buf.ofBytes unpaddedPick).getBytes = .ub ∧ (Buf.ofBytes unpaddedPick).dupBytes = .ub ∧
    (Buf.ofBytes unpaddedPick).eq false false (Buf.ofBytes unpaddedPick) = .ub ∧ ¬ accepts unpaddedPick := by
  refine ⟨by unfold accepts; decide +kernel, by rfl, by rfl, by rfl, by rfl, by unfold accepts; decide +kernel⟩

/-- 40 bytes: the fields "a" and "b" are null, with space between them. -/
def twoNulls : Bytes :=
  leBytes 4 40 ++ leBytes 4 2 ++ (leBytes 4 24 ++ [11, 1, 97, 0]) ++ (leBytes 4 30 ++ [11, 1, 98, 0]) ++
  [1, 0, 97, 0] ++ [0, 0] ++ [1, 0, 98, 0] ++ [0, 0, 0, 0, 0, 0]

/-- C80 is false: projecting bytes accepted by `is_valid` gives bytes it refuses. -/
theorem C80_negation_nulls : accepts twoNulls ∧ ∃ c, (Buf.ofBytes twoNulls).project [[97], [98]] = .ok c ∧ ¬ accepts c.mem := by
  refine ⟨by unfold accepts; decide +kernel, ?_⟩
  have : (match (Buf.ofBytes twoNulls).project [[97], [98]] with | .ok c => decide (¬ accepts c.mem) | _ => false) = true := by decide +kernel
  cases h : (Buf.ofBytes twoNulls).project [[97], [98]] with
  | ok c => rw [h] at this; exact ⟨c, rfl, of_decide_eq_true this⟩
  | ub => rw [h] at this; cases this
  | throw _ => rw [h] at this; cases this

/-- 64 bytes: the field "a" is a string of 33 bytes, and the field "b" lies inside of it. -/
def overlapping : Bytes :=
  leBytes 4 64 ++ leBytes 4 2 ++ (leBytes 4 24 ++ [2, 1, 97, 0]) ++ (leBytes 4 30 ++ [2, 1, 98, 0]) ++
  [1, 0, 97, 0] ++ leBytes 2 33 ++ [1, 0, 98, 0] ++ leBytes 2 27 ++ List.replicate 27 120 ++ [0]

/-- C80 is false: bytes accepted by `is_valid` whose fields overlap make `inject` and `project` write past the end of what they
allocate. -/
theorem C80_negation_overlap : accepts overlapping ∧ (Buf.ofBytes overlapping).inject [] = .ub ∧
    (Buf.ofBytes overlapping).project [[97], [98]] = .ub ∧ (∃ c, (Buf.ofBytes overlapping).project [[97]] = .ok c) := by
  refine ⟨?_, ?_, ?_, ?_⟩
  · unfold accepts; decide +kernel
  · have : (match (Buf.ofBytes overlapping).inject [] with | .ub => true | _ => false) = true := by decide +kernel
    cases h : (Buf.ofBytes overlapping).inject [] with
    | ub => rfl
    | ok _ => rw [h] at this; cases this
    | throw _ => rw [h] at this; cases this
  · have : (match (Buf.ofBytes overlapping).project [[97], [98]] with | .ub => true | _ => false) = true := by decide +kernel
    cases h : (Buf.ofBytes overlapping).project [[97], [98]] with
    | ub => rfl
    | ok _ => rw [h] at this; cases this
    | throw _ => rw [h] at this; cases this
  · have : (match (Buf.ofBytes overlapping).project [[97]] with | .ok _ => true | _ => false) = true := by decide +kernel
    cases h : (Buf.ofBytes overlapping).project [[97]] with
    | ok c => exact ⟨c, rfl⟩
    | ub => rw [h] at this; cases this
    | throw _ => rw [h] at this; cases this

/-- 40 bytes: an object with the key "a" twice. -/
def repeated : Bytes :=
  leBytes 4 40 ++ leBytes 4 2 ++ (leBytes 4 24 ++ [10, 1, 97, 0]) ++ (leBytes 4 30 ++ [10, 1, 97, 0]) ++
  [1, 0, 97, 0] ++ [1, 0] ++ [1, 0, 97, 0] ++ [1, 0, 0, 0, 0, 0]

/-- C80 is false: an object with a repeated key is accepted, and projecting it on that key finds more fields than it made room for in
the table. -/
theorem C80_negation_repeated : accepts repeated ∧ (Buf.ofBytes repeated).project [[97]] = .ub := by
  refine ⟨by unfold accepts; decide +kernel, ?_⟩
  have : (match (Buf.ofBytes repeated).project [[97]] with | .ub => true | _ => false) = true := by decide +kernel
  cases h : (Buf.ofBytes repeated).project [[97]] with
  | ub => rfl
  | ok _ => rw [h] at this; cases this
  | throw _ => rw [h] at this; cases this

/-- 32 bytes: the value of "x" is the string "aaaaa", stored as strings above 65535 bytes are (with four bytes of length). -/
def bigKey : Bytes :=
  leBytes 4 32 ++ leBytes 4 1 ++ (leBytes 4 16 ++ [4, 1, 120, 0]) ++ [1, 0, 120, 0] ++ leBytes 4 5 ++ [97, 97, 97, 97, 97, 0, 0, 0]

/-- The string in those bytes. -/
def bigKeyStr : Buf := ⟨bigKey, .bigString, some 20⟩

/-- The object made with it as key. -/
def badObject : Bytes := match Buf.makeObject [.buf bigKeyStr, .heap (.str [118])] with | .ok d => d.mem | _ => []

/-- C80 is false: a string taken from accepted bytes reads "aaaaa", `make_object` takes it as a key, and the object it returns has
another key; reading its value leaves the buffer, and `is_valid` refuses it. -/
theorem C80_negation_long_form_key : accepts bigKey ∧ (∀ signed, Derived signed (Buf.ofBytes bigKey) bigKeyStr) ∧
    bigKeyStr.strv = .ok [97, 97, 97, 97, 97] ∧ Buf.makeObject [.buf bigKeyStr, .heap (.str [118])] = .ok (Buf.ofBytes badObject) ∧
    (((Buf.ofBytes badObject).keyAt 0).bind Buf.strv) = .ok [0, 0, 97, 97, 97] ∧
    (((Buf.ofBytes badObject).valueAt 0).bind Buf.strv) = .ub ∧ ¬ accepts badObject := by
  refine ⟨by unfold accepts; decide +kernel, fun signed => ?_, by rfl, by rfl, by rfl, by rfl, ?_⟩
  · exact Derived.values (bs := [bigKeyStr]) (Derived.root) (by rfl) (by simp)
  · unfold accepts; decide +kernel

/-! ### Non-vacuity -/

/-- Accepted bytes with two fields in order that do not overlap, and their fields. -/
def twoFields : Bytes :=
  leBytes 4 40 ++ leBytes 4 2 ++ (leBytes 4 24 ++ [10, 1, 97, 0]) ++ (leBytes 4 30 ++ [10, 1, 98, 0]) ++
  [1, 0, 97, 0] ++ [1, 0] ++ [1, 0, 98, 0] ++ [1, 0, 0, 0, 0, 0]

example : accepts twoFields := by unfold accepts; decide +kernel

example : Pieces (Buf.ofBytes twoFields) [⟨[97], .boolean, 1⟩, ⟨[98], .boolean, 1⟩] where
  count := by rfl
  field := fun i p h => by
    match i, h with
    | 0, h => cases h; exact ⟨⟨_, by rfl, by rfl⟩, _, by rfl, by rfl, by rfl⟩
    | 1, h => cases h; exact ⟨⟨_, by rfl, by rfl⟩, _, by rfl, by rfl, by rfl⟩

example : KeysRise [⟨[97], .boolean, 1⟩, ⟨[98], .boolean, 1⟩] := by
  refine .cons (fun q hq => ?_) (.cons (fun q hq => by cases hq) .nil)
  simp at hq; subst hq
  exact .inr ⟨rfl, 0, by decide, by decide, by decide, fun j hj => absurd hj (Nat.not_lt_zero j)⟩

example : FieldsApart (Buf.ofBytes twoFields) [⟨[97], .boolean, 1⟩, ⟨[98], .boolean, 1⟩] 0 40 where
  first := fun k _ h => by cases h; exact ⟨24, rfl, by decide⟩
  next := fun i p v k h hi hv hk => by
    match i, h with
    | 0, h => cases h; cases hv; cases hk; exact ⟨28, 30, rfl, rfl, by decide⟩
    | 1, h => simp at hi
  last := fun i p v h hv => by
    match i, h with
    | 0, h => cases h; cases hv; exact ⟨28, rfl, by decide⟩
    | 1, h => cases h; cases hv; exact ⟨34, rfl, by decide⟩

example : IterShows (Buf.ofBytes twoFields) [([97], .bool true), ([98], .bool true)] where
  count := by rfl
  field := fun i p h => by
    match i, h with
    | 0, h => cases h; exact ⟨⟨_, by rfl, by rfl⟩, _, by rfl, by rfl⟩
    | 1, h => cases h; exact ⟨⟨_, by rfl, by rfl⟩, _, by rfl, by rfl⟩

/-- They take 40 bytes, projecting on "b" is defined, and so is merging them with themselves. -/
example : ((Buf.ofBytes twoFields).getBytes.bind fun bs => .ok bs.length) = .ok 40 ∧
    (∃ c, (Buf.ofBytes twoFields).project [[98]] = .ok c) ∧ ∃ d, (Buf.ofBytes twoFields).merge (Buf.ofBytes twoFields) = .ok d :=
  ⟨by rfl, ⟨_, by rfl⟩, _, by rfl⟩

/-- They are in order, and a program of three steps on them runs. -/
theorem twoFields_tame : Tame twoFields [([97], .bool true), ([98], .bool true)] where
  accepted := by unfold accepts; decide +kernel
  shows := {
    count := by rfl
    field := fun i p h => by
      match i, h with
      | 0, h => cases h; exact ⟨⟨_, by rfl, by rfl⟩, _, by rfl, by rfl⟩
      | 1, h => cases h; exact ⟨⟨_, by rfl, by rfl⟩, _, by rfl, by rfl⟩ }
  ordered := by
    refine .cons (fun q hq => ?_) (.cons (fun q hq => by cases hq) .nil)
    simp at hq; subst hq
    exact .inr ⟨rfl, 0, by decide, by decide, by decide, fun j hj => absurd hj (Nat.not_lt_zero j)⟩
  full := fun f hf => by simp at hf; rcases hf with rfl | rfl <;> simp
  size := ⟨_, by rfl, by decide⟩

/-- The example program: `a.project("b", "a")` merged with `a.project("b")`. -/
def threeSteps : Chain :=
  .join (.pick (.given twoFields [([97], .bool true), ([98], .bool true)]) [[98], [97]])
    (.pick (.given twoFields [([97], .bool true), ([98], .bool true)]) [[98]])

example : threeSteps.Good ∧ threeSteps.weight < 2 ^ 32 ∧ threeSteps.isMade = true ∧ ∃ c, threeSteps.run = .ok c :=
  ⟨⟨twoFields_tame, twoFields_tame⟩, by decide, rfl, _, by rfl⟩

/-- In the overlapping object the fields end after 98 bytes when laid out one behind the other. -/
example : endOf (8 + 8 * 2) [⟨[97], .string, 36⟩, ⟨[98], .string, 30⟩] = 98 := by decide

end Dart.Props
