import Verif.Lemmas.Safe
import Verif.Model.Sample

/-
C08: a buffer that passes validation is memory safe to read.

`accepts m`: the public `is_valid` returns true on the bytes `m`. `Derived signed (Buf.ofBytes m) b`:
`b` can be reached from the root of `m` by any number of lookups, index accesses and iterations. The
outcome `Res.ub` stands for a read outside of `m` (or through a null pointer, or with an unknown type
byte). Nothing else is assumed about the bytes.
-/
namespace Dart.Props

/-- No read operation on anything reachable in a validated buffer has undefined behaviour, whatever
key or index is used. -/
theorem C08_no_undefined_behaviour (signed : Bool) (m : Bytes) (h : accepts m) (b : Buf)
    (hb : Derived signed (Buf.ofBytes m) b) :
    (∀ key, b.get signed key ≠ .ub ∧ b.at signed key ≠ .ub ∧ b.hasKey signed key ≠ .ub) ∧
    (∀ i, b.getIdx i ≠ .ub ∧ b.atIdx i ≠ .ub) ∧
    b.front ≠ .ub ∧ b.back ≠ .ub ∧ b.size ≠ .ub ∧ b.values ≠ .ub ∧ b.keys ≠ .ub ∧
    b.strv ≠ .ub ∧ b.integer ≠ .ub ∧ b.decimal ≠ .ub ∧ b.boolean ≠ .ub := by
  have hs := hb.safe (accepts_safe h)
  exact ⟨fun key => ⟨(hs.get signed key).not_ub, (hs.at signed key).not_ub, (hs.hasKey signed key).not_ub⟩,
    fun i => ⟨(hs.getIdx i).not_ub, (hs.atIdx i).not_ub⟩, hs.front.not_ub, hs.back.not_ub,
    hs.size.not_ub, hs.values.not_ub, hs.keys.not_ub, hs.strv.not_ub, hs.integer.not_ub,
    hs.decimal.not_ub, hs.boolean.not_ub⟩

/-- Calls that fit the reported type succeed: no exception, a result. -/
theorem C08_well_typed_calls_succeed (signed : Bool) (m : Bytes) (h : accepts m) (b : Buf)
    (hb : Derived signed (Buf.ofBytes m) b) :
    (b.getType = .object → (∀ key, (∃ r, b.get signed key = .ok r) ∧ (∃ r, b.hasKey signed key = .ok r)) ∧
      (∃ n, b.size = .ok n) ∧ (∃ l, b.values = .ok l) ∧ ∃ l, b.keys = .ok l) ∧
    (b.getType = .array → (∀ i, ∃ r, b.getIdx i = .ok r) ∧ (∃ n, b.size = .ok n) ∧
      (∃ l, b.values = .ok l) ∧ (∃ r, b.front = .ok r) ∧ ∃ r, b.back = .ok r) ∧
    (b.getType = .string → (∃ s, b.strv = .ok s) ∧ ∃ n, b.size = .ok n) ∧
    (b.getType = .integer → ∃ x, b.integer = .ok x) ∧
    (b.getType = .decimal → ∃ x, b.decimal = .ok x) ∧
    (b.getType = .boolean → ∃ x, b.boolean = .ok x) := by
  have hs := hb.safe (accepts_safe h)
  have hobj : b.getType = .object → b.type = .object := by
    unfold Buf.getType; cases b.type <;> simp [RawType.simplify]
  have harr : b.getType = .array → b.type = .array := by
    unfold Buf.getType; cases b.type <;> simp [RawType.simplify]
  refine ⟨fun ht => ?_, fun ht => ?_, fun ht => ?_, fun ht => ?_, fun ht => ?_, fun ht => ?_⟩
  · have h1 := hobj ht
    exact ⟨fun key => ⟨ok_of_post (hs.get signed key) fun e he => he.2 h1,
      ok_of_post (hs.hasKey signed key) fun e he => he.2 h1⟩,
      ok_of_post hs.size fun e he => he.2 (by rw [ht]; trivial),
      ok_of_post hs.values fun e he => he.2.1 h1, ok_of_post hs.keys fun e he => he.2 h1⟩
  · have h1 := harr ht
    exact ⟨fun i => ok_of_post (hs.getIdx i) fun e he => he.2 h1,
      ok_of_post hs.size fun e he => he.2 (by rw [ht]; trivial),
      ok_of_post hs.values fun e he => he.2.2 h1, ok_of_post hs.front fun e he => he.2 h1,
      ok_of_post hs.back fun e he => he.2 h1⟩
  · exact ⟨ok_of_post hs.strv fun e he => he.2 ht,
      ok_of_post hs.size fun e he => he.2 (by rw [ht]; trivial)⟩
  · exact ok_of_post hs.integer fun e he => he.2 ht
  · exact ok_of_post hs.decimal fun e he => he.2 ht
  · exact ok_of_post hs.boolean fun e he => he.2 ht

/-- The only exceptions: a call that does not fit the type is refused with `type_error`, and `at`
refuses a missing key or index with `out_of_range`. -/
theorem C08_exceptions (signed : Bool) (m : Bytes) (h : accepts m) (b : Buf)
    (hb : Derived signed (Buf.ofBytes m) b) (key : Bytes) (i : Nat) (e : Exc) :
    (b.at signed key = .throw e → e = .outOfRange ∨ e = .typeError) ∧
    (b.atIdx i = .throw e → e = .outOfRange ∨ e = .typeError) ∧
    (b.get signed key = .throw e → e = .typeError ∧ b.getType ≠ .object) ∧
    (b.getIdx i = .throw e → e = .typeError ∧ b.getType ≠ .array) := by
  have hs := hb.safe (accepts_safe h)
  have hobj : b.getType = .object → b.type = .object := by
    unfold Buf.getType; cases b.type <;> simp [RawType.simplify]
  have harr : b.getType = .array → b.type = .array := by
    unfold Buf.getType; cases b.type <;> simp [RawType.simplify]
  refine ⟨fun ht => ?_, fun ht => ?_, fun ht => ?_, fun ht => ?_⟩
  · have := hs.at signed key
    rw [ht] at this
    exact this.imp (fun h => h) And.left
  · have := hs.atIdx i
    rw [ht] at this
    exact this.imp (fun h => h) And.left
  · have := hs.get signed key
    rw [ht] at this
    exact ⟨this.1, fun h => this.2 (hobj h)⟩
  · have := hs.getIdx i
    rw [ht] at this
    exact ⟨this.1, fun h => this.2 (harr h)⟩

/-- Everything reachable can be converted to a dynamic value: the conversion reads nothing out of
bounds and its recursion ends (the model bounds it by the number of bytes). -/
theorem C08_conversion_succeeds (signed : Bool) (m : Bytes) (h : accepts m) (b : Buf)
    (hb : Derived signed (Buf.ofBytes m) b) : ∃ v, b.value = some v :=
  (hb.safe (accepts_safe h)).value

/-- Everything reachable is naturally aligned. -/
theorem C08_aligned (signed : Bool) (m : Bytes) (h : accepts m) (b : Buf)
    (hb : Derived signed (Buf.ofBytes m) b) (p : Nat) (hp : b.addr = some p) (hn : b.type ≠ .null) :
    b.type.align ∣ p := by
  obtain ⟨q, hq, hs⟩ := (hb.safe (accepts_safe h)).addr hn
  rw [hp] at hq; cases hq
  exact hs.align

/-! ### What validation does not establish -/

/-- `{"a": true}` with the byte of the boolean changed to 2. -/
def badBool : Bytes :=
  leBytes 4 24 ++ leBytes 4 1 ++ (leBytes 4 16 ++ [10, 1, 97, 0]) ++ [1, 0, 97, 0] ++ [2, 0, 0, 0]

/-- The validator does not look at the contents of booleans: it accepts a buffer in which a boolean
is stored as 2. Reading it stays in bounds, but C++ does not define the result of reading such a
`bool`. -/
theorem C08_negation_bool_representation :
    accepts badBool ∧ ∃ b p, Derived true (Buf.ofBytes badBool) b ∧ b.type = .boolean ∧
      b.addr = some p ∧ readU badBool 1 p = some 2 := by
  refine ⟨by decide +kernel, ⟨badBool, .boolean, some 20⟩, 20, ?_, rfl, rfl, by decide +kernel⟩
  exact Derived.get (key := [97]) Derived.root (by decide +kernel)

/-- An object whose two fields are stored in the wrong order (`"b"` before `"a"`). -/
def badOrder : Bytes :=
  leBytes 4 40 ++ leBytes 4 2 ++ (leBytes 4 24 ++ [10, 1, 98, 0]) ++ (leBytes 4 30 ++ [10, 1, 97, 0]) ++
    [1, 0, 98, 0] ++ [1, 0] ++ [1, 0, 97, 0] ++ [1, 0, 0, 0, 0, 0]

/-- The validator does not check the key order: it accepts an object in which iteration shows a key
that lookup does not find. -/
theorem C08_negation_key_order : accepts badOrder ∧
    (Buf.ofBytes badOrder).hasKey true [97] = .ok false ∧
    ∃ ks k, (Buf.ofBytes badOrder).keys = .ok ks ∧ k ∈ ks ∧ k.strv = .ok [97] := by
  refine ⟨by decide +kernel, by decide +kernel,
    [⟨badOrder, .string, some 24⟩, ⟨badOrder, .string, some 30⟩], ⟨badOrder, .string, some 30⟩,
    by decide +kernel, by simp, by decide +kernel⟩

/-! Concrete cases meeting the hypotheses: an accepted library buffer and an accepted forged one. -/

example : (match finalize sampleNoNull with | .ok m => decide (accepts m) | _ => false) = true := by
  decide +kernel

/-- `{"a": true}` with table offset pointing into the padding: accepted and readable. -/
example : accepts (leBytes 4 32 ++ leBytes 4 1 ++ (leBytes 4 24 ++ [10, 1, 98, 0]) ++ zeros 8 ++ [1, 0, 97, 0] ++ [1, 0, 0, 0]) ∧
    Derived true (Buf.ofBytes badBool) ⟨badBool, .boolean, some 20⟩ :=
  ⟨by decide +kernel, Derived.get (key := [97]) Derived.root (by decide +kernel)⟩

end Dart.Props
