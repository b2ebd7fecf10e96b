import Verif.Lemmas.ContainerMain
import Verif.Lemmas.Laws
import Verif.Model.Sample

/-
C44: standard containers become packets and come back. `t.toDart x` is the packet made from the C++ value `x` of type `t`,
`t.fromDart p` is `p.as<t>()`.
-/
namespace Dart.Props
open Spec

mutual
theorem ordersIn_of_distinct : ∀ (t : CTy), Distinct t → OrdersIn t
  | .scalar _, _ | .set _ _, _ | .mset _ _, _ => by rw [OrdersIn] <;> simp
  | .seq t, h | .fwd t, h | .array t _, h => by rw [Distinct] at h; rw [OrdersIn]; exact ordersIn_of_distinct t h
  | .map _ t, h | .mmap _ t, h => by rw [Distinct] at h; rw [OrdersIn]; exact ⟨h.1, ordersIn_of_distinct t h.2⟩
  | .opt t, h => by rw [Distinct] at h; rw [OrdersIn]; exact ordersIn_of_distinct t h.2
  | .pair a b, h => by rw [Distinct] at h; rw [OrdersIn]; exact ⟨ordersIn_of_distinct a h.1, ordersIn_of_distinct b h.2⟩
  | .tuple ts, h => by rw [Distinct] at h; rw [OrdersIn]; exact ordersInAll_of_distinct ts h
  | .variant ts, h => by rw [Distinct] at h; rw [OrdersIn]; exact ordersInAll_of_distinct ts h.2
theorem ordersInAll_of_distinct : ∀ (ts : CTys), DistinctAll ts → OrdersInAll ts
  | .nil, _ => by rw [OrdersInAll]; trivial
  | .cons t ts, h => by
    rw [DistinctAll] at h; rw [OrdersInAll]; exact ⟨ordersIn_of_distinct t h.1, ordersInAll_of_distinct ts h.2⟩
end

/-- Converting a container of any type to a packet works and gives the value it stands for. -/
theorem C44_to_packet (t : CTy) {x : t.type} (hf : Fit t x) (ho : OrdersIn t) :
    ∃ v, t.toDart x = .ok v ∧ v.WF ∧ Stands t x v := toDart_ok t x hf ho

/-- For types whose values can be told apart as packets, converting back gives the container again.
Missing for the full property: other types, where it does not (see below). -/
theorem C44_round_trip_partial (t : CTy) (hd : Distinct t) {x : t.type} (hf : Fit t x) :
    ∃ v, t.toDart x = .ok v ∧ t.fromDart (.heap v) = .ok x := by
  obtain ⟨v, h1, h2, h3⟩ := toDart_ok t x hf (ordersIn_of_distinct t hd)
  exact ⟨v, h1, fromDart_ok (z := true) t hd hf h3 (held_heap h2)⟩

/-- The same for every finalized value that holds what the container stands for. -/
theorem C44_finalized_round_trip_partial (t : CTy) (hd : Distinct t) {x : t.type} (hf : Fit t x) {signed exact : Bool} {b : Buf}
    (hb : Obtained signed exact b) {v : Val} (hv : b.value = some v) (hs : Stands t x v) : t.fromDart (.buf b) = .ok x :=
  fromDart_ok (z := exact) t hd hf hs (show Held exact (.buf b) ⟨true, v⟩ from ⟨rfl, hb.shows_value hv⟩)

/-- For every type, a finalized value is converted like the dynamic value it holds, with the same result or the same
exception. -/
theorem C44_finalized (t : CTy) {signed exact : Bool} {b : Buf} (hb : Obtained signed exact b) {v : Val}
    (hv : b.value = some v) : t.fromDart (.buf b) = t.fromDart (.heap v) :=
  fromDart_same (z := exact) t ⟨true, v, ⟨rfl, hb.shows_value hv⟩, rfl⟩

/-- A packet of a type that no value of the C++ type stands for (and that is not converted to `bool`) is refused. -/
theorem C44_wrong_type (t : CTy) {v : Val} (hw : v.WF) (h : takes t v.ty = false) : t.fromDart (.heap v) = .throw .typeError :=
  fromDart_takes (z := true) t (held_heap hw) h

/-- So is an array of the wrong length. -/
theorem C44_wrong_length {t : CTy} {n : Nat} {ts : CTys} {a b : CTy} {es : List Val} :
    (es.length ≠ n → (CTy.array t n).fromDart (.heap (.arr es)) = .throw .typeError) ∧
    (es.length ≠ ts.length → (CTy.tuple ts).fromDart (.heap (.arr es)) = .throw .typeError) ∧
    (es.length ≠ 2 → (CTy.pair a b).fromDart (.heap (.arr es)) = .throw .typeError) :=
  ⟨fun h => if_pos h, fun h => if_pos h, fun h => if_pos h⟩

/-! What is wrong. -/

/-- `int8_t`, `int64_t`. -/
def tyI8 : CTy := .scalar (.int ⟨8, true⟩)
def tyI64 : CTy := .scalar (.int ⟨64, true⟩)

/-- `optional<optional<T>>`: an optional that contains an empty optional comes back empty. -/
theorem C44_nested_optional_wrong (t : CTy) :
    (CTy.opt (.opt t)).toDart (some none) = .ok .null ∧ (CTy.opt (.opt t)).fromDart (.heap .null) = .ok none := ⟨rfl, rfl⟩

/-- `variant<int8_t, int64_t>` that holds the `int64_t` 300 comes back holding the `int8_t` 44: the first alternative that
takes an integer is used, even if the integer does not fit. -/
theorem C44_variant_truncates_wrong :
    (CTy.variant (.cons tyI8 (.cons tyI64 .nil))).toDart (.inr (.inl (300 : Int))) = .ok (.int 300) ∧
    (CTy.variant (.cons tyI8 (.cons tyI64 .nil))).fromDart (.heap (.int 300)) = .ok (.inl (44 : Int)) := ⟨rfl, rfl⟩

/-- `variant<bool, std::string>` that holds a string comes back holding `true`, because everything can be converted to
`bool`. -/
theorem C44_variant_bool_wrong (s : Bytes) :
    (CTy.variant (.cons (.scalar .bool) (.cons (.scalar .str) .nil))).toDart (.inr (.inl s)) = .ok (.str s) ∧
    (CTy.variant (.cons (.scalar .bool) (.cons (.scalar .str) .nil))).fromDart (.heap (.str s)) = .ok (.inl true) := ⟨rfl, rfl⟩

/-- `variant<vector<T>, vector<U>>` that holds an empty `vector<U>` comes back holding an empty `vector<T>`. -/
theorem C44_variant_empty_wrong (t u : CTy) :
    (CTy.variant (.cons (.seq t) (.cons (.seq u) .nil))).toDart (.inr (.inl [])) = .ok (.arr []) ∧
    (CTy.variant (.cons (.seq t) (.cons (.seq u) .nil))).fromDart (.heap (.arr [])) = .ok (.inl []) := ⟨rfl, rfl⟩

/-- A map with a key of more than 65535 bytes cannot be converted. -/
theorem C44_long_key (less : Bytes → Bytes → Bool) (k : Bytes) (hk : 65535 < k.length) (b : Bool) :
    (CTy.map less (.scalar .bool)).toDart [(k, b)] = .throw .invalidArgument := by
  have h : (Val.obj []).insert (.str k) (.bool b) = .throw .invalidArgument := if_pos hk
  exact congrArg (fun r => Res.bind r fun obj => .ok obj) h

/-! Concrete cases. -/

/-- Byte strings by value. -/
def bytesLess : Bytes → Bytes → Bool
  | _, [] => false
  | [], _ :: _ => true
  | a :: s, b :: t => a < b || (a == b && bytesLess s t)

theorem bytesLess_orders : Orders bytesLess where
  irrefl a := by induction a with
    | nil => rfl
    | cons a s ih => simp [bytesLess, ih]
  trans {a b c} := by
    induction a generalizing b c with
    | nil => cases b <;> cases c <;> simp [bytesLess]
    | cons a s ih =>
      cases b with
      | nil => simp [bytesLess]
      | cons b t =>
        cases c with
        | nil => simp [bytesLess]
        | cons c u =>
          simp only [bytesLess, Bool.or_eq_true, decide_eq_true_eq, Bool.and_eq_true, beq_iff_eq]
          rintro (h1 | ⟨rfl, h1⟩) (h2 | ⟨rfl, h2⟩)
          · exact .inl (UInt8.lt_trans h1 h2)
          · exact .inl h1
          · exact .inl h2
          · exact .inr ⟨rfl, ih h1 h2⟩
  total {a b} := by
    induction a generalizing b with
    | nil => cases b <;> simp [bytesLess]
    | cons a s ih =>
      cases b with
      | nil => simp [bytesLess]
      | cons b t =>
        intro h
        simp only [bytesLess, Bool.or_eq_true, decide_eq_true_eq, Bool.and_eq_true, beq_iff_eq]
        by_cases hab : a = b
        · subst hab
          rcases ih (b := t) (by simpa using h) with h | h <;> simp [h]
        · rcases UInt8.lt_or_lt_of_ne hab with h | h <;> simp [h]

/-- `std::map<std::string, std::variant<std::vector<int8_t>, std::string>>` -/
def sampleTy : CTy := .map bytesLess (.variant (.cons (.seq tyI8) (.cons (.scalar .str) .nil)))

/-- `{"b": [1, -2], "aa": "hi"}` in the order of the map -/
def sampleMap : sampleTy.type := [([97, 97], .inr (.inl ([104, 105] : Bytes))), ([98], .inl ([1, -2] : List Int))]

example : Distinct sampleTy := by
  refine ⟨bytesLess_orders, ⟨fun k h => ?_, fun k h => ?_, trivial⟩, trivial, trivial, trivial⟩
  · cases k <;> simp_all [givesAny, gives, givesScalar, takes]
  · simp [givesAny] at h
example : Fit sampleTy sampleMap := by
  refine ⟨by simp [sampleMap, bytesLess], ?_⟩
  intro e he
  rcases List.mem_cons.1 he with rfl | he
  · exact ⟨by decide, show [104, 105].length < 2 ^ 32 by decide⟩
  · rcases List.mem_cons.1 he with rfl | he
    · refine ⟨by decide, show 2 ≤ 2 ^ 58 by decide, ?_⟩
      intro x hx
      change x ∈ ([1, -2] : List Int) at hx
      rcases List.mem_cons.1 hx with rfl | hx
      · exact ⟨by decide, by decide, show -2 ^ 7 ≤ (1 : Int) ∧ (1 : Int) < 2 ^ 7 by decide⟩
      · rcases List.mem_cons.1 hx with rfl | hx
        · exact ⟨by decide, by decide, show -2 ^ 7 ≤ (-2 : Int) ∧ (-2 : Int) < 2 ^ 7 by decide⟩
        · cases hx
    · cases he
/-- The packet has its keys in its own order, shorter ones first. -/
example : sampleTy.toDart sampleMap = .ok (.obj [([98], .arr [.int 1, .int (-2)]), ([97, 97], .str [104, 105])]) := rfl
/-- `std::multimap` -/
example : (CTy.mmap bytesLess (.scalar .bool)).toDart [([97], true), ([97], false), ([98], true)] =
    .ok (.obj [([97], .arr [.bool true, .bool false]), ([98], .arr [.bool true])]) := rfl
/-- `std::tuple<int8_t, std::pair<bool, std::optional<std::string>>>` -/
example : (CTy.tuple (.cons tyI8 (.cons (.pair (.scalar .bool) (.opt (.scalar .str))) .nil))).toDart ((5 : Int), (true, none), ()) =
    .ok (.arr [.int 5, .arr [.bool true, .null]]) := rfl
/-- Not convertible: an object for a sequence, a string in a sequence of integers, two elements for three. -/
example : (CTy.seq tyI8).fromDart (.heap (.obj [])) = .throw .typeError := rfl
example : takes (.seq tyI8) (Val.obj []).ty = false := rfl
example : (CTy.seq tyI8).fromDart (.heap (.arr [.int 1, .str []])) = .throw .typeError := rfl
example : (CTy.array tyI8 3).fromDart (.heap (.arr [.int 1, .int 2])) = .throw .typeError := rfl

end Dart.Props
