import Verif.Lemmas.Throwing
import Verif.Model.Buffer
import Verif.Model.Sample

/-
C82: `dart::validate` returns exactly for the bytes `dart::is_valid` accepts, and otherwise throws `validation_error`. `validate m` is how
the call ends on the bytes `m`: it returns, it throws with a message, or (an error) it reads outside of them or does not end.
-/
namespace Dart.Props

/-- C82: `validate` returns if `is_valid` returns true. -/
theorem C82_returns_iff_accepted (m : Bytes) : validate m = .ok .returned ↔ isValid m = .ok true := by
  have h := Same.validBuffer m (m.length + 1) .object 0 m.length
  obtain ⟨r, hr⟩ := isValid_total m
  rw [← isValid, hr] at h
  rw [hr]
  unfold validate
  cases r with
  | true => rw [show validBufferT m (m.length + 1) .object 0 m.length = .ok (.returns true) from h]; simp
  | false =>
    obtain ⟨e, h⟩ := h
    rw [h]; simp

/-- C82: `validate` throws if `is_valid` returns false; nothing else happens, it neither reads outside of the bytes nor goes on for ever. -/
theorem C82_throws_iff_refused (m : Bytes) : (∃ message, validate m = .ok (.threw message)) ↔ isValid m = .ok false := by
  have h := Same.validBuffer m (m.length + 1) .object 0 m.length
  obtain ⟨r, hr⟩ := isValid_total m
  rw [← isValid, hr] at h
  rw [hr]
  unfold validate
  cases r with
  | true => rw [show validBufferT m (m.length + 1) .object 0 m.length = .ok (.returns true) from h]; simp
  | false =>
    obtain ⟨e, h⟩ := h
    rw [h]; simp

/-- C82, messages: less than eight bytes are called truncated. -/
theorem C82_truncated (m : Bytes) (h : m.length < 8) : validate m = .ok (.threw "Serialized object is truncated") := by
  have : validBufferT m (m.length + 1) .object 0 m.length = .ok (.throws "Serialized object is truncated") := by
    unfold validBufferT validTableT require
    rw [if_neg (by omega)]; rfl
  rw [validate, this]

/-- C82, messages: bytes that end before the size recorded in them are reported as such, however little is missing and whatever else is
wrong with them. -/
theorem C82_cut_off (m : Bytes) (total : Nat) (h8 : 8 ≤ m.length) (ht : readU m 4 0 = some total) (hl : m.length < total) :
    validate m = .ok (.threw "Serialized object length is out of bounds") := by
  have : validBufferT m (m.length + 1) .object 0 m.length = .ok (.throws "Serialized object length is out of bounds") := by
    unfold validBufferT validTableT require
    rw [if_pos h8, ht]
    simp only [rd, TVerdict.and, bind, Except.bind]
    rw [if_neg (by omega)]; rfl
  rw [validate, this]

/-- C82, messages: a number of fields whose table goes beyond the recorded size is reported as such. -/
theorem C82_table_beyond (m : Bytes) (total n : Nat) (h8 : 8 ≤ m.length) (ht : readU m 4 0 = some total) (hl : total ≤ m.length)
    (hn : (Buf.ofBytes m).size = .ok n) (hb : total < 8 + 8 * n) :
    validate m = .ok (.threw "Serialized object vtable length is out of bounds") := by
  have hn' : numElems m 0 = some n := by
    cases e : numElems m 0 with
    | none => simp [Buf.size, Buf.ofBytes, Res.ofRead, Res.bind, e] at hn
    | some k => simp [Buf.size, Buf.ofBytes, Res.ofRead, Res.bind, e] at hn; rw [hn]
  have : validBufferT m (m.length + 1) .object 0 m.length = .ok (.throws "Serialized object vtable length is out of bounds") := by
    unfold validBufferT validTableT require
    rw [if_pos h8, ht, hn']
    simp only [rd, TVerdict.and, bind, Except.bind]
    rw [if_pos hl]
    simp only []
    rw [if_neg (by omega)]; rfl
  rw [validate, this]

/-- 48 bytes: the field "a" is an array of one element, whose type is 99. -/
def oddElement : Bytes :=
  leBytes 4 48 ++ leBytes 4 1 ++ (leBytes 4 16 ++ [1, 1, 97, 0]) ++ [1, 0, 97, 0, 0, 0, 0, 0] ++ leBytes 4 24 ++ leBytes 4 1 ++
  leBytes 4 16 ++ [99, 0, 0, 0] ++ zeros 8

/-- C82, messages: an element of an array that has no known type is reported as the value of an object. -/
theorem C82_array_message_wrong : validate oddElement = .ok (.threw "Serialized object value is of no known type") ∧
    isValid (oddElement.set 36 10) = .ok true := by decide +kernel

/-! Concrete cases. -/

example : (match finalize sampleNoNull with
    | .ok m => decide (validate m = .ok .returned ∧ validate (m.take 30) = .ok (.threw "Serialized object length is out of bounds") ∧
        validate (m.set 12 77) = .ok (.threw "Serialized object value is of no known type") ∧
        validate (m.set 8 3) = .ok (.threw "Serialized object key offset does not meet alignment requirements"))
    | _ => false) = true := by decide +kernel

/-- The field "a" is a string of four characters; damaged at the key, at the string, at its end. -/
def oneString : Bytes := leBytes 4 32 ++ leBytes 4 1 ++ (leBytes 4 16 ++ [2, 1, 97, 0]) ++ [1, 0, 97, 0, 4, 0, 98, 98, 98, 98, 0] ++ zeros 5

example : validate oneString = .ok .returned ∧ validate (oneString.set 8 33) = .ok (.threw "Serialized object key offset is out of bounds") ∧
    validate (oneString.set 8 0) = .ok (.threw "Serialized object key contained a negative or cyclic offset") ∧
    validate (oneString.set 8 32) = .ok (.threw "Serialized string is truncated") ∧
    validate (oneString.set 20 40) = .ok (.threw "Serialized string length is out of bounds") ∧
    validate (oneString.set 26 1) = .ok (.threw "Serialized string is corrupted, internal consistency checks failed") ∧
    validate (oneString.set 16 12) = .ok (.threw "Serialized string is truncated") ∧
    validate (((oneString.set 0 28).set 12 7).set 16 8) = .ok (.threw "Serialized object value offset is out of bounds") ∧
    validate (((oneString.set 16 9).set 12 7).set 28 0) = .ok (.threw "Serialized primitive value is truncated") := by decide +kernel

end Dart.Props
