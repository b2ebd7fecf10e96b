import Verif.Model.Validate

/-
The validator of Model/Validate.lean once more, now counting the work it does: one step for each call of
`valid_buffer` and one for each entry of a table whose type byte is looked at. Everything else the code
does between two such steps is a bounded number of comparisons and reads.
`Lemmas/ValidCost.lean` proves that the verdicts are those of `validBuffer`.
-/
namespace Dart

/-- A verdict and the number of steps taken to reach it. -/
abbrev Counted := Verdict × Nat

/-- Sequencing of two checks: the second one runs only if the first one holds. -/
def Counted.and (a : Counted) (b : Unit → Counted) : Counted :=
  match a.1 with
  | .ok true => ((b ()).1, a.2 + (b ()).2)
  | .ok false => (.ok false, a.2)
  | .error e => (.error e, a.2)

/-- A check that takes no step of its own. -/
def Counted.free (v : Verdict) : Counted := (v, 0)

/-- One step, before the rest. -/
def Counted.tick (a : Counted) : Counted := (a.1, a.2 + 1)

/-- A read, which takes no step of its own, and the rest. -/
def rdThen {α : Type} (o : Option α) (f : α → Counted) : Counted :=
  match o with
  | some a => f a
  | none => (.error .oob, 0)

/-- The loop over the type bytes, include/dart/object.tcc 530-537, include/dart/array.tcc 301-308: a
step for each entry. -/
def typesValidN (m : Bytes) (p : Nat) : Nat → Counted
  | 0 => .free (.ok true)
  | n + 1 => (typesValidN m p n).and fun _ => Counted.tick <|
    rdThen (readU m 1 (p + 8 + 8 * n + 4)) fun c => .free (check ((RawType.ofCode c).isSome = true))

/-- The loop over the fields of an object, include/dart/object.tcc 541-593. -/
def validFieldsN (rec : RawType → Nat → Nat → Counted) (m : Bytes) (p total : Nat) :
    Nat → Nat → Nat → Counted
  | 0, _, _ => .free (.ok true)
  | k + 1, idx, prev => rdThen (loadKey m p idx) fun kp =>
    (Counted.free (childAddr p total prev kp .string)).and fun _ =>
      (rec .string kp (total - (kp - p))).and fun _ =>
        rdThen (loadValue m p idx) fun tv =>
          (Counted.free (childAddr p total kp tv.2 tv.1)).and fun _ =>
            (rec tv.1 tv.2 (total - (tv.2 - p))).and fun _ =>
              validFieldsN rec m p total k (idx + 1) tv.2

/-- The loop over the elements of an array, include/dart/array.tcc 310-334. -/
def validElemsN (rec : RawType → Nat → Nat → Counted) (m : Bytes) (p total : Nat) :
    Nat → Nat → Nat → Counted
  | 0, _, _ => .free (.ok true)
  | k + 1, idx, prev => rdThen (loadElem m p idx) fun tv =>
    (Counted.free (childAddr p total prev tv.2 tv.1)).and fun _ =>
      (rec tv.1 tv.2 (total - (tv.2 - p))).and fun _ =>
        validElemsN rec m p total k (idx + 1) tv.2

/-- The part shared by `object::is_valid` and `array::is_valid`, include/dart/object.tcc 506-537,
include/dart/array.tcc 277-308. -/
def validTableN (m : Bytes) (p bytes : Nat) (loop : Nat → Nat → Counted) : Counted :=
  (Counted.free (check (8 ≤ bytes))).and fun _ =>
    rdThen (readU m 4 p) fun total =>
      (Counted.free (check (total ≤ bytes))).and fun _ =>
        rdThen (numElems m p) fun n =>
          (Counted.free (check (8 + 8 * n ≤ total))).and fun _ =>
            (typesValidN m p n).and fun _ => loop total n

/-- `valid_buffer`, include/dart/common.h 1294-1305: one step for the call itself. -/
def validBufferN (m : Bytes) : Nat → RawType → Nat → Nat → Counted
  | 0, _, _, _ => .free (.error .fuel)
  | fuel + 1, t, p, bytes => Counted.tick <|
    match t with
    | .object => validTableN m p bytes fun total n =>
        validFieldsN (validBufferN m fuel) m p total n 0 p
    | .array => validTableN m p bytes fun total n =>
        validElemsN (validBufferN m fuel) m p total n 0 p
    | t => .free (validBuffer m 1 t p bytes)

/-- `dart::is_valid(gsl::span)`, include/dart.h 13697-13722, with its number of steps. -/
def isValidN (m : Bytes) : Counted := validBufferN m (m.length + 1) .object 0 m.length

/-- The number of steps `dart::is_valid` takes on the bytes `m`. -/
def validSteps (m : Bytes) : Nat := (isValidN m).2

end Dart
