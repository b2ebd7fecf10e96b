import Verif.Model.Basic

/-
The byte-order wrapper `ordered<T, O>` (include/dart/support/ordered.h, ordered.tcc). A value of type
`T` is given by its object representation read as an unsigned number `n < 256 ^ w`, `w = sizeof(T)`.
-/
namespace Dart

/-- Byte order of the machine or of the wrapper (`DART_BYTE_ORDER`, `order_type::value`,
include/dart/support/ordered.h 18-26, 44-49). -/
inductive Endian
  | little | big
  deriving DecidableEq, Repr

/-- Bytes in memory of a `w`-byte scalar with representation `n` on a machine of the given order. -/
def hostBytes (host : Endian) (w n : Nat) : Bytes :=
  match host with
  | .little => leBytes w n
  | .big => (leBytes w n).reverse

/-- Reading a scalar back from memory on a machine of the given order. -/
def hostNat (host : Endian) (bs : Bytes) : Nat :=
  match host with
  | .little => leNat bs
  | .big => leNat bs.reverse

/-- `__builtin_bswap16/32/64`; 8-bit values are copied (ordered.tcc 24-26, 283-293). -/
def bswap (w n : Nat) : Nat := leNat (leBytes w n).reverse

/-- `should_swap`, include/dart/support/ordered.tcc 238-241. -/
def shouldSwap (order host : Endian) : Bool := order != host

/-- `set`, include/dart/support/ordered.tcc 187-192, 248-293: the bytes of `managed` afterwards. -/
def orderedSet (order host : Endian) (w n : Nat) : Bytes :=
  if shouldSwap order host then hostBytes host w (bswap w (hostNat host (hostBytes host w n)))
  else hostBytes host w (hostNat host (hostBytes host w n))

/-- `get`, include/dart/support/ordered.tcc 182-185, 261-305. -/
def orderedGet (order host : Endian) (w : Nat) (managed : Bytes) : Nat :=
  if shouldSwap order host then bswap w (hostNat host managed) else hostNat host managed

/-- `mutate`, include/dart/support/ordered.tcc 232-236; the callback's result is converted to `T`. -/
def orderedMutate (order host : Endian) (w : Nat) (cb : Nat → Int) (managed : Bytes) : Bytes :=
  orderedSet order host w (cb (orderedGet order host w managed) % (256 ^ w : Nat)).toNat

/-- The operand of `+=`/`-=`: its value and, for unsigned operand types, the width in bits of its
promoted type (`none` for signed types). -/
structure Operand where
  value : Int
  unsignedBits : Option Nat

/-- `-op` in the promoted type of the operand. -/
def Operand.neg (op : Operand) : Int :=
  match op.unsignedBits with
  | some bits => (-op.value) % (2 ^ bits : Nat)
  | none => -op.value

/-- `operator +=` for unsigned integer `T`, include/dart/support/ordered.tcc 89-94, 194-198. -/
def orderedAdd (order host : Endian) (w : Nat) (op : Operand) (managed : Bytes) : Bytes :=
  orderedMutate order host w (fun v => v + op.value) managed

/-- `operator -=`, include/dart/support/ordered.tcc 96-101: `increment(-op)`. -/
def orderedSub (order host : Endian) (w : Nat) (op : Operand) (managed : Bytes) : Bytes :=
  orderedMutate order host w (fun v => v + op.neg) managed

end Dart
