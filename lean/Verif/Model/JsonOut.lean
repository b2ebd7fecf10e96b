import Verif.Model.Json
import Verif.Model.Packet
import Verif.Spec.Float

/-
The text of `to_json`: RapidJSON's writer, driven by the calls `json_serialize` makes, the copy into a `std::string`, the wrappers, and
the calls of the C interface. RapidJSON is no part of the library; its writer is modelled as it is documented and known to be. How
a finite double is printed is left to it (a parameter).
-/
namespace Dart.JOut

/-- A level of RapidJSON's writer: within an array, and how many values (and names) were begun in it. -/
structure Level where
  inArray : Bool
  count : Nat

/-- RapidJSON's writer: what is in the `StringBuffer`, and the levels, the innermost first. -/
structure Writer where
  out : Bytes
  levels : List Level

/-- `rj::Writer writer(buf)`, include/dart/connector/json.tcc 263-264. -/
def Writer.start : Writer := ⟨[], []⟩

/-- `Writer::Prefix`: a comma between values, a colon between name and value. -/
def Level.sep (l : Level) : Bytes :=
  if l.count = 0 then [] else if l.inArray then [0x2c] else if l.count % 2 = 0 then [0x2c] else [0x3a]

/-- A value or name is written, with what has to be before it. -/
def Writer.put (w : Writer) (t : Bytes) : Writer :=
  match w.levels with
  | [] => ⟨w.out ++ t, []⟩
  | l :: ls => ⟨w.out ++ (l.sep ++ t), ⟨l.inArray, l.count + 1⟩ :: ls⟩

/-- An object or array begins. -/
def Writer.open (w : Writer) (inArray : Bool) (t : Bytes) : Writer :=
  { w.put t with levels := ⟨inArray, 0⟩ :: (w.put t).levels }

/-- It ends. -/
def Writer.close (w : Writer) (t : Bytes) : Writer := ⟨w.out ++ t, w.levels.tail⟩

/-- A number in decimal. -/
def natText (n : Nat) : Bytes :=
  if n < 10 then [UInt8.ofNat (0x30 + n)] else natText (n / 10) ++ [UInt8.ofNat (0x30 + n % 10)]
termination_by n
decreasing_by omega

/-- `Writer::Int64`, `Writer::Int`. -/
def intText (i : Int) : Bytes := if i < 0 then 0x2d :: natText i.natAbs else natText i.natAbs

/-- A hexadecimal digit, in upper case. -/
def hexText (n : Nat) : UInt8 := if n < 10 then UInt8.ofNat (0x30 + n) else UInt8.ofNat (0x41 + (n - 10))

/-- What `Writer::WriteString` makes of a byte: quotes, backslashes and control characters are escaped. -/
def escape (c : UInt8) : Bytes :=
  if c = 0x22 ∨ c = 0x5c then [0x5c, c]
  else if c = 0x08 then [0x5c, 0x62]
  else if c = 0x09 then [0x5c, 0x74]
  else if c = 0x0a then [0x5c, 0x6e]
  else if c = 0x0c then [0x5c, 0x66]
  else if c = 0x0d then [0x5c, 0x72]
  else if c < 0x20 then [0x5c, 0x75, 0x30, 0x30, hexText (c.toNat / 16), hexText (c.toNat % 16)]
  else [c]

/-- `Writer::WriteString`. -/
def quote (s : Bytes) : Bytes := 0x22 :: (s.flatMap escape ++ [0x22])

/-- `Writer::WriteDouble`: for numbers that are none, nothing unless the flag `kWriteNanAndInfFlag` (`write_nan`, include/dart.h
75) is given. -/
def doubleText (dbl : BitVec 64 → Bytes) (nan : Bool) (d : BitVec 64) : Bytes :=
  match Spec.doubleVal d.toNat with
  | .nan => if nan then [0x4e, 0x61, 0x4e] else []
  | .inf neg => if nan then (if neg then [0x2d] else []) ++ [0x49, 0x6e, 0x66, 0x69, 0x6e, 0x69, 0x74, 0x79] else []
  | .finite _ => dbl d

/-- The calls to the writer. -/
def Writer.step (dbl : BitVec 64 → Bytes) (nan : Bool) (w : Writer) : Event → Writer
  | .startObject => w.open false [0x7b]
  | .key s => w.put (quote s)
  | .endObject => w.close [0x7d]
  | .startArray => w.open true [0x5b]
  | .endArray => w.close [0x5d]
  | .string s => w.put (quote s)
  | .int n => w.put (intText n.toInt)
  | .uint n => w.put (natText n.toNat)
  | .int64 n => w.put (intText n.toInt)
  | .uint64 n => w.put (natText n.toNat)
  | .double d => w.put (doubleText dbl nan d)
  | .bool b => w.put (if b then [0x74, 0x72, 0x75, 0x65] else [0x66, 0x61, 0x6c, 0x73, 0x65])
  | .null => w.put [0x6e, 0x75, 0x6c, 0x6c]

/-- All of them. -/
def Writer.run (dbl : BitVec 64 → Bytes) (nan : Bool) (w : Writer) (es : List Event) : Writer := es.foldl (Writer.step dbl nan) w

/-- `return buf.GetString();`, json.tcc 271, 288: a `std::string` made from a `char const*` ends before the first NUL. -/
def asString (t : Bytes) : Bytes := t.takeWhile (· ≠ 0)

/-- `basic_heap::to_json`, json.tcc 257-272. -/
def heapToJson (dbl : BitVec 64 → Bytes) (nan : Bool) (v : Val) : Bytes := asString (Writer.start.run dbl nan v.serialize).out

/-- `basic_buffer::to_json`, json.tcc 274-289. -/
def bufToJson (dbl : BitVec 64 → Bytes) (nan : Bool) (b : Buf) : Res Bytes :=
  (b.serialize (b.mem.length + 1)).bind fun es => .ok (asString (Writer.start.run dbl nan es).out)

/-- `basic_packet::to_json`, json.tcc 291-295. -/
def pktToJson (dbl : BitVec 64 → Bytes) (nan : Bool) : Pkt → Res Bytes
  | .heap v => .ok (heapToJson dbl nan v)
  | .buf b => bufToJson dbl nan b

/-- `basic_object::to_json`, `basic_array::to_json`, `basic_string::to_json`, `basic_number::to_json`, `basic_flag::to_json`, json.tcc
221-249: the flags are not handed on. -/
def wrapToJson (dbl : BitVec 64 → Bytes) (_nan : Bool) (p : Pkt) : Res Bytes := pktToJson dbl false p

/-- `basic_null::to_json`, json.tcc 251-255. -/
def nullToJson (dbl : BitVec 64 → Bytes) (_nan : Bool) : Res Bytes := .ok (heapToJson dbl false .null)

/-- `operator <<`, include/dart/operators.tcc 103-107: what is put into the stream. -/
def streamed (dbl : BitVec 64 → Bytes) (p : Pkt) : Res Bytes := pktToJson dbl false p

/-- What a call of `dart_to_json` leaves: the block of memory handed out (`none`: the null pointer) and what `*len` was set to
(`none`: it was not). -/
structure CText where
  block : Option Bytes
  len : Option Nat
  deriving DecidableEq, Repr

/-- `dart_to_json`, src/generic.cc 430-446, 1471-1475 (likewise src/heap.cc 509-529, src/buffer.cc 117-137): `text` is what `to_json`
does, `lenGiven` whether `len` is not null, `memory` says which requests `malloc` meets. What is thrown is caught
(src/helpers.h, `err_handler`). The result of `malloc` is not looked at: copying to a null pointer is undefined. The `std::string` has a
NUL behind its characters, which is copied as well. -/
def toJsonC (text : Res Bytes) (lenGiven : Bool) (memory : Nat → Bool) : Res CText :=
  match text with
  | .ub => .ub
  | .throw _ => .ok ⟨none, none⟩
  | .ok t => if memory (t.length + 1) then .ok ⟨some (t ++ [0]), if lenGiven then some t.length else none⟩ else .ub

end Dart.JOut
