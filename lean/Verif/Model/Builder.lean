import Verif.Model.Buffer

/-
Building finalized objects without a dynamic object: `make_object`, `inject` and `project` of
`basic_buffer`, and the three low level object constructors behind them.
-/
namespace Dart

/-- A `basic_packet`: either a dynamic value or a buffer, include/dart.h (`basic_packet::impl`). -/
inductive Pkt
  | heap (v : Val)
  | buf (b : Buf)

/-- `basic_packet::get_raw_type`, include/dart/packet/detail.tcc 40-53. -/
def Pkt.rawType : Pkt → RawType
  | .heap v => v.rawType
  | .buf b => b.type

/-- `basic_packet::is_str`, include/dart/packet/api.tcc, by the type of the alternative. -/
def Pkt.isStr : Pkt → Bool
  | .heap (.str _) => true
  | .heap _ => false
  | .buf b => b.getType = .string

/-- `basic_packet::strv`, include/dart/packet/string.tcc. -/
def Pkt.strv : Pkt → Res Bytes
  | .heap (.str s) => .ok s
  | .heap _ => .throw .typeError
  | .buf b => b.strv

/-- `find_sizeof` on a `raw_element`, include/dart/common.h 1286-1293 (null has size 0 and no
pointer). -/
def Buf.sizeof (b : Buf) : Option Nat :=
  match b.type, b.addr with
  | .null, _ => some 0
  | t, some p => findSizeof b.mem t p
  | _, none => none

/-- `basic_packet::upper_bound`, include/dart/packet/detail.tcc 12-21. The function is `noexcept`, so
the `length_error` of a dynamic value ends the process; that and out-of-bounds reads are `none`. -/
def Pkt.upperBound : Pkt → Option Nat
  | .heap v => Dart.upperBound v
  | .buf b => b.sizeof

/-- The `n` bytes behind the pointer of a `raw_element`. Copying zero bytes touches no memory. -/
def Buf.elemBytes (src : Buf) (n : Nat) : Option Bytes :=
  if n = 0 then some [] else
    match src.addr with
    | some q => readBytes src.mem q n
    | none => none

/-- `std::copy_n(raw.buffer, find_sizeof(raw), dst)`, as used by `basic_packet::layout`
(include/dart/packet/detail.tcc 27-31) and the merging and projecting constructors
(include/dart/object.tcc 415-418, 425-428). -/
def copyElem (src : Buf) (p : Nat) (m : Bytes) : Option (Bytes × Nat) := do
  let n ← src.sizeof
  let bs ← src.elemBytes n
  let m ← writeBytes m p bs
  some (m, n)

/-- `basic_packet::layout`, include/dart/packet/detail.tcc 23-38. -/
def Pkt.layout : Pkt → Nat → Bytes → Option (Bytes × Nat)
  | .heap v, p, m => layoutVal v p m
  | .buf b, p, m => copyElem b p m

/-- What one round of the field loops needs: the type recorded for the value, the string passed to
the table entry, and the functions writing key and value. -/
structure FieldWriter where
  type : RawType
  pre : Bytes
  key : Nat → Bytes → Option (Bytes × Nat)
  val : Nat → Bytes → Option (Bytes × Nat)

/-- The field loop, identical in the constructors from pairs (include/dart/object.tcc 313-333), from
two objects (404-432) and from an object and keys (453-481). The object is at address 0 of its own
allocation. `idx` is the number of the entry, `off` the running offset. -/
def writeFields : List FieldWriter → Nat → Nat → Bytes → Option (Bytes × Nat)
  | [], _, off, m => some (m, off)
  | w :: ws, idx, off, m => do
    let off := alignUp off RawType.string.align
    let m ← writeBytes m (8 + 8 * idx) (objEntry w.type off (cstr w.pre))
    let (m, sz) ← w.key off m
    let off := alignUp (off + sz) w.type.align
    let (m, sz) ← w.val off m
    writeFields ws (idx + 1) (off + sz) m

/-- The end of the three constructors: pad, and store the size (include/dart/object.tcc 335-341,
436-441, 485-490). -/
def finishObject (off : Nat) (m : Bytes) : Option Bytes :=
  writeBytes m 0 (leBytes 4 (alignUp off 8))

/-! ### `make_object` -/

/-- A key/value pair together with the string the key holds. -/
abbrev PktPair := Bytes × Pkt × Pkt

/-- Insertion into a list sorted by `dart_comparator`. -/
def insertSorted {α : Type} (key : α → Bytes) (x : α) : List α → List α
  | [] => [x]
  | y :: ys => if keyLt (key y) (key x) then y :: insertSorted key x ys else x :: y :: ys

/-- `std::sort` with `dart_comparator` (include/dart/common.tcc 232, include/dart/common.h 1402-1420):
some sorted permutation. Which one is taken among elements with equal keys cannot be observed: pairs
with equal keys are rejected, and requested keys are only looked at as strings. -/
def sortByKey {α : Type} (key : α → Bytes) : List α → List α
  | [] => []
  | x :: xs => insertSorted key x (sortByKey key xs)

/-- `basic_buffer::dynamic_make_object`, include/dart/buffer/detail.tcc 54-74: group the arguments. -/
def groupPairs : List Pkt → Res (List PktPair)
  | [] => .ok []
  | [k] => if k.isStr then .ub else .throw .invalidArgument
  | k :: v :: r =>
    if k.isStr then k.strv.bind fun s => (groupPairs r).bind fun ps => .ok ((s, k, v) :: ps)
    else .throw .invalidArgument

/-- The loop of `buffer_builder::max_bytes`, include/dart/common.tcc 284-300. -/
def pairsBytes : Option Bytes → List PktPair → Res Nat
  | _, [] => .ok 0
  | prev, (s, k, v) :: r =>
    if prev = some s then .throw .invalidArgument
    else if s.length > 65535 then .throw .invalidArgument
    else
      (Res.ofRead k.upperBound).bind fun ku => (Res.ofRead v.upperBound).bind fun vu =>
      (pairsBytes (some s) r).bind fun rest =>
        .ok ((ku + k.rawType.align - 1) + (vu + v.rawType.align - 1) + rest)

/-- `buffer_builder::max_bytes`, include/dart/common.tcc 280-303. The padded size is added to the
size, not the padding, so twice the memory is allocated. -/
def maxBytes (ps : List PktPair) : Res Nat :=
  (pairsBytes none ps).bind fun s =>
    let bytes := s + (8 + 8 * (ps.length + 1))
    .ok (bytes + alignUp bytes 8)

/-- One round of `object(gsl::span<packet_pair>)`, include/dart/object.tcc 313-333. -/
def pairWriter (p : PktPair) : FieldWriter := ⟨p.2.2.rawType, p.1, p.2.1.layout, p.2.2.layout⟩

/-- `object(gsl::span<packet_pair>)`, include/dart/object.tcc 305-342. -/
def objectFromPairs (ps : List PktPair) (m : Bytes) : Option Bytes := do
  let m ← writeBytes m 4 (leBytes 4 ps.length)
  let (m, off) ← writeFields (ps.map pairWriter) 0 (8 + 8 * ps.length) m
  finishObject off m

/-- `buffer_builder::build_buffer`, include/dart/common.tcc 226-244. -/
def buildBuffer (ps : List PktPair) : Res Buf :=
  let ps := sortByKey (·.1) ps
  (maxBytes ps).bind fun n =>
    (Res.ofRead (objectFromPairs ps (zeros n))).bind fun m => .ok (Buf.ofBytes m)

/-- `basic_buffer::make_object(gsl::span<...>)`, include/dart/buffer/object.tcc 30-47,
include/dart/buffer/detail.tcc 54-78. -/
def Buf.makeObject (args : List Pkt) : Res Buf :=
  if args.length % 2 = 1 then .throw .invalidArgument
  else (groupPairs args).bind buildBuffer

/-! ### Fields of an existing object -/

/-- What `key_begin() + i` and `begin() + i` refer to: the key string and the two elements. -/
structure SrcField where
  str : Bytes
  key : Buf
  val : Buf

/-- Field `i` of the object at `p`: `load_key`, `get_string(...)->get_strv()` and `load_value`,
include/dart/object.tcc 705-725. -/
def srcField (m : Bytes) (p i : Nat) : Option SrcField := do
  let kp ← loadKey m p i
  let s ← strv m .string kp
  let (t, vp) ← loadValue m p i
  some ⟨s, ⟨m, .string, some kp⟩, ⟨m, t, some vp⟩⟩

/-- All fields in iteration order. The C++ iterators read them one by one; here they are read in
advance, which differs only for tables that point outside the buffer. -/
def srcFields (m : Bytes) (p : Nat) : Option (List SrcField) := do
  let n ← numElems m p
  (List.range n).mapM (srcField m p)

/-- One round of the merging and projecting constructors, include/dart/object.tcc 404-432, 453-481. -/
def copyWriter (f : SrcField) : FieldWriter := ⟨f.val.type, f.str, copyElem f.key, copyElem f.val⟩

/-- Move the table offset of entry `idx` down by `diff`: `adjust_offset(-diff)`,
include/dart/common.tcc 167-170. -/
def adjustOffsets (diff : Nat) : Nat → Bytes → Option Bytes
  | 0, m => some m
  | n + 1, m => do
    let m ← adjustOffsets diff n m
    let off ← entOff m 0 n
    writeBytes m (8 + 8 * n) (leBytes 4 (off + 2 ^ 32 - diff))

/-- `object::realign`, include/dart/object.tcc 727-749: close the gap between the table of `elems`
entries and the data that was laid out behind room for `guess` entries. More entries than guessed (line 730 asserts
that there are fewer) are `none`: the table has then been written over the first field, and the data is moved the
wrong way. -/
def realign (elems guess off : Nat) (m : Bytes) : Option (Bytes × Nat) := do
  let _ ← (if guess < elems then none else some ())
  let t ← entType m 0 0
  let src := 8 + 8 * guess
  let dst := alignUp (8 + 8 * elems) t.align
  let diff := src - dst
  let data ← readBytes m src (off - src)
  let m ← writeBytes m dst data
  let m ← adjustOffsets diff elems m
  let m ← writeBytes m (off - diff) (zeros diff)
  some (m, off - diff)

/-- The merging and projecting constructors, include/dart/object.tcc 384-442, 444-491, given the
fields to copy. `elems` is counted in the loop; here it is stored once after it. -/
def objectFromCopies (guess : Nat) (fs : List SrcField) (m : Bytes) : Option Bytes := do
  let m ← writeBytes m 4 (leBytes 4 0)
  let (m, off) ← writeFields (fs.map copyWriter) 0 (8 + 8 * guess) m
  let m ← writeBytes m 4 (leBytes 4 fs.length)
  let (m, off) ← (if fs.length ≠ guess then realign fs.length guess off m else some (m, off))
  finishObject off m

/-! ### `inject` -/

/-- The first inner loop of `each_unique_pair`, include/dart/common.tcc 322-343: pass the base fields
that come before `ik`. Result: the fields passed on and the remaining base fields. Fields are seen
only through their keys. -/
def passBase {α : Type} (key : α → Bytes) (ik : Bytes) : List α → List α × List α
  | [] => ([], [])
  | b :: bs =>
    if keyLt (key b) ik then (b :: (passBase key ik bs).1, (passBase key ik bs).2)
    else if !keyLt ik (key b) then ([], bs)
    else ([], b :: bs)

/-- The second inner loop of `each_unique_pair`, include/dart/common.tcc 347-363: pass incoming
fields until the base iterator is behind. Result: fields passed on, remaining incoming, remaining
base fields. -/
def passIncoming {α : Type} (key : α → Bytes) : List α → List α → List α × List α × List α
  | [], bs => ([], [], bs)
  | i :: is, [] =>
    let r := passIncoming key is []
    (i :: r.1, r.2)
  | i :: is, b :: bs =>
    if !keyLt (key b) (key i) then
      let r := passIncoming key is (if !keyLt (key i) (key b) then bs else b :: bs)
      (i :: r.1, r.2)
    else ([], i :: is, b :: bs)

/-- The outer loop and the final loop of `each_unique_pair`, include/dart/common.tcc 319-369: the
fields the callback is called with, in order. The first argument bounds the rounds (each round takes
at least one field). -/
def eachUniquePair {α : Type} (key : α → Bytes) : Nat → List α → List α → List α
  | _, base, [] => base
  | 0, _, _ :: _ => []
  | n + 1, base, i :: is =>
    let b := passBase key (key i) base
    let c := passIncoming key (i :: is) b.2
    b.1 ++ (c.1 ++ eachUniquePair key n c.2.2 c.2.1)

/-- `buffer_builder::merge_buffers`, include/dart/common.tcc 246-261. -/
def Buf.merge (base incoming : Buf) : Res Buf :=
  base.object.bind fun p => incoming.object.bind fun q =>
  (Res.ofRead (findSizeof base.mem .object p)).bind fun bs =>
  (Res.ofRead (findSizeof incoming.mem .object q)).bind fun is =>
  (Res.ofRead (srcFields base.mem p)).bind fun bf =>
  (Res.ofRead (srcFields incoming.mem q)).bind fun inf =>
  (Res.ofRead (objectFromCopies (bf.length + inf.length)
    (eachUniquePair SrcField.str (bf.length + inf.length) bf inf) (zeros (bs + is)))).bind fun m =>
      .ok (Buf.ofBytes m)

/-- `basic_buffer::inject(gsl::span<...>)`, include/dart/buffer/object.tcc 59-75. -/
def Buf.inject (b : Buf) (args : List Pkt) : Res Buf := (Buf.makeObject args).bind b.merge

/-! ### `project` -/

/-- The inner loop of `project_each_pair`, include/dart/common.tcc 389-412: fields passed on for one
requested key, and the remaining fields. -/
def projectOne {α : Type} (key : α → Bytes) (k : Bytes) : List α → List α × List α
  | [] => ([], [])
  | b :: bs =>
    if keyLt (key b) k then projectOne key k bs
    else if !keyLt k (key b) then (b :: (projectOne key k bs).1, (projectOne key k bs).2)
    else ([], b :: bs)

/-- `buffer_builder::project_each_pair`, include/dart/common.tcc 373-414. -/
def projectEachPair {α : Type} (key : α → Bytes) : List Bytes → List α → List α
  | [], _ => []
  | k :: ks, bs =>
    let r := projectOne key k bs
    r.1 ++ projectEachPair key ks r.2

/-- `buffer_builder::project_keys`, include/dart/common.tcc 263-278, with `sort_spannable`,
include/dart/common.h 1385-1422; `basic_buffer::project`, include/dart/buffer/object.tcc 77-93. -/
def Buf.project (b : Buf) (keys : List Bytes) : Res Buf :=
  b.object.bind fun p =>
  (Res.ofRead (findSizeof b.mem .object p)).bind fun n =>
  (Res.ofRead (srcFields b.mem p)).bind fun fs =>
  (Res.ofRead (objectFromCopies keys.length (projectEachPair SrcField.str (sortByKey id keys) fs) (zeros n))).bind
    fun m => .ok (Buf.ofBytes m)

end Dart
