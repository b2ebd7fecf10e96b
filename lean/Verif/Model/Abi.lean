import Verif.Model.Heap

/-
The C interface: error codes, and the initialisers that take a format string and variadic arguments. The packet and
heap versions, and those for the two kinds of reference counters, run the same templates on dynamic values, so
one model stands for all of them.
-/
namespace Dart.Abi

/-- `dart_err_t`, include/dart/abi.h 181-190. -/
inductive Err
  | noError | typeError | logicError | stateError | parseError | runtimeError | clientError | unknownError
  deriving DecidableEq, Repr

/-- `err_handler`, src/helpers.h 587-608, with the class hierarchy of include/dart/common.h 93-107: `type_error` and the
exceptions of the standard library used here are logic errors, `validation_error` is a runtime error. -/
def errCode : Exc → Err
  | .typeError => .typeError
  | .stateError => .stateError
  | .parseError => .parseError
  | .logicError => .logicError
  | .outOfRange => .logicError
  | .invalidArgument => .logicError
  | .lengthError => .logicError
  | .validationError => .runtimeError

/-- A variadic argument with its type. A pointer comes with the memory from there to the end of the object it points
into. `unsigned long long` and `unsigned long` are the same for the usual 64-bit targets. -/
inductive VArg
  | ptr (mem : Bytes)
  | size (n : Nat)
  | int (i : BitVec 32)
  | uint (i : BitVec 32)
  | long (i : BitVec 64)
  | ulong (i : BitVec 64)
  | double (d : BitVec 64)
  deriving DecidableEq, Repr

/-- `parse_type`, src/helpers.h 127-140. -/
inductive ParseType
  | object | array | string | sizedString | integer | unsignedInteger | longInt | unsignedLongInt | decimal | boolean
  | null | invalid
  deriving DecidableEq, Repr

/-- `identify_vararg`, src/helpers.h 706-739: the type and where the format goes on. The end of the list is the NUL at the
end of the format; the code moves past it after a `u` at the end, and for nothing else since the loops below stop
there. Nothing is read from there since this is an error. -/
def identifyVararg : Bytes → ParseType × Bytes
  | [] => (.invalid, [])
  | c :: fmt =>
    if c = 0x6f then (.object, fmt)
    else if c = 0x61 then (.array, fmt)
    else if c = 0x73 then (.string, fmt)
    else if c = 0x53 then (.sizedString, fmt)
    else if c = 0x75 then
      match fmt with
      | [] => (.invalid, [])
      | d :: fmt => if d = 0x69 then (.unsignedInteger, fmt) else if d = 0x6c then (.unsignedLongInt, fmt) else (.invalid, fmt)
    else if c = 0x69 then (.integer, fmt)
    else if c = 0x6c then (.longInt, fmt)
    else if c = 0x64 then (.decimal, fmt)
    else if c = 0x62 then (.boolean, fmt)
    else if c = 0x20 ∨ c = 0x6e then (.null, fmt)
    else (.invalid, fmt)

/-- `string_view(char const*)`: the bytes before the first NUL; there must be one. -/
def cStr (mem : Bytes) : Res Bytes := if 0 ∈ mem then .ok (mem.takeWhile (· != 0)) else .ub

/-- `va_arg(args, char const*)` used as a string. An argument that is not there or has another type is undefined
behaviour. -/
def argStr : List VArg → Res (Bytes × List VArg)
  | .ptr mem :: args => (cStr mem).bind fun s => .ok (s, args)
  | _ => .ub

mutual
/-- `parse_val`, src/helpers.h 768-808: the value, the rest of the format and the rest of the arguments. The first argument
bounds the depth of recursion; see `initFuel`. -/
def parseVal : Nat → Bytes → List VArg → Res (Val × Bytes × List VArg)
  | 0, _, _ => .ub
  | n + 1, fmt, args =>
    match identifyVararg fmt with
    | (.object, fmt) =>
      match parsePairs n fmt args (.obj []) with
      | (v, .ok (fmt, args)) => .ok (v, fmt, args)
      | (_, .throw e) => .throw e
      | (_, .ub) => .ub
    | (.array, fmt) =>
      match parseVals n fmt args (.arr []) with
      | (v, .ok (fmt, args)) => .ok (v, fmt, args)
      | (_, .throw e) => .throw e
      | (_, .ub) => .ub
    | (.string, fmt) => (argStr args).bind fun r => .ok (.str r.1, fmt, r.2)
    | (.sizedString, fmt) =>
      match args with
      | .ptr mem :: .size len :: args => if len ≤ mem.length then .ok (.str (mem.take len), fmt, args) else .ub
      | _ => .ub
    | (.integer, fmt) =>
      match args with
      | .int i :: args => .ok (.int (i.signExtend 64), fmt, args)
      | _ => .ub
    | (.unsignedInteger, fmt) =>
      match args with
      | .uint i :: args => .ok (.int (i.zeroExtend 64), fmt, args)
      | _ => .ub
    | (.longInt, fmt) =>
      match args with
      | .long i :: args => .ok (.int i, fmt, args)
      | _ => .ub
    | (.unsignedLongInt, fmt) =>
      -- the conversion to `int64_t` keeps the bits
      match args with
      | .ulong i :: args => .ok (.int i, fmt, args)
      | _ => .ub
    | (.decimal, fmt) =>
      match args with
      | .double d :: args => .ok (.dec d, fmt, args)
      | _ => .ub
    | (.boolean, fmt) =>
      match args with
      | .int i :: args => .ok (.bool (i != 0), fmt, args)
      | _ => .ub
    | (.null, fmt) => .ok (.null, fmt, args)
    | (.invalid, _) => .throw .logicError
/-- `parse_vals`, src/helpers.h 810-816: the array in its final state, and how the call ended. -/
def parseVals : Nat → Bytes → List VArg → Val → Val × Res (Bytes × List VArg)
  | 0, _, _, self => (self, .ub)
  | _ + 1, [], args, self => (self, .ok ([], args))
  | n + 1, c :: fmt, args, self =>
    if c = 0x2c then (self, .ok (fmt, args))
    else
      match parseVal n (c :: fmt) args with
      | .ok (v, fmt, args) =>
        match self.pushBack v with
        | .ok self => parseVals n fmt args self
        | .throw e => (self, .throw e)
        | .ub => (self, .ub)
      | .throw e => (self, .throw e)
      | .ub => (self, .ub)
/-- `parse_pairs`, src/helpers.h 818-829; `add_field` is `insert`, include/dart/heap/object.tcc 50-53. -/
def parsePairs : Nat → Bytes → List VArg → Val → Val × Res (Bytes × List VArg)
  | 0, _, _, self => (self, .ub)
  | _ + 1, [], args, self => (self, .ok ([], args))
  | n + 1, c :: fmt, args, self =>
    if c = 0x2c then (self, .ok (fmt, args))
    else
      match argStr args with
      | .ok (k, args) =>
        match parseVal n (c :: fmt) args with
        | .ok (v, fmt, args) =>
          match self.insert (.str k) v with
          | .ok self => parsePairs n fmt args self
          | .throw e => (self, .throw e)
          | .ub => (self, .ub)
        | .throw e => (self, .throw e)
        | .ub => (self, .ub)
      | .throw e => (self, .throw e)
      | .ub => (self, .ub)
end

/-- A bound for the depth of recursion: every value takes a letter. -/
def initFuel (fmt : Bytes) : Nat := 2 * fmt.length + 1

/-- Which of the two initialisers. -/
inductive Kind
  | obj | arr
  deriving DecidableEq, Repr

/-- The lambdas of `dart_heap_obj_init_va_impl` and `dart_heap_arr_init_va_impl`, src/heap.cc 655-669 and 738-752, and
`dart_obj_init_va_impl` and `dart_arr_init_va_impl`, src/generic.cc 775-789 and 858-872. -/
def parseInto (k : Kind) (fmt : Bytes) (args : List VArg) : Val × Res (Bytes × List VArg) :=
  match k with
  | .obj => parsePairs (initFuel fmt) fmt args (.obj [])
  | .arr => parseVals (initFuel fmt) fmt args (.arr [])

/-- `dart_heap_obj_init_va_rc_err` and the other initialisers with `_err`, src/heap.cc 682-688, 700-706, 764-770, 781-787,
through `heap_typed_constructor_access`, src/helpers.h 627-634, and `dart_heap_init_rc_err`, src/heap.cc 560-570. `rc` is
the number of the reference counter (include/dart/abi.h 168-172). Gives the code and what is in `*dst` afterwards:
`none` if nothing has been constructed there. -/
def initVaErr (k : Kind) (rc : Nat) (fmt : Bytes) (args : List VArg) : Res (Err × Option Val) :=
  if rc = 1 ∨ rc = 2 then
    match parseInto k fmt args with
    | (v, .ok _) => .ok (.noError, some v)
    | (v, .throw e) => .ok (errCode e, some v)
    | (_, .ub) => .ub
  else .ok (.clientError, none)

/-- `dart_heap_obj_init_va_rc` and the other initialisers without `_err`, src/heap.cc 672-680, 690-698, 755-762, 772-779: what is
returned, and what was constructed in the local variable and is neither returned nor destroyed. -/
def initVa (k : Kind) (rc : Nat) (fmt : Bytes) (args : List VArg) : Res (Val × Option Val) :=
  (initVaErr k rc fmt args).bind fun r =>
    match r with
    | (.noError, some v) => .ok (v, none)
    | (.noError, none) => .ub
    | (_, dst) => .ok (.null, dst)

end Dart.Abi
