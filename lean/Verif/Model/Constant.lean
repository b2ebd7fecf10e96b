import Verif.Model.Compare
import Verif.Model.Container

/-
`std::integral_constant<T, val>` (include/dart/conversions.h 1566-1588): a C++ type with one value, for `T` either `bool` or an
integral type. `c` is `val`. The packets are dynamic values and `dart::packet`s; the conversions do not compile for
`dart::buffer`.
-/
namespace Dart.Const

/-- `to_dart`, include/dart/conversions.h 1570-1573. -/
def toDart (c : Native) : Val := c.toDart

/-- `from_dart`, include/dart/conversions.h 1574-1581. The result carries no data. -/
def fromDart (c : Native) (p : Pkt) : Res Unit :=
  (p.eqNative c).bind fun r => if r then .ok () else .throw .typeError

/-- `compare`, include/dart/conversions.h 1584-1587: with a packet made of the constant. -/
def compare (signed : Bool) (sh : Sharing) (c : Native) (p : Pkt) : Res Bool :=
  p.eqTyped signed true sh (.heap (toDart c))

end Dart.Const
