import Verif.Model.Own
import Verif.Model.Packet

/-
Handing out the bytes of finalized values: `share_bytes`, beside `get_bytes` (`Buf.getBytes`) and `dup_bytes`
(`Own.Op.dupBytes`).
-/
namespace Dart

/-- What the pointer set by `basic_buffer::share_bytes` points at, for the length returned,
include/dart/buffer/api.tcc 255-264: null is refused; otherwise the start of the memory owned, and the size of
the object there. -/
def Buf.shareBytes (b : Buf) : Res Bytes :=
  if b.type = .null then .throw .typeError
  else (Res.ofRead (findSizeof b.mem .object 0)).bind fun n => Res.ofRead (readBytes b.mem 0 n)

/-- `basic_packet::share_bytes`, include/dart/packet/api.tcc 297-300. -/
def Pkt.shareBytes (p : Pkt) : Res Bytes := p.getBuffer.bind Buf.shareBytes

end Dart
