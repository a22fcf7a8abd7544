import Verif.Base.Go
import Verif.Base.Bytes

/-!
# Model of util/util.go (byte helpers)
-/

namespace VF.Util

/-- util.go:70-74 `ToLE[uint32]` (also for `ctapHIDChannelID`, data.go:13). -/
def toLE32 (n : UInt32) : Bytes :=
  [n.toUInt8, (n >>> 8).toUInt8, (n >>> 16).toUInt8, (n >>> 24).toUInt8]

/-- util.go:70-74 `ToLE[uint16]` -/
def toLE16 (n : UInt16) : Bytes := [n.toUInt8, (n >>> 8).toUInt8]

/-- util.go:76-80 `ToBE[uint16]` -/
def toBE16 (n : UInt16) : Bytes := [(n >>> 8).toUInt8, n.toUInt8]

/-- util.go:76-80 `ToBE[uint32]`; an `int32` is passed as its two's-complement bit pattern. -/
def toBE32 (n : UInt32) : Bytes :=
  [(n >>> 24).toUInt8, (n >>> 16).toUInt8, (n >>> 8).toUInt8, n.toUInt8]

/-- util.go:76-80 `ToBE` on a value that is not of fixed size (Go `int`, or a structure with
a slice in it): `binary.Write` returns an error, which is ignored, and writes nothing. -/
def toBENotFixedSize : Bytes := []

/-- util.go:63-68 `ReadLE[uint32]` from a `bytes.Buffer`: `binary.Read` reads all four bytes or
fails, and failure panics in `CheckErr`. -/
def readLE32 : Bytes → Res (UInt32 × Bytes)
  | a :: b :: c :: d :: rest =>
    .ok (UInt32.ofNat (a.toNat + 256 * b.toNat + 65536 * c.toNat + 16777216 * d.toNat), rest)
  | _ => .panic .checkErr

/-- util.go:63-68 `ReadLE[uint8]` -/
def readLE8 : Bytes → Res (UInt8 × Bytes)
  | a :: rest => .ok (a, rest)
  | [] => .panic .checkErr

/-- util.go:63-68 `ReadLE[uint16]` -/
def readLE16 : Bytes → Res (UInt16 × Bytes)
  | a :: b :: rest => .ok (UInt16.ofNat (a.toNat + 256 * b.toNat), rest)
  | _ => .panic .checkErr

/-- util.go:56-61 `ReadBE[uint16]` -/
def readBE16 : Bytes → Res (UInt16 × Bytes)
  | a :: b :: rest => .ok (UInt16.ofNat (256 * a.toNat + b.toNat), rest)
  | _ => .panic .checkErr

/-- util.go:56-61 `ReadBE[uint32]` -/
def readBE32 : Bytes → Res (UInt32 × Bytes)
  | a :: b :: c :: d :: rest =>
    .ok (UInt32.ofNat (16777216 * a.toNat + 65536 * b.toNat + 256 * c.toNat + d.toNat), rest)
  | _ => .panic .checkErr

/-- util.go:50-54 `Pad`: a new slice of `size` bytes into which `src` is copied, i.e. `src`
cut or zero-padded to `size`. -/
def pad (src : Bytes) (size : Nat) : Bytes := src.take size ++ List.replicate (size - src.length) 0

/-- util.go:94-99 `Read` on a `bytes.Buffer`: one call of `Read`, which delivers what is there.
A short read leaves zeros at the end; reading from an empty buffer is `io.EOF` and panics,
except for length 0. -/
def bufRead (length : Nat) (buf : Bytes) : Res (Bytes × Bytes) :=
  if buf.isEmpty then
    if length = 0 then .ok ([], []) else .panic .checkErr
  else .ok (pad (buf.take length) length, buf.drop length)

/-- util.go:123-129 `Concat` -/
def concat (arrays : List Bytes) : Bytes := arrays.foldl (fun out arr => out ++ arr) []

/-- util.go:101-106 `Fill` -/
def fill (buf : Bytes) (length : Nat) : Bytes :=
  if buf.length < length then buf ++ List.replicate (length - buf.length) 0 else buf

/-- util.go:172-180 `CStringToString` -/
def cStringToString (data : Bytes) : Res Bytes :=
  if data.contains 0 then .ok (data.takeWhile (· != 0)) else .panic .explicit

end VF.Util
