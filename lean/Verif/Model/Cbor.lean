import Verif.Base.Cbor
import Verif.Model.Util

/-!
# Model of util.MarshalCBOR (util/util.go:163-170)

`MarshalCBOR` uses the fxamacker library with its CTAP2 canonical options.  The library encodes
Go structures as maps from the field's key, in the order of the encoded keys, leaving out empty
`omitempty` fields.  In this model the Go structures are turned into data items by hand (with
the fields in the library's order; that this is the canonical order is proved in
`Verif.Props.Answers`), and `encode` is the library's encoding of data items.
-/

namespace VF.Cbor

/-- Head of an item: major type and argument in the shortest form. -/
def head (major : Nat) (n : Nat) : Bytes :=
  let m := UInt8.ofNat (32 * major)
  if n < 24 then [m + UInt8.ofNat n]
  else if n < 256 then [m + 24, UInt8.ofNat n]
  else if n < 65536 then (m + 25) :: Util.toBE16 (UInt16.ofNat n)
  else if n < 4294967296 then (m + 26) :: Util.toBE32 (UInt32.ofNat n)
  else (m + 27) :: (Util.toBE32 (UInt32.ofNat (n / 4294967296)) ++ Util.toBE32 (UInt32.ofNat n))

mutual
/-- Encoding of a data item. -/
def encode : Cbor → Bytes
  | .uint n => head 0 n
  | .nint n => head 1 n
  | .bytes b => head 2 b.length ++ b
  | .text b => head 3 b.length ++ b
  | .array l => head 4 l.length ++ encodeItems l
  | .map l => head 5 l.length ++ encodeEntries l
  | .bool false => [0xf4]
  | .bool true => [0xf5]
  | .null => [0xf6]
def encodeItems : List Cbor → Bytes
  | [] => []
  | v :: l => encode v ++ encodeItems l
def encodeEntries : List (Cbor × Cbor) → Bytes
  | [] => []
  | (k, v) :: l => encode k ++ encode v ++ encodeEntries l
end

end VF.Cbor
