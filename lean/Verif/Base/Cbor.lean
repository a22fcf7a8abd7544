import Verif.Base.Bytes

/-!
# CBOR data items

The data items of RFC 8949 that occur in the device's messages: integers, byte strings, text
strings, arrays, maps, booleans and null.  Tags, floats and the other simple values never occur
in what the device sends.  Shared by the model's encoder and the specification's parser.
-/

namespace VF

/-- A CBOR data item.  `nint n` is the integer `-1 - n`; a text string is its UTF-8 bytes. -/
inductive Cbor where
  | uint (n : Nat)
  | nint (n : Nat)
  | bytes (b : Bytes)
  | text (b : Bytes)
  | array (l : List Cbor)
  | map (l : List (Cbor × Cbor))
  | bool (b : Bool)
  | null

namespace Cbor

/-- The data item for an integer. -/
def int : Int → Cbor
  | .ofNat n => .uint n
  | .negSucc n => .nint n

/-- A text string item from a literal. -/
def str (s : String) : Cbor := .text (ascii s)

end Cbor
end VF
