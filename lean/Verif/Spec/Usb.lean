import Verif.Base.Bytes

/-!
# USB as its specification describes it (USB 2.0 chapter 9, HID 1.11 chapter 6)
-/

namespace VF.Spec.Usb

/-- Split a run of descriptors, each starting with its own length and its type; `none` when the
lengths do not add up. -/
def descriptors : (fuel : Nat) → Bytes → Option (List (UInt8 × Bytes))
  | _, [] => some []
  | 0, _ => none
  | fuel + 1, len :: type :: rest =>
    if 2 ≤ len.toNat ∧ len.toNat ≤ rest.length + 2 then
      (descriptors fuel ((len :: type :: rest).drop len.toNat)).map
        fun more => (type, (len :: type :: rest).take len.toNat) :: more
    else none
  | _ + 1, [_] => none

/-- The descriptors in an answer. -/
def split (b : Bytes) : Option (List (UInt8 × Bytes)) := descriptors b.length b

/-- Type codes. -/
def device : UInt8 := 1
def configuration : UInt8 := 2
def string : UInt8 := 3
def interface : UInt8 := 4
def endpoint : UInt8 := 5
def hid : UInt8 := 33
def hidReport : UInt8 := 34

/-- How many descriptors of a type there are. -/
def count (type : UInt8) (ds : List (UInt8 × Bytes)) : Nat := (ds.filter (·.1 == type)).length

/-- The 16-bit little-endian number at a position. -/
def word (b : Bytes) (i : Nat) : Nat := (b.getD i 0).toNat + 256 * (b.getD (i + 1) 0).toNat

/-- bmRequestType, USB 2.0 table 9-2: bit 7 direction, bits 6..5 type, bits 4..0 recipient. -/
def direction (bm : UInt8) : Nat := bm.toNat / 128
def type (bm : UInt8) : Nat := bm.toNat / 32 % 4
def recipient (bm : UInt8) : Nat := bm.toNat % 32

/-- The eight bytes of a setup packet. -/
def setup (bm request : UInt8) (value index length : UInt16) : Bytes :=
  [bm, request] ++ le16 value ++ le16 index ++ le16 length

end VF.Spec.Usb
