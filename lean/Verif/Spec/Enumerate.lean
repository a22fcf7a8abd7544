import Verif.Spec.Usb

/-!
# How a host reads what a device says about itself

Device, configuration, interface and endpoint descriptors as USB 2.0 lays them out (9.6.1, 9.6.3,
9.6.5, 9.6.6), string descriptors (9.6.7, UTF-16LE), and report descriptors as HID 1.11 lays them out
(6.2.2): a sequence of items that set global and local values and, with the main items, announce
fields of reports.  All of it is written from those documents and says nothing about the program.
-/

namespace VF.Spec

namespace Usb

/-- A device descriptor (USB 2.0 table 9-8). -/
structure DeviceInfo where
  usb : Nat
  cls : Nat
  packet : Nat
  vendor : Nat
  product : Nat
  release : Nat
  manufacturerText : Nat
  productText : Nat
  serialText : Nat
  configurations : Nat
deriving DecidableEq

def readDevice (b : Bytes) : Option DeviceInfo :=
  if b.length = 18 ∧ b.getD 1 0 = device then
    some ⟨word b 2, (b.getD 4 0).toNat, (b.getD 7 0).toNat, word b 8, word b 10, word b 12,
      (b.getD 14 0).toNat, (b.getD 15 0).toNat, (b.getD 16 0).toNat, (b.getD 17 0).toNat⟩
  else none

/-- An endpoint (table 9-13): its number and direction are in one byte; two bits of the attributes
are the kind of transfer (3: interrupt), eleven bits of a word the size of a packet. -/
structure Endpoint where
  number : Nat
  toHost : Bool
  transfer : Nat
  packet : Nat
deriving DecidableEq

def interrupt : Nat := 3

def readEndpoint (b : Bytes) : Endpoint :=
  ⟨(b.getD 2 0).toNat % 16, 128 ≤ (b.getD 2 0).toNat, (b.getD 3 0).toNat % 4, word b 4 % 2048⟩

/-- An interface (table 9-12) with the endpoints that follow it. -/
structure Interface where
  number : Nat
  alternate : Nat
  cls : Nat
  subclass : Nat
  text : Nat
  endpoints : List Endpoint
deriving DecidableEq

/-- The class code of human interface devices. -/
def hidClass : Nat := 3

/-- The interfaces in a run of descriptors: an endpoint belongs to the interface before it, other
descriptors are skipped. -/
def readInterfaces : List (UInt8 × Bytes) → List Interface
  | [] => []
  | (t, b) :: more =>
    if t = interface then
      ⟨(b.getD 2 0).toNat, (b.getD 3 0).toNat, (b.getD 5 0).toNat, (b.getD 6 0).toNat, (b.getD 8 0).toNat,
        (((more.takeWhile (·.1 != interface)).filter (·.1 == endpoint)).map fun d => readEndpoint d.2)⟩ ::
        readInterfaces more
    else readInterfaces more

/-- A configuration (table 9-10) with its interfaces. -/
structure Configuration where
  value : Nat
  text : Nat
  selfPowered : Bool
  interfaces : List Interface
deriving DecidableEq

/-- The host takes as many bytes as the total length (bytes 2 and 3) says, which must have come, and finds as many interfaces as
byte 4 says. -/
def readConfiguration (b : Bytes) : Option Configuration :=
  let total := (b.getD 2 0).toNat + 256 * (b.getD 3 0).toNat
  match split (b.take total) with
  | some ((t, first) :: more) =>
    if t = configuration ∧ total ≤ b.length ∧ (readInterfaces more).length = (first.getD 4 0).toNat then
      some ⟨(first.getD 5 0).toNat, (first.getD 6 0).toNat, (first.getD 7 0).toNat / 64 % 2 = 1, readInterfaces more⟩
    else none
  | _ => none

/-- Pairs of bytes as little-endian 16-bit numbers; `none` when a byte is left over. -/
def units : Bytes → Option (List Nat)
  | [] => some []
  | [_] => none
  | a :: b :: more => (units more).map ((a.toNat + 256 * b.toNat) :: ·)

/-- UTF-16 (Unicode 3.9, D91): a high surrogate and a low one make one code point, an unpaired one is
an error. -/
def codePoints : List Nat → Option (List Nat)
  | [] => some []
  | [u] => if 0xD800 ≤ u ∧ u < 0xE000 then none else some [u]
  | u :: v :: more =>
    if 0xD800 ≤ u ∧ u < 0xDC00 then
      if 0xDC00 ≤ v ∧ v < 0xE000 then
        (codePoints more).map ((0x10000 + (u - 0xD800) * 1024 + (v - 0xDC00)) :: ·)
      else none
    else if 0xDC00 ≤ u ∧ u < 0xE000 then none
    else (codePoints (v :: more)).map (u :: ·)

/-- The code points of a text in UTF-16LE. -/
def text (b : Bytes) : Option (List Nat) := (units b).bind codePoints

/-- The code points of a string descriptor: its length, its type, the text. -/
def readString (b : Bytes) : Option (List Nat) :=
  if b.head? = some (UInt8.ofNat b.length) ∧ b.getD 1 0 = string then text (b.drop 2) else none

/-- String descriptor 0 lists the languages. -/
def readLanguages (b : Bytes) : Option (List Nat) :=
  if b.head? = some (UInt8.ofNat b.length) ∧ b.getD 1 0 = string then units (b.drop 2) else none

end Usb

namespace Hid

/-- A short item (6.2.2.2): two bits are the size of its data (0, 1, 2 or 4 bytes), two its type,
four its tag. -/
structure Item where
  type : Nat
  tag : Nat
  data : Bytes

def items : (fuel : Nat) → Bytes → Option (List Item)
  | _, [] => some []
  | 0, _ => none
  | fuel + 1, p :: rest =>
    let n := [0, 1, 2, 4].getD (p.toNat % 4) 0
    if n ≤ rest.length then
      (items fuel (rest.drop n)).map (⟨p.toNat / 4 % 4, p.toNat / 16, rest.take n⟩ :: ·)
    else none

/-- The data of an item as an unsigned number. -/
def unsigned : Bytes → Nat
  | [] => 0
  | b :: more => b.toNat + 256 * unsigned more

/-- The data of an item as a number in two's complement, of the size of the data. -/
def signed (b : Bytes) : Int :=
  if 2 * unsigned b < 256 ^ b.length then unsigned b else (unsigned b : Int) - 256 ^ b.length

inductive Kind
  | input
  | output
  | feature
deriving DecidableEq

/-- A field of a report: the collections it is in, from the outermost (type, usage page, usage), its
own usage page and usages, its logical minimum and maximum as they stand in the descriptor, how many
bits a value has and how many values there are, and its flags. -/
structure Field where
  kind : Kind
  within : List (Nat × Nat × Nat)
  page : Nat
  usages : List Nat
  minimum : Bytes
  maximum : Bytes
  bits : Nat
  count : Nat
  flags : Nat
deriving DecidableEq

/-- Where a reader of the descriptor is: the global values, the local ones, the open collections. -/
structure Reader where
  page : Nat := 0
  minimum : Bytes := []
  maximum : Bytes := []
  bits : Nat := 0
  count : Nat := 0
  usages : List Nat := []
  within : List (Nat × Nat × Nat) := []
  fields : List Field := []

def Reader.field (r : Reader) (kind : Kind) (flags : Nat) : Reader :=
  { r with
    usages := []
    fields := r.fields ++ [⟨kind, r.within, r.page, r.usages, r.minimum, r.maximum, r.bits, r.count, flags⟩] }

/-- One item: main items (type 0) announce a field or open or close a collection and end the reach of
the local values; global items (type 1) stay in force; local ones (type 2) say the usages.  Items a
FIDO device has no need of (report ids, units, push and pop, ...) are not read: they make the whole
descriptor unreadable. -/
def Reader.item (r : Reader) (i : Item) : Option Reader :=
  match i.type, i.tag with
  | 0, 8 => some (r.field .input (unsigned i.data))
  | 0, 9 => some (r.field .output (unsigned i.data))
  | 0, 11 => some (r.field .feature (unsigned i.data))
  | 0, 10 => some { r with within := r.within ++ [(unsigned i.data, r.page, r.usages.headD 0)], usages := [] }
  | 0, 12 => if r.within = [] then none else some { r with within := r.within.dropLast, usages := [] }
  | 1, 0 => some { r with page := unsigned i.data }
  | 1, 1 => some { r with minimum := i.data }
  | 1, 2 => some { r with maximum := i.data }
  | 1, 7 => some { r with bits := unsigned i.data }
  | 1, 9 => some { r with count := unsigned i.data }
  | 2, 0 => some { r with usages := r.usages ++ [unsigned i.data] }
  | _, _ => none

/-- The fields a report descriptor announces; `none` when it cannot be read or a collection stays
open. -/
def fields (b : Bytes) : Option (List Field) :=
  match items b.length b with
  | none => none
  | some is => match is.foldlM Reader.item {} with
    | none => none
    | some r => if r.within = [] then some r.fields else none

/-- An application collection is of type 1. -/
def application : Nat := 1

/-- Flags (6.2.2.5): data and not a constant, one value per usage or position, absolute. -/
def dataVariableAbsolute : Nat := 2

/-- A field of a FIDO device (CTAP 2.0, 8.1.8.2): in one application collection of usage page 0xF1D0
and usage 1, with the usage given, one byte a value, `n` values. -/
def Fido (kind : Kind) (usage n : Nat) (f : Field) : Prop :=
  f.kind = kind ∧ f.within = [(application, 0xF1D0, 1)] ∧ f.page = 0xF1D0 ∧ f.usages = [usage] ∧
    f.bits = 8 ∧ f.count = n ∧ f.flags = dataVariableAbsolute

instance (kind : Kind) (usage n : Nat) (f : Field) : Decidable (Fido kind usage n f) := by
  unfold Fido; infer_instance

/-- The usages of input and output reports. -/
def reportIn : Nat := 0x20
def reportOut : Nat := 0x21

end Hid

end VF.Spec
