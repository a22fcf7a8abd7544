import Verif.Base.Bytes

/-!
# USB/IP as its specification describes it

Written from the protocol description (Linux `Documentation/usb/usbip_protocol.rst`), independently
of the model: what a client writes and what it expects back.
-/

namespace VF.Spec.UsbIp

/-- What a client asks for in the command phase. -/
inductive Cmd where
  /-- a transfer from the host to the device with its data -/
  | out (seq devid ep flags startFrame packets interval : UInt32) (setup data : Bytes)
  /-- a transfer from the device to the host of at most `length` bytes -/
  | inp (seq devid ep flags length startFrame packets interval : UInt32) (setup : Bytes)
  /-- withdraw the transfer with sequence number `victim` -/
  | unlink (seq devid dir ep victim : UInt32) (padding : Bytes)
  deriving DecidableEq, Repr

/-- Field widths are as the protocol says. -/
def Cmd.WellFormed : Cmd → Prop
  | .out _ _ _ _ _ _ _ setup data => setup.length = 8 ∧ data.length < 4294967296
  | .inp _ _ _ _ _ _ _ _ setup => setup.length = 8
  | .unlink _ _ _ _ _ padding => padding.length = 24

/-- The bytes of a command on the wire: USBIP_CMD_SUBMIT and USBIP_CMD_UNLINK. -/
def Cmd.wire : Cmd → Bytes
  | .out seq devid ep flags startFrame packets interval setup data =>
    be32 1 ++ be32 seq ++ be32 devid ++ be32 0 ++ be32 ep ++
    be32 flags ++ be32 (UInt32.ofNat data.length) ++ be32 startFrame ++ be32 packets ++ be32 interval ++
    setup ++ data
  | .inp seq devid ep flags length startFrame packets interval setup =>
    be32 1 ++ be32 seq ++ be32 devid ++ be32 1 ++ be32 ep ++
    be32 flags ++ be32 length ++ be32 startFrame ++ be32 packets ++ be32 interval ++ setup
  | .unlink seq devid dir ep victim padding =>
    be32 2 ++ be32 seq ++ be32 devid ++ be32 dir ++ be32 ep ++ be32 victim ++ padding

/-- USBIP_RET_SUBMIT: 48 bytes, status 0, then the data of an IN transfer. -/
def retSubmit (seq : UInt32) (actualLength : Nat) (data : Bytes) : Bytes :=
  be32 3 ++ be32 seq ++ be32 0 ++ be32 0 ++ be32 0 ++
  be32 0 ++ be32 (UInt32.ofNat actualLength) ++ be32 0 ++ be32 0 ++ be32 0 ++ List.replicate 8 0 ++ data

/-- USBIP_RET_UNLINK: 48 bytes; the status is `-ECONNRESET` (-104) when the transfer was withdrawn. -/
def retUnlink (seq : UInt32) (status : Int) : Bytes :=
  be32 4 ++ be32 seq ++ be32 0 ++ be32 0 ++ be32 0 ++
  be32 (UInt32.ofNat (status % 4294967296).toNat) ++ List.replicate 24 0

/-- A device as OP_REP_IMPORT describes it. -/
structure Info where
  path : Bytes
  busId : Bytes
  busnum : UInt32
  devnum : UInt32
  speed : UInt32
  idVendor : UInt16
  idProduct : UInt16
  bcdDevice : UInt16
  /-- class, subclass, protocol, configuration value, number of configurations, of interfaces -/
  tail : Bytes

/-- OP_REP_IMPORT with status 0 and the device -/
def importOk (i : Info) : Bytes :=
  be16 0x0111 ++ be16 0x0003 ++ be32 0 ++
  i.path ++ i.busId ++ be32 i.busnum ++ be32 i.devnum ++ be32 i.speed ++
  be16 i.idVendor ++ be16 i.idProduct ++ be16 i.bcdDevice ++ i.tail

/-- OP_REP_IMPORT with an error status and no device -/
def importFailed (status : UInt32) : Bytes := be16 0x0111 ++ be16 0x0003 ++ be32 status

/-- OP_REQ_IMPORT; the status field is unused -/
def reqImport (version : UInt16) (status : UInt32) (busIdField : Bytes) : Bytes :=
  be16 version ++ be16 0x8003 ++ be32 status ++ busIdField

/-- OP_REQ_DEVLIST -/
def reqDevlist (version : UInt16) (status : UInt32) : Bytes := be16 version ++ be16 0x8005 ++ be32 status

/-- OP_REP_DEVLIST: header, number of devices, and each device with its interfaces (3 bytes and a
padding byte each). -/
def repDevlist (devices : List (Info × List Bytes)) : Bytes :=
  be16 0x0111 ++ be16 0x0005 ++ be32 0 ++ be32 (UInt32.ofNat devices.length) ++
  (devices.map fun (i, ifs) => i.path ++ i.busId ++ be32 i.busnum ++ be32 i.devnum ++ be32 i.speed ++
    be16 i.idVendor ++ be16 i.idProduct ++ be16 i.bcdDevice ++ i.tail ++ ifs.flatten).flatten

/-- An IPv4 address in 127.0.0.0/24. -/
def loopback24 (a b c : UInt8) : Prop := a = 127 ∧ b = 0 ∧ c = 0

end VF.Spec.UsbIp
