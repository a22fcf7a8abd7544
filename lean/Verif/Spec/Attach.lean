import Verif.Spec.UsbIp

/-!
# What a USB/IP client does

Written from the manual page of `usbip` and the protocol description, independently of the model.
-/

namespace VF.Spec.Attach

open VF.Spec.UsbIp

/-- `usbip attach -r HOST -b BUSID`: the host it connects to (at port 3240) and the bus id it asks for. -/
def target : List String → Option (String × String)
  | program :: args =>
    if program = "sudo" then target args
    else match args with
      | ["attach", "-r", host, "-b", busid] => some (host, busid)
      | _ => none
  | [] => none

/-- What it sends: a request to import, the bus id filled up with zeros to 32 bytes. -/
def request (busid : Bytes) : Bytes := reqImport 0x0111 0 (busid ++ List.replicate (32 - busid.length) 0)

/-- What it takes for an answer that gives it the device: 320 bytes, version 1.1.1, code 3, status 0, and the bus id it
asked for in its field. -/
def Content (busid reply : Bytes) : Prop :=
  reply.length = 320 ∧ reply.take 8 = be16 0x0111 ++ be16 0x0003 ++ be32 0 ∧
  (reply.drop 264).take 32 = busid ++ List.replicate (32 - busid.length) 0

/-- What a client can ask for before it imports a device. -/
inductive Ask where
  | devlist (version : UInt16) (status : UInt32)
  /-- the bus id, and what follows it in its field -/
  | «import» (version : UInt16) (status : UInt32) (busid junk : Bytes)
  /-- any other code -/
  | other (version code : UInt16) (status : UInt32)

/-- As sent. -/
def Ask.wire : Ask → Bytes
  | .devlist v s => reqDevlist v s
  | .import v s b j => reqImport v s (b ++ 0 :: j)
  | .other v c s => be16 v ++ be16 c ++ be32 s

/-- Well formed. -/
def Ask.Good : Ask → Prop
  | .devlist _ _ => True
  | .import _ _ b j => 0 ∉ b ∧ (b ++ 0 :: j).length = 32
  | .other _ c _ => c ≠ 0x8005 ∧ c ≠ 0x8003

/-- It asks for the device with this bus id. -/
def Ask.Wants (busid : Bytes) : Ask → Prop
  | .import _ _ b _ => b = busid
  | _ => False

end VF.Spec.Attach
