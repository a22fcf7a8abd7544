import Verif.Spec.UsbIp
import Verif.Spec.Ctaphid

/-!
# How a USB/IP client uses a FIDO device

Independent of the model: the commands a client's HID driver sends, and how the client takes the
replies from the connection.
-/

namespace VF.Spec.Stack

open Spec.UsbIp

/-- The sequence number of a command. -/
def seqOf : Cmd → UInt32
  | .out seq .. => seq
  | .inp seq .. => seq
  | .unlink seq .. => seq

/-- A transfer asking for a report: interrupt IN on endpoint 1. -/
def isPoll : Cmd → Bool
  | .inp _ _ ep .. => ep == 1
  | _ => false

/-- The reports sent to the device: the data of the interrupt OUT transfers on endpoint 2. -/
def reportOf : Cmd → Option Bytes
  | .out _ _ ep _ _ _ _ _ data => if ep = 2 then some data else none
  | _ => none

/-- The number of the transfer a command withdraws. -/
def victimOf : Cmd → Option UInt32
  | .unlink _ _ _ _ victim _ => some victim
  | _ => none

/-- What a driver for a HID device with 64-byte reports sends: well-formed commands; IN transfers of
64 bytes on endpoint 1, OUT transfers on endpoint 2; control transfers on endpoint 0. -/
def Usual : Cmd → Prop
  | .out seq devid ep flags startFrame packets interval setup data =>
    (Cmd.out seq devid ep flags startFrame packets interval setup data).WellFormed ∧ ep ≠ 1
  | .inp seq devid ep flags length startFrame packets interval setup =>
    (Cmd.inp seq devid ep flags length startFrame packets interval setup).WellFormed ∧
    (ep = 1 → length = 64) ∧ ep ≠ 2
  | .unlink seq devid dir ep victim padding => (Cmd.unlink seq devid dir ep victim padding).WellFormed

/-- The commands of a session: usual ones, no sequence number used twice. -/
def Session (cmds : List Cmd) : Prop := (∀ cmd ∈ cmds, Usual cmd) ∧ (cmds.map seqOf).Nodup

/-- A reply taken from the connection: the command it answers, the status word, the data. -/
structure Reply where
  cmd : Cmd
  status : Bytes
  data : Bytes
  deriving DecidableEq, Repr

/-- Four bytes at an offset. -/
def word (b : Bytes) (i : Nat) : Bytes := (b.drop i).take 4

/-- A big-endian number. -/
def number (b : Bytes) : Nat := b.foldl (fun a x => a * 256 + x.toNat) 0

/-- USBIP_RET_SUBMIT is 3, USBIP_RET_UNLINK is 4. -/
def replyCode : Cmd → UInt32
  | .unlink .. => 4
  | _ => 3

/-- How many bytes follow the 48 bytes of the reply: for an IN transfer as many as its actual length
says, otherwise none. -/
def following (cmd : Cmd) (b : Bytes) : Nat :=
  match cmd with
  | .inp .. => number (word b 24)
  | _ => 0

/-- The client reads replies one after the other, knowing from the sequence number which of its
commands each one answers; `n` bounds how many. -/
def readReplies (sent : List Cmd) : (n : Nat) → Bytes → List Reply
  | 0, _ => []
  | n + 1, b =>
    if b.length < 48 then []
    else
      match sent.find? (fun c => be32 (seqOf c) == word b 4 && be32 (replyCode c) == word b 0) with
      | none => []
      | some cmd =>
        { cmd := cmd, status := word b 20, data := (b.drop 48).take (following cmd b) } ::
          readReplies sent n (b.drop (48 + following cmd b))

/-- All replies in what was written to the connection. -/
def replies (sent : List Cmd) (out : Bytes) : List Reply := readReplies sent out.length out

/-- The input reports among the replies, in order. -/
def reports (rs : List Reply) : List Bytes := rs.filterMap fun r => if isPoll r.cmd then some r.data else none

/-- The status word of a reply saying that the transfer was withdrawn: `-ECONNRESET`. -/
def withdrawn : Bytes := [0xFF, 0xFF, 0xFF, 0x98]
/-- The status word saying that there was no such transfer: `-ENOENT`. -/
def notFound : Bytes := [0xFF, 0xFF, 0xFF, 0xFE]

/-- The replies saying that transfer `id` was withdrawn. -/
def withdraws (id : UInt32) (r : Reply) : Bool := victimOf r.cmd == some id && r.status == withdrawn

/-- Among the commands the server has read, `id` is a transfer asking for a report which, to judge by
the replies so far, was neither answered nor withdrawn. -/
def Outstanding (read : List Cmd) (rs : List Reply) (id : UInt32) : Prop :=
  ∃ poll ∈ read, isPoll poll = true ∧ seqOf poll = id ∧
    ∀ r ∈ rs, r.cmd ≠ poll ∧ withdraws id r = false

/-- The reports addressed to one channel. -/
def onChannel (cid : UInt32) (ps : List Bytes) : List Bytes :=
  ps.filter fun p => Ctaphid.channelOf p == some cid

/-- `got` is `sent` with reports of 64 zero bytes put in between. -/
inductive Padded : (got sent : List Bytes) → Prop
  | nil : Padded [] []
  | same {got sent : List Bytes} (p : Bytes) (h : Padded got sent) : Padded (got ++ [p]) (sent ++ [p])
  | zeros {got sent : List Bytes} (h : Padded got sent) : Padded (got ++ [List.replicate 64 0]) sent

end VF.Spec.Stack
