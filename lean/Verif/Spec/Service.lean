import Verif.Spec.Ctaphid

/-!
# What a host sees of an authenticator behind CTAPHID

Independent of the model: the messages a host reads from the reports of a channel, and which requests
are in the reports it sent.
-/

namespace VF.Spec.Service

open Spec.Ctaphid

/-- How many continuation packets follow an initialization packet: 57 bytes are in the initialization
packet, 59 in each further one. -/
def further : Bytes → Nat
  | _ :: _ :: _ :: _ :: _ :: l1 :: l0 :: _ => (l1.toNat * 256 + l0.toNat - 57 + 58) / 59
  | _ => 0

/-- The messages (command and payload) in the reports of one channel, read one after the other; `n` bounds how many. -/
def readMessages : (n : Nat) → List Bytes → List (UInt8 × Bytes)
  | 0, _ => []
  | _ + 1, [] => []
  | n + 1, p :: ps =>
    match hostRead (p :: ps.take (further p)) with
    | none => []
    | some (_, cmd, payload) => (cmd, payload) :: readMessages n (ps.drop (further p))

/-- All messages in the reports of one channel. -/
def messages (ps : List Bytes) : List (UInt8 × Bytes) := readMessages ps.length ps

/-- Commands for the authenticator: CTAPHID_CBOR for CTAP2, CTAPHID_MSG for U2F. -/
def forAuthenticator (cmd : UInt8) : Bool := cmd == 0x90 || cmd == 0x83

/-- The authenticator's answers in the reports of one channel. -/
def answers (ps : List Bytes) : List (UInt8 × Bytes) := (messages ps).filter fun m => forAuthenticator m.1

/-- In the reports of channel `cid` there are these requests, one after the other and no report in two
of them; other reports may come before, after and between them. -/
inductive Carries (cid : UInt32) : (reports : List Bytes) → (requests : List (UInt8 × Bytes)) → Prop
  | nil : Carries cid [] []
  | other {reports requests} (p : Bytes) (h : Carries cid reports requests) :
      Carries cid (reports ++ [p]) requests
  | request {reports requests} (window : List Bytes) (cmd : UInt8) (payload : Bytes)
      (h : Carries cid reports requests) (hw : IsFragmentation cid cmd payload window) :
      Carries cid (reports ++ window) (requests ++ [(cmd, payload)])

/-- Commands with which a request can begin: the top bit is set, and it is not CTAPHID_CANCEL. -/
def Begins (cmd : UInt8) : Prop := 128 ≤ cmd.toNat ∧ cmd ≠ 0x91

/-- The reports are those of a request that is not complete: an initialization packet and
continuation packets numbered 0,1,2,... (at most 128) with less data than announced. -/
def IsBeginning (cid : UInt32) (pkts : List Bytes) : Prop :=
  ∃ (cmd : UInt8) (len : Nat) (d0 : Bytes) (ds : List Bytes), Begins cmd ∧ len < 65536 ∧ ds.length ≤ 128 ∧
    pkts = initPacket cid cmd len d0 :: contPackets cid 0 ds ∧ (d0 ++ ds.flatten).length < len

/-- The requests in the reports of channel `cid`, and the reports at the end that belong to a request that is not complete.
Every report continues the request that is not complete, or completes it, or else belongs to nothing, and ends
this request too. -/
inductive Heard (cid : UInt32) : (reports : List Bytes) → (requests : List (UInt8 × Bytes)) → (window : List Bytes) → Prop
  | nil : Heard cid [] [] []
  | begun {reports requests window} (p : Bytes) (h : Heard cid reports requests window)
      (hb : IsBeginning cid (window ++ [p])) : Heard cid (reports ++ [p]) requests (window ++ [p])
  | request {reports requests window} (p : Bytes) (cmd : UInt8) (payload : Bytes)
      (h : Heard cid reports requests window) (hc : Begins cmd)
      (hw : IsFragmentation cid cmd payload (window ++ [p])) :
      Heard cid (reports ++ [p]) (requests ++ [(cmd, payload)]) []
  | nothing {reports requests window} (p : Bytes) (h : Heard cid reports requests window)
      (hb : ¬ IsBeginning cid (window ++ [p]))
      (hw : ∀ cmd payload, Begins cmd → ¬ IsFragmentation cid cmd payload (window ++ [p])) :
      Heard cid (reports ++ [p]) requests []

end VF.Spec.Service
