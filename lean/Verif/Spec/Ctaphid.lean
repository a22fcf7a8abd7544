import Verif.Base.Bytes

/-!
# CTAPHID framing, from the CTAP specification (section "CTAPHID packets and messages")

Independent of the model: what a conforming host sends and how it reads answers.
-/

namespace VF.Spec.Ctaphid

/-- One initialization packet: channel (little-endian, as this device numbers channels in memory
order), command with the top bit set, 2-byte big-endian length, data. -/
def initPacket (cid : UInt32) (cmd : UInt8) (len : Nat) (data : Bytes) : Bytes :=
  le32 cid ++ [cmd] ++ be16 (UInt16.ofNat len) ++ data

/-- One continuation packet: channel, sequence number 0..127, data. -/
def contPacket (cid : UInt32) (seq : Nat) (data : Bytes) : Bytes :=
  le32 cid ++ [UInt8.ofNat seq] ++ data

/-- The continuation packets for data chunks, numbered from `seq`. -/
def contPackets (cid : UInt32) (seq : Nat) : List Bytes → List Bytes
  | [] => []
  | d :: ds => contPacket cid seq d :: contPackets cid (seq + 1) ds

/-- `pkts` is a fragmentation of the request `(cid, cmd, payload)`: an initialization packet and
continuation packets numbered 0,1,2,... (at most 128) whose data, cut to the announced length, is
the payload, and which stops at the first packet completing it. -/
def IsFragmentation (cid : UInt32) (cmd : UInt8) (payload : Bytes) (pkts : List Bytes) : Prop :=
  ∃ (d0 : Bytes) (ds : List Bytes),
    pkts = initPacket cid cmd payload.length d0 :: contPackets cid 0 ds ∧
    payload.length < 65536 ∧
    ds.length ≤ 128 ∧
    payload = (d0 ++ ds.flatten).take payload.length ∧
    payload.length ≤ (d0 ++ ds.flatten).length ∧
    (ds ≠ [] → (d0 ++ ds.dropLast.flatten).length < payload.length)

/-- The chunks of at most `n` bytes a host cuts data into (`n > 0`). -/
def chunks (n : Nat) (fuel : Nat) (data : Bytes) : List Bytes :=
  match fuel with
  | 0 => []
  | fuel + 1 =>
    if data = [] then [] else data.take n :: chunks n fuel (data.drop n)

/-- The packets a conforming host sends for a request over 64-byte reports: 57 bytes in the first,
59 in each following one.  `padding` fills up the last report (the host may send anything there). -/
def hostPackets (cid : UInt32) (cmd : UInt8) (payload padding : Bytes) : List Bytes :=
  let rest := chunks 59 payload.length (payload.drop 57)
  match rest.getLast? with
  | none => [initPacket cid cmd payload.length (payload.take 57 ++ padding)]
  | some l => initPacket cid cmd payload.length (payload.take 57) ::
      contPackets cid 0 (rest.dropLast ++ [l ++ padding])

/-- Read the continuation packets of one message until `need` bytes have been collected. -/
def readConts (cid : UInt32) (need : Nat) : Nat → Bytes → List Bytes → Option Bytes
  | _, acc, [] => if need ≤ acc.length then some (acc.take need) else none
  | seq, acc, p :: ps =>
    if acc.length < need ∧ seq < 128 ∧ p.length = 64 ∧ p.take 5 = le32 cid ++ [UInt8.ofNat seq] then
      readConts cid need (seq + 1) (acc ++ p.drop 5) ps
    else none

/-- What a conforming host reads from the reports of one message: every report has 64 bytes, the
first is an initialization packet, the others are continuation packets of the same channel
numbered 0,1,2,..., and there are just as many as the announced length needs. -/
def hostRead : List Bytes → Option (UInt32 × UInt8 × Bytes)
  | [] => none
  | p :: ps =>
    match p with
    | c0 :: c1 :: c2 :: c3 :: cmd :: l1 :: l0 :: data =>
      if p.length = 64 ∧ 128 ≤ cmd.toNat then
        let cid := ofLe32 c0 c1 c2 c3
        (readConts cid (l1.toNat * 256 + l0.toNat) 0 data ps).map fun payload => (cid, cmd, payload)
      else none
    | _ => none

/-- The channel a report is addressed to. -/
def channelOf : Bytes → Option UInt32
  | c0 :: c1 :: c2 :: c3 :: _ => some (ofLe32 c0 c1 c2 c3)
  | _ => none

/-- The command byte (or sequence number) of a report. -/
def commandOf : Bytes → Option UInt8
  | _ :: _ :: _ :: _ :: c :: _ => some c
  | _ => none

/-- The 64-byte INIT answer: broadcast channel, INIT, 17 bytes (the host's nonce, the new channel,
protocol version 2, device version 0.0.1, CBOR capability), zero padding. -/
def initAnswer (nonce : Bytes) (id : UInt32) : Bytes :=
  [0xFF, 0xFF, 0xFF, 0xFF, 0x86, 0, 17] ++ nonce ++ le32 id ++ [2, 0, 0, 1, 4] ++ List.replicate 40 0

end VF.Spec.Ctaphid
