import Verif.Proofs.HidComplete

/-! # What acting on one request does, case by case -/

namespace VF.Hid

open Util Spec.Ctaphid

variable {W : Type}

/-- the world with one more request acted on -/
def World.act (w : World W) (e : UInt32 × UInt8 × Bytes) : World W :=
  { w with finalized := w.finalized ++ [e] }

@[simp] theorem act_out (w : World W) (e) : (w.act e).out = w.out := rfl
@[simp] theorem act_finalized (w : World W) (e) : (w.act e).finalized = w.finalized ++ [e] := rfl
@[simp] theorem act_channels (w : World W) (e) : (w.act e).channels = w.channels := rfl
@[simp] theorem act_max (w : World W) (e) : (w.act e).maxChannelID = w.maxChannelID := rfl
@[simp] theorem act_handlerSet (w : World W) (e) : (w.act e).handlerSet = w.handlerSet := rfl
@[simp] theorem act_up (w : World W) (e) : (w.act e).up = w.up := rfl
@[simp] theorem act_cborCount (w : World W) (e) : (w.act e).cborCount = w.cborCount := rfl

/-- the world with another upper-layer state -/
def World.withUp (w : World W) (u : W) : World W := { w with up := u }
/-- the world with one more CBOR request counted -/
def World.count (w : World W) : World W := { w with cborCount := w.cborCount + 1 }

@[simp] theorem withUp_out (w : World W) (e) : (w.withUp e).out = w.out := rfl
@[simp] theorem withUp_finalized (w : World W) (e) : (w.withUp e).finalized = w.finalized := rfl
@[simp] theorem withUp_channels (w : World W) (e) : (w.withUp e).channels = w.channels := rfl
@[simp] theorem withUp_max (w : World W) (e) : (w.withUp e).maxChannelID = w.maxChannelID := rfl
@[simp] theorem withUp_handlerSet (w : World W) (e) : (w.withUp e).handlerSet = w.handlerSet := rfl
@[simp] theorem withUp_up (w : World W) (e) : (w.withUp e).up = e := rfl
@[simp] theorem count_out (w : World W) : w.count.out = w.out := rfl
@[simp] theorem count_finalized (w : World W) : w.count.finalized = w.finalized := rfl
@[simp] theorem count_channels (w : World W) : w.count.channels = w.channels := rfl
@[simp] theorem count_max (w : World W) : w.count.maxChannelID = w.maxChannelID := rfl
@[simp] theorem count_handlerSet (w : World W) : w.count.handlerSet = w.handlerSet := rfl
@[simp] theorem count_up (w : World W) : w.count.up = w.up := rfl

/-- The keepalive reports before the n-th CBOR answer. -/
def keepalivePackets (rt : Runtime) (cid : UInt32) (n : Nat) : List Bytes :=
  (List.replicate (rt.keepalives n) (createResponsePackets cid cmdKeepalive [statusUpneeded])).flatten

theorem fin_msg (rt : Runtime) (up : Upper W) {cid : UInt32} {cmd : UInt8} {len : UInt16}
    (sl : Slice) (w : World W) (hb : cid ≠ broadcastChannel) (hcmd : cmd = cmdMsg) :
    handleFinalizedMessage rt up cid ⟨cid, cmd, len⟩ sl w =
      match up.u2f sl.data w.up with
      | (.ok resp, u) => (.ok (), ((w.act (cid, cmd, sl.data)).withUp u).send
          (createResponsePackets cid cmdMsg resp))
      | (.panic c, u) => (.panic c, (w.act (cid, cmd, sl.data)).withUp u) := by
  subst hcmd
  unfold handleFinalizedMessage
  rw [Go.modify_bind_run]
  simp only [hb, if_false]
  unfold handleDataMessage
  simp only [if_true]
  change (callUpper (up.u2f sl.data) >>= fun response =>
    sendResponse cid cmdMsg response) (w.act (cid, cmdMsg, sl.data)) = _
  rcases hu : up.u2f sl.data w.up with ⟨r, u⟩
  have hu' : up.u2f sl.data (w.act (cid, cmdMsg, sl.data)).up = (r, u) := hu
  rw [Go.run_bind, callUpper_run hu']
  cases r <;> rfl

theorem fin_cbor (rt : Runtime) (up : Upper W) {cid : UInt32} {cmd : UInt8} {len : UInt16}
    (sl : Slice) (w : World W) (hb : cid ≠ broadcastChannel) (hcmd : cmd = cmdCBOR) :
    handleFinalizedMessage rt up cid ⟨cid, cmd, len⟩ sl w =
      match up.ctap sl.data w.up with
      | (.ok resp, u) => (.ok (), ((((w.act (cid, cmd, sl.data)).count).send
          (keepalivePackets rt cid w.cborCount)).withUp u).send (createResponsePackets cid cmdCBOR resp))
      | (.panic c, u) => (.panic c, (((w.act (cid, cmd, sl.data)).count).send
          (keepalivePackets rt cid w.cborCount)).withUp u) := by
  subst hcmd
  have hne : cmdCBOR ≠ cmdMsg := by decide
  unfold handleFinalizedMessage
  rw [Go.modify_bind_run]
  simp only [hb, if_false]
  unfold handleDataMessage
  simp only [hne, if_false, if_true, Go.get_bind_run, Go.modify_bind_run]
  obtain ⟨ps, hk, hps⟩ := sendKeepalives_run (W := W) cid (rt.keepalives w.cborCount)
    (w.act (cid, cmdCBOR, sl.data)).count
  change (sendKeepalives cid (rt.keepalives w.cborCount) >>= fun _ =>
    callUpper (up.ctap sl.data) >>= fun response =>
      sendResponse cid cmdCBOR response) (w.act (cid, cmdCBOR, sl.data)).count = _
  rw [Go.run_bind_ok hk]
  rcases hu : up.ctap sl.data w.up with ⟨r, u⟩
  have hu' : up.ctap sl.data ((w.act (cid, cmdCBOR, sl.data)).count.send ps).up = (r, u) := by
    simpa using hu
  rw [Go.run_bind, callUpper_run hu']
  subst hps
  cases r <;> rfl

theorem fin_ping (rt : Runtime) (up : Upper W) {cid : UInt32} {cmd : UInt8} {len : UInt16}
    (sl : Slice) (w : World W) (hcmd : cmd = cmdPing) :
    handleFinalizedMessage rt up cid ⟨cid, cmd, len⟩ sl w =
      (.ok (), (w.act (cid, cmd, sl.data)).send (createResponsePackets cid cmdPing sl.data)) := by
  subst hcmd
  have h1 : cmdPing ≠ cmdMsg := by decide
  have h2 : cmdPing ≠ cmdCBOR := by decide
  have h3 : cmdPing ≠ cmdInit := by decide
  unfold handleFinalizedMessage
  rw [Go.modify_bind_run]
  by_cases hb : cid = broadcastChannel
  · subst hb
    simp only [if_true]
    unfold handleBroadcastMessage
    simp only [h3, if_false, if_true]
    rfl
  · simp only [hb, if_false]
    unfold handleDataMessage
    simp only [h1, h2, if_false, if_true]
    rfl

theorem fin_init (rt : Runtime) (up : Upper W) {cmd : UInt8} {len : UInt16}
    (sl : Slice) (w : World W) (hcmd : cmd = cmdInit) :
    handleFinalizedMessage rt up broadcastChannel ⟨broadcastChannel, cmd, len⟩ sl w =
      match sl.upTo 8 with
      | .ok n => (.ok (), ((w.act (broadcastChannel, cmd, sl.data)).alloc).send
          (createResponsePackets broadcastChannel cmdInit
            (pad n.data 8 ++ toLE32 (w.maxChannelID + 1) ++ [2, 0, 0, 1, capabilityCBOR])))
      | .panic c => (.panic c, (w.act (broadcastChannel, cmd, sl.data)).alloc) := by
  subst hcmd
  unfold handleFinalizedMessage
  rw [Go.modify_bind_run]
  simp only [if_true]
  unfold handleBroadcastMessage
  simp only [if_true]
  rw [Go.run_bind_ok (newChannel_run _), Go.run_bind]
  rcases sl.upTo 8 with n | c <;> rfl

/-- The commands acted on without an explicit panic. -/
def Supported (cid : UInt32) (cmd : UInt8) : Prop :=
  if cid = broadcastChannel then cmd = cmdInit ∨ cmd = cmdPing
  else cmd = cmdMsg ∨ cmd = cmdCBOR ∨ cmd = cmdPing

theorem fin_unsupported (rt : Runtime) (up : Upper W) {cid : UInt32} {cmd : UInt8} {len : UInt16}
    (sl : Slice) (w : World W) (h : ¬ Supported cid cmd) :
    handleFinalizedMessage rt up cid ⟨cid, cmd, len⟩ sl w =
      (.panic .explicit, w.act (cid, cmd, sl.data)) := by
  unfold Supported at h
  unfold handleFinalizedMessage
  rw [Go.modify_bind_run]
  by_cases hb : cid = broadcastChannel
  · simp only [hb, if_true, not_or] at h ⊢
    unfold handleBroadcastMessage
    simp only [h.1, h.2, if_false]
    rfl
  · simp only [hb, if_false, not_or] at h ⊢
    unfold handleDataMessage
    simp only [h.1, h.2.1, h.2.2, if_false]
    rfl

theorem send_out_unset (w : World W) (ps : List Bytes) (h : w.handlerSet = false) :
    (w.send ps).out = w.out := by simp [World.send, h]

theorem send_out_set (w : World W) (ps : List Bytes) (h : w.handlerSet = true) :
    (w.send ps).out = w.out ++ ps := by simp [World.send, h]

/-- Without a response handler nothing is sent. -/
theorem fin_out_unset (rt : Runtime) (up : Upper W) (cid : UInt32) (cmd : UInt8) (len : UInt16)
    (sl : Slice) (w : World W) (h : w.handlerSet = false) :
    (handleFinalizedMessage rt up cid ⟨cid, cmd, len⟩ sl w).2.out = w.out := by
  by_cases hsup : Supported cid cmd
  · unfold Supported at hsup
    by_cases hb : cid = broadcastChannel
    · subst hb
      simp only [if_true] at hsup
      rcases hsup with hi | hi
      · rw [fin_init rt up _ _ hi]
        rcases sl.upTo 8 with n | c <;> simp [World.alloc, World.send, h]
      · rw [fin_ping rt up _ _ hi]; simp [World.send, h]
    · simp only [hb, if_false] at hsup
      rcases hsup with hi | hi | hi
      · rw [fin_msg rt up _ _ hb hi]
        rcases up.u2f sl.data w.up with ⟨r, u⟩
        cases r <;> simp [World.send, h]
      · rw [fin_cbor rt up _ _ hb hi]
        rcases up.ctap sl.data w.up with ⟨r, u⟩
        cases r <;> simp [World.send, h]
      · rw [fin_ping rt up _ _ hi]; simp [World.send, h]
  · rw [fin_unsupported rt up _ _ hsup]; simp

theorem createResponsePackets_single (cid : UInt32) (cmd : UInt8) (p : Bytes) (h0 : p ≠ [])
    (h : p.length ≤ 57) :
    createResponsePackets cid cmd p = [le32 cid ++ [cmd] ++ be16 (UInt16.ofNat p.length) ++ p ++
          List.replicate (57 - p.length) 0] := by
  have hpos := List.length_pos_iff.mpr h0
  obtain ⟨fuel, hf⟩ : ∃ fuel, p.length = fuel + 1 := ⟨p.length - 1, by omega⟩
  have := responseLoop_init cid cmd fuel p h0
  rw [List.drop_eq_nil_of_le h, responseLoop_nil, List.take_of_length_le h] at this
  unfold createResponsePackets
  rw [hf, this, hf]

end VF.Hid
