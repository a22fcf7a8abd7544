import Verif.Proofs.HidTransaction

/-! # Lemmas about the CTAPHID server -/

namespace VF.Hid

open Util Spec.Ctaphid

variable {W : Type}

/-- the world with the transaction of one channel replaced -/
def World.setTx (w : World W) (cid : UInt32) (tx : Option Transaction) : World W :=
  { w with channels := fun c => if c = cid then some ⟨cid, tx⟩ else w.channels c }

/-- the world with reports sent -/
def World.send (w : World W) (packets : List Bytes) : World W :=
  if w.handlerSet then { w with out := w.out ++ packets } else w

/-- the world with a new channel -/
def World.alloc (w : World W) : World W :=
  { w with
    maxChannelID := w.maxChannelID + 1
    channels := fun c => if c = w.maxChannelID + 1 then some ⟨w.maxChannelID + 1, none⟩
      else w.channels c }

@[simp] theorem setTx_setTx (w : World W) (cid : UInt32) (a b : Option Transaction) :
    (w.setTx cid a).setTx cid b = w.setTx cid b := by
  unfold World.setTx
  congr 1
  funext c
  by_cases h : c = cid <;> simp [h]

@[simp] theorem send_channels (w : World W) (ps : List Bytes) : (w.send ps).channels = w.channels := by
  unfold World.send; split <;> rfl
@[simp] theorem send_max (w : World W) (ps : List Bytes) :
    (w.send ps).maxChannelID = w.maxChannelID := by
  unfold World.send; split <;> rfl
@[simp] theorem send_finalized (w : World W) (ps : List Bytes) :
    (w.send ps).finalized = w.finalized := by
  unfold World.send; split <;> rfl
@[simp] theorem send_handlerSet (w : World W) (ps : List Bytes) :
    (w.send ps).handlerSet = w.handlerSet := by
  unfold World.send; split <;> rfl
@[simp] theorem send_up (w : World W) (ps : List Bytes) : (w.send ps).up = w.up := by
  unfold World.send; split <;> rfl
@[simp] theorem send_cborCount (w : World W) (ps : List Bytes) :
    (w.send ps).cborCount = w.cborCount := by
  unfold World.send; split <;> rfl

@[simp] theorem setTx_out (w : World W) (cid : UInt32) (tx) : (w.setTx cid tx).out = w.out := rfl
@[simp] theorem setTx_max (w : World W) (cid : UInt32) (tx) :
    (w.setTx cid tx).maxChannelID = w.maxChannelID := rfl
@[simp] theorem setTx_finalized (w : World W) (cid : UInt32) (tx) :
    (w.setTx cid tx).finalized = w.finalized := rfl
@[simp] theorem setTx_handlerSet (w : World W) (cid : UInt32) (tx) :
    (w.setTx cid tx).handlerSet = w.handlerSet := rfl
@[simp] theorem setTx_up (w : World W) (cid : UInt32) (tx) : (w.setTx cid tx).up = w.up := rfl
@[simp] theorem setTx_cborCount (w : World W) (cid : UInt32) (tx) :
    (w.setTx cid tx).cborCount = w.cborCount := rfl
@[simp] theorem setTx_channels_self (w : World W) (cid : UInt32) (tx) :
    (w.setTx cid tx).channels cid = some ⟨cid, tx⟩ := by simp [World.setTx]
theorem setTx_channels_ne (w : World W) {cid c : UInt32} (tx) (h : c ≠ cid) :
    (w.setTx cid tx).channels c = w.channels c := by simp [World.setTx, h]

theorem sendResponsePackets_run (ps : List Bytes) (w : World W) :
    sendResponsePackets ps w = (.ok (), w.send ps) := rfl
theorem sendResponse_run (cid : UInt32) (cmd : UInt8) (p : Bytes) (w : World W) :
    sendResponse cid cmd p w = (.ok (), w.send (createResponsePackets cid cmd p)) := rfl
theorem sendError_run (cid : UInt32) (code : UInt8) (w : World W) :
    sendError cid code w = (.ok (), w.send (createResponsePackets cid cmdError [code])) := rfl
theorem setTransaction_run (cid : UInt32) (tx) (w : World W) :
    setTransaction cid tx w = (.ok (), w.setTx cid tx) := rfl
theorem newChannel_run (w : World W) : newChannel w = (.ok (w.maxChannelID + 1), w.alloc) := rfl

theorem callUpper_run {f : Go W Bytes} {w : World W} {r : Res Bytes} {u : W}
    (h : f w.up = (r, u)) : callUpper f w = (r, { w with up := u }) := by
  unfold callUpper; rw [h]

theorem sendKeepalives_run (cid : UInt32) (n : Nat) (w : World W) :
    ∃ ps, sendKeepalives cid n w = (.ok (), w.send ps) ∧
      ps = (List.replicate n (createResponsePackets cid cmdKeepalive [statusUpneeded])).flatten := by
  induction n generalizing w with
  | zero => exact ⟨[], by simp [sendKeepalives, World.send], by simp⟩
  | succ n ih =>
    obtain ⟨ps, h, hps⟩ := ih (w.send (createResponsePackets cid cmdKeepalive [statusUpneeded]))
    refine ⟨createResponsePackets cid cmdKeepalive [statusUpneeded] ++ ps, ?_, ?_⟩
    · rw [sendKeepalives, Go.run_bind_ok (sendResponse_run _ _ _ _), h]
      congr 1
      unfold World.send
      by_cases hs : w.handlerSet <;> simp [hs]
    · rw [hps]; simp [List.replicate_succ]

/-- The channel table is consistent: ids match and stored transactions are open ones. -/
def WF (w : World W) : Prop :=
  ∀ c ch, w.channels c = some ch → ch.channelId = c ∧
    ∀ t, ch.transaction = some t → ∃ window, IsOpen c window t

theorem WF_new (b : Bool) (up : W) : WF (World.new b up) := by
  intro c ch h
  simp only [World.new] at h
  split at h
  · rename_i hc
    cases h
    exact ⟨hc.symm, by simp⟩
  · cases h

/-- Handling a report on an open channel, in terms of the transaction step. -/
theorem handleMessage_open (rt : Runtime) (up : Upper W) {w : World W} {cid : UInt32}
    {m rest : Bytes} {tx : Option Transaction} (hm : readLE32 m = .ok (cid, rest))
    (hc : w.channels cid = some ⟨cid, tx⟩) :
    handleMessage rt up m w =
      match transactionStep rt tx m with
      | .panic c => (.panic c, w)
      | .ok t =>
        if t.done then
          if t.errorCode ≠ 0 then
            (.ok (), (w.send (createResponsePackets cid cmdError [t.errorCode])).setTx cid none)
          else if t.cancelled then (.ok (), w.setTx cid none)
          else match t.result with
            | none => (.panic .nilDeref, w.setTx cid (some t))
            | some result =>
              match handleFinalizedMessage rt up cid result.header result.payload
                  (w.setTx cid (some t)) with
              | (.ok _, w') => (.ok (), w'.setTx cid none)
              | (.panic c, w') => (.panic c, w')
        else (.ok (), w.setTx cid (some t)) := by
  unfold handleMessage
  rw [Go.run_bind, hm]
  simp only [Go.run_lift, Go.get_bind_run, hc]
  unfold Channel.handleMessage
  rw [Go.run_bind]
  simp only [Go.run_lift]
  rcases transactionStep rt tx m with t | c
  · simp only
    rw [Go.run_bind_ok (setTransaction_run _ _ _)]
    by_cases hd : t.done
    · simp only [hd, if_true]
      by_cases he : t.errorCode = 0
      · simp only [he, ne_eq, not_true_eq_false, if_false]
        by_cases hcn : t.cancelled
        · simp only [hcn, if_true, Bool.not_true, Bool.false_eq_true, if_false,
            setTransaction_run, setTx_setTx]
        · simp only [hcn, Bool.not_false, if_true, Bool.false_eq_true, if_false]
          cases hr : t.result with
          | none => simp
          | some r =>
            simp only
            rw [Go.run_bind]
            rcases handleFinalizedMessage rt up cid r.header r.payload (w.setTx cid (some t)) with
              ⟨a | c, w'⟩ <;> simp [setTransaction_run]
      · simp only [he, ne_eq, not_false_eq_true, if_true]
        rw [Go.run_bind_ok (sendError_run _ _ _), setTransaction_run]
        congr 1
        unfold World.send World.setTx
        by_cases hs : w.handlerSet <;> simp [hs] <;> funext c <;>
          by_cases hcc : c = cid <;> simp [hcc]
    · simp [hd]
  · simp

theorem handleMessage_unknown (rt : Runtime) (up : Upper W) {w : World W} {cid : UInt32}
    {m rest : Bytes} (hm : readLE32 m = .ok (cid, rest)) (hc : w.channels cid = none) :
    handleMessage rt up m w =
      (.ok (), w.send (createResponsePackets cid cmdError [errInvalidChannel])) := by
  unfold handleMessage
  rw [Go.run_bind, hm]
  simp only [Go.run_lift, Go.get_bind_run, hc, sendError_run]

theorem handleMessage_short (rt : Runtime) (up : Upper W) {w : World W} {m : Bytes} {c : Cause}
    (hm : readLE32 m = .panic c) : handleMessage rt up m w = (.panic c, w) := by
  unfold handleMessage
  rw [Go.run_bind, hm]
  simp

/-- What may happen to the server state when a request is acted on. -/
structure FinalizedEffect (cid : UInt32) (header : Header) (payload : Bytes)
    (w w' : World W) : Prop where
  finalized : w'.finalized = w.finalized ++ [(header.channelID, header.command, payload)]
  handlerSet : w'.handlerSet = w.handlerSet
  table : (w'.channels = w.channels ∧ w'.maxChannelID = w.maxChannelID) ∨
    (cid = broadcastChannel ∧ header.command = cmdInit ∧
      w'.channels = w.alloc.channels ∧ w'.maxChannelID = w.maxChannelID + 1)

theorem handleFinalizedMessage_effect (rt : Runtime) (up : Upper W) (cid : UInt32) (header : Header)
    (payload : Slice) (w : World W) :
    FinalizedEffect cid header payload.data w
      (handleFinalizedMessage rt up cid header payload w).2 := by
  unfold handleFinalizedMessage
  rw [Go.modify_bind_run]
  generalize hw1 : ({ w with finalized := w.finalized ++
    [(header.channelID, header.command, payload.data)] } : World W) = w1
  have e1 : w1.finalized = w.finalized ++ [(header.channelID, header.command, payload.data)] := by
    rw [← hw1]
  have e2 : w1.handlerSet = w.handlerSet := by rw [← hw1]
  have e3 : w1.channels = w.channels := by rw [← hw1]
  have e4 : w1.maxChannelID = w.maxChannelID := by rw [← hw1]
  by_cases hb : cid = broadcastChannel
  · simp only [hb, if_true]
    unfold handleBroadcastMessage
    by_cases hi : header.command = cmdInit
    · simp only [hi, if_true]
      rw [Go.run_bind_ok (newChannel_run _)]
      rw [Go.run_bind]
      simp only [Go.run_lift]
      rcases payload.upTo 8 with n | c
      · refine ⟨?_, ?_, .inr ⟨rfl, hi, ?_, ?_⟩⟩ <;>
          simp [sendResponse_run, World.alloc, e1, e2, e3, e4, hi]
      · refine ⟨?_, ?_, .inr ⟨rfl, hi, ?_, ?_⟩⟩ <;>
          simp [World.alloc, e1, e2, e3, e4, hi]
    · simp only [hi, if_false]
      by_cases hp : header.command = cmdPing
      · simp only [hp, if_true]
        refine ⟨?_, ?_, .inl ⟨?_, ?_⟩⟩ <;> simp [sendResponse_run, e1, e2, e3, e4, hp]
      · simp only [hp, if_false]
        refine ⟨?_, ?_, .inl ⟨?_, ?_⟩⟩ <;> simp [e1, e2, e3, e4]
  · simp only [hb, if_false]
    unfold handleDataMessage
    by_cases hmsg : header.command = cmdMsg
    · simp only [hmsg, if_true]
      rcases hu : up.u2f payload.data w1.up with ⟨r, u⟩
      rw [Go.run_bind, callUpper_run hu]
      cases r <;>
        refine ⟨?_, ?_, .inl ⟨?_, ?_⟩⟩ <;>
        simp [sendResponse_run, e1, e2, e3, e4, hmsg]
    · simp only [hmsg, if_false]
      by_cases hcb : header.command = cmdCBOR
      · simp only [hcb, if_true, Go.get_bind_run, Go.modify_bind_run]
        obtain ⟨ps, hk, -⟩ := sendKeepalives_run (W := W) cid (rt.keepalives w1.cborCount)
          { w1 with cborCount := w1.cborCount + 1 }
        rcases hu : up.ctap payload.data w1.up with ⟨r, u⟩
        rw [Go.run_bind_ok hk, Go.run_bind, callUpper_run (by simpa using hu)]
        cases r <;>
          refine ⟨?_, ?_, .inl ⟨?_, ?_⟩⟩ <;>
          simp [sendResponse_run, e1, e2, e3, e4, hcb]
      · simp only [hcb, if_false]
        by_cases hp : header.command = cmdPing
        · simp only [hp, if_true]
          refine ⟨?_, ?_, .inl ⟨?_, ?_⟩⟩ <;> simp [sendResponse_run, e1, e2, e3, e4, hp]
        · simp only [hp, if_false]
          refine ⟨?_, ?_, .inl ⟨?_, ?_⟩⟩ <;> simp [e1, e2, e3, e4]

end VF.Hid
