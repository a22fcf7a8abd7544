import Verif.Proofs.HidAct

/-!
# CTAPHID requests (C01, C03, C06, C08, C09, C10, C11) and responses (C02, C13)

`World W` is the device at the HID layer: `out` is what it has sent to the host, `finalized` the
requests it has acted on, `up` the state of the CTAP2 and U2F layers above.
`handleAll` feeds a history of reports.
-/

namespace VF

open Hid Spec.Ctaphid

variable {W : Type}

/-- A state the device can be in after some history of reports. -/
def Hid.Reachable (rt : Runtime) (up : Upper W) (w : World W) : Prop :=
  ∃ handlerSet u hist, handleAll rt up hist (World.new handlerSet u) = (.ok (), w)

theorem Hid.Reachable.wf {rt : Runtime} {up : Upper W} {w : World W} (h : Reachable rt up w) : WF w := by
  obtain ⟨b, u, hist, h⟩ := h
  exact WF_run rt up hist (WF_new b u) h

/-- Channel `cid` is allocated. -/
def Hid.Open (w : World W) (cid : UInt32) : Prop := w.channels cid ≠ none
/-- Channel `cid` is allocated and no request is in progress on it. -/
def Hid.Idle (w : World W) (cid : UInt32) : Prop := w.channels cid = some ⟨cid, none⟩

theorem Hid.Reachable.open {rt : Runtime} {up : Upper W} {w : World W} (h : Reachable rt up w)
    {cid : UInt32} (ho : Open w cid) : ∃ tx, w.channels cid = some ⟨cid, tx⟩ := by
  rcases hc : w.channels cid with _ | ⟨c, tx⟩
  · exact absurd hc ho
  · have := (h.wf _ _ hc).1
    simp only at this
    exact ⟨tx, by rw [this]⟩

/-- A device used in the examples: the upper layers count requests and answer with their payload. -/
def demoUp : Upper Nat where
  ctap p := do Go.modify (· + 1); return p
  u2f p := do Go.modify (· + 100); return p
def demoRt : Runtime := ⟨fun _ _ => 8, fun _ => 1⟩
/-- The device after one INIT. -/
def demoW : World Nat := (handleAll demoRt demoUp
  (hostPackets 0xFFFFFFFF 0x86 [1,2,3,4,5,6,7,8] (List.replicate 49 0)) (World.new true 0)).2

theorem demoW_reachable : Reachable demoRt demoUp demoW :=
  ⟨true, 0, hostPackets 0xFFFFFFFF 0x86 [1,2,3,4,5,6,7,8] (List.replicate 49 0), rfl⟩
theorem demoW_idle1 : Idle demoW 1 := rfl
theorem demoW_idleB : Idle demoW 0xFFFFFFFF := rfl

/-! ## C01 -/

/-- Reports completing a request on an idle channel: nothing is sent and nothing happens above
before the last report; with the last report exactly this request is acted on, once, and the CTAP2
or U2F layer above is run on exactly its payload. -/
theorem C01_reassembly (rt : Runtime) (up : Upper W) (w : World W) (cid : UInt32) (cmd : UInt8)
    (payload : Bytes) (pkts : List Bytes) (hidle : Idle w cid) (hcmd : 128 ≤ cmd.toNat)
    (hcancel : cmd ≠ 0x91) (hfrag : IsFragmentation cid cmd payload pkts) :
    (∀ pre suf, pkts = pre ++ suf → suf ≠ [] → ∃ w1, handleAll rt up pre w = (.ok (), w1) ∧
      w1.out = w.out ∧ w1.finalized = w.finalized ∧ w1.up = w.up) ∧
    (handleAll rt up pkts w).2.finalized = w.finalized ++ [(cid, cmd, payload)] ∧
    (cid ≠ 0xFFFFFFFF → cmd = 0x83 →
      (handleAll rt up pkts w).2.up = (up.u2f payload w.up).2) ∧
    (cid ≠ 0xFFFFFFFF → cmd = 0x90 →
      (handleAll rt up pkts w).2.up = (up.ctap payload w.up).2) := by
  refine ⟨?_, ?_, ?_, ?_⟩
  · intro pre suf hp hs
    obtain ⟨tx, hrun⟩ := run_silent rt up hidle hcmd hcancel hfrag hp hs
    exact ⟨_, hrun, rfl, rfl, rfl⟩
  · obtain ⟨t, sp, hrun⟩ := run_complete rt up hidle hcmd hcancel hfrag
    rw [hrun]
    have := (handleFinalizedMessage_effect rt up cid ⟨cid, cmd, UInt16.ofNat payload.length⟩
      ⟨payload, sp⟩ (w.setTx cid (some t))).finalized
    revert this
    generalize handleFinalizedMessage rt up cid ⟨cid, cmd, UInt16.ofNat payload.length⟩
      ⟨payload, sp⟩ (w.setTx cid (some t)) = p
    obtain ⟨r, w0⟩ := p
    cases r <;> (intro h; simpa using h)
  · intro hb hc
    obtain ⟨t, sp, hrun⟩ := run_complete rt up hidle hcmd hcancel hfrag
    rw [hrun, fin_msg rt up _ _ hb hc]
    have e : (w.setTx cid (some t)).up = w.up := rfl
    rw [e]
    rcases up.u2f payload w.up with ⟨r, u⟩
    cases r <;> simp
  · intro hb hc
    obtain ⟨t, sp, hrun⟩ := run_complete rt up hidle hcmd hcancel hfrag
    rw [hrun, fin_cbor rt up _ _ hb hc]
    have e : (w.setTx cid (some t)).up = w.up := rfl
    rw [e]
    rcases up.ctap payload w.up with ⟨r, u⟩
    cases r <;> simp

/-- The reports of a conforming host (57 bytes of payload in the first report, 59 in each further
one, any padding at the end) are such a fragmentation, up to the 7609 bytes CTAPHID can carry. -/
theorem C01_host_packets (cid : UInt32) (cmd : UInt8) (payload padding : Bytes)
    (hlen : payload.length ≤ 7609) :
    IsFragmentation cid cmd payload (hostPackets cid cmd payload padding) :=
  hostPackets_isFragmentation cid cmd payload padding hlen

/-- A 100-byte CBOR request on channel 1, in two reports. -/
example : (handleAll demoRt demoUp (hostPackets 1 0x90 (List.replicate 100 7) [9, 9]) demoW).2.up = 1 ∧
    (hostPackets 1 0x90 (List.replicate 100 7) [9, 9]).length = 2 := by
  have h := C01_reassembly demoRt demoUp demoW 1 0x90 (List.replicate 100 7)
    (hostPackets 1 0x90 (List.replicate 100 7) [9, 9]) demoW_idle1 (by decide) (by decide)
    (C01_host_packets _ _ _ _ (by decide))
  exact ⟨h.2.2.2 (by decide) rfl, rfl⟩

/-! ## C02 -/

/-- Every response of 1..7609 bytes consists of 64-byte reports which a conforming host reads as
exactly this channel, command and payload. -/
theorem C02_response_framing (cid : UInt32) (cmd : UInt8) (payload : Bytes)
    (hcmd : 128 ≤ cmd.toNat) (h0 : payload ≠ []) (hlen : payload.length ≤ 7609) (w : World W)
    (hset : w.handlerSet = true) :
    ∃ pkts w', sendResponse cid cmd payload w = (.ok (), w') ∧ w'.out = w.out ++ pkts ∧
      (∀ p ∈ pkts, p.length = 64) ∧ hostRead pkts = some (cid, cmd, payload) := by
  refine ⟨createResponsePackets cid cmd payload, _, sendResponse_run _ _ _ _, ?_, ?_,
    hostRead_createResponsePackets cid cmd payload hcmd h0 hlen⟩
  · simp [World.send, hset]
  · exact responseLoop_length _ _ _ _ _

example : hostRead (createResponsePackets 5 0x90 (List.replicate 200 3)) =
    some (5, 0x90, List.replicate 200 3) := by decide +kernel

/-! ## C03 -/

/-- After every history of arbitrary reports: handling one more report either acts on nothing, or
acts on exactly one request, and then the most recent reports of that channel (ending with this
one) are an in-sequence fragmentation of exactly this request. -/
theorem C03_no_splice (rt : Runtime) (up : Upper W) (handlerSet : Bool) (u : W) (hist : List Bytes)
    (w : World W) (h : handleAll rt up hist (World.new handlerSet u) = (.ok (), w)) (m : Bytes) :
    (handleMessage rt up m w).2.finalized = w.finalized ∨
    ∃ cid cmd payload window,
      (handleMessage rt up m w).2.finalized = w.finalized ++ [(cid, cmd, payload)] ∧
      window <:+ (hist ++ [m]).filter (fun r => channelOf r = some cid) ∧
      [m] <:+ window ∧ 128 ≤ cmd.toNat ∧ cmd ≠ 0x91 ∧
      IsFragmentation cid cmd payload window := by
  have hwf := WF_run rt up hist (WF_new handlerSet u) h
  rcases step_finalized rt up m hwf with hf | ⟨cid, cmd, payload, tx, hm, hc, h128, hne, hf, hfrag⟩
  · exact .inl hf
  · right
    have hnew : ChanInv cid [] (World.new handlerSet u) := by
      intro t ht
      simp only [World.new] at ht
      split at ht <;> simp at ht
    have hci := ChanInv_run rt up hist (WF_new handlerSet u) hnew h
    simp only [List.nil_append] at hci
    have key : ∀ window, window <:+ proj cid hist →
        (tx = none ∧ window = [] ∨ ∃ t0, tx = some t0 ∧ IsOpen cid window t0) →
        ∃ cid cmd payload window,
          (handleMessage rt up m w).2.finalized = w.finalized ++ [(cid, cmd, payload)] ∧
          window <:+ (hist ++ [m]).filter (fun r => channelOf r = some cid) ∧
          [m] <:+ window ∧ 128 ≤ cmd.toNat ∧ cmd ≠ 0x91 ∧
          IsFragmentation cid cmd payload window := by
      intro window hs hw
      refine ⟨cid, cmd, payload, window ++ [m], hf, ?_, ⟨window, rfl⟩, h128, hne, hfrag window hw⟩
      have : (hist ++ [m]).filter (fun r => channelOf r = some cid) = proj cid hist ++ [m] :=
        proj_append_self hm
      rw [this]
      obtain ⟨pre, hs⟩ := hs
      exact ⟨pre, by rw [← hs, List.append_assoc]⟩
    rcases tx with _ | t
    · exact key [] (List.nil_suffix) (.inl ⟨rfl, rfl⟩)
    · obtain ⟨window, hs, ho⟩ := hci t hc
      exact key window hs (.inr ⟨t, rfl, ho⟩)

example : (handleMessage demoRt demoUp (initPacket 1 0x81 3 [1, 2, 3]) demoW).2.finalized =
    demoW.finalized ++ [(1, 0x81, [1, 2, 3])] := rfl

/-! ## C06 -/

/-- A report on a channel never allocated: one ERR_INVALID_CHANNEL (0x0B) error report on that
channel, and the device is otherwise unchanged. -/
theorem C06_unknown_channel (rt : Runtime) (up : Upper W) (w : World W) (m : Bytes) (cid : UInt32)
    (hm : channelOf m = some cid) (hc : ¬ Open w cid) (hset : w.handlerSet = true) :
    ∃ p, handleMessage rt up m w = (.ok (), { w with out := w.out ++ [p] }) ∧
      hostRead [p] = some (cid, 0xBF, [0x0B]) := by
  obtain ⟨rest, hr⟩ := channelOf_eq_iff.mp hm
  have hc' : w.channels cid = none := by simpa [Open] using hc
  have hrd := hostRead_createResponsePackets cid 0xBF [0x0B] (by decide) (by simp) (by simp)
  obtain ⟨p, hp⟩ : ∃ p, createResponsePackets cid 0xBF [0x0B] = [p] :=
    ⟨_, createResponsePackets_single cid 0xBF [0x0B] (by simp) (by simp)⟩
  refine ⟨p, ?_, by rw [← hp]; exact hrd⟩
  rw [handleMessage_unknown rt up hr hc']
  have : createResponsePackets cid cmdError [errInvalidChannel] = [p] := hp
  rw [this]
  simp [World.send, hset]

example : ¬ Open demoW 77 := fun h => h rfl
example : (handleMessage demoRt demoUp (initPacket 77 0x90 1 [4]) demoW).2.finalized = demoW.finalized := rfl

/-! ## C08 -/

/-- INIT with an 8-byte nonce on the idle broadcast channel, padded arbitrarily. -/
theorem C08_init (rt : Runtime) (up : Upper W) (w : World W) (nonce padding : Bytes)
    (hn : nonce.length = 8) (hidle : Idle w 0xFFFFFFFF) (hset : w.handlerSet = true)
    (hmax : w.maxChannelID ≠ 0xFFFFFFFE) :
    ∃ p w' id, handleMessage rt up (initPacket 0xFFFFFFFF 0x86 8 (nonce ++ padding)) w = (.ok (), w') ∧
      w'.out = w.out ++ [p] ∧ p.length = 64 ∧
      hostRead [p] = some (0xFFFFFFFF, 0x86, nonce ++ le32 id ++ [2, 0, 0, 1, 4]) ∧
      id = w.maxChannelID + 1 ∧ Idle w' id ∧ Idle w' 0xFFFFFFFF ∧ w'.up = w.up := by
  have hfr : IsFragmentation 0xFFFFFFFF 0x86 nonce
      [initPacket 0xFFFFFFFF 0x86 8 (nonce ++ padding)] :=
    ⟨nonce ++ padding, [], by simp [contPackets, hn], by omega, by simp, by simp, by simp, by simp⟩
  obtain ⟨t, sp, hrun⟩ := run_complete rt up hidle (by decide) (by decide) hfr
  rw [handleAll_single] at hrun
  have hupto : (⟨nonce, sp⟩ : Slice).upTo 8 = .ok ⟨nonce, sp⟩ := by
    unfold Slice.upTo
    simp only [hn]
    rw [if_pos (by omega)]
    simp [← hn]
  have hfin := fin_init rt up (cmd := 0x86) (len := UInt16.ofNat nonce.length) ⟨nonce, sp⟩
    (w.setTx broadcastChannel (some t)) rfl
  rw [hupto] at hfin
  simp only at hfin
  have hb : (0xFFFFFFFF : UInt32) = broadcastChannel := rfl
  rw [hb, hfin] at hrun
  simp only at hrun
  have hpad : Util.pad nonce 8 = nonce := by rw [← hn]; exact Util.pad_self _
  have hmx : (w.setTx broadcastChannel (some t)).maxChannelID = w.maxChannelID := rfl
  rw [hpad, hmx, Util.toLE32_eq] at hrun
  have hcap : capabilityCBOR = 4 := rfl
  rw [hcap] at hrun
  generalize hbody : nonce ++ le32 (w.maxChannelID + 1) ++ [2, 0, 0, 1, 4] = body at hrun ⊢
  have hbl : body.length = 17 := by simp [← hbody, hn, le32]
  obtain ⟨p, hp⟩ : ∃ p, createResponsePackets broadcastChannel cmdInit body = [p] :=
    ⟨_, createResponsePackets_single broadcastChannel cmdInit body
      (by intro h; simp [h] at hbl) (by omega)⟩
  rw [hp] at hrun
  have hrd := hostRead_createResponsePackets broadcastChannel cmdInit body (by decide)
    (by intro h; simp [h] at hbl) (by omega)
  rw [hp] at hrd
  have h64 : p.length = 64 := responseLoop_length broadcastChannel cmdInit body.length (-1) body p (by
    have : p ∈ createResponsePackets broadcastChannel cmdInit body := by simp [hp]
    exact this)
  have hid : w.maxChannelID + 1 ≠ broadcastChannel := by
    intro h
    apply hmax
    have : w.maxChannelID = broadcastChannel - 1 := by rw [← h]; simp
    rw [this]; rfl
  refine ⟨p, _, w.maxChannelID + 1, hrun, ?_, h64, by rw [hbody]; exact hrd, rfl, ?_, ?_, ?_⟩
  · simp [World.send, World.alloc, hset]
  · unfold Idle
    rw [setTx_channels_ne _ _ hid]
    simp [World.send, World.alloc, hset]
  · exact setTx_channels_self _ _ _
  · simp [World.alloc]

example : Idle (World.new true (0 : Nat)) 0xFFFFFFFF ∧
    (World.new true (0 : Nat)).maxChannelID ≠ 0xFFFFFFFE := ⟨rfl, by decide⟩

/-! ## C09 -/

/-- The PING echo for 1..7609 bytes: the full claim would include length 0, see
`C09_empty_ping_refuted`. -/
theorem C09_ping (rt : Runtime) (up : Upper W) (w : World W) (cid : UInt32) (payload : Bytes)
    (pkts : List Bytes) (hidle : Idle w cid) (hset : w.handlerSet = true) (h0 : payload ≠ [])
    (hlen : payload.length ≤ 7609) (hfrag : IsFragmentation cid 0x81 payload pkts) :
    ∃ w' answer, handleAll rt up pkts w = (.ok (), w') ∧ w'.out = w.out ++ answer ∧
      hostRead answer = some (cid, 0x81, payload) ∧ Idle w' cid ∧ w'.up = w.up := by
  obtain ⟨t, sp, hrun⟩ := run_complete rt up hidle (by decide) (by decide) hfrag
  rw [fin_ping rt up (cmd := 0x81) _ _ rfl] at hrun
  refine ⟨_, createResponsePackets cid 0x81 payload, hrun, ?_,
    hostRead_createResponsePackets cid 0x81 payload (by decide) h0 hlen, ?_, ?_⟩
  · simp only [setTx_out]
    simp [World.send, hset]
    rfl
  · exact setTx_channels_self _ _ _
  · simp

example : Idle demoW 1 ∧ demoW.handlerSet = true ∧
    IsFragmentation 1 0x81 [1, 2, 3] (hostPackets 1 0x81 [1, 2, 3] []) :=
  ⟨rfl, rfl, C01_host_packets _ _ _ _ (by decide)⟩

/-- A zero-length PING is acted on but never answered, on any idle channel. -/
theorem C09_empty_ping_refuted (rt : Runtime) (up : Upper W) (w : World W) (cid : UInt32)
    (padding : Bytes) (hidle : Idle w cid) :
    ∃ w', handleAll rt up (hostPackets cid 0x81 [] padding) w = (.ok (), w') ∧
      w'.finalized = w.finalized ++ [(cid, 0x81, [])] ∧ w'.out = w.out := by
  obtain ⟨t, sp, hrun⟩ := run_complete rt up hidle (by decide) (by decide)
    (C01_host_packets cid 0x81 [] padding (by simp))
  rw [fin_ping rt up (cmd := 0x81) _ _ rfl] at hrun
  refine ⟨_, hrun, by simp, ?_⟩
  by_cases hs : w.handlerSet <;> simp [World.send, createResponsePackets, responseLoop, hs]

/-! ## C10 -/

/-- CANCEL in any reachable state of an open channel: silent, and the channel is idle. -/
theorem C10_cancel (rt : Runtime) (up : Upper W) (w : World W) (hreach : Reachable rt up w)
    (cid : UInt32) (hopen : Open w cid) (rest : Bytes) :
    ∃ w', handleMessage rt up (le32 cid ++ [0x91] ++ rest) w = (.ok (), w') ∧
      w'.out = w.out ∧ w'.finalized = w.finalized ∧ w'.up = w.up ∧ Idle w' cid ∧
      ∀ c, c ≠ cid → w'.channels c = w.channels c := by
  obtain ⟨tx, hc⟩ := hreach.open hopen
  have hr : Util.readLE32 (le32 cid ++ [0x91] ++ rest) = .ok (cid, [0x91] ++ rest) := by
    rw [List.append_assoc]; exact Util.readLE32_le32 _ _
  have hstep : ∃ t, transactionStep rt tx (le32 cid ++ [0x91] ++ rest) = .ok t ∧ t.done = true ∧
      t.errorCode = 0 ∧ t.cancelled = true := by
    rcases tx with _ | t
    · refine ⟨({} : Transaction).cancel, ?_, rfl, rfl, rfl⟩
      simp only [transactionStep]
      unfold newTransaction
      rw [hr]
      have h80 : ¬ ((0x91 : UInt8) &&& 0x80 = 0) := by decide
      simp [Util.readLE8, cmdCancel, h80]
    · obtain ⟨window, cmd, len, d0, ds, spare, ho, -⟩ := (hreach.wf _ _ hc).2 t rfl
      obtain ⟨-, -, -, -, -, rfl⟩ := ho
      refine ⟨{ done := true, cancelled := true, errorCode := 0, result := none }, ?_, rfl, rfl, rfl⟩
      simp only [transactionStep, Transaction.addMessage]
      rw [hr]
      simp [Util.readLE8, cmdCancel, Transaction.cancel]
  obtain ⟨t, ht, hd, he, hcn⟩ := hstep
  refine ⟨w.setTx cid none, ?_, rfl, rfl, rfl, setTx_channels_self _ _ _, fun c h => setTx_channels_ne _ _ h⟩
  rw [handleMessage_open rt up hr hc, ht]
  simp [hd, he, hcn]

example : Open demoW 1 := fun h => by rw [demoW_idle1] at h; cases h

/-! ## C11 -/

/-- After a report that was answered or completed a request, the next complete request on the
channel is acted on normally; at any other time this holds after sending CANCEL first. -/
theorem C11_not_wedged (rt : Runtime) (up : Upper W) (w : World W) (hreach : Reachable rt up w)
    (cid : UInt32) (hopen : Open w cid) (cmd : UInt8) (payload : Bytes) (pkts : List Bytes)
    (hcmd : 128 ≤ cmd.toNat) (hcancel : cmd ≠ 0x91) (hfrag : IsFragmentation cid cmd payload pkts) :
    (∀ m w', channelOf m = some cid → handleMessage rt up m w = (.ok (), w') →
      (w'.out ≠ w.out ∨ w'.finalized ≠ w.finalized) →
      (handleAll rt up pkts w').2.finalized = w'.finalized ++ [(cid, cmd, payload)]) ∧
    (∀ rest, (handleAll rt up ((le32 cid ++ [0x91] ++ rest) :: pkts) w).2.finalized =
      w.finalized ++ [(cid, cmd, payload)]) := by
  constructor
  · intro m w' hm hrun hne
    have hidle : Idle w' cid := by
      have ho := handleMessage_outcome rt up m hreach.wf
      rw [hrun] at ho
      simp only at ho
      generalize hr : (Res.ok () : Res Unit) = r at ho
      have huniq : ∀ c, channelOf m = some c → c = cid := fun c h => by
        rw [hm] at h; exact (Option.some.inj h).symm
      rcases ho with ⟨c⟩ | ⟨cid', hm', hc⟩ | ⟨cid', tx, code, hm', hc, hcode⟩ |
        ⟨cid', tx, hm', hc⟩ | ⟨cid', tx, t, hm', hc, ho⟩ |
        ⟨cid', tx, t, cmd', payload', header, sl, hm', hc, h1, h2, h3, h4, h5, r, w0, hfin⟩
      · cases hr
      · have := huniq _ hm'
        subst this
        exact absurd hc hopen
      · have := huniq _ hm'
        subst this
        exact setTx_channels_self _ _ _
      · have := huniq _ hm'
        subst this
        exact setTx_channels_self _ _ _
      · simp at hne
      · have := huniq _ hm'
        subst this
        subst hr
        exact setTx_channels_self _ _ _
    exact (C01_reassembly rt up w' cid cmd payload pkts hidle hcmd hcancel hfrag).2.1
  · intro rest
    obtain ⟨w', hrun, -, hf, -, hidle, -⟩ := C10_cancel rt up w hreach cid hopen rest
    rw [handleAll_cons_ok hrun, ← hf]
    exact (C01_reassembly rt up w' cid cmd payload pkts hidle hcmd hcancel hfrag).2.1

/-- A bad continuation report on channel 1 is answered with an error; then a PING works. -/
example : ∃ w', handleMessage demoRt demoUp (contPacket 1 5 [1]) demoW = (.ok (), w') ∧
    w'.out ≠ demoW.out := ⟨_, rfl, by decide +kernel⟩

/-! ## C13 -/

/-- Sent reports come in messages; all reports of a message carry the channel of the report being
handled; the command of a message is ERROR, KEEPALIVE, or the command of the request acted on. -/
theorem C13_answers (rt : Runtime) (up : Upper W) (w : World W) (hreach : Reachable rt up w)
    (m : Bytes) :
    ∃ messages : List (List Bytes),
      (handleMessage rt up m w).2.out = w.out ++ messages.flatten ∧
      ∀ msg ∈ messages, (∀ p ∈ msg, channelOf p = channelOf m) ∧
        ∀ p cmd, msg.head? = some p → commandOf p = some cmd →
          cmd = 0xBF ∨ cmd = 0xBB ∨
          ∃ cid payload, channelOf m = some cid ∧
            (handleMessage rt up m w).2.finalized = w.finalized ++ [(cid, cmd, payload)] := by
  have hchan : ∀ cid cmd p, ∀ pkt ∈ createResponsePackets cid cmd p, channelOf pkt = some cid :=
    fun cid cmd p => responseLoop_channel cid cmd p.length (-1) p
  have hhead : ∀ cid cmd pl p c, (createResponsePackets cid cmd pl).head? = some p →
      commandOf p = some c → c = cmd := by
    intro cid cmd pl p c h hc
    by_cases hpl : pl = []
    · subst hpl; simp [createResponsePackets, responseLoop] at h
    · obtain ⟨fuel, hf⟩ : ∃ fuel, pl.length = fuel + 1 :=
        ⟨pl.length - 1, by have := List.length_pos_iff.mpr hpl; omega⟩
      unfold createResponsePackets at h
      rw [hf, responseLoop_init cid cmd fuel pl hpl] at h
      simp only [List.head?_cons, Option.some.injEq] at h
      subst h
      simp only [le32, List.cons_append, commandOf, Option.some.injEq, List.nil_append] at hc
      exact hc.symm
  have ho := handleMessage_outcome rt up m hreach.wf
  generalize handleMessage rt up m w = q at ho ⊢
  obtain ⟨r, w0⟩ := q
  simp only at ho ⊢
  have one : ∀ (w1 : World W) cid (cmd : UInt8) pl, channelOf m = some cid →
      (cmd = 0xBF ∨ cmd = 0xBB ∨ ∃ cid payload, channelOf m = some cid ∧
            w1.finalized = w.finalized ++ [(cid, cmd, payload)]) →
      ∀ msg ∈ [createResponsePackets cid cmd pl], (∀ p ∈ msg, channelOf p = channelOf m) ∧
        ∀ p cmd, msg.head? = some p → commandOf p = some cmd →
          cmd = 0xBF ∨ cmd = 0xBB ∨
          ∃ cid payload, channelOf m = some cid ∧
            w1.finalized = w.finalized ++ [(cid, cmd, payload)] := by
    intro w1 cid cmd pl hm hcase msg hmsg
    simp only [List.mem_singleton] at hmsg
    subst hmsg
    refine ⟨fun p hp => by rw [hm]; exact hchan _ _ _ p hp, ?_⟩
    intro p c h1 h2
    have := hhead _ _ _ _ _ h1 h2
    subst this
    exact hcase
  have single : ∀ (w1 : World W) cid (cmd : UInt8) pl, channelOf m = some cid →
      w1.out = w.out ++ createResponsePackets cid cmd pl →
      (cmd = 0xBF ∨ cmd = 0xBB ∨ ∃ cid payload, channelOf m = some cid ∧
            w1.finalized = w.finalized ++ [(cid, cmd, payload)]) →
      ∃ messages : List (List Bytes), w1.out = w.out ++ messages.flatten ∧
        ∀ msg ∈ messages, (∀ p ∈ msg, channelOf p = channelOf m) ∧
          ∀ p cmd, msg.head? = some p → commandOf p = some cmd →
            cmd = 0xBF ∨ cmd = 0xBB ∨
            ∃ cid payload, channelOf m = some cid ∧
              w1.finalized = w.finalized ++ [(cid, cmd, payload)] :=
    fun w1 cid cmd pl hm hout hcase =>
      ⟨[createResponsePackets cid cmd pl], by simpa using hout, one w1 cid cmd pl hm hcase⟩
  rcases ho with ⟨c⟩ | ⟨cid, hm, hc⟩ | ⟨cid, tx, code, hm, hc, hcode⟩ |
    ⟨cid, tx, hm, hc⟩ | ⟨cid, tx, t, hm, hc, ho⟩ |
    ⟨cid, tx, t, cmd, payload, header, sl, hm, hc, h1, h2, h3, h4, h5, r, w0, hfin⟩
  · exact ⟨[], by simp, by simp⟩
  · by_cases hs : w.handlerSet = true
    · exact single _ cid cmdError _ hm (send_out_set _ _ hs) (.inl rfl)
    · exact ⟨[], by rw [send_out_unset _ _ (by simpa using hs)]; simp, by simp⟩
  · by_cases hs : w.handlerSet = true
    · exact single _ cid cmdError _ hm (send_out_set _ _ hs) (.inl rfl)
    · exact ⟨[], by rw [setTx_out, send_out_unset _ _ (by simpa using hs)]; simp, by simp⟩
  · exact ⟨[], by simp, by simp⟩
  · exact ⟨[], by simp, by simp⟩
  · have hout : (afterFinal r w0 cid).out = w0.out := by cases r <;> rfl
    have hfz : (afterFinal r w0 cid).finalized = w0.finalized := by cases r <;> rfl
    rw [hout, hfz]
    subst h4
    by_cases hs : w.handlerSet = true
    · have hs' : (w.setTx cid (some t)).handlerSet = true := hs
      by_cases hsup : Supported cid cmd
      · unfold Supported at hsup
        by_cases hb : cid = broadcastChannel
        · subst hb
          simp only [if_true] at hsup
          rcases hsup with hi | hp
          · rw [fin_init rt up _ _ hi] at hfin
            subst hi
            rcases hup : sl.upTo 8 with n | c
            · rw [hup] at hfin
              simp only [Prod.mk.injEq] at hfin
              obtain ⟨rfl, rfl⟩ := hfin
              exact single _ broadcastChannel cmdInit _ hm (send_out_set _ _ (by simpa [World.alloc] using hs))
                (.inr (.inr ⟨broadcastChannel, sl.data, hm, by simp [World.alloc]⟩))
            · rw [hup] at hfin
              simp only [Prod.mk.injEq] at hfin
              obtain ⟨rfl, rfl⟩ := hfin
              exact ⟨[], by simp [World.alloc], by simp⟩
          · rw [fin_ping rt up _ _ hp] at hfin
            subst hp
            simp only [Prod.mk.injEq] at hfin
            obtain ⟨rfl, rfl⟩ := hfin
            exact single _ broadcastChannel cmdPing _ hm (send_out_set _ _ (by simpa using hs))
              (.inr (.inr ⟨broadcastChannel, sl.data, hm, by simp⟩))
        · simp only [hb, if_false] at hsup
          rcases hsup with hi | hi | hi
          · rw [fin_msg rt up _ _ hb hi] at hfin
            subst hi
            rcases hu : up.u2f sl.data (w.setTx cid (some t)).up with ⟨ru, u⟩
            rw [hu] at hfin
            cases ru with
            | ok resp =>
              simp only [Prod.mk.injEq] at hfin
              obtain ⟨rfl, rfl⟩ := hfin
              exact single _ cid cmdMsg _ hm (send_out_set _ _ (by simpa using hs))
                (.inr (.inr ⟨cid, sl.data, hm, by simp⟩))
            | panic c =>
              simp only [Prod.mk.injEq] at hfin
              obtain ⟨rfl, rfl⟩ := hfin
              exact ⟨[], by simp, by simp⟩
          · rw [fin_cbor rt up _ _ hb hi] at hfin
            subst hi
            rcases hu : up.ctap sl.data (w.setTx cid (some t)).up with ⟨ru, u⟩
            rw [hu] at hfin
            cases ru with
            | ok resp =>
              simp only [Prod.mk.injEq] at hfin
              obtain ⟨rfl, rfl⟩ := hfin
              refine ⟨List.replicate (rt.keepalives (w.setTx cid (some t)).cborCount)
                (createResponsePackets cid cmdKeepalive [statusUpneeded]) ++
                [createResponsePackets cid cmdCBOR resp], ?_, ?_⟩
              · rw [send_out_set _ _ (by simpa using hs), withUp_out, send_out_set _ _ (by simpa using hs)]
                simp [keepalivePackets]
              · intro msg hmsg
                rw [List.mem_append] at hmsg
                rcases hmsg with hmsg | hmsg
                · rw [List.mem_replicate] at hmsg
                  exact one _ cid cmdKeepalive [statusUpneeded] hm (.inr (.inl rfl)) msg (by simp [hmsg.2])
                · refine one _ cid cmdCBOR resp hm (.inr (.inr ⟨cid, sl.data, hm, ?_⟩)) msg hmsg
                  simp
            | panic c =>
              simp only [Prod.mk.injEq] at hfin
              obtain ⟨rfl, rfl⟩ := hfin
              refine ⟨List.replicate (rt.keepalives (w.setTx cid (some t)).cborCount)
                (createResponsePackets cid cmdKeepalive [statusUpneeded]), ?_, ?_⟩
              · rw [withUp_out, send_out_set _ _ (by simpa using hs)]
                simp [keepalivePackets]
              · intro msg hmsg
                rw [List.mem_replicate] at hmsg
                exact one _ cid cmdKeepalive [statusUpneeded] hm (.inr (.inl rfl)) msg (by simp [hmsg.2])
          · rw [fin_ping rt up _ _ hi] at hfin
            subst hi
            simp only [Prod.mk.injEq] at hfin
            obtain ⟨rfl, rfl⟩ := hfin
            exact single _ cid cmdPing _ hm (send_out_set _ _ (by simpa using hs))
              (.inr (.inr ⟨cid, sl.data, hm, by simp⟩))
      · rw [fin_unsupported rt up _ _ hsup] at hfin
        simp only [Prod.mk.injEq] at hfin
        obtain ⟨rfl, rfl⟩ := hfin
        exact ⟨[], by simp, by simp⟩
    · refine ⟨[], ?_, by simp⟩
      simp only [List.flatten_nil, List.append_nil]
      have := fin_out_unset rt up cid cmd (UInt16.ofNat payload.length) sl (w.setTx cid (some t))
        (by simpa using hs)
      rw [hfin] at this
      exact this

end VF
