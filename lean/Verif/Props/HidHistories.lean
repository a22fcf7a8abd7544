import Verif.Props.HidRequest
import Verif.Proofs.HidPanic

/-!
# CTAPHID over whole histories: C04, C05, C07, C12, C14
-/

namespace VF

open Hid Spec.Ctaphid

variable {W : Type}

/-! ## C04 -/

theorem Hid.mem_contPackets {cid : UInt32} {s : Nat} {ds : List Bytes} {p : Bytes}
    (h : p ∈ contPackets cid s ds) : ∃ k, ∃ hk : k < ds.length, p = contPacket cid (s + k) ds[k] := by
  induction ds generalizing s with
  | nil => simp [contPackets] at h
  | cons d ds ih =>
    simp only [contPackets, List.mem_cons] at h
    rcases h with rfl | h
    · exact ⟨0, by simp, by simp⟩
    · obtain ⟨k, hk, rfl⟩ := ih h
      exact ⟨k + 1, by simpa using hk, by simp [Nat.add_assoc, Nat.add_comm 1 k]⟩

theorem Hid.contPackets_mem (cid : UInt32) (s : Nat) (ds : List Bytes) (k : Nat) (hk : k < ds.length) :
    contPacket cid (s + k) ds[k] ∈ contPackets cid s ds := by
  induction ds generalizing s k with
  | nil => simp at hk
  | cons d ds ih =>
    simp only [contPackets, List.mem_cons]
    cases k with
    | zero => left; simp
    | succ k =>
      right
      have := ih (s + 1) k (by simpa using hk)
      simpa [Nat.add_assoc, Nat.add_comm 1 k] using this

theorem Hid.countP_contPackets (cid : UInt32) (s : Nat) (ds : List Bytes) (h : s + ds.length ≤ 128) :
    (contPackets cid s ds).countP startsRequest = 0 := by
  rw [List.countP_eq_zero]
  intro p hp
  obtain ⟨k, hk, rfl⟩ := mem_contPackets hp
  rw [startsRequest_cont (by omega)]
  simp

/-- Two fragmentations, the reports of one all among those of the other, are of the same request. -/
theorem Hid.frag_subset {cid : UInt32} {cmd cmd' : UInt8} {payload payload' : Bytes}
    {pkts window : List Bytes} (hcmd' : 128 ≤ cmd'.toNat) (hne' : cmd' ≠ 0x91)
    (hfrag : IsFragmentation cid cmd payload pkts)
    (hwin : IsFragmentation cid cmd' payload' window) (hsub : ∀ p ∈ window, p ∈ pkts) :
    cmd' = cmd ∧ payload' = payload := by
  obtain ⟨d0, ds, rfl, hlen, hds, hpay, hge, -⟩ := hfrag
  obtain ⟨d0', ds', rfl, hlen', hds', hpay', hge', -⟩ := hwin
  have h1 := hsub (initPacket cid cmd' payload'.length d0') (by simp)
  simp only [List.mem_cons] at h1
  rcases h1 with h1 | h1
  · simp only [initPacket, List.append_assoc, List.append_cancel_left_eq] at h1
    simp only [List.cons_append, List.nil_append, List.cons.injEq] at h1
    obtain ⟨rfl, h1⟩ := h1
    simp only [be16, List.cons_append, List.nil_append, List.cons.injEq] at h1
    obtain ⟨e1, e2, rfl⟩ := h1
    have hl : payload'.length = payload.length := by
      have := be16_inj (a := UInt16.ofNat payload'.length) (b := UInt16.ofNat payload.length)
        (by simp only [be16, e1, e2])
      have h2 := congrArg UInt16.toNat this
      rwa [toNat_ofNat_lt hlen', toNat_ofNat_lt hlen] at h2
    refine ⟨rfl, ?_⟩
    have hpre : ds' <+: ds := by
      have key : ∀ k (hk : k < ds'.length), ∃ hk' : k < ds.length, ds'[k] = ds[k] := by
        intro k hk
        have hmem := hsub (contPacket cid (0 + k) ds'[k])
          (List.mem_cons_of_mem _ (contPackets_mem cid 0 ds' k hk))
        rw [List.mem_cons] at hmem
        rcases hmem with hmem | hmem
        · have := congrArg startsRequest hmem
          rw [startsRequest_cont (by omega), startsRequest_init hcmd' hne'] at this
          simp at this
        · obtain ⟨j, hj, hjj⟩ := mem_contPackets hmem
          simp only [contPacket, List.append_assoc, List.append_cancel_left_eq, List.cons_append,
            List.nil_append, List.cons.injEq, Nat.zero_add] at hjj
          have hkj : k = j := by
            have := congrArg UInt8.toNat hjj.1
            simp only [UInt8.toNat_ofNat'] at this
            omega
          subst hkj
          exact ⟨hj, hjj.2⟩
      rw [List.prefix_iff_eq_take]
      apply List.ext_getElem
      · rw [List.length_take]
        by_cases h0 : ds'.length = 0
        · omega
        · obtain ⟨h, -⟩ := key (ds'.length - 1) (by omega)
          omega
      · intro k h1 h2
        obtain ⟨h3, h4⟩ := key k h1
        rw [h4, List.getElem_take]
    obtain ⟨tl, rfl⟩ := hpre
    rw [hpay, hpay', hl]
    simp only [List.flatten_append]
    rw [← List.append_assoc, List.take_append_of_le_length (l₁ := d0' ++ ds'.flatten)
      (by rw [← hl]; exact hge')]
  · obtain ⟨k, hk, h⟩ := mem_contPackets h1
    have := congrArg startsRequest h
    rw [startsRequest_init hcmd' hne', startsRequest_cont (by omega)] at this
    simp at this

/-- Whatever the order in which the reports of one request reach an idle channel, at most one
request is acted on, and it is exactly the request sent.  (That it always is acted on fails: see
`C04_reorder_refuted`.) -/
theorem C04_any_order (rt : Runtime) (up : Upper W) (w : World W) (hreach : Reachable rt up w)
    (cid : UInt32) (cmd : UInt8) (payload : Bytes) (pkts order : List Bytes) (hidle : Idle w cid)
    (hcmd : 128 ≤ cmd.toNat) (hcancel : cmd ≠ 0x91) (hfrag : IsFragmentation cid cmd payload pkts)
    (hperm : order.Perm pkts) :
    (handleAll rt up order w).2.finalized = w.finalized ∨
    (handleAll rt up order w).2.finalized = w.finalized ++ [(cid, cmd, payload)] := by
  have hfrag0 := hfrag
  obtain ⟨d0, ds, rfl, hlen, hds, hpay, hge, hmin⟩ := hfrag
  have hchan : ∀ m ∈ order, channelOf m = some cid := by
    intro m hm
    have := hperm.mem_iff.mp hm
    rw [List.mem_cons] at this
    rcases this with rfl | this
    · exact channelOf_init _ _ _ _
    · obtain ⟨k, hk, rfl⟩ := mem_contPackets this
      exact channelOf_cont _ _ _
  obtain ⟨es, hfin, hes, hcount, -⟩ := run_own_channel rt up hreach.wf hidle order hchan
  have hc1 : order.countP startsRequest = 1 := by
    rw [hperm.countP_eq, List.countP_cons_of_pos (startsRequest_init hcmd hcancel),
      countP_contPackets cid 0 ds (by omega)]
  rw [hc1] at hcount
  rcases es with _ | ⟨e, _ | ⟨e2, es⟩⟩
  · left; simpa using hfin
  · right
    obtain ⟨window, hinf, hwin, h128, hne⟩ := hes e (by simp)
    have hsub : ∀ p ∈ window, p ∈ initPacket cid cmd payload.length d0 :: contPackets cid 0 ds :=
      fun p hp => hperm.mem_iff.mp (hinf.subset hp)
    obtain ⟨h1, h2⟩ := frag_subset h128 hne hfrag0 hwin hsub
    rw [hfin]
    simp only [List.map_cons, List.map_nil, h1, h2]
  · simp at hcount

/-- A two-report PING whose reports are processed in the wrong order (each OUT report is handled
by its own goroutine) is not acted on; both reports are answered with errors. -/
theorem C04_reorder_refuted :
    ∃ (rt : Runtime) (up : Upper Nat) (w : World Nat) (pkts order : List Bytes) (payload : Bytes),
      Reachable rt up w ∧ Idle w 1 ∧ IsFragmentation 1 0x81 payload pkts ∧ order.Perm pkts ∧
      (handleAll rt up pkts w).2.finalized = w.finalized ++ [(1, 0x81, payload)] ∧
      (handleAll rt up order w).2.finalized = w.finalized := by
  refine ⟨demoRt, demoUp, demoW, hostPackets 1 0x81 (List.replicate 60 1) [],
    (hostPackets 1 0x81 (List.replicate 60 1) []).reverse, List.replicate 60 1,
    demoW_reachable, rfl, C01_host_packets _ _ _ _ (by decide), List.reverse_perm _, ?_, ?_⟩
  · exact (C01_reassembly demoRt demoUp demoW 1 0x81 (List.replicate 60 1)
      (hostPackets 1 0x81 (List.replicate 60 1) []) rfl (by decide) (by decide)
      (C01_host_packets _ _ _ _ (by decide))).2.1
  · rfl

/-! ## C05 -/

/-- Number of CTAPHID_INIT requests acted on so far. -/
def Hid.initsActedOn (w : World W) : Nat :=
  (w.finalized.filter (fun e => decide (e.1 = 0xFFFFFFFF) && decide (e.2.1 = 0x86))).length

/-- The commands and payloads acted on for one channel so far. -/
def Hid.actedOn (cid : UInt32) (w : World W) : List (UInt8 × Bytes) :=
  (w.finalized.filter (fun e => decide (e.1 = cid))).map (·.2)

/-- From the same state, two continuations with the same reports on channel `cid`, and otherwise
arbitrary different reports and different behaviour of the layers above, act on the same requests
for `cid`. -/
theorem C05_no_interference {W : Type} (rt rt' : Runtime) (hrt : rt.grow = rt'.grow) (up up' : Upper W)
    (w w1 w2 : World W) (hreach : Reachable rt up w) (cid : UInt32) (hopen : Open w cid)
    (hist1 hist2 : List Bytes)
    (hsame : hist1.filter (fun m => channelOf m = some cid) = hist2.filter (fun m => channelOf m = some cid))
    (h1 : handleAll rt up hist1 w = (.ok (), w1)) (h2 : handleAll rt' up' hist2 w = (.ok (), w2))
    (hb1 : initsActedOn w1 + 1 < 2 ^ 32 - 1) (hb2 : initsActedOn w2 + 1 < 2 ^ 32 - 1) :
    actedOn cid w1 = actedOn cid w2 ∧ actedOn cid w <+: actedOn cid w1 := by
  have hwf := hreach.wf
  obtain ⟨tx, hc⟩ := hreach.open hopen
  have hmono := initCount_run rt up hist1 hwf
  rw [h1] at hmono
  have hb1' : initCount w1 + 1 < 4294967295 := hb1
  have hb2' : initCount w2 + 1 < 4294967295 := hb2
  have ht : Table w := by
    obtain ⟨b, u, hist, hr⟩ := hreach
    refine Table_run rt up hist (WF_new b u) (Table_new b u) hr ?_
    simp only at hmono
    omega
  have e1 := run_channel rt up hist1 hwf ht hc h1 hb1'
  have e2 := run_channel rt' up' hist2 hwf ht hc h2 hb2'
  have hp : proj cid hist1 = proj cid hist2 := hsame
  rw [hp, hrt] at e1
  refine ⟨?_, ?_⟩
  · change finalizedOn cid w1 = finalizedOn cid w2
    rw [e1, e2]
  · change finalizedOn cid w <+: finalizedOn cid w1
    rw [e1]
    exact List.prefix_append _ _

/-- A PING on channel 1 with and without an INIT and a broken report on the broadcast channel
in between. -/
example : ∃ w1 w2,
    handleAll demoRt demoUp [initPacket 1 0x81 3 [1], contPacket 1 0 [2, 3]] demoW = (.ok (), w1) ∧
    handleAll demoRt demoUp [initPacket 1 0x81 3 [1], initPacket 0xFFFFFFFF 0x86 8 (List.replicate 8 9),
      contPacket 0xFFFFFFFF 3 [7], contPacket 1 0 [2, 3]] demoW = (.ok (), w2) ∧
    actedOn 1 w1 = [(0x81, [1, 2, 3])] ∧ actedOn 1 w2 = [(0x81, [1, 2, 3])] :=
  ⟨_, _, rfl, rfl, rfl, rfl⟩

/-! ## C07 -/

/-- Between states `w` and `w'` the device answered an INIT, handing out channel `id`. -/
def Hid.HandsOut (w w' : World W) (id : UInt32) : Prop :=
  ∃ nonce : Bytes, nonce.length = 8 ∧ w'.out = w.out ++ [initAnswer nonce id]

theorem Hid.initAnswer_inj {n n' : Bytes} {a b : UInt32} (hn : n.length = 8) (hn' : n'.length = 8)
    (h : initAnswer n a = initAnswer n' b) : a = b := by
  unfold initAnswer at h
  simp only [List.append_assoc, List.cons_append, List.nil_append, List.cons.injEq, true_and] at h
  have h1 := List.append_inj h (by rw [hn, hn'])
  have h2 := List.append_inj h1.2 (by simp [le32])
  exact le32_inj h2.1

/-- If one step's only output is an INIT answer then it was a successful INIT. -/
theorem Hid.handsOut_step (rt : Runtime) (up : Upper W) {w w' : World W} (hwf : WF w) {m : Bytes}
    (h : handleMessage rt up m w = (.ok (), w')) {id : UInt32} (ho : HandsOut w w' id) :
    id = w.maxChannelID + 1 ∧ initCount w' = initCount w + 1 := by
  obtain ⟨nonce, hn, hout⟩ := ho
  have hne : ∀ p : List Bytes, w.out = w.out ++ initAnswer nonce id :: p → False := by
    intro p hp
    have := congrArg List.length hp
    simp at this
  have hcmd : ∀ cid cmd pl, createResponsePackets cid cmd pl = [initAnswer nonce id] →
      cmd = 0x86 := by
    intro cid cmd pl hp
    by_cases hpl : pl = []
    · subst hpl; simp [createResponsePackets, responseLoop] at hp
    · obtain ⟨fuel, hf⟩ : ∃ fuel, pl.length = fuel + 1 :=
        ⟨pl.length - 1, by have := List.length_pos_iff.mpr hpl; omega⟩
      unfold createResponsePackets at hp
      rw [hf, responseLoop_init cid cmd fuel pl hpl] at hp
      simp only [List.cons.injEq] at hp
      have := hp.1
      simp only [le32, initAnswer, List.cons_append, List.nil_append, List.cons.injEq] at this
      exact this.2.2.2.2.1
  have ho := handleMessage_outcome rt up m hwf
  rw [h] at ho
  simp only at ho
  have hsend : ∀ (w1 : World W) ps, w1.out = w.out → (w1.send ps).out = w.out ++ [initAnswer nonce id] →
      ps = [initAnswer nonce id] := by
    intro w1 ps h1 h2
    by_cases hs : w1.handlerSet = true
    · rw [send_out_set _ _ hs, h1] at h2
      exact List.append_cancel_left h2
    · rw [send_out_unset _ _ (by simpa using hs), h1] at h2
      exact absurd h2 (hne _)
  generalize hr : (Res.ok () : Res Unit) = r at ho
  rcases ho with ⟨c⟩ | ⟨cid, hm, hc⟩ | ⟨cid, tx, code, hm, hc, hcode⟩ |
    ⟨cid, tx, hm, hc⟩ | ⟨cid, tx, t, hm, hc, ho⟩ |
    ⟨cid, tx, t, cmd, payload, header, sl, hm, hc, h1, h2, h3, h4, h5, r, w0, hfin⟩
  · cases hr
  · have := hcmd _ _ _ (hsend w _ rfl hout)
    simp [cmdError] at this
  · have := hcmd _ _ _ (hsend w _ rfl hout)
    simp [cmdError] at this
  · exact absurd hout (hne _)
  · exact absurd hout (hne _)
  · subst hr
    change w0.out = _ at hout
    change _ ∧ initCount w0 = _
    subst h4
    have hw : (w.setTx cid (some t)).out = w.out := rfl
    by_cases hsup : Supported cid cmd
    · unfold Supported at hsup
      by_cases hb : cid = broadcastChannel
      · subst hb
        simp only [if_true] at hsup
        rcases hsup with hi | hi
        · rw [fin_init rt up _ _ hi] at hfin
          subst hi
          rcases hup : sl.upTo 8 with n | c
          · rw [hup] at hfin
            simp only [Prod.mk.injEq, true_and] at hfin
            subst hfin
            have hp := hsend _ _ (by simp [World.alloc]) hout
            refine ⟨?_, ?_⟩
            · have hmx : (w.setTx broadcastChannel (some t)).maxChannelID = w.maxChannelID := rfl
              rw [Util.toLE32_eq, hmx] at hp
              have hpl : (Util.pad n.data 8).length = 8 := Util.pad_length _ _
              rw [createResponsePackets_single _ _ _ (by simp) (by simp [hpl, le32])] at hp
              simp only [List.cons.injEq, and_true] at hp
              have hl : (Util.pad n.data 8 ++ le32 (w.maxChannelID + 1) ++
                  [2, 0, 0, 1, capabilityCBOR]).length = 17 := by simp [hpl, le32]
              rw [hl] at hp
              symm
              apply initAnswer_inj hpl hn
              rw [← hp]
              simp [initAnswer, broadcastChannel, cmdInit, le32, be16, capabilityCBOR]
            · simp [initCount, World.alloc, broadcastChannel, cmdInit]
          · rw [hup] at hfin; simp at hfin
        · rw [fin_ping rt up _ _ hi] at hfin
          simp only [Prod.mk.injEq, true_and] at hfin
          subst hfin
          have := hcmd _ _ _ (hsend _ _ (by simp) hout)
          simp [cmdPing] at this
      · simp only [hb, if_false] at hsup
        rcases hsup with hi | hi | hi
        · rw [fin_msg rt up _ _ hb hi] at hfin
          rcases hu : up.u2f sl.data (w.setTx cid (some t)).up with ⟨ru, u⟩
          rw [hu] at hfin
          cases ru with
          | ok resp =>
            simp only [Prod.mk.injEq, true_and] at hfin
            subst hfin
            have := hcmd _ _ _ (hsend _ _ (by simp) hout)
            simp [cmdMsg] at this
          | panic c => simp at hfin
        · rw [fin_cbor rt up _ _ hb hi] at hfin
          rcases hu : up.ctap sl.data (w.setTx cid (some t)).up with ⟨ru, u⟩
          rw [hu] at hfin
          cases ru with
          | ok resp =>
            simp only [Prod.mk.injEq, true_and] at hfin
            subst hfin
            exfalso
            by_cases hs : w.handlerSet = true
            · rw [send_out_set _ _ (by simpa using hs), withUp_out,
                send_out_set _ _ (by simpa using hs)] at hout
              simp only [count_out, act_out, setTx_out, List.append_assoc,
                List.append_cancel_left_eq] at hout
              unfold keepalivePackets at hout
              rcases hk : rt.keepalives (w.setTx cid (some t)).cborCount with _ | k
              · rw [hk] at hout
                simp only [List.replicate_zero, List.flatten_nil, List.nil_append] at hout
                have := hcmd _ _ _ hout
                simp [cmdCBOR] at this
              · rw [hk, List.replicate_succ, List.flatten_cons] at hout
                rw [createResponsePackets_single _ _ [statusUpneeded] (by simp) (by simp)] at hout
                simp only [List.cons_append, List.nil_append, List.cons.injEq] at hout
                have := hout.1
                simp [le32, initAnswer, cmdKeepalive] at this
            · rw [send_out_unset _ _ (by simpa using hs), withUp_out,
                send_out_unset _ _ (by simpa using hs)] at hout
              simp at hout
          | panic c => simp at hfin
        · rw [fin_ping rt up _ _ hi] at hfin
          simp only [Prod.mk.injEq, true_and] at hfin
          subst hfin
          have := hcmd _ _ _ (hsend _ _ (by simp) hout)
          simp [cmdPing] at this
    · rw [fin_unsupported rt up _ _ hsup] at hfin
      simp at hfin

/-- Over any history with fewer than 2^32-1 successful INITs, an id handed out is neither 0 nor
the broadcast id, and was not open before; ids handed out at two moments differ. -/
theorem C07_fresh_ids (rt : Runtime) (up : Upper W) (w w' v v' : World W)
    (hreach : Reachable rt up w) (m m' : Bytes) (between : List Bytes) (id id' : UInt32)
    (h1 : handleMessage rt up m w = (.ok (), w')) (hid : HandsOut w w' id)
    (h2 : handleAll rt up between w' = (.ok (), v)) (h3 : handleMessage rt up m' v = (.ok (), v'))
    (hid' : HandsOut v v' id') (hb : initsActedOn v' < 2 ^ 32 - 1) :
    id ≠ 0 ∧ id ≠ 0xFFFFFFFF ∧ ¬ Open w id ∧ id' ≠ 0 ∧ id' ≠ 0xFFFFFFFF ∧ ¬ Open v id' ∧ id ≠ id' := by
  have hwf := hreach.wf
  have hwf1 := WF_step rt up m hwf h1
  have hwf2 := WF_run rt up between hwf1 h2
  have hwf3 := WF_step rt up m' hwf2 h3
  obtain ⟨e1, c1⟩ := handsOut_step rt up hwf h1 hid
  obtain ⟨e2, c2⟩ := handsOut_step rt up hwf2 h3 hid'
  have hmono := initCount_run rt up between hwf1
  rw [h2] at hmono
  simp only at hmono
  have hb' : initCount v' < 4294967295 := hb
  have ht : Table w := by
    obtain ⟨b, u, hist, hr⟩ := hreach
    exact Table_run rt up hist (WF_new b u) (Table_new b u) hr (by omega)
  have ht1 := Table_step rt up m hwf ht h1 (by omega)
  have ht2 := Table_run rt up between hwf1 ht1 h2 (by omega)
  have key : ∀ x : World W, Table x → initCount x + 1 < 4294967295 →
      (x.maxChannelID + 1).toNat = initCount x + 1 := by
    intro x hx hxb
    have h1 := hx.count
    rw [UInt32.toNat_add]
    have : (1 : UInt32).toNat = 1 := rfl
    rw [this]
    omega
  have k1 := key w ht (by omega)
  have k2 := key v ht2 (by omega)
  have nb : ∀ x : World W, Table x → initCount x + 1 < 4294967295 →
      x.maxChannelID + 1 ≠ 0 ∧ x.maxChannelID + 1 ≠ 0xFFFFFFFF ∧ ¬ Open x (x.maxChannelID + 1) := by
    intro x hx hxb
    have hk := key x hx hxb
    refine ⟨?_, ?_, ?_⟩
    · intro h; rw [h] at hk; simp at hk
    · intro h; rw [h] at hk
      have : (0xFFFFFFFF : UInt32).toNat = 4294967295 := rfl
      omega
    · intro ho
      exact hx.open_ne ho hxb rfl
  obtain ⟨a1, a2, a3⟩ := nb w ht (by omega)
  obtain ⟨b1, b2, b3⟩ := nb v ht2 (by omega)
  refine ⟨by rw [e1]; exact a1, by rw [e1]; exact a2, by rw [e1]; exact a3, by rw [e2]; exact b1,
    by rw [e2]; exact b2, by rw [e2]; exact b3, ?_⟩
  intro h
  have := congrArg UInt32.toNat h
  rw [e1, e2, k1, k2] at this
  omega

example : ∃ w', handleMessage demoRt demoUp (initPacket 0xFFFFFFFF 0x86 8 (List.replicate 8 9)) demoW =
    (.ok (), w') ∧ HandsOut demoW w' 2 := ⟨_, rfl, List.replicate 8 9, rfl, rfl⟩

/-- Without the bound it fails: after 2^32-2 INITs the next one hands out the broadcast id. -/
theorem C07_wrap_refuted (rt : Runtime) (up : Upper W) (u : W) :
    ∃ w w' m, Reachable rt up w ∧ handleMessage rt up m w = (.ok (), w') ∧
      HandsOut w w' 0xFFFFFFFF ∧ Open w 0xFFFFFFFF := by
  have init : ∀ w : World W, Idle w 0xFFFFFFFF → w.handlerSet = true → w.maxChannelID ≠ 0xFFFFFFFE →
      ∃ w', handleMessage rt up (initPacket 0xFFFFFFFF 0x86 8 (List.replicate 8 0)) w = (.ok (), w') ∧
        w'.handlerSet = true ∧ Idle w' 0xFFFFFFFF ∧ w'.maxChannelID = w.maxChannelID + 1 := by
    intro w hidle hset hmax
    obtain ⟨p, w', id, hrun, -, -, -, -, -, hidle', -⟩ :=
      C08_init rt up w (List.replicate 8 0) [] (by simp) hidle hset hmax
    rw [List.append_nil] at hrun
    refine ⟨w', hrun, ?_, hidle', ?_⟩
    · -- the same run, seen as a single-report request
      have hfr : IsFragmentation 0xFFFFFFFF 0x86 (List.replicate 8 0)
          [initPacket 0xFFFFFFFF 0x86 8 (List.replicate 8 0)] :=
        ⟨List.replicate 8 0, [], by simp [contPackets], by simp, by simp, by simp, by simp, by simp⟩
      obtain ⟨t, sp, hr⟩ := run_complete rt up hidle (by decide) (by decide) hfr
      rw [handleAll_single, hrun] at hr
      have heff := (handleFinalizedMessage_effect rt up 0xFFFFFFFF
        ⟨0xFFFFFFFF, 0x86, UInt16.ofNat (List.replicate 8 (0 : UInt8)).length⟩ ⟨List.replicate 8 0, sp⟩
        (w.setTx 0xFFFFFFFF (some t))).handlerSet
      rcases hf : handleFinalizedMessage rt up 0xFFFFFFFF
        ⟨0xFFFFFFFF, 0x86, UInt16.ofNat (List.replicate 8 (0 : UInt8)).length⟩ ⟨List.replicate 8 0, sp⟩
        (w.setTx 0xFFFFFFFF (some t)) with ⟨r | c, w0⟩
      · rw [hf] at hr heff
        simp only [Prod.mk.injEq, true_and] at hr heff
        rw [hr]
        simpa using heff.trans hset
      · rw [hf] at hr; simp at hr
    · have hfr : IsFragmentation 0xFFFFFFFF 0x86 (List.replicate 8 0)
          [initPacket 0xFFFFFFFF 0x86 8 (List.replicate 8 0)] :=
        ⟨List.replicate 8 0, [], by simp [contPackets], by simp, by simp, by simp, by simp, by simp⟩
      obtain ⟨t, sp, hr⟩ := run_complete rt up hidle (by decide) (by decide) hfr
      rw [handleAll_single, hrun] at hr
      have heff := fin_table rt up 0xFFFFFFFF 0x86
        (UInt16.ofNat (List.replicate 8 (0 : UInt8)).length) ⟨List.replicate 8 0, sp⟩
        (w.setTx 0xFFFFFFFF (some t))
      rw [if_pos ⟨rfl, rfl⟩] at heff
      rcases hf : handleFinalizedMessage rt up 0xFFFFFFFF
        ⟨0xFFFFFFFF, 0x86, UInt16.ofNat (List.replicate 8 (0 : UInt8)).length⟩ ⟨List.replicate 8 0, sp⟩
        (w.setTx 0xFFFFFFFF (some t)) with ⟨r | c, w0⟩
      · rw [hf] at hr heff
        simp only [Prod.mk.injEq, true_and] at hr heff
        rw [hr]
        exact heff.2
      · rw [hf] at hr; simp at hr
  have reach : ∀ n : Nat, n ≤ 4294967294 → ∃ w : World W, Reachable rt up w ∧ Idle w 0xFFFFFFFF ∧
      w.handlerSet = true ∧ w.maxChannelID = UInt32.ofNat n := by
    intro n
    induction n with
    | zero => intro _; exact ⟨World.new true u, ⟨true, u, [], rfl⟩, rfl, rfl, rfl⟩
    | succ n ih =>
      intro hn
      obtain ⟨w, hr, hidle, hset, hmax⟩ := ih (by omega)
      obtain ⟨w', hrun, hset', hidle', hmax'⟩ := init w hidle hset (by
        rw [hmax]; intro h
        have := congrArg UInt32.toNat h
        have h2 : (0xFFFFFFFE : UInt32).toNat = 4294967294 := rfl
        rw [h2, UInt32.toNat_ofNat'] at this
        omega)
      obtain ⟨b, u0, hist, hh⟩ := hr
      refine ⟨w', ⟨b, u0, hist ++ [initPacket 0xFFFFFFFF 0x86 8 (List.replicate 8 0)], ?_⟩, hidle', hset', ?_⟩
      · rw [handleAll_snoc, hh]; exact hrun
      · rw [hmax', hmax, UInt32.ofNat_add]; rfl
  obtain ⟨w, hr, hidle, hset, hmax⟩ := reach 4294967294 (by omega)
  have hfr : IsFragmentation 0xFFFFFFFF 0x86 (List.replicate 8 0)
      [initPacket 0xFFFFFFFF 0x86 8 (List.replicate 8 0)] :=
    ⟨List.replicate 8 0, [], by simp [contPackets], by simp, by simp, by simp, by simp, by simp⟩
  obtain ⟨t, sp, hrun⟩ := run_complete rt up hidle (by decide) (by decide) hfr
  have hupto : (⟨List.replicate 8 0, sp⟩ : Slice).upTo 8 = .ok ⟨List.replicate 8 0, sp⟩ := by
    unfold Slice.upTo
    rw [if_pos (by simp)]
    simp
  have hfin := fin_init rt up (cmd := 0x86) (len := UInt16.ofNat (List.replicate 8 (0 : UInt8)).length)
    ⟨List.replicate 8 0, sp⟩ (w.setTx broadcastChannel (some t)) rfl
  rw [hupto] at hfin
  simp only at hfin
  have hb : (0xFFFFFFFF : UInt32) = broadcastChannel := rfl
  rw [handleAll_single, hb, hfin] at hrun
  simp only at hrun
  refine ⟨w, _, _, hr, hrun, ⟨List.replicate 8 0, by simp, ?_⟩, ?_⟩
  · rw [setTx_out, send_out_set _ _ (by simpa [World.alloc] using hset)]
    have hmx : (w.setTx broadcastChannel (some t)).maxChannelID = 0xFFFFFFFE := hmax
    rw [hmx]
    rfl
  · unfold Open; rw [hidle]; simp

/-! ## C12 -/

theorem Hid.frag_length {cid : UInt32} {cmd : UInt8} {payload : Bytes} {window : List Bytes}
    (h : IsFragmentation cid cmd payload window) (hr : ∀ r ∈ window, r.length ≤ 64) :
    payload.length ≤ 7609 := by
  obtain ⟨d0, ds, rfl, hlen, hds, hpay, hge, -⟩ := h
  have h0 : d0.length ≤ 57 := by
    have := hr _ List.mem_cons_self
    simp [initPacket, le32, be16] at this
    omega
  have hd : ∀ d ∈ ds, d.length ≤ 59 := by
    intro d hdm
    obtain ⟨k, hk, rfl⟩ := List.getElem_of_mem hdm
    have := hr _ (List.mem_cons_of_mem _ (contPackets_mem cid 0 ds k hk))
    simp [contPacket, le32] at this
    omega
  have hsum : ∀ (l : List Bytes), (∀ d ∈ l, d.length ≤ 59) → l.flatten.length ≤ 59 * l.length := by
    intro l
    induction l with
    | nil => simp
    | cons x xs ih =>
      intro hx
      have h1 := hx x (by simp)
      have h2 := ih (fun d hd => hx d (by simp [hd]))
      simp only [List.flatten_cons, List.length_append, List.length_cons]
      omega
  have := hsum ds hd
  rw [List.length_append] at hge
  omega

/-- With 64-byte reports, no request of more than 7609 bytes is ever acted on, whatever the
history; and once 128 continuation reports did not complete a request, the 129th (any report on
the channel that is not a CANCEL) is answered by ERR_INVALID_SEQ (4), without acting. -/
theorem C12_oversized (rt : Runtime) (up : Upper W) :
    (∀ (handlerSet : Bool) (u : W) (hist : List Bytes), (∀ r ∈ hist, r.length ≤ 64) →
      ∀ e ∈ (handleAll rt up hist (World.new handlerSet u)).2.finalized, e.2.2.length ≤ 7609) ∧
    (∀ (w : World W) (cid : UInt32) (cmd : UInt8) (len : Nat) (d0 : Bytes) (ds : List Bytes) (m : Bytes)
      (c : UInt8), Idle w cid → w.handlerSet = true → len < 65536 → 128 ≤ cmd.toNat → cmd ≠ 0x91 →
      ds.length = 128 → (d0 ++ ds.flatten).length < len → channelOf m = some cid →
      commandOf m = some c → c ≠ 0x91 →
      ∃ w' p, handleAll rt up (initPacket cid cmd len d0 :: contPackets cid 0 ds ++ [m]) w = (.ok (), w') ∧
        w'.out = w.out ++ [p] ∧ hostRead [p] = some (cid, 0xBF, [4]) ∧
        w'.finalized = w.finalized ∧ Idle w' cid) := by
  constructor
  · intro handlerSet u hist
    obtain ⟨n, hn⟩ : ∃ n, hist.length = n := ⟨_, rfl⟩
    induction n generalizing hist with
    | zero =>
      have : hist = [] := List.length_eq_zero_iff.mp hn
      subst this
      simp [handleAll, World.new]
    | succ n ih =>
      rcases List.eq_nil_or_concat hist with rfl | ⟨hist, m, rfl⟩
      · simp at hn
      · rw [List.concat_eq_append] at *
        intro hr
        have ih' := ih hist (by simpa using hn) (fun r h => hr r (by simp [h]))
        rw [handleAll_snoc]
        rcases hrun : handleAll rt up hist (World.new handlerSet u) with ⟨r | c, w1⟩
        · rw [hrun] at ih'
          simp only at ih' ⊢
          rcases C03_no_splice rt up handlerSet u hist w1 (by rw [hrun]) m with h |
            ⟨cid, cmd, payload, window, hf, hsuf, -, -, -, hfr⟩
          · rw [h]; exact ih'
          · rw [hf]
            intro e he
            rw [List.mem_append] at he
            rcases he with he | he
            · exact ih' e he
            · simp only [List.mem_singleton] at he
              subst he
              apply frag_length hfr
              intro r hrw
              have := hsuf.subset hrw
              exact hr r (List.mem_filter.mp this).1
        · rw [hrun] at ih'
          exact ih'
  · intro w cid cmd len d0 ds m c hidle hset hlen hcmd hne hds hshort hm hc hcne
    obtain ⟨t, spare, hrun, ho⟩ := run_prefix rt up hidle hlen hcmd hne ds (by omega) hshort
    rw [handleAll_append, hrun]
    simp only
    rw [handleAll_single]
    obtain ⟨rest, hr⟩ := channelOf_eq_iff.mp hm
    have hadd : t.addMessage rt.grow m =
        .ok { done := true, cancelled := false, errorCode := 4, result := none } := by
      obtain ⟨-, -, -, -, -, rfl⟩ := ho
      simp only [Transaction.addMessage, Bool.false_eq_true, if_false]
      rw [hr]
      rcases m with _ | ⟨x0, _ | ⟨x1, _ | ⟨x2, _ | ⟨x3, _ | ⟨x4, r⟩⟩⟩⟩⟩ <;>
        try (simp [commandOf] at hc; done)
      simp only [commandOf, Option.some.injEq] at hc
      subst hc
      simp only [Util.readLE32, Res.ok.injEq, Prod.mk.injEq] at hr
      obtain ⟨hr1, hr2⟩ := hr
      subst hr2
      simp only [Res.bind_ok, ne_eq, not_true_eq_false, if_false, Util.readLE8]
      have h1 : x4 ≠ cmdCancel := hcne
      simp only [h1, if_false]
      by_cases h80 : x4 &&& 0x80 = 0
      · have hlt := (and80_eq_zero x4).mp h80
        have hq : ¬ x4 = UInt8.ofNat ds.length := by
          intro h
          rw [h, hds] at hlt
          simp at hlt
        simp only [h80, not_true_eq_false, if_false, hq, not_false_eq_true, if_true]
        rfl
      · simp only [h80, not_false_eq_true, if_true]
        rfl
    rw [handleMessage_open rt up hr (setTx_channels_self w cid _)]
    simp only [transactionStep, hadd]
    rw [createResponsePackets_single cid cmdError [4] (by simp) (by simp)]
    refine ⟨_, le32 cid ++ [cmdError] ++ be16 (UInt16.ofNat [(4 : UInt8)].length) ++ [4] ++
      List.replicate (57 - [(4 : UInt8)].length) 0, rfl, ?_, ?_, ?_, ?_⟩
    · simp [World.send, hset]
    · have := hostRead_createResponsePackets cid 0xBF [4] (by decide) (by simp) (by simp)
      rw [createResponsePackets_single cid 0xBF [4] (by simp) (by simp)] at this
      exact this
    · simp
    · unfold Idle; simp

/-- A state with 128 continuation reports received, for an 8000-byte request. -/
example : (List.replicate 57 (1 : UInt8) ++ (List.replicate 128 (List.replicate 59 (2 : UInt8))).flatten).length < 8000 := by
  decide +kernel

/-! ## C14 -/

/-- Acting on the request `(cid, cmd, payload)`, completed by report `m`, panics. -/
def Hid.ActingPanics (up : Upper W) (w : World W) (m : Bytes) (cid : UInt32) (cmd : UInt8)
    (payload : Bytes) : Prop :=
  (cid = 0xFFFFFFFF ∧ ((cmd ≠ 0x86 ∧ cmd ≠ 0x81) ∨ (cmd = 0x86 ∧ Idle w cid ∧ m.length < 15))) ∨
  (cid ≠ 0xFFFFFFFF ∧ ((cmd ≠ 0x83 ∧ cmd ≠ 0x90 ∧ cmd ≠ 0x81) ∨
    (cmd = 0x83 ∧ (up.u2f payload w.up).1.isPanic = true) ∨
    (cmd = 0x90 ∧ (up.ctap payload w.up).1.isPanic = true)))

/-- The exact condition for a crash of the HID layer: a report shorter than the header it needs, or
a completed request whose handling panics.  (The wished-for "never" is refuted by
`C14_crash_refuted`.)  `GrowLaw` is Go's smallest allocation size, 8 bytes. -/
theorem C14_panic_iff (rt : Runtime) (hg : GrowLaw rt.grow) (up : Upper W) (w : World W)
    (hreach : Reachable rt up w) (m : Bytes) :
    (handleMessage rt up m w).1.isPanic = true ↔
      m.length < 4 ∨
      (∃ cid, channelOf m = some cid ∧ Open w cid ∧ (m.length < 5 ∨
        (Idle w cid ∧ m.length < 7 ∧ ∃ c, commandOf m = some c ∧ 128 ≤ c.toNat ∧ c ≠ 0x91))) ∨
      (∃ cid cmd payload, (handleMessage rt up m w).2.finalized = w.finalized ++ [(cid, cmd, payload)] ∧
        ActingPanics up w m cid cmd payload) := by
  have hwf := hreach.wf
  have hcap : CapInv w := by
    obtain ⟨b, u, hist, hr⟩ := hreach
    exact CapInv_run hg up hist (WF_new b u) (CapInv_new b u) hr
  rcases hco : channelOf m with _ | cid
  · obtain ⟨c, hc⟩ := channelOf_none_iff.mp hco
    rw [handleMessage_short rt up hc]
    have : m.length < 4 := by
      rcases m with _ | ⟨a, _ | ⟨b, _ | ⟨c, _ | ⟨d, r⟩⟩⟩⟩ <;> simp [channelOf] at hco <;> simp
    simp [this]
  · have hlen4 : ¬ m.length < 4 := by
      rcases m with _ | ⟨a, _ | ⟨b, _ | ⟨c, _ | ⟨d, r⟩⟩⟩⟩ <;> simp [channelOf] at hco <;> simp
    obtain ⟨rest, hm⟩ := channelOf_eq_iff.mp hco
    rcases hch : w.channels cid with _ | ⟨cid', tx⟩
    · rw [handleMessage_unknown rt up hm hch]
      simp only [Res.isPanic_ok, Bool.false_eq_true, false_iff, not_or]
      refine ⟨hlen4, ?_, ?_⟩
      · rintro ⟨c, h1, h2, -⟩
        simp only [Option.some.injEq] at h1
        subst h1
        exact h2 hch
      · rintro ⟨c, cmd, p, h, -⟩
        simp at h
    · have := (hwf _ _ hch).1
      simp only at this
      subst this
      have hopen : Open w cid' := by unfold Open; rw [hch]; simp
      rw [handleMessage_open rt up hm hch]
      rcases hts : transactionStep rt tx m with t | c
      · -- the transaction step succeeds
        have hnp : ¬ (m.length < 5 ∨ (Idle w cid' ∧ m.length < 7 ∧
            ∃ c, commandOf m = some c ∧ 128 ≤ c.toNat ∧ c ≠ 0x91)) := by
          intro hcond
          rcases tx with _ | t0
          · have : (newTransaction m).isPanic = true := by
              rw [newTransaction_panic hm]
              rcases hcond with h | ⟨-, h⟩
              · exact .inl h
              · exact .inr h
            rw [show newTransaction m = .ok t from hts] at this
            simp at this
          · obtain ⟨window, cmd, len, d0, ds, spare, ho, -⟩ := (hwf _ _ hch).2 t0 rfl
            rcases hcond with h | ⟨h, -⟩
            · have := (addMessage_panic rt.grow ho hm).mpr h
              rw [show t0.addMessage rt.grow m = .ok t from hts] at this
              simp at this
            · unfold Idle at h; rw [hch] at h; simp at h
        have hmid : (∃ cid, some cid' = some cid ∧ Open w cid ∧ (m.length < 5 ∨
            (Idle w cid ∧ m.length < 7 ∧ ∃ c, commandOf m = some c ∧ 128 ≤ c.toNat ∧ c ≠ 0x91))) ↔ False := by
          constructor
          · rintro ⟨c, h1, -, h2⟩
            simp only [Option.some.injEq] at h1
            subst h1
            exact hnp h2
          · simp
        rw [hmid]
        simp only [hlen4, false_or]
        by_cases hd : t.done
        · simp only [hd, if_true]
          by_cases he : t.errorCode = 0
          · simp only [he, ne_eq, not_true_eq_false, if_false]
            by_cases hcn : t.cancelled
            · simp only [hcn, if_true, Res.isPanic_ok, Bool.false_eq_true, false_iff]
              rintro ⟨c, cmd, p, h, -⟩
              simp at h
            · simp only [hcn, if_false, Bool.false_eq_true]
              -- finished
              have hfinT : ∃ cmd payload, FinishedTx cid' cmd payload t := by
                rcases tx with _ | t0
                · have := stepResult_new hm (show newTransaction m = .ok t from hts)
                  rcases this with ⟨code, hcode, -, h⟩ | ⟨-, h⟩ | ⟨h⟩ | ⟨cmd, payload, _, _, _, h⟩
                  · rw [h] at he; rcases hcode with rfl | rfl <;> simp [errInvalidCommand, errInvalidSequence] at he
                  · rw [h] at hcn; simp at hcn
                  · obtain ⟨_, _, _, _, _, ho, -⟩ := h
                    rw [ho.eq] at hd; simp at hd
                  · exact ⟨cmd, payload, h⟩
                · obtain ⟨window, ho⟩ := (hwf _ _ hch).2 t0 rfl
                  have := stepResult_add rt.grow hm ho (show t0.addMessage rt.grow m = .ok t from hts)
                  rcases this with ⟨code, hcode, -, h⟩ | ⟨-, h⟩ | ⟨h⟩ | ⟨cmd, payload, _, _, _, h⟩
                  · rw [h] at he; rcases hcode with rfl | rfl <;> simp [errInvalidCommand, errInvalidSequence] at he
                  · rw [h] at hcn; simp at hcn
                  · obtain ⟨_, _, _, _, _, ho, -⟩ := h
                    rw [ho.eq] at hd; simp at hd
                  · exact ⟨cmd, payload, h⟩
              obtain ⟨cmd, payload, seq, spare, rfl⟩ := hfinT
              simp only
              -- capacity of the finished payload
              have hcapfin : tx ≠ none → 8 ≤ payload.length + spare.length := by
                intro htx
                rcases tx with _ | t0
                · exact absurd rfl htx
                · obtain ⟨window, cmd0, len0, d0, ds, spare0, ho, -⟩ := (hwf _ _ hch).2 t0 rfl
                  exact (addMessage_cap hg ho (hcap _ _ t0 hch rfl) hm
                    (show t0.addMessage rt.grow m = _ from hts)).2 rfl _ rfl
              have hcapnew : tx = none → payload.length + spare.length + 7 = m.length := by
                intro htx
                subst htx
                exact newTransaction_done hm (show newTransaction m = _ from hts) rfl rfl
              have hidle_iff : Idle w cid' ↔ tx = none := by
                unfold Idle; rw [hch]; simp
              have hfz := (handleFinalizedMessage_effect rt up cid'
                ⟨cid', cmd, UInt16.ofNat payload.length⟩ ⟨payload, spare⟩
                (w.setTx cid' (some ⟨true, false, 0,
                  some ⟨⟨cid', cmd, UInt16.ofNat payload.length⟩, seq, ⟨payload, spare⟩⟩⟩))).finalized
              generalize hw1 : w.setTx cid' (some ⟨true, false, 0,
                  some ⟨⟨cid', cmd, UInt16.ofNat payload.length⟩, seq, ⟨payload, spare⟩⟩⟩) = w1 at hfz ⊢
              have hw1f : w1.finalized = w.finalized := by rw [← hw1]; rfl
              have hw1u : w1.up = w.up := by rw [← hw1]; rfl
              -- when acting panics
              have hact : (handleFinalizedMessage rt up cid' ⟨cid', cmd, UInt16.ofNat payload.length⟩
                  ⟨payload, spare⟩ w1).1.isPanic = true ↔ ActingPanics up w m cid' cmd payload := by
                unfold ActingPanics
                by_cases hsup : Supported cid' cmd
                · unfold Supported at hsup
                  by_cases hb : cid' = broadcastChannel
                  · rw [if_pos hb] at hsup
                    have hb' : cid' = 0xFFFFFFFF := hb
                    rcases hsup with hi | hi
                    · subst hb
                      rw [fin_init rt up _ _ hi]
                      have hi' : cmd = 0x86 := hi
                      unfold Slice.upTo
                      simp only
                      by_cases h8 : 8 ≤ payload.length + spare.length
                      · rw [if_pos h8]
                        simp only [Res.isPanic_ok, Bool.false_eq_true, false_iff]
                        rintro (⟨-, ⟨h, -⟩ | ⟨-, h1, h2⟩⟩ | ⟨h, -⟩)
                        · exact h hi'
                        · have := hcapnew (hidle_iff.mp h1); omega
                        · exact h rfl
                      · rw [if_neg h8]
                        simp only [Res.isPanic_panic, true_iff]
                        have htx : tx = none := by
                          rcases tx with _ | t0
                          · rfl
                          · exact absurd (hcapfin (by simp)) h8
                        exact .inl ⟨rfl, .inr ⟨hi', hidle_iff.mpr htx, by have := hcapnew htx; omega⟩⟩
                    · rw [fin_ping rt up _ _ hi]
                      have hi' : cmd = 0x81 := hi
                      simp only [Res.isPanic_ok, Bool.false_eq_true, false_iff]
                      rintro (⟨-, ⟨-, h⟩ | ⟨h, -⟩⟩ | ⟨h, -⟩)
                      · exact h hi'
                      · rw [hi'] at h; simp at h
                      · exact h hb'
                  · rw [if_neg hb] at hsup
                    have hb' : cid' ≠ 0xFFFFFFFF := hb
                    rcases hsup with hi | hi | hi
                    · rw [fin_msg rt up _ _ hb hi, hw1u]
                      have hi' : cmd = 0x83 := hi
                      subst hi'
                      rcases up.u2f payload w.up with ⟨r, u⟩
                      cases r <;> simp [hb']
                    · rw [fin_cbor rt up _ _ hb hi, hw1u]
                      have hi' : cmd = 0x90 := hi
                      subst hi'
                      rcases up.ctap payload w.up with ⟨r, u⟩
                      cases r <;> simp [hb']
                    · rw [fin_ping rt up _ _ hi]
                      have hi' : cmd = 0x81 := hi
                      subst hi'
                      simp [hb']
                · rw [fin_unsupported rt up _ _ hsup]
                  unfold Supported at hsup
                  simp only [Res.isPanic_panic, true_iff]
                  by_cases hb : cid' = broadcastChannel
                  · rw [if_pos hb, not_or] at hsup
                    exact .inl ⟨hb, .inl hsup⟩
                  · rw [if_neg hb, not_or, not_or] at hsup
                    exact .inr ⟨hb, .inl hsup⟩
              rcases hrun : handleFinalizedMessage rt up cid' ⟨cid', cmd, UInt16.ofNat payload.length⟩
                  ⟨payload, spare⟩ w1 with ⟨r | c, w0⟩
              · rw [hrun] at hact hfz
                simp only [Res.isPanic_ok, Bool.false_eq_true, false_iff] at hact ⊢
                simp only at hfz
                rintro ⟨c, cmd', p', h, hpan⟩
                simp only [setTx_finalized] at h
                rw [hfz, hw1f] at h
                simp only [List.append_cancel_left_eq, List.cons.injEq, Prod.mk.injEq, and_true] at h
                obtain ⟨rfl, rfl, rfl⟩ := h
                exact hact hpan
              · rw [hrun] at hact hfz
                simp only [Res.isPanic_panic, true_iff] at hact ⊢
                exact ⟨cid', cmd, payload, by rw [← hw1f]; exact hfz, hact⟩
          · simp only [he, ne_eq, not_false_eq_true, if_true, Res.isPanic_ok, Bool.false_eq_true,
              false_iff]
            rintro ⟨c, cmd, p, h, -⟩
            simp at h
        · simp only [hd, if_false, Bool.false_eq_true, Res.isPanic_ok, false_iff]
          rintro ⟨c, cmd, p, h, -⟩
          simp at h
      · -- the transaction step panics
        simp only [Res.isPanic_panic, true_iff]
        right; left
        refine ⟨cid', rfl, hopen, ?_⟩
        rcases tx with _ | t0
        · have : (newTransaction m).isPanic = true := by
            rw [show newTransaction m = .panic c from hts]; rfl
          rw [newTransaction_panic hm] at this
          rcases this with h | h
          · exact .inl h
          · exact .inr ⟨hch, h⟩
        · obtain ⟨window, cmd, len, d0, ds, spare, ho, -⟩ := (hwf _ _ hch).2 t0 rfl
          left
          rw [← addMessage_panic rt.grow ho hm, show t0.addMessage rt.grow m = .panic c from hts]
          rfl

/-- Whatever the layers above do, one single report crashes a fresh device. -/
theorem C14_crash_refuted (rt : Runtime) (up : Upper W) (u : W) :
    (handleMessage rt up (initPacket 0xFFFFFFFF 0x90 0 []) (World.new true u)).1.isPanic = true ∧
    (handleMessage rt up (initPacket 0xFFFFFFFF 0x86 3 [1, 2, 3]) (World.new true u)).1.isPanic = true ∧
    (handleMessage rt up [1, 2, 3] (World.new true u)).1.isPanic = true := ⟨rfl, rfl, rfl⟩

/-- The hypotheses of `C14_panic_iff` hold for the example device. -/
example : GrowLaw demoRt.grow ∧ Reachable demoRt demoUp demoW :=
  ⟨fun _ b _ => by simp [demoRt], demoW_reachable⟩

end VF
