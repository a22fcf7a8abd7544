import Verif.Props.HidHistories

/-!
# Reports that do not fit (C141)
-/

namespace VF

open Hid Spec.Ctaphid

variable {W : Type}

/-- The report `m` was answered with the one error `code` on `cid`; nothing was acted on, and the channel is free. -/
structure Hid.Refused (w w' : World W) (cid : UInt32) (code : UInt8) : Prop where
  answer : ∃ p, w'.out = w.out ++ [p] ∧ p.length = 64 ∧ hostRead [p] = some (cid, 0xBF, [code])
  nothing : w'.finalized = w.finalized ∧ w'.up = w.up
  free : Idle w' cid
  others : ∀ c, c ≠ cid → w'.channels c = w.channels c

theorem Hid.refused_send {w v : World W} (hset : v.handlerSet = true) (cid : UInt32) (code : UInt8) (ho : v.out = w.out)
    (hf : v.finalized = w.finalized) (hu : v.up = w.up) (hc : ∀ c, c ≠ cid → v.channels c = w.channels c) :
    Refused w ((v.send (createResponsePackets cid cmdError [code])).setTx cid none) cid code := by
  have h := createResponsePackets_single cid cmdError [code] (by simp) (by simp)
  refine ⟨⟨le32 cid ++ [cmdError] ++ be16 (UInt16.ofNat [code].length) ++ [code] ++ List.replicate (57 - [code].length) 0, ?_, ?_, ?_⟩,
    ⟨?_, ?_⟩, ?_, ?_⟩
  · rw [h]; simp [World.send, hset, ho]
  · simp [le32, be16]
  · have := hostRead_createResponsePackets cid 0xBF [code] (by decide) (by simp) (by simp)
    rw [createResponsePackets_single cid 0xBF [code] (by simp) (by simp)] at this
    exact this
  · simpa using hf
  · simpa using hu
  · unfold Idle; simp
  · intro c hcc
    simp [World.setTx, World.send, hset, hcc, hc c hcc]

/-- **A continuation of nothing** is answered with ERR_INVALID_CMD (1). -/
theorem C141_stray (rt : Runtime) (up : Upper W) {w : World W} {cid : UInt32} {m : Bytes} {c : UInt8} (hidle : Idle w cid)
    (hset : w.handlerSet = true) (hm : channelOf m = some cid) (hc : commandOf m = some c) (hlow : c.toNat < 128) :
    ∃ w', handleMessage rt up m w = (.ok (), w') ∧ Refused w w' cid 1 := by
  obtain ⟨rest, hr⟩ := channelOf_eq_iff.mp hm
  have hnew : newTransaction m = .ok { done := true, cancelled := false, errorCode := 1, result := none } := by
    unfold newTransaction
    rw [hr]
    rcases m with _ | ⟨x0, _ | ⟨x1, _ | ⟨x2, _ | ⟨x3, _ | ⟨x4, r⟩⟩⟩⟩⟩ <;>
      try (simp [commandOf] at hc; done)
    simp only [commandOf, Option.some.injEq] at hc
    subst hc
    simp only [Util.readLE32, Res.ok.injEq, Prod.mk.injEq] at hr
    obtain ⟨hr1, hr2⟩ := hr
    subst hr2
    have h80 := (and80_eq_zero x4).mpr hlow
    simp only [Res.bind_ok, Util.readLE8, h80, if_true]
    rfl
  rw [handleMessage_open rt up hr hidle]
  simp only [transactionStep, hnew]
  exact ⟨_, rfl, refused_send hset cid 1 rfl rfl rfl (fun _ _ => rfl)⟩

/-- **A report out of sequence**, or the start of another request, is answered with ERR_INVALID_SEQ (4), after any number of
continuation reports. -/
theorem C141_out_of_sequence (rt : Runtime) (up : Upper W) {w : World W} {cid : UInt32} {cmd : UInt8} {len : Nat} {d0 : Bytes}
    {ds : List Bytes} {m : Bytes} {c : UInt8} (hidle : Idle w cid) (hset : w.handlerSet = true) (hlen : len < 65536)
    (hcmd : 128 ≤ cmd.toNat) (hne : cmd ≠ 0x91) (hds : ds.length ≤ 128) (hshort : (d0 ++ ds.flatten).length < len)
    (hm : channelOf m = some cid) (hc : commandOf m = some c) (hcne : c ≠ 0x91) (hseq : c.toNat ≠ ds.length ∨ 128 ≤ c.toNat) :
    ∃ w', handleAll rt up (initPacket cid cmd len d0 :: contPackets cid 0 ds ++ [m]) w = (.ok (), w') ∧ Refused w w' cid 4 := by
  obtain ⟨t, spare, hrun, ho⟩ := run_prefix rt up hidle hlen hcmd hne ds hds hshort
  rw [handleAll_append, hrun]
  simp only
  rw [handleAll_single]
  obtain ⟨rest, hr⟩ := channelOf_eq_iff.mp hm
  have hadd : t.addMessage rt.grow m = .ok { done := true, cancelled := false, errorCode := 4, result := none } := by
    obtain ⟨-, -, -, -, -, rfl⟩ := ho
    simp only [Transaction.addMessage, Bool.false_eq_true, if_false]
    rw [hr]
    rcases m with _ | ⟨x0, _ | ⟨x1, _ | ⟨x2, _ | ⟨x3, _ | ⟨x4, r⟩⟩⟩⟩⟩ <;>
      try (simp [commandOf] at hc; done)
    simp only [commandOf, Option.some.injEq] at hc
    subst hc
    simp only [Util.readLE32, Res.ok.injEq, Prod.mk.injEq] at hr
    obtain ⟨hr1, hr2⟩ := hr
    subst hr2
    simp only [Res.bind_ok, ne_eq, not_true_eq_false, if_false, Util.readLE8]
    have h1 : x4 ≠ cmdCancel := hcne
    simp only [h1, if_false]
    by_cases h80 : x4 &&& 0x80 = 0
    · have hlt := (and80_eq_zero x4).mp h80
      have hq : ¬ x4 = UInt8.ofNat ds.length := by
        intro h
        have : x4.toNat = ds.length := by
          rw [h, UInt8.toNat_ofNat']
          omega
        omega
      simp only [h80, not_true_eq_false, if_false, hq, not_false_eq_true, if_true]
      rfl
    · simp only [h80, not_false_eq_true, if_true]
      rfl
  rw [handleMessage_open rt up hr (setTx_channels_self w cid _)]
  simp only [transactionStep, hadd]
  refine ⟨_, rfl, refused_send (by simpa using hset) cid 4 (by simp) (by simp) (by simp) fun c hc => by simp [World.setTx, hc]⟩

/-- A continuation when none is due, and two reports that do not continue a request of 200 bytes after its first continuation. -/
example : channelOf (contPacket 7 3 [1]) = some 7 ∧ commandOf (contPacket 7 3 [1]) = some 3 ∧
    (List.replicate 57 (1 : UInt8) ++ ([List.replicate 59 2] : List Bytes).flatten).length < 200 ∧
    (3 : UInt8).toNat ≠ ([List.replicate 59 2] : List Bytes).length ∧
    channelOf (initPacket 7 0x90 5 [1]) = some 7 ∧ commandOf (initPacket 7 0x90 5 [1]) = some 0x90 := by
  decide +kernel

end VF
