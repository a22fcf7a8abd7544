import Verif.Model.UsbIp
import Verif.Spec.UsbIp
import Verif.Proofs.Util

/-! # Lemmas about the USB/IP server -/

namespace VF.UsbIp

open Util

variable {D : Type}

/-- Every `Read` returns as many bytes as asked for (or all that are left). -/
def FullReads (net : Net) : Prop := ∀ pos n, n ≤ net pos n

theorem readFull_append (x rest : Bytes) (c : Conn D) (h : c.stream = x ++ rest) {n : Nat} (hn : x.length = n) :
    readFull n c = (.ok x, { c with stream := rest, pos := c.pos + n }) := by
  subst hn
  simp [readFull, h]

theorem readFull_short (n : Nat) (c : Conn D) (h : c.stream.length < n) :
    readFull n c = (.panic .checkErr, { c with stream := [], pos := c.pos + c.stream.length }) := by
  simp [readFull, h]

theorem readOnce_full {net : Net} (x rest : Bytes) (c : Conn D) (h : c.stream = x ++ rest) {n : Nat}
    (hn : x.length = n) (h0 : n ≠ 0) (hr : n ≤ net c.pos n) :
    readOnce net n c = (.ok x, { c with stream := rest, pos := c.pos + n }) := by
  subst hn
  have hne : c.stream.isEmpty = false := by
    rw [h]; cases x <;> simp at h0 ⊢
  have hk : min (max 1 (net c.pos x.length)) (min x.length c.stream.length) = x.length := by
    rw [h]; simp; omega
  simp only [readOnce, hne, hk]
  simp [h, pad_self]

theorem readMsgHeader_ok (a b c d e : UInt32) (rest : Bytes) (s : Conn D)
    (h : s.stream = be32 a ++ be32 b ++ be32 c ++ be32 d ++ be32 e ++ rest) :
    readMsgHeader s = (.ok ⟨a, b, c, d, e⟩, { s with stream := rest, pos := s.pos + 20 }) := by
  unfold readMsgHeader
  rw [Go.run_bind_ok (readFull_append _ rest s h (by simp))]
  simp only [List.append_assoc, readBE32_be32, Go.lift_ok_bind]
  have : readBE32 (be32 e) = .ok (e, []) := by simpa using readBE32_be32 e []
  simp [this]

theorem readSubmitBody_ok (a b c d e : UInt32) (setup rest : Bytes) (s : Conn D) (h8 : setup.length = 8)
    (h : s.stream = be32 a ++ be32 b ++ be32 c ++ be32 d ++ be32 e ++ setup ++ rest) :
    readSubmitBody s = (.ok ⟨a, b, c, d, e, setup⟩, { s with stream := rest, pos := s.pos + 28 }) := by
  unfold readSubmitBody
  rw [Go.run_bind_ok (readFull_append _ rest s h (by simp [h8]))]
  simp only [List.append_assoc, readBE32_be32, Go.lift_ok_bind]
  simp

theorem readUnlinkBody_ok (a : UInt32) (padding rest : Bytes) (s : Conn D) (h8 : padding.length = 24)
    (h : s.stream = be32 a ++ padding ++ rest) :
    readUnlinkBody s = (.ok a, { s with stream := rest, pos := s.pos + 28 }) := by
  unfold readUnlinkBody
  rw [Go.run_bind_ok (readFull_append _ rest s h (by simp [h8]))]
  simp

theorem readControlHeader_ok (v c : UInt16) (st : UInt32) (rest : Bytes) (s : Conn D)
    (h : s.stream = be16 v ++ be16 c ++ be32 st ++ rest) :
    readControlHeader s = (.ok ⟨v, c, st⟩, { s with stream := rest, pos := s.pos + 8 }) := by
  unfold readControlHeader
  rw [Go.run_bind_ok (readFull_append _ rest s h (by simp))]
  simp only [List.append_assoc, readBE16_be16, Go.lift_ok_bind]
  have : readBE32 (be32 st) = .ok (st, []) := by simpa using readBE32_be32 st []
  simp [this]

theorem copyInto_eq_pad (n : Nat) (r : Bytes) : copyInto (List.replicate n 0) r = pad r n := by
  simp [copyInto, pad]

theorem copyInto_length (b r : Bytes) : (copyInto b r).length = b.length := by
  simp [copyInto]; omega

theorem storeResponse_length (b : Bytes) (r : Option Bytes) : (storeResponse b r).length = b.length := by
  cases r <;> simp [storeResponse, copyInto_length]

/-- The device call a command amounts to. -/
def callOf : Spec.UsbIp.Cmd → Call
  | .out seq _ ep _ _ _ _ setup data => .submit seq ep setup data
  | .inp seq _ ep _ length _ _ _ setup => .submit seq ep setup (List.replicate length.toNat 0)
  | .unlink _ _ _ _ victim _ => .unlink victim

/-- What the server writes for a command, and the device afterwards: the reference for one step. -/
def effect (device : Device D) (cmd : Spec.UsbIp.Cmd) (d : D) : Bytes × D :=
  match cmd with
  | .out seq _ ep _ _ _ _ setup data =>
    match device.submit seq ep setup data d with
    | (.panic _, d') => ([], d')
    | (.ok rs, d') => ((rs.map fun _ => Spec.UsbIp.retSubmit seq data.length []).flatten, d')
  | .inp seq devid ep _ length _ _ _ setup =>
    match device.submit seq ep setup (List.replicate length.toNat 0) d with
    | (.panic _, d') => ([], d')
    | (.ok rs, d') => (returnSubmits ⟨1, seq, devid, 1, ep⟩ (List.replicate length.toNat 0) rs, d')
  | .unlink seq _ _ _ victim _ =>
    match device.unlink victim d with
    | (.panic _, d') => ([], d')
    | (.ok removed, d') => (Spec.UsbIp.retUnlink seq (if removed then -104 else -2), d')

theorem submitReply_out (h : MsgHeader) (buf : Bytes) (hc : h.command = 1) (hd : h.direction ≠ 1) :
    submitReply h buf = Spec.UsbIp.retSubmit h.seq buf.length [] := by
  simp only [submitReply, concat_eq, dirIn]
  rw [if_neg hd]
  simp [Spec.UsbIp.retSubmit, MsgHeader.toBE, MsgHeader.replyHeader, hc, cmdSubmit, retSubmit, toBE32_eq]

theorem submitReply_in (h : MsgHeader) (buf : Bytes) (hc : h.command = 1) (hd : h.direction = 1) :
    submitReply h buf = Spec.UsbIp.retSubmit h.seq buf.length buf := by
  simp only [submitReply, concat_eq, dirIn]
  rw [if_pos hd]
  simp [Spec.UsbIp.retSubmit, MsgHeader.toBE, MsgHeader.replyHeader, hc, cmdSubmit, retSubmit, toBE32_eq]

theorem returnSubmits_out (h : MsgHeader) (hc : h.command = 1) (hd : h.direction ≠ 1)
    (rs : List (Option Bytes)) : ∀ buf, returnSubmits h buf rs =
      (rs.map fun _ => Spec.UsbIp.retSubmit h.seq buf.length []).flatten := by
  induction rs with
  | nil => intro buf; rfl
  | cons r rs ih =>
    intro buf
    rw [returnSubmits, ih, returnSubmit, submitReply_out h _ hc hd, storeResponse_length]
    rfl

/-- One iteration of the command loop on a well-formed command whose data is read at once. -/
theorem command_step (net : Net) (device : Device D) (cmd : Spec.UsbIp.Cmd) (hw : cmd.WellFormed)
    (rest : Bytes) (c : Conn D) (hs : c.stream = cmd.wire ++ rest)
    (hr : ∀ n, n ≤ net (c.pos + 48) n) :
    try' (command net device) c =
      { stream := rest
        pos := c.pos + cmd.wire.length
        out := c.out ++ (effect device cmd c.dev).1
        dev := (effect device cmd c.dev).2
        calls := c.calls ++ [callOf cmd] } := by
  cases cmd with
  | out seq devid ep flags startFrame packets interval setup data =>
    obtain ⟨h8, hl⟩ := hw
    simp only [Spec.UsbIp.Cmd.wire] at hs
    unfold try' command
    rw [Go.run_bind_ok (readMsgHeader_ok 1 seq devid 0 ep (be32 flags ++ be32 (UInt32.ofNat data.length) ++ be32 startFrame ++ be32 packets ++ be32 interval ++
      setup ++ data ++ rest) c (by rw [hs]; simp only [List.append_assoc]))]
    dsimp only
    rw [if_pos (by decide : (1 : UInt32) = cmdSubmit)]
    unfold handleCommandSubmit
    rw [Go.run_bind_ok (readSubmitBody_ok flags (UInt32.ofNat data.length) startFrame packets interval setup
      (data ++ rest) _ h8 (by simp only [List.append_assoc]))]
    have hlen : (UInt32.ofNat data.length).toNat = data.length := by
      rw [UInt32.toNat_ofNat']; omega
    simp only [hlen]
    by_cases h0 : data.length = 0
    · have : data = [] := List.length_eq_zero_iff.mp h0
      subst this
      rcases hd : device.submit seq ep setup [] c.dev with ⟨r, d'⟩
      simp [dirOut, Go.run_bind, callDevice, effect, callOf, Spec.UsbIp.Cmd.wire, h8, hd]
      cases r with
      | panic _ => simp [Nat.add_assoc]
      | ok rs =>
        simp [writeResponse, Nat.add_assoc]
        rw [returnSubmits_out _ rfl (by simp)]; simp
    · have hgt : UInt32.ofNat data.length > 0 := by
        rw [gt_iff_lt, UInt32.lt_iff_toNat_lt, hlen]; simp; omega
      rw [if_pos ⟨rfl, hgt⟩]
      rw [Go.run_bind_ok (readOnce_full (net := net) data rest _ rfl rfl h0 (by simpa [Nat.add_assoc] using hr _))]
      rcases hd : device.submit seq ep setup data c.dev with ⟨r, d'⟩
      simp [Go.run_bind, callDevice, effect, callOf, Spec.UsbIp.Cmd.wire, h8, hd]
      cases r with
      | panic _ => simp [Nat.add_assoc]; omega
      | ok rs =>
        simp [writeResponse, Nat.add_assoc]
        refine ⟨by omega, ?_⟩
        rw [returnSubmits_out _ rfl (by simp)]
  | inp seq devid ep flags length startFrame packets interval setup =>
    have h8 : setup.length = 8 := hw
    simp only [Spec.UsbIp.Cmd.wire] at hs
    unfold try' command
    rw [Go.run_bind_ok (readMsgHeader_ok 1 seq devid 1 ep (be32 flags ++ be32 length ++ be32 startFrame ++ be32 packets ++ be32 interval ++
      setup ++ rest) c (by rw [hs]; simp only [List.append_assoc]))]
    dsimp only
    rw [if_pos (by decide : (1 : UInt32) = cmdSubmit)]
    unfold handleCommandSubmit
    rw [Go.run_bind_ok (readSubmitBody_ok flags length startFrame packets interval setup
      rest _ h8 (by simp only [List.append_assoc]))]
    rcases hd : device.submit seq ep setup (List.replicate length.toNat 0) c.dev with ⟨r, d'⟩
    simp [dirOut, Go.run_bind, callDevice, effect, callOf, Spec.UsbIp.Cmd.wire, h8, hd]
    cases r with
    | panic _ => simp [Nat.add_assoc]
    | ok rs => simp [writeResponse, Nat.add_assoc]
  | unlink seq devid dir ep victim padding =>
    have h8 : padding.length = 24 := hw
    simp only [Spec.UsbIp.Cmd.wire] at hs
    unfold try' command
    rw [Go.run_bind_ok (readMsgHeader_ok 2 seq devid dir ep (be32 victim ++ padding ++ rest) c (by rw [hs]; simp only [List.append_assoc]))]
    dsimp only
    rw [if_neg (by decide : ¬ (2 : UInt32) = cmdSubmit), if_pos (by decide : (2 : UInt32) = cmdUnlink)]
    unfold handleCommandUnlink
    rw [Go.run_bind_ok (readUnlinkBody_ok victim padding rest _ h8 (by simp only [List.append_assoc]))]
    rcases hd : device.unlink victim c.dev with ⟨r, d'⟩
    simp [Go.run_bind, callDevice, effect, callOf, Spec.UsbIp.Cmd.wire, h8, hd]
    cases r with
    | panic _ => simp [Nat.add_assoc]
    | ok removed =>
      cases removed <;>
        simp [writeResponse, Nat.add_assoc, concat_eq, MsgHeader.toBE, toBE32_eq, MsgHeader.replyHeader,
          cmdSubmit, cmdUnlink, retUnlink, Spec.UsbIp.retUnlink] <;> decide

theorem handleCommands_add (net : Net) (device : Device D) (m n : Nat) (c : Conn D) :
    handleCommands net device (m + n) c = handleCommands net device n (handleCommands net device m c) := by
  induction m generalizing c with
  | zero => simp [handleCommands]
  | succ m ih => rw [Nat.succ_add, handleCommands, ih, handleCommands]

/-- At the end of the stream an iteration changes nothing. -/
theorem command_eof (net : Net) (device : Device D) (c : Conn D) (h : c.stream = []) :
    try' (command net device) c = c := by
  unfold try' command readMsgHeader
  rw [Go.run_bind_panic (Go.run_bind_panic (readFull_short 20 c (by simp [h])))]
  cases c; simp at h; subst h; rfl

end VF.UsbIp
