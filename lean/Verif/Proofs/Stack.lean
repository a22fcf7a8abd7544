import Verif.Model.Stack
import Verif.Spec.Stack
import Verif.Proofs.UsbIp
import Verif.Proofs.RequestBuffer
import Verif.Proofs.HidRun

/-! # Lemmas about the whole transport -/

namespace VF.Stack

open Util Spec.UsbIp Spec.Stack

variable {W H : Type}

/-! ## Reading replies -/

/-- The bytes of a reply. -/
def Reply.wire (r : Reply) : Bytes :=
  match r.cmd with
  | .inp seq .. => retSubmit seq r.data.length r.data
  | .out seq _ _ _ _ _ _ _ data => retSubmit seq data.length []
  | .unlink seq .. => be32 4 ++ be32 seq ++ be32 0 ++ be32 0 ++ be32 0 ++ r.status ++ List.replicate 24 0

/-- Fields are as the server fills them. -/
def Reply.Ok (r : Reply) : Prop :=
  match r.cmd with
  | .inp _ _ _ _ length _ _ _ _ => r.status = be32 0 ∧ r.data.length = length.toNat
  | .out .. => r.status = be32 0 ∧ r.data = []
  | .unlink .. => r.status.length = 4 ∧ r.data = []

theorem number_be32 (n : UInt32) : number (be32 n) = n.toNat := by
  have := n.toNat_lt
  simp [number, be32, UInt8.toNat_ofNat']
  omega

theorem find_seq {sent : List Cmd} (hn : (sent.map seqOf).Nodup) {cmd : Cmd} (hm : cmd ∈ sent) :
    sent.find? (fun c => be32 (seqOf c) == be32 (seqOf cmd) && be32 (replyCode c) == be32 (replyCode cmd)) =
      some cmd := by
  induction sent with
  | nil => simp at hm
  | cons x xs ih =>
    simp only [List.map_cons, List.nodup_cons] at hn
    rw [List.mem_cons] at hm
    rcases hm with rfl | hm
    · rw [List.find?_cons_of_pos (by simp)]
    · rw [List.find?_cons_of_neg, ih hn.2 hm]
      simp only [Bool.and_eq_true, beq_iff_eq, not_and]
      intro h
      exfalso
      exact hn.1 (by rw [be32_inj h]; exact List.mem_map.mpr ⟨_, hm, rfl⟩)

theorem wire_length (r : Reply) (h : Reply.Ok r) : 48 ≤ (Reply.wire r).length := by
  obtain ⟨cmd, st, d⟩ := r
  cases cmd <;> simp_all [Reply.wire, Reply.Ok, retSubmit]
  omega

theorem read_cons {sent : List Cmd} (hn : (sent.map seqOf).Nodup) (r : Reply) (hm : r.cmd ∈ sent)
    (hok : Reply.Ok r) (n : Nat) (rest : Bytes) :
    readReplies sent (n + 1) (Reply.wire r ++ rest) = r :: readReplies sent n rest := by
  obtain ⟨cmd, st, d⟩ := r
  have hl := wire_length _ hok
  have hnl : ¬ ((Reply.wire ⟨cmd, st, d⟩ ++ rest).length < 48) := by simp; omega
  have h4 : word (Reply.wire ⟨cmd, st, d⟩ ++ rest) 4 = be32 (seqOf cmd) := by
    cases cmd <;> rfl
  have h0 : word (Reply.wire ⟨cmd, st, d⟩ ++ rest) 0 = be32 (replyCode cmd) := by
    cases cmd <;> rfl
  rw [readReplies]
  rw [if_neg hnl, h4, h0, find_seq hn hm]
  dsimp only
  cases cmd with
  | inp seq devid ep flags length f p i setup =>
    obtain ⟨h1, h2⟩ := hok
    dsimp only at h1 h2
    have e : word (Reply.wire ⟨.inp seq devid ep flags length f p i setup, st, d⟩ ++ rest) 24 =
      be32 (UInt32.ofNat d.length) := rfl
    have e2 : (UInt32.ofNat d.length).toNat = d.length := by
      rw [h2]; simp
    have e3 : word (Reply.wire ⟨.inp seq devid ep flags length f p i setup, st, d⟩ ++ rest) 20 = be32 0 := rfl
    have e4 : (Reply.wire ⟨.inp seq devid ep flags length f p i setup, st, d⟩ ++ rest).drop 48 = d ++ rest := rfl
    simp only [following, e, number_be32, e2, e3, e4, ← List.drop_drop]
    simp [h1]
  | out seq devid ep flags f p i setup data =>
    obtain ⟨h1, h2⟩ := hok
    dsimp only at h1 h2
    subst h1; subst h2
    simp only [following]
    congr 1
  | unlink seq devid dir ep victim padding =>
    obtain ⟨h1, h2⟩ := hok
    dsimp only at h1 h2
    subst h2
    match st, h1 with
    | [a, b, c, d], _ =>
      simp only [following]
      congr 1

theorem read_all {sent : List Cmd} (hn : (sent.map seqOf).Nodup) (rs : List Reply)
    (hm : ∀ r ∈ rs, r.cmd ∈ sent ∧ Reply.Ok r) (n : Nat) (h : rs.length ≤ n) :
    readReplies sent n (rs.map Reply.wire).flatten = rs := by
  induction rs generalizing n with
  | nil => cases n <;> simp [readReplies]
  | cons r rs ih =>
    obtain ⟨n, rfl⟩ : ∃ k, n = k + 1 := ⟨n - 1, by simp at h; omega⟩
    rw [List.map_cons, List.flatten_cons, read_cons hn r (hm r (by simp)).1 (hm r (by simp)).2,
      ih (fun x hx => hm x (by simp [hx])) n (by simpa using h)]

theorem replies_all {sent : List Cmd} (hn : (sent.map seqOf).Nodup) (rs : List Reply)
    (hm : ∀ r ∈ rs, r.cmd ∈ sent ∧ Reply.Ok r) : replies sent (rs.map Reply.wire).flatten = rs := by
  apply read_all hn rs hm
  induction rs with
  | nil => simp
  | cons r rs ih =>
    have := ih (fun x hx => hm x (by simp [hx]))
    have := wire_length r (hm r (by simp)).2
    simp only [List.map_cons, List.flatten_cons, List.length_append, List.length_cons]
    omega

/-! ## One command -/

/-- The header of a command. -/
def headerOf : Cmd → UsbIp.MsgHeader
  | .out seq devid ep .. => ⟨1, seq, devid, 0, ep⟩
  | .inp seq devid ep .. => ⟨1, seq, devid, 1, ep⟩
  | .unlink seq devid dir ep .. => ⟨2, seq, devid, dir, ep⟩

theorem command_eq (net : UsbIp.Net) (cmd : Cmd) (rest : Bytes) (c : UsbIp.Conn (DevOf H))
    (hs : c.stream = cmd.wire ++ rest) :
    command net c = UsbIp.command net (device (headerOf cmd)) c := by
  have key : ∃ c', UsbIp.readMsgHeader c = (.ok (headerOf cmd), c') := by
    cases cmd with
    | out seq devid ep flags f p i setup data =>
      exact ⟨_, UsbIp.readMsgHeader_ok 1 seq devid 0 ep _ c (by
        rw [hs]; simp only [Cmd.wire, List.append_assoc]; rfl)⟩
    | inp seq devid ep flags length f p i setup =>
      exact ⟨_, UsbIp.readMsgHeader_ok 1 seq devid 1 ep _ c (by
        rw [hs]; simp only [Cmd.wire, List.append_assoc]; rfl)⟩
    | unlink seq devid dir ep victim padding =>
      exact ⟨_, UsbIp.readMsgHeader_ok 2 seq devid dir ep _ c (by
        rw [hs]; simp only [Cmd.wire, List.append_assoc]; rfl)⟩
  obtain ⟨c', hc⟩ := key
  unfold command UsbIp.command
  rw [Go.run_bind_ok hc, Go.run_bind_ok hc]

/-- One iteration of the command loop. -/
theorem command_step (net : UsbIp.Net) (hf : UsbIp.FullReads net) (cmd : Cmd) (hw : cmd.WellFormed)
    (rest : Bytes) (c : UsbIp.Conn (DevOf H)) (hs : c.stream = cmd.wire ++ rest) :
    UsbIp.try' (command net) c =
      { stream := rest
        pos := c.pos + cmd.wire.length
        out := c.out ++ (UsbIp.effect (device (headerOf cmd)) cmd c.dev).1
        dev := (UsbIp.effect (device (headerOf cmd)) cmd c.dev).2
        calls := c.calls ++ [UsbIp.callOf cmd] } := by
  have : UsbIp.try' (command net) c = UsbIp.try' (UsbIp.command net (device (headerOf cmd))) c := by
    unfold UsbIp.try'; rw [command_eq net cmd rest c hs]
  rw [this]
  exact UsbIp.command_step net _ cmd hw rest c hs (fun n => hf _ n)

/-- The closure made for a poll. -/
def pollCallback (cmd : Cmd) : Callback := ⟨headerOf cmd, List.replicate 64 0⟩

/-- How the device reacts to a command: the replies written at once and the device afterwards. -/
inductive React : Cmd → Usb.State Callback → List Reply → Usb.State Callback → Prop
  /-- the request was not understood: no reply -/
  | lost {cmd u} (h1 : isPoll cmd = false) (h2 : reportOf cmd = none) (h3 : victimOf cmd = none) :
      React cmd u [] u
  | control {cmd u r} (h1 : isPoll cmd = false) (h2 : reportOf cmd = none) (h3 : victimOf cmd = none)
      (hr : r.cmd = cmd) (hok : Reply.Ok r) : React cmd u [r] u
  | served {cmd u d ds} (h1 : isPoll cmd = true) (hd : u.buf.responses = d :: ds) :
      React cmd u [⟨cmd, be32 0, pad d 64⟩]
        { u with
          buf := ⟨u.buf.waiting, ds⟩
          timers := u.timers ++ [(seqOf cmd, pollCallback cmd)] }
  | waits {cmd u} (h1 : isPoll cmd = true) (hd : u.buf.responses = []) :
      React cmd u []
        { u with
          buf := ⟨Buf.setWaiting (seqOf cmd) (pollCallback cmd) u.buf.waiting, []⟩
          timers := u.timers ++ [(seqOf cmd, pollCallback cmd)] }
  | report {cmd u data} (h1 : reportOf cmd = some data) :
      React cmd u [⟨cmd, be32 0, []⟩] { u with delivered := u.delivered ++ [data] }
  | unlinked {cmd u victim} (h1 : victimOf cmd = some victim) :
      React cmd u [⟨cmd, if (Buf.cancelRequest victim u.buf).2.isSome then withdrawn else notFound, []⟩]
        { u with buf := (Buf.cancelRequest victim u.buf).1 }

theorem readSetup_ok (b : Bytes) (h : b.length = 8) : ∃ s, Usb.readSetup b = .ok s := by
  match b, h with
  | [a, b, c, d, e, f, g, h], _ => exact ⟨_, rfl⟩

theorem reply_in (h : UsbIp.MsgHeader) (hc : h.command = 1) (hd : h.direction = 1) (n : Nat) (r : Option Bytes) :
    UsbIp.returnSubmit h (List.replicate n 0) r = retSubmit h.seq n (pad (r.getD []) n) := by
  rw [UsbIp.returnSubmit, UsbIp.submitReply_in h _ hc hd, UsbIp.storeResponse_length]
  cases r with
  | none => simp [UsbIp.storeResponse, pad]
  | some r => simp [UsbIp.storeResponse, UsbIp.copyInto_eq_pad]

theorem effect_react (cmd : Cmd) (hu : Usual cmd) (d : DevOf H) :
    ∃ rs usb', React cmd d.usb rs usb' ∧
      UsbIp.effect (device (headerOf cmd)) cmd d = ((rs.map Reply.wire).flatten, { d with usb := usb' }) := by
  cases cmd with
  | out seq devid ep flags f p i setup data =>
    obtain ⟨⟨h8, hl⟩, hep⟩ := hu
    obtain ⟨s, hs⟩ := readSetup_ok setup h8
    by_cases h2 : ep = 2
    · subst h2
      refine ⟨_, _, .report (data := data) (by simp [reportOf]), ?_⟩
      simp [UsbIp.effect, device, onUsb, Usb.device, Usb.handleMessage, hs, Go.lift_ok_bind,
        Go.run_bind, Reply.wire, headerOf]
    · by_cases h0 : ep = 0
      · subst h0
        rcases hc : Usb.handleControlMessage s with r | c
        · refine ⟨_, _, .control (r := ⟨.out seq devid 0 flags f p i setup data, be32 0, []⟩) rfl
            (by simp [reportOf]) rfl rfl ⟨rfl, rfl⟩, ?_⟩
          simp [UsbIp.effect, device, onUsb, Usb.device, Usb.handleMessage, hs, Go.lift_ok_bind, hc,
            Reply.wire]
        · refine ⟨_, _, .lost rfl (by simp [reportOf]) rfl, ?_⟩
          simp [UsbIp.effect, device, onUsb, Usb.device, Usb.handleMessage, hs, Go.lift_ok_bind, hc,
            Go.run_bind]
      · refine ⟨_, _, .lost rfl (by simp [reportOf, h2]) rfl, ?_⟩
        simp [UsbIp.effect, device, onUsb, Usb.device, Usb.handleMessage, hs, Go.lift_ok_bind, h0, h2, hep,
          Go.throw]
  | inp seq devid ep flags length f p i setup =>
    obtain ⟨h8, hep, h2⟩ := hu
    obtain ⟨s, hs⟩ := readSetup_ok setup h8
    by_cases h1 : ep = 1
    · have hlen := hep h1
      subst h1; subst hlen
      rcases hr : d.usb.buf.responses with _ | ⟨x, xs⟩
      · refine ⟨_, _, .waits rfl hr, ?_⟩
        simp [UsbIp.effect, device, onUsb, Usb.device, Usb.handleMessage, hs, Go.lift_ok_bind,
          Go.run_bind, Buf.request, hr, UsbIp.returnSubmits, seqOf, pollCallback, headerOf]
      · refine ⟨_, _, .served rfl hr, ?_⟩
        simp [UsbIp.effect, device, onUsb, Usb.device, Usb.handleMessage, hs, Go.lift_ok_bind,
          Go.run_bind, Buf.request, hr, UsbIp.returnSubmits, seqOf, pollCallback, headerOf, Reply.wire]
        exact reply_in ⟨1, seq, devid, 1, 1⟩ rfl rfl 64 (some x)
    · by_cases h0 : ep = 0
      · subst h0
        rcases hc : Usb.handleControlMessage s with r | c
        · refine ⟨_, _, .control (r := ⟨.inp seq devid 0 flags length f p i setup, be32 0, pad (r.getD []) length.toNat⟩) rfl
            rfl rfl rfl ⟨rfl, by simp⟩, ?_⟩
          simp [UsbIp.effect, device, onUsb, Usb.device, Usb.handleMessage, hs, Go.lift_ok_bind, hc,
            Reply.wire, UsbIp.returnSubmits]
          exact reply_in ⟨1, seq, devid, 1, 0⟩ rfl rfl length.toNat r
        · refine ⟨_, _, .lost rfl rfl rfl, ?_⟩
          simp [UsbIp.effect, device, onUsb, Usb.device, Usb.handleMessage, hs, Go.lift_ok_bind, hc,
            Go.run_bind]
      · refine ⟨_, _, .lost (by simp [isPoll, h1]) rfl rfl, ?_⟩
        simp [UsbIp.effect, device, onUsb, Usb.device, Usb.handleMessage, hs, Go.lift_ok_bind, h0, h1, h2,
          Go.throw]
  | unlink seq devid dir ep victim padding =>
    refine ⟨_, _, .unlinked (victim := victim) rfl, ?_⟩
    simp only [UsbIp.effect, device, onUsb, Usb.removeWaitingRequest, Go.get_bind_run, Go.modify_bind_run,
      Go.run_pure]
    cases (Buf.cancelRequest victim d.usb.buf).2.isSome <;>
      simp [Reply.wire, retUnlink] <;> decide

/-! ## Counting -/

section
variable {K : Type}

theorem count_remove_self (id : UInt32) (m : List (UInt32 × K)) :
    (Buf.remove id m).countP (fun e => e.1 == id) = 0 := by
  rw [List.countP_eq_zero]
  intro e he
  have := (Buf.mem_remove.mp he).2
  simpa using this

theorem count_remove_ne {id j : UInt32} (h : id ≠ j) (m : List (UInt32 × K)) :
    (Buf.remove id m).countP (fun e => e.1 == j) = m.countP (fun e => e.1 == j) := by
  induction m with
  | nil => rfl
  | cons x xs ih =>
    by_cases hx : x.1 = id
    · have : Buf.remove id (x :: xs) = Buf.remove id xs := by simp [Buf.remove, List.filter_cons, hx]
      rw [this, ih, List.countP_cons_of_neg]
      simp [hx, h]
    · have : Buf.remove id (x :: xs) = x :: Buf.remove id xs := by simp [Buf.remove, List.filter_cons, hx]
      rw [this, List.countP_cons, List.countP_cons, ih]

theorem count_mem {m : List (UInt32 × K)} (h : (m.map (·.1)).Nodup) {id : UInt32} {k : K} (hm : (id, k) ∈ m) :
    m.countP (fun e => e.1 == id) = 1 := by
  induction m with
  | nil => simp at hm
  | cons x xs ih =>
    simp only [List.map_cons, List.nodup_cons] at h
    rw [List.mem_cons] at hm
    have h0 : x.1 = id → xs.countP (fun e => e.1 == id) = 0 := by
      intro hx
      rw [List.countP_eq_zero]
      intro e he
      simp only [beq_iff_eq]
      intro hc
      exact h.1 (by rw [hx, ← hc]; exact List.mem_map.mpr ⟨e, he, rfl⟩)
    rcases hm with hm | hm
    · subst hm
      rw [List.countP_cons_of_pos (by simp), h0 rfl]
    · have hx : x.1 ≠ id := by
        intro hc; exact h.1 (by rw [hc]; exact List.mem_map.mpr ⟨_, hm, rfl⟩)
      rw [List.countP_cons_of_neg (by simpa using hx), ih h.2 hm]

theorem count_none {m : List (UInt32 × K)} {id : UInt32} (h : ∀ e ∈ m, e.1 ≠ id) :
    m.countP (fun e => e.1 == id) = 0 := by
  rw [List.countP_eq_zero]; intro e he; simpa using h e he

end

theorem seq_inj {cmds : List Cmd} (hn : (cmds.map seqOf).Nodup) {a b : Cmd} (ha : a ∈ cmds) (hb : b ∈ cmds)
    (h : seqOf a = seqOf b) : a = b := by
  induction cmds with
  | nil => simp at ha
  | cons x xs ih =>
    simp only [List.map_cons, List.nodup_cons] at hn
    rw [List.mem_cons] at ha hb
    rcases ha with ha | ha <;> rcases hb with hb | hb
    · rw [ha, hb]
    · subst ha; exact absurd (by rw [h]; exact List.mem_map.mpr ⟨_, hb, rfl⟩) hn.1
    · subst hb; exact absurd (by rw [← h]; exact List.mem_map.mpr ⟨_, ha, rfl⟩) hn.1
    · exact ih hn.2 ha hb

/-! ## The invariant of a session -/

/-- `total` is what the HID server has sent. -/
structure InvOf (cmds : List Cmd) (c : UsbIp.Conn (DevOf H)) (total : List Bytes) (done todo : List Cmd)
    (rs : List Reply) : Prop where
  split : cmds = done ++ todo
  stream : c.stream = (todo.map Cmd.wire).flatten
  out : c.out = (rs.map Reply.wire).flatten
  replied : ∀ r ∈ rs, r.cmd ∈ done ∧ Reply.Ok r
  buf : Buf.Inv c.dev.usb.buf
  waiting : ∀ e ∈ c.dev.usb.buf.waiting, ∃ cmd ∈ done, isPoll cmd = true ∧ seqOf cmd = e.1 ∧
    e.2 = pollCallback cmd
  timers : ∀ e ∈ c.dev.usb.timers, ∃ cmd ∈ done, isPoll cmd = true ∧ seqOf cmd = e.1 ∧
    e.2 = pollCallback cmd
  wd : ∀ r ∈ rs, ∀ id, withdraws id r = true → ∃ cmd ∈ done, seqOf cmd = id
  fate : ∀ cmd ∈ done, isPoll cmd = true →
    rs.countP (fun r => r.cmd == cmd) + rs.countP (withdraws (seqOf cmd)) +
      c.dev.usb.buf.waiting.countP (fun e => e.1 == seqOf cmd) = 1
  other : ∀ cmd ∈ done, isPoll cmd = false → rs.countP (fun r => r.cmd == cmd) ≤ 1 ∧
    ((reportOf cmd).isSome ∨ (victimOf cmd).isSome → rs.countP (fun r => r.cmd == cmd) = 1)
  len : ∀ p ∈ total, p.length = 64
  data : ∃ sent, Padded (reports rs) sent ∧ total = sent ++ c.dev.usb.buf.responses ++ c.dev.outbox

abbrev Inv (cmds : List Cmd) (c : UsbIp.Conn (Dev W)) (done todo : List Cmd) (rs : List Reply) : Prop :=
  InvOf cmds c c.dev.hid.out done todo rs

theorem isPoll_cases {cmd : Cmd} (h : isPoll cmd = true) :
    ∃ seq devid flags length f p i setup, cmd = .inp seq devid 1 flags length f p i setup := by
  cases cmd with
  | out => simp [isPoll] at h
  | unlink => simp [isPoll] at h
  | inp seq devid ep flags length f p i setup =>
    simp only [isPoll, beq_iff_eq] at h
    subst h
    exact ⟨_, _, _, _, _, _, _, _, rfl⟩

theorem not_withdraws_of_not_unlink {r : Reply} {id : UInt32} (h : victimOf r.cmd = none) :
    withdraws id r = false := by simp [withdraws, h]

theorem reports_append (a b : List Reply) : reports (a ++ b) = reports a ++ reports b := by
  simp [reports]

theorem reports_other {r : Reply} (h : isPoll r.cmd = false) : reports [r] = [] := by
  simp [reports, h]

theorem reports_poll {r : Reply} (h : isPoll r.cmd = true) : reports [r] = [r.data] := by
  simp [reports, h]

end VF.Stack
