import Verif.Proofs.UsbIp

/-!
# Properties C20 to C26: the USB/IP server

`Conn` is a client connection (what it will still send, what was written to it), `Device` an exported
device of arbitrary behaviour, `Net` decides how many bytes each socket read returns.
-/

namespace VF

open UsbIp Spec.UsbIp Util

variable {D : Type}

/-- Data cut or zero-padded to exactly `n` bytes. -/
def fit (n : Nat) (data : Bytes) : Bytes := data.take n ++ List.replicate (n - data.length) 0

@[simp] theorem fit_length (n : Nat) (data : Bytes) : (fit n data).length = n := by
  simp [fit]; omega

/-! ## C20 -/

/-- The reply to an IN transfer, whenever the device completes it, is the 48-byte RET_SUBMIT with
the request's sequence number and the requested length, followed by exactly that many bytes: the
device's data cut or padded with zeros.  The reply to an OUT transfer is the 48-byte RET_SUBMIT alone.
Both for every header, length, transfer buffer and response (including no response at all). -/
theorem C20_ret_submit (h : MsgHeader) (hc : h.command = 1) :
    (h.direction = 1 → ∀ (n : Nat) (r : Option Bytes),
      returnSubmit h (List.replicate n 0) r = retSubmit h.seq n (fit n (r.getD [])) ∧
      (returnSubmit h (List.replicate n 0) r).length = 48 + n) ∧
    (h.direction = 0 → ∀ (buf : Bytes) (r : Option Bytes),
      returnSubmit h buf r = retSubmit h.seq buf.length [] ∧ (returnSubmit h buf r).length = 48) := by
  constructor
  · intro hd n r
    have e : returnSubmit h (List.replicate n 0) r = retSubmit h.seq n (fit n (r.getD [])) := by
      rw [returnSubmit, submitReply_in h _ hc hd, storeResponse_length]
      cases r with
      | none => simp [storeResponse, fit]
      | some r => simp [storeResponse, copyInto_eq_pad, pad, fit]
    refine ⟨e, ?_⟩
    rw [e]; simp [Spec.UsbIp.retSubmit]; omega
  · intro hd buf r
    have e : returnSubmit h buf r = retSubmit h.seq buf.length [] := by
      rw [returnSubmit, submitReply_out h _ hc (by rw [hd]; decide), storeResponse_length]
    refine ⟨e, ?_⟩
    rw [e]; simp [Spec.UsbIp.retSubmit]

/-- The same through the server: when the device completes a transfer at once, exactly that reply is
appended to the connection's output. -/
theorem C20_ret_submit_sent (net : Net) (device : Device D) (cmd : Cmd) (hw : cmd.WellFormed)
    (hf : FullReads net) (rest : Bytes) (c : Conn D) (hs : c.stream = cmd.wire ++ rest)
    (r : Option Bytes) (d' : D) :
    (∀ seq devid ep flags len f p i setup, cmd = .inp seq devid ep flags len f p i setup →
      device.submit seq ep setup (List.replicate len.toNat 0) c.dev = (.ok [r], d') →
      (try' (command net device) c).out =
        c.out ++ retSubmit seq len.toNat (fit len.toNat (r.getD []))) ∧
    (∀ seq devid ep flags f p i setup data, cmd = .out seq devid ep flags f p i setup data →
      device.submit seq ep setup data c.dev = (.ok [r], d') →
      (try' (command net device) c).out = c.out ++ retSubmit seq data.length []) := by
  have hstep := command_step net device cmd hw rest c hs (fun n => hf _ n)
  constructor
  · intro seq devid ep flags len f p i setup hcmd hdev
    rw [hstep]; subst hcmd
    simp only [effect, hdev, returnSubmits, List.append_nil]
    rw [((C20_ret_submit ⟨1, seq, devid, 1, ep⟩ rfl).1 rfl _ _).1]
  · intro seq devid ep flags f p i setup data hcmd hdev
    rw [hstep]; subst hcmd
    simp [effect, hdev]

/-- A device answering every submit with two bytes. -/
def echoDevice : Device Unit where
  busID := ascii "2-2"
  summary := ⟨List.replicate 256 0, List.replicate 32 0, 2, 2, 2, 0, 0, 1, 0, 0, 0, 0, 1, 1⟩
  submit := fun _ _ _ _ => pure [some [7, 8]]
  unlink := fun _ => pure true

/-- A network delivering what is asked for. -/
def wholeNet : Net := fun _ n => n

example : (try' (command wholeNet echoDevice)
    { stream := (Cmd.inp 9 0 2 0 4 0 0 0 (List.replicate 8 0)).wire, pos := 0, out := [], dev := (), calls := [] }).out =
    retSubmit 9 4 [7, 8, 0, 0] := by decide

/-! ## C21 -/

/-- Each command the client wrote, whatever the device does, reaches the device with its fields and
data, in order, nothing else reaches it, and the following bytes of the stream are left in place:
for every sequence of commands, when reads return the bytes asked for. -/
theorem C21_decoded_exactly (net : Net) (hf : FullReads net) (device : Device D) (cmds : List Cmd)
    (hw : ∀ cmd ∈ cmds, cmd.WellFormed) (rest : Bytes) (c : Conn D)
    (hs : c.stream = (cmds.map Cmd.wire).flatten ++ rest) :
    let c' := handleCommands net device cmds.length c
    c'.stream = rest ∧
    c'.calls = c.calls ++ cmds.map fun
      | .out seq _ ep _ _ _ _ setup data => Call.submit seq ep setup data
      | .inp seq _ ep _ length _ _ _ setup => Call.submit seq ep setup (List.replicate length.toNat 0)
      | .unlink _ _ _ _ victim _ => Call.unlink victim := by
  induction cmds generalizing c with
  | nil => simp_all [handleCommands]
  | cons cmd cmds ih =>
    have hstep := command_step net device cmd (hw cmd (by simp)) ((cmds.map Cmd.wire).flatten ++ rest) c
      (by rw [hs]; simp) (fun n => hf _ n)
    have := ih (fun x hx => hw x (by simp [hx])) (try' (command net device) c) (by rw [hstep])
    simp only [List.length_cons, handleCommands]
    refine ⟨this.1, ?_⟩
    rw [this.2, hstep]
    cases cmd <;> simp [callOf]

/-- The example command: eight bytes of OUT data. -/
def exampleOut : Cmd := .out 1 0 2 0 0 0 0 (List.replicate 8 0) [1, 2, 3, 4, 5, 6, 7, 8]

example : exampleOut.WellFormed ∧ (Cmd.unlink 2 0 0 0 1 (List.replicate 24 0)).WellFormed := by
  simp [exampleOut, Cmd.WellFormed]

/-- Without the proviso it is false: when the first read of the transfer buffer returns one byte
(TCP delivered it in two pieces), the device gets seven wrong data bytes and never sees the unlink
that follows. -/
theorem C21_split_refuted :
    ∃ (net : Net) (cmds : List Cmd), (∀ cmd ∈ cmds, cmd.WellFormed) ∧
      ∀ n, (handleCommands net echoDevice n
          { stream := (cmds.map Cmd.wire).flatten, pos := 0, out := [], dev := (), calls := [] }).calls ≠
        [.submit 1 2 (List.replicate 8 0) [1, 2, 3, 4, 5, 6, 7, 8], .unlink 1] ∧
        .unlink 1 ∉ (handleCommands net echoDevice n
          { stream := (cmds.map Cmd.wire).flatten, pos := 0, out := [], dev := (), calls := [] }).calls := by
  refine ⟨fun _ _ => 1, [exampleOut, .unlink 2 0 0 0 1 (List.replicate 24 0)], by
    simp [exampleOut, Cmd.WellFormed], fun n => ?_⟩
  -- two iterations run into the end of the stream; from there nothing changes
  have key : ∀ n, ∃ k, k ≤ 4 ∧ handleCommands (fun _ _ => 1) echoDevice n
      { stream := ([exampleOut, .unlink 2 0 0 0 1 (List.replicate 24 0)].map Cmd.wire).flatten, pos := 0, out := [], dev := (), calls := [] } =
      handleCommands (fun _ _ => 1) echoDevice k
      { stream := ([exampleOut, .unlink 2 0 0 0 1 (List.replicate 24 0)].map Cmd.wire).flatten, pos := 0, out := [], dev := (), calls := [] } := by
    intro n
    by_cases hn : n ≤ 4
    · exact ⟨n, hn, rfl⟩
    · refine ⟨4, Nat.le_refl _, ?_⟩
      have : n = 4 + (n - 4) := by omega
      rw [this, handleCommands_add]
      generalize n - 4 = m
      have h4 : (handleCommands (fun _ _ => 1) echoDevice 4
        { stream := ([exampleOut, .unlink 2 0 0 0 1 (List.replicate 24 0)].map Cmd.wire).flatten, pos := 0, out := [], dev := (), calls := [] }).stream = [] := by
        decide +kernel
      generalize handleCommands (fun _ _ => 1) echoDevice 4 _ = c at h4
      induction m with
      | zero => rfl
      | succ m ih => rw [handleCommands, command_eof _ _ _ h4, ih]
  obtain ⟨k, hk, e⟩ := key n
  rw [e]
  have : k = 0 ∨ k = 1 ∨ k = 2 ∨ k = 3 ∨ k = 4 := by omega
  rcases this with h | h | h | h | h <;> subst h <;> decide +kernel

/-! ## C22 -/

/-- Nothing at all is sent in answer to a device-list request, whatever the exported devices: in
particular no OP_REP_DEVLIST.  The connection goes on with what follows. -/
theorem C22_devlist_refuted (net : Net) (devices : List (Device D)) (version : UInt16) (status : UInt32)
    (rest : Bytes) (c : Conn D) (hs : c.stream = reqDevlist version status ++ rest) :
    control net devices c = (.ok none, { c with stream := rest, pos := c.pos + 8 }) ∧
    ∀ listed, (control net devices c).2.out ≠ c.out ++ repDevlist listed := by
  have e : control net devices c = (.ok none, { c with stream := rest, pos := c.pos + 8 }) := by
    unfold UsbIp.control
    rw [Go.run_bind_ok (readControlHeader_ok version 0x8005 status rest c (by rw [hs]; rfl))]
    simp [opReqDevlist, devlistReply, toBENotFixedSize, writeResponse]
  refine ⟨e, fun listed h => ?_⟩
  rw [e] at h
  have := congrArg List.length h
  simp [repDevlist] at this

example : ∃ c : Conn Unit, c.stream = reqDevlist 0x0111 0 ++ [] ∧ [echoDevice] ≠ [] :=
  ⟨⟨reqDevlist 0x0111 0, 0, [], (), []⟩, by simp, by simp⟩

/-! ## C23 -/

/-- How the specification sees a device. -/
def infoOf (s : SummaryHeader) : Info where
  path := s.path
  busId := s.busID
  busnum := s.busnum
  devnum := s.devnum
  speed := s.speed
  idVendor := s.idVendor
  idProduct := s.idProduct
  bcdDevice := s.bcdDevice
  tail := [s.deviceClass, s.deviceSubclass, s.deviceProtocol, s.configurationValue, s.numConfigurations,
    s.numInterfaces]

/-- An import request for bus id `b` (terminated by a zero byte in its 32-byte field, whatever
follows it) is answered with the first exported device of exactly that bus id, which is then served;
if there is none, with status 1 and nothing else, and the connection goes on with the control request
that follows. -/
theorem C23_import (net : Net) (hf : FullReads net) (devices : List (Device D)) (version : UInt16)
    (status : UInt32) (b junk rest : Bytes) (hb : 0 ∉ b) (hlen : (b ++ 0 :: junk).length = 32) (c : Conn D)
    (hs : c.stream = reqImport version status (b ++ 0 :: junk) ++ rest) :
    (∀ before device after, devices = before ++ device :: after → device.busID = b →
      (∀ d ∈ before, d.busID ≠ b) →
      control net devices c = (.ok (some device),
        { c with
          stream := rest
          pos := c.pos + 40
          out := c.out ++ importOk (infoOf device.summary) })) ∧
    ((∀ d ∈ devices, d.busID ≠ b) →
      control net devices c = (.ok none,
        { c with
          stream := rest
          pos := c.pos + 40
          out := c.out ++ importFailed 1 })) := by
  have hcstr : cStringToString (b ++ 0 :: junk) = .ok b := by
    unfold cStringToString
    rw [if_pos (by simp)]
    congr 1
    rw [List.takeWhile_append_of_pos (by intro a ha; simp; intro h; exact hb (h ▸ ha))]
    simp
  have e : control net devices c = (match getDevice devices b with
      | none => do writeResponse (importError 1); pure none
      | some device => do writeResponse (importReply device); pure (some device) : Go (Conn D) (Option (Device D)))
      { c with stream := rest, pos := c.pos + 40 } := by
    unfold UsbIp.control
    rw [Go.run_bind_ok (readControlHeader_ok version 0x8003 status (b ++ 0 :: junk ++ rest) c (by
      rw [hs]; simp [reqImport]))]
    dsimp only
    rw [if_neg (by decide), if_pos (by decide)]
    rw [Go.run_bind_ok (readOnce_full (net := net) (b ++ 0 :: junk) rest _ rfl hlen (by decide) (hf _ _))]
    rw [hcstr]
    rfl
  constructor
  · intro before device after hd hid hbefore
    have hg : getDevice devices b = some device := by
      unfold getDevice
      rw [hd, List.find?_append]
      have : before.find? (fun d => d.busID == b) = none := by
        rw [List.find?_eq_none]; intro d hd'; simpa using hbefore d hd'
      simp [this, hid]
    rw [e, hg]
    simp [writeResponse, importReply, importOk, infoOf, SummaryHeader.toBE, ControlHeader.toBE, toBE16_eq,
      toBE32_eq, usbipVersion, opRepImport]
  · intro hno
    have hg : getDevice devices b = none := by
      unfold getDevice
      rw [List.find?_eq_none]; intro d hd'; simpa using hno d hd'
    rw [e, hg]
    simp [writeResponse, importError, importFailed, ControlHeader.toBE, toBE16_eq, toBE32_eq, usbipVersion,
      opRepImport]

example : (0 : UInt8) ∉ ascii "2-2" ∧ (ascii "2-2" ++ 0 :: List.replicate 28 0).length = 32 ∧
    echoDevice.busID = ascii "2-2" := by decide

/-- The reply to a successful import is 320 bytes when path and bus id fill their fields. -/
theorem C23_import_length (s : SummaryHeader) (h1 : s.path.length = 256) (h2 : s.busID.length = 32) :
    (importOk (infoOf s)).length = 320 := by
  simp [importOk, infoOf, h1, h2]

/-! ## C24 -/

/-- False of the code: once a device is imported the server never gets to accept another connection,
whatever the client sends afterwards and however long one waits, even when the client is gone. -/
theorem C24_next_client_refuted (net : Net) (hf : FullReads net) (devices : List (Device D)) (device : Device D)
    (before after : List (Device D)) (hd : devices = before ++ device :: after)
    (hbefore : ∀ d ∈ before, d.busID ≠ device.busID) (version : UInt16) (status : UInt32)
    (junk rest : Bytes) (hb : 0 ∉ device.busID) (hlen : (device.busID ++ 0 :: junk).length = 32) (c : Conn D)
    (hs : c.stream = reqImport version status (device.busID ++ 0 :: junk) ++ rest) (n : Nat) :
    acceptsNext net devices n c = false ∧
    (rest = [] → 0 < n → (handle net devices n c).1 = .commands ∧
      ∀ m, (handle net devices (n + m) c).2 = (handle net devices n c).2) := by
  have e := (C23_import net hf devices version status device.busID junk rest hb hlen c hs).1 before device after
    hd rfl hbefore
  cases n with
  | zero => simp [acceptsNext, handle]
  | succ n =>
    refine ⟨by simp [acceptsNext, handle, e], fun hr _ => ?_⟩
    have stuck : ∀ k (s : Conn D), s.stream = [] → handleCommands net device k s = s := by
      intro k
      induction k with
      | zero => intro s _; rfl
      | succ k ih => intro s h; rw [handleCommands, command_eof _ _ _ h, ih _ h]
    refine ⟨by simp [handle, e], fun m => ?_⟩
    have : n + 1 + m = (n + m) + 1 := by omega
    rw [this]
    simp only [handle, e]
    rw [stuck _ _ hr, stuck _ _ hr]

/-- What does hold: a client that goes away before importing anything is done with, and the server
accepts the next one. -/
theorem C24_without_import_partial (net : Net) (devices : List (Device D)) (c : Conn D)
    (reqs : List (UInt16 × UInt32)) (cut : Bytes) (hcut : cut.length < 8)
    (hs : c.stream = (reqs.map fun (v, s) => reqDevlist v s).flatten ++ cut) :
    acceptsNext net devices (reqs.length + 1) c = true := by
  induction reqs generalizing c with
  | nil =>
    simp only [List.map_nil, List.flatten_nil, List.nil_append] at hs
    have : control net devices c = (.panic .checkErr, { c with stream := [], pos := c.pos + c.stream.length }) := by
      unfold UsbIp.control readControlHeader
      exact Go.run_bind_panic (Go.run_bind_panic (readFull_short 8 c (by rw [hs]; exact hcut)))
    simp [acceptsNext, handle, this]
  | cons r reqs ih =>
    obtain ⟨v, s⟩ := r
    have e := (C22_devlist_refuted net devices v s ((reqs.map fun (v, s) => reqDevlist v s).flatten ++ cut) c
      (by rw [hs]; simp)).1
    have := ih (UsbIp.control net devices c).2 (by rw [e])
    simp only [acceptsNext] at this ⊢
    rw [List.length_cons, handle, e]
    rw [e] at this
    exact this

/-! ## C25 -/

/-- A list split at its first occurrence of a separator. -/
theorem prefix_split {sep : UInt8} {x y r s : Bytes} (hx : sep ∉ x) (hy : sep ∉ y) :
    (x ++ sep :: r).isPrefixOf (y ++ sep :: s) = true ↔ x = y ∧ r.isPrefixOf s = true := by
  induction x generalizing y with
  | nil =>
    cases y with
    | nil => simp
    | cons b y => simp at hy; simp [hy.1]
  | cons a x ih =>
    simp only [List.mem_cons, not_or] at hx
    cases y with
    | nil => simp; intro h; exact absurd h.symm hx.1
    | cons b y =>
      simp only [List.mem_cons, not_or] at hy
      have := ih hx.2 hy.2
      simp only [List.cons_append, List.isPrefixOf, Bool.and_eq_true, beq_iff_eq, this, List.cons.injEq]
      exact ⟨fun h => ⟨⟨h.1, h.2.1⟩, h.2.2⟩, fun h => ⟨h.1.1, h.1.2, h.2⟩⟩

set_option maxRecDepth 8000 in
theorem decimal_facts : ∀ n : Fin 256,
    let o := UInt8.ofNat n.val
    46 ∉ decimal o ∧ (decimal o = ascii "127" ↔ o = 127) ∧ (decimal o = ascii "0" ↔ o = 0) ∧
    ((decimal o).head? = some 49 ↔ (o = 1 ∨ (10 ≤ o ∧ o ≤ 19) ∨ (100 ≤ o ∧ o ≤ 199))) ∧
    decimal o ≠ [] := by decide

theorem decimal_fact (o : UInt8) :
    46 ∉ decimal o ∧ (decimal o = ascii "127" ↔ o = 127) ∧ (decimal o = ascii "0" ↔ o = 0) ∧
    ((decimal o).head? = some 49 ↔ (o = 1 ∨ (10 ≤ o ∧ o ≤ 19) ∨ (100 ≤ o ∧ o ≤ 199))) ∧
    decimal o ≠ [] := by
  have := decimal_facts ⟨o.toNat, o.toNat_lt⟩
  simpa using this

/-- Exactly which clients are served, for every address and port: IPv4 clients at 127.0.0.1,
127.0.0.10-19 and 127.0.0.100-199, and no others; so only addresses in 127.0.0.0/24, and 127.0.0.1
always. -/
theorem C25_loopback_only :
    (∀ a b c d port, accepted (.v4 a b c d port) = true ↔
      loopback24 a b c ∧ (d = 1 ∨ (10 ≤ d ∧ d ≤ 19) ∨ (100 ≤ d ∧ d ≤ 199))) ∧
    (∀ text, accepted (.v6 text) = false) := by
  constructor
  · intro a b c d port
    have e : ascii "127.0.0.1" = ascii "127" ++ 46 :: (ascii "0" ++ 46 :: (ascii "0" ++ 46 :: [49])) := by decide
    have n1 : (46 : UInt8) ∉ ascii "127" := by decide
    have n2 : (46 : UInt8) ∉ ascii "0" := by decide
    obtain ⟨fa, fa1, -, -, -⟩ := decimal_fact a
    obtain ⟨fb, -, fb1, -, -⟩ := decimal_fact b
    obtain ⟨fc, -, fc1, -, -⟩ := decimal_fact c
    obtain ⟨fd, -, -, fd1, fd2⟩ := decimal_fact d
    have r : (Peer.v4 a b c d port).render =
        decimal a ++ 46 :: (decimal b ++ 46 :: (decimal c ++ 46 :: (decimal d ++ 58 :: port))) := by
      simp [Peer.render]
    unfold accepted loopback24
    rw [e, r, prefix_split n1 fa, prefix_split n2 fb, prefix_split n2 fc]
    have last : [49].isPrefixOf (decimal d ++ 58 :: port) = true ↔ (decimal d).head? = some 49 := by
      rcases hd : decimal d with _ | ⟨x, xs⟩
      · exact absurd hd fd2
      · simp only [List.cons_append, List.isPrefixOf, Bool.and_true, beq_iff_eq, List.head?_cons,
          Option.some.injEq]
        exact ⟨Eq.symm, Eq.symm⟩
    rw [last, fd1, @eq_comm _ (ascii "127") (decimal a), fa1, @eq_comm _ (ascii "0") (decimal b), fb1, @eq_comm _ (ascii "0") (decimal c), fc1]
    exact ⟨fun h => ⟨⟨h.1, h.2.1, h.2.2.1⟩, h.2.2.2⟩, fun h => ⟨h.1.1, h.1.2.1, h.1.2.2, h.2⟩⟩
  · intro text
    have e : ascii "127.0.0.1" = 49 :: ascii "27.0.0.1" := by decide
    unfold accepted
    rw [e]
    simp [Peer.render, List.isPrefixOf]

example : accepted (.v4 127 0 0 1 (ascii "50000")) = true ∧ accepted (.v4 192 168 0 1 (ascii "1")) = false ∧
    accepted (.v4 127 0 0 2 (ascii "1")) = false := by decide

/-! ## C26 -/

/-- What a run of the command loop over well-formed commands writes, and the device afterwards. -/
theorem run_effects (net : Net) (hf : FullReads net) (device : Device D) (cmds : List Cmd)
    (hw : ∀ cmd ∈ cmds, cmd.WellFormed) (rest : Bytes) (c c' : Conn D)
    (hs : c.stream = (cmds.map Cmd.wire).flatten ++ rest) (hs' : c'.stream = c.stream) (hd : c'.dev = c.dev)
    (ho : c'.out = c.out) :
    (handleCommands net device cmds.length c).out = (handleCommands net device cmds.length c').out ∧
    (handleCommands net device cmds.length c).dev = (handleCommands net device cmds.length c').dev := by
  induction cmds generalizing c c' with
  | nil => simp [handleCommands, hd, ho]
  | cons cmd cmds ih =>
    have h1 := command_step net device cmd (hw cmd (by simp)) ((cmds.map Cmd.wire).flatten ++ rest) c
      (by rw [hs]; simp) (fun n => hf _ n)
    have h2 := command_step net device cmd (hw cmd (by simp)) ((cmds.map Cmd.wire).flatten ++ rest) c'
      (by rw [hs', hs]; simp) (fun n => hf _ n)
    simp only [List.length_cons, handleCommands]
    refine ih (fun x hx => hw x (by simp [hx])) _ _ (by rw [h1]) (by rw [h1, h2]) (by rw [h1, h2, hd])
      (by rw [h1, h2, hd, ho])

/-- The device panics on this command in state `d`, leaving `d'`. -/
def PanicsOn (device : Device D) (cmd : Cmd) (d d' : D) : Prop :=
  match cmd with
  | .out seq _ ep _ _ _ _ setup data => ∃ cause, device.submit seq ep setup data d = (.panic cause, d')
  | .inp seq _ ep _ length _ _ _ setup =>
    ∃ cause, device.submit seq ep setup (List.replicate length.toNat 0) d = (.panic cause, d')
  | .unlink _ _ _ _ victim _ => ∃ cause, device.unlink victim d = (.panic cause, d')

/-- A command on which the device panics gets no reply, and the commands after it have the replies
and the effect on the device they would have had if it had not been sent (from the state the device
was left in). -/
theorem C26_failures_isolated (net : Net) (hf : FullReads net) (device : Device D) (bad : Cmd)
    (after : List Cmd) (hw : ∀ cmd ∈ bad :: after, cmd.WellFormed) (rest : Bytes) (c : Conn D) (d' : D)
    (hs : c.stream = ((bad :: after).map Cmd.wire).flatten ++ rest) (hp : PanicsOn device bad c.dev d') :
    (handleCommands net device 1 c).out = c.out ∧
    (∀ c0 : Conn D, c0.stream = (after.map Cmd.wire).flatten ++ rest → c0.dev = d' → c0.out = c.out →
      (handleCommands net device (after.length + 1) c).out = (handleCommands net device after.length c0).out ∧
      (handleCommands net device (after.length + 1) c).dev = (handleCommands net device after.length c0).dev) := by
  have h1 := command_step net device bad (hw bad (by simp)) ((after.map Cmd.wire).flatten ++ rest) c
    (by rw [hs]; simp) (fun n => hf _ n)
  have he : effect device bad c.dev = ([], d') := by
    cases bad <;> (obtain ⟨cause, h⟩ := hp; simp [effect, h])
  rw [he] at h1
  refine ⟨by simp [handleCommands, h1], fun c0 hs0 hd0 ho0 => ?_⟩
  rw [handleCommands]
  refine run_effects net hf device after (fun x hx => hw x (by simp [hx])) rest _ _ (by rw [h1]) ?_ ?_ ?_
  · rw [h1, hs0]
  · rw [h1, hd0]
  · rw [h1, ho0]; simp

/-- A device that panics on endpoint 7 and otherwise completes at once. -/
def touchyDevice : Device Unit where
  busID := ascii "2-2"
  summary := echoDevice.summary
  submit := fun _ ep _ _ => if ep = 7 then Go.throw .explicit else pure [none]
  unlink := fun _ => pure false

example : PanicsOn touchyDevice (.inp 5 0 7 0 64 0 0 0 (List.replicate 8 0)) () () ∧
    (Cmd.inp 5 0 7 0 64 0 0 0 (List.replicate 8 0)).WellFormed := by
  exact ⟨⟨.explicit, rfl⟩, rfl⟩

example : (handleCommands wholeNet touchyDevice 2
    { stream := ([Cmd.inp 5 0 7 0 64 0 0 0 (List.replicate 8 0), Cmd.inp 6 0 1 0 2 0 0 0 (List.replicate 8 0)].map
        Cmd.wire).flatten, pos := 0, out := [], dev := (), calls := [] }).out = retSubmit 6 2 [0, 0] := by
  decide +kernel

end VF
