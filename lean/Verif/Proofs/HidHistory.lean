import Verif.Proofs.HidAct

/-! # Histories: channel table, per-channel runs, counting -/

namespace VF.Hid

open Util Spec.Ctaphid

variable {W : Type}

/-- induction over a history, last report first -/
theorem handleAll_snoc (rt : Runtime) (up : Upper W) (ms : List Bytes) (m : Bytes) (w : World W) :
    handleAll rt up (ms ++ [m]) w =
      match handleAll rt up ms w with
      | (.ok _, w') => handleMessage rt up m w'
      | (.panic c, w') => (.panic c, w') := by
  rw [handleAll_append]
  rcases handleAll rt up ms w with ⟨r | c, w'⟩
  · simp only; rw [handleAll_single]
  · rfl

/-- does a report start a request (byte 4 has the top bit set and is not CANCEL)? -/
def startsRequest (m : Bytes) : Bool :=
  match m with
  | _ :: _ :: _ :: _ :: c :: _ => decide (128 ≤ c.toNat) && decide (c ≠ 0x91)
  | _ => false

theorem startsRequest_init {cid : UInt32} {cmd : UInt8} {len : Nat} {d : Bytes}
    (h : 128 ≤ cmd.toNat) (hne : cmd ≠ 0x91) : startsRequest (initPacket cid cmd len d) = true := by
  simp [initPacket, le32, startsRequest, h, hne]

theorem startsRequest_cont {cid : UInt32} {seq : Nat} {d : Bytes} (h : seq < 128) :
    startsRequest (contPacket cid seq d) = false := by
  simp only [contPacket, le32, List.cons_append, List.nil_append, startsRequest, Bool.and_eq_false_imp,
    decide_eq_true_eq]
  intro h'
  simp only [UInt8.toNat_ofNat'] at h'
  omega

/-- is a request in progress on the channel? -/
def busy (w : World W) (cid : UInt32) : Nat :=
  match w.channels cid with
  | some ⟨_, some _⟩ => 1
  | _ => 0

theorem isOpen_window_init {cid : UInt32} {m : Bytes} {t : Transaction} (h : IsOpen cid [m] t) :
    startsRequest m = true := by
  obtain ⟨cmd, len, d0, ds, spare, ho, hw⟩ := h
  unfold openWindow at hw
  simp only [List.cons.injEq] at hw
  rw [hw.1]
  exact startsRequest_init ho.cmd_ge ho.cmd_ne

theorem frag_single_init {cid : UInt32} {cmd : UInt8} {payload : Bytes} {m : Bytes}
    (hcmd : 128 ≤ cmd.toNat) (hne : cmd ≠ 0x91) (h : IsFragmentation cid cmd payload [m]) :
    startsRequest m = true := by
  obtain ⟨d0, ds, hp, -⟩ := h
  simp only [List.cons.injEq] at hp
  rw [hp.1]
  exact startsRequest_init hcmd hne

/-- All of a history's reports are for channel `cid`, which starts idle: what has been acted on at
the end. -/
theorem run_own_channel (rt : Runtime) (up : Upper W) {cid : UInt32} {w : World W} (hwf : WF w)
    (hidle : w.channels cid = some ⟨cid, none⟩) (ms : List Bytes)
    (hms : ∀ m ∈ ms, channelOf m = some cid) :
    ∃ es : List (UInt8 × Bytes),
      (handleAll rt up ms w).2.finalized = w.finalized ++ es.map (fun e => (cid, e.1, e.2)) ∧
      (∀ e ∈ es, ∃ window, window <:+: ms ∧ IsFragmentation cid e.1 e.2 window ∧
        128 ≤ e.1.toNat ∧ e.1 ≠ 0x91) ∧
      es.length ≤ ms.countP startsRequest ∧
      ((handleAll rt up ms w).1 = .ok () →
        es.length + busy (handleAll rt up ms w).2 cid ≤ ms.countP startsRequest ∧
        WF (handleAll rt up ms w).2 ∧ ChanInv cid ms (handleAll rt up ms w).2 ∧
        ∃ tx, (handleAll rt up ms w).2.channels cid = some ⟨cid, tx⟩) := by
  obtain ⟨n, hn⟩ : ∃ n, ms.length = n := ⟨_, rfl⟩
  induction n generalizing ms with
  | zero =>
    have : ms = [] := List.length_eq_zero_iff.mp hn
    subst this
    refine ⟨[], by simp [handleAll], by simp, by simp, fun _ => ⟨?_, hwf, ?_, none, hidle⟩⟩
    · simp [handleAll, busy, hidle]
    · intro t ht
      simp only [handleAll, Go.run_pure] at ht
      rw [hidle] at ht
      simp at ht
  | succ n ih =>
    rcases List.eq_nil_or_concat ms with rfl | ⟨ms, m, rfl⟩
    · simp at hn
    · rw [List.concat_eq_append] at *
      have hm : channelOf m = some cid := hms m (by simp)
      have hms' : ∀ m ∈ ms, channelOf m = some cid := fun x hx => hms x (by simp [hx])
      obtain ⟨es, hfin, hes, hcount, hok⟩ := ih ms hms' (by simpa using hn)
      rw [handleAll_snoc]
      rcases hrun : handleAll rt up ms w with ⟨r | c, w1⟩
      rotate_left
      · rw [hrun] at hfin
        refine ⟨es, hfin, fun e he => ?_, ?_, fun h => by simp at h⟩
        · obtain ⟨window, hwin, rest⟩ := hes e he
          exact ⟨window, hwin.trans (List.prefix_append _ _).isInfix, rest⟩
        · rw [List.countP_append]; omega
      · rw [hrun] at hok hfin
        obtain ⟨hbusy, hwf1, hci, tx, htx⟩ := hok rfl
        simp only at hbusy hwf1 hci htx hfin ⊢
        have hes' : ∀ e ∈ es, ∃ window, window <:+: ms ++ [m] ∧ IsFragmentation cid e.1 e.2 window ∧
            128 ≤ e.1.toNat ∧ e.1 ≠ 0x91 := by
          intro e he
          obtain ⟨window, hwin, rest⟩ := hes e he
          exact ⟨window, hwin.trans (List.prefix_append _ _).isInfix, rest⟩
        have hproj : proj cid ms = ms := by
          unfold proj; rw [List.filter_eq_self]; intro x hx; simp [hms' x hx]
        have ho := handleMessage_outcome rt up m hwf1
        have hwfs : (handleMessage rt up m w1).1 = .ok () → WF (handleMessage rt up m w1).2 := by
          intro h
          exact WF_step rt up m hwf1 (Prod.ext h rfl)
        have hcis : (handleMessage rt up m w1).1 = .ok () →
            ChanInv cid (ms ++ [m]) (handleMessage rt up m w1).2 := by
          intro h
          exact ChanInv_step rt up m hwf1 hci (Prod.ext h rfl)
        generalize handleMessage rt up m w1 = q at ho hwfs hcis ⊢
        obtain ⟨r, w2⟩ := q
        simp only at ho hwfs hcis ⊢
        have hbusy_self : ∀ (w' : World W) (t : Transaction), busy (w'.setTx cid (some t)) cid = 1 := by
          intro w' t; simp [busy]
        have hbusy_none : ∀ (w' : World W), busy (w'.setTx cid none) cid = 0 := by
          intro w'; simp [busy]
        have hcnt : es.length ≤ (ms ++ [m]).countP startsRequest := by
          rw [List.countP_append]; omega
        have huniq : ∀ c, channelOf m = some c → c = cid := fun c h => by
          rw [hm] at h; exact (Option.some.inj h).symm
        rcases ho with ⟨c⟩ | ⟨cid', hm', hc⟩ | ⟨cid', tx', code, hm', hc, hcode⟩ |
          ⟨cid', tx', hm', hc⟩ | ⟨cid', tx', t, hm', hc, ho⟩ |
          ⟨cid', tx', t, cmd, payload, header, sl, hm', hc, h1, h2, h3, h4, h5, r, w0, hrunf⟩
        · exact ⟨es, hfin, hes', hcnt, fun h => by simp at h⟩
        · have := huniq _ hm'
          subst this
          rw [hc] at htx; cases htx
        · have := huniq _ hm'
          subst this
          refine ⟨es, by simpa using hfin, hes', hcnt, fun h => ⟨?_, hwfs h, hcis h, none,
            setTx_channels_self _ _ _⟩⟩
          rw [hbusy_none]; omega
        · have := huniq _ hm'
          subst this
          refine ⟨es, by simpa using hfin, hes', hcnt, fun h => ⟨?_, hwfs h, hcis h, none,
            setTx_channels_self _ _ _⟩⟩
          rw [hbusy_none]; omega
        · have := huniq _ hm'
          subst this
          rw [hc] at htx
          simp only [Option.some.injEq, Channel.mk.injEq, true_and] at htx
          subst htx
          refine ⟨es, by simpa using hfin, hes', hcnt, fun h => ⟨?_, hwfs h, hcis h, some t,
            setTx_channels_self _ _ _⟩⟩
          rw [hbusy_self, List.countP_append]
          rcases tx' with _ | t0
          · have := isOpen_window_init (by simpa using ho [] (.inl ⟨rfl, rfl⟩))
            simp [this]; omega
          · have hb1 : busy w1 cid' = 1 := by simp [busy, hc]
            omega
        · have := huniq _ hm'
          subst this
          rw [hc] at htx
          simp only [Option.some.injEq, Channel.mk.injEq, true_and] at htx
          subst htx
          have hfz : (afterFinal r w0 cid').finalized = w1.finalized ++ [(cid', cmd, payload)] := by
            have := (handleFinalizedMessage_effect rt up cid' header sl (w1.setTx cid' (some t))).finalized
            rw [hrunf, h4, h5] at this
            rw [h4, h5] at *
            cases r <;> simpa [afterFinal] using this
          obtain ⟨window, hsuf, hcase⟩ : ∃ window, window <:+ ms ∧
              (tx' = none ∧ window = [] ∨ ∃ t0, tx' = some t0 ∧ IsOpen cid' window t0) := by
            rcases tx' with _ | t0
            · exact ⟨[], List.nil_suffix, .inl ⟨rfl, rfl⟩⟩
            · obtain ⟨window, hs, ho⟩ := hci t0 hc
              rw [hproj] at hs
              exact ⟨window, hs, .inr ⟨t0, rfl, ho⟩⟩
          have hfr := h3 window hcase
          have hlen : es.length + 1 ≤ (ms ++ [m]).countP startsRequest := by
            rw [List.countP_append]
            rcases hcase with ⟨rfl, rfl⟩ | ⟨t0, rfl, -⟩
            · have := frag_single_init h1 h2 (by simpa using hfr)
              simp [this]; omega
            · have hb1 : busy w1 cid' = 1 := by simp [busy, hc]
              omega
          refine ⟨es ++ [(cmd, payload)], ?_, ?_, ?_, fun h => ⟨?_, hwfs h, hcis h, none, ?_⟩⟩
          · rw [hfz, hfin]; simp
          · intro e he
            rw [List.mem_append] at he
            rcases he with he | he
            · exact hes' e he
            · simp only [List.mem_singleton] at he
              subst he
              refine ⟨window ++ [m], ?_, hfr, h1, h2⟩
              obtain ⟨pre, hpre⟩ := hsuf
              exact (List.IsSuffix.isInfix ⟨pre, by rw [← hpre, List.append_assoc]⟩)
          · simpa using hlen
          · subst h
            rw [show afterFinal (Res.ok ()) w0 cid' = w0.setTx cid' none from rfl, hbusy_none]
            simpa using hlen
          · subst h
            exact setTx_channels_self _ _ _

/-! ### The channel table -/

/-- number of INIT requests acted on -/
def initCount (w : World W) : Nat :=
  (w.finalized.filter (fun e => decide (e.1 = 0xFFFFFFFF) && decide (e.2.1 = 0x86))).length

/-- While the counter has not wrapped, exactly the broadcast channel and the ids 1..max are open. -/
structure Table (w : World W) : Prop where
  count : w.maxChannelID.toNat = initCount w
  isOpen : ∀ c, w.channels c ≠ none ↔ c = broadcastChannel ∨ (1 ≤ c.toNat ∧ c.toNat ≤ w.maxChannelID.toNat)

theorem Table_new (b : Bool) (u : W) : Table (World.new b u) := by
  refine ⟨by simp [World.new, initCount], fun c => ?_⟩
  simp only [World.new]
  by_cases h : c = broadcastChannel
  · simp [h]
  · simp [h]; omega

theorem fin_table (rt : Runtime) (up : Upper W) (cid : UInt32) (cmd : UInt8) (len : UInt16)
    (sl : Slice) (w : World W) :
    if cid = broadcastChannel ∧ cmd = cmdInit then
      (handleFinalizedMessage rt up cid ⟨cid, cmd, len⟩ sl w).2.channels = w.alloc.channels ∧
      (handleFinalizedMessage rt up cid ⟨cid, cmd, len⟩ sl w).2.maxChannelID = w.maxChannelID + 1
    else
      (handleFinalizedMessage rt up cid ⟨cid, cmd, len⟩ sl w).2.channels = w.channels ∧
      (handleFinalizedMessage rt up cid ⟨cid, cmd, len⟩ sl w).2.maxChannelID = w.maxChannelID := by
  by_cases h : cid = broadcastChannel ∧ cmd = cmdInit
  · obtain ⟨rfl, hi⟩ := h
    simp only [hi, and_self, if_true]
    rw [fin_init rt up _ _ rfl]
    rcases sl.upTo 8 with n | c <;> simp [World.alloc] <;> rfl
  · simp only [h, if_false]
    have := (handleFinalizedMessage_effect rt up cid ⟨cid, cmd, len⟩ sl w).table
    rcases this with h1 | ⟨h1, h2, -⟩
    · exact h1
    · exact absurd ⟨h1, h2⟩ h

/-- the requests of one channel acted on -/
def finalizedOn (cid : UInt32) (w : World W) : List (UInt8 × Bytes) :=
  (w.finalized.filter (fun e => decide (e.1 = cid))).map (·.2)

theorem initCount_step (rt : Runtime) (up : Upper W) (m : Bytes) {w : World W} (hwf : WF w) :
    initCount w ≤ initCount (handleMessage rt up m w).2 ∧
      initCount (handleMessage rt up m w).2 ≤ initCount w + 1 := by
  rcases step_finalized rt up m hwf with h | ⟨cid, cmd, payload, tx, -, -, -, -, h, -⟩
  · unfold initCount; rw [h]; omega
  · unfold initCount; rw [h]
    rw [List.filter_append, List.length_append]
    have : ([(cid, cmd, payload)].filter (fun e : UInt32 × UInt8 × Bytes =>
      decide (e.1 = 0xFFFFFFFF) && decide (e.2.1 = 0x86))).length ≤ 1 :=
      List.length_filter_le _ _
    omega

theorem Table_step (rt : Runtime) (up : Upper W) (m : Bytes) {w w' : World W} (hwf : WF w)
    (ht : Table w) (h : handleMessage rt up m w = (.ok (), w'))
    (hb : initCount w' < 4294967295) : Table w' := by
  have ho := handleMessage_outcome rt up m hwf
  rw [h] at ho
  simp only at ho
  have keep : ∀ (w2 : World W) cid tx tx0, w.channels cid = some ⟨cid, tx0⟩ →
      w2.channels = w.channels → w2.maxChannelID = w.maxChannelID →
      initCount w2 = initCount w → Table (w2.setTx cid tx) := by
    intro w2 cid tx tx0 hc h1 h2 h3
    refine ⟨?_, fun c => ?_⟩
    · rw [show (w2.setTx cid tx).maxChannelID = w2.maxChannelID from rfl,
        show initCount (w2.setTx cid tx) = initCount w2 from rfl, h2, h3]
      exact ht.count
    · rw [show (w2.setTx cid tx).maxChannelID = w2.maxChannelID from rfl, h2]
      by_cases hcc : c = cid
      · subst hcc
        rw [setTx_channels_self, ← ht.isOpen c, hc]
        simp
      · rw [setTx_channels_ne _ _ hcc, h1]
        exact ht.isOpen c
  generalize hr : (Res.ok () : Res Unit) = r at ho
  rcases ho with ⟨c⟩ | ⟨cid, hm, hc⟩ | ⟨cid, tx, code, hm, hc, hcode⟩ |
    ⟨cid, tx, hm, hc⟩ | ⟨cid, tx, t, hm, hc, ho⟩ |
    ⟨cid, tx, t, cmd, payload, header, sl, hm, hc, h1, h2, h3, h4, h5, r, w0, hfin⟩
  · cases hr
  · refine ⟨?_, fun c => ?_⟩
    · simpa [initCount] using ht.count
    · simpa using ht.isOpen c
  · exact keep _ cid none tx hc (by simp) (by simp) (by simp [initCount])
  · exact keep w cid none tx hc rfl rfl rfl
  · exact keep w cid (some t) tx hc rfl rfl rfl
  · subst hr
    change Table (w0.setTx cid none)
    change initCount (w0.setTx cid none) < _ at hb
    subst h4
    have htab := fin_table rt up cid cmd (UInt16.ofNat payload.length) sl (w.setTx cid (some t))
    have hfz := (handleFinalizedMessage_effect rt up cid ⟨cid, cmd, UInt16.ofNat payload.length⟩ sl
      (w.setTx cid (some t))).finalized
    rw [hfin] at htab hfz
    simp only at htab hfz
    have hic : initCount w0 = initCount w +
        (if cid = broadcastChannel ∧ cmd = cmdInit then 1 else 0) := by
      unfold initCount
      rw [hfz, List.filter_append, List.length_append]
      congr 1
      simp only [List.filter_cons, List.filter_nil]
      by_cases h : cid = broadcastChannel ∧ cmd = cmdInit
      · simp [h, broadcastChannel, cmdInit]
      · rw [if_neg h, if_neg]
        · rfl
        · simpa [broadcastChannel, cmdInit] using h
    have hb' : initCount w0 < 4294967295 := hb
    by_cases hcase : cid = broadcastChannel ∧ cmd = cmdInit
    · rw [if_pos hcase] at htab hic
      obtain ⟨rfl, rfl⟩ := hcase
      have hmax : (w.maxChannelID + 1).toNat = w.maxChannelID.toNat + 1 := by
        have := ht.count
        rw [UInt32.toNat_add]
        have : (1 : UInt32).toNat = 1 := rfl
        rw [this]
        omega
      refine ⟨?_, fun c => ?_⟩
      · change w0.maxChannelID.toNat = initCount w0
        rw [htab.2, hic, ← ht.count]
        exact hmax
      · change (w0.setTx broadcastChannel none).channels c ≠ none ↔
          c = broadcastChannel ∨ (1 ≤ c.toNat ∧ c.toNat ≤ w0.maxChannelID.toNat)
        rw [htab.2]
        by_cases hcb : c = broadcastChannel
        · subst hcb
          rw [setTx_channels_self]; simp
        · rw [setTx_channels_ne _ _ hcb, htab.1]
          simp only [World.alloc, hcb, false_or]
          change (if c = w.maxChannelID + 1 then some (⟨w.maxChannelID + 1, none⟩ : Channel)
            else (w.setTx broadcastChannel (some t)).channels c) ≠ none ↔
            1 ≤ c.toNat ∧ c.toNat ≤ (w.maxChannelID + 1).toNat
          rw [hmax]
          by_cases hcm : c = w.maxChannelID + 1
          · simp only [hcm, if_true, hmax]
            simp
          · simp only [hcm, if_false]
            rw [setTx_channels_ne _ _ hcb, ht.isOpen c]
            have : c.toNat ≠ w.maxChannelID.toNat + 1 := by
              intro h; apply hcm; apply UInt32.toNat_inj.mp; rw [hmax]; exact h
            simp only [hcb, false_or]
            omega
    · rw [if_neg hcase] at htab hic
      have hw0 : w0.setTx cid none = w0.setTx cid none := rfl
      refine ⟨?_, fun c => ?_⟩
      · change w0.maxChannelID.toNat = initCount w0
        rw [htab.2, hic]
        exact ht.count
      · change (w0.setTx cid none).channels c ≠ none ↔
          c = broadcastChannel ∨ (1 ≤ c.toNat ∧ c.toNat ≤ w0.maxChannelID.toNat)
        rw [htab.2]
        change _ ↔ c = broadcastChannel ∨ (1 ≤ c.toNat ∧ c.toNat ≤ w.maxChannelID.toNat)
        rw [← ht.isOpen c]
        by_cases hcc : c = cid
        · subst hcc
          rw [setTx_channels_self, hc]; simp
        · rw [setTx_channels_ne _ _ hcc, htab.1, setTx_channels_ne _ _ hcc]

theorem initCount_run (rt : Runtime) (up : Upper W) (ms : List Bytes) {w : World W} (hwf : WF w) :
    initCount w ≤ initCount (handleAll rt up ms w).2 := by
  induction ms generalizing w with
  | nil => simp [handleAll]
  | cons m ms ih =>
    simp only [handleAll]
    rw [Go.run_bind]
    rcases h : handleMessage rt up m w with ⟨r | c, w1⟩
    · have h1 := initCount_step rt up m hwf
      rw [h] at h1
      have := ih (WF_step rt up m hwf (by rw [h]))
      simp only at h1 ⊢
      omega
    · have h1 := initCount_step rt up m hwf
      rw [h] at h1
      exact h1.1

theorem Table_run (rt : Runtime) (up : Upper W) (ms : List Bytes) {w w' : World W} (hwf : WF w)
    (ht : Table w) (h : handleAll rt up ms w = (.ok (), w')) (hb : initCount w' < 4294967295) :
    Table w' := by
  induction ms generalizing w with
  | nil => simp only [handleAll, Go.run_pure, Prod.mk.injEq, true_and] at h; rw [← h]; exact ht
  | cons m ms ih =>
    simp only [handleAll] at h
    rw [Go.run_bind] at h
    rcases h1 : handleMessage rt up m w with ⟨r | c, w1⟩
    · rw [h1] at h
      have hwf1 := WF_step rt up m hwf (by rw [h1])
      have hmono := initCount_run rt up ms hwf1
      simp only at h
      rw [h] at hmono
      simp only at hmono
      exact ih hwf1 (Table_step rt up m hwf ht (by rw [h1]) (by omega)) h
    · rw [h1] at h; simp at h

/-! ### One channel on its own -/

def txStep (grow : Nat → Nat → Nat) (tx : Option Transaction) (m : Bytes) : Res Transaction :=
  match tx with
  | none => newTransaction m
  | some t => t.addMessage grow m

/-- What one report does to its own channel: the new transaction and the request acted on. -/
def chanStep (grow : Nat → Nat → Nat) (tx : Option Transaction) (m : Bytes) :
    Option Transaction × List (UInt8 × Bytes) :=
  match txStep grow tx m with
  | .panic _ => (tx, [])
  | .ok t =>
    if t.done then
      if t.errorCode ≠ 0 then (none, [])
      else if t.cancelled then (none, [])
      else match t.result with
        | none => (none, [])
        | some r => (none, [(r.header.command, r.payload.data)])
    else (some t, [])

def chanRun (grow : Nat → Nat → Nat) (tx : Option Transaction) : List Bytes → List (UInt8 × Bytes)
  | [] => []
  | m :: ms => (chanStep grow tx m).2 ++ chanRun grow (chanStep grow tx m).1 ms

theorem step_own (rt : Runtime) (up : Upper W) {m : Bytes} {w w' : World W} (hwf : WF w)
    {cid : UInt32} {tx : Option Transaction} (hm : channelOf m = some cid)
    (hc : w.channels cid = some ⟨cid, tx⟩) (h : handleMessage rt up m w = (.ok (), w')) :
    w'.channels cid = some ⟨cid, (chanStep rt.grow tx m).1⟩ ∧
      finalizedOn cid w' = finalizedOn cid w ++ (chanStep rt.grow tx m).2 := by
  obtain ⟨rest, hr⟩ := channelOf_eq_iff.mp hm
  have hopen := handleMessage_open rt up hr hc
  have hsf := step_finalized rt up m hwf
  rw [h] at hsf
  simp only at hsf
  rw [h] at hopen
  unfold chanStep
  rw [show txStep rt.grow tx m = transactionStep rt tx m from rfl]
  rcases hts : transactionStep rt tx m with t | c <;> rw [hts] at hopen
  · simp only at hopen ⊢
    by_cases hd : t.done
    · simp only [hd, if_true] at hopen ⊢
      by_cases he : t.errorCode = 0
      · simp only [he, ne_eq, not_true_eq_false, if_false] at hopen ⊢
        by_cases hcn : t.cancelled
        · simp only [hcn, if_true, Prod.mk.injEq, true_and] at hopen ⊢
          subst hopen
          simp [finalizedOn]
        · simp only [hcn, if_false, Bool.false_eq_true] at hopen ⊢
          rcases hres : t.result with _ | result
          · rw [hres] at hopen; simp at hopen
          · rw [hres] at hopen
            simp only at hopen ⊢
            have hfz := (handleFinalizedMessage_effect rt up cid result.header result.payload
              (w.setTx cid (some t))).finalized
            rcases hrun : handleFinalizedMessage rt up cid result.header result.payload
              (w.setTx cid (some t)) with ⟨r | c, w0⟩
            · rw [hrun] at hopen hfz
              simp only [Prod.mk.injEq, true_and] at hopen hfz
              subst hopen
              refine ⟨setTx_channels_self _ _ _, ?_⟩
              rcases hsf with hsf | ⟨cid', cmd, payload, tx', hm', -, -, -, hsf, -⟩
              · change w0.finalized = _ at hsf
                rw [hfz] at hsf
                simp at hsf
              · have : cid' = cid := by rw [hm] at hm'; exact (Option.some.inj hm').symm
                subst this
                change w0.finalized = _ at hsf
                rw [hfz] at hsf
                simp only [setTx_finalized, List.append_cancel_left_eq, List.cons.injEq,
                  Prod.mk.injEq, and_true] at hsf
                unfold finalizedOn
                rw [show (w0.setTx cid' none).finalized = w0.finalized from rfl, hfz]
                simp [hsf.1]
            · rw [hrun] at hopen; simp at hopen
      · simp only [he, ne_eq, not_false_eq_true, if_true, Prod.mk.injEq, true_and] at hopen ⊢
        subst hopen
        simp [finalizedOn]
    · simp only [hd, if_false, Bool.false_eq_true, Prod.mk.injEq, true_and] at hopen ⊢
      subst hopen
      simp [finalizedOn]
  · simp at hopen

theorem step_other (rt : Runtime) (up : Upper W) {m : Bytes} {w w' : World W} (hwf : WF w)
    {cid : UInt32} (hm : channelOf m ≠ some cid) (hne : cid ≠ w.maxChannelID + 1)
    (h : handleMessage rt up m w = (.ok (), w')) :
    w'.channels cid = w.channels cid ∧ finalizedOn cid w' = finalizedOn cid w := by
  have hfr := step_frame rt up m hwf
  have hsf := step_finalized rt up m hwf
  rw [h] at hfr hsf
  simp only at hfr hsf
  constructor
  · rcases hfr.table with ⟨-, h1⟩ | ⟨-, h1, h2, -⟩
    · exact h1 cid hm
    · exact h2 cid (by rintro rfl; exact hm h1) hne
  · rcases hsf with hsf | ⟨cid', cmd, payload, tx', hm', -, -, -, hsf, -⟩
    · unfold finalizedOn; rw [hsf]
    · have : cid' ≠ cid := by rintro rfl; exact hm hm'
      unfold finalizedOn; rw [hsf]
      simp [this]

theorem Table.open_ne {w : World W} (ht : Table w) {cid : UInt32} (ho : w.channels cid ≠ none)
    (hb : initCount w + 1 < 4294967295) : cid ≠ w.maxChannelID + 1 := by
  intro h
  have hmax : (w.maxChannelID + 1).toNat = w.maxChannelID.toNat + 1 := by
    have := ht.count
    rw [UInt32.toNat_add]
    have : (1 : UInt32).toNat = 1 := rfl
    rw [this]
    omega
  rcases (ht.isOpen cid).mp ho with h1 | h1
  · have h2 : broadcastChannel.toNat = 4294967295 := rfl
    rw [h1] at h
    rw [h, hmax] at h2
    have := ht.count
    omega
  · rw [h, hmax] at h1
    omega

/-- The requests acted on for a channel are a function of its own reports. -/
theorem run_channel (rt : Runtime) (up : Upper W) (ms : List Bytes) {w w' : World W} (hwf : WF w)
    (ht : Table w) {cid : UInt32} {tx : Option Transaction} (hc : w.channels cid = some ⟨cid, tx⟩)
    (h : handleAll rt up ms w = (.ok (), w')) (hb : initCount w' + 1 < 4294967295) :
    finalizedOn cid w' = finalizedOn cid w ++ chanRun rt.grow tx (proj cid ms) := by
  induction ms generalizing w tx with
  | nil =>
    simp only [handleAll, Go.run_pure, Prod.mk.injEq, true_and] at h
    subst h
    simp [proj, chanRun]
  | cons m ms ih =>
    simp only [handleAll] at h
    rw [Go.run_bind] at h
    rcases h1 : handleMessage rt up m w with ⟨r | c, w1⟩
    · rw [h1] at h
      simp only at h
      have h1' : handleMessage rt up m w = (.ok (), w1) := by rw [h1]
      have hwf1 := WF_step rt up m hwf h1'
      have hmono := initCount_run rt up ms hwf1
      rw [h] at hmono
      simp only at hmono
      have hst := (initCount_step rt up m hwf).1
      rw [h1] at hst
      simp only at hst
      have ht1 := Table_step rt up m hwf ht h1' (by omega)
      by_cases hm : channelOf m = some cid
      · obtain ⟨e1, e2⟩ := step_own rt up hwf hm hc h1'
        have hp : proj cid (m :: ms) = m :: proj cid ms := by simp [proj, hm]
        rw [ih hwf1 ht1 e1 h, e2, hp, chanRun, List.append_assoc]
      · have hne := ht.open_ne (cid := cid) (by rw [hc]; simp) (by omega)
        obtain ⟨e1, e2⟩ := step_other rt up hwf hm hne h1'
        have hp : proj cid (m :: ms) = proj cid ms := by simp [proj, hm]
        rw [ih hwf1 ht1 (by rw [e1]; exact hc) h, e2, hp]
    · rw [h1] at h; simp at h

end VF.Hid
