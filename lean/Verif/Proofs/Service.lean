import Verif.Spec.Service
import Verif.Proofs.HidHistory

/-! # Lemmas about what a host sees of an authenticator -/

namespace VF.Hid

open Util Spec.Ctaphid Spec.Service

variable {W : Type}

/-! ## Reading messages -/

theorem responseLoop_conts_length (cid : UInt32) (cmd : UInt8) (fuel : Nat) (seq : Int) (hs : 0 ≤ seq) (p : Bytes)
    (hf : p.length ≤ fuel) : (responseLoop cid cmd fuel seq p).length = (p.length + 58) / 59 := by
  induction fuel generalizing seq p with
  | zero =>
    have : p = [] := List.length_eq_zero_iff.mp (by omega)
    subst this
    simp [responseLoop]
  | succ fuel ih =>
    by_cases h : p = []
    · subst h; simp [responseLoop]
    · have hpos := List.length_pos_iff.mpr h
      rw [responseLoop]
      have hns : ¬ seq < 0 := by omega
      simp only [hpos, gt_iff_lt, if_true, hns, if_false, List.length_cons]
      rw [ih _ (by omega) _ (by simp [maxPacketSize, toLE32]; split <;> omega)]
      simp only [List.length_drop, List.length_append, maxPacketSize, toLE32, List.length_cons, List.length_nil]
      split <;> omega

/-- The packets of a message. -/
theorem packets_further (cid : UInt32) (cmd : UInt8) (p : Bytes) (h0 : p ≠ []) (hlen : p.length ≤ 7609) :
    ∃ q qs, createResponsePackets cid cmd p = q :: qs ∧ qs.length = further q := by
  obtain ⟨fuel, hf⟩ : ∃ fuel, p.length = fuel + 1 :=
    ⟨p.length - 1, by have := List.length_pos_iff.mpr h0; omega⟩
  have := responseLoop_init cid cmd fuel p h0
  unfold createResponsePackets
  rw [hf, this]
  refine ⟨_, _, rfl, ?_⟩
  rw [responseLoop_conts_length _ _ _ _ (by decide) _ (by simp; omega)]
  have e : ((UInt16.ofNat (List.length p)) >>> 8).toUInt8.toNat * 256 + (UInt16.ofNat (List.length p)).toUInt8.toNat =
      p.length := by
    rw [hf]
    simp [UInt16.toNat_shiftRight, Nat.shiftRight_eq_div_pow]
    omega
  simp [further, le32, be16]
  omega

theorem read_messages_cons (cid : UInt32) (cmd : UInt8) (p : Bytes) (hcmd : 128 ≤ cmd.toNat) (h0 : p ≠ [])
    (hlen : p.length ≤ 7609) (n : Nat) (rest : List Bytes) :
    readMessages (n + 1) (createResponsePackets cid cmd p ++ rest) = (cmd, p) :: readMessages n rest := by
  have hr := hostRead_createResponsePackets cid cmd p hcmd h0 hlen
  obtain ⟨q, qs, hq, hl⟩ := packets_further cid cmd p h0 hlen
  rw [hq] at hr ⊢
  rw [List.cons_append, readMessages, ← hl, List.take_left', List.drop_left' rfl, hr]
  rfl

/-- A message: channel, command, payload. -/
abbrev Msg := UInt32 × UInt8 × Bytes

def Msg.packets (m : Msg) : List Bytes := createResponsePackets m.1 m.2.1 m.2.2

def Msg.Ok (m : Msg) : Prop := 128 ≤ m.2.1.toNat ∧ m.2.2 ≠ [] ∧ m.2.2.length ≤ 7609

theorem packets_on (cid : UInt32) (m : Msg) :
    (Msg.packets m).filter (fun p => channelOf p == some cid) = if m.1 = cid then Msg.packets m else [] := by
  have h : ∀ p ∈ Msg.packets m, channelOf p = some m.1 := responseLoop_channel m.1 m.2.1 m.2.2.length (-1) m.2.2
  split
  · rename_i he
    rw [List.filter_eq_self]
    intro p hp
    simp [h p hp, he]
  · rename_i he
    rw [List.filter_eq_nil_iff]
    intro p hp
    simp [h p hp, he]

theorem messages_all (cid : UInt32) (msgs : List Msg) (hok : ∀ m ∈ msgs, Msg.Ok m) (n : Nat)
    (hn : msgs.length ≤ n) :
    readMessages n (((msgs.map Msg.packets).flatten).filter (fun p => channelOf p == some cid)) =
      (msgs.filter (fun m => decide (m.1 = cid))).map (·.2) := by
  induction msgs generalizing n with
  | nil => cases n <;> simp [readMessages]
  | cons m ms ih =>
    obtain ⟨n, rfl⟩ : ∃ k, n = k + 1 := ⟨n - 1, by simp at hn; omega⟩
    rw [List.map_cons, List.flatten_cons, List.filter_append, packets_on]
    have hms := ih (fun x hx => hok x (by simp [hx]))
    by_cases h : m.1 = cid
    · obtain ⟨h1, h2, h3⟩ := hok m (by simp)
      rw [if_pos h, Msg.packets, read_messages_cons _ _ _ h1 h2 h3, hms n (by simpa using hn)]
      simp [h]
    · rw [if_neg h, List.nil_append, hms (n + 1) (by simp at hn; omega)]
      simp [h]

theorem messages_on (cid : UInt32) (msgs : List Msg) (hok : ∀ m ∈ msgs, Msg.Ok m) :
    messages (((msgs.map Msg.packets).flatten).filter (fun p => channelOf p == some cid)) =
      (msgs.filter (fun m => decide (m.1 = cid))).map (·.2) := by
  have key : ∀ (k n : Nat) (ps : List Bytes), ps.length ≤ n → readMessages (n + k) ps = readMessages n ps := by
    intro k n
    induction n with
    | zero =>
      intro ps h
      have : ps = [] := List.length_eq_zero_iff.mp (by omega)
      subst this
      cases k <;> simp [readMessages]
    | succ n ih =>
      intro ps h
      cases ps with
      | nil => rw [show n + 1 + k = (n + k) + 1 by omega]; simp [readMessages]
      | cons p ps =>
        rw [show n + 1 + k = (n + k) + 1 by omega, readMessages, readMessages]
        split
        · rfl
        · rw [ih]
          simp at h ⊢
          omega
  unfold messages
  rw [← key msgs.length _ _ (Nat.le_refl _)]
  exact messages_all cid msgs hok _ (by omega)

/-! ## Serving requests -/

/-- One request to the authenticator. -/
def Upper.ask (up : Upper W) (cmd : UInt8) (payload : Bytes) : Go W Bytes :=
  if cmd = 0x90 then up.ctap payload else up.u2f payload

/-- Requests one after the other: the answers, the state afterwards, and whether no request panicked. -/
def serve (up : Upper W) : List Msg → W → List Msg × W × Bool
  | [], u => ([], u, true)
  | (cid, cmd, payload) :: rs, u =>
    match up.ask cmd payload u with
    | (.ok a, u') => ((cid, cmd, a) :: (serve up rs u').1, (serve up rs u').2)
    | (.panic _, u') => ([], u', false)

theorem serve_snoc (up : Upper W) (rs : List Msg) (cid : UInt32) (cmd : UInt8) (payload : Bytes) (u : W)
    (h : (serve up rs u).2.2 = true) :
    serve up (rs ++ [(cid, cmd, payload)]) u =
      match up.ask cmd payload (serve up rs u).2.1 with
      | (.ok a, u') => ((serve up rs u).1 ++ [(cid, cmd, a)], u', true)
      | (.panic _, u') => ((serve up rs u).1, u', false) := by
  induction rs generalizing u with
  | nil =>
    simp only [List.nil_append, serve]
  | cons m rs ih =>
    obtain ⟨c1, c2, p⟩ := m
    simp only [List.cons_append, serve] at h ⊢
    rcases hu : up.ask c2 p u with ⟨r | c, u'⟩
    · rw [hu] at h
      dsimp only at h ⊢
      rw [ih u' h]
      rcases up.ask cmd payload (serve up rs u').2.1 with ⟨r | c, u2⟩ <;> rfl
    · rw [hu] at h; simp at h

/-- The requests for the authenticator among those acted on. -/
def requests (fin : List Msg) : List Msg :=
  fin.filter fun m => decide (m.1 ≠ 0xFFFFFFFF) && forAuthenticator m.2.1

theorem requests_snoc_other {fin : List Msg} {m : Msg} (h : m.1 = 0xFFFFFFFF ∨ forAuthenticator m.2.1 = false) :
    requests (fin ++ [m]) = requests fin := by
  unfold requests
  rw [List.filter_append]
  rcases h with h | h <;> simp [h]

theorem requests_snoc {fin : List Msg} {m : Msg} (h : m.1 ≠ 0xFFFFFFFF) (h2 : forAuthenticator m.2.1 = true) :
    requests (fin ++ [m]) = requests fin ++ [m] := by
  unfold requests
  rw [List.filter_append]
  simp [h, h2]

/-! ## Reports and requests -/

theorem Carries.skip {cid : UInt32} {a : List Bytes} {rs : List (UInt8 × Bytes)} (h : Carries cid a rs)
    (b : List Bytes) : Carries cid (a ++ b) rs := by
  induction b generalizing a with
  | nil => simpa using h
  | cons x xs ih =>
    have := ih (.other x h)
    simpa using this

/-- The reports of a channel so far carry the requests acted on, apart from those collected for the
open request. -/
def CarryInv (cid : UInt32) (hist : List Bytes) (w : World W) : Prop :=
  Carries cid (proj cid hist) (finalizedOn cid w) ∧
  ∀ t, w.channels cid = some ⟨cid, some t⟩ → ∃ pre window, proj cid hist = pre ++ window ∧
    Carries cid pre (finalizedOn cid w) ∧ IsOpen cid window t

theorem carry_step (rt : Runtime) (up : Upper W) (m : Bytes) {w : World W} (hwf : WF w)
    {cid : UInt32} {hist : List Bytes} (hci : CarryInv cid hist w) :
    Carries cid (proj cid (hist ++ [m])) (finalizedOn cid (handleMessage rt up m w).2) ∧
    ((handleMessage rt up m w).1 = .ok () → CarryInv cid (hist ++ [m]) (handleMessage rt up m w).2) := by
  have hfr := step_frame rt up m hwf
  have hsf := step_finalized rt up m hwf
  have ho := handleMessage_outcome rt up m hwf
  generalize handleMessage rt up m w = q at hfr hsf ho ⊢
  obtain ⟨r, w'⟩ := q
  dsimp only at hfr hsf ho ⊢
  by_cases hmc : channelOf m = some cid
  · have hp := proj_append_self (hist := hist) hmc
    rw [hp]
    -- from the first part, the second
    have close : ∀ w' : World W, (∀ t, w'.channels cid = some ⟨cid, some t⟩ → False) →
        Carries cid (proj cid hist ++ [m]) (finalizedOn cid w') →
        Carries cid (proj cid hist ++ [m]) (finalizedOn cid w') ∧ (r = .ok () → CarryInv cid (hist ++ [m]) w') :=
      fun w' h1 h2 => ⟨h2, fun _ => ⟨by rw [hp]; exact h2, fun t ht => (h1 t ht).elim⟩⟩
    rcases ho with ⟨c⟩ | ⟨cid', hm, hc⟩ | ⟨cid', tx, code, hm, hc, hcode⟩ |
      ⟨cid', tx, hm, hc⟩ | ⟨cid', tx, t', hm, hc, ho⟩ |
      ⟨cid', tx, t', cmd, payload, header, sl, hm, hc, hcmd, hne, hfr', hh, hs, r, w2, hrun⟩
    · exact ⟨.other m hci.1, fun h => by cases h⟩
    · rw [hmc] at hm; cases hm
      exact close _ (fun t ht => by rw [send_channels, hc] at ht; cases ht) (by
        have : finalizedOn cid (w.send (createResponsePackets cid cmdError [errInvalidChannel])) = finalizedOn cid w := by
          simp [finalizedOn]
        rw [this]; exact .other m hci.1)
    · rw [hmc] at hm; cases hm
      exact close _ (fun t ht => by simp at ht) (by
        have : finalizedOn cid ((w.send (createResponsePackets cid cmdError [code])).setTx cid none) =
            finalizedOn cid w := by simp [finalizedOn]
        rw [this]; exact .other m hci.1)
    · rw [hmc] at hm; cases hm
      exact close _ (fun t ht => by simp at ht) (by
        have : finalizedOn cid (w.setTx cid none) = finalizedOn cid w := by simp [finalizedOn]
        rw [this]; exact .other m hci.1)
    · rw [hmc] at hm; cases hm
      have e : finalizedOn cid (w.setTx cid (some t')) = finalizedOn cid w := by simp [finalizedOn]
      rw [e]
      refine ⟨.other m hci.1, fun _ => ⟨by rw [hp, e]; exact .other m hci.1, ?_⟩⟩
      intro t ht
      simp only [setTx_channels_self, Option.some.injEq, Channel.mk.injEq, true_and] at ht
      subst ht
      rw [e, hp]
      cases tx with
      | none => exact ⟨proj cid hist, [m], rfl, hci.1, by simpa using ho [] (.inl ⟨rfl, rfl⟩)⟩
      | some t0 =>
        obtain ⟨pre, window, hpre, h1, h2⟩ := hci.2 t0 hc
        exact ⟨pre, window ++ [m], by rw [hpre]; simp, h1, ho window (.inr ⟨t0, rfl, h2⟩)⟩
    · rw [hmc] at hm; cases hm
      have he := (handleFinalizedMessage_effect rt up cid header sl (w.setTx cid (some t'))).finalized
      rw [hrun] at he
      have hf : (afterFinal r w2 cid).finalized = w2.finalized := by cases r <;> rfl
      have hfo : finalizedOn cid (afterFinal r w2 cid) = finalizedOn cid w ++ [(cmd, payload)] := by
        unfold finalizedOn
        rw [hf, he, hh, hs]
        simp
      have hcar : Carries cid (proj cid hist ++ [m]) (finalizedOn cid (afterFinal r w2 cid)) := by
        rw [hfo]
        cases tx with
        | none => exact .request [m] cmd payload hci.1 (by simpa using hfr' [] (.inl ⟨rfl, rfl⟩))
        | some t0 =>
          obtain ⟨pre, window, hpre, h1, h2⟩ := hci.2 t0 hc
          rw [hpre, List.append_assoc]
          exact .request (window ++ [m]) cmd payload h1 (hfr' window (.inr ⟨t0, rfl, h2⟩))
      refine ⟨hcar, fun hr => ?_⟩
      subst hr
      exact ⟨by rw [hp]; exact hcar, fun t ht => by simp [afterFinal] at ht⟩
  · have hp := proj_append_ne (hist := hist) hmc
    have hfin : finalizedOn cid w' = finalizedOn cid w := by
      rcases hsf with hsf | ⟨cid', cmd, payload, tx', hm', -, -, -, hsf, -⟩
      · unfold finalizedOn; rw [hsf]
      · have : cid' ≠ cid := by rintro rfl; exact hmc hm'
        unfold finalizedOn; rw [hsf]
        simp [this]
    have hinv : CarryInv cid (hist ++ [m]) w' := by
      refine ⟨by rw [hp, hfin]; exact hci.1, ?_⟩
      intro t ht
      rw [hp, hfin]
      rcases hfr.table with ⟨-, hch⟩ | ⟨-, hb, hch, hnew⟩
      · rw [hch cid hmc] at ht
        exact hci.2 t ht
      · have hcb : cid ≠ broadcastChannel := by rintro rfl; exact hmc hb
        by_cases hcn : cid = w.maxChannelID + 1
        · subst hcn
          rw [hnew hcb] at ht
          simp at ht
        · rw [hch cid hcb hcn] at ht
          exact hci.2 t ht
    exact ⟨hinv.1, fun _ => hinv⟩

theorem carry_run (rt : Runtime) (up : Upper W) (ms : List Bytes) {w : World W} (hwf : WF w)
    {cid : UInt32} {hist : List Bytes} (hci : CarryInv cid hist w) :
    Carries cid (proj cid (hist ++ ms)) (finalizedOn cid (handleAll rt up ms w).2) := by
  induction ms generalizing w hist with
  | nil => simpa [handleAll] using hci.1
  | cons m ms ih =>
    simp only [handleAll]
    rw [Go.run_bind]
    have hs := carry_step rt up m hwf hci
    rcases hm : handleMessage rt up m w with ⟨r | c, w1⟩
    · rw [hm] at hs
      dsimp only at hs ⊢
      have := ih (WF_step rt up m hwf hm) (hs.2 rfl)
      simpa using this
    · rw [hm] at hs
      dsimp only at hs ⊢
      have h1 := Carries.skip hs.1 (proj cid ms)
      have e : proj cid (hist ++ m :: ms) = proj cid (hist ++ [m]) ++ proj cid ms := by
        simp [proj, List.filter_append, List.filter_cons]
        split <;> simp
      rw [e]
      exact h1

theorem carry_new (b : Bool) (u : W) (cid : UInt32) : CarryInv cid [] (World.new b u) := by
  refine ⟨.nil, fun t ht => ?_⟩
  simp only [World.new] at ht
  split at ht <;> simp at ht

end VF.Hid
