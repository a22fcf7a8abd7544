import Verif.Proofs.Service

/-! # What the host reads is what the authenticator answered -/

namespace VF.Hid

open Util Spec.Ctaphid Spec.Service

variable {W : Type}

theorem fragmentation_length {cid : UInt32} {cmd : UInt8} {payload : Bytes} {pkts : List Bytes}
    (h : IsFragmentation cid cmd payload pkts) (h64 : ∀ p ∈ pkts, p.length ≤ 64) : payload.length ≤ 7609 := by
  obtain ⟨d0, ds, rfl, -, hds, -, hlen, -⟩ := h
  have h0 : d0.length ≤ 57 := by
    have := h64 _ (List.mem_cons_self)
    simp [initPacket, le32, be16] at this
    omega
  have hc : ∀ (ds : List Bytes) (seq : Nat), (∀ p ∈ contPackets cid seq ds, p.length ≤ 64) →
      ds.flatten.length ≤ 59 * ds.length := by
    intro ds
    induction ds with
    | nil => simp
    | cons d ds ih =>
      intro seq h
      have h1 := h _ (List.mem_cons_self)
      have h2 := ih (seq + 1) (fun p hp => h p (List.mem_cons_of_mem _ hp))
      simp [contPacket, le32] at h1
      simp only [List.flatten_cons, List.length_append, List.length_cons]
      omega
  have := hc ds 0 (fun p hp => h64 p (List.mem_cons_of_mem _ hp))
  simp only [List.length_append] at hlen
  omega

/-- What was sent are the packets of messages, and those with the commands of the authenticator are
its answers to the requests acted on. -/
def Good (up : Upper W) (u : W) (w : World W) (alive : Bool) : Prop :=
  ∃ msgs : List Msg, w.out = (msgs.map Msg.packets).flatten ∧
    (∀ m ∈ msgs, forAuthenticator m.2.1 = false → Msg.Ok m) ∧
    serve up (requests w.finalized) u = (msgs.filter (fun m => forAuthenticator m.2.1), w.up, alive)

/-- Messages that are none of the authenticator's. -/
theorem Good.more {up : Upper W} {u : W} {w w' : World W} {alive : Bool} (h : Good up u w alive) (more : List Msg)
    (hout : w'.out = w.out ++ (more.map Msg.packets).flatten)
    (hmore : ∀ m ∈ more, forAuthenticator m.2.1 = false ∧ Msg.Ok m)
    (hfin : requests w'.finalized = requests w.finalized) (hup : w'.up = w.up) : Good up u w' alive := by
  obtain ⟨msgs, h1, h2, h3⟩ := h
  refine ⟨msgs ++ more, by rw [hout, h1]; simp, ?_, ?_⟩
  · intro m hm hf
    rw [List.mem_append] at hm
    rcases hm with hm | hm
    · exact h2 m hm hf
    · exact (hmore m hm).2
  · rw [hfin, h3, hup]
    have : more.filter (fun m => forAuthenticator m.2.1) = [] := by
      rw [List.filter_eq_nil_iff]; intro m hm; simp [(hmore m hm).1]
    simp [this]

theorem upper_not_auth {cmd : UInt8} (h : cmd = cmdInit ∨ cmd = cmdPing ∨ cmd = cmdError ∨ cmd = cmdKeepalive) :
    forAuthenticator cmd = false ∧ 128 ≤ cmd.toNat := by
  rcases h with rfl | rfl | rfl | rfl <;> decide

theorem requests_not {fin : List Msg} {cid : UInt32} {cmd : UInt8} {p : Bytes} (h : ¬ (cid ≠ broadcastChannel ∧
    (cmd = cmdMsg ∨ cmd = cmdCBOR))) : requests (fin ++ [(cid, cmd, p)]) = requests fin := by
  apply requests_snoc_other
  by_cases hb : cid = broadcastChannel
  · exact .inl hb
  · right
    have : ¬ (cmd = cmdMsg ∨ cmd = cmdCBOR) := fun h2 => h ⟨hb, h2⟩
    simp only [not_or] at this
    simp only [forAuthenticator, Bool.or_eq_false_iff, beq_eq_false_iff_ne]
    exact ⟨this.2, this.1⟩

theorem good_step (rt : Runtime) (up : Upper W) (m : Bytes) {w : World W} (hwf : WF w)
    (hset : w.handlerSet = true) {hist : List Bytes} (hci : ∀ cid, ChanInv cid hist w)
    (h64 : ∀ p ∈ hist ++ [m], p.length ≤ 64) {u : W} (hg : Good up u w true) :
    ∃ alive, Good up u (handleMessage rt up m w).2 alive ∧
      ((handleMessage rt up m w).1 = .ok () → alive = true) := by
  have ho := handleMessage_outcome rt up m hwf
  generalize handleMessage rt up m w = q at ho ⊢
  obtain ⟨r, w'⟩ := q
  dsimp only at ho ⊢
  rcases ho with ⟨c⟩ | ⟨cid, hm, hc⟩ | ⟨cid, tx, code, hm, hc, hcode⟩ |
    ⟨cid, tx, hm, hc⟩ | ⟨cid, tx, t, hm, hc, ho⟩ |
    ⟨cid, tx, t, cmd, payload, header, sl, hm, hc, h1, h2, h3, h4, h5, r, w0, hfin⟩
  · exact ⟨true, hg, fun _ => rfl⟩
  · refine ⟨true, hg.more [(cid, cmdError, [errInvalidChannel])] ?_ ?_ (by simp) (by simp), fun _ => rfl⟩
    · rw [send_out_set _ _ hset]; simp [Msg.packets]
    · intro x hx
      simp only [List.mem_singleton] at hx
      subst hx
      exact ⟨rfl, Nat.le_of_ble_eq_true rfl, by simp, by simp⟩
  · refine ⟨true, hg.more [(cid, cmdError, [code])] ?_ ?_ (by simp) (by simp), fun _ => rfl⟩
    · rw [setTx_out, send_out_set _ _ hset]; simp [Msg.packets]
    · intro x hx
      simp only [List.mem_singleton] at hx
      subst hx
      exact ⟨rfl, Nat.le_of_ble_eq_true rfl, by simp, by simp⟩
  · exact ⟨true, hg.more [] (by simp) (by simp) (by simp) (by simp), fun _ => rfl⟩
  · exact ⟨true, hg.more [] (by simp) (by simp) (by simp) (by simp), fun _ => rfl⟩
  · have hplen : payload.length ≤ 7609 := by
      cases tx with
      | none => exact fragmentation_length (h3 [] (.inl ⟨rfl, rfl⟩)) (fun p hp => h64 p (by simp at hp; simp [hp]))
      | some t0 =>
        obtain ⟨window, hsuf, hopen⟩ := hci cid t0 hc
        refine fragmentation_length (h3 window (.inr ⟨t0, rfl, hopen⟩)) (fun p hp => h64 p ?_)
        rw [List.mem_append] at hp ⊢
        rcases hp with hp | hp
        · exact .inl (List.mem_filter.mp (hsuf.subset hp)).1
        · exact .inr hp
    have hout : (afterFinal r w0 cid).out = w0.out := by cases r <;> rfl
    have hfz : (afterFinal r w0 cid).finalized = w0.finalized := by cases r <;> rfl
    have hupf : (afterFinal r w0 cid).up = w0.up := by cases r <;> rfl
    have hred : ∀ alive, Good up u w0 alive → Good up u (afterFinal r w0 cid) alive := by
      intro alive h
      exact h.more [] (by simp [hout]) (by simp) (by rw [hfz]) hupf
    subst h4
    have hset' : (w.setTx cid (some t)).handlerSet = true := hset
    -- PING
    have ping : cmd = cmdPing → handleFinalizedMessage rt up cid ⟨cid, cmd, UInt16.ofNat payload.length⟩ sl
        (w.setTx cid (some t)) = (r, w0) → Good up u w0 true := by
      intro hi hfin
      subst hi
      rw [fin_ping rt up _ _ rfl] at hfin
      simp only [Prod.mk.injEq] at hfin
      obtain ⟨-, rfl⟩ := hfin
      rw [h5]
      have hreq : ∀ (w1 : World W) ps, requests ((w1.act (cid, cmdPing, payload)).send ps).finalized =
          requests w1.finalized := by
        intro w1 ps
        simp only [send_finalized, act_finalized]
        exact requests_not (fun h => absurd h.2 (by decide))
      by_cases hp : payload = []
      · refine hg.more [] ?_ (by simp) (by rw [hreq]; rfl) (by simp)
        subst hp
        simp [World.send, hset, createResponsePackets, responseLoop]
      · refine hg.more [(cid, cmdPing, payload)] ?_ ?_ (by rw [hreq]; rfl) (by simp)
        · rw [send_out_set _ _ (by simpa using hset)]; simp [Msg.packets]
        · intro x hx
          simp only [List.mem_singleton] at hx
          subst hx
          exact ⟨rfl, Nat.le_of_ble_eq_true rfl, hp, hplen⟩
    by_cases hsup : Supported cid cmd
    · unfold Supported at hsup
      by_cases hb : cid = broadcastChannel
      · subst hb
        simp only [if_true] at hsup
        rcases hsup with hi | hp
        · rw [fin_init rt up _ _ hi] at hfin
          subst hi
          have hreq : requests (w.finalized ++ [(broadcastChannel, cmdInit, sl.data)]) = requests w.finalized :=
            requests_not (by simp)
          rcases hup : sl.upTo 8 with n | c
          · rw [hup] at hfin
            simp only [Prod.mk.injEq] at hfin
            obtain ⟨rfl, rfl⟩ := hfin
            refine ⟨true, hred _ (hg.more [(broadcastChannel, cmdInit,
              pad n.data 8 ++ toLE32 (w.maxChannelID + 1) ++ [2, 0, 0, 1, capabilityCBOR])] ?_ ?_ ?_ ?_), fun _ => rfl⟩
            · rw [send_out_set _ _ (by simpa [World.alloc] using hset)]; simp [Msg.packets, World.alloc]
            · intro x hx
              simp only [List.mem_singleton] at hx
              subst hx
              exact ⟨rfl, Nat.le_of_ble_eq_true rfl, by simp, by simp [toLE32]⟩
            · simpa [World.alloc] using hreq
            · simp [World.alloc]
          · rw [hup] at hfin
            simp only [Prod.mk.injEq] at hfin
            obtain ⟨rfl, rfl⟩ := hfin
            exact ⟨true, hred _ (hg.more [] (by simp [World.alloc]) (by simp) (by simpa [World.alloc] using hreq)
              (by simp [World.alloc])), fun _ => rfl⟩
        · exact ⟨true, hred _ (ping hp hfin), fun _ => rfl⟩
      · simp only [hb, if_false] at hsup
        rcases hsup with hi | hi | hi
        · -- U2F
          rw [fin_msg rt up _ _ hb hi] at hfin
          subst hi
          have e : (w.setTx cid (some t)).up = w.up := rfl
          rw [e, h5] at hfin
          obtain ⟨msgs, g1, g2, g3⟩ := hg
          have hsv := serve_snoc up (requests w.finalized) cid cmdMsg payload u (by rw [g3])
          rw [g3] at hsv
          dsimp only at hsv
          have ha : up.ask cmdMsg payload = up.u2f payload := rfl
          rw [ha] at hsv
          have hreq : requests (w.finalized ++ [(cid, cmdMsg, payload)]) =
            requests w.finalized ++ [(cid, cmdMsg, payload)] := requests_snoc hb rfl
          rcases hu : up.u2f payload w.up with ⟨a | c, u'⟩
          · rw [hu] at hfin hsv
            simp only [Prod.mk.injEq] at hfin
            obtain ⟨rfl, rfl⟩ := hfin
            refine ⟨true, hred _ ⟨msgs ++ [(cid, cmdMsg, a)], ?_, ?_, ?_⟩, fun _ => rfl⟩
            · rw [send_out_set _ _ (by simpa using hset)]; simp [Msg.packets, g1]
            · intro x hx hf
              rw [List.mem_append] at hx
              rcases hx with hx | hx
              · exact g2 x hx hf
              · simp only [List.mem_singleton] at hx
                subst hx
                exact Bool.noConfusion (hf : true = false)
            · simp only [send_finalized, withUp_finalized, act_finalized, setTx_finalized, hreq, hsv]
              simp [List.filter_append, forAuthenticator, cmdMsg]
          · rw [hu] at hfin hsv
            simp only [Prod.mk.injEq] at hfin
            obtain ⟨rfl, rfl⟩ := hfin
            refine ⟨false, hred _ ⟨msgs, ?_, g2, ?_⟩, fun h => by cases h⟩
            · simp [g1]
            · simp only [withUp_finalized, act_finalized, setTx_finalized, hreq, hsv]
              simp
        · -- CTAP2
          rw [fin_cbor rt up _ _ hb hi] at hfin
          subst hi
          have e : (w.setTx cid (some t)).up = w.up := rfl
          have e2 : (w.setTx cid (some t)).cborCount = w.cborCount := rfl
          rw [e, e2, h5] at hfin
          obtain ⟨msgs, g1, g2, g3⟩ := hg
          have hsv := serve_snoc up (requests w.finalized) cid cmdCBOR payload u (by rw [g3])
          rw [g3] at hsv
          dsimp only at hsv
          have ha : up.ask cmdCBOR payload = up.ctap payload := rfl
          rw [ha] at hsv
          have hreq : requests (w.finalized ++ [(cid, cmdCBOR, payload)]) =
            requests w.finalized ++ [(cid, cmdCBOR, payload)] := requests_snoc hb rfl
          have hka : keepalivePackets rt cid w.cborCount =
              ((List.replicate (rt.keepalives w.cborCount) ((cid, cmdKeepalive, [statusUpneeded]) : Msg)).map
                Msg.packets).flatten := by
            simp [keepalivePackets, Msg.packets]
          have hkok : ∀ x ∈ List.replicate (rt.keepalives w.cborCount) ((cid, cmdKeepalive, [statusUpneeded]) : Msg),
              forAuthenticator x.2.1 = false ∧ Msg.Ok x := by
            intro x hx
            obtain ⟨-, rfl⟩ := List.mem_replicate.mp hx
            exact ⟨rfl, Nat.le_of_ble_eq_true rfl, by simp, by simp⟩
          have hkf : (List.replicate (rt.keepalives w.cborCount) ((cid, cmdKeepalive, [statusUpneeded]) : Msg)).filter
              (fun m => forAuthenticator m.2.1) = [] := by
            rw [List.filter_eq_nil_iff]; intro x hx; simp [(hkok x hx).1]
          rw [hka] at hfin
          rcases hu : up.ctap payload w.up with ⟨a | c, u'⟩
          · rw [hu] at hfin hsv
            simp only [Prod.mk.injEq] at hfin
            obtain ⟨rfl, rfl⟩ := hfin
            refine ⟨true, hred _ ⟨msgs ++ List.replicate (rt.keepalives w.cborCount)
              ((cid, cmdKeepalive, [statusUpneeded]) : Msg) ++ [(cid, cmdCBOR, a)], ?_, ?_, ?_⟩, fun _ => rfl⟩
            · rw [send_out_set _ _ (by simpa using hset), withUp_out, send_out_set _ _ (by simpa using hset)]
              simp [Msg.packets, g1]
            · intro x hx hf
              rw [List.mem_append, List.mem_append] at hx
              rcases hx with (hx | hx) | hx
              · exact g2 x hx hf
              · exact (hkok x hx).2
              · simp only [List.mem_singleton] at hx
                subst hx
                exact Bool.noConfusion (hf : true = false)
            · simp only [send_finalized, withUp_finalized, count_finalized, act_finalized, setTx_finalized, hreq, hsv,
                List.filter_append, hkf]
              simp [forAuthenticator, cmdCBOR]
          · rw [hu] at hfin hsv
            simp only [Prod.mk.injEq] at hfin
            obtain ⟨rfl, rfl⟩ := hfin
            refine ⟨false, hred _ ⟨msgs ++ List.replicate (rt.keepalives w.cborCount)
              ((cid, cmdKeepalive, [statusUpneeded]) : Msg), ?_, ?_, ?_⟩, fun h => by cases h⟩
            · rw [withUp_out, send_out_set _ _ (by simpa using hset)]
              simp [Msg.packets, g1]
            · intro x hx hf
              rw [List.mem_append] at hx
              rcases hx with hx | hx
              · exact g2 x hx hf
              · exact (hkok x hx).2
            · simp only [send_finalized, withUp_finalized, count_finalized, act_finalized, setTx_finalized, hreq, hsv,
                List.filter_append, hkf]
              simp
        · exact ⟨true, hred _ (ping hi hfin), fun _ => rfl⟩
    · rw [fin_unsupported rt up _ _ hsup] at hfin
      simp only [Prod.mk.injEq] at hfin
      obtain ⟨rfl, rfl⟩ := hfin
      refine ⟨true, hred _ (hg.more [] (by simp) (by simp) ?_ (by simp)), fun _ => rfl⟩
      simp only [act_finalized, setTx_finalized]
      apply requests_not
      rintro ⟨hb, hx⟩
      apply hsup
      unfold Supported
      rw [if_neg hb]
      rcases hx with hx | hx
      · exact .inl hx
      · exact .inr (.inl hx)

theorem good_run (rt : Runtime) (up : Upper W) (ms : List Bytes) {w : World W} (hwf : WF w)
    (hset : w.handlerSet = true) {hist : List Bytes} (hci : ∀ cid, ChanInv cid hist w)
    (h64 : ∀ p ∈ hist ++ ms, p.length ≤ 64) {u : W} (hg : Good up u w true) :
    ∃ alive, Good up u (handleAll rt up ms w).2 alive ∧
      ((handleAll rt up ms w).1 = .ok () → alive = true) := by
  induction ms generalizing w hist with
  | nil => exact ⟨true, by simpa [handleAll] using hg, fun _ => rfl⟩
  | cons m ms ih =>
    simp only [handleAll]
    rw [Go.run_bind]
    obtain ⟨alive, hg', ha⟩ := good_step rt up m hwf hset hci (fun p hp => h64 p (by
      simp only [List.mem_append, List.mem_cons, List.not_mem_nil, or_false] at hp ⊢
      rcases hp with hp | hp <;> simp [hp])) hg
    rcases hm : handleMessage rt up m w with ⟨r | c, w1⟩
    · rw [hm] at hg' ha
      have := ha rfl
      subst this
      dsimp only at hg' ⊢
      have hs := (step_frame rt up m hwf).handlerSet
      rw [hm] at hs
      exact ih (WF_step rt up m hwf hm) (hs.trans hset) (fun cid => ChanInv_step rt up m hwf (hci cid) hm)
        (by simpa using h64) hg'
    · rw [hm] at hg' ha
      exact ⟨alive, hg', fun h => by cases h⟩

theorem good_new (up : Upper W) (u : W) : Good up u (World.new true u) true :=
  ⟨[], rfl, by simp, rfl⟩

/-- A whole history. -/
theorem serve_run (rt : Runtime) (up : Upper W) (hist : List Bytes) (u : W) (h64 : ∀ p ∈ hist, p.length ≤ 64)
    {r : Res Unit} {w : World W} (h : handleAll rt up hist (World.new true u) = (r, w)) :
    ∃ as alive, serve up (requests w.finalized) u = (as, w.up, alive) ∧ (r = .ok () → alive = true) ∧
      ((∀ m ∈ as, m.2.2 ≠ [] ∧ m.2.2.length ≤ 7609) → ∀ cid,
        answers (w.out.filter fun p => channelOf p == some cid) =
          (as.filter fun m => decide (m.1 = cid)).map (·.2)) ∧
      ∀ cid, Carries cid (hist.filter fun p => channelOf p == some cid)
        ((w.finalized.filter fun m => decide (m.1 = cid)).map (·.2)) := by
  have hnew : ∀ cid, ChanInv cid [] (World.new true u) := by
    intro cid t ht
    simp only [World.new] at ht
    split at ht <;> simp at ht
  obtain ⟨alive, ⟨msgs, h1, h2, h3⟩, ha⟩ := good_run rt up hist (WF_new true u) rfl hnew (by simpa using h64)
    (good_new up u)
  rw [h] at h1 h3 ha
  dsimp only at h1 h3 ha
  refine ⟨_, alive, h3, ha, ?_, ?_⟩
  · intro hok cid
    have hall : ∀ m ∈ msgs, Msg.Ok m := by
      intro m hm
      by_cases hf : forAuthenticator m.2.1 = true
      · obtain ⟨h4, h5⟩ := hok m (List.mem_filter.mpr ⟨hm, hf⟩)
        refine ⟨?_, h4, h5⟩
        simp only [forAuthenticator, Bool.or_eq_true, beq_iff_eq] at hf
        rcases hf with hf | hf <;> rw [hf] <;> decide
      · exact h2 m hm (by simpa using hf)
    unfold answers
    rw [h1, messages_on cid msgs hall, List.filter_map, List.filter_filter, List.filter_filter]
    congr 1
    apply List.filter_congr
    intro x _
    simp [Bool.and_comm]
  · intro cid
    have := carry_run rt up hist (WF_new true u) (carry_new true u cid)
    rw [h] at this
    have e : (hist.filter fun p => channelOf p == some cid) = proj cid hist :=
      List.filter_congr fun x _ => by by_cases hx : channelOf x = some cid <;> simp [hx]
    rw [e]
    simpa [finalizedOn] using this

end VF.Hid
