import Verif.Proofs.ReportsRun

/-! # Reports handled at the same time: collecting a report, and whole histories -/

namespace VF.Reports

open Util Hid Spec.Ctaphid Spec.Service Spec.Calls

variable {s : State} {handled refused : List Bytes} {calls : List Call} {sent : List Msg}

theorem tx_goes_eq {i p : Nat} {r : Routine} {c : Chan} (hr : s.routines[i]? = some r) (hc : s.chans[p]? = some c)
    (t : Option Transaction) (ph : Phase) :
    (s.setTx p t).goes i ph =
      { s with
        chans := s.chans.set p { c with transaction := t }
        routines := s.routines.set i { r with phase := ph } } := by
  have hr' : (s.setTx p t).routines[i]? = some r := hr
  rw [goes_eq hr']
  simp only [State.setTx, modify_chan hc]

theorem keeping_goes_eq {i p : Nat} {r : Routine} {c : Chan} (hr : s.routines[i]? = some r)
    (hc : s.chans[p]? = some c) (t : Option Transaction) (cid : UInt32) (ph : Phase) :
    ((s.setTx p t).keeping i cid).goes i ph =
      { s with
        chans := s.chans.set p { c with transaction := t }
        routines := s.routines.set i { r with phase := ph, keepalive := some cid } } := by
  have h0 : s.routines.modify i (fun r => { r with keepalive := some cid }) =
      s.routines.set i { r with keepalive := some cid } := by
    apply List.ext_getElem?
    intro j
    rw [List.getElem?_modify, List.getElem?_set]
    by_cases hj : i = j
    · subst hj
      obtain ⟨hl, rfl⟩ := List.getElem?_eq_some_iff.mp hr
      simp [hl]
    · simp [hj]
  have hr' : ((s.setTx p t).keeping i cid).routines[i]? = some { r with keepalive := some cid } := by
    show (s.routines.modify i _)[i]? = _
    rw [h0]
    exact get_set_self hr
  rw [goes_eq hr']
  simp only [State.setTx, State.keeping, modify_chan hc, h0, List.set_set]

theorem more_eq {i p : Nat} {r : Routine} {c : Chan} (hr : s.routines[i]? = some r) (hc : s.chans[p]? = some c)
    (t : Option Transaction) :
    ((s.setTx p t).setHolder p none).goes i .done =
      { s with
        chans := s.chans.set p { c with transaction := t, holder := none }
        routines := s.routines.set i { r with phase := .done } } := by
  have hr' : ((s.setTx p t).setHolder p none).routines[i]? = some r := hr
  rw [goes_eq hr']
  have h1 : (s.setTx p t).chans[p]? = some { c with transaction := t } := by
    simp only [State.setTx, modify_chan hc]
    exact get_set_self hc
  have h2 : ((s.setTx p t).chans.modify p fun c => { c with holder := none }) =
      s.chans.set p { c with transaction := t, holder := none } := by
    rw [modify_chan h1]
    simp only [State.setTx, modify_chan hc, List.set_set]
  simp only [State.setHolder, h2]
  rfl

/-- The goroutine that has the channel deals with its report. -/
theorem inv_after (inv : Inv s handled refused calls sent) {i p : Nat} {r r' : Routine} {c c' : Chan}
    (hr : s.routines[i]? = some r) (hp : r.phase = .inside p) (hc : s.chans[p]? = some c)
    (hm : channelOf r.report = some c.channelId) {calls' : List Call} (hrep : r'.report = r.report)
    (hid : c'.channelId = c.channelId) (ht : r'.phase.taken = true)
    (hw : ∀ q xs, r'.phase ≠ .writing q xs) (hl : ∀ xs, r'.phase ≠ .sending none xs)
    (habout : r'.phase.about = r'.phase.holds)
    (hnew : (r'.phase.holds = some p ∧ c'.holder = some i) ∨ (r'.phase.holds = none ∧ c'.holder = none))
    (hcalls : ∀ cid, cid ≠ c.channelId → callsOn cid calls' = callsOn cid calls)
    (hconv : Conv c.channelId (proj c.channelId handled ++ [r.report]) (callsOn c.channelId calls')
      (sentOn c.channelId sent) c'.transaction
      (c'.holder.bind fun j => if j = i then some (i, r'.phase) else none)) :
    Inv { s with
      chans := s.chans.set p c'
      routines := s.routines.set i r' } (handled ++ [r.report]) refused calls' sent := by
  refine inv.update hr hc rfl rfl rfl rfl hrep hid (by rw [hp]; rfl) (.inl (by rw [hp]; rfl)) hnew habout hl ?_ ?_ ?_
    ?_ ?_ inv.good ?_
  · refine List.Perm.trans ?_ (taken_set_new hr hrep (by rw [hp]; rfl) ht inv.taken)
    rw [List.append_assoc, List.append_assoc]
    exact List.Perm.append_left _ List.perm_append_comm
  · have := inv.grows
    simp; omega
  · intro cid hcid
    refine ⟨?_, hcalls cid hcid, rfl⟩
    rw [proj_append, proj_one_ne (by rw [hm]; intro h; exact hcid (Option.some.inj h).symm)]
    simp
  · exact resp_keep inv.resp hr (by rw [hp]; intro q xs h; cases h) hw
  · exact outs_keep inv hr (by rw [hp]; intro q xs h; cases h) (by rfl) (by rfl) (by rfl)
  · rw [proj_append, proj_one hm]
    exact hconv

theorem inv_handle (grow : Nat → Nat → Nat) (inv : Inv s handled refused calls sent) {i p ticket : Nat} {r : Routine}
    {c : Chan} (hr : s.routines[i]? = some r) (hp : r.phase = .inside p) (hc : s.chans[p]? = some c)
    (hb : s.routines.length < 4294967295) (hcr : (s.handle grow i p ticket c r.report).crashed = false) :
    ∃ calls', Inv (s.handle grow i p ticket c r.report) (handled ++ [r.report]) refused calls' sent ∧
      Next s (s.handle grow i p ticket c r.report) calls (.turn i ticket) calls' := by
  obtain ⟨c0, hc0, hm, hh, hat⟩ := inv.holds_holder hr (p := p) (by rw [hp]; rfl)
  rw [hc] at hc0
  cases hc0
  have hconv := inv.conv p c hc
  rw [hat, hp] at hconv
  cases hconv with
  | inside ho ha hss =>
    have hcases := handle_cases grow s i p ticket c r hm ho.fits
    generalize s.handle grow i p ticket c r.report = s' at hcases hcr ⊢
    have hsmall : r.report.length ≤ 64 := inv.small r (List.mem_of_getElem? hr)
    have hproj : ∀ m ∈ proj c.channelId handled, m.length ≤ 64 :=
      fun m hm => handled_small inv m (List.mem_filter.mp hm).1
    -- an answer that is none of the authenticator's
    have other : ∀ (t : Transaction) (ms : List Msg), (∀ m ∈ ms, m.1 = c.channelId ∧ forAuthenticator m.2.1 = false ∧
        Msg.Ok m) → Opened c.channelId (proj c.channelId handled ++ [r.report]) (callsOn c.channelId calls) none →
        Inv ((s.setTx p (some t)).goes i (.sending (some p) ((ms.map Msg.packets).flatten))) (handled ++ [r.report])
          refused calls sent := by
      intro t ms hms hop
      rw [tx_goes_eq hr hc]
      refine inv_after inv hr hp hc hm rfl rfl rfl (fun q xs h => by cases h) (fun xs h => by cases h) rfl
        (.inl ⟨rfl, hh⟩) (fun _ _ => rfl) ?_
      rw [hh]
      simp only [Option.bind_some, if_true]
      refine .sending ms rfl (fun m hm => (hms m hm).1) (fun m hm _ => (hms m hm).2.2) hop ha ?_
      rw [sentOn_other (fun m hm => .inr (hms m hm).2.1), List.append_nil]
      exact hss
    cases hcases with
    | crash h => rw [h] at hcr; cases hcr
    | error t code hno =>
      refine ⟨calls, ?_, .same⟩
      have := other t [(c.channelId, cmdError, [code])] (by
        intro m hm
        rw [List.mem_singleton] at hm
        subst hm
        exact ⟨rfl, rfl, Nat.le_of_ble_eq_true rfl, by simp, by simp⟩) (ho.skip _ hno)
      simpa using this
    | cancelled t hno =>
      refine ⟨calls, ?_, .same⟩
      have hc' : (s.setTx p (some t)).chans[p]? = some { c with transaction := some t } := by
        simp only [State.setTx, modify_chan hc]
        exact get_set_self hc
      have hr' : (s.setTx p (some t)).routines[i]? = some r := hr
      rw [leave_eq hr' hc']
      simp only [State.setTx, modify_chan hc, List.set_set]
      refine inv_after inv hr hp hc hm rfl rfl rfl (fun q xs h => by cases h) (fun xs h => by cases h) rfl
        (.inr ⟨rfl, rfl⟩) (fun _ _ => rfl) ?_
      exact .idle (ho.skip _ hno) ha hss
    | more t hopen =>
      refine ⟨calls, ?_, .same⟩
      rw [more_eq hr hc]
      refine inv_after inv hr hp hc hm rfl rfl rfl (fun q xs h => by cases h) (fun xs h => by cases h) rfl
        (.inr ⟨rfl, rfl⟩) (fun _ _ => rfl) ?_
      exact .idle (ho.more hopen) ha hss
    | init t payload data hbc hd0 hfrag =>
      have hd : data.length = 17 := by
        obtain ⟨nonce, h1, rfl⟩ := hd0
        simp [h1]
      refine ⟨calls, ?_, .same⟩
      have h1 := other t [(c.channelId, cmdInit, data)] (by
        intro m hm
        rw [List.mem_singleton] at hm
        subst hm
        refine ⟨rfl, rfl, Nat.le_of_ble_eq_true rfl, ?_, ?_⟩
        · intro h
          dsimp only at h
          rw [h] at hd; cases hd
        · dsimp only; omega) (ho.request (show Begins cmdInit by exact ⟨by decide, by decide⟩) hfrag (by simp [hbc]))
      simp only [List.map_cons, List.map_nil, List.flatten_cons, List.flatten_nil, List.append_nil] at h1
      have h2 := h1.alloc (by
        have := inv.grows
        rw [tx_goes_eq hr hc]
        simp
        omega) (by rw [tx_goes_eq hr hc]; simpa using hb)
      exact h2
    | ping t payload hfrag =>
      refine ⟨calls, ?_, .same⟩
      have hop := ho.request (show Begins cmdPing by exact ⟨by decide, by decide⟩) hfrag (ks' := callsOn c.channelId calls) (by simp [forAuthenticator, cmdPing])
      by_cases hpl : payload = []
      · have := other t [] (fun m hm => by simp at hm) hop
        subst hpl
        exact this
      · have := other t [(c.channelId, cmdPing, payload)] (by
          intro m hm
          rw [List.mem_singleton] at hm
          subst hm
          exact ⟨rfl, rfl, Nat.le_of_ble_eq_true rfl, hpl, ho.length hproj hsmall hfrag⟩) hop
        simpa using this
    | call t cmd payload hbc hcmd hfrag s1 hs1 =>
      have hf : forAuthenticator cmd = true := by rcases hcmd with rfl | rfl <;> rfl
      have key : ∀ ka : Option UInt32, Inv { s with
          chans := s.chans.set p { c with transaction := some t }
          routines := s.routines.set i
            ⟨r.report, .calling p ticket c.channelId cmd payload, ka⟩ } (handled ++ [r.report]) refused
          (calls ++ [⟨i, ticket, c.channelId, cmd, payload, none⟩]) sent := by
        intro ka
        have hon : callsOn c.channelId (calls ++ [⟨i, ticket, c.channelId, cmd, payload, none⟩]) =
            callsOn c.channelId calls ++ [⟨i, ticket, c.channelId, cmd, payload, none⟩] := by
          rw [callsOn_append]
          simp [callsOn]
        refine inv_after inv hr hp hc hm rfl rfl rfl (fun q xs h => by cases h) (fun xs h => by cases h) rfl
          (.inl ⟨rfl, hh⟩) ?_ ?_
        · intro cid hcid
          rw [callsOn_append]
          have : callsOn cid [⟨i, ticket, c.channelId, cmd, payload, none⟩] = [] := by
            unfold callsOn
            rw [List.filter_eq_nil_iff]
            intro k hk
            rw [List.mem_singleton] at hk
            subst hk
            simpa using fun h : c.channelId = cid => hcid h.symm
          rw [this, List.append_nil]
        · rw [hh, hon]
          simp only [Option.bind_some, if_true]
          refine .calling _ rfl hcmd (ho.request ?_ hfrag ?_) ha ?_
          · rcases hcmd with rfl | rfl <;> exact ⟨by decide, by decide⟩
          · simp [asked, hbc, hf]
          · rw [results_append, ← hss]
            simp [results]
      rcases hs1 with rfl | rfl
      · refine ⟨calls ++ [⟨i, ticket, c.channelId, cmd, payload, none⟩], ?_, ?_⟩
        · rw [tx_goes_eq hr hc]
          exact key r.keepalive
        · refine .call (p := p) (r' := { r with phase := .calling p ticket c.channelId cmd payload }) hr
            (by rw [hp]; rfl) ?_ rfl
          rw [tx_goes_eq hr hc]
          exact get_set_self hr
      · refine ⟨calls ++ [⟨i, ticket, c.channelId, cmd, payload, none⟩], ?_, ?_⟩
        · rw [keeping_goes_eq hr hc]
          exact key _
        · refine .call (p := p) (r' := ⟨r.report, .calling p ticket c.channelId cmd payload, some c.channelId⟩) hr
            (by rw [hp]; rfl) ?_ rfl
          rw [keeping_goes_eq hr hc]
          exact get_set_self hr

/-- Reports are refused when there is no such channel. -/
def Refusal (s : State) (refused refused' : List Bytes) : Prop :=
  refused' = refused ∨ ∃ m cid, refused' = refused ++ [m] ∧ channelOf m = some cid ∧ s.table cid = none

/-- A report is dealt with or refused by its goroutine. -/
def Taking (s s' : State) (handled refused handled' refused' : List Bytes) : Prop :=
  (handled' = handled ∧ refused' = refused) ∨
  ∃ (i : Nat) (r r' : Routine), s.routines[i]? = some r ∧ r.phase.taken = false ∧ s'.routines[i]? = some r' ∧ r'.phase.taken = true ∧
    ((handled' = handled ++ [r.report] ∧ refused' = refused) ∨
      (handled' = handled ∧ refused' = refused ++ [r.report] ∧
        ∃ cid, channelOf r.report = some cid ∧ s.table cid = none))

theorem Taking.refusal {s s' : State} {handled refused handled' refused' : List Bytes}
    (h : Taking s s' handled refused handled' refused') : Refusal s refused refused' := by
  rcases h with ⟨-, h⟩ | ⟨i, r, r', -, -, -, -, ⟨-, h⟩ | ⟨-, h, cid, h1, h2⟩⟩
  · exact .inl h
  · exact .inl h
  · exact .inr ⟨r.report, cid, h, h1, h2⟩

theorem goes_get {s s0 : State} (h0 : s0.routines = s.routines) {i : Nat} {r : Routine} (hr : s.routines[i]? = some r)
    (ph : Phase) : (s0.goes i ph).routines[i]? = some { r with phase := ph } := by
  rw [goes_eq (s := s0) (by rw [h0]; exact hr)]
  exact get_set_self (by rw [h0]; exact hr)

/-- After its report was dealt with the goroutine is past it. -/
theorem handle_taken (grow : Nat → Nat → Nat) {i p ticket : Nat} {r : Routine} {c : Chan} (hr : s.routines[i]? = some r)
    (hcr : (s.handle grow i p ticket c r.report).crashed = false) :
    ∃ r', (s.handle grow i p ticket c r.report).routines[i]? = some r' ∧ r'.phase.taken = true := by
  have key : ∀ (s0 : State) (ph : Phase), s0.routines = s.routines → ph.taken = true →
      ∃ r', (s0.goes i ph).routines[i]? = some r' ∧ r'.phase.taken = true :=
    fun s0 ph h0 hp => ⟨_, goes_get h0 hr ph, hp⟩
  unfold State.handle at hcr ⊢
  split at hcr
  · cases hcr
  · rename_i t ht
    split at hcr
    · rename_i hd
      rw [if_pos hd]
      split at hcr
      · rename_i he
        rw [if_pos he]
        exact key (s.setTx p (some t)) _ rfl rfl
      · rename_i he
        rw [if_neg he]
        split at hcr
        · rename_i hca
          rw [if_pos hca]
          exact key (((s.setTx p (some t)).setTx p none).setHolder p none) _ rfl rfl
        · rename_i hca
          rw [if_neg hca]
          split at hcr
          · cases hcr
          · rename_i result hres
            split at hcr
            · rename_i hb
              rw [if_pos hb]
              unfold State.broadcast at hcr ⊢
              split at hcr
              · rename_i hi
                rw [if_pos hi]
                split at hcr
                · cases hcr
                · exact key (s.setTx p (some t)).alloc _ rfl rfl
              · rename_i hi
                rw [if_neg hi]
                split at hcr
                · rename_i hpi
                  rw [if_pos hpi]
                  exact key (s.setTx p (some t)) _ rfl rfl
                · cases hcr
            · rename_i hb
              rw [if_neg hb]
              unfold State.data at hcr ⊢
              split at hcr
              · rename_i hi
                rw [if_pos hi]
                exact key (s.setTx p (some t)) _ rfl rfl
              · rename_i hi
                rw [if_neg hi]
                split at hcr
                · rename_i hpi
                  rw [if_pos hpi]
                  have hk : ((s.setTx p (some t)).keeping i c.channelId).routines[i]? =
                      some { r with keepalive := some c.channelId } := by
                    show (s.routines.modify i _)[i]? = _
                    rw [List.getElem?_modify, hr]
                    simp
                  refine ⟨_, goes_get rfl hk _, rfl⟩
                · rename_i hpi
                  rw [if_neg hpi]
                  split at hcr
                  · rename_i hq
                    rw [if_pos hq]
                    exact key (s.setTx p (some t)) _ rfl rfl
                  · cases hcr
    · rename_i hd
      rw [if_neg hd]
      exact key ((s.setTx p (some t)).setHolder p none) _ rfl rfl

/-- Every event keeps the invariant. -/
theorem inv_step (grow : Nat → Nat → Nat) (inv : Inv s handled refused calls sent) {e : Event} {s' : State}
    (h : s.step grow e = some s') (hcr : s'.crashed = false) (h64 : ∀ m, e = .arrive m → m.length ≤ 64)
    (hb : s.routines.length < 4294967295) :
    ∃ handled' refused' calls' sent', Inv s' handled' refused' calls' sent' ∧ Next s s' calls e calls' ∧ Taking s s' handled refused handled' refused' := by
  unfold State.step at h
  split at h
  · cases h
  cases e with
  | arrive m =>
    cases h
    exact ⟨handled, refused, calls, sent, inv_arrive inv (h64 m rfl), .same, .inl ⟨rfl, rfl⟩⟩
  | turn i ticket =>
    dsimp only at h
    rcases hr : s.routines[i]? with _ | r
    · rw [hr] at h; cases h
    · rw [hr] at h
      dsimp only at h
      unfold State.turn at h
      split at h
      · rename_i hp
        split at h
        · cases h; cases hcr
        · rename_i cid rest hrd
          have hm : channelOf r.report = some cid := channelOf_eq_iff.mpr ⟨rest, hrd⟩
          split at h
          · rename_i ht
            cases h
            exact ⟨_, _, calls, sent, inv_unknown inv hr hp hm ht, .same,
              .inr ⟨i, r, _, hr, by rw [hp]; rfl, goes_get rfl hr _, rfl, .inr ⟨rfl, rfl, cid, hm, ht⟩⟩⟩
          · rename_i p ht
            cases h
            exact ⟨_, _, calls, sent, inv_found inv hr hp hm ht, .same, .inl ⟨rfl, rfl⟩⟩
      · rename_i p hp
        split at h
        · cases h
        · rename_i c hc
          split at h
          · rename_i hf
            cases h
            exact ⟨_, _, calls, sent, inv_lock inv hr hp hc hf, .same, .inl ⟨rfl, rfl⟩⟩
          · cases h
      · rename_i p hp
        split at h
        · cases h
        · rename_i c hc
          cases h
          obtain ⟨calls', h1, h2⟩ := inv_handle grow inv (ticket := ticket) hr hp hc hb hcr
          obtain ⟨r', h3, h4⟩ := handle_taken grow hr hcr
          exact ⟨_, _, calls', sent, h1, h2, .inr ⟨i, r, r', hr, by rw [hp]; rfl, h3, h4, .inl ⟨rfl, rfl⟩⟩⟩
      · cases h
      · rename_i q packets hp
        split at h
        · rename_i hs
          cases h
          obtain ⟨ms, h1⟩ := inv_send inv hr hp hs
          exact ⟨_, _, calls, _, h1, .same, .inl ⟨rfl, rfl⟩⟩
        · cases h
      · rename_i q x xs hp
        cases h
        exact ⟨_, _, calls, sent, inv_packet inv hr hp, .same, .inl ⟨rfl, rfl⟩⟩
      · rename_i q hp
        cases h
        exact ⟨_, _, calls, sent, inv_sent inv hr hp, .same, .inl ⟨rfl, rfl⟩⟩
      · cases h
  | answer i a =>
    dsimp only at h
    split at h
    · rename_i rep p ticket cid cmd payload ka hr
      split at h
      · cases h; cases hcr
      · rename_i bytes
        cases h
        obtain ⟨calls', h1, h2⟩ := inv_answer inv (a := bytes) hr rfl
        exact ⟨_, _, calls', sent, h1, h2, .inl ⟨rfl, rfl⟩⟩
    · cases h
  | keepalive i =>
    dsimp only at h
    split at h
    · rename_i rep ph cid hr
      split at h
      · rename_i hs
        cases h
        exact ⟨handled, refused, calls, _, inv_keepalive inv (cid, cmdKeepalive, [statusUpneeded]) hs rfl
          ⟨Nat.le_of_ble_eq_true rfl, by simp, by simp⟩, .same, .inl ⟨rfl, rfl⟩⟩
      · cases h
    · cases h

end VF.Reports
