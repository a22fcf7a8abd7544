import Verif.Proofs.Stack

/-! # The invariant of a session is kept by every step -/

namespace VF.Stack

open Util Spec.UsbIp Spec.Stack

variable {H : Type} {total : List Bytes}

theorem usual_wf {cmd : Cmd} (h : Usual cmd) : cmd.WellFormed := by
  cases cmd with
  | out => exact h.1
  | inp => exact h.1
  | unlink => exact h

theorem poll_ok {cmd : Cmd} (hu : Usual cmd) (hp : isPoll cmd = true) (d : Bytes) (hd : d.length = 64) :
    Reply.Ok ⟨cmd, be32 0, d⟩ := by
  obtain ⟨seq, devid, flags, length, f, p, i, setup, rfl⟩ := isPoll_cases hp
  obtain ⟨-, h, -⟩ := hu
  have := h rfl
  subst this
  exact ⟨rfl, by rw [hd]; rfl⟩

theorem poll_victim {cmd : Cmd} (hp : isPoll cmd = true) : victimOf cmd = none := by
  obtain ⟨seq, devid, flags, length, f, p, i, setup, rfl⟩ := isPoll_cases hp
  rfl

theorem victim_poll {cmd : Cmd} {v : UInt32} (h : victimOf cmd = some v) : isPoll cmd = false := by
  cases cmd <;> simp_all [victimOf, isPoll]

theorem victim_report {cmd : Cmd} {v : UInt32} (h : victimOf cmd = some v) : reportOf cmd = none := by
  cases cmd <;> simp_all [victimOf, reportOf]

theorem report_poll {cmd : Cmd} {v : Bytes} (h : reportOf cmd = some v) : isPoll cmd = false := by
  cases cmd <;> simp_all [reportOf, isPoll]

theorem report_victim {cmd : Cmd} {v : Bytes} (h : reportOf cmd = some v) : victimOf cmd = none := by
  cases cmd <;> simp_all [reportOf, victimOf]

/-- What a new command knows of those before it. -/
theorem fresh {cmds done todo : List Cmd} {cmd : Cmd} (hn : (cmds.map seqOf).Nodup)
    (hs : cmds = done ++ cmd :: todo) : ∀ x ∈ done, seqOf x ≠ seqOf cmd := by
  subst hs
  intro x hx h
  simp only [List.map_append, List.map_cons] at hn
  rw [List.nodup_append] at hn
  exact hn.2.2 _ (List.mem_map.mpr ⟨x, hx, rfl⟩) _ (List.mem_cons_self) h

theorem inv_command {cmds done todo : List Cmd} {cmd : Cmd} {rs rs' : List Reply} {usb' : Usb.State Callback}
    {c : UsbIp.Conn (DevOf H)} (hsess : Session cmds) (h : InvOf cmds c total done (cmd :: todo) rs)
    (hr : React cmd c.dev.usb rs' usb') (pos : Nat) (calls : List UsbIp.Call) :
    InvOf cmds
      { stream := (todo.map Cmd.wire).flatten
        pos := pos
        out := c.out ++ (rs'.map Reply.wire).flatten
        dev := { c.dev with usb := usb' }
        calls := calls } total (done ++ [cmd]) todo (rs ++ rs') := by
  obtain ⟨husual, hn⟩ := hsess
  have hfresh := fresh hn h.split
  have hcmds : cmd ∈ cmds := by rw [h.split]; simp
  have hu := husual cmd hcmds
  have hnew : ∀ x ∈ done, x ≠ cmd := fun x hx e => hfresh x hx (by rw [e])
  have hrs0 : rs.countP (fun r => r.cmd == cmd) = 0 := by
    rw [List.countP_eq_zero]; intro r hr
    simpa using hnew _ (h.replied r hr).1
  have hwd0 : rs.countP (withdraws (seqOf cmd)) = 0 := by
    rw [List.countP_eq_zero]; intro r hr hw
    obtain ⟨x, hx, he⟩ := h.wd r hr _ hw
    exact hfresh x hx he
  have hwait : ∀ e ∈ c.dev.usb.buf.waiting, e.1 ≠ seqOf cmd := by
    intro e he hc
    obtain ⟨x, hx, -, hs, -⟩ := h.waiting e he
    exact hfresh x hx (by rw [hs, hc])
  have hsplit : cmds = (done ++ [cmd]) ++ todo := by rw [h.split]; simp
  have hout : ∀ o : Bytes, o = (rs'.map Reply.wire).flatten → c.out ++ o =
      ((rs ++ rs').map Reply.wire).flatten := by
    intro o ho; rw [h.out, ho]; simp
  -- weakening of the parts that only speak of members of `done`
  have mono : ∀ {P : Cmd → Prop}, (∃ x ∈ done, P x) → ∃ x ∈ done ++ [cmd], P x := by
    rintro P ⟨x, hx, hp⟩; exact ⟨x, by simp [hx], hp⟩
  obtain ⟨sent, hpad, hsent⟩ := h.data
  cases hr with
  | lost h1 h2 h3 =>
    refine ⟨hsplit, rfl, hout _ rfl, ?_, h.buf, fun e he => mono (h.waiting e he),
      fun e he => mono (h.timers e he), ?_, ?_, ?_, h.len, sent, ?_, hsent⟩
    · intro r hr
      simp only [List.append_nil] at hr
      exact ⟨by simp [(h.replied r hr).1], (h.replied r hr).2⟩
    · intro r hr id hw
      simp only [List.append_nil] at hr
      exact mono (h.wd r hr id hw)
    · intro x hx hp
      rw [List.mem_append, List.mem_singleton] at hx
      rcases hx with hx | rfl
      · simpa using h.fate x hx hp
      · rw [hp] at h1; simp at h1
    · intro x hx hp
      rw [List.mem_append, List.mem_singleton] at hx
      rcases hx with hx | rfl
      · simpa using h.other x hx hp
      · simp [hrs0, h2, h3]
    · simpa using hpad
  | @control r h1 h2 h3 hr hok =>
    have hwr : ∀ id, withdraws id r = false := fun id => not_withdraws_of_not_unlink (by rw [hr, h3])
    refine ⟨hsplit, rfl, hout _ rfl, ?_, h.buf, fun e he => mono (h.waiting e he),
      fun e he => mono (h.timers e he), ?_, ?_, ?_, h.len, sent, ?_, hsent⟩
    · intro x hx
      rw [List.mem_append, List.mem_singleton] at hx
      rcases hx with hx | rfl
      · exact ⟨by simp [(h.replied x hx).1], (h.replied x hx).2⟩
      · exact ⟨by simp [hr], hok⟩
    · intro x hx id hw
      rw [List.mem_append, List.mem_singleton] at hx
      rcases hx with hx | rfl
      · exact mono (h.wd x hx id hw)
      · rw [hwr] at hw; simp at hw
    · intro x hx hp
      rw [List.mem_append, List.mem_singleton] at hx
      rcases hx with hx | rfl
      · have := h.fate x hx hp
        have hne : r.cmd ≠ x := by rw [hr]; exact fun e => hnew x hx e.symm
        simpa [List.countP_append, hwr, hne] using this
      · rw [hp] at h1; simp at h1
    · intro x hx hp
      rw [List.mem_append, List.mem_singleton] at hx
      rcases hx with hx | rfl
      · have hne : r.cmd ≠ x := by rw [hr]; exact fun e => hnew x hx e.symm
        simpa [List.countP_append, hne] using h.other x hx hp
      · simp [List.countP_append, hrs0, hr]
    · rw [reports_append, reports_other (by rw [hr]; exact h1)]; simpa using hpad
  | @served d ds h1 hd =>
    have hv := poll_victim h1
    have hwr : ∀ id, withdraws id ⟨cmd, be32 0, pad d 64⟩ = false := fun id => not_withdraws_of_not_unlink hv
    have hd64 : d.length = 64 := h.len d (by rw [hsent, hd]; simp)
    have hpd : pad d 64 = d := by rw [← hd64]; exact pad_self d
    refine ⟨hsplit, rfl, hout _ rfl, ?_, ?_, fun e he => mono (h.waiting e he), ?_, ?_, ?_, ?_, h.len,
      sent ++ [d], ?_, ?_⟩
    · intro x hx
      rw [List.mem_append, List.mem_singleton] at hx
      rcases hx with hx | rfl
      · exact ⟨by simp [(h.replied x hx).1], (h.replied x hx).2⟩
      · exact ⟨by simp, poll_ok hu h1 _ (by simp)⟩
    · refine ⟨h.buf.keys, ?_⟩
      rcases h.buf.excl with e | e
      · rw [hd] at e; simp at e
      · exact .inr e
    · intro e he
      rw [List.mem_append, List.mem_singleton] at he
      rcases he with he | rfl
      · exact mono (h.timers e he)
      · exact ⟨cmd, by simp, h1, rfl, rfl⟩
    · intro x hx id hw
      rw [List.mem_append, List.mem_singleton] at hx
      rcases hx with hx | rfl
      · exact mono (h.wd x hx id hw)
      · rw [hwr] at hw; simp at hw
    · intro x hx hp
      rw [List.mem_append, List.mem_singleton] at hx
      rcases hx with hx | rfl
      · have hne : cmd ≠ x := fun e => hnew x hx e.symm
        simpa [List.countP_append, hwr, hne] using h.fate x hx hp
      · simp [List.countP_append, hwr, hrs0, hwd0, count_none hwait]
    · intro x hx hp
      rw [List.mem_append, List.mem_singleton] at hx
      rcases hx with hx | rfl
      · have hne : cmd ≠ x := fun e => hnew x hx e.symm
        simpa [List.countP_append, hne] using h.other x hx hp
      · rw [hp] at h1; simp at h1
    · rw [reports_append, reports_poll h1, hpd]
      exact .same d hpad
    · rw [hsent, hd]; simp
  | waits h1 hd =>
    refine ⟨hsplit, rfl, hout _ rfl, ?_, ?_, ?_, ?_, ?_, ?_, ?_, h.len, sent, ?_, ?_⟩
    · intro r hr
      simp only [List.append_nil] at hr
      exact ⟨by simp [(h.replied r hr).1], (h.replied r hr).2⟩
    · refine ⟨?_, .inl rfl⟩
      simp only [Buf.setWaiting, List.map_cons, List.nodup_cons]
      exact ⟨by simp [Buf.mem_remove], Buf.keys_remove h.buf.keys⟩
    · intro e he
      simp only [Buf.setWaiting, List.mem_cons] at he
      rcases he with rfl | he
      · exact ⟨cmd, by simp, h1, rfl, rfl⟩
      · exact mono (h.waiting e (Buf.mem_remove.mp he).1)
    · intro e he
      rw [List.mem_append, List.mem_singleton] at he
      rcases he with he | rfl
      · exact mono (h.timers e he)
      · exact ⟨cmd, by simp, h1, rfl, rfl⟩
    · intro r hr id hw
      simp only [List.append_nil] at hr
      exact mono (h.wd r hr id hw)
    · intro x hx hp
      rw [List.mem_append, List.mem_singleton] at hx
      rcases hx with hx | rfl
      · have hne : seqOf cmd ≠ seqOf x := fun e => hfresh x hx e.symm
        have := h.fate x hx hp
        simp only [Buf.setWaiting, List.append_nil]
        rw [List.countP_cons_of_neg (by simpa using hne), count_remove_ne hne]
        exact this
      · simp only [Buf.setWaiting, List.append_nil, hrs0, hwd0]
        rw [List.countP_cons_of_pos (by simp), count_remove_self]
    · intro x hx hp
      rw [List.mem_append, List.mem_singleton] at hx
      rcases hx with hx | rfl
      · simpa using h.other x hx hp
      · rw [hp] at h1; simp at h1
    · simpa using hpad
    · rw [hsent, hd]
  | @report data h1 =>
    have hp0 := report_poll h1
    have hv := report_victim h1
    have hwr : ∀ id, withdraws id ⟨cmd, be32 0, []⟩ = false := fun id => not_withdraws_of_not_unlink hv
    refine ⟨hsplit, rfl, hout _ rfl, ?_, h.buf, fun e he => mono (h.waiting e he),
      fun e he => mono (h.timers e he), ?_, ?_, ?_, h.len, sent, ?_, hsent⟩
    · intro x hx
      rw [List.mem_append, List.mem_singleton] at hx
      rcases hx with hx | rfl
      · exact ⟨by simp [(h.replied x hx).1], (h.replied x hx).2⟩
      · refine ⟨by simp, ?_⟩
        cases cmd <;> simp_all [reportOf, Reply.Ok]
    · intro x hx id hw
      rw [List.mem_append, List.mem_singleton] at hx
      rcases hx with hx | rfl
      · exact mono (h.wd x hx id hw)
      · rw [hwr] at hw; simp at hw
    · intro x hx hp
      rw [List.mem_append, List.mem_singleton] at hx
      rcases hx with hx | rfl
      · have hne : cmd ≠ x := fun e => hnew x hx e.symm
        simpa [List.countP_append, hwr, hne] using h.fate x hx hp
      · rw [hp] at hp0; simp at hp0
    · intro x hx hp
      rw [List.mem_append, List.mem_singleton] at hx
      rcases hx with hx | rfl
      · have hne : cmd ≠ x := fun e => hnew x hx e.symm
        simpa [List.countP_append, hne] using h.other x hx hp
      · simp [List.countP_append, hrs0]
    · rw [reports_append, reports_other hp0]; simpa using hpad
  | @unlinked victim h1 =>
    have hp0 := victim_poll h1
    obtain ⟨hc1, hc2, hc3⟩ := Buf.cancel_spec (id := victim) h.buf
    have hkeys : ∀ e, e ∈ (Buf.cancelRequest victim c.dev.usb.buf).1.waiting → e ∈ c.dev.usb.buf.waiting := by
      intro e he; rw [hc2] at he; exact (Buf.mem_remove.mp he).1
    have hwr : ∀ id, withdraws id ⟨cmd, if (Buf.cancelRequest victim c.dev.usb.buf).2.isSome then withdrawn
        else notFound, []⟩ = true ↔ id = victim ∧ (Buf.cancelRequest victim c.dev.usb.buf).2.isSome = true := by
      intro id
      have hne : (notFound == withdrawn) = false := by decide
      cases (Buf.cancelRequest victim c.dev.usb.buf).2.isSome
      · simp [withdraws, hne]
      · simp only [withdraws, h1, if_true, beq_self_eq_true, Bool.and_true, beq_iff_eq, Option.some.injEq, and_true]
        exact eq_comm
    refine ⟨hsplit, rfl, hout _ rfl, ?_, Buf.Inv_cancel h.buf, fun e he => mono (h.waiting e (hkeys e he)),
      fun e he => mono (h.timers e he), ?_, ?_, ?_, h.len, sent, ?_, ?_⟩
    · intro x hx
      rw [List.mem_append, List.mem_singleton] at hx
      rcases hx with hx | rfl
      · exact ⟨by simp [(h.replied x hx).1], (h.replied x hx).2⟩
      · refine ⟨by simp, ?_⟩
        cases cmd with
        | unlink =>
          refine ⟨?_, rfl⟩
          dsimp only
          cases (Buf.cancelRequest victim c.dev.usb.buf).2.isSome <;> rfl
        | out => simp [victimOf] at h1
        | inp => simp [victimOf] at h1
    · intro x hx id hw
      rw [List.mem_append, List.mem_singleton] at hx
      rcases hx with hx | rfl
      · exact mono (h.wd x hx id hw)
      · obtain ⟨rfl, hw⟩ := (hwr id).mp hw
        rw [Option.isSome_iff_exists] at hw
        obtain ⟨k, hk⟩ := hw
        obtain ⟨x, hx, -, hs, -⟩ := h.waiting _ ((hc1 k).mp hk)
        exact mono ⟨x, hx, hs⟩
    · intro x hx hp
      rw [List.mem_append, List.mem_singleton] at hx
      rcases hx with hx | rfl
      · have hne : cmd ≠ x := fun e => hnew x hx e.symm
        have hf := h.fate x hx hp
        simp only [List.countP_append, hc2]
        rw [List.countP_cons_of_neg (by simpa using hne)]
        simp only [List.countP_nil, Nat.add_zero]
        by_cases hv : victim = seqOf x
        · subst hv
          rw [count_remove_self]
          rcases hk : (Buf.cancelRequest (seqOf x) c.dev.usb.buf).2 with _ | k
          · have h0 : c.dev.usb.buf.waiting.countP (fun e => e.1 == seqOf x) = 0 :=
              count_none (fun e he hc => (Buf.cancel_none h.buf).mp hk e.2 (by rw [← hc]; exact he))
            have hw' := hwr (seqOf x)
            rw [hk] at hw'
            rw [List.countP_cons_of_neg (by rw [hw']; simp)]
            simp only [List.countP_nil, Nat.add_zero]
            omega
          · have h0 := count_mem h.buf.keys ((hc1 k).mp hk)
            have hw' := hwr (seqOf x)
            rw [hk] at hw'
            rw [List.countP_cons_of_pos (by rw [hw']; simp)]
            simp only [List.countP_nil]
            omega
        · rw [count_remove_ne hv]
          rw [List.countP_cons_of_neg (by rw [hwr]; simp [Ne.symm hv])]
          simp only [List.countP_nil, Nat.add_zero]
          exact hf
      · rw [hp] at hp0; simp at hp0
    · intro x hx hp
      rw [List.mem_append, List.mem_singleton] at hx
      rcases hx with hx | rfl
      · have hne : cmd ≠ x := fun e => hnew x hx e.symm
        simpa [List.countP_append, hne] using h.other x hx hp
      · simp [List.countP_append, hrs0]
    · rw [reports_append, reports_other hp0]; simpa using hpad
    · dsimp only; rw [hc3]; exact hsent

/-- A waiting poll is answered: by a report or by its timer. -/
theorem inv_answer {cmds done todo : List Cmd} {cmd : Cmd} {rs : List Reply}
    {c : UsbIp.Conn (DevOf H)} (hsess : Session cmds) (h : InvOf cmds c total done todo rs)
    (hcmd : cmd ∈ done) (hp : isPoll cmd = true) (k : Callback) (hw : (seqOf cmd, k) ∈ c.dev.usb.buf.waiting)
    (d : Bytes) (hd : d.length = 64) (outbox : List Bytes) (timers : List (UInt32 × Callback))
    (htim : ∀ e ∈ timers, e ∈ c.dev.usb.timers)
    (hdata : ∃ sent, Padded (reports rs ++ [d]) sent ∧ total = sent ++ c.dev.usb.buf.responses ++ outbox) :
    InvOf cmds
      { c with
        out := c.out ++ retSubmit (seqOf cmd) 64 d
        dev := { c.dev with
          outbox := outbox
          usb := { c.dev.usb with
            timers := timers
            buf := ⟨Buf.remove (seqOf cmd) c.dev.usb.buf.waiting, c.dev.usb.buf.responses⟩ } } }
      total done todo (rs ++ [⟨cmd, be32 0, d⟩]) := by
  obtain ⟨husual, hn⟩ := hsess
  have hsub : ∀ x ∈ done, x ∈ cmds := by intro x hx; rw [h.split]; simp [hx]
  have hu := husual cmd (hsub cmd hcmd)
  have hwr : ∀ id, withdraws id ⟨cmd, be32 0, d⟩ = false :=
    fun id => not_withdraws_of_not_unlink (poll_victim hp)
  refine ⟨h.split, h.stream, ?_, ?_, ⟨Buf.keys_remove h.buf.keys, ?_⟩, ?_, fun e he => h.timers e (htim e he),
    ?_, ?_, ?_, h.len, ?_⟩
  · obtain ⟨seq, devid, flags, length, f, p, i, setup, rfl⟩ := isPoll_cases hp
    simp [h.out, Reply.wire, seqOf, hd]
  · intro x hx
    rw [List.mem_append, List.mem_singleton] at hx
    rcases hx with hx | rfl
    · exact h.replied x hx
    · exact ⟨hcmd, poll_ok hu hp d hd⟩
  · rcases h.buf.excl with e | e
    · exact .inl e
    · rw [e] at hw; simp at hw
  · intro e he
    exact h.waiting e (Buf.mem_remove.mp he).1
  · intro x hx id hw
    rw [List.mem_append, List.mem_singleton] at hx
    rcases hx with hx | rfl
    · exact h.wd x hx id hw
    · rw [hwr] at hw; simp at hw
  · intro x hx hpx
    have hf := h.fate x hx hpx
    dsimp only
    by_cases he : cmd = x
    · subst he
      rw [count_mem h.buf.keys hw] at hf
      rw [count_remove_self]
      simp [List.countP_append, hwr]
      omega
    · have hne : seqOf cmd ≠ seqOf x := fun e => he (seq_inj hn (hsub _ hcmd) (hsub _ hx) e)
      rw [count_remove_ne hne]
      simpa [List.countP_append, hwr, he] using hf
  · intro x hx hpx
    have he : cmd ≠ x := by rintro rfl; rw [hp] at hpx; simp at hpx
    simpa [List.countP_append, he] using h.other x hx hpx
  · rw [reports_append, reports_poll hp]; exact hdata

end VF.Stack
