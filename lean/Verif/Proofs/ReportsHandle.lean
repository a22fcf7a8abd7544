import Verif.Proofs.Reports

/-! # What becomes of a report once its goroutine has the channel -/

namespace VF.Reports

open Util Hid Spec.Ctaphid Spec.Service Spec.Calls

inductive Handled (s : State) (i p ticket : Nat) (cid : UInt32) (tx : Option Transaction) (r : Routine) :
    State → Prop
  | crash {s'} (h : s'.crashed = true) : Handled s i p ticket cid tx r s'
  | error (t : Transaction) (code : UInt8) (hno : ∀ window, Fits cid tx window → Useless cid window r.report) :
      Handled s i p ticket cid tx r ((s.setTx p (some t)).goes i
        (.sending (some p) (Msg.packets (cid, cmdError, [code]))))
  | cancelled (t : Transaction) (hno : ∀ window, Fits cid tx window → Useless cid window r.report) :
      Handled s i p ticket cid tx r ((s.setTx p (some t)).leave i (some p))
  | more (t : Transaction) (hopen : ∀ window, Fits cid tx window → IsOpen cid (window ++ [r.report]) t) :
      Handled s i p ticket cid tx r (((s.setTx p (some t)).setHolder p none).goes i .done)
  | init (t : Transaction) (payload data : Bytes) (hb : cid = broadcastChannel)
      (hd : ∃ nonce : Bytes, nonce.length = 8 ∧ data = nonce ++ le32 (s.maxChannelID + 1) ++ [2, 0, 0, 1, 4])
      (hfrag : ∀ window, Fits cid tx window → IsFragmentation cid cmdInit payload (window ++ [r.report])) :
      Handled s i p ticket cid tx r ((s.setTx p (some t)).alloc.goes i
        (.sending (some p) (Msg.packets (cid, cmdInit, data))))
  | ping (t : Transaction) (payload : Bytes)
      (hfrag : ∀ window, Fits cid tx window → IsFragmentation cid cmdPing payload (window ++ [r.report])) :
      Handled s i p ticket cid tx r ((s.setTx p (some t)).goes i
        (.sending (some p) (Msg.packets (cid, cmdPing, payload))))
  | call (t : Transaction) (cmd : UInt8) (payload : Bytes) (hb : cid ≠ broadcastChannel)
      (hcmd : cmd = cmdMsg ∨ cmd = cmdCBOR)
      (hfrag : ∀ window, Fits cid tx window → IsFragmentation cid cmd payload (window ++ [r.report])) (s1 : State)
      (hs1 : s1 = s.setTx p (some t) ∨ s1 = (s.setTx p (some t)).keeping i cid) :
      Handled s i p ticket cid tx r (s1.goes i (.calling p ticket cid cmd payload))

theorem pad8_length (d : Bytes) (h : d.length ≤ 8) : (pad d 8).length = 8 := by
  simp [pad]; omega

theorem upTo_data_length {sl n : Slice} (h : sl.upTo 8 = .ok n) : n.data.length ≤ 8 := by
  unfold Slice.upTo at h
  split at h
  · cases h
    simp; omega
  · cases h

theorem handle_cases (grow : Nat → Nat → Nat) (s : State) (i p ticket : Nat) (c : Chan) (r : Routine)
    (hm : channelOf r.report = some c.channelId) (hfit : ∃ window, Fits c.channelId c.transaction window) :
    Handled s i p ticket c.channelId c.transaction r (s.handle grow i p ticket c r.report) := by
  obtain ⟨rest, hrd⟩ := channelOf_eq_iff.mp hm
  unfold State.handle
  rcases hts : collect grow c.transaction r.report with t | cc
  · dsimp only
    have hstep : ∀ window, Fits c.channelId c.transaction window → StepResult c.channelId window r.report t := by
      rintro window (⟨h, rfl⟩ | ⟨t0, h, ho⟩)
      · rw [h] at hts
        exact stepResult_new hrd hts
      · rw [h] at hts
        exact stepResult_add grow hrd ho hts
    obtain ⟨window0, hw0⟩ := hfit
    rcases hstep window0 hw0 with ⟨code, hcode, hno0, rfl⟩ | ⟨hno0, rfl⟩ | ho | ⟨cmd, payload, hcmd, hne, hfr, hfin⟩
    · have hc0 : code ≠ 0 := by rcases hcode with rfl | rfl <;> decide
      simp only [hc0, ne_eq, not_false_eq_true, if_true]
      refine .error _ code ?_
      intro window hw
      rcases hstep window hw with ⟨_, _, hno, -⟩ | ⟨hno, -⟩ | ho | ⟨_, _, _, _, _, ⟨_, _, h⟩⟩
      · exact hno
      · exact hno
      · obtain ⟨_, _, _, _, _, ho, _⟩ := ho
        have := ho.eq
        simp at this
      · simp [hc0] at h
    · simp only [if_true, ne_eq, not_true_eq_false, if_false]
      refine .cancelled _ ?_
      intro window hw
      rcases hstep window hw with ⟨_, _, hno, -⟩ | ⟨hno, -⟩ | ho | ⟨_, _, _, _, _, ⟨_, _, h⟩⟩
      · exact hno
      · exact hno
      · obtain ⟨_, _, _, _, _, ho, _⟩ := ho
        have := ho.eq
        simp at this
      · simp at h
    · have hnd : t.done = false := by
        obtain ⟨_, _, _, _, _, ho, _⟩ := ho
        rw [ho.eq]
      simp only [hnd, Bool.false_eq_true, if_false]
      refine .more t ?_
      intro window hw
      rcases hstep window hw with ⟨code, hcode, -, rfl⟩ | ⟨-, rfl⟩ | ho | ⟨_, _, _, _, _, ⟨_, _, rfl⟩⟩
      · simp at hnd
      · simp at hnd
      · exact ho
      · simp at hnd
    · obtain ⟨seq, spare, rfl⟩ := hfin
      have hfrag : ∀ window, Fits c.channelId c.transaction window →
          IsFragmentation c.channelId cmd payload (window ++ [r.report]) := by
        intro window hw
        rcases hstep window hw with ⟨code, hcode, -, h⟩ | ⟨-, h⟩ | ho | ⟨cmd2, p2, _, _, hfr2, ⟨s2, sp2, h⟩⟩
        · simp at h
        · simp at h
        · obtain ⟨_, _, _, _, _, ho, _⟩ := ho
          have := ho.eq
          simp at this
        · simp only [Transaction.mk.injEq, Option.some.injEq, TResult.mk.injEq,
            Header.mk.injEq, Slice.mk.injEq, true_and] at h
          obtain ⟨⟨rfl, -⟩, -, rfl, -⟩ := h
          exact hfr2
      simp only [if_true, ne_eq, not_true_eq_false, if_false, Bool.false_eq_true]
      by_cases hb : c.channelId = broadcastChannel
      · simp only [hb, if_true]
        unfold State.broadcast
        by_cases hi : cmd = cmdInit
        · simp only [hi, if_true]
          rcases hu : (Slice.mk payload spare).upTo 8 with n | cc
          · dsimp only
            rw [hb] at hfrag
            subst hi
            refine .init _ payload _ rfl ?_ hfrag
            exact ⟨_, pad8_length _ (upTo_data_length hu), by rw [toLE32_eq]; rfl⟩
          · exact .crash rfl
        · simp only [hi, if_false]
          by_cases hp : cmd = cmdPing
          · simp only [hp, if_true]
            rw [hb] at hfrag
            subst hp
            exact .ping _ payload hfrag
          · simp only [hp, if_false]
            exact .crash rfl
      · simp only [hb, if_false]
        unfold State.data
        by_cases h1 : cmd = cmdMsg
        · simp only [h1, if_true]
          subst h1
          exact .call _ _ payload hb (.inl rfl) hfrag _ (.inl rfl)
        · simp only [h1, if_false]
          by_cases h2 : cmd = cmdCBOR
          · simp only [h2, if_true]
            subst h2
            exact .call _ _ payload hb (.inr rfl) hfrag _ (.inr rfl)
          · simp only [h2, if_false]
            by_cases h3 : cmd = cmdPing
            · simp only [h3, if_true]
              subst h3
              exact .ping _ payload hfrag
            · simp only [h3, if_false]
              exact .crash rfl
  · exact .crash rfl

end VF.Reports
