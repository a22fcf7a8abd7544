import Verif.Proofs.HidRun

/-! # Invariants of the CTAPHID server over histories -/

namespace VF.Hid

open Util Spec.Ctaphid

variable {W : Type}

/-- After a handled report the table differs from before only at the channel of the report and,
for an INIT, at the newly allocated id. -/
structure StepFrame (m : Bytes) (w w' : World W) : Prop where
  handlerSet : w'.handlerSet = w.handlerSet
  table : (w'.maxChannelID = w.maxChannelID ∧
      ∀ c, channelOf m ≠ some c → w'.channels c = w.channels c) ∨
    (w'.maxChannelID = w.maxChannelID + 1 ∧ channelOf m = some broadcastChannel ∧
      (∀ c, c ≠ broadcastChannel → c ≠ w.maxChannelID + 1 → w'.channels c = w.channels c) ∧
      (w.maxChannelID + 1 ≠ broadcastChannel →
        w'.channels (w.maxChannelID + 1) = some ⟨w.maxChannelID + 1, none⟩))
  own : ∀ c, channelOf m = some c → w.channels c ≠ none → w'.channels c ≠ none
  unknown : ∀ c, channelOf m = some c → w.channels c = none → w'.channels = w.channels ∧
    w'.maxChannelID = w.maxChannelID

theorem step_frame (rt : Runtime) (up : Upper W) (m : Bytes) {w : World W} (hwf : WF w) :
    StepFrame m w (handleMessage rt up m w).2 := by
  have ho := handleMessage_outcome rt up m hwf
  generalize handleMessage rt up m w = p at ho ⊢
  obtain ⟨r, w0⟩ := p
  simp only at ho ⊢
  rcases ho with ⟨c⟩ | ⟨cid, hm, hc⟩ | ⟨cid, tx, code, hm, hc, hcode⟩ |
    ⟨cid, tx, hm, hc⟩ | ⟨cid, tx, t, hm, hc, ho⟩ |
    ⟨cid, tx, t, cmd, payload, header, sl, hm, hc, hcmd, hne, hfr, hh, hs, r, w', hrun⟩
  · exact ⟨rfl, .inl ⟨rfl, fun _ _ => rfl⟩, fun c _ h => h, fun _ _ _ => ⟨rfl, rfl⟩⟩
  · exact ⟨by simp, .inl ⟨by simp, fun _ _ => by simp⟩, fun c _ h => by simpa using h,
      fun _ _ _ => by simp⟩
  · refine ⟨by simp, .inl ⟨by simp, fun c h => ?_⟩, fun c h1 h2 => ?_, fun c h1 h2 => ?_⟩
    · rw [hm] at h; simp only [ne_eq, Option.some.injEq] at h
      rw [setTx_channels_ne _ _ (Ne.symm h)]; simp
    · rw [hm] at h1; simp only [Option.some.injEq] at h1; subst h1; simp
    · rw [hm] at h1; simp only [Option.some.injEq] at h1; subst h1; simp [hc] at h2
  · refine ⟨by simp, .inl ⟨by simp, fun c h => ?_⟩, fun c h1 h2 => ?_, fun c h1 h2 => ?_⟩
    · rw [hm] at h; simp only [ne_eq, Option.some.injEq] at h
      rw [setTx_channels_ne _ _ (Ne.symm h)]
    · rw [hm] at h1; simp only [Option.some.injEq] at h1; subst h1; simp
    · rw [hm] at h1; simp only [Option.some.injEq] at h1; subst h1; simp [hc] at h2
  · refine ⟨by simp, .inl ⟨by simp, fun c h => ?_⟩, fun c h1 h2 => ?_, fun c h1 h2 => ?_⟩
    · rw [hm] at h; simp only [ne_eq, Option.some.injEq] at h
      rw [setTx_channels_ne _ _ (Ne.symm h)]
    · rw [hm] at h1; simp only [Option.some.injEq] at h1; subst h1; simp
    · rw [hm] at h1; simp only [Option.some.injEq] at h1; subst h1; simp [hc] at h2
  · have he := handleFinalizedMessage_effect rt up cid header sl (w.setTx cid (some t))
    rw [hrun] at he
    simp only at he
    have hset : ∀ c, c ≠ cid →
        (afterFinal r w' cid).channels c = w'.channels c := by
      intro c h; cases r
      · exact setTx_channels_ne _ _ h
      · rfl
    have hmax : (afterFinal r w' cid).maxChannelID =
        w'.maxChannelID := by cases r <;> rfl
    have hhs : (afterFinal r w' cid).handlerSet =
        w'.handlerSet := by cases r <;> rfl
    refine ⟨by rw [hhs, he.handlerSet]; rfl, ?_, ?_, ?_⟩
    · rcases he.table with ⟨ht, hm'⟩ | ⟨hb, hi, ht, hm'⟩
      · left
        refine ⟨by rw [hmax, hm']; rfl, fun c h => ?_⟩
        rw [hm] at h; simp only [ne_eq, Option.some.injEq] at h
        rw [hset c (Ne.symm h), ht, setTx_channels_ne _ _ (Ne.symm h)]
      · right
        subst hb
        refine ⟨by rw [hmax, hm']; rfl, hm, fun c h1 h2 => ?_, fun h => ?_⟩
        · rw [hset c h1, ht]
          simp only [World.alloc, setTx_max, h2, if_false]
          exact setTx_channels_ne _ _ h1
        · rw [hset _ h, ht]
          simp [World.alloc]
    · intro c h1 h2
      rw [hm] at h1; simp only [Option.some.injEq] at h1; subst h1
      cases r with
      | ok _ => simp [afterFinal]
      | panic _ =>
        simp only [afterFinal]
        rcases he.table with ⟨ht, hm'⟩ | ⟨hb, hi, ht, hm'⟩
        · rw [ht]; simp
        · rw [ht]; simp [World.alloc, setTx_channels_self]
          split <;> simp
    · intro c h1 h2
      rw [hm] at h1; simp only [Option.some.injEq] at h1; subst h1; simp [hc] at h2

theorem WF_step (rt : Runtime) (up : Upper W) (m : Bytes) {w w' : World W} (hwf : WF w)
    (h : handleMessage rt up m w = (.ok (), w')) : WF w' := by
  have ho := handleMessage_outcome rt up m hwf
  rw [h] at ho
  simp only at ho
  have hset : ∀ (w : World W) cid tx, WF w → (∀ t, tx = some t → ∃ window, IsOpen cid window t) →
      WF (w.setTx cid tx) := by
    intro w cid tx hw ht c ch hch
    by_cases hcc : c = cid
    · subst hcc
      simp only [setTx_channels_self, Option.some.injEq] at hch
      subst hch
      exact ⟨rfl, ht⟩
    · rw [setTx_channels_ne _ _ hcc] at hch
      exact hw c ch hch
  have hsend : ∀ (w : World W) ps, WF w → WF (w.send ps) := by
    intro w ps hw c ch hch
    rw [send_channels] at hch
    exact hw c ch hch
  generalize hr : (Res.ok () : Res Unit) = r at ho
  rcases ho with ⟨c⟩ | ⟨cid, hm, hc⟩ | ⟨cid, tx, code, hm, hc, hcode⟩ |
    ⟨cid, tx, hm, hc⟩ | ⟨cid, tx, t, hm, hc, ho⟩ |
    ⟨cid, tx, t, cmd, payload, header, sl, hm, hc, hcmd, hne, hfr, hh, hs, r, w2, hrun⟩
  · cases hr
  · exact hsend _ _ hwf
  · exact hset _ _ _ (hsend _ _ hwf) (by simp)
  · exact hset _ _ _ hwf (by simp)
  · refine hset _ _ _ hwf ?_
    rintro t' ht
    simp only [Option.some.injEq] at ht
    subst ht
    cases tx with
    | none => exact ⟨_, ho [] (.inl ⟨rfl, rfl⟩)⟩
    | some t0 =>
      obtain ⟨window, hw⟩ := (hwf cid _ hc).2 t0 rfl
      exact ⟨_, ho window (.inr ⟨t0, rfl, hw⟩)⟩
  · subst hr
    have he := handleFinalizedMessage_effect rt up cid header sl (w.setTx cid (some t))
    rw [hrun] at he
    simp only at he
    -- the channel being handled is reset; all others are as before or fresh
    intro c ch hch
    simp only [afterFinal] at hch
    by_cases hcc : c = cid
    · subst hcc
      simp only [setTx_channels_self, Option.some.injEq] at hch
      subst hch
      exact ⟨rfl, by simp⟩
    · rw [setTx_channels_ne _ _ hcc] at hch
      rcases he.table with ⟨ht, -⟩ | ⟨-, -, ht, -⟩
      · rw [ht, setTx_channels_ne _ _ hcc] at hch
        exact hwf c ch hch
      · rw [ht] at hch
        simp only [World.alloc] at hch
        split at hch
        · rename_i hc1
          simp only [Option.some.injEq] at hch
          subst hch
          exact ⟨hc1.symm, by simp⟩
        · rw [setTx_channels_ne _ _ hcc] at hch
          exact hwf c ch hch

theorem WF_run (rt : Runtime) (up : Upper W) (ms : List Bytes) {w w' : World W} (hwf : WF w)
    (h : handleAll rt up ms w = (.ok (), w')) : WF w' := by
  induction ms generalizing w with
  | nil => simp only [handleAll, Go.run_pure, Prod.mk.injEq, true_and] at h; rw [← h]; exact hwf
  | cons m ms ih =>
    simp only [handleAll] at h
    rw [Go.run_bind] at h
    rcases hm : handleMessage rt up m w with ⟨⟨⟩ | c, w1⟩
    · rw [hm] at h
      exact ih (WF_step rt up m hwf hm) h
    · rw [hm] at h; simp at h

/-- What one channel has collected is a run of the most recent reports of that channel. -/
def ChanInv (cid : UInt32) (hist : List Bytes) (w : World W) : Prop :=
  ∀ t, w.channels cid = some ⟨cid, some t⟩ → ∃ window, window <:+ proj cid hist ∧ IsOpen cid window t

/-- Handling one report either acts on nothing, or acts on one request of the report's channel. -/
theorem step_finalized (rt : Runtime) (up : Upper W) (m : Bytes) {w : World W} (hwf : WF w) :
    (handleMessage rt up m w).2.finalized = w.finalized ∨
    ∃ cid cmd payload tx, channelOf m = some cid ∧ w.channels cid = some ⟨cid, tx⟩ ∧
      128 ≤ cmd.toNat ∧ cmd ≠ cmdCancel ∧
      (handleMessage rt up m w).2.finalized = w.finalized ++ [(cid, cmd, payload)] ∧
      ∀ window, (tx = none ∧ window = [] ∨ ∃ t0, tx = some t0 ∧ IsOpen cid window t0) →
        IsFragmentation cid cmd payload (window ++ [m]) := by
  have ho := handleMessage_outcome rt up m hwf
  generalize handleMessage rt up m w = p at ho ⊢
  obtain ⟨r, w0⟩ := p
  simp only at ho ⊢
  rcases ho with ⟨c⟩ | ⟨cid, hm, hc⟩ | ⟨cid, tx, code, hm, hc, hcode⟩ |
    ⟨cid, tx, hm, hc⟩ | ⟨cid, tx, t, hm, hc, ho⟩ |
    ⟨cid, tx, t, cmd, payload, header, sl, hm, hc, hcmd, hne, hfr, hh, hs, r, w', hrun⟩
  · exact .inl rfl
  · exact .inl (by simp)
  · exact .inl (by simp)
  · exact .inl (by simp)
  · exact .inl (by simp)
  · right
    have he := handleFinalizedMessage_effect rt up cid header sl (w.setTx cid (some t))
    rw [hrun] at he
    have hf : (afterFinal r w' cid).finalized =
        w'.finalized := by cases r <;> rfl
    refine ⟨cid, cmd, payload, tx, hm, hc, hcmd, hne, ?_, hfr⟩
    rw [hf, he.finalized, hh, hs]
    rfl

theorem ChanInv_step (rt : Runtime) (up : Upper W) (m : Bytes) {w w' : World W} (hwf : WF w)
    {cid : UInt32} {hist : List Bytes} (hci : ChanInv cid hist w)
    (h : handleMessage rt up m w = (.ok (), w')) : ChanInv cid (hist ++ [m]) w' := by
  have hfr := step_frame rt up m hwf
  have ho := handleMessage_outcome rt up m hwf
  rw [h] at ho hfr
  simp only at ho hfr
  intro t ht
  by_cases hmc : channelOf m = some cid
  · rw [proj_append_self hmc]
    generalize hr : (Res.ok () : Res Unit) = r at ho
    rcases ho with ⟨c⟩ | ⟨cid', hm, hc⟩ | ⟨cid', tx, code, hm, hc, hcode⟩ |
      ⟨cid', tx, hm, hc⟩ | ⟨cid', tx, t', hm, hc, ho⟩ |
      ⟨cid', tx, t', cmd, payload, header, sl, hm, hc, hcmd, hne, hfr', hh, hs, r, w2, hrun⟩
    · cases hr
    · rw [hmc] at hm; cases hm
      rw [send_channels, hc] at ht; cases ht
    · rw [hmc] at hm; cases hm
      simp at ht
    · rw [hmc] at hm; cases hm
      simp at ht
    · rw [hmc] at hm; cases hm
      simp only [setTx_channels_self, Option.some.injEq, Channel.mk.injEq, true_and] at ht
      subst ht
      cases tx with
      | none =>
        exact ⟨[m], ⟨proj cid hist, by simp⟩, by simpa using ho [] (.inl ⟨rfl, rfl⟩)⟩
      | some t0 =>
        obtain ⟨window, ⟨pre, hpre⟩, hw⟩ := hci t0 hc
        exact ⟨window ++ [m], ⟨pre, by rw [← hpre]; simp⟩, ho window (.inr ⟨t0, rfl, hw⟩)⟩
    · rw [hmc] at hm; cases hm
      subst hr
      simp [afterFinal] at ht
  · rw [proj_append_ne hmc]
    rcases hfr.table with ⟨-, hch⟩ | ⟨-, hb, hch, hnew⟩
    · rw [hch cid hmc] at ht
      exact hci t ht
    · have hcb : cid ≠ broadcastChannel := by rintro rfl; exact hmc hb
      by_cases hcn : cid = w.maxChannelID + 1
      · subst hcn
        rw [hnew hcb] at ht
        simp at ht
      · rw [hch cid hcb hcn] at ht
        exact hci t ht

theorem ChanInv_run (rt : Runtime) (up : Upper W) (ms : List Bytes) {w w' : World W} (hwf : WF w)
    {cid : UInt32} {hist : List Bytes} (hci : ChanInv cid hist w)
    (h : handleAll rt up ms w = (.ok (), w')) : ChanInv cid (hist ++ ms) w' := by
  induction ms generalizing w hist with
  | nil => simp only [handleAll, Go.run_pure, Prod.mk.injEq, true_and] at h; rw [← h]; simpa using hci
  | cons m ms ih =>
    simp only [handleAll] at h
    rw [Go.run_bind] at h
    rcases hm : handleMessage rt up m w with ⟨⟨⟩ | c, w1⟩
    · rw [hm] at h
      have := ih (WF_step rt up m hwf hm) (ChanInv_step rt up m hwf hci hm) h
      simpa using this
    · rw [hm] at h; simp at h

end VF.Hid
