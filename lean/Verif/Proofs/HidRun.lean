import Verif.Proofs.HidServer

/-! # Lemmas about histories of reports -/

namespace VF.Hid

open Util Spec.Ctaphid

variable {W : Type}

theorem handleAll_append (rt : Runtime) (up : Upper W) (xs ys : List Bytes) (w : World W) :
    handleAll rt up (xs ++ ys) w =
      match handleAll rt up xs w with
      | (.ok _, w') => handleAll rt up ys w'
      | (.panic c, w') => (.panic c, w') := by
  induction xs generalizing w with
  | nil => rfl
  | cons x xs ih =>
    simp only [List.cons_append, handleAll]
    rw [Go.run_bind, Go.run_bind]
    rcases handleMessage rt up x w with ⟨r | c, w'⟩
    · exact ih w'
    · rfl

theorem handleAll_cons_ok {rt : Runtime} {up : Upper W} {m : Bytes} {ms : List Bytes} {w w' : World W}
    (h : handleMessage rt up m w = (.ok (), w')) :
    handleAll rt up (m :: ms) w = handleAll rt up ms w' := by
  simp only [handleAll]; rw [Go.run_bind_ok h]

theorem handleAll_single (rt : Runtime) (up : Upper W) (m : Bytes) (w : World W) :
    handleAll rt up [m] w = handleMessage rt up m w := by
  simp only [handleAll]
  rw [Go.run_bind]
  rcases handleMessage rt up m w with ⟨r | c, w'⟩ <;> rfl

theorem channelOf_eq_iff {m : Bytes} {cid : UInt32} :
    channelOf m = some cid ↔ ∃ rest, readLE32 m = .ok (cid, rest) := by
  constructor
  · intro h
    unfold channelOf at h
    split at h
    · rename_i a b c d rest
      refine ⟨rest, ?_⟩
      simp only [Option.some.injEq] at h
      have := readLE32_le32 (ofLe32 a b c d) rest
      rw [le32_ofLe32] at this
      rw [← h]; exact this
    · cases h
  · rintro ⟨rest, h⟩
    rw [readLE32_ok h]
    simp only [le32, List.cons_append, List.nil_append, channelOf, ofLe32_le32]

theorem channelOf_none_iff {m : Bytes} : channelOf m = none ↔ ∃ c, readLE32 m = .panic c := by
  rcases m with _ | ⟨a, _ | ⟨b, _ | ⟨c, _ | ⟨d, r⟩⟩⟩⟩ <;> simp [channelOf, readLE32]

@[simp] theorem channelOf_init (cid : UInt32) (cmd : UInt8) (len : Nat) (d : Bytes) :
    channelOf (initPacket cid cmd len d) = some cid := by
  rw [channelOf_eq_iff]
  exact ⟨_, by simp only [initPacket, List.append_assoc]; exact readLE32_le32 _ _⟩

@[simp] theorem channelOf_cont (cid : UInt32) (seq : Nat) (d : Bytes) :
    channelOf (contPacket cid seq d) = some cid := by
  rw [channelOf_eq_iff]
  exact ⟨_, by simp only [contPacket, List.append_assoc]; exact readLE32_le32 _ _⟩

/-- The reports of a history addressed to one channel. -/
def proj (cid : UInt32) (hist : List Bytes) : List Bytes :=
  hist.filter (fun m => channelOf m = some cid)

theorem proj_append_self {cid : UInt32} {hist : List Bytes} {m : Bytes} (h : channelOf m = some cid) :
    proj cid (hist ++ [m]) = proj cid hist ++ [m] := by
  simp [proj, List.filter_append, h]

theorem proj_append_ne {cid : UInt32} {hist : List Bytes} {m : Bytes} (h : channelOf m ≠ some cid) :
    proj cid (hist ++ [m]) = proj cid hist := by
  simp [proj, List.filter_append, h]

/-- channel.go:40: the transaction is cleared unless a panic unwinds. -/
def afterFinal (r : Res Unit) (w : World W) (cid : UInt32) : World W :=
  match r with
  | .ok _ => w.setTx cid none
  | .panic _ => w

/-- The outcomes of handling one report. -/
inductive Outcome (rt : Runtime) (up : Upper W) (m : Bytes) (w : World W) : Res Unit → World W → Prop
  /-- the transaction step itself panics: nothing changed -/
  | crash (c : Cause) : Outcome rt up m w (.panic c) w
  /-- unknown channel -/
  | unknown (cid : UInt32) (hm : channelOf m = some cid) (hc : w.channels cid = none) :
      Outcome rt up m w (.ok ()) (w.send (createResponsePackets cid cmdError [errInvalidChannel]))
  /-- error report, channel idle -/
  | error (cid : UInt32) (tx : Option Transaction) (code : UInt8) (hm : channelOf m = some cid)
      (hc : w.channels cid = some ⟨cid, tx⟩)
      (hcode : code = errInvalidCommand ∨ code = errInvalidSequence) :
      Outcome rt up m w (.ok ())
        ((w.send (createResponsePackets cid cmdError [code])).setTx cid none)
  | cancelled (cid : UInt32) (tx : Option Transaction) (hm : channelOf m = some cid)
      (hc : w.channels cid = some ⟨cid, tx⟩) :
      Outcome rt up m w (.ok ()) (w.setTx cid none)
  | more (cid : UInt32) (tx : Option Transaction) (t : Transaction) (hm : channelOf m = some cid)
      (hc : w.channels cid = some ⟨cid, tx⟩)
      (hopen : ∀ window, (tx = none ∧ window = [] ∨ ∃ t0, tx = some t0 ∧ IsOpen cid window t0) →
        IsOpen cid (window ++ [m]) t) :
      Outcome rt up m w (.ok ()) (w.setTx cid (some t))
  | finished (cid : UInt32) (tx : Option Transaction) (t : Transaction) (cmd : UInt8)
      (payload : Bytes) (header : Header) (sl : Slice) (hm : channelOf m = some cid)
      (hc : w.channels cid = some ⟨cid, tx⟩)
      (hcmd : 128 ≤ cmd.toNat) (hne : cmd ≠ cmdCancel)
      (hfrag : ∀ window, (tx = none ∧ window = [] ∨ ∃ t0, tx = some t0 ∧ IsOpen cid window t0) →
        IsFragmentation cid cmd payload (window ++ [m]))
      (hhdr : header = ⟨cid, cmd, UInt16.ofNat payload.length⟩) (hsl : sl.data = payload)
      (r : Res Unit) (w' : World W)
      (hrun : handleFinalizedMessage rt up cid header sl (w.setTx cid (some t)) = (r, w')) :
      Outcome rt up m w r (afterFinal r w' cid)

theorem handleMessage_outcome (rt : Runtime) (up : Upper W) (m : Bytes) {w : World W} (hwf : WF w) :
    Outcome rt up m w (handleMessage rt up m w).1 (handleMessage rt up m w).2 := by
  rcases hco : channelOf m with _ | cid
  · obtain ⟨c, hc⟩ := channelOf_none_iff.mp hco
    rw [handleMessage_short rt up hc]
    exact .crash c
  · obtain ⟨rest, hm⟩ := channelOf_eq_iff.mp hco
    rcases hch : w.channels cid with _ | ⟨id, tx⟩
    · rw [handleMessage_unknown rt up hm hch]
      exact .unknown cid hco hch
    · have hid : id = cid := (hwf cid _ hch).1
      subst hid
      have hopen := (hwf id _ hch).2
      rw [handleMessage_open rt up hm hch]
      rcases hts : transactionStep rt tx m with t | c
      · simp only
        -- every window compatible with the stored transaction gives the same kind of step
        have hstep : ∀ window, (tx = none ∧ window = [] ∨
            ∃ t0, tx = some t0 ∧ IsOpen id window t0) → StepResult id window m t := by
          rintro window (⟨rfl, rfl⟩ | ⟨t0, rfl, ho⟩)
          · exact stepResult_new hm hts
          · exact stepResult_add rt.grow hm ho hts
        have hwin : ∃ window, (tx = none ∧ window = [] ∨
            ∃ t0, tx = some t0 ∧ IsOpen id window t0) := by
          cases tx with
          | none => exact ⟨[], .inl ⟨rfl, rfl⟩⟩
          | some t0 =>
            obtain ⟨window, ho⟩ := hopen t0 rfl
            exact ⟨window, .inr ⟨t0, rfl, ho⟩⟩
        obtain ⟨window0, hw0⟩ := hwin
        rcases hstep window0 hw0 with ⟨code, hcode, -, rfl⟩ | ⟨-, rfl⟩ | ho | ⟨cmd, payload, hcmd, hne, hfr, hfin⟩
        · have : code ≠ 0 := by rcases hcode with rfl | rfl <;> decide
          simp only [this, ne_eq, not_false_eq_true, if_true]
          exact .error id tx code hco hch hcode
        · simp only [if_true, ne_eq, not_true_eq_false, if_false]
          exact .cancelled id tx hco hch
        · have hnd : t.done = false := by
            obtain ⟨_, _, _, _, _, ho, _⟩ := ho
            rw [ho.eq]
          simp only [hnd, Bool.false_eq_true, if_false]
          refine .more id tx t hco hch ?_
          intro window hw
          rcases hstep window hw with ⟨code, hcode, -, rfl⟩ | ⟨-, rfl⟩ | ho | ⟨_, _, _, _, _, ⟨_, _, rfl⟩⟩
          · simp at hnd
          · simp at hnd
          · exact ho
          · simp at hnd
        · obtain ⟨seq, spare, rfl⟩ := hfin
          simp only [if_true, ne_eq, not_true_eq_false, if_false, Bool.false_eq_true]
          have key := Outcome.finished (rt := rt) (up := up) (m := m) (w := w) id tx
            { done := true, cancelled := false, errorCode := 0,
              result := some ⟨⟨id, cmd, UInt16.ofNat payload.length⟩, seq, ⟨payload, spare⟩⟩ }
            cmd payload ⟨id, cmd, UInt16.ofNat payload.length⟩ ⟨payload, spare⟩ hco hch hcmd hne
            (by
              intro window hw
              rcases hstep window hw with ⟨code, hcode, -, h⟩ | ⟨-, h⟩ | ho | ⟨cmd2, p2, _, _, hfr2, ⟨s2, sp2, h⟩⟩
              · simp at h
              · simp at h
              · obtain ⟨_, _, _, _, _, ho, _⟩ := ho
                have := ho.eq
                simp at this
              · simp only [Transaction.mk.injEq, Option.some.injEq, TResult.mk.injEq,
                  Header.mk.injEq, Slice.mk.injEq, true_and] at h
                obtain ⟨⟨rfl, -⟩, -, rfl, -⟩ := h
                exact hfr2) rfl rfl
          rcases hrun : handleFinalizedMessage rt up id ⟨id, cmd, UInt16.ofNat payload.length⟩
            ⟨payload, spare⟩ (w.setTx id (some
            { done := true, cancelled := false, errorCode := 0,
              result := some ⟨⟨id, cmd, UInt16.ofNat payload.length⟩, seq, ⟨payload, spare⟩⟩ }))
            with ⟨r, w'⟩
          have := key r w' hrun
          cases r <;> exact this
      · exact .crash c

end VF.Hid
