import Verif.Proofs.HidHistory

/-! # When the transaction code panics -/

namespace VF.Hid

open Util Spec.Ctaphid

variable {W : Type}

theorem newTransaction_panic {m rest : Bytes} {cid : UInt32} (hm : readLE32 m = .ok (cid, rest)) :
    (newTransaction m).isPanic = true ↔
      m.length < 5 ∨ (m.length < 7 ∧ ∃ c, commandOf m = some c ∧ 128 ≤ c.toNat ∧ c ≠ 0x91) := by
  rcases m with _ | ⟨a, _ | ⟨b, _ | ⟨c, _ | ⟨d, r⟩⟩⟩⟩ <;> try (simp [readLE32] at hm; done)
  rcases r with _ | ⟨e, r⟩
  · simp [newTransaction, readLE32, readLE8]
  · simp only [newTransaction, readLE32, readLE8, Res.bind_ok, commandOf, List.length_cons,
      Option.some.injEq, exists_eq_left']
    by_cases h80 : e &&& 0x80 = 0
    · have := (and80_eq_zero e).mp h80
      simp [h80]; omega
    · have h128 : ¬ e.toNat < 128 := fun h => h80 ((and80_eq_zero e).mpr h)
      simp only [h80, if_false]
      by_cases hc : e = cmdCancel
      · subst hc; simp [cmdCancel]
      · simp only [hc, if_false]
        have hne : e ≠ 0x91 := hc
        rcases r with _ | ⟨f, _ | ⟨g, r⟩⟩
        · simp [readBE16, hne]; omega
        · simp [readBE16, hne]; omega
        · simp only [readBE16, Res.bind_ok, List.length_cons]
          constructor
          · intro h
            exfalso
            revert h
            split
            · unfold Slice.upTo
              rename_i hle
              rw [if_pos (by simpa using hle)]
              simp
            · simp
          · omega

theorem addMessage_panic (grow : Nat → Nat → Nat) {cid : UInt32} {cmd : UInt8} {len : Nat}
    {d0 : Bytes} {ds : List Bytes} {spare : Bytes} {t : Transaction}
    (ho : OpenTx cid cmd len d0 ds spare t) {m rest : Bytes} (hm : readLE32 m = .ok (cid, rest)) :
    (t.addMessage grow m).isPanic = true ↔ m.length < 5 := by
  obtain ⟨hlen, hcmd, hne, hds, hshort, rfl⟩ := ho
  rcases m with _ | ⟨a, _ | ⟨b, _ | ⟨c, _ | ⟨d, r⟩⟩⟩⟩ <;> try (simp [readLE32] at hm; done)
  simp only [Transaction.addMessage, Bool.false_eq_true, if_false]
  rw [hm]
  have hrest : rest = r := by simp [readLE32] at hm; exact hm.2.symm
  subst hrest
  simp only [Res.bind_ok, ne_eq, not_true_eq_false, if_false]
  rcases rest with _ | ⟨e, r⟩
  · simp [readLE8]
  · simp only [readLE8, Res.bind_ok, List.length_cons]
    constructor
    · intro h
      exfalso
      revert h
      repeat' split
      all_goals try (simp; done)
      rename_i hge
      unfold Slice.upTo
      rw [if_pos (by omega)]
      simp
    · omega

/-- The reserved capacity of a growing payload. -/
def CapOK (t : Transaction) : Prop :=
  ∀ r, t.result = some r → r.payload.spare = [] ∨ 8 ≤ r.payload.data.length + r.payload.spare.length

/-- Go's `append` never allocates fewer than 8 bytes (the smallest allocation size class). -/
def GrowLaw (grow : Nat → Nat → Nat) : Prop := ∀ a b, 0 < b → 8 ≤ b + grow a b

theorem append_cap {grow : Nat → Nat → Nat} (hg : GrowLaw grow) (s : Slice) (bs : Bytes)
    (hs : s.spare = [] ∨ 8 ≤ s.data.length + s.spare.length) :
    ((s.append grow bs).spare = [] ∧ bs = []) ∨
      8 ≤ (s.append grow bs).data.length + (s.append grow bs).spare.length := by
  unfold Slice.append
  by_cases h : bs.length ≤ s.spare.length
  · simp only [h, if_true]
    rcases hs with hs | hs
    · left
      rw [hs] at h
      have : bs = [] := List.length_eq_zero_iff.mp (by simpa using h)
      simp [this, hs]
    · right
      simp only [List.length_append, List.length_drop]
      omega
  · right
    simp only [h, if_false, List.length_append, List.length_replicate]
    have := hg (s.data.length + s.spare.length) (s.data.length + bs.length) (by omega)
    omega

theorem newTransaction_cap {m rest : Bytes} {cid : UInt32} (hm : readLE32 m = .ok (cid, rest))
    {t : Transaction} (h : newTransaction m = .ok t) (hd : t.done = false) : CapOK t := by
  rcases newTransaction_ok hm h with (rfl | rfl) | ⟨cmd, len, d, rfl, hlen, hcmd, hne⟩
  · simp [Transaction.error] at hd
  · simp [Transaction.cancel] at hd
  · rw [newTransaction_init cid cmd len d hlen hcmd hne] at h
    simp only [Res.ok.injEq] at h
    subst h
    by_cases hl : len ≤ d.length
    · simp [hl] at hd
    · simp only [hl, if_false]
      intro r hr
      simp only [Option.some.injEq] at hr
      subst hr
      exact .inl rfl

/-- A finished request of one report has the rest of the report behind its payload. -/
theorem newTransaction_done {m rest : Bytes} {cid : UInt32} (hm : readLE32 m = .ok (cid, rest))
    {t : Transaction} (h : newTransaction m = .ok t) {r : TResult} (hr : t.result = some r)
    (hd : t.done = true) : r.payload.data.length + r.payload.spare.length + 7 = m.length := by
  rcases newTransaction_ok hm h with (rfl | rfl) | ⟨cmd, len, d, rfl, hlen, hcmd, hne⟩
  · simp [Transaction.error] at hr
  · simp [Transaction.cancel] at hr
  · rw [newTransaction_init cid cmd len d hlen hcmd hne] at h
    simp only [Res.ok.injEq] at h
    subst h
    by_cases hl : len ≤ d.length
    · simp only [hl, if_true, Option.some.injEq] at hr
      subst hr
      simp [initPacket, le32, be16]
      omega
    · simp [hl] at hd

theorem addMessage_cap {grow : Nat → Nat → Nat} (hg : GrowLaw grow) {cid : UInt32} {cmd : UInt8}
    {len : Nat} {d0 : Bytes} {ds : List Bytes} {spare : Bytes} {t : Transaction}
    (ho : OpenTx cid cmd len d0 ds spare t) (hcap : CapOK t) {m rest : Bytes}
    (hm : readLE32 m = .ok (cid, rest)) {t' : Transaction} (h : t.addMessage grow m = .ok t') :
    CapOK t' ∧ (t'.done = true → ∀ r, t'.result = some r →
      8 ≤ r.payload.data.length + r.payload.spare.length) := by
  obtain ⟨hlen, hcmd, hne, hds, hshort, rfl⟩ := ho
  have hcap' := hcap _ rfl
  simp only at hcap'
  simp only [Transaction.addMessage, Bool.false_eq_true, if_false] at h
  rw [hm] at h
  simp only [Res.bind_ok, ne_eq, not_true_eq_false, if_false] at h
  rcases rest with _ | ⟨e, bs⟩
  · simp [readLE8] at h
  · simp only [readLE8, Res.bind_ok] at h
    have happ := append_cap hg ⟨d0 ++ ds.flatten, spare⟩ bs hcap'
    have hdata : ((⟨d0 ++ ds.flatten, spare⟩ : Slice).append grow bs).data = d0 ++ ds.flatten ++ bs := by
      unfold Slice.append; split <;> rfl
    generalize hgen : (⟨d0 ++ ds.flatten, spare⟩ : Slice).append grow bs = s at h happ hdata
    repeat' split at h
    · simp only [Res.pure_eq, Res.ok.injEq] at h; subst h
      exact ⟨by intro r hr; simp [Transaction.cancel] at hr, by intro _ r hr; simp [Transaction.cancel] at hr⟩
    · simp only [Res.pure_eq, Res.ok.injEq] at h; subst h
      exact ⟨by intro r hr; simp [Transaction.error] at hr, by intro _ r hr; simp [Transaction.error] at hr⟩
    · simp only [Res.pure_eq, Res.ok.injEq] at h; subst h
      exact ⟨by intro r hr; simp [Transaction.error] at hr, by intro _ r hr; simp [Transaction.error] at hr⟩
    · rename_i hge
      rw [toNat_ofNat_lt hlen] at h hge
      unfold Slice.upTo at h
      rw [if_pos (by omega)] at h
      simp only [Res.bind_ok, Res.pure_eq, Res.ok.injEq] at h
      subst h
      have hne' : bs ≠ [] := by
        rintro rfl
        rw [hdata] at hge
        simp only [List.append_nil] at hge
        omega
      have h8 : 8 ≤ s.data.length + s.spare.length := by
        rcases happ with h1 | h1
        · exact absurd h1.2 hne'
        · exact h1
      have hsum : ((s.data ++ s.spare).take len).length + ((s.data ++ s.spare).drop len).length =
          s.data.length + s.spare.length := by
        rw [← List.length_append, List.take_append_drop, List.length_append]
      constructor
      · intro r hr
        simp only [Transaction.finish, Option.some.injEq] at hr
        subst hr
        right; simp only; omega
      · intro _ r hr
        simp only [Transaction.finish, Option.some.injEq] at hr
        subst hr
        simp only; omega
    · simp only [Res.pure_eq, Res.ok.injEq] at h; subst h
      constructor
      · intro r hr
        simp only [Option.some.injEq] at hr
        subst hr
        simp only
        rcases happ with h1 | h1
        · exact .inl h1.1
        · exact .inr h1
      · intro hd; simp at hd

/-- All open transactions have enough capacity or none to spare. -/
def CapInv (w : World W) : Prop :=
  ∀ c ch t, w.channels c = some ch → ch.transaction = some t → CapOK t

theorem CapInv_setTx {w : World W} (h : CapInv w) (cid : UInt32) (tx : Option Transaction)
    (ht : ∀ t, tx = some t → CapOK t) : CapInv (w.setTx cid tx) := by
  intro c ch t hc htt
  by_cases hcc : c = cid
  · subst hcc
    rw [setTx_channels_self] at hc
    cases hc
    exact ht t htt
  · rw [setTx_channels_ne _ _ hcc] at hc
    exact h c ch t hc htt

theorem CapInv_step {rt : Runtime} (hg : GrowLaw rt.grow) (up : Upper W) (m : Bytes)
    {w w' : World W} (hwf : WF w) (hcap : CapInv w) (h : handleMessage rt up m w = (.ok (), w')) :
    CapInv w' := by
  rcases hco : channelOf m with _ | cid
  · obtain ⟨c, hc⟩ := channelOf_none_iff.mp hco
    rw [handleMessage_short rt up hc] at h
    simp at h
  · obtain ⟨rest, hm⟩ := channelOf_eq_iff.mp hco
    rcases hch : w.channels cid with _ | ⟨cid', tx⟩
    · rw [handleMessage_unknown rt up hm hch] at h
      simp only [Prod.mk.injEq, true_and] at h
      subst h
      intro c ch t hc ht
      exact hcap c ch t (by simpa using hc) ht
    · have := (hwf _ _ hch).1
      simp only at this
      subst this
      rw [handleMessage_open rt up hm hch] at h
      rcases hts : transactionStep rt tx m with t | c <;> rw [hts] at h
      · simp only at h
        by_cases hd : t.done
        · simp only [hd, if_true] at h
          by_cases he : t.errorCode = 0
          · simp only [he, ne_eq, not_true_eq_false, if_false] at h
            by_cases hcn : t.cancelled
            · simp only [hcn, if_true, Prod.mk.injEq, true_and] at h
              subst h
              exact CapInv_setTx hcap _ _ (by simp)
            · simp only [hcn, if_false, Bool.false_eq_true] at h
              rcases hres : t.result with _ | result
              · rw [hres] at h; simp at h
              · rw [hres] at h
                simp only at h
                have htab := (handleFinalizedMessage_effect rt up cid' result.header result.payload
                  (w.setTx cid' (some t))).table
                rcases hrun : handleFinalizedMessage rt up cid' result.header result.payload
                  (w.setTx cid' (some t)) with ⟨r | c, w0⟩
                · rw [hrun] at h htab
                  simp only [Prod.mk.injEq, true_and] at h htab
                  subst h
                  intro c ch t' hc ht
                  by_cases hcc : c = cid'
                  · subst hcc; rw [setTx_channels_self] at hc; cases hc; simp at ht
                  · rw [setTx_channels_ne _ _ hcc] at hc
                    rcases htab with ⟨h1, -⟩ | ⟨-, -, h1, -⟩
                    · rw [h1, setTx_channels_ne _ _ hcc] at hc
                      exact hcap c ch t' hc ht
                    · rw [h1] at hc
                      simp only [World.alloc] at hc
                      split at hc
                      · cases hc; simp at ht
                      · rw [setTx_channels_ne _ _ hcc] at hc
                        exact hcap c ch t' hc ht
                · rw [hrun] at h; simp at h
          · simp only [he, ne_eq, not_false_eq_true, if_true, Prod.mk.injEq, true_and] at h
            subst h
            refine CapInv_setTx ?_ _ _ (by simp)
            intro c ch t hc ht
            exact hcap c ch t (by simpa using hc) ht
        · simp only [hd, if_false, Bool.false_eq_true, Prod.mk.injEq, true_and] at h
          subst h
          refine CapInv_setTx hcap _ _ ?_
          intro t' ht'
          cases ht'
          rcases tx with _ | t0
          · exact newTransaction_cap hm hts (by simpa using hd)
          · obtain ⟨window, cmd, len, d0, ds, spare, ho, -⟩ := (hwf _ _ hch).2 t0 rfl
            exact (addMessage_cap hg ho (hcap _ _ t0 hch rfl) hm hts).1
      · simp at h

theorem CapInv_run {rt : Runtime} (hg : GrowLaw rt.grow) (up : Upper W) (ms : List Bytes)
    {w w' : World W} (hwf : WF w) (hcap : CapInv w) (h : handleAll rt up ms w = (.ok (), w')) :
    CapInv w' := by
  induction ms generalizing w with
  | nil => simp only [handleAll, Go.run_pure, Prod.mk.injEq, true_and] at h; rw [← h]; exact hcap
  | cons m ms ih =>
    simp only [handleAll] at h
    rw [Go.run_bind] at h
    rcases h1 : handleMessage rt up m w with ⟨r | c, w1⟩
    · rw [h1] at h
      exact ih (WF_step rt up m hwf (by rw [h1])) (CapInv_step hg up m hwf hcap (by rw [h1])) h
    · rw [h1] at h; simp at h

theorem CapInv_new (b : Bool) (u : W) : CapInv (World.new b u) := by
  intro c ch t hc ht
  simp only [World.new] at hc
  split at hc
  · cases hc; simp at ht
  · simp at hc

end VF.Hid
