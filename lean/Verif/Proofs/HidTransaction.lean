import Verif.Model.HidServer
import Verif.Spec.Ctaphid
import Verif.Proofs.Util

/-! # Lemmas about one CTAPHID transaction -/

namespace VF.Hid

open Util Spec.Ctaphid

set_option maxRecDepth 8000 in
theorem and80_table : ∀ n : Fin 256, ((UInt8.ofNat n.val &&& 0x80 = 0) ↔ n.val < 128) := by
  decide

theorem and80_eq_zero (c : UInt8) : c &&& 0x80 = 0 ↔ c.toNat < 128 := by
  have := and80_table ⟨c.toNat, c.toNat_lt⟩
  simpa using this

theorem toNat_ofNat_lt {n : Nat} (h : n < 65536) : (UInt16.ofNat n).toNat = n := by
  simp [UInt16.toNat_ofNat']; omega

/-- A transaction that has received the reports `window` and needs more. -/
structure OpenTx (cid : UInt32) (cmd : UInt8) (len : Nat) (d0 : Bytes) (ds : List Bytes)
    (spare : Bytes) (t : Transaction) : Prop where
  len_lt : len < 65536
  cmd_ge : 128 ≤ cmd.toNat
  cmd_ne : cmd ≠ cmdCancel
  ds_le : ds.length ≤ 128
  short : (d0 ++ ds.flatten).length < len
  eq : t = { done := false, cancelled := false, errorCode := 0,
             result := some ⟨⟨cid, cmd, UInt16.ofNat len⟩, UInt8.ofNat ds.length,
               ⟨d0 ++ ds.flatten, spare⟩⟩ }

/-- A transaction that has just been completed with this command and payload. -/
def FinishedTx (cid : UInt32) (cmd : UInt8) (payload : Bytes) (t : Transaction) : Prop :=
  ∃ seq spare, t =
    { done := true, cancelled := false, errorCode := 0,
      result := some ⟨⟨cid, cmd, UInt16.ofNat payload.length⟩, seq, ⟨payload, spare⟩⟩ }

theorem newTransaction_init (cid : UInt32) (cmd : UInt8) (len : Nat) (d : Bytes)
    (hlen : len < 65536) (hcmd : 128 ≤ cmd.toNat) (hne : cmd ≠ cmdCancel) :
    newTransaction (initPacket cid cmd len d) =
      .ok (if len ≤ d.length then
        { done := true, result := some ⟨⟨cid, cmd, UInt16.ofNat len⟩, 0, ⟨d.take len, d.drop len⟩⟩ }
      else { result := some ⟨⟨cid, cmd, UInt16.ofNat len⟩, 0, ⟨d, []⟩⟩ }) := by
  have h80 : ¬ (cmd &&& 0x80 = 0) := by rw [and80_eq_zero]; omega
  simp only [newTransaction, initPacket, List.append_assoc, readLE32_le32, Res.bind_ok,
    List.cons_append, List.nil_append, readLE8_cons, h80, hne, if_false, readBE16_be16,
    toNat_ofNat_lt hlen, ge_iff_le]
  by_cases h : len ≤ d.length
  · simp [h, Slice.upTo, Transaction.finish]
  · simp [h]

theorem addMessage_cont (grow : Nat → Nat → Nat) {cid : UInt32} {cmd : UInt8} {len : Nat}
    {d0 : Bytes} {ds : List Bytes} {spare : Bytes} {t : Transaction}
    (ho : OpenTx cid cmd len d0 ds spare t) (d : Bytes) (hseq : ds.length < 128) :
    ∃ sp, t.addMessage grow (contPacket cid ds.length d) =
      .ok (if len ≤ (d0 ++ ds.flatten ++ d).length then
        { done := true,
          result := some ⟨⟨cid, cmd, UInt16.ofNat len⟩, UInt8.ofNat ds.length,
            ⟨(d0 ++ ds.flatten ++ d).take len, sp⟩⟩ }
      else
        { result := some ⟨⟨cid, cmd, UInt16.ofNat len⟩, UInt8.ofNat (ds.length + 1),
            ⟨d0 ++ ds.flatten ++ d, sp⟩⟩ }) := by
  obtain ⟨hlen, hcmd, hne, hds, hshort, rfl⟩ := ho
  have hs80 : UInt8.ofNat ds.length &&& 0x80 = 0 := by
    rw [and80_eq_zero]; simp [UInt8.toNat_ofNat']; omega
  have hsne : UInt8.ofNat ds.length ≠ cmdCancel := by
    intro h
    have := congrArg UInt8.toNat h
    simp [UInt8.toNat_ofNat', cmdCancel] at this
    omega
  have hinc : UInt8.ofNat ds.length + 1 = UInt8.ofNat (ds.length + 1) := by
    apply UInt8.toNat_inj.mp
    simp [UInt8.toNat_ofNat', UInt8.toNat_add]
  simp only [Transaction.addMessage, contPacket, List.append_assoc, readLE32_le32, Res.bind_ok,
    List.cons_append, List.nil_append, readLE8_cons, hs80, hsne, if_false, ne_eq, not_true_eq_false,
    toNat_ofNat_lt hlen, ge_iff_le, Bool.false_eq_true, hinc]
  have happ : ∃ sp, Slice.append grow ⟨d0 ++ ds.flatten, spare⟩ d = ⟨d0 ++ (ds.flatten ++ d), sp⟩ := by
    unfold Slice.append
    by_cases h : d.length ≤ spare.length
    · exact ⟨_, by simp [h]; rfl⟩
    · exact ⟨_, by simp [h]; rfl⟩
  obtain ⟨sp, hsp⟩ := happ
  simp only [hsp]
  by_cases h : len ≤ (d0 ++ (ds.flatten ++ d)).length
  · refine ⟨List.drop len (d0 ++ (ds.flatten ++ d) ++ sp), ?_⟩
    have : len ≤ (d0 ++ (ds.flatten ++ d)).length + sp.length := by omega
    simp only [h, if_true, Slice.upTo, this, Transaction.finish, Res.bind_ok,
      List.take_append_of_le_length h]
    rfl
  · refine ⟨sp, ?_⟩
    simp only [h, if_false]
    rfl

theorem contPackets_append (cid : UInt32) (seq : Nat) (ds : List Bytes) (d : Bytes) :
    contPackets cid seq (ds ++ [d]) = contPackets cid seq ds ++ [contPacket cid (seq + ds.length) d] := by
  induction ds generalizing seq with
  | nil => simp [contPackets]
  | cons x xs ih =>
    simp only [List.cons_append, contPackets, List.length_cons, ih]
    rw [show seq + 1 + xs.length = seq + (xs.length + 1) by omega]

/-- A report without error starting a transaction was an initialization packet. -/
theorem newTransaction_ok {cid : UInt32} {m rest : Bytes} (hm : readLE32 m = .ok (cid, rest))
    {t : Transaction} (h : newTransaction m = .ok t) :
    (t = ({} : Transaction).error errInvalidCommand ∨ t = ({} : Transaction).cancel) ∨
    ∃ cmd len d, m = initPacket cid cmd len d ∧ len < 65536 ∧ 128 ≤ cmd.toNat ∧ cmd ≠ cmdCancel := by
  unfold newTransaction at h
  rw [hm] at h
  simp only [Res.bind_ok] at h
  rcases hb : readLE8 rest with ⟨cmd, r2⟩ | c
  · rw [hb] at h
    simp only [Res.bind_ok] at h
    by_cases h80 : cmd &&& 0x80 = 0
    · simp only [h80, if_true, Res.pure_eq, Res.ok.injEq] at h
      exact .inl (.inl h.symm)
    · simp only [h80, if_false] at h
      by_cases hc : cmd = cmdCancel
      · simp only [hc, if_true, Res.pure_eq, Res.ok.injEq] at h
        exact .inl (.inr h.symm)
      · simp only [hc, if_false] at h
        rcases hl : readBE16 r2 with ⟨len, d⟩ | c
        · right
          refine ⟨cmd, len.toNat, d, ?_, len.toNat_lt, ?_, hc⟩
          · rw [readLE32_ok hm, readLE8_ok hb, readBE16_ok hl]
            simp [initPacket]
          · rw [and80_eq_zero] at h80; omega
        · rw [hl] at h; simp at h
  · rw [hb] at h; simp at h

/-- Anything that continues an open transaction without ending it in an error or cancellation is
the next continuation packet. -/
theorem addMessage_ok (grow : Nat → Nat → Nat) {cid : UInt32} {cmd : UInt8} {len : Nat}
    {d0 : Bytes} {ds : List Bytes} {spare : Bytes} {t : Transaction}
    (ho : OpenTx cid cmd len d0 ds spare t) {m rest : Bytes} (hm : readLE32 m = .ok (cid, rest))
    {t' : Transaction} (h : t.addMessage grow m = .ok t') :
    (t' = t.error errInvalidSequence ∨ t' = t.cancel) ∨
    ∃ d, ds.length < 128 ∧ m = contPacket cid ds.length d := by
  obtain ⟨hlen, hcmd, hne, hds, hshort, rfl⟩ := ho
  unfold Transaction.addMessage at h
  simp only [Bool.false_eq_true, if_false, hm, Res.bind_ok, ne_eq, not_true_eq_false] at h
  rcases hb : readLE8 rest with ⟨s, r2⟩ | c
  · rw [hb] at h
    simp only [Res.bind_ok] at h
    by_cases hc : s = cmdCancel
    · simp only [hc, if_true, Res.pure_eq, Res.ok.injEq] at h
      exact .inl (.inr h.symm)
    · simp only [hc, if_false] at h
      by_cases h80 : s &&& 0x80 = 0
      · simp only [h80, not_true_eq_false, if_false] at h
        by_cases hs : s = UInt8.ofNat ds.length
        · right
          rw [and80_eq_zero] at h80
          have hsn := congrArg UInt8.toNat hs
          simp only [UInt8.toNat_ofNat'] at hsn
          refine ⟨r2, by omega, ?_⟩
          rw [readLE32_ok hm, readLE8_ok hb, hs]
          simp [contPacket]
        · simp only [hs, not_false_eq_true, if_true, Res.pure_eq, Res.ok.injEq] at h
          exact .inl (.inl h.symm)
      · simp only [h80, not_false_eq_true, if_true, Res.pure_eq, Res.ok.injEq] at h
        exact .inl (.inl h.symm)
  · rw [hb] at h; simp at h

/-- The reports collected by an open transaction. -/
def openWindow (cid : UInt32) (cmd : UInt8) (len : Nat) (d0 : Bytes) (ds : List Bytes) : List Bytes :=
  initPacket cid cmd len d0 :: contPackets cid 0 ds

/-- A transaction of channel `cid` that is open and has collected exactly `window`. -/
def IsOpen (cid : UInt32) (window : List Bytes) (t : Transaction) : Prop :=
  ∃ cmd len d0 ds spare, OpenTx cid cmd len d0 ds spare t ∧ window = openWindow cid cmd len d0 ds

/-- The report neither continues a request nor completes one. -/
def Useless (cid : UInt32) (window : List Bytes) (m : Bytes) : Prop :=
  ∀ cmd len d0 ds, len < 65536 → 128 ≤ cmd.toNat → cmd ≠ cmdCancel → ds.length ≤ 128 →
    window ++ [m] ≠ openWindow cid cmd len d0 ds

theorem useless_new {cid : UInt32} {m : Bytes} {t : Transaction} (h : newTransaction m = .ok t)
    (ht : t.errorCode ≠ 0 ∨ t.cancelled = true) : Useless cid [] m := by
  intro cmd len d0 ds hlen hcmd hne hds he
  have he' := List.cons.inj he
  rw [he'.1, newTransaction_init cid cmd len d0 hlen hcmd hne] at h
  cases h
  split at ht <;> rcases ht with ht | ht <;> first | exact ht rfl | cases ht

theorem useless_add (grow : Nat → Nat → Nat) {cid : UInt32} {cmd0 : UInt8} {len0 : Nat} {e0 : Bytes}
    {es : List Bytes} {spare : Bytes} {t t' : Transaction} (ho : OpenTx cid cmd0 len0 e0 es spare t) {m : Bytes}
    (h : t.addMessage grow m = .ok t') (ht : t'.errorCode ≠ 0 ∨ t'.cancelled = true) :
    Useless cid (openWindow cid cmd0 len0 e0 es) m := by
  intro cmd len d0 ds hlen hcmd hne hds he
  have hlast : ∃ ds' d, ds = ds' ++ [d] := by
    rcases List.eq_nil_or_concat ds with rfl | ⟨ds', d, h⟩
    · have := congrArg List.length he
      simp [openWindow, contPackets] at this
    · exact ⟨ds', d, by simpa using h⟩
  obtain ⟨ds', d, rfl⟩ := hlast
  have hlen2 := congrArg List.length he
  have hcl : ∀ (n : Nat) (l : List Bytes), (contPackets cid n l).length = l.length := by
    intro n l
    induction l generalizing n with
    | nil => rfl
    | cons x xs ih => simp [contPackets, ih]
  simp only [openWindow, List.length_append, List.length_cons, List.length_nil, hcl] at hlen2
  have hsame : es.length = ds'.length := by omega
  have hm : m = contPacket cid es.length d := by
    have he2 : openWindow cid cmd0 len0 e0 es ++ [m] = openWindow cid cmd len d0 ds' ++ [contPacket cid ds'.length d] := by
      rw [he]
      simp [openWindow, contPackets_append]
    have := List.append_inj_right' he2 rfl
    rw [hsame]
    exact (List.cons.inj this).1
  simp only [List.length_append, List.length_cons, List.length_nil] at hds
  obtain ⟨sp, hadd⟩ := addMessage_cont grow ho d (by omega)
  rw [hm, hadd] at h
  cases h
  split at ht <;> rcases ht with ht | ht <;> first | exact ht rfl | cases ht

/-- How one report on channel `cid` may change the transaction of the channel. -/
inductive StepResult (cid : UInt32) (window : List Bytes) (m : Bytes) (t : Transaction) : Prop
  /-- ended with an error code (which one, and cleared) -/
  | error (code : UInt8) (hcode : code = errInvalidCommand ∨ code = errInvalidSequence) (hno : Useless cid window m)
      (h : t = { done := true, cancelled := false, errorCode := code, result := none })
  | cancelled (hno : Useless cid window m) (h : t = { done := true, cancelled := true, errorCode := 0, result := none })
  /-- still open, with one more report collected -/
  | more (h : IsOpen cid (window ++ [m]) t)
  /-- completed -/
  | finished (cmd : UInt8) (payload : Bytes) (hcmd : 128 ≤ cmd.toNat) (hne : cmd ≠ cmdCancel)
      (hfrag : IsFragmentation cid cmd payload (window ++ [m])) (h : FinishedTx cid cmd payload t)

theorem stepResult_new {cid : UInt32} {m rest : Bytes} (hm : readLE32 m = .ok (cid, rest))
    {t : Transaction} (h : newTransaction m = .ok t) : StepResult cid [] m t := by
  rcases newTransaction_ok hm h with (rfl | rfl) | ⟨cmd, len, d, rfl, hlen, hcmd, hne⟩
  · exact .error _ (.inl rfl) (useless_new h (.inl (by decide))) rfl
  · exact .cancelled (useless_new h (.inr rfl)) rfl
  · rw [newTransaction_init cid cmd len d hlen hcmd hne] at h
    simp only [Res.ok.injEq] at h
    by_cases hl : len ≤ d.length
    · simp only [hl, if_true] at h
      have hll : (d.take len).length = len := by simp; omega
      refine .finished cmd (d.take len) hcmd hne ⟨d, [], ?_, ?_, by simp, ?_, ?_, by simp⟩ ?_
      · simp [hll, contPackets]
      · omega
      · simp [hll]
      · simp [hll]; omega
      · exact ⟨0, d.drop len, by rw [hll]; exact h.symm⟩
    · simp only [hl, if_false] at h
      refine .more ⟨cmd, len, d, [], [], ⟨hlen, hcmd, hne, by simp, ?_, ?_⟩, ?_⟩
      · simpa using hl
      · simpa using h.symm
      · simp [openWindow, contPackets]

theorem stepResult_add (grow : Nat → Nat → Nat) {cid : UInt32} {window : List Bytes} {m rest : Bytes}
    (hm : readLE32 m = .ok (cid, rest)) {t t' : Transaction} (ho : IsOpen cid window t)
    (h : t.addMessage grow m = .ok t') : StepResult cid window m t' := by
  obtain ⟨cmd, len, d0, ds, spare, ho, rfl⟩ := ho
  rcases addMessage_ok grow ho hm h with (rfl | rfl) | ⟨d, hseq, rfl⟩
  · refine .error _ (.inr rfl) (useless_add grow ho h (.inl (by show errInvalidSequence ≠ 0; decide))) ?_
    rw [ho.eq]; rfl
  · refine .cancelled (useless_add grow ho h (.inr rfl)) ?_
    rw [ho.eq]; rfl
  · obtain ⟨sp, hadd⟩ := addMessage_cont grow ho d hseq
    rw [hadd] at h
    simp only [Res.ok.injEq] at h
    have hwin : openWindow cid cmd len d0 ds ++ [contPacket cid ds.length d] =
        openWindow cid cmd len d0 (ds ++ [d]) := by
      simp [openWindow, contPackets_append]
    by_cases hl : len ≤ (d0 ++ ds.flatten ++ d).length
    · simp only [hl, if_true] at h
      have hll : ((d0 ++ ds.flatten ++ d).take len).length = len := by
        rw [List.length_take]; omega
      refine .finished cmd ((d0 ++ ds.flatten ++ d).take len) ho.cmd_ge ho.cmd_ne
        ⟨d0, ds ++ [d], ?_, ?_, ?_, ?_, ?_, ?_⟩ ?_
      · rw [hll, hwin]; rfl
      · rw [hll]; exact ho.len_lt
      · simp; omega
      · rw [hll]; simp
      · rw [hll]; simpa using hl
      · intro _; rw [hll]; simpa using ho.short
      · exact ⟨_, sp, by rw [hll]; exact h.symm⟩
    · simp only [hl, if_false] at h
      refine .more ⟨cmd, len, d0, ds ++ [d], sp, ⟨ho.len_lt, ho.cmd_ge, ho.cmd_ne, ?_, ?_, ?_⟩, hwin⟩
      · simp; omega
      · simpa using hl
      · rw [← h]; simp

end VF.Hid
