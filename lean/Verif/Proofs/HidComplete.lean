import Verif.Proofs.HidInv
import Verif.Proofs.HidResponse

/-! # Complete requests: the effect of all reports of a fragmentation -/

namespace VF.Hid

open Util Spec.Ctaphid

variable {W : Type}

theorem contPackets_take (cid : UInt32) (seq n : Nat) (ds : List Bytes) :
    (contPackets cid seq ds).take n = contPackets cid seq (ds.take n) := by
  induction ds generalizing seq n with
  | nil => simp [contPackets]
  | cons d ds ih =>
    cases n with
    | zero => simp [contPackets]
    | succ n => simp [contPackets, ih]

@[simp] theorem contPackets_length (cid : UInt32) (seq : Nat) (ds : List Bytes) :
    (contPackets cid seq ds).length = ds.length := by
  induction ds generalizing seq with
  | nil => rfl
  | cons d ds ih => simp [contPackets, ih]

theorem initPacket_read (cid : UInt32) (cmd : UInt8) (len : Nat) (d : Bytes) :
    ∃ rest, readLE32 (initPacket cid cmd len d) = .ok (cid, rest) :=
  channelOf_eq_iff.mp (channelOf_init cid cmd len d)

theorem contPacket_read (cid : UInt32) (seq : Nat) (d : Bytes) :
    ∃ rest, readLE32 (contPacket cid seq d) = .ok (cid, rest) :=
  channelOf_eq_iff.mp (channelOf_cont cid seq d)

/-- The reports before the last one only collect data. -/
theorem run_prefix (rt : Runtime) (up : Upper W) {w : World W} {cid : UInt32} {cmd : UInt8}
    {len : Nat} {d0 : Bytes} (hidle : w.channels cid = some ⟨cid, none⟩) (hlen : len < 65536)
    (hcmd : 128 ≤ cmd.toNat) (hne : cmd ≠ cmdCancel) (ds : List Bytes) (hds : ds.length ≤ 128)
    (hshort : (d0 ++ ds.flatten).length < len) :
    ∃ t spare, handleAll rt up (initPacket cid cmd len d0 :: contPackets cid 0 ds) w =
      (.ok (), w.setTx cid (some t)) ∧ OpenTx cid cmd len d0 ds spare t := by
  obtain ⟨n, hn⟩ : ∃ n, ds.length = n := ⟨_, rfl⟩
  induction n generalizing ds with
  | zero =>
    have hds0 : ds = [] := List.length_eq_zero_iff.mp hn
    subst hds0
    obtain ⟨rest, hr⟩ := initPacket_read cid cmd len d0
    have h : ¬ len ≤ d0.length := by simpa using hshort
    refine ⟨{ result := some ⟨⟨cid, cmd, UInt16.ofNat len⟩, 0, ⟨d0, []⟩⟩ }, [], ?_, ?_⟩
    · simp only [contPackets]
      rw [handleAll_single, handleMessage_open rt up hr hidle]
      simp only [transactionStep, newTransaction_init cid cmd len d0 hlen hcmd hne, h, if_false]
      simp
    · exact ⟨hlen, hcmd, hne, by simp, by simpa using hshort, by simp⟩
  | succ n ih =>
    rcases List.eq_nil_or_concat ds with rfl | ⟨ds', d, rfl⟩
    · simp at hn
    · rw [List.concat_eq_append] at *
      simp only [List.length_append, List.length_cons, List.length_nil] at hn hds
      have hs' : (d0 ++ ds'.flatten).length < len := by
        simp only [List.flatten_append, List.flatten_cons, List.flatten_nil, List.append_nil,
          List.length_append] at hshort ⊢
        omega
      obtain ⟨t, spare, hrun, ho⟩ := ih ds' (by omega) hs' (by omega)
      obtain ⟨sp, hadd⟩ := addMessage_cont rt.grow ho d (by omega)
      obtain ⟨rest, hr⟩ := contPacket_read cid ds'.length d
      have hl : ¬ len ≤ (d0 ++ ds'.flatten ++ d).length := by
        simp only [List.flatten_append, List.flatten_cons, List.flatten_nil, List.append_nil,
          List.length_append] at hshort ⊢
        omega
      rw [if_neg hl] at hadd
      refine ⟨_, sp, ?_, ⟨hlen, hcmd, hne, by simp; omega, hshort, rfl⟩⟩
      rw [contPackets_append, Nat.zero_add, ← List.cons_append, handleAll_append, hrun]
      simp only
      rw [handleAll_single, handleMessage_open rt up hr (setTx_channels_self w cid _)]
      simp only [transactionStep, hadd]
      simp

/-- The whole fragmentation: the request is acted on, then the channel is idle. -/
theorem run_complete (rt : Runtime) (up : Upper W) {w : World W} {cid : UInt32} {cmd : UInt8}
    {payload : Bytes} {pkts : List Bytes} (hidle : w.channels cid = some ⟨cid, none⟩)
    (hcmd : 128 ≤ cmd.toNat) (hne : cmd ≠ cmdCancel)
    (hfrag : IsFragmentation cid cmd payload pkts) :
    ∃ t spare, handleAll rt up pkts w =
      match handleFinalizedMessage rt up cid ⟨cid, cmd, UInt16.ofNat payload.length⟩
          ⟨payload, spare⟩ (w.setTx cid (some t)) with
      | (.ok _, w') => (.ok (), w'.setTx cid none)
      | (.panic c, w') => (.panic c, w') := by
  obtain ⟨d0, ds, rfl, hlen, hds, hpay, hge, hmin⟩ := hfrag
  rcases List.eq_nil_or_concat ds with rfl | ⟨ds', d, rfl⟩
  · obtain ⟨rest, hr⟩ := initPacket_read cid cmd payload.length d0
    have h : payload.length ≤ d0.length := by simpa using hge
    have hp : d0.take payload.length = payload := by simpa using hpay.symm
    refine ⟨{ done := true, result := some ⟨⟨cid, cmd, UInt16.ofNat payload.length⟩, 0,
      ⟨payload, d0.drop payload.length⟩⟩ }, d0.drop payload.length, ?_⟩
    simp only [contPackets]
    rw [handleAll_single, handleMessage_open rt up hr hidle]
    simp only [transactionStep, newTransaction_init cid cmd payload.length d0 hlen hcmd hne, h,
      if_true, hp]
    simp
    rfl
  · simp only [List.concat_eq_append] at *
    have hm : (d0 ++ ds'.flatten).length < payload.length := by
      simpa using hmin (by simp)
    simp only [List.length_append, List.length_cons, List.length_nil] at hds
    obtain ⟨t, spare, hrun, ho⟩ := run_prefix rt up hidle hlen hcmd hne ds' (by omega) hm
    obtain ⟨sp, hadd⟩ := addMessage_cont rt.grow ho d (by omega)
    obtain ⟨rest, hr⟩ := contPacket_read cid ds'.length d
    have hflat : d0 ++ (ds' ++ [d]).flatten = d0 ++ ds'.flatten ++ d := by simp
    rw [hflat] at hge hpay
    rw [if_pos hge, ← hpay] at hadd
    refine ⟨{ done := true, result := some ⟨⟨cid, cmd, UInt16.ofNat payload.length⟩,
      UInt8.ofNat ds'.length, ⟨payload, sp⟩⟩ }, sp, ?_⟩
    rw [contPackets_append, Nat.zero_add, ← List.cons_append, handleAll_append, hrun]
    simp only
    rw [handleAll_single, handleMessage_open rt up hr (setTx_channels_self w cid _)]
    simp only [transactionStep, hadd, setTx_setTx]
    simp
    rfl

/-- Any proper initial part of a fragmentation is silent. -/
theorem run_silent (rt : Runtime) (up : Upper W) {w : World W} {cid : UInt32} {cmd : UInt8}
    {payload : Bytes} {pkts : List Bytes} (hidle : w.channels cid = some ⟨cid, none⟩)
    (hcmd : 128 ≤ cmd.toNat) (hne : cmd ≠ cmdCancel)
    (hfrag : IsFragmentation cid cmd payload pkts) {pre suf : List Bytes} (hp : pkts = pre ++ suf)
    (hs : suf ≠ []) :
    ∃ tx, handleAll rt up pre w = (.ok (), w.setTx cid tx) := by
  obtain ⟨d0, ds, rfl, hlen, hds, hpay, hge, hmin⟩ := hfrag
  cases pre with
  | nil =>
    refine ⟨none, ?_⟩
    simp only [handleAll, Go.run_pure, Prod.mk.injEq, true_and]
    unfold World.setTx
    cases w
    simp only [World.mk.injEq, true_and, and_true]
    simp only at hidle
    funext c
    by_cases h : c = cid
    · simp [h, hidle]
    · simp [h]
  | cons p pre =>
    simp only [List.cons_append, List.cons.injEq] at hp
    obtain ⟨rfl, hp⟩ := hp
    have hpre : pre = contPackets cid 0 (ds.take pre.length) := by
      rw [← contPackets_take, hp]; simp
    have hlt : pre.length < ds.length := by
      have := congrArg List.length hp
      simp only [contPackets_length, List.length_append] at this
      have := List.length_pos_iff.mpr hs
      omega
    rw [hpre]
    have hne' : ds ≠ [] := by rintro rfl; simp at hlt
    have hm := hmin hne'
    have hshort : (d0 ++ (ds.take pre.length).flatten).length < payload.length := by
      have : ds.dropLast = ds.take pre.length ++ (ds.dropLast.drop pre.length) := by
        rw [← List.take_append_drop pre.length ds.dropLast]
        congr 1
        · rw [List.dropLast_eq_take, List.take_take, Nat.min_eq_left (by omega)]
        · simp
      rw [this] at hm
      simp only [List.flatten_append, List.length_append] at hm ⊢
      omega
    obtain ⟨t, spare, hrun, -⟩ := run_prefix rt up hidle hlen hcmd hne (ds.take pre.length)
      (by simp; omega) hshort
    exact ⟨some t, hrun⟩

/-! ### The host's packets are a fragmentation -/

theorem chunks_flatten (n fuel : Nat) (hn : 0 < n) (data : Bytes) (h : data.length ≤ fuel) :
    (chunks n fuel data).flatten = data := by
  induction fuel generalizing data with
  | zero => have : data = [] := List.length_eq_zero_iff.mp (by omega); subst this; rfl
  | succ fuel ih =>
    unfold chunks
    by_cases hd : data = []
    · simp [hd]
    · simp only [hd, if_false, List.flatten_cons]
      have : data.length > 0 := List.length_pos_iff.mpr hd
      rw [ih _ (by simp; omega)]
      simp

theorem chunks_count (n fuel : Nat) (data : Bytes) (k : Nat) (h : data.length ≤ n * k) :
    (chunks n fuel data).length ≤ k := by
  induction fuel generalizing data k with
  | zero => simp [chunks]
  | succ fuel ih =>
    unfold chunks
    by_cases hd : data = []
    · simp [hd]
    · simp only [hd, if_false, List.length_cons]
      have hpos : data.length > 0 := List.length_pos_iff.mpr hd
      obtain ⟨k, rfl⟩ : ∃ k', k = k' + 1 := by
        cases k with
        | zero => rw [Nat.mul_zero] at h; omega
        | succ k => exact ⟨k, rfl⟩
      have := ih (data.drop n) k (by rw [Nat.mul_add] at h; simp; omega)
      omega

theorem chunks_mem_ne (n fuel : Nat) (hn : 0 < n) (data : Bytes) : ∀ c ∈ chunks n fuel data, c ≠ [] := by
  induction fuel generalizing data with
  | zero => simp [chunks]
  | succ fuel ih =>
    unfold chunks
    by_cases hd : data = []
    · simp [hd]
    · simp only [hd, if_false, List.mem_cons]
      rintro c (rfl | hc)
      · simp only [ne_eq, List.take_eq_nil_iff, hd, or_false]; omega
      · exact ih _ _ hc

theorem hostPackets_isFragmentation (cid : UInt32) (cmd : UInt8) (payload padding : Bytes)
    (hlen : payload.length ≤ 7609) :
    IsFragmentation cid cmd payload (hostPackets cid cmd payload padding) := by
  unfold hostPackets
  have hflat := chunks_flatten 59 payload.length (by omega) (payload.drop 57) (by simp)
  have hcount := chunks_count 59 payload.length (payload.drop 57) 128 (by simp; omega)
  have hmem := chunks_mem_ne 59 payload.length (by omega) (payload.drop 57)
  generalize chunks 59 payload.length (payload.drop 57) = cs at *
  simp only
  rcases List.eq_nil_or_concat cs with rfl | ⟨cs', d, rfl⟩
  · simp only [List.flatten_nil] at hflat
    have h57 : payload.length ≤ 57 := by
      have := congrArg List.length hflat
      simp only [List.length_nil, List.length_drop] at this; omega
    refine ⟨payload.take 57 ++ padding, [], by simp [contPackets], by omega, by simp, ?_, ?_, by simp⟩
    · rw [List.take_of_length_le h57]; simp
    · simp; omega
  · simp only [List.concat_eq_append] at *
    simp only [List.getLast?_append, List.getLast?_singleton, Option.some_or]
    have hd : d ≠ [] := hmem d (by simp)
    have hdl : d.length > 0 := List.length_pos_iff.mpr hd
    have hfl : cs'.flatten ++ d = payload.drop 57 := by simpa using hflat
    have htot : payload = payload.take 57 ++ (cs'.flatten ++ d) := by rw [hfl]; simp
    have hll := congrArg List.length htot
    simp only [List.length_append] at hll
    refine ⟨payload.take 57, cs' ++ [d ++ padding], ?_, by omega, by simpa using hcount, ?_, ?_, ?_⟩
    · simp
    · have : payload.take 57 ++ (cs' ++ [d ++ padding]).flatten = payload ++ padding := by
        conv => rhs; rw [htot]
        simp
      rw [this]; simp
    · simp only [List.flatten_append, List.flatten_cons, List.flatten_nil, List.append_nil,
        List.length_append]
      omega
    · intro _
      simp only [List.dropLast_concat, List.length_append]
      omega

end VF.Hid
