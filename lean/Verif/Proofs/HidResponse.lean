import Verif.Proofs.HidRun

/-! # Lemmas about response framing -/

namespace VF.Hid

open Util Spec.Ctaphid

theorem responseLoop_nil (cid : UInt32) (cmd : UInt8) (fuel : Nat) (seq : Int) :
    responseLoop cid cmd fuel seq [] = [] := by
  cases fuel <;> simp [responseLoop]

/-- one continuation packet of the loop -/
theorem responseLoop_cont (cid : UInt32) (cmd : UInt8) (fuel k : Nat) (p : Bytes) (hp : p ≠ []) :
    responseLoop cid cmd (fuel + 1) (k : Int) p =
      (le32 cid ++ [UInt8.ofNat k] ++ p.take 59 ++ List.replicate (59 - p.length) 0) ::
        responseLoop cid cmd fuel ((k + 1 : Nat) : Int) (p.drop 59) := by
  have hlen : p.length > 0 := List.length_pos_iff.mpr hp
  have hk : ¬ ((k : Int) < 0) := by omega
  rw [responseLoop]
  simp only [hlen, if_true, hk, if_false, toLE32_eq, Int.toNat_natCast, maxPacketSize,
    List.length_append, le32_length, List.length_cons, List.length_nil]
  by_cases h : 64 - (4 + (0 + 1)) > p.length
  · have h1 : p.take 59 = p := List.take_of_length_le (by omega)
    have h2 : p.drop 59 = [] := List.drop_of_length_le (by omega)
    simp only [h, if_true, List.take_length, List.drop_length, h1, h2, responseLoop_nil]
    rw [pad_of_le (by simp; omega)]
    simp
    omega
  · have : 64 - (4 + (0 + 1)) = 59 := rfl
    have hr : 59 - p.length = 0 := by omega
    simp only [h, if_false, this, hr, List.replicate_zero, List.append_nil]
    congr 1
    rw [pad_of_le (by simp; omega)]
    simp; omega

/-- the initialization packet of the loop -/
theorem responseLoop_init (cid : UInt32) (cmd : UInt8) (fuel : Nat) (p : Bytes) (hp : p ≠ []) :
    responseLoop cid cmd (fuel + 1) (-1) p =
      (le32 cid ++ [cmd] ++ be16 (UInt16.ofNat p.length) ++ p.take 57 ++
          List.replicate (57 - p.length) 0) ::
        responseLoop cid cmd fuel ((0 : Nat) : Int) (p.drop 57) := by
  have hlen : p.length > 0 := List.length_pos_iff.mpr hp
  have hk : ((-1 : Int) < 0) := by omega
  rw [responseLoop]
  simp only [hlen, if_true, hk, toLE32_eq, toBE16_eq, maxPacketSize,
    List.length_append, le32_length, be16_length, List.length_cons, List.length_nil]
  by_cases h : 64 - (4 + (0 + 1) + 2) > p.length
  · have h1 : p.take 57 = p := List.take_of_length_le (by omega)
    have h2 : p.drop 57 = [] := List.drop_of_length_le (by omega)
    simp only [h, if_true, List.take_length, List.drop_length, h1, h2, responseLoop_nil]
    rw [pad_of_le (by simp; omega)]
    simp
    omega
  · have : 64 - (4 + (0 + 1) + 2) = 57 := rfl
    have hr : 57 - p.length = 0 := by omega
    simp only [h, if_false, this, hr, List.replicate_zero, List.append_nil]
    congr 1
    rw [pad_of_le (by simp; omega)]
    simp; omega

theorem readConts_loop (cid : UInt32) (cmd : UInt8) (fuel k : Nat) (acc p : Bytes)
    (hfuel : p.length ≤ fuel) (hk : p.length ≤ 59 * (128 - k)) :
    readConts cid (acc.length + p.length) k acc (responseLoop cid cmd fuel (k : Int) p) =
      some (acc ++ p) := by
  induction fuel generalizing k acc p with
  | zero =>
    have : p = [] := List.length_eq_zero_iff.mp (by omega)
    subst this
    simp [responseLoop, readConts]
  | succ fuel ih =>
    by_cases hp : p = []
    · subst hp
      simp [responseLoop, readConts]
    · have hlen : p.length > 0 := List.length_pos_iff.mpr hp
      rw [responseLoop_cont cid cmd fuel k p hp, readConts]
      have h1 : acc.length < acc.length + p.length := by omega
      have h2 : k < 128 := by omega
      have h3 : (le32 cid ++ [UInt8.ofNat k] ++ p.take 59 ++
          List.replicate (59 - p.length) (0 : UInt8)).length = 64 := by
        simp; omega
      have h4 : (le32 cid ++ [UInt8.ofNat k] ++ p.take 59 ++
          List.replicate (59 - p.length) (0 : UInt8)).take 5 = le32 cid ++ [UInt8.ofNat k] := by
        simp [le32]
      have h5 : (le32 cid ++ [UInt8.ofNat k] ++ p.take 59 ++
          List.replicate (59 - p.length) (0 : UInt8)).drop 5 =
          p.take 59 ++ List.replicate (59 - p.length) 0 := by
        simp [le32]
      simp only [h1, h2, h3, h4, h5, and_self, if_true]
      by_cases hs : p.length ≤ 59
      · have e1 : p.take 59 = p := List.take_of_length_le hs
        have e2 : p.drop 59 = [] := List.drop_of_length_le hs
        rw [e1, e2, responseLoop_nil, readConts]
        have : acc.length + p.length ≤ (acc ++ (p ++ List.replicate (59 - p.length) (0:UInt8))).length := by
          simp
        simp only [this, if_true]
        congr 1
        rw [← List.append_assoc, List.take_append_of_le_length (by simp)]
        rw [List.take_of_length_le (by simp)]
      · have e1 : 59 - p.length = 0 := by omega
        rw [e1, List.replicate_zero, List.append_nil]
        have hih := ih (k + 1) (acc ++ p.take 59) (p.drop 59) (by simp; omega) (by simp; omega)
        have e2 : (acc ++ p.take 59).length + (p.drop 59).length = acc.length + p.length := by
          simp; omega
        rw [e2] at hih
        rw [hih]
        simp

theorem hostRead_createResponsePackets (cid : UInt32) (cmd : UInt8) (p : Bytes)
    (hcmd : 128 ≤ cmd.toNat) (h0 : p ≠ []) (hlen : p.length ≤ 7609) :
    hostRead (createResponsePackets cid cmd p) = some (cid, cmd, p) := by
  unfold createResponsePackets
  have hpos : p.length > 0 := List.length_pos_iff.mpr h0
  obtain ⟨fuel, hf⟩ : ∃ fuel, p.length = fuel + 1 := ⟨p.length - 1, by omega⟩
  have := responseLoop_init cid cmd fuel p h0
  rw [hf, this]
  have hn : (UInt16.ofNat p.length).toNat = p.length := toNat_ofNat_lt (by omega)
  have hneed : (UInt8.ofNat (p.length / 256)).toNat * 256 + (UInt8.ofNat p.length).toNat = p.length := by
    simp [UInt8.toNat_ofNat']; omega
  have h64 : (le32 cid ++ [cmd] ++ be16 (UInt16.ofNat p.length) ++ p.take 57 ++
          List.replicate (57 - p.length) (0 : UInt8)).length = 64 := by
    simp; omega
  simp only [le32, be16, List.cons_append, List.nil_append, hn, List.append_assoc] at h64 ⊢
  unfold hostRead
  simp only [h64, true_and, hcmd, if_true, ofLe32_le32, hneed]
  by_cases hs : p.length ≤ 57
  · have e1 : p.take 57 = p := List.take_of_length_le hs
    have e2 : p.drop 57 = [] := List.drop_of_length_le hs
    rw [e1, e2, responseLoop_nil, readConts]
    simp
  · have e1 : 57 - p.length = 0 := by omega
    rw [e1, List.replicate_zero, List.append_nil]
    have := readConts_loop cid cmd fuel 0 (p.take 57) (p.drop 57) (by simp; omega) (by simp; omega)
    have e2 : (p.take 57).length + (p.drop 57).length = p.length := by simp; omega
    rw [e2] at this
    rw [this]
    simp

theorem responseLoop_length (cid : UInt32) (cmd : UInt8) (fuel : Nat) (seq : Int) (p : Bytes) :
    ∀ pkt ∈ responseLoop cid cmd fuel seq p, pkt.length = 64 := by
  induction fuel generalizing seq p with
  | zero => simp [responseLoop]
  | succ fuel ih =>
    rw [responseLoop]
    by_cases h : p.length > 0
    · simp only [h, if_true, List.mem_cons]
      rintro pkt (rfl | hpkt)
      · simp [maxPacketSize]
      · exact ih _ _ _ hpkt
    · simp [h]

theorem responseLoop_channel (cid : UInt32) (cmd : UInt8) (fuel : Nat) (seq : Int) (p : Bytes) :
    ∀ pkt ∈ responseLoop cid cmd fuel seq p, channelOf pkt = some cid := by
  induction fuel generalizing seq p with
  | zero => simp [responseLoop]
  | succ fuel ih =>
    by_cases hp : p = []
    · subst hp; simp [responseLoop]
    · rw [responseLoop]
      have h : p.length > 0 := List.length_pos_iff.mpr hp
      simp only [h, if_true, List.mem_cons]
      rintro pkt (rfl | hpkt)
      · rw [channelOf_eq_iff]
        by_cases hs : seq < 0 <;>
          simp only [hs, if_true, if_false, toLE32_eq, pad, maxPacketSize, List.append_assoc]
        · rw [List.take_append, List.take_of_length_le (i := 64) (l := le32 cid) (by simp)]
          rw [List.append_assoc]
          exact ⟨_, readLE32_le32 _ _⟩
        · rw [List.take_append, List.take_of_length_le (i := 64) (l := le32 cid) (by simp)]
          rw [List.append_assoc]
          exact ⟨_, readLE32_le32 _ _⟩
      · exact ih _ _ _ hpkt

end VF.Hid
