import Verif.Spec.Pin
import Verif.Proofs.Health

/-!
# The PIN protocol code in terms of the specification
-/

namespace VF.Fido.Ctap

open VF.Spec.Pin VF.Spec.Client

theorem sharedSecret_ok {E : Env} {c : Client} {key : EC2Key} {secret : Bytes}
    (h : sharedSecret E c key = .ok secret) : Secret E c key secret := by
  unfold sharedSecret ecdhSecret at h
  cases he : E.ecdh c.keyAgreement.priv (BigInt.ofBytes (key.x.getD []))
      (BigInt.ofBytes (key.y.getD [])) with
  | none => rw [he] at h; simp at h
  | some s =>
    rw [he] at h
    simp only [Res.bind_ok, Res.ok.injEq] at h
    refine ⟨BigInt.toBytes s, BigInt.toBytes_head s, h.symm, ?_⟩
    rw [show Spec.Cbor.beNat (BigInt.toBytes s) = s from BigInt.ofBytes_toBytes s]
    exact he

theorem decryptAESCBC_ok {E : Env} {key data b : Bytes} (h : decryptAESCBC E key data = .ok b) :
    b = E.cbcDecrypt key data ∧ data.length % 16 = 0 := by
  unfold decryptAESCBC at h
  split at h
  · split at h
    · rename_i hl; exact ⟨(Res.ok.inj h).symm, hl⟩
    · cases h
  · cases h

theorem takeWhile_split (l : Bytes) (h : l.contains 0 = true) :
    Padded (l.takeWhile (· != 0)) l := by
  induction l with
  | nil => simp at h
  | cons x l ih =>
    by_cases hx : x = 0
    · subst hx
      simp [Padded]
    · have hc : l.contains 0 = true := by
        simp only [List.contains_cons, Bool.or_eq_true, beq_iff_eq] at h
        rcases h with h | h
        · exact absurd h.symm hx
        · exact h
      obtain ⟨h1, rest, h2⟩ := ih hc
      rw [List.takeWhile_cons_of_pos (by simpa using hx)]
      refine ⟨?_, rest, ?_⟩
      · simp only [List.mem_cons, not_or]; exact ⟨fun e => hx e.symm, h1⟩
      · rw [List.cons_append, ← h2]

theorem takeWhile_padded {pin padded : Bytes} (h : Padded pin padded) :
    padded.contains 0 = true ∧ padded.takeWhile (· != 0) = pin := by
  obtain ⟨h1, rest, rfl⟩ := h
  refine ⟨by simp, ?_⟩
  rw [List.takeWhile_append_of_pos]
  · simp
  · intro a ha
    simp only [bne_iff_ne, ne_eq]
    rintro rfl
    exact h1 ha

theorem decryptPIN_ok {E : Env} {secret enc pin : Bytes} (h : decryptPIN E secret enc = .ok pin)
    (hl : 4 ≤ pin.length) : Padded pin (E.cbcDecrypt secret enc) := by
  unfold decryptPIN at h
  cases hd : decryptAESCBC E secret enc with
  | panic c => rw [hd] at h; simp at h
  | ok padded =>
    rw [hd] at h
    obtain ⟨rfl, -⟩ := decryptAESCBC_ok hd
    simp only [Res.bind_ok] at h
    by_cases hc : (E.cbcDecrypt secret enc).contains 0 = true
    · rw [if_pos hc] at h
      obtain rfl := Res.ok.inj h
      exact takeWhile_split _ hc
    · rw [if_neg hc] at h
      obtain rfl := Res.ok.inj h
      simp at hl

theorem encryptAESCBC_ok {E : Env} {key data b : Bytes} (h : encryptAESCBC E key data = .ok b) :
    b = E.cbcEncrypt key data ∧ data.length % 16 = 0 := by
  unfold encryptAESCBC at h
  split at h
  · split at h
    · rename_i hl; exact ⟨(Res.ok.inj h).symm, hl⟩
    · cases h
  · cases h

theorem pinDigest_eq (E : Env) (pin : Bytes) : pinDigest E pin = hash E pin := rfl

end VF.Fido.Ctap
