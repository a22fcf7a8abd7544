import Verif.Model.SavedState
import Verif.Spec.Laws

namespace VF.Fido.Saved

theorem aesKeyOk_32 {k : Bytes} (h : k.length = 32) : aesKeyOk k = true := by
  simp [aesKeyOk, h]

theorem encryptWithPassphrase_eq {E : Env} (L : Laws E) (pass data : Bytes) (rnd : Nat) :
    encryptWithPassphrase E pass data rnd = some (E.renderBlob
      { salt := E.rand rnd 16
        encryptionKey := E.gcmSeal (E.scrypt pass (E.rand rnd 16)) (E.rand (rnd + 2) 12)
          (E.rand (rnd + 1) 32)
        keyNonce := E.rand (rnd + 2) 12
        encryptedData := E.gcmSeal (E.rand (rnd + 1) 32) (E.rand (rnd + 3) 12) data
        dataNonce := E.rand (rnd + 3) 12 }, rnd + 4) := by
  simp [encryptWithPassphrase, encrypt, aesKeyOk_32 (L.scrypt_length _ _),
    aesKeyOk_32 (L.rand_length _ 32)]

theorem decrypt_encryptWithPassphrase {E : Env} (L : Laws E) (pass data : Bytes) (rnd : Nat) :
    ∃ b, encryptWithPassphrase E pass data rnd = some (b, rnd + 4) ∧
      decryptWithPassphrase E pass b = .ok (some data) := by
  refine ⟨_, encryptWithPassphrase_eq L pass data rnd, ?_⟩
  simp only [decryptWithPassphrase, L.json_blob, decrypt, aesKeyOk_32 (L.scrypt_length _ _),
    L.rand_length, if_true, L.gcm_open _ _ _ (aesKeyOk_32 (L.scrypt_length _ _)) (L.rand_length _ 12),
    Res.bind_ok, aesKeyOk_32 (L.rand_length _ 32),
    L.gcm_open _ _ _ (aesKeyOk_32 (L.rand_length _ 32)) (L.rand_length _ 12)]

theorem decryptState_encryptState {E : Env} (L : Laws E) (s : SavedState) (hu : s.Utf8)
    (pass : Bytes) (rnd : Nat) :
    ∃ b, encryptState E s pass rnd = some (b, rnd + 4) ∧
      decryptState E b pass = .ok (some s.norm) := by
  obtain ⟨b, h1, h2⟩ := decrypt_encryptWithPassphrase L pass (E.renderState s) rnd
  exact ⟨b, h1, by simp [decryptState, h2, L.json_state s hu]⟩

end VF.Fido.Saved
