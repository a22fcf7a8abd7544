import Verif.Proofs.PinSpec
import Verif.Proofs.Restore

/-!
# PIN commands that succeed
-/

namespace VF.BigInt

theorem ofBytes_inj_length : ∀ (n : Nat) (a b : Bytes), a.length = n → b.length = n →
    ofBytes a = ofBytes b → a = b := by
  intro n
  induction n with
  | zero => intro a b ha hb _; rw [List.length_eq_zero_iff.1 ha, List.length_eq_zero_iff.1 hb]
  | succ n ih =>
    intro a b ha hb h
    rcases List.eq_nil_or_concat a with rfl | ⟨a, x, rfl⟩
    · simp at ha
    rcases List.eq_nil_or_concat b with rfl | ⟨b, y, rfl⟩
    · simp at hb
    simp only [List.concat_eq_append] at *
    rw [ofBytes_concat, ofBytes_concat] at h
    have hx := x.toNat_lt
    have hy := y.toNat_lt
    have h1 : ofBytes a = ofBytes b := by omega
    have h2 : x = y := UInt8.toNat_inj.1 (by omega)
    rw [ih a b (by simpa using ha) (by simpa using hb) h1, h2]

theorem eq_toBytes {b : Bytes} {n : Nat} (hl : b.length = 32) (hn : ofBytes b = n)
    (hbig : 2 ^ 248 ≤ n) (hlt : n < 2 ^ 256) : b = toBytes n := by
  have h1 := toBytes_length_le 32 n (by have : (256 : Nat) ^ 32 = 2 ^ 256 := by decide +kernel
                                        omega)
  have h2 := toBytes_length_ge 31 n (by have : (256 : Nat) ^ 31 = 2 ^ 248 := by decide +kernel
                                        omega)
  exact ofBytes_inj_length 32 _ _ hl (by omega) (by rw [hn, ofBytes_toBytes])

end VF.BigInt

namespace VF.Fido.Ctap

open Client VF.Spec.Client VF.Spec.Pin

theorem setPINHash_ok {E : Env} (L : Laws E) {w : World} {h : Bytes} (hne : h ≠ [])
    (hh : Healthy E w.client) :
    ∃ blob, Saves E { w.client with pinHash := some h } w.rnd blob (w.rnd + 4) ∧
      setPINHash E (some h) w = (.ok (), { w with
        client := { w.client with pinHash := some h }, store := some blob, rnd := w.rnd + 4 }) := by
  have hh' : Healthy E { w.client with pinHash := some h } :=
    ⟨hh.1, hh.2.1, hh.2.2.1, by simpa using hne, hh.2.2.2.2⟩
  obtain ⟨blob, hs⟩ := healthy_saves L hh' w.rnd
  refine ⟨blob, hs, ?_⟩
  unfold setPINHash update
  simp only [Go.modify_bind_run]
  obtain ⟨st, h1, h2⟩ := hs
  unfold saveData
  simp only [h1, h2]

theorem decryptPIN_padded {E : Env} {secret enc pin : Bytes} (hs : secret.length = 32)
    (he : enc.length % 16 = 0) (hp : Padded pin (E.cbcDecrypt secret enc)) :
    decryptPIN E secret enc = .ok pin := by
  unfold decryptPIN decryptAESCBC
  rw [Saved.aesKeyOk_32 hs]
  simp only [if_true, he, Res.bind_ok]
  obtain ⟨h1, h2⟩ := takeWhile_padded hp
  rw [if_pos h1, h2]

theorem getPINRetries_ok {w : World} (h : 0 < w.client.pinRetries ∧ w.client.pinRetries ≤ 8) :
    getPINRetries w = (.ok w.client.pinRetries, w) := by
  unfold getPINRetries
  rw [Go.get_bind_run, if_pos h]; rfl

theorem setPIN_succeeds {E : Env} (L : Laws E) {data : Bytes} {w : World} {args : ClientPINArgs}
    {key : EC2Key} {enc secret pin : Bytes}
    (hh : Healthy E w.client) (hon : w.client.pinEnabled = true) (hno : w.client.pinHash = none)
    (hd : E.decodeClientPIN data = some args) (hp : args.pinProtocol = 1)
    (hs : args.subCommand = 3) (hk : args.keyAgreement = some key)
    (ha : args.pinAuth = some (auth E secret enc)) (he : args.newPinEnc = some enc)
    (hss : sharedSecret E w.client key = .ok secret) (hsl : secret.length = 32)
    (hel : enc.length % 16 = 0) (hpad : Padded pin (E.cbcDecrypt secret enc))
    (hpl : 4 ≤ pin.length) :
    ∃ blob, Saves E { w.client with pinRetries := 8, pinHash := some (hash E pin) } w.rnd blob
        (w.rnd + 4) ∧
      handleMessage E (0x06 :: data) w = (.ok [0], { w with
        client := { w.client with pinRetries := 8, pinHash := some (hash E pin) }
        store := some blob, rnd := w.rnd + 4 }) := by
  obtain ⟨blob, h1, h2⟩ := setPINHash_ok L
    (w := { w with client := { w.client with pinRetries := 8 } }) (pinDigest_ne L pin) hh
  refine ⟨blob, h1, ?_⟩
  rw [handleMessage_pin]
  unfold handleClientPIN
  rw [Go.get_bind_run, if_neg (by simp [hon]), hd]
  dsimp only
  rw [if_neg (by simp [hp]), if_neg (by simp [hs]), if_neg (by simp [hs]), if_pos hs]
  unfold handleSetPIN
  rw [Go.get_bind_run, if_neg (by simp [hno]), hk, ha, he]
  dsimp only
  rw [hss, Go.lift_ok_bind, if_neg (fun h => h rfl), decryptPIN_padded hsl hel hpad, Go.lift_ok_bind,
    if_neg (by omega)]
  simp only [setPINRetries, update, Go.modify_bind_run]
  exact Go.run_bind_ok h2

theorem changePIN_succeeds {E : Env} (L : Laws E) {data : Bytes} {w : World} {args : ClientPINArgs}
    {key : EC2Key} {enc henc secret pin : Bytes}
    (hh : Healthy E w.client) (hon : w.client.pinEnabled = true)
    (hn : 0 < w.client.pinRetries ∧ w.client.pinRetries ≤ 8)
    (hd : E.decodeClientPIN data = some args) (hp : args.pinProtocol = 1)
    (hs : args.subCommand = 4) (hk : args.keyAgreement = some key)
    (ha : args.pinAuth = some (auth E secret (enc ++ henc))) (he : args.newPinEnc = some enc)
    (hhe : args.pinHashEnc = some henc)
    (hss : sharedSecret E w.client key = .ok secret) (hsl : secret.length = 32)
    (hhl : henc.length % 16 = 0) (hcur : w.client.pinHash = some (E.cbcDecrypt secret henc))
    (hel : enc.length % 16 = 0) (hpad : Padded pin (E.cbcDecrypt secret enc))
    (hpl : 4 ≤ pin.length) :
    ∃ blob, Saves E { w.client with pinRetries := 8, pinHash := some (hash E pin) } w.rnd blob
        (w.rnd + 4) ∧
      handleMessage E (0x06 :: data) w = (.ok [0], { w with
        client := { w.client with pinRetries := 8, pinHash := some (hash E pin) }
        store := some blob, rnd := w.rnd + 4 }) := by
  obtain ⟨blob, h1, h2⟩ := setPINHash_ok L
    (w := { w with client := { w.client with pinRetries := 8 } }) (pinDigest_ne L pin) hh
  refine ⟨blob, h1, ?_⟩
  rw [handleMessage_pin]
  unfold handleClientPIN
  rw [Go.get_bind_run, if_neg (by simp [hon]), hd]
  dsimp only
  rw [if_neg (by simp [hp]), if_neg (by simp [hs]), if_neg (by simp [hs]), if_neg (by simp [hs]),
    if_pos hs]
  unfold handleChangePIN
  rw [hk, ha, he, hhe]
  dsimp only
  have hg := getPINRetries_ok hn
  rw [Go.run_bind_ok hg, if_neg (by omega), Go.get_bind_run, hss, Go.lift_ok_bind,
    if_neg (by exact fun h => h rfl), Go.run_bind_ok hg]
  simp only [setPINRetries, update, Go.modify_bind_run, decryptAESCBC, Saved.aesKeyOk_32 hsl, if_true,
    Option.getD_some, hhl, Go.lift_ok_bind, Go.get_bind_run, hcur, ne_eq, not_true, if_false]
  rw [decryptPIN_padded hsl hel hpad, Go.lift_ok_bind, if_neg (by omega)]
  exact Go.run_bind_ok h2

theorem getToken_succeeds {E : Env} {data : Bytes} {w : World} {args : ClientPINArgs}
    {key : EC2Key} {enc secret : Bytes} (hon : w.client.pinEnabled = true)
    (hn : 0 < w.client.pinRetries ∧ w.client.pinRetries ≤ 8)
    (hd : E.decodeClientPIN data = some args) (hp : args.pinProtocol = 1)
    (hs : args.subCommand = 5) (hk : args.keyAgreement = some key) (hx : key.x ≠ none)
    (he : args.pinHashEnc = some enc)
    (hss : sharedSecret E w.client key = .ok secret) (hsl : secret.length = 32)
    (hel : enc.length % 16 = 0) (hcur : w.client.pinHash.getD [] = E.cbcDecrypt secret enc)
    (htok : w.client.pinToken.length % 16 = 0) :
    handleMessage E (0x06 :: data) w =
      (.ok (0 :: Cbor.encode (pinTokenItem (E.cbcEncrypt secret w.client.pinToken))),
        { w with client := { w.client with pinRetries := 8 } }) := by
  rw [handleMessage_pin]
  unfold handleClientPIN
  rw [Go.get_bind_run, if_neg (by simp [hon]), hd]
  dsimp only
  rw [if_neg (by simp [hp]), if_neg (by simp [hs]), if_neg (by simp [hs]), if_neg (by simp [hs]),
    if_neg (by simp [hs]), if_pos hs]
  unfold handleGetPINToken
  rw [he, hk]
  dsimp only
  have hg := getPINRetries_ok hn
  rw [if_neg hx, Go.run_bind_ok hg, if_neg (by omega), Go.get_bind_run, hss, Go.lift_ok_bind,
    Go.run_bind_ok hg]
  simp only [setPINRetries, update, Go.modify_bind_run, decryptAESCBC, Saved.aesKeyOk_32 hsl, if_true,
    hel, Go.lift_ok_bind, Go.get_bind_run, hcur, ne_eq, not_true, if_false, encryptAESCBC, htok]
  rfl

/-- The same with a wrong PIN: one retry less. -/
theorem getToken_wrong {E : Env} {data : Bytes} {w : World} {args : ClientPINArgs}
    {key : EC2Key} {enc secret : Bytes} (hon : w.client.pinEnabled = true)
    (hn : 0 < w.client.pinRetries ∧ w.client.pinRetries ≤ 8)
    (hd : E.decodeClientPIN data = some args) (hp : args.pinProtocol = 1)
    (hs : args.subCommand = 5) (hk : args.keyAgreement = some key) (hx : key.x ≠ none)
    (he : args.pinHashEnc = some enc)
    (hss : sharedSecret E w.client key = .ok secret) (hsl : secret.length = 32)
    (hel : enc.length % 16 = 0) (hcur : E.cbcDecrypt secret enc ≠ w.client.pinHash.getD []) :
    handleMessage E (0x06 :: data) w = (.ok [0x31],
      { w with client := { w.client with pinRetries := w.client.pinRetries - 1 } }) := by
  rw [handleMessage_pin]
  unfold handleClientPIN
  rw [Go.get_bind_run, if_neg (by simp [hon]), hd]
  dsimp only
  rw [if_neg (by simp [hp]), if_neg (by simp [hs]), if_neg (by simp [hs]), if_neg (by simp [hs]),
    if_neg (by simp [hs]), if_pos hs]
  unfold handleGetPINToken
  rw [he, hk]
  dsimp only
  have hg := getPINRetries_ok hn
  rw [if_neg hx, Go.run_bind_ok hg, if_neg (by omega), Go.get_bind_run, hss, Go.lift_ok_bind,
    Go.run_bind_ok hg]
  simp only [setPINRetries, update, Go.modify_bind_run, decryptAESCBC, Saved.aesKeyOk_32 hsl, if_true,
    hel, Go.lift_ok_bind, Go.get_bind_run]
  rw [if_pos hcur]
  rfl

end VF.Fido.Ctap
