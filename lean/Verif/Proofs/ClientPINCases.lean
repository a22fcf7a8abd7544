import Verif.Proofs.CtapCases

/-!
# What a ClientPIN request can do
-/

namespace VF.Fido.Ctap

open Client

/-- The hash of a PIN as it is stored. -/
def pinDigest (E : Env) (pin : Bytes) : Bytes := (E.sha256 pin).take 16

/-- Outcomes of ClientPIN. -/
inductive ClientPINOut (E : Env) (data : Bytes) (w : World) (r : Res Bytes) (w' : World) : Prop
  /-- no effect: a panic or an error code -/
  | nothing (hw : w' = w) (hr : ∀ b, r = .ok b → ∃ e, e ≠ 0 ∧ e ≠ 0x31 ∧ e ≠ 0x32 ∧ b = [e])
  /-- getRetries -/
  | retries (args : ClientPINArgs) (n : Int) (he : w.client.pinEnabled = true)
      (hd : E.decodeClientPIN data = some args) (hs : args.subCommand = 1)
      (hn : w.client.pinRetries = n ∧ 0 < n ∧ n ≤ 8)
      (hw : w' = w) (hr : r = .ok (0 :: Cbor.encode (retriesItem (UInt8.ofInt n))))
  /-- getKeyAgreement -/
  | agreement (args : ClientPINArgs) (he : w.client.pinEnabled = true)
      (hd : E.decodeClientPIN data = some args) (hs : args.subCommand = 2)
      (hw : w' = w)
      (hr : r = .ok (0 :: Cbor.encode (keyAgreementItem {
        kty := Cose.ktyEC2, alg := Cose.algECDH, crv := 0
        x := some (BigInt.toBytes w.client.keyAgreement.x)
        y := some (BigInt.toBytes w.client.keyAgreement.y), d := [] })))
  /-- setPIN, the new PIN in memory, saving panicked or not -/
  | set (args : ClientPINArgs) (key : EC2Key) (auth enc secret pin : Bytes)
      (he : w.client.pinEnabled = true)
      (hd : E.decodeClientPIN data = some args) (hs : args.subCommand = 3)
      (hn : w.client.pinHash = none) (hk : args.keyAgreement = some key)
      (ha : args.pinAuth = some auth) (hc : args.newPinEnc = some enc)
      (hss : sharedSecret E w.client key = .ok secret)
      (hauth : derivePINAuth E secret enc = auth)
      (hpin : decryptPIN E secret enc = .ok pin) (hl : 4 ≤ pin.length)
      (hw : (∃ c, r = .panic c ∧ w' = { w with
          client := { w.client with pinRetries := 8, pinHash := some (pinDigest E pin) } } ∧
          ∀ d m, ¬ Saves E w'.client w.rnd d m) ∨
        (∃ blob n, r = .ok [0] ∧
          Saves E { w.client with pinRetries := 8, pinHash := some (pinDigest E pin) } w.rnd blob n ∧
          w' = { w with
            client := { w.client with pinRetries := 8, pinHash := some (pinDigest E pin) }
            store := some blob
            rnd := n }))
  /-- changePIN or getPINToken with a wrong PIN -/
  | wrong (args : ClientPINArgs) (key : EC2Key) (secret : Bytes)
      (he : w.client.pinEnabled = true)
      (hd : E.decodeClientPIN data = some args) (hs : args.subCommand = 4 ∨ args.subCommand = 5)
      (hn : 0 < w.client.pinRetries ∧ w.client.pinRetries ≤ 8)
      (hk : args.keyAgreement = some key)
      (hss : sharedSecret E w.client key = .ok secret)
      (hh : ∀ h, decryptAESCBC E secret (args.pinHashEnc.getD []) = .ok h →
        h ≠ w.client.pinHash.getD [])
      (hr : (∃ c, r = .panic c) ∨ r = .ok [0x31])
      (hw : w' = { w with client := { w.client with pinRetries := w.client.pinRetries - 1 } })
  /-- changePIN with the right PIN -/
  | change (args : ClientPINArgs) (key : EC2Key) (auth secret : Bytes)
      (he : w.client.pinEnabled = true)
      (hd : E.decodeClientPIN data = some args) (hs : args.subCommand = 4)
      (hn : 0 < w.client.pinRetries ∧ w.client.pinRetries ≤ 8)
      (hk : args.keyAgreement = some key)
      (ha : args.pinAuth = some auth)
      (hss : sharedSecret E w.client key = .ok secret)
      (hauth : derivePINAuth E secret (args.newPinEnc.getD [] ++ args.pinHashEnc.getD []) = auth)
      (hh : decryptAESCBC E secret (args.pinHashEnc.getD []) = .ok (w.client.pinHash.getD []))
      (hw : (((∃ c, r = .panic c) ∨ r = .ok [0x37]) ∧
          w' = { w with client := { w.client with pinRetries := 8 } }) ∨
        ∃ pin, decryptPIN E secret (args.newPinEnc.getD []) = .ok pin ∧ 4 ≤ pin.length ∧
          ((∃ c, r = .panic c ∧ w' = { w with
              client := { w.client with pinRetries := 8, pinHash := some (pinDigest E pin) } } ∧
              ∀ d m, ¬ Saves E w'.client w.rnd d m) ∨
          (∃ blob n, r = .ok [0] ∧
            Saves E { w.client with pinRetries := 8, pinHash := some (pinDigest E pin) } w.rnd
              blob n ∧
            w' = { w with
              client := { w.client with pinRetries := 8, pinHash := some (pinDigest E pin) }
              store := some blob
              rnd := n })))
  /-- getPINToken with the right PIN -/
  | token (args : ClientPINArgs) (key : EC2Key) (enc secret : Bytes)
      (he : w.client.pinEnabled = true)
      (hd : E.decodeClientPIN data = some args) (hs : args.subCommand = 5)
      (hn : 0 < w.client.pinRetries ∧ w.client.pinRetries ≤ 8)
      (hk : args.keyAgreement = some key) (hx : key.x ≠ none) (hc : args.pinHashEnc = some enc)
      (hss : sharedSecret E w.client key = .ok secret)
      (hh : decryptAESCBC E secret enc = .ok (w.client.pinHash.getD []))
      (hw : w' = { w with client := { w.client with pinRetries := 8 } })
      (hr : (∃ c, r = .panic c) ∨ ∃ t, encryptAESCBC E secret w.client.pinToken = .ok t ∧
        r = .ok (0 :: Cbor.encode (pinTokenItem t)))

theorem getPINRetries_run (w : World) :
    (0 < w.client.pinRetries ∧ w.client.pinRetries ≤ 8 ∧
      getPINRetries w = (.ok w.client.pinRetries, w)) ∨
    (¬ (0 < w.client.pinRetries ∧ w.client.pinRetries ≤ 8) ∧
      getPINRetries w = (.panic .explicit, w)) := by
  unfold getPINRetries
  rw [Go.get_bind_run]
  split
  · rename_i h; exact .inl ⟨h.1, h.2, rfl⟩
  · rename_i h; exact .inr ⟨h, rfl⟩

theorem setPINHash_run (E : Env) (h : Bytes) (w : World) :
    (∃ c, setPINHash E (some h) w =
      (.panic c, { w with client := { w.client with pinHash := some h } }) ∧
      ∀ d m, ¬ Saves E { w.client with pinHash := some h } w.rnd d m) ∨
    (∃ blob n, Saves E { w.client with pinHash := some h } w.rnd blob n ∧
      setPINHash E (some h) w = (.ok (), { w with
        client := { w.client with pinHash := some h }
        store := some blob
        rnd := n })) := by
  simp only [setPINHash, update, Go.run_bind, Go.modify]
  rcases saveData_cases E { w with client := { w.client with pinHash := some h } } with
    ⟨c, h1, h2⟩ | ⟨blob, n, h1, h2⟩
  · exact .inl ⟨c, h1, h2⟩
  · exact .inr ⟨blob, n, h1, h2⟩

theorem err_ok {e : UInt8} (h0 : e ≠ 0) (h1 : e ≠ 0x31 ∧ e ≠ 0x32) :
    ∀ b, (Res.ok [e] : Res Bytes) = .ok b → ∃ e, e ≠ 0 ∧ e ≠ 0x31 ∧ e ≠ 0x32 ∧ b = [e] :=
  fun _ hb => ⟨e, h0, h1.1, h1.2, (Res.ok.inj hb).symm⟩

theorem setPIN_cases (E : Env) (data : Bytes) (args : ClientPINArgs) (w : World)
    (he : w.client.pinEnabled = true) (hd : E.decodeClientPIN data = some args)
    (hs : args.subCommand = 3) :
    ClientPINOut E data w (handleSetPIN E args w).1 (handleSetPIN E args w).2 := by
  unfold handleSetPIN
  rw [Go.get_bind_run]
  by_cases hp : w.client.pinHash.isSome = true
  · rw [if_pos hp]
    exact .nothing rfl (err_ok (by decide) (by decide))
  · rw [if_neg hp]
    have hp : w.client.pinHash = none := by simpa using hp
    cases hk : args.keyAgreement with
    | none => exact .nothing rfl (err_ok (by decide) (by decide))
    | some key =>
      cases ha : args.pinAuth with
      | none => exact .nothing rfl (err_ok (by decide) (by decide))
      | some auth =>
        cases hc : args.newPinEnc with
        | none => exact .nothing rfl (err_ok (by decide) (by decide))
        | some enc =>
          dsimp only
          cases hss : sharedSecret E w.client key with
          | panic c => exact .nothing rfl (noOk _ _)
          | ok secret =>
            rw [Go.lift_ok_bind]
            by_cases hauth : derivePINAuth E secret enc = auth
            · rw [if_neg (by simpa using hauth)]
              cases hpin : decryptPIN E secret enc with
              | panic c => exact .nothing rfl (noOk _ _)
              | ok pin =>
                rw [Go.lift_ok_bind]
                by_cases hl : pin.length < 4
                · rw [if_pos hl]
                  exact .nothing rfl (err_ok (by decide) (by decide))
                · rw [if_neg hl]
                  simp only [setPINRetries, update, Go.modify_bind_run]
                  rw [Go.run_bind]
                  refine .set args key auth enc secret pin he hd hs hp hk ha hc hss hauth hpin
                    (by omega) ?_
                  rcases setPINHash_run E (pinDigest E pin)
                    { w with client := { w.client with pinRetries := 8 } } with
                    ⟨c, h, hn⟩ | ⟨blob, n, hsv, h⟩
                  · exact .inl ⟨c, by unfold pinDigest at h; rw [h],
                      by unfold pinDigest at h; rw [h]; rfl, by
                        unfold pinDigest at h; rw [h]; exact hn⟩
                  · exact .inr ⟨blob, n, by unfold pinDigest at h; rw [h]; rfl, hsv,
                      by unfold pinDigest at h; rw [h]; rfl⟩
            · rw [if_pos hauth]
              exact .nothing rfl (err_ok (by decide) (by decide))

theorem changePIN_cases (E : Env) (data : Bytes) (args : ClientPINArgs) (w : World)
    (he : w.client.pinEnabled = true) (hd : E.decodeClientPIN data = some args)
    (hs : args.subCommand = 4) :
    ClientPINOut E data w (handleChangePIN E args w).1 (handleChangePIN E args w).2 := by
  unfold handleChangePIN
  cases hk : args.keyAgreement with
  | none => exact .nothing rfl (err_ok (by decide) (by decide))
  | some key =>
    cases ha : args.pinAuth with
    | none => exact .nothing rfl (err_ok (by decide) (by decide))
    | some auth =>
      dsimp only
      rcases getPINRetries_run w with ⟨hn1, hn2, hg⟩ | ⟨-, hg⟩
      · rw [Go.run_bind_ok hg, if_neg (by omega), Go.get_bind_run]
        cases hss : sharedSecret E w.client key with
        | panic c => exact .nothing rfl (noOk _ _)
        | ok secret =>
          rw [Go.lift_ok_bind]
          by_cases hauth : derivePINAuth E secret
              (args.newPinEnc.getD [] ++ args.pinHashEnc.getD []) = auth
          · rw [if_neg (by simpa using hauth), Go.run_bind_ok hg]
            simp only [setPINRetries, update, Go.modify_bind_run]
            cases hh : decryptAESCBC E secret (args.pinHashEnc.getD []) with
            | panic c =>
              exact .wrong args key secret he hd (.inl hs) ⟨hn1, hn2⟩ hk hss (by simp [hh])
                (.inl ⟨c, rfl⟩) rfl
            | ok hash =>
              rw [Go.lift_ok_bind, Go.get_bind_run]
              by_cases heq : w.client.pinHash.getD [] = hash
              · rw [if_neg (by simpa using heq), Go.modify_bind_run]
                refine .change args key auth secret he hd hs ⟨hn1, hn2⟩ hk ha hss hauth
                  (by rw [hh, heq]) ?_
                cases hpin : decryptPIN E secret (args.newPinEnc.getD []) with
                | panic c => exact .inl ⟨.inl ⟨c, rfl⟩, rfl⟩
                | ok pin =>
                  rw [Go.lift_ok_bind]
                  by_cases hl : pin.length < 4
                  · rw [if_pos hl]
                    exact .inl ⟨.inr rfl, rfl⟩
                  · rw [if_neg hl]
                    refine .inr ⟨pin, rfl, by omega, ?_⟩
                    simp only [Go.run_bind]
                    rcases setPINHash_run E (pinDigest E pin)
                      { w with client := { w.client with pinRetries := 8 } } with
                      ⟨c, h, hn⟩ | ⟨blob, n, hsv, h⟩
                    · exact .inl ⟨c, by unfold pinDigest at h; rw [h],
                        by unfold pinDigest at h; rw [h]; rfl, by
                          unfold pinDigest at h; rw [h]; exact hn⟩
                    · exact .inr ⟨blob, n, by unfold pinDigest at h; rw [h]; rfl, hsv,
                        by unfold pinDigest at h; rw [h]; rfl⟩
              · rw [if_pos heq]
                refine .wrong args key secret he hd (.inl hs) ⟨hn1, hn2⟩ hk hss ?_
                  (.inr rfl) rfl
                intro h e
                rw [hh] at e
                obtain rfl := Res.ok.inj e
                exact fun e => heq e.symm
          · rw [if_pos hauth]
            exact .nothing rfl (err_ok (by decide) (by decide))
      · rw [Go.run_bind_panic hg]
        exact .nothing rfl (noOk _ _)

theorem getPINToken_cases (E : Env) (data : Bytes) (args : ClientPINArgs) (w : World)
    (he : w.client.pinEnabled = true) (hd : E.decodeClientPIN data = some args)
    (hs : args.subCommand = 5) :
    ClientPINOut E data w (handleGetPINToken E args w).1 (handleGetPINToken E args w).2 := by
  unfold handleGetPINToken
  cases hc : args.pinHashEnc with
  | none => exact .nothing rfl (err_ok (by decide) (by decide))
  | some enc =>
    cases hk : args.keyAgreement with
    | none => exact .nothing rfl (noOk _ _)
    | some key =>
      dsimp only
      by_cases hx : key.x = none
      · rw [if_pos hx]
        exact .nothing rfl (err_ok (by decide) (by decide))
      · rw [if_neg hx]
        rcases getPINRetries_run w with ⟨hn1, hn2, hg⟩ | ⟨-, hg⟩
        · rw [Go.run_bind_ok hg, if_neg (by omega), Go.get_bind_run]
          cases hss : sharedSecret E w.client key with
          | panic c => exact .nothing rfl (noOk _ _)
          | ok secret =>
            rw [Go.lift_ok_bind, Go.run_bind_ok hg]
            simp only [setPINRetries, update, Go.modify_bind_run]
            cases hh : decryptAESCBC E secret enc with
            | panic c =>
              exact .wrong args key secret he hd (.inr hs) ⟨hn1, hn2⟩ hk hss
                (by simp [hc, hh]) (.inl ⟨c, rfl⟩) rfl
            | ok hash =>
              rw [Go.lift_ok_bind, Go.get_bind_run]
              by_cases heq : hash = w.client.pinHash.getD []
              · rw [if_neg (by simpa using heq), Go.modify_bind_run]
                refine .token args key enc secret he hd hs ⟨hn1, hn2⟩ hk hx hc hss
                  (by rw [hh, heq]) ?_ ?_
                · cases ht : encryptAESCBC E secret w.client.pinToken <;> rfl
                · cases ht : encryptAESCBC E secret w.client.pinToken with
                  | panic c => exact .inl ⟨c, rfl⟩
                  | ok t => exact .inr ⟨t, rfl, rfl⟩
              · rw [if_pos heq]
                refine .wrong args key secret he hd (.inr hs) ⟨hn1, hn2⟩ hk hss ?_
                  (.inr rfl) rfl
                intro h e
                rw [hc] at e
                rw [show (some enc).getD [] = enc from rfl, hh] at e
                obtain rfl := Res.ok.inj e
                exact heq
        · rw [Go.run_bind_panic hg]
          exact .nothing rfl (noOk _ _)

theorem handleClientPIN_cases (E : Env) (data : Bytes) (w : World) :
    ClientPINOut E data w (handleClientPIN E data w).1 (handleClientPIN E data w).2 := by
  unfold handleClientPIN
  rw [Go.get_bind_run]
  by_cases he : w.client.pinEnabled = false
  · rw [if_pos he]
    exact .nothing rfl (err_ok (by decide) (by decide))
  · rw [if_neg he]
    have he : w.client.pinEnabled = true := by simpa using he
    cases hd : E.decodeClientPIN data with
    | none => exact .nothing rfl (err_ok (by decide) (by decide))
    | some args =>
      dsimp only
      split
      · exact .nothing rfl (err_ok (by decide) (by decide))
      split
      · rename_i hs
        unfold handleGetRetries
        rcases getPINRetries_run w with ⟨hn1, hn2, hg⟩ | ⟨-, hg⟩
        · rw [Go.run_bind_ok hg]
          exact .retries args _ he hd hs ⟨rfl, hn1, hn2⟩ rfl rfl
        · rw [Go.run_bind_panic hg]
          exact .nothing rfl (noOk _ _)
      split
      · rename_i hs
        exact .agreement args he hd hs rfl rfl
      split
      · rename_i hs; exact setPIN_cases E data args w he hd hs
      split
      · rename_i hs; exact changePIN_cases E data args w he hd hs
      split
      · rename_i hs; exact getPINToken_cases E data args w he hd hs
      · exact .nothing rfl (err_ok (by decide) (by decide))

end VF.Fido.Ctap
