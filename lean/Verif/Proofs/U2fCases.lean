import Verif.Model.U2f
import Verif.Spec.Laws

/-!
# What each U2F command can do
-/

namespace VF.Fido.U2f

open Client

/-- A status word alone. -/
def isError (b : Bytes) : Prop :=
  b = [0x6A, 0x80] ∨ b = [0x69, 0x85] ∨ b = [0x67, 0x00]

/-- Outcomes of a registration request. -/
inductive RegisterOut (E : Env) (request : Bytes) (w : World) (r : Res Bytes) (w' : World) : Prop
  /-- a panic before the user is asked: only random draws were used -/
  | nothing (c : Cause) (n : Nat) (hr : r = .panic c) (hn : w.rnd ≤ n) (hw : w' = { w with rnd := n })
  /-- the user refused -/
  | refused (hl : request.length = 64)
      (hk : aesKeyOk w.client.deviceKey = true)
      (ha : E.approve w.asks .u2fRegister [] [] = false) (hr : r = .ok [0x69, 0x85])
      (hw : w' = { w with
        rnd := w.rnd + 2, asks := w.asks ++ [⟨.u2fRegister, [], [], false⟩] })
  /-- the user agreed: a panic or the answer -/
  | agreed (n : Nat) (hl : request.length = 64)
      (hk : aesKeyOk w.client.deviceKey = true)
      (ha : E.approve w.asks .u2fRegister [] [] = true) (hn : w.rnd + 2 ≤ n)
      (hw : w' = { w with
        rnd := n, asks := w.asks ++ [⟨.u2fRegister, [], [], true⟩] })
      (hr : (∃ c, r = .panic c) ∨ ∃ cert sig handle,
        handle = Cbor.encode (boxItem
          { data := E.gcmSeal w.client.deviceKey (E.rand (w.rnd + 1) 12)
              (Cbor.encode (keyHandleItem
                { privateKey := some (ecToDER (E.genEC w.rnd)), applicationID := request.drop 32 }))
            iv := E.rand (w.rnd + 1) 12 }) ∧
        Cose.createAttestationCert E w.client.cert w.client.certKey
          { ecdsa := some (E.genEC w.rnd) } (w.rnd + 2) = .ok (some cert) ∧
        signECDSA E (E.genEC w.rnd)
          ([0] ++ request.drop 32 ++ request.take 32 ++ handle ++
            ellipticMarshal (E.genEC w.rnd).pub.x (E.genEC w.rnd).pub.y) (w.rnd + 3) = .ok sig ∧
        n = w.rnd + 4 ∧
        r = .ok ([5] ++ ellipticMarshal (E.genEC w.rnd).pub.x (E.genEC w.rnd).pub.y ++
          [UInt8.ofNat handle.length] ++ handle ++ cert ++ sig ++ [0x90, 0x00]))

theorem handleRegister_cases (E : Env) (request : Bytes) (w : World) :
    RegisterOut E request w (handleRegister E request w).1 (handleRegister E request w).2 := by
  unfold handleRegister
  by_cases h1 : request.length < 32
  · rw [if_pos h1]
    exact .nothing .bounds w.rnd rfl (Nat.le_refl _) rfl
  · rw [if_neg h1]
    dsimp only
    by_cases h2 : (request.drop 32).length = 32
    · rw [if_neg (by simpa using h2)]
      have hl : request.length = 64 := by simp at h2; omega
      simp only [newPrivateKey, draw, Go.run_bind, Go.run_pure, sealKeyHandle, Go.run_get]
      cases hk : aesKeyOk w.client.deviceKey with
      | false =>
        simp only [sealBox, encrypt, hk, Bool.false_eq_true, if_false, Go.run_lift]
        exact .nothing _ (w.rnd + 2) rfl (by omega) rfl
      | true =>
        simp only [sealBox, encrypt, hk, if_true, Go.run_lift, Go.run_pure, approve]
        cases ha : E.approve w.asks .u2fRegister [] [] with
        | false => exact .refused hl hk ha rfl rfl
        | true =>
          simp only [Bool.true_eq_false, if_false, createCertificate, Go.run_bind, draw, Go.run_get,
            Go.run_lift]
          cases hc : Cose.createAttestationCert E w.client.cert w.client.certKey
              { ecdsa := some (E.genEC w.rnd) } (w.rnd + 1 + 1) with
          | panic c => exact .agreed (w.rnd + 3) hl hk ha (by omega) rfl (.inl ⟨c, rfl⟩)
          | ok cert =>
            cases cert with
            | none => exact .agreed (w.rnd + 3) hl hk ha (by omega) rfl (.inl ⟨.checkErr, rfl⟩)
            | some cert =>
              simp only [Go.run_pure, signWith, Go.run_bind, draw, Go.run_lift, Cose.sign,
                Util.concat, List.foldl, List.nil_append]
              cases hs : signECDSA E (E.genEC w.rnd) ([0] ++ request.drop 32 ++ request.take 32 ++
                  Cbor.encode (boxItem
                    { data := E.gcmSeal w.client.deviceKey (E.rand (w.rnd + 1) 12)
                        (Cbor.encode (keyHandleItem
                          { privateKey := some (ecToDER (E.genEC w.rnd)),
                            applicationID := request.drop 32 }))
                      iv := E.rand (w.rnd + 1) 12 }) ++
                  ellipticMarshal (E.genEC w.rnd).pub.x (E.genEC w.rnd).pub.y)
                  (w.rnd + 1 + 1 + 1) with
              | panic c =>
                exact .agreed (w.rnd + 4) hl hk ha (by omega) rfl (.inl ⟨c, rfl⟩)
              | ok sig =>
                exact .agreed (w.rnd + 4) hl hk ha (by omega) rfl
                  (.inr ⟨cert, sig, _, rfl, hc, hs, rfl, rfl⟩)
    · rw [if_pos h2]
      exact .nothing .explicit w.rnd rfl (Nat.le_refl _) rfl

/-- The key the device finds in a handle for an application. -/
def HandleKey (E : Env) (c : Client) (handle application : Bytes) (key : ECPriv) : Prop :=
  ∃ box plain k der, E.decodeBox handle = some box ∧ openBox E c.deviceKey box = .ok plain ∧
    E.decodeKeyHandle plain = some k ∧ k.privateKey = some der ∧ k.applicationID = application ∧
    E.parseECDER der = some key

/-- Outcomes of an authentication request. -/
inductive AuthOut (E : Env) (control : UInt8) (request : Bytes) (w : World) (r : Res Bytes)
    (w' : World) : Prop
  /-- a panic or an error status, without effect -/
  | nothing (hw : w' = w) (hr : ∀ b, r = .ok b → isError b)
  /-- the user refused -/
  | refused (challenge application handle : Bytes) (key : ECPriv)
      (hd : decodeAuthenticate request = .ok (challenge, application, handle))
      (hk : HandleKey E w.client handle application key) (hc : control = 3)
      (ha : E.approve w.asks .u2fAuthenticate [] [] = false) (hr : r = .ok [0x69, 0x85])
      (hw : w' = { w with asks := w.asks ++ [⟨.u2fAuthenticate, [], [], false⟩] })
  /-- signed (or a panic while signing) -/
  | signed (challenge application handle : Bytes) (key : ECPriv) (asks : List Ask)
      (hd : decodeAuthenticate request = .ok (challenge, application, handle))
      (hk : HandleKey E w.client handle application key)
      (hc : (control = 3 ∧ E.approve w.asks .u2fAuthenticate [] [] = true ∧
          asks = w.asks ++ [⟨.u2fAuthenticate, [], [], true⟩]) ∨
        (control = 8 ∧ asks = w.asks))
      (hw : w' = { w with
        client := { w.client with authCounter := w.client.authCounter + 1 }
        rnd := w.rnd + 1
        asks := asks })
      (hr : (∃ c, r = .panic c) ∨ ∃ sig,
        signECDSA E key (application ++ [1] ++ Util.toBE32 w.client.authCounter ++ challenge)
          w.rnd = .ok sig ∧
        r = .ok ([1] ++ Util.toBE32 w.client.authCounter ++ sig ++ [0x90, 0x00]))

theorem finishAuthenticate_run (E : Env) (key : ECPriv) (application challenge : Bytes)
    (w : World) :
    (finishAuthenticate E key application challenge w).2 = { w with
        client := { w.client with authCounter := w.client.authCounter + 1 }
        rnd := w.rnd + 1 } ∧
    ((∃ c, (finishAuthenticate E key application challenge w).1 = .panic c) ∨ ∃ sig,
      signECDSA E key (application ++ [1] ++ Util.toBE32 w.client.authCounter ++ challenge)
        w.rnd = .ok sig ∧
      (finishAuthenticate E key application challenge w).1 =
        .ok ([1] ++ Util.toBE32 w.client.authCounter ++ sig ++ [0x90, 0x00])) := by
  simp only [finishAuthenticate, newAuthCounter, Go.run_bind, Go.run_get, update, Go.modify,
    signWith, draw, Go.run_lift, Go.run_pure, Cose.sign, Util.concat, List.foldl, List.nil_append]
  cases hs : signECDSA E key
    (application ++ [1] ++ Util.toBE32 w.client.authCounter ++ challenge) w.rnd with
  | panic c => exact ⟨rfl, .inl ⟨c, rfl⟩⟩
  | ok sig => exact ⟨rfl, .inr ⟨sig, rfl, rfl⟩⟩

theorem handleAuthenticate_cases (E : Env) (control : UInt8) (request : Bytes) (w : World) :
    AuthOut E control request w (handleAuthenticate E control request w).1
      (handleAuthenticate E control request w).2 := by
  unfold handleAuthenticate
  cases hd : decodeAuthenticate request with
  | panic c => exact .nothing rfl (by intro b hb; cases hb)
  | ok p =>
    obtain ⟨challenge, application, handle⟩ := p
    rw [Go.lift_ok_bind]
    dsimp only
    rw [Go.get_bind_run]
    unfold openKeyHandle
    cases hb : E.decodeBox handle with
    | none => exact .nothing rfl (by intro b hb; exact .inl (Res.ok.inj hb).symm)
    | some box =>
      dsimp only
      cases ho : openBox E w.client.deviceKey box with
      | panic c => exact .nothing rfl (by intro b hb; cases hb)
      | ok plain =>
        rw [Res.bind_ok, Go.lift_ok_bind]
        cases hkh : E.decodeKeyHandle plain with
        | none => exact .nothing rfl (by intro b hb; exact .inl (Res.ok.inj hb).symm)
        | some k =>
          dsimp only
          cases hpk : k.privateKey with
          | none => exact .nothing rfl (by intro b hb; exact .inl (Res.ok.inj hb).symm)
          | some der =>
            dsimp only
            by_cases happ : k.applicationID = application
            · rw [if_neg (by simpa using happ)]
              cases hp : E.parseECDER der with
              | none => exact .nothing rfl (by intro b hb; cases hb)
              | some key =>
                have hk : HandleKey E w.client handle application key :=
                  ⟨box, plain, k, der, hb, ho, hkh, hpk, happ, hp⟩
                dsimp only
                by_cases c7 : control = 7
                · rw [if_pos c7]
                  exact .nothing rfl (by intro b hb; exact .inr (.inl (Res.ok.inj hb).symm))
                · rw [if_neg c7]
                  by_cases c3 : control = 3
                  · rw [if_pos c3, Go.run_bind]
                    simp only [approve]
                    cases ha : E.approve w.asks .u2fAuthenticate [] [] with
                    | false => exact .refused challenge application handle key hd hk c3 ha rfl rfl
                    | true =>
                      rw [if_neg (by simp)]
                      obtain ⟨h1, h2⟩ := finishAuthenticate_run E key application challenge
                        { w with asks := w.asks ++ [⟨.u2fAuthenticate, [], [], true⟩] }
                      exact .signed challenge application handle key _ hd hk
                        (.inl ⟨c3, ha, rfl⟩) h1 h2
                  · rw [if_neg c3]
                    by_cases c8 : control = 8
                    · rw [if_pos c8]
                      obtain ⟨h1, h2⟩ := finishAuthenticate_run E key application challenge w
                      exact .signed challenge application handle key w.asks hd hk
                        (.inr ⟨c8, rfl⟩) h1 h2
                    · rw [if_neg c8]
                      exact .nothing rfl (by intro b hb; exact .inr (.inr (Res.ok.inj hb).symm))
            · rw [if_pos happ]
              exact .nothing rfl (by intro b hb; exact .inl (Res.ok.inj hb).symm)

end VF.Fido.U2f
