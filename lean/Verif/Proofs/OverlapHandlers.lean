import Verif.Proofs.OverlapAlone

/-!
# Handlers that are not interrupted
-/

namespace VF.Fido.Overlap

open Prog

variable {m : Mem}

theorem lift_sim {α : Type} (r : Res α) (hm : Sound m) :
    Sim (Prog.lift r) (Go.lift r) m (fun a b m' => a = b ∧ m' = m) := by
  cases r with
  | ok a => exact .inl ⟨a, a, m, rfl, rfl, hm, rfl, rfl⟩
  | panic c => exact .inr ⟨c, m, rfl, rfl⟩

theorem makeCredentialPIN_run (E : Env) (args : MakeCredArgs) :
    (makeCredentialPIN E args).run m = (.ok (Ctap.makeCredentialPIN E (view m).client args), m) := by
  unfold makeCredentialPIN Ctap.makeCredentialPIN
  show (if m.world.client.pinEnabled = false then _ else _ : Prog (Except UInt8 UInt8)).run m = _
  rw [show (view m).client.pinEnabled = m.world.client.pinEnabled from rfl]
  split
  · rfl
  · cases args.pinAuth with
    | some auth =>
      dsimp only
      split
      · show (if Ctap.derivePINAuth E m.world.client.pinToken args.clientDataHash = auth then _
          else _ : Prog (Except UInt8 UInt8)).run m = _
        rw [show (view m).client.pinToken = m.world.client.pinToken from rfl]
        split <;> rfl
      · rfl
    | none =>
      dsimp only
      show (if m.world.client.pinHash.isSome then _ else _ : Prog (Except UInt8 UInt8)).run m = _
      rw [show (view m).client.pinHash = m.world.client.pinHash from rfl]
      split <;> rfl

theorem getAssertionPIN_run (E : Env) (args : GetAssertionArgs) :
    (getAssertionPIN E args).run m = (.ok (Ctap.getAssertionPIN E (view m).client args), m) := by
  unfold getAssertionPIN Ctap.getAssertionPIN
  show (if m.world.client.pinEnabled = false then _ else _ : Prog (Except UInt8 UInt8)).run m = _
  rw [show (view m).client.pinEnabled = m.world.client.pinEnabled from rfl]
  split
  · rfl
  · cases args.pinAuth with
    | none => rfl
    | some auth =>
      dsimp only
      split
      · rfl
      · show (if Ctap.derivePINAuth E m.world.client.pinToken args.clientDataHash = auth then _
          else _ : Prog (Except UInt8 UInt8)).run m = _
        rw [show (view m).client.pinToken = m.world.client.pinToken from rfl]
        split <;> rfl

theorem handleMakeCredential_sim (E : Env) (data : Bytes) (hm : Sound m) :
    Sim (handleMakeCredential E data) (Ctap.handleMakeCredential E data) m Same := by
  unfold handleMakeCredential Ctap.handleMakeCredential
  cases E.decodeMakeCred data with
  | none => exact .fail
  | some args =>
    dsimp only
    split
    · exact .pure hm rfl
    · rw [Sim.get_iff]
      unfold Sim
      rw [Prog.run_bind_ok (makeCredentialPIN_run E args)]
      show Sim _ _ m Same
      cases Ctap.makeCredentialPIN E (view m).client args with
      | error e => exact .pure hm rfl
      | ok flags =>
        dsimp only
        cases args.rp with
        | none => exact .fail
        | some rp =>
          dsimp only
          refine (approve_sim E _ _ _ hm).bind ?_
          rintro approved _ m1 hm1 ⟨rfl, -, -⟩
          split
          · exact .pure hm1 rfl
          · refine (newCredentialSource_sim E _ _ _ _ hm1).bind ?_
            rintro a b m2 hm2 (⟨rfl, rfl⟩ | ⟨p, s, rfl, rfl, hp⟩)
            · exact .pure hm2 rfl
            · dsimp only
              unfold attest
              rw [deref_iff hp]
              refine (lift_sim _ hm2).bind ?_
              rintro attested _ m3 hm3 ⟨rfl, rfl⟩
              refine (createCertificate_sim E _ hm3).bind ?_
              rintro cert _ m4 hm4 rfl
              refine (signWith_sim E _ _ hm4).bind ?_
              rintro sig _ m5 hm5 rfl
              exact .pure hm5 rfl

theorem handleGetInfo_sim (hm : Sound m) : Sim handleGetInfo Ctap.handleGetInfo m Same := by
  unfold handleGetInfo Ctap.handleGetInfo
  rw [Sim.field_iff, Sim.get_iff]
  rw [show (view m).client.pinEnabled = m.world.client.pinEnabled from rfl]
  cases m.world.client.pinEnabled with
  | false => exact .pure hm rfl
  | true =>
    rw [if_pos rfl, Sim.field_iff]
    exact .pure hm rfl

theorem finishAssertion_sim (E : Env) (args : GetAssertionArgs) {p : Nat} {s : Source}
    (flags : UInt8) (hp : m.heap[p]? = some s) (hm : Sound m) :
    Sim (finishAssertion E args p flags) (Ctap.finishAssertion E args s flags) m Same := by
  unfold finishAssertion Ctap.finishAssertion
  rw [deref_iff hp]
  refine (signWith_sim E _ _ hm).bind ?_
  rintro sig _ m1 hm1 rfl
  exact .pure hm1 rfl

theorem handleGetAssertion_sim (E : Env) (data : Bytes) (hm : Sound m) :
    Sim (handleGetAssertion E data) (Ctap.handleGetAssertion E data) m Same := by
  unfold handleGetAssertion Ctap.handleGetAssertion
  cases E.decodeGetAssertion data with
  | none => exact .pure hm rfl
  | some args =>
    dsimp only
    rw [Sim.get_iff]
    unfold Sim
    rw [Prog.run_bind_ok (getAssertionPIN_run E args)]
    show Sim _ _ m Same
    cases Ctap.getAssertionPIN E (view m).client args with
    | error e => exact .pure hm rfl
    | ok flags =>
      dsimp only
      refine (getAssertionSource_sim E _ _ hm).bind ?_
      rintro a b m1 hm1 (⟨rfl, rfl⟩ | ⟨p, s, rfl, rfl, hp⟩)
      · exact .pure hm1 rfl
      · dsimp only
        split
        · exact finishAssertion_sim E args flags hp hm1
        · refine (approveAccountLogin_sim E hp hm1).bind ?_
          rintro approved _ m2 hm2 ⟨rfl, hh⟩
          split
          · exact .pure hm2 rfl
          · exact finishAssertion_sim E args _ (by rw [hh]; exact hp) hm2

theorem sharedSecret_sim (E : Env) (k : EC2Key) (hm : Sound m) :
    Sim (sharedSecret E k) (Go.lift (Ctap.sharedSecret E (view m).client k)) m
      (fun a b m' => a = b ∧ m' = m) := by
  unfold sharedSecret Ctap.sharedSecret
  rw [Sim.field_iff, show (view m).client.keyAgreement = m.world.client.keyAgreement from rfl]
  cases ecdhSecret E m.world.client.keyAgreement (BigInt.ofBytes (k.x.getD []))
      (BigInt.ofBytes (k.y.getD [])) with
  | panic c => exact .inr ⟨c, m, rfl, rfl⟩
  | ok s => exact .inl ⟨_, _, m, rfl, rfl, hm, rfl, rfl⟩

theorem handleGetRetries_sim (hm : Sound m) :
    Sim handleGetRetries Ctap.handleGetRetries m Same := by
  refine (getPINRetries_sim hm).bind ?_
  rintro n _ m1 hm1 ⟨rfl, -⟩
  exact .pure hm1 rfl

theorem handleGetKeyAgreement_sim (hm : Sound m) :
    Sim handleGetKeyAgreement Ctap.handleGetKeyAgreement m Same := by
  unfold handleGetKeyAgreement Ctap.handleGetKeyAgreement
  rw [Sim.field_iff, Sim.get_iff]
  exact .pure hm rfl

theorem handleSetPIN_sim (E : Env) (args : ClientPINArgs) (hm : Sound m) :
    Sim (handleSetPIN E args) (Ctap.handleSetPIN E args) m Same := by
  unfold handleSetPIN Ctap.handleSetPIN
  rw [Sim.field_iff, Sim.get_iff, show (view m).client.pinHash = m.world.client.pinHash from rfl]
  split
  · exact .pure hm rfl
  · cases args.keyAgreement with
    | none => exact .pure hm rfl
    | some key =>
      cases args.pinAuth with
      | none => exact .pure hm rfl
      | some auth =>
        cases args.newPinEnc with
        | none => exact .pure hm rfl
        | some enc =>
          dsimp only
          refine (sharedSecret_sim E key hm).bind ?_
          rintro secret _ m1 hm1 ⟨rfl, rfl⟩
          split
          · exact .pure hm1 rfl
          · refine (lift_sim _ hm1).bind ?_
            rintro pin _ m2 hm2 ⟨rfl, rfl⟩
            split
            · exact .pure hm2 rfl
            · refine (setPINRetries_sim 8 hm2).bind fun _ _ m3 hm3 _ => ?_
              refine (setPINHash_sim E _ hm3).bind fun _ _ m4 hm4 _ => ?_
              exact .pure hm4 rfl

theorem handleChangePIN_sim (E : Env) (args : ClientPINArgs) (hm : Sound m) :
    Sim (handleChangePIN E args) (Ctap.handleChangePIN E args) m Same := by
  unfold handleChangePIN Ctap.handleChangePIN
  cases args.keyAgreement with
  | none => exact .pure hm rfl
  | some key =>
    cases args.pinAuth with
    | none => exact .pure hm rfl
    | some auth =>
      dsimp only
      refine (getPINRetries_sim hm).bind ?_
      rintro n _ m1 hm1 ⟨rfl, rfl⟩
      split
      · exact .pure hm1 rfl
      · rw [Sim.get_iff]
        refine (sharedSecret_sim E key hm1).bind ?_
        rintro secret _ m2 hm2 ⟨rfl, rfl⟩
        split
        · exact .pure hm2 rfl
        · refine (getPINRetries_sim hm2).bind ?_
          rintro n' _ m3 hm3 ⟨rfl, rfl⟩
          refine (setPINRetries_sim _ hm3).bind fun _ _ m4 hm4 _ => ?_
          refine (lift_sim _ hm4).bind ?_
          rintro hash _ m5 hm5 ⟨rfl, rfl⟩
          rw [Sim.field_iff, Sim.get_iff,
            show (view m5).client.pinHash = m5.world.client.pinHash from rfl]
          split
          · exact .pure hm5 rfl
          · refine (setPINRetries_sim _ hm5).bind fun _ _ m6 hm6 _ => ?_
            refine (lift_sim _ hm6).bind ?_
            rintro pin _ m7 hm7 ⟨rfl, rfl⟩
            split
            · exact .pure hm7 rfl
            · refine (setPINHash_sim E _ hm7).bind fun _ _ m8 hm8 _ => ?_
              exact .pure hm8 rfl

theorem handleGetPINToken_sim (E : Env) (args : ClientPINArgs) (hm : Sound m) :
    Sim (handleGetPINToken E args) (Ctap.handleGetPINToken E args) m Same := by
  unfold handleGetPINToken Ctap.handleGetPINToken
  cases args.pinHashEnc with
  | none => exact .pure hm rfl
  | some enc =>
    cases args.keyAgreement with
    | none => exact .fail
    | some key =>
      dsimp only
      split
      · exact .pure hm rfl
      · refine (getPINRetries_sim hm).bind ?_
        rintro n _ m1 hm1 ⟨rfl, rfl⟩
        split
        · exact .pure hm1 rfl
        · rw [Sim.get_iff]
          refine (sharedSecret_sim E key hm1).bind ?_
          rintro secret _ m2 hm2 ⟨rfl, rfl⟩
          refine (getPINRetries_sim hm2).bind ?_
          rintro n' _ m3 hm3 ⟨rfl, rfl⟩
          unfold attempt
          refine (setPINRetries_sim _ hm3).bind fun _ _ m4 hm4 _ => ?_
          refine (lift_sim _ hm4).bind ?_
          rintro hash _ m5 hm5 ⟨rfl, rfl⟩
          rw [Sim.field_iff, Sim.get_iff,
            show (view m5).client.pinHash = m5.world.client.pinHash from rfl]
          split
          · exact .pure hm5 rfl
          · have hr : Sim (setPINRetries 8) (Client.setPINRetries 8) m5
                (fun _ _ m' => m'.world.client.pinToken = m5.world.client.pinToken) :=
              .inl ⟨(), (), _, rfl, rfl, hm5, rfl⟩
            refine hr.bind fun _ _ m6 hm6 ht => ?_
            rw [Sim.field_iff, ht, show (view m5).client.pinToken = m5.world.client.pinToken from rfl]
            refine (lift_sim _ hm6).bind ?_
            rintro sent _ m7 hm7 ⟨rfl, rfl⟩
            exact .pure hm7 rfl

theorem handleClientPIN_sim (E : Env) (data : Bytes) (hm : Sound m) :
    Sim (handleClientPIN E data) (Ctap.handleClientPIN E data) m Same := by
  unfold handleClientPIN Ctap.handleClientPIN
  rw [Sim.field_iff, Sim.get_iff,
    show (view m).client.pinEnabled = m.world.client.pinEnabled from rfl]
  split
  · exact .pure hm rfl
  · cases E.decodeClientPIN data with
    | none => exact .pure hm rfl
    | some args =>
      dsimp only
      split
      · exact .pure hm rfl
      split
      · exact handleGetRetries_sim hm
      split
      · exact handleGetKeyAgreement_sim hm
      split
      · exact handleSetPIN_sim E args hm
      split
      · exact handleChangePIN_sim E args hm
      split
      · exact handleGetPINToken_sim E args hm
      · exact .pure hm rfl

theorem handleCtap_sim (E : Env) (data : Bytes) (hm : Sound m) :
    Sim (handleCtap E data) (Ctap.handleMessage E data) m Same := by
  unfold handleCtap Ctap.handleMessage
  cases data with
  | nil => exact .fail
  | cons command body =>
    dsimp only
    split
    · exact handleMakeCredential_sim E body hm
    split
    · exact handleGetInfo_sim hm
    split
    · exact handleGetAssertion_sim E body hm
    split
    · exact handleClientPIN_sim E body hm
    · exact .fail

theorem sealKeyHandle_sim (E : Env) (k : KeyHandle) (hm : Sound m) :
    Sim (sealKeyHandle E k) (U2f.sealKeyHandle E k) m Same := by
  unfold sealKeyHandle U2f.sealKeyHandle
  rw [Sim.field_iff, Sim.get_iff, show (view m).client.deviceKey = m.world.client.deviceKey from rfl]
  refine (draw_sim hm).bind ?_
  rintro n _ m1 hm1 ⟨rfl, -⟩
  refine (lift_sim _ hm1).bind ?_
  rintro ⟨box, _⟩ _ m2 hm2 ⟨rfl, rfl⟩
  exact .pure hm2 rfl

theorem openKeyHandle_sim (E : Env) (b : Bytes) (hm : Sound m) :
    Sim (openKeyHandle E b) (Go.lift (U2f.openKeyHandle E (view m).client b)) m
      (fun a b m' => a = b ∧ m' = m) := by
  unfold openKeyHandle U2f.openKeyHandle
  cases E.decodeBox b with
  | none => exact .inl ⟨_, _, m, rfl, rfl, hm, rfl, rfl⟩
  | some box =>
    dsimp only
    rw [Sim.field_iff, show (view m).client.deviceKey = m.world.client.deviceKey from rfl]
    cases openBox E m.world.client.deviceKey box with
    | panic c => exact .inr ⟨c, m, rfl, rfl⟩
    | ok d => exact .inl ⟨_, _, m, rfl, rfl, hm, rfl, rfl⟩

theorem handleRegister_sim (E : Env) (request : Bytes) (hm : Sound m) :
    Sim (handleRegister E request) (U2f.handleRegister E request) m Same := by
  unfold handleRegister U2f.handleRegister
  split
  · exact .fail
  · dsimp only
    split
    · exact .fail
    · have hk : Sim (newPrivateKey E) (Client.newPrivateKey E) m Same := by
        refine (draw_sim hm).bind ?_
        rintro n _ m1 hm1 ⟨rfl, -⟩
        exact .pure hm1 rfl
      refine hk.bind ?_
      rintro key _ m1 hm1 rfl
      refine (sealKeyHandle_sim E _ hm1).bind ?_
      rintro handle _ m2 hm2 rfl
      refine (approve_sim E _ _ _ hm2).bind ?_
      rintro approved _ m3 hm3 ⟨rfl, -, -⟩
      split
      · exact .pure hm3 rfl
      · refine (createCertificate_sim E _ hm3).bind ?_
        rintro cert _ m4 hm4 rfl
        refine (signWith_sim E _ _ hm4).bind ?_
        rintro sig _ m5 hm5 rfl
        exact .pure hm5 rfl

theorem finishAuthenticate_sim (E : Env) (key : ECPriv) (app ch : Bytes) (hm : Sound m) :
    Sim (finishAuthenticate E key app ch) (U2f.finishAuthenticate E key app ch) m Same := by
  refine (newAuthCounter_sim hm).bind ?_
  rintro n _ m1 hm1 rfl
  refine (signWith_sim E _ _ hm1).bind ?_
  rintro sig _ m2 hm2 rfl
  exact .pure hm2 rfl

theorem handleAuthenticate_sim (E : Env) (control : UInt8) (request : Bytes) (hm : Sound m) :
    Sim (handleAuthenticate E control request) (U2f.handleAuthenticate E control request) m Same := by
  unfold handleAuthenticate U2f.handleAuthenticate
  refine (lift_sim _ hm).bind ?_
  rintro ⟨challenge, application, handle⟩ _ m1 hm1 ⟨rfl, rfl⟩
  dsimp only
  rw [Sim.get_iff]
  refine (openKeyHandle_sim E handle hm1).bind ?_
  rintro opened _ m2 hm2 ⟨rfl, rfl⟩
  cases opened with
  | none => exact .pure hm2 rfl
  | some k =>
    dsimp only
    cases k.privateKey with
    | none => exact .pure hm2 rfl
    | some der =>
      dsimp only
      split
      · exact .pure hm2 rfl
      · cases E.parseECDER der with
        | none => exact .fail
        | some key =>
          dsimp only
          split
          · exact .pure hm2 rfl
          split
          · refine (approve_sim E _ _ _ hm2).bind ?_
            rintro approved _ m3 hm3 ⟨rfl, -, -⟩
            split
            · exact .pure hm3 rfl
            · exact finishAuthenticate_sim E key _ _ hm3
          split
          · exact finishAuthenticate_sim E key _ _ hm2
          · exact .pure hm2 rfl

theorem handleU2f_sim (E : Env) (message : Bytes) (hm : Sound m) :
    Sim (handleU2f E message) (U2f.handleMessage E message) m Same := by
  unfold handleU2f U2f.handleMessage
  refine (lift_sim _ hm).bind ?_
  rintro ⟨header, request, _⟩ _ m1 hm1 ⟨rfl, rfl⟩
  dsimp only
  split
  · exact .pure hm1 rfl
  split
  · exact handleRegister_sim E request hm1
  split
  · exact handleAuthenticate_sim E _ request hm1
  · exact .fail

/-- An operation running alone does what the sequential model says. -/
theorem perform_sim (E : Env) (op : Op) (hm : Sound m) :
    Sim (perform E op) (Device.perform E op) m Same := by
  unfold perform Device.perform
  cases op with
  | ctap msg =>
    refine (handleCtap_sim E msg hm).bind ?_
    rintro b _ m1 hm1 rfl
    exact .pure hm1 rfl
  | u2f msg =>
    refine (handleU2f_sim E msg hm).bind ?_
    rintro b _ m1 hm1 rfl
    exact .pure hm1 rfl
  | enablePIN =>
    refine ((setField_sim (fun c => { c with pinEnabled := true }) (fun _ _ => rfl) hm).bind
      (f := fun _ => saveData E) (k := fun _ => Client.saveData E)
      (R := fun _ _ _ => True)
      fun _ _ _ hm' _ => (saveData_sim E hm').mono fun _ _ _ _ => trivial).bind
        fun _ _ _ hm' _ => .pure hm' rfl
  | disablePIN =>
    refine ((setField_sim (fun c => { c with pinEnabled := false }) (fun _ _ => rfl) hm).bind
      (f := fun _ => saveData E) (k := fun _ => Client.saveData E)
      (R := fun _ _ _ => True)
      fun _ _ _ hm' _ => (saveData_sim E hm').mono fun _ _ _ _ => trivial).bind
        fun _ _ _ hm' _ => .pure hm' rfl
  | setPIN pin =>
    exact (setPINHash_sim E _ hm).bind fun _ _ _ hm' _ => .pure hm' rfl
  | deleteIdentity id =>
    refine (deleteIdentity_sim E id hm).bind ?_
    rintro b _ m1 hm1 rfl
    exact .pure hm1 rfl
  | restart => exact .pure hm rfl

end VF.Fido.Overlap
