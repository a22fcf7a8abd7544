import Verif.Model.Logged

/-!
# The handlers with their log statements
-/

namespace VF.Fido.Logged

open Client Log

/-! ## Without the log statements they are the handlers of `Model/Ctap` and `Model/U2f` -/

/-- The same, but for what is logged. -/
def Erases {α : Type} (x : Go LWorld α) (y : Go World α) : Prop :=
  ∀ w, (x w).1 = (y w.world).1 ∧ (x w).2.world = (y w.world).2

variable {α β : Type}

theorem erases_quiet (y : Go World α) : Erases (quiet y) y := fun _ => ⟨rfl, rfl⟩
theorem erases_pure (a : α) : Erases (pure a) (pure a) := fun _ => ⟨rfl, rfl⟩
theorem erases_throw (c : Cause) : Erases (Go.throw c : Go LWorld α) (Go.throw c) := fun _ => ⟨rfl, rfl⟩

theorem erases_bind {x : Go LWorld α} {y : Go World α} {f : α → Go LWorld β} {g : α → Go World β} (h : Erases x y)
    (hf : ∀ a, Erases (f a) (g a)) : Erases (x >>= f) (y >>= g) := by
  intro w
  obtain ⟨h1, h2⟩ := h w
  rw [Go.run_bind, Go.run_bind]
  rcases hx : x w with ⟨r, w'⟩
  rcases hy : y w.world with ⟨r', v⟩
  rw [hx, hy] at h1 h2
  dsimp only at h1 h2
  subst h1 h2
  cases r with
  | panic c => exact ⟨rfl, rfl⟩
  | ok a => exact hf a w'

theorem erases_log {level : Level} {text : String} {data : List Datum} {f : Unit → Go LWorld α} {y : Go World α}
    (h : Erases (f ()) y) : Erases (log level text data >>= f) y := fun w => h (LWorld.mk w.world (w.lines ++ [Line.mk level text data]))

theorem erases_ite {p : Prop} [Decidable p] {a b : Go LWorld α} {a' b' : Go World α} (h : p → Erases a a')
    (h' : ¬ p → Erases b b') : Erases (if p then a else b) (if p then a' else b') := by
  by_cases hp : p
  · rw [if_pos hp, if_pos hp]; exact h hp
  · rw [if_neg hp, if_neg hp]; exact h' hp

theorem erases_make (E : Env) (data : Bytes) : Erases (handleMakeCredential E data) (Ctap.handleMakeCredential E data) := by
  unfold handleMakeCredential Ctap.handleMakeCredential
  rcases E.decodeMakeCred data with _ | args
  · exact erases_throw _
  · dsimp only
    refine erases_log (erases_ite (fun _ => erases_log (erases_pure _)) fun _ => ?_)
    refine erases_bind (erases_quiet _) fun w => ?_
    rcases Ctap.makeCredentialPIN E w.client args with e | flags
    · exact erases_pure _
    · rcases args.rp with _ | rp
      · exact erases_throw _
      · refine erases_bind (erases_quiet _) fun approved => ?_
        refine erases_ite (fun _ => erases_log (erases_pure _)) fun _ => ?_
        refine erases_bind (erases_quiet _) fun source => ?_
        rcases source with _ | s
        · exact erases_log (erases_pure _)
        · refine erases_bind (erases_quiet _) fun attested => ?_
          refine erases_bind (erases_quiet _) fun cert => ?_
          exact erases_bind (erases_quiet _) fun sig => erases_log (erases_pure _)

theorem erases_info : Erases handleGetInfo Ctap.handleGetInfo :=
  erases_bind (erases_quiet _) fun _ => erases_log (erases_pure _)

theorem erases_finish (E : Env) (args : GetAssertionArgs) (s : Source) (flags : UInt8) :
    Erases (finishAssertion E args s flags) (Ctap.finishAssertion E args s flags) :=
  erases_bind (erases_quiet _) fun _ => erases_log (erases_pure _)

theorem erases_source (E : Env) (rpId : Bytes) (allowList : Option (List Descriptor)) :
    Erases (getAssertionSource E rpId allowList) (Client.getAssertionSource E rpId allowList) := by
  unfold getAssertionSource Client.getAssertionSource
  refine erases_bind (erases_quiet _) fun w => erases_bind (erases_quiet _) fun matching => ?_
  rcases matching with _ | ⟨i, _⟩
  · exact erases_log (erases_pure _)
  · exact erases_bind (erases_quiet _) fun _ => erases_bind (erases_quiet _) fun _ => erases_bind (erases_quiet _) fun _ =>
      erases_pure _

theorem erases_get (E : Env) (data : Bytes) : Erases (handleGetAssertion E data) (Ctap.handleGetAssertion E data) := by
  unfold handleGetAssertion Ctap.handleGetAssertion
  rcases E.decodeGetAssertion data with _ | args
  · exact erases_log (erases_pure _)
  · dsimp only
    refine erases_log (erases_bind (erases_quiet _) fun w => ?_)
    rcases Ctap.getAssertionPIN E w.client args with e | flags
    · exact erases_pure _
    · refine erases_bind (erases_source _ _ _) fun source => erases_log ?_
      rcases source with _ | s
      · exact erases_log (erases_pure _)
      · refine erases_ite (fun _ => erases_finish _ _ _ _) fun _ => erases_bind (erases_quiet _) fun approved => ?_
        exact erases_ite (fun _ => erases_log (erases_pure _)) fun _ => erases_finish _ _ _ _

theorem erases_retries : Erases handleGetRetries Ctap.handleGetRetries :=
  erases_bind (erases_quiet _) fun _ => erases_log (erases_pure _)

theorem erases_agreement : Erases handleGetKeyAgreement Ctap.handleGetKeyAgreement :=
  erases_bind (erases_quiet _) fun _ => erases_log (erases_pure _)

theorem erases_setPIN (E : Env) (args : ClientPINArgs) : Erases (handleSetPIN E args) (Ctap.handleSetPIN E args) := by
  unfold handleSetPIN Ctap.handleSetPIN
  refine erases_bind (erases_quiet _) fun w => erases_ite (fun _ => erases_pure _) fun _ => ?_
  rcases args.keyAgreement with _ | key
  · exact erases_pure _
  rcases args.pinAuth with _ | auth
  · exact erases_pure _
  rcases args.newPinEnc with _ | enc
  · exact erases_pure _
  · refine erases_bind (erases_quiet _) fun secret => erases_ite (fun _ => erases_pure _) fun _ => ?_
    refine erases_bind (erases_quiet _) fun pin => erases_ite (fun _ => erases_pure _) fun _ => ?_
    exact erases_bind (erases_quiet _) fun _ => erases_bind (erases_quiet _) fun _ => erases_log (erases_pure _)

theorem erases_token (E : Env) (args : ClientPINArgs) : Erases (handleGetPINToken E args) (Ctap.handleGetPINToken E args) := by
  unfold handleGetPINToken Ctap.handleGetPINToken
  rcases args.pinHashEnc with _ | enc
  · exact erases_pure _
  · rcases args.keyAgreement with _ | key
    · exact erases_throw _
    · refine erases_ite (fun _ => erases_pure _) fun _ => erases_bind (erases_quiet _) fun n => ?_
      refine erases_ite (fun _ => erases_pure _) fun _ => erases_bind (erases_quiet _) fun w => ?_
      refine erases_bind (erases_quiet _) fun secret => erases_bind (erases_quiet _) fun n => ?_
      refine erases_bind (erases_quiet _) fun _ => erases_bind (erases_quiet _) fun hash => erases_log ?_
      refine erases_bind (erases_quiet _) fun w => erases_ite (fun _ => erases_log (erases_pure _)) fun _ => ?_
      exact erases_bind (erases_quiet _) fun _ => erases_bind (erases_quiet _) fun _ => erases_log (erases_pure _)

theorem erases_after {x : Go LWorld Bytes} {y : Go World Bytes} {level : Level} {text : String} {data : Bytes → List Datum}
    (h : Erases x y) : Erases (x >>= fun b => log level text (data b) >>= fun _ => pure b) y := by
  have e : y = (y >>= fun b => pure b) := by
    funext w
    rw [Go.run_bind]
    rcases y w with ⟨r, w'⟩
    cases r <;> rfl
  rw [e]
  exact erases_bind h fun _ => erases_log (erases_pure _)

theorem erases_respond {x : Go LWorld Bytes} {y : Go World Bytes} (h : Erases x y) : Erases (respond x) y := erases_after h

theorem erases_pin (E : Env) (data : Bytes) : Erases (handleClientPIN E data) (Ctap.handleClientPIN E data) := by
  unfold handleClientPIN Ctap.handleClientPIN
  refine erases_bind (erases_quiet _) fun w => erases_ite (fun _ => erases_pure _) fun _ => ?_
  rcases E.decodeClientPIN data with _ | args
  · exact erases_log (erases_pure _)
  · refine erases_ite (fun _ => erases_pure _) fun _ => erases_log ?_
    refine erases_ite (fun _ => erases_respond erases_retries) fun _ => ?_
    refine erases_ite (fun _ => erases_respond erases_agreement) fun _ => ?_
    refine erases_ite (fun _ => erases_respond (erases_setPIN _ _)) fun _ => ?_
    refine erases_ite (fun _ => erases_respond (erases_quiet _)) fun _ => ?_
    exact erases_ite (fun _ => erases_respond (erases_token _ _)) fun _ => erases_pure _

theorem erases_ctap (E : Env) (data : Bytes) : Erases (ctapMessage E data) (Ctap.handleMessage E data) := by
  unfold ctapMessage Ctap.handleMessage
  rcases data with _ | ⟨command, body⟩
  · exact erases_throw _
  · refine erases_log (erases_ite (fun _ => erases_make _ _) fun _ => ?_)
    refine erases_ite (fun _ => erases_info) fun _ => erases_ite (fun _ => erases_get _ _) fun _ => ?_
    exact erases_ite (fun _ => erases_pin _ _) fun _ => erases_throw _

theorem erases_register (E : Env) (request : Bytes) : Erases (handleRegister E request) (U2f.handleRegister E request) := by
  unfold handleRegister U2f.handleRegister
  refine erases_ite (fun _ => erases_throw _) fun _ => erases_ite (fun _ => erases_throw _) fun _ => ?_
  refine erases_bind (erases_quiet _) fun key => erases_bind (erases_quiet _) fun handle => erases_log ?_
  refine erases_bind (erases_quiet _) fun approved => erases_ite (fun _ => erases_pure _) fun _ => ?_
  exact erases_bind (erases_quiet _) fun _ => erases_bind (erases_quiet _) fun _ => erases_pure _

theorem erases_authenticate (E : Env) (control : UInt8) (request : Bytes) :
    Erases (handleAuthenticate E control request) (U2f.handleAuthenticate E control request) := by
  unfold handleAuthenticate U2f.handleAuthenticate
  refine erases_bind (erases_quiet _) fun fields => erases_bind (erases_quiet _) fun w => erases_bind (erases_quiet _) fun opened => ?_
  rcases opened with _ | k
  · exact erases_log (erases_pure _)
  · rcases k with ⟨_ | der, application⟩
    · exact erases_log (erases_pure _)
    · refine erases_ite (fun _ => erases_log (erases_pure _)) fun _ => ?_
      rcases E.parseECDER der with _ | key
      · exact erases_throw _
      · refine erases_ite (fun _ => erases_pure _) fun _ => erases_ite (fun _ => ?_) fun _ => ?_
        · exact erases_bind (erases_quiet _) fun _ => erases_ite (fun _ => erases_pure _) fun _ => erases_quiet _
        · exact erases_ite (fun _ => erases_quiet _) fun _ => erases_pure _

theorem erases_u2f (E : Env) (message : Bytes) : Erases (u2fMessage E message) (U2f.handleMessage E message) := by
  unfold u2fMessage U2f.handleMessage
  refine erases_bind (erases_quiet _) fun fields => erases_log ?_
  refine erases_after (x := u2fCommand E fields.1 fields.2.1) ?_
  unfold u2fCommand
  refine erases_ite (fun _ => erases_pure _) fun _ => erases_ite (fun _ => erases_register _ _) fun _ => ?_
  exact erases_ite (fun _ => erases_authenticate _ _ _) fun _ => erases_throw _

theorem erases_perform (E : Env) (op : Op) : Erases (perform E op) (Device.perform E op) := by
  cases op with
  | ctap m => exact erases_bind (erases_ctap E m) fun _ => erases_pure _
  | u2f m => exact erases_bind (erases_u2f E m) fun _ => erases_pure _
  | _ => exact erases_quiet _

end VF.Fido.Logged
