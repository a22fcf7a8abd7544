import Verif.Proofs.Device

/-!
# Running code does not read what was saved

Every operation of a running process does the same whatever is in the saved data; it either leaves that
alone or overwrites all of it.
-/

namespace VF.Fido

open Client Go

variable {E : Env} {α β : Type}

/-- The code does not read the saved data: what it returns, the state it leaves and the data it saves (if
it saves) do not depend on it. -/
def Blind (x : Go World α) : Prop :=
  ∀ w : World, ∃ (r : Res α) (w' : World) (saved : Option Bytes), ∀ st, x { w with store := st } = (r, { w' with store := Option.or saved st })

namespace Blind

theorem pure (a : α) : Blind (Pure.pure a : Go World α) := fun w => ⟨.ok a, w, none, fun _ => rfl⟩

theorem throw (c : Cause) : Blind (Go.throw c : Go World α) := fun w => ⟨.panic c, w, none, fun _ => rfl⟩

theorem lift (r : Res α) : Blind (Go.lift r : Go World α) := fun w => by
  cases r with
  | ok a => exact ⟨.ok a, w, none, fun _ => rfl⟩
  | panic c => exact ⟨.panic c, w, none, fun _ => rfl⟩

theorem bind {x : Go World α} {f : α → Go World β} (hx : Blind x) (hf : ∀ a, Blind (f a)) : Blind (x >>= f) := by
  intro w
  obtain ⟨r, w', s, h⟩ := hx w
  cases r with
  | panic c => exact ⟨.panic c, w', s, fun st => run_bind_panic (h st)⟩
  | ok a =>
    obtain ⟨r2, w2, s2, h2⟩ := hf a w'
    refine ⟨r2, w2, s2.or s, fun st => ?_⟩
    rw [run_bind_ok (h st), h2, Option.or_assoc]

theorem get {f : World → Go World β} (hs : ∀ w st, f { w with store := st } = f w) (hf : ∀ w, Blind (f w)) :
    Blind ((Go.get : Go World World) >>= f) := by
  intro w
  obtain ⟨r, w', s, h⟩ := hf w w
  refine ⟨r, w', s, fun st => ?_⟩
  rw [get_bind_run, hs]
  exact h st

end Blind

theorem b_draw : Blind draw := fun w => ⟨.ok w.rnd, { w with rnd := w.rnd + 1 }, none, fun _ => rfl⟩

theorem b_update (f : Client → Client) : Blind (update f) := fun w =>
  ⟨.ok (), { w with client := f w.client }, none, fun _ => rfl⟩

theorem b_approve (a : Action) (rp user : Bytes) : Blind (approve E a rp user) := fun w =>
  ⟨.ok (E.approve w.asks a rp user),
    { w with asks := w.asks ++ [⟨a, rp, user, E.approve w.asks a rp user⟩] }, none, fun _ => rfl⟩

theorem b_save : Blind (saveData E) := by
  intro w
  unfold saveData
  dsimp only
  cases exportState w.client with
  | panic c => exact ⟨.panic c, w, none, fun _ => rfl⟩
  | ok st =>
    cases hs : Saved.encryptState E st E.passphrase w.rnd with
    | none => exact ⟨.panic .checkErr, w, none, fun _ => by dsimp only; rw [hs]; rfl⟩
    | some p =>
      obtain ⟨data, n⟩ := p
      exact ⟨.ok (), { w with rnd := n }, some data, fun _ => by dsimp only; rw [hs]; rfl⟩

theorem b_retries : Blind getPINRetries := by
  unfold getPINRetries
  refine .get (fun _ _ => rfl) fun w => ?_
  split
  · exact .pure _
  · exact .throw _

theorem b_setRetries (n : Int) : Blind (setPINRetries n) := b_update _

theorem b_setHash (x : Option Bytes) : Blind (setPINHash E x) := (b_update _).bind fun _ => b_save

theorem b_sign (k : PrivKey) (data : Bytes) : Blind (signWith E k data) := b_draw.bind fun _ => .lift _

theorem b_certificate (k : PrivKey) : Blind (createCertificate E k) := by
  unfold createCertificate
  refine b_draw.bind fun n => .get (fun _ _ => rfl) fun w => (Blind.lift _).bind fun c => ?_
  split
  · exact .pure _
  · exact .throw _

theorem b_new (params : List CredParam) (ex : List Descriptor) (rp : Option RPEntity) (user : Option UserEntity) :
    Blind (newCredentialSource E params ex rp user) := by
  unfold newCredentialSource
  split
  · exact .pure _
  · exact b_draw.bind fun _ => b_draw.bind fun _ => (b_update _).bind fun _ => b_save.bind fun _ => .pure _

theorem b_source (rpId : Bytes) (al : Option (List Descriptor)) : Blind (getAssertionSource E rpId al) := by
  unfold getAssertionSource
  refine .get (fun _ _ => rfl) fun w => (Blind.lift _).bind fun m => ?_
  split
  · exact .pure _
  · exact (b_update _).bind fun _ => b_save.bind fun _ => .get (fun _ _ => rfl) fun _ => .pure _

theorem b_login (s : Source) : Blind (approveAccountLogin E s) := by
  unfold approveAccountLogin
  split
  · exact b_approve _ _ _
  · exact .throw _

theorem b_counter : Blind newAuthCounter :=
  .get (fun _ _ => rfl) fun _ => (b_update _).bind fun _ => .pure _

open Ctap

theorem b_make (data : Bytes) : Blind (handleMakeCredential E data) := by
  unfold handleMakeCredential
  split
  · exact .throw _
  split
  · exact .pure _
  refine .get (fun _ _ => rfl) fun w => ?_
  split
  · exact .pure _
  split
  · exact .throw _
  refine (b_approve _ _ _).bind fun ok => ?_
  split
  · exact .pure _
  refine (b_new _ _ _ _).bind fun s => ?_
  split
  · exact .pure _
  exact (Blind.lift _).bind fun _ => (b_certificate _).bind fun _ => (b_sign _ _).bind fun _ => .pure _

theorem b_finish (args : GetAssertionArgs) (s : Source) (f : UInt8) : Blind (finishAssertion E args s f) :=
  (b_sign _ _).bind fun _ => .pure _

theorem b_assertion (data : Bytes) : Blind (handleGetAssertion E data) := by
  unfold handleGetAssertion
  split
  · exact .pure _
  refine .get (fun _ _ => rfl) fun w => ?_
  split
  · exact .pure _
  refine (b_source _ _).bind fun s => ?_
  split
  · exact .pure _
  split
  · exact b_finish _ _ _
  refine (b_login _).bind fun ok => ?_
  split
  · exact .pure _
  · exact b_finish _ _ _

theorem b_setPIN (args : ClientPINArgs) : Blind (handleSetPIN E args) := by
  unfold handleSetPIN
  refine .get (fun _ _ => rfl) fun w => ?_
  split
  · exact .pure _
  split
  · refine (Blind.lift _).bind fun secret => ?_
    split
    · exact .pure _
    refine (Blind.lift _).bind fun pin => ?_
    split
    · exact .pure _
    exact (b_setRetries _).bind fun _ => (b_setHash _).bind fun _ => .pure _
  · exact .pure _

theorem b_change (args : ClientPINArgs) : Blind (handleChangePIN E args) := by
  unfold handleChangePIN
  split
  · refine b_retries.bind fun n => ?_
    split
    · exact .pure _
    refine .get (fun _ _ => rfl) fun w => (Blind.lift _).bind fun secret => ?_
    split
    · exact .pure _
    refine b_retries.bind fun n => (b_setRetries _).bind fun _ => (Blind.lift _).bind fun h =>
      .get (fun _ _ => rfl) fun w => ?_
    split
    · exact .pure _
    refine (b_setRetries _).bind fun _ => (Blind.lift _).bind fun pin => ?_
    split
    · exact .pure _
    · exact (b_setHash _).bind fun _ => .pure _
  · exact .pure _

theorem b_token (args : ClientPINArgs) : Blind (handleGetPINToken E args) := by
  unfold handleGetPINToken
  split
  · exact .pure _
  split
  · exact .throw _
  split
  · exact .pure _
  refine b_retries.bind fun n => ?_
  split
  · exact .pure _
  refine .get (fun _ _ => rfl) fun w => (Blind.lift _).bind fun secret => b_retries.bind fun n =>
    (b_setRetries _).bind fun _ => (Blind.lift _).bind fun h => .get (fun _ _ => rfl) fun w => ?_
  split
  · exact .pure _
  · exact (b_setRetries _).bind fun _ => (Blind.lift _).bind fun _ => .pure _

theorem b_pin (data : Bytes) : Blind (handleClientPIN E data) := by
  unfold handleClientPIN
  refine .get (fun _ _ => rfl) fun w => ?_
  split
  · exact .pure _
  split
  · exact .pure _
  split
  · exact .pure _
  split
  · exact b_retries.bind fun _ => .pure _
  split
  · exact .get (fun _ _ => rfl) fun _ => .pure _
  split
  · exact b_setPIN _
  split
  · exact b_change _
  split
  · exact b_token _
  · exact .pure _

theorem b_ctap (m : Bytes) : Blind (Ctap.handleMessage E m) := by
  unfold Ctap.handleMessage
  split
  · exact .throw _
  split
  · exact b_make _
  split
  · exact .get (fun _ _ => rfl) fun _ => .pure _
  split
  · exact b_assertion _
  split
  · exact b_pin _
  · exact .throw _

theorem b_register (r : Bytes) : Blind (U2f.handleRegister E r) := by
  unfold U2f.handleRegister
  split
  · exact .throw _
  dsimp only
  split
  · exact .throw _
  unfold newPrivateKey U2f.sealKeyHandle
  refine (b_draw.bind fun _ => .pure _).bind fun key => Blind.bind ?_ fun kh => (b_approve _ _ _).bind fun ok => ?_
  · exact .get (fun _ _ => rfl) fun w => b_draw.bind fun _ => (Blind.lift _).bind fun _ => .pure _
  split
  · exact .pure _
  · exact (b_certificate _).bind fun _ => (b_sign _ _).bind fun _ => .pure _

theorem b_finishU2F (k : ECPriv) (a c : Bytes) : Blind (U2f.finishAuthenticate E k a c) :=
  b_counter.bind fun _ => (b_sign _ _).bind fun _ => .pure _

theorem b_authenticate (c : UInt8) (r : Bytes) : Blind (U2f.handleAuthenticate E c r) := by
  unfold U2f.handleAuthenticate
  refine (Blind.lift _).bind fun a => ?_
  obtain ⟨ch, app, hd⟩ := a
  refine .get (fun _ _ => rfl) fun w => (Blind.lift _).bind fun o => ?_
  split
  · exact .pure _
  split
  · exact .pure _
  split
  · exact .pure _
  split
  · exact .throw _
  split
  · exact .pure _
  split
  · refine (b_approve _ _ _).bind fun ok => ?_
    split
    · exact .pure _
    · exact b_finishU2F _ _ _
  split
  · exact b_finishU2F _ _ _
  · exact .pure _

theorem b_u2f (m : Bytes) : Blind (U2f.handleMessage E m) := by
  unfold U2f.handleMessage
  refine (Blind.lift _).bind fun a => ?_
  obtain ⟨hd, r, n⟩ := a
  dsimp only
  split
  · exact .pure _
  split
  · exact b_register _
  split
  · exact b_authenticate _ _
  · exact .throw _

theorem b_delete (id : Bytes) : Blind (Client.deleteIdentity E id) := by
  unfold Client.deleteIdentity
  refine .get (fun _ _ => rfl) fun w => (b_update _).bind fun _ => ?_
  split
  · exact b_save.bind fun _ => .pure _
  · exact .pure _

theorem b_perform (op : Op) : Blind (Device.perform E op) := by
  cases op with
  | ctap m => exact (b_ctap m).bind fun _ => .pure _
  | u2f m => exact (b_u2f m).bind fun _ => .pure _
  | enablePIN => exact ((b_update _).bind fun _ => b_save).bind fun _ => .pure _
  | disablePIN => exact ((b_update _).bind fun _ => b_save).bind fun _ => .pure _
  | setPIN pin => exact (b_setHash _).bind fun _ => .pure _
  | deleteIdentity id => exact (b_delete id).bind fun _ => .pure _
  | restart => exact .pure _

end VF.Fido
