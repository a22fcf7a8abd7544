import Verif.Spec.RelyingParty
import Verif.Spec.U2fParty
import Verif.Spec.Live
import Verif.Spec.Server

/-!
# Specification: what passes between a host and a device, and what relying parties make of it
-/

namespace VF.Spec.Conversation

open VF.Fido VF.Spec.Live VF.Spec.Service
open VF.Spec.Stack (onChannel)

/-- What a host on this channel was told, which sent these requests and read these reports: each request for the
authenticator, with the answer to it, in order. -/
def talk (qs : List Request) (cid : UInt32) (read : List Bytes) : List (Op × Reply) :=
  ((wanted qs).zip (answers (onChannel cid read))).map fun x => (opFor x.1.1 x.1.2, .answer x.2.2)

/-- The requests for the authenticator. -/
def requested (qs : List Request) : List Op := (wanted qs).map fun m => opFor m.1 m.2

/-- A WebAuthn relying party to which all this was shown has accepted every successful answer to its registrations, and to
its logins that asked for the user's presence. -/
def Accepts (E : Env) (p : RelyingParty.Party) (seen : List (Op × Reply)) : Prop :=
  (∀ before later data body args, seen = before ++ (.ctap (1 :: data), .answer (0 :: body)) :: later →
    E.decodeMakeCred data = some args → args.rp.map (·.id) = some p.id →
    ∃ r, RelyingParty.register E p (RelyingParty.records E p before) args (0 :: body) = some r) ∧
  (∀ before later data body args, seen = before ++ (.ctap (2 :: data), .answer (0 :: body)) :: later →
    E.decodeGetAssertion data = some args → args.rpId = p.id → args.up ≠ some false →
    ∃ r, RelyingParty.login E p (RelyingParty.records E p before) args (0 :: body) = some r)

/-- A U2F relying party to which all this was shown has accepted every successful answer to its registrations, and to its
logins with a registered key. -/
def U2fAccepts (E : Env) (p : U2fParty.Party) (seen : List (Op × Reply)) : Prop :=
  (∀ before later m b data challenge, seen = before ++ (.u2f m, .answer b) :: later → U2f.succeeded b ≠ none →
    U2fParty.request m = some (1, data) → U2fParty.registerFields data = some (challenge, p.application) →
    ∃ k, U2fParty.register E p (U2fParty.keys E p before) challenge b = some k) ∧
  (∀ before later m b data challenge handle, seen = before ++ (.u2f m, .answer b) :: later → U2f.succeeded b ≠ none →
    U2fParty.request m = some (2, data) → U2fParty.authenticateFields data = some (challenge, p.application, handle) →
    (∃ k ∈ U2fParty.keys E p before, k.handle = handle) →
    ∃ k, U2fParty.login E p (U2fParty.keys E p before) challenge handle b = some k)

/-- Among all this, a registration that this relying party accepted. -/
def HasRegistered (E : Env) (p : RelyingParty.Party) (seen : List (Op × Reply)) (r : RelyingParty.Record) : Prop :=
  ∃ before later data b args, seen = before ++ (.ctap (1 :: data), .answer b) :: later ∧ E.decodeMakeCred data = some args ∧
    args.rp.map (·.id) = some p.id ∧ RelyingParty.register E p (RelyingParty.records E p before) args b = some r

/-- The USB/IP server reads a report only when those before it have been dealt with. -/
def Waits (net : UsbIp.Net) (E : Env) (cfg : Client.Config) (grow : Nat → Nat → Nat) (c : Server.Conn)
    (acts : List Server.Act) : Prop :=
  ∀ acts1 acts2 c1 c2 m, acts = acts1 ++ .command :: acts2 → Server.exec net E cfg grow acts1 c = some c1 →
    Server.step net E cfg grow .command c1 = some c2 → Spec.Server.given c2 = Spec.Server.given c1 ++ [m] →
    ∀ r ∈ c1.dev.hid.hid.routines, r.phase = .done

end VF.Spec.Conversation
