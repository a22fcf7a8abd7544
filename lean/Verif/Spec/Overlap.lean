import Verif.Model.Overlap
import Verif.Spec.Approval

/-!
# Words for statements about overlapping requests
-/

namespace VF.Spec.Overlap

open VF.Fido VF.Fido.Overlap

/-- Is the goroutine still at work? -/
def busy : Thread → Bool
  | .working _ _ => true
  | _ => false

/-- The result of a goroutine, with the operation it was started for. -/
def result : Thread → Option (Op × Reply)
  | .ready op r => some (op, r)
  | _ => none

/-- The operation a goroutine was started for. -/
def opOf : Thread → Op
  | .working op _ => op
  | .ready op _ => op
  | .gone op => op

/-- All results so far. -/
def results (s : Process) : List (Op × Reply) := s.threads.filterMap result

/-- Operations do not overlap: one begins, and the process is ended, only when none is at work. -/
def OneAtATime (E : Env) (cfg : Client.Config) : Process → List Event → Prop
  | _, [] => True
  | s, .turn i :: evs => OneAtATime E cfg (s.step E cfg (.turn i)) evs
  | s, e :: evs => (∀ t ∈ s.threads, busy t = false) ∧ OneAtATime E cfg (s.step E cfg e) evs

/-- The operations of a history, as in the sequential model. -/
def operations : List Event → List Op
  | [] => []
  | .begin op :: evs => if op = .restart then operations evs else op :: operations evs
  | .turn _ :: evs => operations evs
  | .restart :: evs => .restart :: operations evs

/-- The replies of the sequential model that are results of an operation. -/
def isResult : Op × Reply → Bool
  | (_, .answer _) => true
  | (_, .done) => true
  | (_, .deleted _) => true
  | _ => false

open VF.Spec.Ctap VF.Spec.Client VF.Spec.Vault VF.Spec.U2f

/-- The answer to a MakeCredential request: it attests a credential in memory that has the entities
of this request, signed for the client data of this request; the user agreed to the question `q` about this
relying party; the user-verified flag is only set if this request had the right `pinAuth`. -/
def Created (E : Env) (data answer : Bytes) (q : Option Ask) (m : Mem) : Prop :=
  ∃ args rp s k authData sig cert ad at' x y,
    E.decodeMakeCred data = some args ∧ args.rp = some rp ∧
    s ∈ m.heap ∧ s.key = { ecdsa := some k } ∧ s.rp = some rp ∧ s.user = args.user ∧
    IsCreation answer authData sig cert ∧ parseAuthData authData = some ad ∧
    ad.rpIdHash = E.sha256 rp.id ∧ ad.userPresent = true ∧
    (ad.userVerified = true →
      PinAuthOk E m.world.client args.clientDataHash args.pinAuth args.pinProtocol) ∧
    parseAttested ad.rest = some at' ∧ at'.id = s.id ∧
    Cbor.decode at'.key = some (.map [(.int 1, .int 2), (.int 3, .int (-7)),
      (.int (-1), .int 1), (.int (-2), .bytes x), (.int (-3), .bytes y)]) ∧
    Cbor.beNat x = k.pub.x ∧ Cbor.beNat y = k.pub.y ∧
    E.verifyEC k.pub (E.sha256 (authData ++ args.clientDataHash)) sig = true ∧
    E.certSubject cert = some { ecdsa := some k.pub } ∧
    q = some ⟨.makeCredential, rp.name, [], true⟩

/-- The answer to a GetAssertion request: it is from a credential in memory for the relying party
and allow list of this request, signed for the client data of this request; the user-present flag is set
as this request wanted it, and then the user agreed to the question `q` about this credential; the
user-verified flag is only set if this request had the right `pinAuth`. -/
def Asserted (E : Env) (data answer : Bytes) (q : Option Ask) (m : Mem) : Prop :=
  ∃ args s k authData sig ad,
    E.decodeGetAssertion data = some args ∧
    s ∈ m.heap ∧ Matches args.rpId args.allowList s ∧ s.key = { ecdsa := some k } ∧
    IsAssertion answer s.id authData sig ∧ parseAuthData authData = some ad ∧
    ad.rpIdHash = E.sha256 args.rpId ∧ (ad.userPresent = true ↔ args.up ≠ some false) ∧
    (ad.userPresent = true → ∃ rp user, s.rp = some rp ∧ s.user = some user ∧
      q = some ⟨.getAssertion, rp.name, user.name, true⟩) ∧
    (ad.userVerified = true →
      PinAuthOk E m.world.client args.clientDataHash args.pinAuth args.pinProtocol) ∧
    E.verifyEC k.pub (E.sha256 (authData ++ args.clientDataHash)) sig = true

/-- The answer to a U2F registration: the handle opens under the sealing key to the private half of the
key in the answer, for the application of this request; the signature is over the challenge of this
request; the user agreed to `q`. -/
def RegisteredFor (E : Env) (request answer : Bytes) (q : Option Ask) (m : Mem) : Prop :=
  ∃ challenge application reg k,
    request = registerData challenge application ∧ challenge.length = 32 ∧ application.length = 32 ∧
    parseRegistration answer = some reg ∧ parsePoint reg.publicKey = some (k.pub.x, k.pub.y) ∧
    Sealed E m.world.client.deviceKey reg.keyHandle application k ∧
    E.certSubject reg.certificate = some { ecdsa := some k.pub } ∧
    E.verifyEC k.pub (E.sha256 ([0] ++ application ++ challenge ++ reg.keyHandle ++ reg.publicKey))
      reg.signature = true ∧
    q = some ⟨.u2fRegister, [], [], true⟩

/-- The answer to a U2F authentication: the handle of this request opens under the sealing key for
the application of this request; its key signed the challenge of this request; if the request wanted the
user to be asked, the user agreed to `q`. -/
def AuthenticatedFor (E : Env) (control : UInt8) (request answer : Bytes) (q : Option Ask) (m : Mem) :
    Prop :=
  ∃ challenge application handle key auth n,
    U2f.decodeAuthenticate request = .ok (challenge, application, handle) ∧
    Sealed E m.world.client.deviceKey handle application key ∧
    parseAuthentication answer = some auth ∧
    E.signEC key (E.sha256 (application ++ [1] ++ auth.counterBytes ++ challenge)) n =
      some auth.signature ∧
    ((control = 3 ∧ q = some ⟨.u2fAuthenticate, [], [], true⟩) ∨ control = 8)

/-- A result is what was asked for: a successful answer to a request is about this request, and
what the user was asked for it, `q`, supports it. -/
structure Faithful (E : Env) (op : Op) (r : Reply) (q : Option Ask) (m : Mem) : Prop where
  created : ∀ data body, op = .ctap (1 :: data) → r = .answer (0 :: body) → Created E data (0 :: body) q m
  asserted : ∀ data body, op = .ctap (2 :: data) → r = .answer (0 :: body) →
    Asserted E data (0 :: body) q m
  registered : ∀ cla p1 p2 rest answer, op = .u2f (cla :: 1 :: p1 :: p2 :: rest) → r = .answer answer →
    succeeded answer ≠ none → ∃ request le,
      U2f.decodeMessage (cla :: 1 :: p1 :: p2 :: rest) = .ok (⟨cla, 1, p1, p2⟩, request, le) ∧
      RegisteredFor E request answer q m
  authenticated : ∀ cla control p2 rest answer, op = .u2f (cla :: 2 :: control :: p2 :: rest) →
    r = .answer answer → succeeded answer ≠ none → ∃ request le,
      U2f.decodeMessage (cla :: 2 :: control :: p2 :: rest) = .ok (⟨cla, 2, control, p2⟩, request, le) ∧
      AuthenticatedFor E control request answer q m
  /-- a message shorter than that is not answered -/
  short : ∀ msg answer, op = .u2f msg → r = .answer answer → 4 ≤ msg.length

/-- The memory when goroutine `i` got its result. -/
def Finished (E : Env) (cfg : Client.Config) (evs : List Event) (i : Nat) (m : Mem) : Prop :=
  ∃ k < evs.length, m = ((boot E cfg).run E cfg (evs.take (k + 1))).mem ∧
    (∃ op r, ((boot E cfg).run E cfg (evs.take (k + 1))).threads[i]? = some (.ready op r)) ∧
    ∀ op r, ((boot E cfg).run E cfg (evs.take k)).threads[i]? ≠ some (.ready op r)

/-- The memory as the sequential model of the device describes it: the credentials in order. -/
def sequential (m : Mem) : World :=
  { m.world with client := { m.world.client with vault := m.slots.filterMap (m.heap[·]?) } }

end VF.Spec.Overlap
