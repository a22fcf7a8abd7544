import Verif.Spec.Status
import Verif.Spec.U2f

/-!
# Specification: the outcome of a U2F request as decision tables
-/

namespace VF.Spec.U2fStatus

open VF.Fido VF.Spec.Client VF.Spec.Status

/-- What a client sees: a status word, or the end of the process. -/
inductive Outcome where
  | sw (s : UInt16)
  | crash
  deriving DecidableEq, Repr

/-- The outcome a reply shows.  An answer with an error is this status word alone. -/
inductive Shows : Reply → Outcome → Prop
  | success (body : Bytes) : Shows (.answer (body ++ [0x90, 0x00])) (.sw 0x9000)
  | error (s : UInt16) (h : s ≠ 0x9000) : Shows (.answer (be16 s)) (.sw s)
  | crash : Shows .panicked .crash

/-- The first `n` bytes, filled up with zeros if there are fewer. -/
def upTo (n : Nat) (b : Bytes) : Bytes := b.take n ++ List.replicate (n - b.length) 0

/-- How a request is read: instruction, first parameter, data.  The length of the answer is not
looked at; data that ends early is filled up with zeros. -/
inductive Frame : Bytes → UInt8 → UInt8 → Bytes → Prop
  | header {cla ins p1 p2 : UInt8} : Frame [cla, ins, p1, p2] ins p1 []
  | answerLength {cla ins p1 p2 a b : UInt8} : Frame [cla, ins, p1, p2, 0, a, b] ins p1 []
  | data {cla ins p1 p2 a b : UInt8} {body : Bytes} (hb : body ≠ [])
      (hr : (body.drop (256 * a.toNat + b.toNat)).length ≠ 1) :
      Frame (cla :: ins :: p1 :: p2 :: 0 :: a :: b :: body) ins p1
        (upTo (256 * a.toNat + b.toNat) body)

/-- How the data of an authentication is read: challenge, application, handle. -/
inductive Fields : Bytes → Bytes → Bytes → Bytes → Prop
  | mk {challenge application rest : Bytes} {len : UInt8} (hc : challenge.length = 32)
      (ha : application.length = 32) (hr : rest = [] → len = 0) :
      Fields (challenge ++ application ++ len :: rest) challenge application (upTo len.toNat rest)

/-- Registration. -/
def register (E : Env) (w : World) (data : Bytes) : List (Prop × Outcome) := [
  (data.length ≠ 64, .crash),
  (E.approve w.asks .u2fRegister [] [] = false, .sw 0x6985),
  (True, .sw 0x9000)]

/-- The handle is a box that opens under the sealing key, and its contents satisfy `P`. -/
def Opens (E : Env) (w : World) (handle : Bytes) (P : Bytes → Prop) : Prop :=
  ∃ box plain, E.decodeBox handle = some box ∧ box.iv.length = 12 ∧
    E.gcmOpen w.client.deviceKey box.iv box.data = some plain ∧ P plain

/-- Authentication. -/
def authenticate (E : Env) (w : World) (control : UInt8) (challenge application handle : Bytes) :
    List (Prop × Outcome) := [
  -- no box
  (E.decodeBox handle = none, .sw 0x6A80),
  -- not sealed by this device
  (¬ Opens E w handle (fun _ => True), .crash),
  -- not a key for this application
  (¬ Opens E w handle (fun plain => ∃ der, E.decodeKeyHandle plain =
    some { privateKey := some der, applicationID := application }), .sw 0x6A80),
  (¬ Opens E w handle (fun plain => ∃ der key, E.decodeKeyHandle plain =
    some { privateKey := some der, applicationID := application } ∧
    E.parseECDER der = some key), .crash),
  -- check only
  (control = 0x07, .sw 0x6985),
  (control ≠ 0x03 ∧ control ≠ 0x08, .sw 0x6700),
  -- the user is asked and refuses
  (control = 0x03 ∧ E.approve w.asks .u2fAuthenticate [] [] = false, .sw 0x6985),
  -- the key does not sign
  (¬ Opens E w handle (fun plain => ∃ der key sig, E.decodeKeyHandle plain =
    some { privateKey := some der, applicationID := application } ∧
    E.parseECDER der = some key ∧
    E.signEC key (E.sha256 (application ++ [1] ++ be32 w.client.authCounter ++ challenge)) w.rnd =
      some sig), .crash),
  (True, .sw 0x9000)]

/-- The outcome of a U2F request. -/
inductive Expected (E : Env) (w : World) (m : Bytes) : Outcome → Prop
  | unframed (h : ¬ ∃ ins p1 data, Frame m ins p1 data) : Expected E w m .crash
  | version {p1 : UInt8} {data : Bytes} (h : Frame m 0x03 p1 data) : Expected E w m (.sw 0x9000)
  | register {p1 : UInt8} {data : Bytes} {o : Outcome} (h : Frame m 0x01 p1 data)
      (ho : Decides (register E w data) o) : Expected E w m o
  | authenticate {p1 : UInt8} {data challenge application handle : Bytes} {o : Outcome}
      (h : Frame m 0x02 p1 data) (hf : Fields data challenge application handle)
      (ho : Decides (authenticate E w p1 challenge application handle) o) : Expected E w m o
  | authenticateShort {p1 : UInt8} {data : Bytes} (h : Frame m 0x02 p1 data)
      (hf : ¬ ∃ challenge application handle, Fields data challenge application handle) :
      Expected E w m .crash
  | unknown {ins p1 : UInt8} {data : Bytes} (h : Frame m ins p1 data) (h1 : ins ≠ 1) (h2 : ins ≠ 2)
      (h3 : ins ≠ 3) : Expected E w m .crash

end VF.Spec.U2fStatus
