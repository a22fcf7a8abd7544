import Verif.Spec.Calls
import Verif.Spec.Overlap
import Verif.Spec.Stack

/-!
# Words for statements about the device at work
-/

namespace VF.Spec.Live

open Fido Fido.Overlap Spec.Calls Spec.Service
open Spec.Stack (onChannel)
open Spec.Overlap (opOf)

/-- The operation a request asks for. -/
def opFor (command : UInt8) (payload : Bytes) : Op :=
  if command = 0x90 then .ctap payload else .u2f payload

/-- An account of what became of the `reports` that came in, given what the device sent and
the operations its authenticator was given: the reports dealt with, in this order, those refused because their
channel was not open, those still waiting, and the requests handed to the authenticator. -/
structure Account (reports out : List Bytes) (threads : List Thread) (handled refused pending : List Bytes)
    (calls : List Call) : Prop where
  /-- every report is dealt with once -/
  once : (handled ++ refused ++ pending).Perm reports
  /-- a report completes at most one request -/
  oneRequestEach : (calls.map (·.report)).Nodup
  /-- one on the channel of the request -/
  sameChannel : ∀ k ∈ calls, (reports[k.report]?).bind Ctaphid.channelOf = some k.channel
  /-- every request is an operation of its own, and they began in this order -/
  ownOperation : (calls.map (·.number)).Pairwise (· < ·)
  operation : ∀ k ∈ calls, ∃ t, threads[k.number]? = some t ∧ opOf t = opFor k.command k.payload
  /-- and its answer is the result of this operation -/
  ownResult : ∀ k ∈ calls, ∀ a, k.answer = some a →
    threads[k.number]? = some (.ready (opFor k.command k.payload) (.answer a))
  /-- on every channel, the requests are all those in the reports dealt with, in order; none on the broadcast channel -/
  requests : ∀ cid, ∃ all window, Heard cid (onChannel cid handled) all window ∧
    asked (callsOn cid calls) = if cid = 0xFFFFFFFF then [] else all.filter fun m => forAuthenticator m.1
  /-- one at a time: only the last can be without an answer -/
  inTurn : ∀ cid, ∀ k ∈ (callsOn cid calls).dropLast, k.answer.isSome = true
  /-- and a host that reads what was sent finds its answers in order and unchanged -/
  received : (∀ k ∈ calls, ∀ a, k.answer = some a → a ≠ [] ∧ a.length ≤ 7609) →
    ∀ cid, answers (onChannel cid out) <+: results (callsOn cid calls)

/-- A host's request: its command, its payload, and the reports it is sent in. -/
structure Request where
  command : UInt8
  payload : Bytes
  packets : List Bytes

/-- Sent as the CTAPHID specification says. -/
def Request.WellSent (cid : UInt32) (q : Request) : Prop :=
  Begins q.command ∧ Spec.Ctaphid.IsFragmentation cid q.command q.payload q.packets

/-- The requests among these that are for the authenticator. -/
def wanted (qs : List Request) : List (UInt8 × Bytes) :=
  (qs.map fun q => (q.command, q.payload)).filter fun m => forAuthenticator m.1

/-- What a host sees on a channel: its requests, with the answers it has read. -/
def exchanges (out : List Bytes) (calls : List Call) (cid : UInt32) : List (Op × Reply) :=
  ((asked (callsOn cid calls)).zip (answers (onChannel cid out))).map fun x =>
    (opFor x.1.1 x.1.2, .answer x.2.2)

end VF.Spec.Live
