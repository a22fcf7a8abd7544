import Verif.Spec.Pin
import Verif.Model.Overlap

/-!
# What a request may change, and who may change the PIN
-/

namespace VF.Spec.Overlap

open VF.Fido VF.Fido.Overlap

/-- The parts of the state that change while the process runs. -/
structure Touches where
  /-- the list of credentials -/
  credentials : Bool := false
  /-- new credentials are made -/
  creates : Bool := false
  /-- the signature counters of credentials -/
  counters : Bool := false
  pinHash : Bool := false
  pinRetries : Bool := false
  pinEnabled : Bool := false
  /-- the U2F counter -/
  authCounter : Bool := false
  /-- questions to the user -/
  asks : Bool := false
  /-- random draws -/
  rnd : Bool := false
  /-- the saved data -/
  store : Bool := false

/-- What each operation may change. -/
def touches (E : Env) : Op → Touches
  | .ctap (1 :: _) => { credentials := true, creates := true, asks := true, rnd := true, store := true }
  | .ctap (2 :: _) => { counters := true, asks := true, rnd := true, store := true }
  | .ctap (6 :: data) =>
    match E.decodeClientPIN data with
    | some args =>
      if args.subCommand = 3 ∨ args.subCommand = 4 then
        { pinHash := true, pinRetries := true, rnd := true, store := true }
      else if args.subCommand = 5 then { pinRetries := true }
      else {}
    | none => {}
  | .u2f (_ :: 1 :: _) => { asks := true, rnd := true }
  | .u2f (_ :: 2 :: _) => { authCounter := true, asks := true, rnd := true }
  | .enablePIN => { pinEnabled := true, rnd := true, store := true }
  | .disablePIN => { pinEnabled := true, rnd := true, store := true }
  | .setPIN _ => { pinHash := true, rnd := true, store := true }
  | .deleteIdentity _ => { credentials := true, rnd := true, store := true }
  | _ => {}

/-- Whatever `a` lists, `b` lists too. -/
def Touches.Within (a b : Touches) : Prop :=
  (a.credentials → b.credentials) ∧ (a.creates → b.creates) ∧ (a.counters → b.counters) ∧
  (a.pinHash → b.pinHash) ∧ (a.pinRetries → b.pinRetries) ∧ (a.pinEnabled → b.pinEnabled) ∧
  (a.authCounter → b.authCounter) ∧ (a.asks → b.asks) ∧ (a.rnd → b.rnd) ∧ (a.store → b.store)

/-- Everything else is as it was: keys, certificate and PIN token always; of a credential at most the
counter changes; the counter of a new one is 0. -/
structure Keeps (t : Touches) (m m' : Mem) : Prop where
  deviceKey : m'.world.client.deviceKey = m.world.client.deviceKey
  cert : m'.world.client.cert = m.world.client.cert
  certKey : m'.world.client.certKey = m.world.client.certKey
  pinToken : m'.world.client.pinToken = m.world.client.pinToken
  keyAgreement : m'.world.client.keyAgreement = m.world.client.keyAgreement
  vault : m'.world.client.vault = m.world.client.vault
  credentials : t.credentials = false → m'.slots = m.slots
  creates : t.creates = false → m'.heap.length = m.heap.length
  counters : t.counters = false → ∀ (p : Nat) s, m.heap[p]? = some s → m'.heap[p]? = some s
  fresh : t.counters = false → ∀ (p : Nat) s, m.heap.length ≤ p → m'.heap[p]? = some s → s.counter = 0
  entries : ∀ (p : Nat) s, m.heap[p]? = some s → ∃ n, m'.heap[p]? = some { s with counter := n }
  pinHash : t.pinHash = false → m'.world.client.pinHash = m.world.client.pinHash
  pinRetries : t.pinRetries = false → m'.world.client.pinRetries = m.world.client.pinRetries
  pinEnabled : t.pinEnabled = false → m'.world.client.pinEnabled = m.world.client.pinEnabled
  authCounter : t.authCounter = false → m'.world.client.authCounter = m.world.client.authCounter
  asks : t.asks = false → m'.world.asks = m.world.asks
  rnd : t.rnd = false → m'.world.rnd = m.world.rnd
  store : t.store = false → m'.world.store = m.world.store

/-- A ClientPIN request shows that its sender knows the PIN of the client `c`: `pinHashEnc` is the stored hash of the PIN,
encrypted under the secret shared with the sender. -/
def ShowsPIN (E : Env) (data : Bytes) (c : Client) : Prop :=
  ∃ args key secret, E.decodeClientPIN data = some args ∧
    (args.subCommand = 4 ∨ args.subCommand = 5) ∧ args.keyAgreement = some key ∧
    Pin.Secret E c key secret ∧ E.cbcDecrypt secret (args.pinHashEnc.getD []) = c.pinHash.getD []

/-- A ClientPIN request to set the first PIN, when there is none. -/
def FirstPIN (E : Env) (data : Bytes) (c : Client) : Prop :=
  ∃ args, E.decodeClientPIN data = some args ∧ args.subCommand = 3 ∧ c.pinHash = none

/-- What entitles an operation to set the PIN or to be told the PIN token. -/
def Entitled (E : Env) (c : Client) : Op → Prop
  | .setPIN _ => True
  | .ctap (6 :: data) => ShowsPIN E data c ∨ FirstPIN E data c
  | _ => False

/-- A successful answer to a request that sets or changes the PIN or asks for the PIN token. -/
def Granted (E : Env) : Op → Reply → Prop
  | .ctap (6 :: data), .answer (0 :: _) => ∃ args, E.decodeClientPIN data = some args ∧
      (args.subCommand = 3 ∨ args.subCommand = 4 ∨ args.subCommand = 5)
  | _, _ => False

/-- At some step of goroutine `i`, at work on `op`, the state was such that `op` was entitled. -/
def Vouched (E : Env) (cfg : Client.Config) (evs : List Event) (i : Nat) (op : Op) : Prop :=
  ∃ (j : Nat) (p : Prog Reply), evs[j]? = some (.turn i) ∧
    ((boot E cfg).run E cfg (evs.take j)).threads[i]? = some (.working op p) ∧
    Entitled E ((boot E cfg).run E cfg (evs.take j)).mem.world.client op

end VF.Spec.Overlap
