import Verif.Model.Mac
import Verif.Spec.Live

/-!
# Words for statements about the device on macOS
-/

namespace VF.Spec.Mac

open VF.Fido VF.Mac

/-- The report a host sends. -/
def sentOf : Event → Option Bytes
  | .setReport m => some m
  | _ => none

/-- The reports hosts sent, in this order. -/
def sent (evs : List Event) : List Bytes := evs.filterMap sentOf

/-- The reports the process was given, in this order. -/
def given (s : State) : List Bytes := s.live.hid.routines.map (·.report)

/-- Reports are only sent when at most sixteen others are waiting in the driver. -/
def Paced (E : Env) (cfg : Client.Config) (grow : Nat → Nat → Nat) (s : State) (evs : List Event) : Prop :=
  ∀ evs1 evs2 s1 m, evs = evs1 ++ .setReport m :: evs2 → s.run E cfg grow evs1 = some s1 → s1.saved.length ≤ 16

/-- The embedding program does not call the API meanwhile. -/
def NoApi (evs : List Event) : Prop := ∀ op, Event.inside (.api op) ∉ evs

/-- Nothing more happens unless a host sends a report, the embedding program calls the API, or a keepalive is sent. -/
def AtRest (E : Env) (cfg : Client.Config) (grow : Nat → Nat → Nat) (s : State) : Prop :=
  s.step E cfg grow .notice = none ∧
  ∀ e, (∀ op, e ≠ .api op) → (∀ i, e ≠ .keepalive i) → s.step E cfg grow (.inside e) = none

end VF.Spec.Mac
