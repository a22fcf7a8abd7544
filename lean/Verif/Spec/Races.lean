import Verif.Model.Mac

/-!
# Goroutines that use the same memory at the same time
-/

namespace VF.Spec.Races

open VF VF.Fido

/-- What goroutine `i` does next changes the table of channels. -/
def ChangesTable (E : Env) (cfg : Client.Config) (grow : Nat → Nat → Nat) (s : Live.State) (i : Nat) : Prop :=
  ∃ s', s.step E cfg grow (.step i) = some s' ∧ s'.hid.table ≠ s.hid.table

/-- Goroutine `i` is about to look up a channel in the table: what it does next depends on what is there. -/
def LooksUp (s : Live.State) (i : Nat) : Prop :=
  ∃ r cid rest, s.hid.routines[i]? = some r ∧ r.phase = .arrived ∧ Util.readLE32 r.report = .ok (cid, rest)

/-- A race for the table of channels. -/
def Race (E : Env) (cfg : Client.Config) (grow : Nat → Nat → Nat) (s : Live.State) : Prop :=
  ∃ i j, i ≠ j ∧ ChangesTable E cfg grow s i ∧ (ChangesTable E cfg grow s j ∨ LooksUp s j)

end VF.Spec.Races
