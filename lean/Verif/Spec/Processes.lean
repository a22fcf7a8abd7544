import Verif.Model.Processes

/-!
# Specification: what the running device does by itself
-/

namespace VF.Spec.Processes

open VF.Fido VF.Fido.Processes

/-- The requests and calls of a history, without what other processes did. -/
def ownOps : List Event → List Op
  | [] => []
  | .own op :: evs => op :: ownOps evs
  | .wrote _ :: evs => ownOps evs

end VF.Spec.Processes
