import Verif.Model.Reports
import Verif.Spec.Log

/-!
# What is kept in memory

Sizes only; the capacity Go reserves beyond the length of slices and buffers is not counted.
-/

namespace VF.Spec.Kept

open VF.Reports

/-- The bytes a channel keeps of an incomplete request. -/
def collected (c : Chan) : Nat :=
  match c.transaction with
  | some t => match t.result with
    | some r => r.payload.data.length
    | none => 0
  | none => 0

/-- The reports that came in. -/
def arrivals (es : List Event) : List Bytes :=
  es.filterMap fun e => match e with
    | .arrive r => some r
    | _ => none

/-- The bytes the log has in memory. -/
def buffered (s : Log.State) : Nat :=
  s.unsafeBuf.length + s.traceBuf.length + s.debugBuf.length + s.enabledBuf.length

/-- The length of all lines of a level. -/
def volume (level : Nat) (ops : List Log.Op) : Nat := (Log.lines level ops).flatten.length

/-- The history shows the level: it is Enabled, or the level was set to it or to one below. -/
def shown (level : Nat) (ops : List Log.Op) : Bool :=
  level == 3 || ops.any fun op => match op with
    | .setLevel l => decide (l.toNat ≤ level)
    | _ => false

/-- The length of all lines of the levels that are not shown. -/
def unshown (ops : List Log.Op) : Nat :=
  (((List.range 4).filter fun level => !shown level ops).map fun level => volume level ops).sum

end VF.Spec.Kept
