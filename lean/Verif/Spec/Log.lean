import Verif.Model.Log

/-!
# Specification: the log
-/

namespace VF.Spec.Log

open VF.Log

/-- A line: prefix and message, ended by one newline. -/
def line (pre message : Bytes) : Bytes :=
  if message.getLast? = some 10 then pre ++ message else pre ++ message ++ [10]

/-- The number of a level: 0 Unsafe, 1 Trace, 2 Debug, 3 Enabled.  All others are Unsafe. -/
def number (level : UInt8) : Nat := if level.toNat ≤ 3 then level.toNat else 0

/-- The line a call logs, with its level.  Setting the level is logged, at level Enabled. -/
def logged : Op → Option (Nat × Bytes)
  | .print level pre message => some (number level, line pre message)
  | .setLevel level => some (3, ascii s!"[LOG] Log Level Set: {level.toNat}\n")
  | .setOutput _ => none

/-- All lines of a level in a history, in order. -/
def lines (level : Nat) (ops : List Op) : List Bytes :=
  ((ops.filterMap logged).filter (·.1 == level)).map (·.2)

/-- The history enables the level. -/
def Enabled (level : Nat) (ops : List Op) : Prop :=
  level = 3 ∨ ∃ l, Op.setLevel l ∈ ops ∧ l.toNat ≤ level

/-- The output in use at the end. -/
def output (ops : List Op) : Option Nat :=
  ops.foldl (fun out op => match op with | .setOutput o => o | _ => out) none

/-- All bytes written to outputs, in order. -/
def written (s : State) : Bytes := (s.writes.map (·.2)).flatten

end VF.Spec.Log
