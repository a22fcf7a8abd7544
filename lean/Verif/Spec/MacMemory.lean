import Verif.Model.MacMemory

/-!
# Specification: what the driver does, without memory
-/

namespace VF.Spec.MacMemory

open VF.MacMemory

/-- The system gives memory that is not NULL and not in use. -/
def Provides (pick : Nat → Heap → Addr) : Prop :=
  ∀ n h, pick n h ≠ 0 ∧ ∀ x ∈ h, x.1 ≠ pick n h

/-- What the driver knows: whether somebody is to be notified of reports, whether there is a device, the reports waiting,
oldest first, and the reports the host was sent. -/
structure Driver where
  notified : Bool := false
  device : Bool := false
  waiting : List Bytes := []
  sent : List Bytes := []

/-- A report as it is handed over: its length and 64 bytes, zeros at the end. -/
def frameOf (report : Bytes) : Bytes :=
  UInt8.ofNat report.length :: (report ++ List.replicate (64 - report.length) 0)

/-- A report makes the driver forget the oldest when more than sixteen are waiting. -/
def forgets (d : Driver) : Call → Bool
  | .setReport _ => d.notified && decide (16 < d.waiting.length)
  | _ => false

def Driver.step (d : Driver) : Call → Ret × Driver
  | .setReport r =>
    (.success [], if d.notified then
      { d with waiting := (if 16 < d.waiting.length then d.waiting.tail else d.waiting) ++ [r] } else d)
  | .stop => (.success [], { d with device := false })
  | .method 0 ⟨length :: data, false, _⟩ =>
    if data.length ≠ 64 ∨ length.toNat = 0 ∨ 64 < length.toNat then (.badArgument, d)
    else (.success [], if d.device then { d with sent := d.sent ++ [data.take length.toNat] } else d)
  | .method 1 ⟨[], true, _⟩ => (.success [], { d with notified := true })
  | .method 2 ⟨[], false, _⟩ =>
    match d.waiting with
    | [] => (.noFrames, d)
    | r :: rest => (.success (frameOf r), { d with waiting := rest })
  | .method 3 ⟨[], false, created⟩ =>
    (if created then .success [] else .error, { d with device := created })
  | _ => (.badArgument, d)

def Driver.run (d : Driver) : List Call → List Ret × Driver
  | [] => ([], d)
  | c :: cs => ((d.step c).1 :: ((d.step c).2.run cs).1, ((d.step c).2.run cs).2)

/-- How many reports are forgotten. -/
def Driver.forgotten (d : Driver) : List Call → Nat
  | [] => 0
  | c :: cs => (if forgets d c then 1 else 0) + (d.step c).2.forgotten cs

/-- The references to objects of the system the driver has or has lost, if it was `n`: each completion it is given and
each device made is one more, and only `Stop` gives one back, that of the device it knows. -/
def Driver.references (d : Driver) (n : Nat) : List Call → Nat
  | [] => n
  | c :: cs => (d.step c).2.references
      (match c with
        | .stop => if d.device then n - 1 else n
        | .method 1 ⟨[], true, _⟩ => n + 1
        | .method 3 ⟨[], false, true⟩ => n + 1
        | _ => n) cs

/-- Reports have the length the report descriptor gives, or less, and nobody calls the method StopDevice. -/
def Fine : Call → Prop
  | .setReport r => r.length ≤ 64
  | .method 4 a => ¬ (a.input = [] ∧ a.completion = false)
  | _ => True

/-- How much of what is allocated is a frame, and so on. -/
def frames (m : Mem) : Nat := m.heap.countP fun x => match x.2 with | .frame .. => true | _ => false
def nodes (m : Mem) : Nat := m.heap.countP fun x => match x.2 with | .node .. => true | _ => false
def lists (m : Mem) : Nat := m.heap.countP fun x => match x.2 with | .list .. => true | _ => false
def ivarses (m : Mem) : Nat := m.heap.countP fun x => match x.2 with | .ivars .. => true | _ => false
def objects (m : Mem) : Nat := m.heap.countP fun x => match x.2 with | .object .. => true | _ => false

/-- Everything allocated before is still there and as it was. -/
def Undisturbed (before after : Mem) : Prop :=
  ∀ a c, before.heap.get a = some c → after.heap.get a = some c

/-- Memory in which each address is in use at most once, and NULL is not. -/
def Sane (m : Mem) : Prop := (m.heap.map (·.1)).Nodup ∧ ∀ x ∈ m.heap, x.1 ≠ 0

end VF.Spec.MacMemory
