import Verif.Model.Mac

/-!
# The memory of the macOS driver

`Verif.Model.Mac` has the driver's queue of reports as a list.  Here it is what it is in C: nodes and
frames in memory that is allocated and freed, with pointers between them.  A read or write through NULL or of memory that is
not allocated, a free of memory that is not allocated, and a copy over the end of a frame are faults.

Simplified: a pointer is a number, 0 is NULL, and points to a whole object; the assignments to the fields of one object in a
row are one write; the methods of one user client do not run at the same time (the default dispatch queue of DriverKit is
serial).  Of the objects of the system (the completion of a call, the device, memory descriptors) only the reference count is there.
-/

namespace VF.MacMemory

open Fido

abbrev Addr := Nat

/-- What can be allocated. -/
inductive Cell where
  /-- util.h:22-26 `linked_list_t` -/
  | list (start last : Addr) (count : UInt32)
  /-- util.h:17-20 `linked_list_node` -/
  | node (data next : Addr)
  /-- USBDriverShared.h:11-14 `usb_driver_hid_frame_t` -/
  | frame (length : UInt8) (data : Bytes)
  /-- USBUserClient.cpp:61-65 `USBUserClient_IVars` -/
  | ivars (device notify saved : Addr)
  /-- an object of the system and its reference count -/
  | object (refs : Nat)
  /-- mac.go:22 the copy of a packet `C.CBytes` makes -/
  | bytes (data : Bytes)
  deriving DecidableEq

inductive Fault where
  /-- through NULL -/
  | null
  /-- of memory that is not allocated, or not as this -/
  | wild
  /-- over the end of an object -/
  | overflow
  deriving DecidableEq

abbrev Heap := List (Addr × Cell)

/-- Memory, how often memory was asked for, and the reports the host was sent (USBDevice.cpp:158 `handleReport`). -/
structure Mem where
  heap : Heap
  calls : Nat
  sent : List Bytes

/-- C code. -/
def C (α : Type) := Mem → Except Fault (α × Mem)

instance : Monad C where
  pure a := fun m => .ok (a, m)
  bind x f := fun m =>
    match x m with
    | .ok (a, m') => f a m'
    | .error e => .error e

def Heap.get (h : Heap) (a : Addr) : Option Cell := (h.find? (fun x => x.1 == a)).map (·.2)

def fault {α : Type} (e : Fault) : C α := fun _ => .error e

/-- A pointer is followed. -/
def load (a : Addr) : C Cell := fun m =>
  if a = 0 then .error .null else
  match m.heap.get a with
  | none => .error .wild
  | some c => .ok (c, m)

def store (a : Addr) (c : Cell) : C Unit := fun m =>
  if a = 0 then .error .null else
  match m.heap.get a with
  | none => .error .wild
  | some _ => .ok ((), { m with heap := m.heap.map (fun x => if x.1 = a then (a, c) else x) })

/-- `IOFree` -/
def free (a : Addr) : C Unit := fun m =>
  match m.heap.get a with
  | none => .error .wild
  | some _ => .ok ((), { m with heap := m.heap.filter (fun x => x.1 ≠ a) })

/-- `IOMallocZero`: where the memory is, is up to the system: `pick`, given the number of the request and the
memory; NULL if there is none. -/
def malloc (pick : Nat → Heap → Addr) (c : Cell) : C Addr := fun m =>
  let a := pick m.calls m.heap
  if a = 0 then .ok (0, { m with calls := m.calls + 1 })
  else .ok (a, { m with heap := (a, c) :: m.heap, calls := m.calls + 1 })

def loadList (a : Addr) : C (Addr × Addr × UInt32) := do
  match ← load a with
  | .list s e n => pure (s, e, n)
  | _ => fault .wild

def loadNode (a : Addr) : C (Addr × Addr) := do
  match ← load a with
  | .node d n => pure (d, n)
  | _ => fault .wild

def loadFrame (a : Addr) : C (UInt8 × Bytes) := do
  match ← load a with
  | .frame l d => pure (l, d)
  | _ => fault .wild

def loadIvars (a : Addr) : C (Addr × Addr × Addr) := do
  match ← load a with
  | .ivars d n s => pure (d, n, s)
  | _ => fault .wild

def loadObject (a : Addr) : C Nat := do
  match ← load a with
  | .object n => pure n
  | _ => fault .wild

/-- `OSObject::retain` -/
def retain (a : Addr) : C Unit := do
  let n ← loadObject a
  store a (.object (n + 1))

/-- `OSObject::release` -/
def release (a : Addr) : C Unit := do
  let n ← loadObject a
  if n ≤ 1 then free a else store a (.object (n - 1))

section
variable (pick : Nat → Heap → Addr)

/-- util.cpp:24-30 `linked_list_alloc` -/
def listAlloc : C Addr := do
  let l ← malloc pick (.list 0 0 0)
  store l (.list 0 0 0)
  pure l

/-- util.cpp:37-41, the loop.  `fuel` is at least the number of objects, of which each turn frees one. -/
def freeNodes : Nat → Addr → C Unit
  | 0, _ => fault .wild
  | fuel + 1, node =>
    if node = 0 then pure () else do
      let n ← loadNode node
      free node
      freeNodes fuel n.2

/-- util.cpp:32-43 `linked_list_free` -/
def listFree (l : Addr) : C Unit := fun m => (do
  if l = 0 then pure () else do
    let c ← loadList l
    freeNodes (m.heap.length + 1) c.1
    free l : C Unit) m

/-- util.cpp:45-57 `linked_list_push` -/
def listPush (l data : Addr) : C Unit := do
  let node ← malloc pick (.node 0 0)
  store node (.node data 0)
  let c ← loadList l
  if c.2.1 = 0 then store l (.list node node (c.2.2 + 1))
  else do
    let n ← loadNode c.2.1
    store c.2.1 (.node n.1 node)
    store l (.list c.1 node (c.2.2 + 1))

/-- util.cpp:59-76 `linked_list_pop_front` -/
def listPop (l : Addr) : C Addr := do
  let c ← loadList l
  if c.1 = 0 then pure 0
  else do
    if c.1 = c.2.1 then store l (.list 0 0 (c.2.2 - 1))
    else do
      let n ← loadNode c.1
      store l (.list n.2 c.2.1 (c.2.2 - 1))
    let n ← loadNode c.1
    free c.1
    pure n.1

/-- USBUserClient.cpp:67-81 `init`; NULL if it fails -/
def init : C Addr := do
  let this ← malloc pick (.ivars 0 0 0)
  if this = 0 then pure 0
  else do
    let l ← listAlloc pick
    store this (.ivars 0 0 l)
    pure this

/-- USBUserClient.cpp:83-88 `free` -/
def destroy (this : Addr) : C Unit := do
  let v ← loadIvars this
  listFree v.2.2
  free this

/-- USBUserClient.cpp:101-107 `clearDeviceIfNecessary`; the reference is the only one that counts here -/
def clearDevice (this : Addr) : C Unit := do
  let v ← loadIvars this
  if v.1 = 0 then pure ()
  else do
    release v.1
    store this (.ivars 0 v.2.1 v.2.2)

inductive Ret where
  | success (out : Bytes)
  | badArgument
  | noFrames
  | error
  deriving DecidableEq

/-- USBUserClient.cpp:127-135 `HandleStartDevice` and USBDevice.cpp:29-44 `newDevice`; `created`: whether the system
makes a device -/
def startDevice (this : Addr) (created : Bool) : C Ret := do
  let v ← loadIvars this
  if created then do
    let d ← malloc pick (.object 1)
    store this (.ivars d v.2.1 v.2.2)
    if d = 0 then pure .error else pure (.success [])
  else do
    store this (.ivars 0 v.2.1 v.2.2)
    pure .error

/-- util.cpp:14-22 `createMemoryDescriptorWithBytes` (which uses the descriptor without looking whether there is one), USBDevice.cpp:155-163 `sendReportFromDevice` and the release
after it -/
def sendReport (report : Bytes) : C Unit := do
  let r ← malloc pick (.object 1)
  let _ ← loadObject r
  (fun m => .ok ((), { m with sent := m.sent ++ [report] }) : C Unit)
  release r

/-- USBUserClient.cpp:150-163 `HandleSendFrame`; the input is absent if its length is 0 -/
def handleSendFrame (this : Addr) (input : Bytes) : C Ret :=
  match input with
  | [] => fault .null
  | length :: data => do
    if length.toNat ≤ 0 ∨ length.toNat > 64 then pure .badArgument
    else do
      let v ← loadIvars this
      if v.1 = 0 then pure (.success [])
      else do
        sendReport pick (data.take length.toNat)
        pure (.success [])

/-- USBUserClient.cpp:169-177 `HandleNotifyFrame` -/
def handleNotifyFrame (this completion : Addr) : C Ret :=
  if completion = 0 then pure .badArgument
  else do
    let v ← loadIvars this
    store this (.ivars v.1 completion v.2.2)
    retain completion
    pure (.success [])

/-- USBUserClient.cpp:209-220 `HandleGetFrame` -/
def handleGetFrame (this : Addr) : C Ret := do
  let v ← loadIvars this
  let f ← listPop v.2.2
  if f = 0 then pure .noFrames
  else do
    let c ← loadFrame f
    free f
    pure (.success (c.1 :: c.2))

/-- USBUserClient.cpp:179-203 `newHIDFrame`, called from USBDevice.cpp:132-143 `setReport` -/
def newHIDFrame (this : Addr) (report : Bytes) : C Unit := do
  let v ← loadIvars this
  if v.2.1 = 0 then pure ()
  else do
    let c ← loadList v.2.2
    if c.2.2.toNat > Mac.maxSavedFrames then do
      let _ ← listPop v.2.2
    let f ← malloc pick (.frame 0 (List.replicate 64 0))
    let old ← loadFrame f
    if report.length > 64 then fault .overflow
    else do
      store f (.frame (UInt8.ofNat report.length) (report ++ old.2.drop report.length))
      listPush pick v.2.2 f
      let _ ← loadObject v.2.1

/-- The arguments of a call: the bytes of the input, whether there is a completion, and whether the system will make
a device. -/
structure Args where
  input : Bytes
  completion : Bool
  created : Bool

/-- USBUserClient.cpp:23-59 `USBDriverMethodChecks`: the length of the input and whether there has to be a completion -/
def checks : Nat → Option (Nat × Bool)
  | 0 => some (65, false)
  | 1 => some (0, true)
  | 2 => some (0, false)
  | 3 => some (0, false)
  | 4 => some (0, false)
  | _ => none

/-- USBUserClient.cpp:109-121 `ExternalMethod` and the functions in the table, :123-125, 137-139 (which calls `HandleSendFrame`), 146-148, 165-167, 205-207.
What the class above does with the table is not in the repository; assumed is that a call is refused unless its input
has the length in the table and it has a completion exactly if the table asks for one (fields not set are 0), that an empty
input is absent, and that a number not in the table is refused.  Refusals are all `badArgument`.  The completion belongs to the
caller, who releases it after the call. -/
def external (this : Addr) (selector : Nat) (a : Args) : C Ret :=
  match checks selector with
  | none => pure .badArgument
  | some (n, completion) =>
    if a.input.length = n ∧ a.completion = completion then
      match selector with
      | 0 => handleSendFrame pick this a.input
      | 1 => do
        let k ← malloc pick (.object 1)
        let r ← handleNotifyFrame this k
        if k = 0 then pure r
        else do
          release k
          pure r
      | 2 => handleGetFrame this
      | 3 => startDevice pick this a.created
      | _ => handleSendFrame pick this a.input
    else pure .badArgument

/-- What the system does with a user client: a call of a method, a report from the host, and `Stop`
(USBUserClient.cpp:90-99). -/
inductive Call where
  | method (selector : Nat) (a : Args)
  | setReport (report : Bytes)
  | stop

def perform (this : Addr) : Call → C Ret
  | .method n a => external pick this n a
  | .setReport r => do
    newHIDFrame pick this r
    pure (.success [])
  | .stop => do
    clearDevice this
    pure (.success [])

/-- Some calls, one after the other. -/
def run (this : Addr) : List Call → C (List Ret)
  | [] => pure []
  | c :: cs => do
    let r ← perform pick this c
    let rs ← run this cs
    pure (r :: rs)

/-- mac.go:19-24 `handleResponse`, client.c:11-16 `send_data` and USBDriverLib.c:154-164 `usb_driver_send_frame`: the frame
handed to the driver, if any.  `garbage` is what happened to be where `send_data` has its frame. -/
def handleResponse (garbage response : Bytes) : C (Option Bytes) :=
  if response.length > 0 then do
    let p ← malloc pick (.bytes response)
    let _ ← load p
    if response.length > 64 then fault .overflow
    else pure (some (UInt8.ofNat response.length :: (response ++ garbage.drop response.length)))
  else pure none

end

/-- Memory before anything is allocated. -/
def Mem.empty : Mem := ⟨[], 0, []⟩

end VF.MacMemory
