import Verif.Spec.Ctaphid

/-!
# Specification: reports the device understands

A report is 64 bytes.  One that begins a message has a command known on its channel: INIT, PING and CANCEL on the
broadcast channel, MSG, CBOR, PING and CANCEL on any other.
-/

namespace VF.Spec.Readable

open VF.Spec.Ctaphid

/-- Commands of messages on a channel. -/
def Known (cid : UInt32) (command : UInt8) : Prop :=
  if cid = 0xFFFFFFFF then command = 0x86 ∨ command = 0x81
  else command = 0x83 ∨ command = 0x90 ∨ command = 0x81

/-- The report is understood. -/
def Readable (report : Bytes) : Prop :=
  report.length = 64 ∧ ∀ cid command, channelOf report = some cid → commandOf report = some command →
    128 ≤ command.toNat → command = 0x91 ∨ Known cid command

end VF.Spec.Readable
