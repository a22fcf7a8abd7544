import Verif.Spec.Conversation

/-!
# Specification: several hosts at once

Here the hosts are the programs on the machine the device is attached to; each has a channel of its own.
-/

namespace VF.Spec.Hosts

open VF.Fido VF.Spec.History VF.Spec.Ctaphid

/-- A request that was carried out: the number of the report that completed it, its channel, what was asked and what was
answered. -/
structure Served where
  report : Nat
  channel : UInt32
  op : Op
  reply : Reply

def Served.event (x : Served) : Op × Reply := (x.op, x.reply)

/-- Those of one host. -/
def of (cid : UInt32) (order : List Served) : List Served := order.filter fun x => x.channel == cid

/-- All that was asked, in one order: that of the reports, each on the channel of its request, which is not the
broadcast channel.  The device answered as it
does when it is asked this alone, one after the other, and is now in the state after it. -/
structure OneOrder (E : Env) (cfg : Client.Config) (before : List Op) (now : World) (sent : List Bytes) (order : List Served) :
    Prop where
  answered : order.map (·.event) = events E cfg (Device.after E cfg (Device.boot E cfg) before) (order.map (·.op))
  left : now = (Device.after E cfg (Device.boot E cfg) (before ++ order.map (·.op))).world
  arrival : (order.map (·.report)).Pairwise (· < ·)
  channels : ∀ x ∈ order, x.channel ≠ 0xFFFFFFFF ∧ (sent[x.report]?).bind channelOf = some x.channel

end VF.Spec.Hosts
