import Verif.Spec.Overlap
import Verif.Spec.History
import Verif.Spec.Footprint
import Verif.Spec.Store

/-!
# Operations of one kind one at a time, whatever else overlaps
-/

namespace VF.Spec.Overlap

open VF.Fido VF.Fido.Overlap VF.Spec.History

/-- After `evs`, while `evs'` happens, the process is not restarted, and never are two operations of the kind
`kind` at work at the same time; at the beginning none is.  All other operations may overlap with each other and with
these in any way. -/
structure Exclusive (kind : Op → Bool) (E : Env) (cfg : Client.Config) (evs evs' : List Event) : Prop where
  running : .restart ∉ evs'
  quiet : ∀ op p, Thread.working op p ∈ ((boot E cfg).run E cfg evs).threads → kind op = false
  one : ∀ (n i j : Nat) op op' p p',
    ((boot E cfg).run E cfg (evs ++ evs'.take n)).threads[i]? = some (.working op p) →
    ((boot E cfg).run E cfg (evs ++ evs'.take n)).threads[j]? = some (.working op' p') →
    kind op = true → kind op' = true → i = j

/-- Requests about the PIN: `authenticatorClientPIN`. -/
def isClientPIN : Op → Bool
  | .ctap (6 :: _) => true
  | _ => false

/-- Requests and calls that change the list of credentials: creation and deletion. -/
def changesList : Op → Bool
  | .ctap (1 :: _) => true
  | .deleteIdentity _ => true
  | _ => false

/-- Requests and calls that save the state of the device. -/
def saves (E : Env) (op : Op) : Bool := (touches E op).store

/-- A credential of the device is the announced one: its id and public key. -/
def Is (c : Store.Cred) (s : Source) : Prop := s.id = c.id ∧ Cose.publicOf s.key = .ok { ecdsa := some c.key }

/-- Answers that say whether a PIN was right. -/
def tried (E : Env) (e : Op × Reply) : Bool := isWrongPIN e || isRightPIN E e

/-- Of these answers, no more than eight wrong PINs come without a right one between them, and after eight none is looked at any
more: the next answer can only be to a request that sets the first PIN. -/
def EightInARow (E : Env) (l : List (Op × Reply)) : Prop :=
  ∀ a b c, l = a ++ b ++ c → (∀ e ∈ b, isRightPIN E e = false) →
    b.countP isWrongPIN ≤ 8 ∧ (b.countP isWrongPIN = 8 → ∀ e ∈ c.head?, isSetPIN E e.1 = true)

/-- The results of a process that `sel` selects, in the order in which their operations began. -/
def selected (sel : Op × Reply → Bool) (s : Process) : List (Op × Reply) := (results s).filter sel

/-- Of all credentials made or loaded since the process started, no two have the same id. -/
def DistinctIds (m : Mem) : Prop := (m.heap.map (·.id)).Nodup

/-- How many operations of the kind were begun. -/
def begun (kind : Op → Bool) (s : Process) : Nat := s.threads.countP (fun t => kind (opOf t))

end VF.Spec.Overlap
