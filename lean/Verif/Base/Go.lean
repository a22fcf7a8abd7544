/-!
# A small model of Go execution

Go code is modelled by total Lean functions.  A run-time panic is an explicit result.
Stateful code lives in `Go W α := W → Res α × W`: the state reached at a panic is kept,
because effects performed before a panic (a saved file, a packet already sent) remain
visible to the outside.
-/

namespace VF

/-- Why a Go computation panicked.  Only used for documentation and witnesses. -/
inductive Cause where
  /-- `util.Panic`, `panic(...)`, `util.Assert` -/
  | explicit
  /-- `util.CheckErr` on a non-nil error -/
  | checkErr
  /-- nil pointer dereference -/
  | nilDeref
  /-- slice bounds or index out of range -/
  | bounds
  /-- a panic raised inside a library (e.g. CBC on partial blocks, GCM nonce size) -/
  | library
  deriving DecidableEq, Repr

/-- Result of running Go code: a value, or a panic that unwinds the goroutine. -/
inductive Res (α : Type) where
  | ok (a : α)
  | panic (c : Cause)
  deriving DecidableEq, Repr

namespace Res

/-- Sequencing of pure computations that may panic. -/
def bind {α β : Type} : Res α → (α → Res β) → Res β
  | ok a, f => f a
  | panic c, _ => panic c

instance : Monad Res where
  pure := Res.ok
  bind := Res.bind

@[simp] theorem bind_ok {α β : Type} (a : α) (f : α → Res β) : (Res.ok a >>= f) = f a := rfl
@[simp] theorem bind_panic {α β : Type} (c : Cause) (f : α → Res β) :
    ((Res.panic c : Res α) >>= f) = Res.panic c := rfl
@[simp] theorem pure_eq {α : Type} (a : α) : (pure a : Res α) = Res.ok a := rfl

/-- Did the computation panic? -/
def isPanic {α : Type} : Res α → Bool
  | ok _ => false
  | panic _ => true

@[simp] theorem isPanic_ok {α : Type} (a : α) : (Res.ok a).isPanic = false := rfl
@[simp] theorem isPanic_panic {α : Type} (c : Cause) : (Res.panic c : Res α).isPanic = true := rfl

end Res

/-- Go code acting on a state `W`.  The state survives a panic. -/
def Go (W : Type) (α : Type) : Type := W → Res α × W

namespace Go

variable {W : Type} {α β : Type}

/-- Run a computation from a state. -/
def run (x : Go W α) (w : W) : Res α × W := x w

def pure (a : α) : Go W α := fun w => (Res.ok a, w)

def bind (x : Go W α) (f : α → Go W β) : Go W β := fun w =>
  match x w with
  | (Res.ok a, w') => f a w'
  | (Res.panic c, w') => (Res.panic c, w')

instance : Monad (Go W) where
  pure := Go.pure
  bind := Go.bind

/-- `panic` -/
def throw (c : Cause) : Go W α := fun w => (Res.panic c, w)
/-- read the state -/
def get : Go W W := fun w => (Res.ok w, w)
/-- update the state -/
def modify (f : W → W) : Go W Unit := fun w => (Res.ok (), f w)
/-- run a pure computation that may panic -/
def lift (r : Res α) : Go W α := fun w => (r, w)

@[simp] theorem run_pure (a : α) (w : W) : (Pure.pure a : Go W α) w = (Res.ok a, w) := rfl
@[simp] theorem run_throw (c : Cause) (w : W) : (throw c : Go W α) w = (Res.panic c, w) := rfl
@[simp] theorem run_get (w : W) : (get : Go W W) w = (Res.ok w, w) := rfl
@[simp] theorem run_modify (f : W → W) (w : W) : (modify f : Go W Unit) w = (Res.ok (), f w) := rfl
@[simp] theorem run_lift (r : Res α) (w : W) : (lift r : Go W α) w = (r, w) := rfl

theorem run_bind (x : Go W α) (f : α → Go W β) (w : W) :
    (x >>= f) w = match x w with
      | (Res.ok a, w') => f a w'
      | (Res.panic c, w') => (Res.panic c, w') := rfl

theorem run_bind_ok {x : Go W α} {f : α → Go W β} {w w' : W} {a : α}
    (h : x w = (Res.ok a, w')) : (x >>= f) w = f a w' := by
  rw [run_bind, h]

theorem run_bind_panic {x : Go W α} {f : α → Go W β} {w w' : W} {c : Cause}
    (h : x w = (Res.panic c, w')) : (x >>= f) w = (Res.panic c, w') := by
  rw [run_bind, h]

@[simp] theorem pure_bind (a : α) (f : α → Go W β) : ((Pure.pure a : Go W α) >>= f) = f a := rfl
@[simp] theorem throw_bind (c : Cause) (f : α → Go W β) :
    ((throw c : Go W α) >>= f) = throw c := rfl
@[simp] theorem get_bind_run (f : W → Go W β) (w : W) : ((get : Go W W) >>= f) w = f w w := rfl
@[simp] theorem modify_bind_run (g : W → W) (f : Unit → Go W β) (w : W) :
    ((modify g : Go W Unit) >>= f) w = f () (g w) := rfl
@[simp] theorem lift_ok_bind (a : α) (f : α → Go W β) : ((lift (.ok a) : Go W α) >>= f) = f a := rfl
@[simp] theorem lift_panic_bind (c : Cause) (f : α → Go W β) :
    ((lift (.panic c) : Go W α) >>= f) = throw c := rfl

/-- Two-sided weakest precondition: `wp x Q w` says that running `x` from `w` ends, with a value
or a panic, in a result and state satisfying `Q`. -/
def wp (x : Go W α) (Q : Res α → W → Prop) (w : W) : Prop := Q (x w).1 (x w).2

theorem wp_iff (x : Go W α) (Q : Res α → W → Prop) (w : W) : wp x Q w ↔ Q (x w).1 (x w).2 :=
  Iff.rfl

@[simp] theorem wp_pure (a : α) (Q : Res α → W → Prop) (w : W) :
    wp (Pure.pure a : Go W α) Q w ↔ Q (.ok a) w := Iff.rfl
@[simp] theorem wp_throw (c : Cause) (Q : Res α → W → Prop) (w : W) :
    wp (throw c : Go W α) Q w ↔ Q (.panic c) w := Iff.rfl
@[simp] theorem wp_get (Q : Res W → W → Prop) (w : W) : wp (get : Go W W) Q w ↔ Q (.ok w) w :=
  Iff.rfl
@[simp] theorem wp_modify (f : W → W) (Q : Res Unit → W → Prop) (w : W) :
    wp (modify f : Go W Unit) Q w ↔ Q (.ok ()) (f w) := Iff.rfl
@[simp] theorem wp_lift (r : Res α) (Q : Res α → W → Prop) (w : W) :
    wp (lift r : Go W α) Q w ↔ Q r w := Iff.rfl

theorem wp_bind (x : Go W α) (f : α → Go W β) (Q : Res β → W → Prop) (w : W) :
    wp (x >>= f) Q w ↔
      wp x (fun r w' => match r with
        | .ok a => wp (f a) Q w'
        | .panic c => Q (.panic c) w') w := by
  unfold wp
  rw [run_bind]
  rcases h : x w with ⟨r, w'⟩
  cases r <;> simp

theorem wp_mono {x : Go W α} {Q R : Res α → W → Prop} {w : W}
    (h : wp x Q w) (hqr : ∀ r w', Q r w' → R r w') : wp x R w := hqr _ _ h

end Go
end VF
