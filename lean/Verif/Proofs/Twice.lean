import Verif.Proofs.Device

/-!
# Two runs of the same code

Relational reasoning about the code run twice, from two related states.
-/

namespace VF.Go

variable {W α β : Type}

/-- The code `x` from `w1` and the code `y` from `w2` do the same: both panic, in states related by `P`,
or both return the same, in states related by `R`. -/
def Twice (R P : W → W → Prop) (x y : Go W α) (w1 w2 : W) : Prop :=
  (∃ a w1' w2', x w1 = (.ok a, w1') ∧ y w2 = (.ok a, w2') ∧ R w1' w2') ∨
  (∃ c c' w1' w2', x w1 = (.panic c, w1') ∧ y w2 = (.panic c', w2') ∧ P w1' w2')

variable {R P : W → W → Prop} {w1 w2 : W}

theorem Twice.bind {x y : Go W α} {f g : α → Go W β} (h : Twice R P x y w1 w2)
    (hf : ∀ a v1 v2, R v1 v2 → Twice R P (f a) (g a) v1 v2) : Twice R P (x >>= f) (y >>= g) w1 w2 := by
  rcases h with ⟨a, v1, v2, h1, h2, hr⟩ | ⟨c, c', v1, v2, h1, h2, hp⟩
  · have := hf a v1 v2 hr
    unfold Twice at *
    rwa [run_bind_ok h1, run_bind_ok h2]
  · exact .inr ⟨c, c', v1, v2, run_bind_panic h1, run_bind_panic h2, hp⟩

theorem Twice.pure (a : α) (h : R w1 w2) : Twice R P (Pure.pure a) (Pure.pure a) w1 w2 :=
  .inl ⟨a, w1, w2, rfl, rfl, h⟩

theorem Twice.throw (c c' : Cause) (h : P w1 w2) : Twice R P (Go.throw c : Go W α) (Go.throw c') w1 w2 :=
  .inr ⟨c, c', w1, w2, rfl, rfl, h⟩

theorem Twice.lift (r : Res α) (h : R w1 w2) (hp : P w1 w2) : Twice R P (Go.lift r) (Go.lift r) w1 w2 := by
  cases r with
  | ok a => exact .inl ⟨a, w1, w2, rfl, rfl, h⟩
  | panic c => exact .inr ⟨c, c, w1, w2, rfl, rfl, hp⟩

theorem Twice.get {f g : W → Go W β} (h : Twice R P (f w1) (g w2) w1 w2) :
    Twice R P ((Go.get : Go W W) >>= f) ((Go.get : Go W W) >>= g) w1 w2 := h

theorem Twice.modify {f g : W → W} (h : R (f w1) (g w2)) : Twice R P (Go.modify f) (Go.modify g) w1 w2 :=
  .inl ⟨(), _, _, rfl, rfl, h⟩

end VF.Go
