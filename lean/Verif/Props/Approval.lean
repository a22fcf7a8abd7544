import Verif.Proofs.Approval
import Verif.Proofs.ToyHistory

/-!
# Everything done on the user's behalf was approved (C92)
-/

namespace VF.Props

open VF.Fido VF.Fido.Device VF.Spec.Client VF.Spec.Vault VF.Spec.History VF.Spec.Approval

variable {E : Env} {cfg : Client.Config}

theorem accounts (L : Laws E) : ∀ (ops : List Op) (d : Device), Inv E cfg Plain d →
    ∃ new, (after E cfg d ops).world.asks = d.world.asks ++ new ∧
      new.length ≤ ops.countP isRequest ∧
      ∀ a, (events E cfg d ops).countP (fun e => claims e == some a) ≤ new.countP (agreed a)
  | [], d, _ => ⟨[], by simp [after_nil], Nat.zero_le _, fun a => Nat.le_refl _⟩
  | op :: ops, d, h => by
    obtain ⟨new, h1, h2, h3⟩ := step_asks L op h
    obtain ⟨later, g1, g2, g3⟩ := accounts L ops _ (plain_step L op h)
    refine ⟨new ++ later, ?_, ?_, ?_⟩
    · rw [after_cons, g1, h1, List.append_assoc]
    · rw [List.length_append, List.countP_cons]
      split at h2 <;> rename_i hr <;> simp only [hr, if_true, if_false] <;> omega
    · intro a
      have := g3 a
      show List.countP _ ((op, (step E cfg d op).1) :: events E cfg (step E cfg d op).2 ops) ≤ _
      rw [List.countP_cons, List.countP_append]
      split
      · rename_i hc
        obtain ⟨q, rfl, q1, q2⟩ := h3 a (by simpa using hc)
        have : [q].countP (agreed a) = 1 := by simp [agreed, q1, q2]
        omega
      · omega

/-- Over any history with restarts and crashes: for each kind of action, there are at least as many
questions the user agreed to as answers that claim it was done with the user's consent. -/
theorem C92_one_approval_each (L : Laws E) (hu : Usable E cfg) (ops : List Op) (a : Action) :
    (events E cfg (boot E cfg) ops).countP (fun e => claims e == some a) ≤
      (after E cfg (boot E cfg) ops).world.asks.countP (agreed a) := by
  obtain ⟨new, h1, -, h3⟩ := accounts L ops _ (plain_boot (cfg := cfg) hu)
  rw [h1, List.countP_append]
  exact Nat.le_trans (h3 a) (Nat.le_add_left _ _)

/-- The user is asked at most once for each request, and never otherwise. -/
theorem C92_no_other_questions (L : Laws E) (hu : Usable E cfg) (ops : List Op) :
    (after E cfg (boot E cfg) ops).world.asks.length ≤ ops.countP isRequest := by
  obtain ⟨new, h1, h2, -⟩ := accounts L ops _ (plain_boot (cfg := cfg) hu)
  rw [h1, List.length_append]
  show 0 + new.length ≤ _
  omega

/-- One approval is not used for two answers: each answer that claims consent is given to a request
during which the user was asked exactly one question, of this kind, and agreed. -/
theorem C92_asked_during_the_request (L : Laws E) (hu : Usable E cfg) (ops : List Op) (op : Op)
    {a : Action}
    (h : claims (op, (step E cfg (after E cfg (boot E cfg) ops) op).1) = some a) :
    ∃ q, (step E cfg (after E cfg (boot E cfg) ops) op).2.world.asks =
        (after E cfg (boot E cfg) ops).world.asks ++ [q] ∧ q.action = a ∧ q.answer = true := by
  have hp : ∀ (ops : List Op) (d : Device), Inv E cfg Plain d → Inv E cfg Plain (after E cfg d ops) := by
    intro ops
    induction ops with
    | nil => exact fun d h => h
    | cons op ops ih => exact fun d h => ih _ (plain_step L op h)
  obtain ⟨new, h1, -, h3⟩ := step_asks L op (hp ops _ (plain_boot (cfg := cfg) hu))
  obtain ⟨q, rfl, q1, q2⟩ := h3 a h
  exact ⟨q, h1, q1, q2⟩

/-- A creation that claims consent. -/
example : ∃ (E : Env) (cfg : Client.Config) (op : Op), Laws E ∧ Usable E cfg ∧
    claims (op, (step E cfg (after E cfg (boot E cfg) []) op).1) = some .makeCredential := by
  let ap : List Ask → Action → Bytes → Bytes → Bool := fun _ _ _ _ => true
  have L := Toy.toy_laws ap
  obtain ⟨b0, w1, blob, m, n, h1, -⟩ := made L
    (w := (boot (Toy.toy ap) (Toy.config false)).world) (Toy.boot_healthy ap false)
    (Toy.boot_attests ap false) (Toy.make_decodes ap [] none (.inl rfl) (by simp))
    (by dsimp only [Toy.makeArgs]; decide +kernel) rfl rfl (flags := 0) rfl rfl
  have s1 := step_ctap (E := Toy.toy ap) (cfg := Toy.config false)
    (d := boot (Toy.toy ap) (Toy.config false)) rfl h1
  refine ⟨Toy.toy ap, Toy.config false, .ctap (0x01 :: Toy.makeData [] none), L,
    Toy.config_usable ap false, ?_⟩
  rw [after_nil, s1]
  rfl

end VF.Props
