import Verif.Proofs.PinTwin
import Verif.Proofs.Status
import Verif.Proofs.Restore
import Verif.Proofs.ToyHistory
import Verif.Props.PinProtocol

/-!
# C115: what guesses tell about the PIN
-/

namespace VF.Props

open VF.Fido VF.Fido.Device VF.Fido.Secrecy VF.Spec.Client VF.Spec.History VF.Spec.Pin VF.Spec.Secrecy

variable {E : Env} {cfg : Client.Config}

theorem run_append (d : Device) (xs ys : List Op) :
    run E cfg d (xs ++ ys) =
      ((run E cfg d xs).1 ++ (run E cfg (after E cfg d xs) ys).1, (run E cfg (after E cfg d xs) ys).2) := by
  induction xs generalizing d with
  | nil => rfl
  | cons op xs ih => rw [List.cons_append, run_cons, ih, run_cons]; rfl

/-- A healthy device with one of two PINs set. -/
theorem twin_set (L : Laws E) {d : Device} (ha : d.alive = true) (hh : Healthy E d.world.client) (p1 p2 : Bytes) :
    step E cfg d (.setPIN p1) = (.done, (step E cfg d (.setPIN p1)).2) ∧
    step E cfg d (.setPIN p2) = (.done, (step E cfg d (.setPIN p2)).2) ∧
    TwinDevice E (hash E p1) (hash E p2) (step E cfg d (.setPIN p1)).2 (step E cfg d (.setPIN p2)).2 := by
  have texts : Texts d.world.client.vault := by
    intro s hs
    obtain ⟨-, -, h1, ⟨rp, e1, h2⟩, ⟨u, e2, h3⟩⟩ := hh.2.2.2.2 s hs
    refine ⟨h1, fun r e => ?_, fun u' e => ?_⟩
    · rw [e1] at e; cases e; exact h2
    · rw [e2] at e; cases e; exact h3
  let c : Bytes → Client := fun p => { d.world.client with pinHash := some (hash E p) }
  let w : Bytes → World := fun p => { d.world with client := c p }
  have hp : ∀ p, Healthy E (c p) := fun p => Ctap.healthy_pin L hh d.world.client.pinRetries p
  have hc : TwinClient (hash E p1) (hash E p2) (w p1).client (w p2).client :=
    ⟨rfl, ⟨⟨_, rfl, hash_ne L p1⟩, ⟨_, rfl, hash_ne L p2⟩, .inr ⟨rfl, rfl⟩⟩, texts⟩
  have e : ∀ p, perform E (.setPIN p) d.world = (do Client.saveData E; pure .done : Go World Reply) (w p) := fun p => rfl
  rw [step_live rfl ha, step_live rfl ha, e, e]
  rcases save_twin (w1 := w p1) (w2 := w p2) L hc rfl rfl with
    ⟨a, v1, v2, e1, e2, hv⟩ | ⟨q, q', v1, v2, e1, -, -, -⟩
  · rw [Go.run_bind_ok e1, Go.run_bind_ok e2]
    exact ⟨rfl, rfl, rfl, hv.dead, fun _ => hv.client⟩
  · exfalso
    rcases Ctap.saveData_cases E (w p1) with ⟨_, -, h⟩ | ⟨_, _, -, h⟩
    · obtain ⟨blob, hs⟩ := healthy_saves L (hp p1) (w p1).rnd
      exact h _ _ hs
    · rw [h] at e1
      cases e1

/-- C115: guesses that are wrong tell nothing of the PIN: after the same history two PINs are set, and what
follows is the same for both, restarts included, and never presents the right PIN of either device.
Then all replies are the same, and the user is asked the same. -/
theorem C115_wrong_guesses_tell_nothing (L : Laws E) (hu : Usable E cfg) (ops0 ops : List Op) (p1 p2 : Bytes)
    (hg : ∀ before op rest, ops = before ++ op :: rest → ∀ h,
      Presents E (after E cfg (boot E cfg) (ops0 ++ .setPIN p1 :: before)).world.client op h →
      h ≠ hash E p1 ∧ h ≠ hash E p2) :
    (run E cfg (boot E cfg) (ops0 ++ .setPIN p1 :: ops)).1 =
      (run E cfg (boot E cfg) (ops0 ++ .setPIN p2 :: ops)).1 ∧
    (after E cfg (boot E cfg) (ops0 ++ .setPIN p1 :: ops)).world.asks =
      (after E cfg (boot E cfg) (ops0 ++ .setPIN p2 :: ops)).world.asks := by
  have ea : ∀ p l, after E cfg (boot E cfg) (ops0 ++ .setPIN p :: l) =
      after E cfg (step E cfg (after E cfg (boot E cfg) ops0) (.setPIN p)).2 l := by
    intro p l
    rw [after_append, after_cons]
  rw [run_append, run_append, run_cons, run_cons, ea, ea]
  obtain ⟨c, hh, -, -, hl⟩ := inv_reachable (cfg := cfg) L hu ops0
  cases ha : (after E cfg (boot E cfg) ops0).alive with
  | false => rw [step_dead rfl ha, step_dead rfl ha]; exact ⟨rfl, rfl⟩
  | true =>
    rw [hl ha] at hh
    obtain ⟨e1, e2, ht⟩ := twin_set (cfg := cfg) L ha hh p1 p2
    obtain ⟨e3, h3⟩ := twin_run L ops ht fun before op rest e _ x hx =>
      hg before op rest e x (by rw [ea]; exact hx)
    refine ⟨?_, h3.2.1.asks.symm⟩
    rw [e1, e2]
    dsimp only
    rw [e3]

/-! ### Concrete cases -/

/-- A request presents one hash only. -/
theorem presents_token (L : Laws E) {c : Client} {platform : ECDHKey} {key : EC2Key} {secret pin h : Bytes}
    (ha : Agreement E c platform key secret)
    (hp : Presents E c (.ctap (request (getPINToken E key secret pin))) h) : h = hash E pin := by
  obtain ⟨data, args, key', secret', e1, e2, -, e3, e4, rfl⟩ := hp
  injection e1 with e1
  injection e1 with _ e1
  rw [← e1, L.decode_clientPIN _ (getPINToken_fits L ha)] at e2
  cases e2
  cases e3
  obtain ⟨q1, q2, -, -⟩ := agreement_secret L ha
  rcases Ctap.secret_cases L c key with ⟨s, h1, -, -, h4⟩ | ⟨q, h1, -⟩
  · rw [q1] at h1
    cases h1
    rw [h4 secret' e4]
    exact L.cbc_decrypt _ _ q2 (by rw [hash_length L])
  · rw [q1] at h1
    cases h1

end VF.Props
