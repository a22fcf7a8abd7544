import Verif.Model.Launch
import Verif.Proofs.History
import Verif.Spec.Attestation

/-!
# Starts of the demo program: lemmas
-/

namespace VF.Fido.Launch

open VF.Spec.Client VF.Spec.History VF.Spec.Cose VF.Spec.Attestation
open Client Device

variable {E : Env} {cfg : Config}

/-- With something saved, the arguments do not matter. -/
theorem start_any (cfg cfg' : Config) (data : Bytes) (rnd : Nat) :
    start E cfg (some data) rnd = start E cfg' (some data) rnd := rfl

theorem Restores_any {cfg' : Config} {data : Bytes} {c : Client} (h : Restores E cfg (some data) c) :
    Restores E cfg' (some data) c := h

theorem step_own (cfg : Config) (d : Device) {op : Op} (h : isRestart op = false) :
    step E d op = Device.step E cfg d op := by
  cases op <;> first | rfl | cases h

theorem after_append (d : Device) (xs ys : List Op) :
    after E d (xs ++ ys) = after E (after E d xs) ys := by
  induction xs generalizing d with
  | nil => rfl
  | cons op xs ih => exact ih _

theorem after_cons (d : Device) (op : Op) (ops : List Op) :
    after E d (op :: ops) = after E (step E d op).2 ops := rfl

/-- The arguments of a start with draws from `i` on. -/
def Made (E : Env) (cfg : Config) (i : Nat) : Prop :=
  cfg.certKey = Cose.createCAPrivateKey E i ∧
  Cose.createSelfSignedCA E cfg.certKey (i + 1) = .ok (some cfg.cert) ∧
  cfg.deviceKey = E.sha256 (ascii "test") ∧ Usable E cfg ∧ cfg.enablePIN = false

theorem config_made (L : Laws E) (i : Nat) : ∃ cfg, config E i = .ok (some cfg) ∧ Made E cfg i := by
  have hv := L.genEC_valid i
  obtain ⟨ca, hc⟩ := L.createCA_ok _ (i + 1) hv
  have h1 := (L.createCert_sound _ _ _ _ _ _ hc).1
  have e : Cose.createSelfSignedCA E (Cose.createCAPrivateKey E i) (i + 1) = .ok (some ca) := by
    show (match E.createCert (Cose.caTemplate E (i + 1)) none { ecdsa := some (E.genEC i).pub }
      { ecdsa := some (E.genEC i) } (i + 1) with
      | none => Res.ok none
      | some cert => if E.parseCert cert then Res.ok (some cert) else Res.ok none) = _
    rw [hc]
    simp only [h1, if_true]
  refine ⟨⟨ca, Cose.createCAPrivateKey E i, E.sha256 (ascii "test"), false⟩, ?_, rfl, e, rfl, ⟨h1, .ecdsa _, hv⟩, rfl⟩
  unfold config
  simp only [e, Res.bind_ok]

/-- A start with a file. -/
theorem keeps_launch_saved (L : Laws E) {d : Device} {data : Bytes} (hs : d.world.store = some data)
    (h : Keeps E cfg d) :
    Keeps E cfg (step E d .restart).2 ∧ (step E d .restart).2.world.store = some data ∧
      (step E d .restart).1 = .started ∧ (step E d .restart).2.alive = true := by
  obtain ⟨c, h1, h2, ⟨k1, k2, k3⟩, h4⟩ := h
  obtain ⟨cfg', hc, -⟩ := config_made L d.world.rnd
  obtain ⟨c', s1, s2, s3, -, s5⟩ := h2 (d.world.rnd + 2)
  have e : step E d .restart =
      (.started, ⟨{ d.world with client := c', rnd := d.world.rnd + 4 }, true⟩) := by
    have s1' : start E cfg' d.world.store (d.world.rnd + 2) = .ok c' := by
      rw [hs] at s1 ⊢
      exact s1
    simp only [step, hc, s1']
  rw [e]
  exact ⟨⟨c', s3, h2.same s2 (last_of_uniform s2.2.2.2.2.2 s5),
    ⟨s2.1.symm.trans k1, s2.2.1.symm.trans k2, SamePrivate.trans k3 s2.2.2.1⟩, fun _ => rfl⟩, hs, rfl, rfl⟩

/-- A start without a file. -/
theorem keeps_launch_new (L : Laws E) {d : Device} (hs : d.world.store = none) :
    ∃ cfg, Made E cfg d.world.rnd ∧ step E d .restart =
      (.started, ⟨{ d.world with client := fresh E cfg (d.world.rnd + 2), rnd := d.world.rnd + 4 }, true⟩) ∧
      Keeps E cfg (step E d .restart).2 := by
  obtain ⟨cfg, hc, hm⟩ := config_made L d.world.rnd
  have hu := hm.2.2.2.1
  have hh : ∀ rnd, Healthy E (fresh E cfg rnd) := by
    intro rnd
    exact ⟨hu.1, hu.2.1, hu.2.2, by simp [fresh], by simp [fresh]⟩
  have e : step E d .restart =
      (.started, ⟨{ d.world with client := fresh E cfg (d.world.rnd + 2), rnd := d.world.rnd + 4 }, true⟩) := by
    simp only [step, hc, hs, start]
  refine ⟨cfg, hm, e, ?_⟩
  rw [e]
  refine ⟨fresh E cfg (d.world.rnd + 2), hh _, ?_, ⟨rfl, rfl, SamePrivate.refl _⟩, fun _ => rfl⟩
  intro rnd
  rw [hs]
  exact ⟨fresh E cfg rnd, rfl, ⟨rfl, rfl, SamePrivate.refl _, rfl, rfl, SameCredentials.refl _⟩,
    hh rnd, rfl, by simp [fresh]⟩

theorem step_rnd (L : Laws E) (d : Device) (op : Op) : d.world.rnd ≤ (step E d op).2.world.rnd := by
  cases hr : isRestart op with
  | false =>
    obtain ⟨cfg, -, -⟩ := config_made L 0
    rw [step_own cfg d hr]
    exact Device.step_rnd L d op
  | true =>
    cases op with
    | restart =>
      unfold step
      dsimp only
      split
      · split <;> exact Nat.le_add_right _ _
      · exact Nat.le_add_right _ _
    | _ => cases hr

/-- What is saved stays. -/
theorem step_saved (L : Laws E) {d : Device} {op : Op} (hr : isRestart op = false)
    (hs : d.world.store ≠ none) : (step E d op).2.world.store ≠ none := by
  obtain ⟨cfg, -, -⟩ := config_made L 0
  rw [step_own cfg d hr]
  cases ha : d.alive with
  | false => rw [step_dead (E := E) (cfg := cfg) hr ha]; exact hs
  | true =>
    have e := step_live (E := E) (cfg := cfg) hr ha
    obtain ⟨-, o2⟩ := perform_out L op d.world
    have ew : (Device.step E cfg d op).2.world = (perform E op d.world).2 := by
      rw [e]
      cases (perform E op d.world).1 <;> rfl
    rw [ew]
    cases o2 with
    | kept h _ => rw [h]; exact hs
    | saved blob m n h _ _ _ _ => rw [h]; exact fun e => nomatch e
    | lost c _ h => rw [h]; exact hs

/-- From the first save on, the arguments of one start are kept. -/
theorem keeps_saved (L : Laws E) (ops : List Op) : ∀ {d : Device}, d.world.store ≠ none → Keeps E cfg d →
    (after E d ops).world.store ≠ none ∧ Keeps E cfg (after E d ops) := by
  induction ops with
  | nil => exact fun h1 h2 => ⟨h1, h2⟩
  | cons op ops ih =>
    intro d h1 h2
    rw [after_cons]
    cases hr : isRestart op with
    | false =>
      refine ih (step_saved L hr h1) ?_
      rw [step_own cfg d hr]
      exact keeps_step L h2
    | true =>
      cases op with
      | restart =>
        cases hs : d.world.store with
        | none => exact absurd hs h1
        | some data =>
          obtain ⟨k1, k2, -⟩ := keeps_launch_saved L hs h2
          exact ih (by rw [k2]; exact fun e => nomatch e) k1
      | _ => cases hr

/-- Every process keeps the arguments of one start. -/
theorem keeps_made (L : Laws E) (ops : List Op) : ∀ {d : Device},
    (Off d ∨ ∃ cfg i, i + 2 ≤ d.world.rnd ∧ Made E cfg i ∧ Keeps E cfg d) →
    (Off (after E d ops) ∨ ∃ cfg i, i + 2 ≤ (after E d ops).world.rnd ∧ Made E cfg i ∧ Keeps E cfg (after E d ops)) := by
  induction ops with
  | nil => exact fun h => h
  | cons op ops ih =>
    intro d h
    rw [after_cons]
    refine ih ?_
    have hn := step_rnd L d op
    cases hr : isRestart op with
    | false =>
      rcases h with h | ⟨cfg, i, h1, h2, h3⟩
      · left
        obtain ⟨cfg, -, -⟩ := config_made L 0
        rw [step_own cfg d hr, step_dead (E := E) (cfg := cfg) hr h.1]
        exact h
      · right
        refine ⟨cfg, i, by omega, h2, ?_⟩
        rw [step_own cfg d hr]
        exact keeps_step L h3
    | true =>
      cases op with
      | restart =>
        right
        cases hs : d.world.store with
        | none =>
          obtain ⟨cfg, k1, k2, k3⟩ := keeps_launch_new L hs
          refine ⟨cfg, d.world.rnd, ?_, k1, k3⟩
          rw [k2]
          show d.world.rnd + 2 ≤ d.world.rnd + 4
          omega
        | some data =>
          rcases h with h | ⟨cfg, i, h1, h2, h3⟩
          · rw [h.2] at hs; cases hs
          · exact ⟨cfg, i, by omega, h2, (keeps_launch_saved L hs h3).1⟩
      | _ => cases hr

end VF.Fido.Launch
