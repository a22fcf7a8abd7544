import Verif.Proofs.History
import Verif.Proofs.ToyHistory
import Verif.Props.U2f

/-!
# Deleting credentials and U2F registrations over whole histories (C35, C63)
-/

namespace VF.Props

open VF.Fido VF.Fido.Device VF.Spec.Client VF.Spec.Vault VF.Spec.History VF.Spec.U2f

variable {E : Env} {cfg : Client.Config}

/-! ## C35 -/

/-- After any history, DeleteIdentity of an id no credential has says `false` and changes nothing. -/
theorem C35_device_missing (ops : List Op) (id : Bytes)
    (ha : (after E cfg (boot E cfg) ops).alive = true)
    (h : ∀ s ∈ (after E cfg (boot E cfg) ops).world.client.vault, s.id ≠ id) :
    step E cfg (after E cfg (boot E cfg) ops) (.deleteIdentity id) =
      (.deleted false, after E cfg (boot E cfg) ops) := by
  generalize after E cfg (boot E cfg) ops = d at *
  rcases perform_delete E id d.world with ⟨-, e⟩ | ⟨l, s, r, v', e, hs, -⟩
  · rw [step_live rfl ha, e]
    cases d
    cases ha
    rfl
  · exact absurd hs (h s (by rw [e]; simp))

/-- After any history, DeleteIdentity of an id that a credential has says `true`, takes exactly one
credential with the id (the first) out of the vault and changes nothing else, and the saved data
holds the vault without it. -/
theorem C35_device_deletes (L : Laws E) (hu : Usable E cfg) (ops : List Op) (id : Bytes)
    (ha : (after E cfg (boot E cfg) ops).alive = true)
    (h : ∃ s ∈ (after E cfg (boot E cfg) ops).world.client.vault, s.id = id) :
    ∃ s d', step E cfg (after E cfg (boot E cfg) ops) (.deleteIdentity id) = (.deleted true, d') ∧
      d'.alive = true ∧
      (after E cfg (boot E cfg) ops).world.client.vault.find? (fun x => x.id == id) = some s ∧
      (after E cfg (boot E cfg) ops).world.client.vault.Perm (s :: d'.world.client.vault) ∧
      { d'.world.client with vault := (after E cfg (boot E cfg) ops).world.client.vault } =
        (after E cfg (boot E cfg) ops).world.client ∧
      d'.world.asks = (after E cfg (boot E cfg) ops).world.asks ∧
      Holds E cfg d'.world.store d'.world.client := by
  have hi := inv_reachable (cfg := cfg) L hu ops
  generalize after E cfg (boot E cfg) ops = d at *
  have hi' := inv_step (op := .deleteIdentity id) L (fun _ _ _ _ _ => trivial)
    (fun _ _ _ _ _ _ => trivial) (fun _ _ _ _ _ _ _ => trivial) hi
  obtain ⟨c, hh, -, -, hc⟩ := hi
  obtain rfl := hc ha
  rcases perform_delete E id d.world with ⟨h', -⟩ | ⟨l, s, r, v', h1, h2, h3, h4, h5⟩
  · obtain ⟨s, h6, h7⟩ := h
    exact absurd h7 (h' s h6)
  · have hh' : Healthy E { d.world.client with vault := v' } :=
      ⟨hh.1, hh.2.1, hh.2.2.1, hh.2.2.2.1, fun y hy =>
        hh.2.2.2.2 y (h4.mem_iff.2 (List.mem_cons_of_mem _ hy))⟩
    obtain ⟨blob, hsv⟩ := healthy_saves L hh' d.world.rnd
    rcases h5 with ⟨c, h5, -⟩ | ⟨blob, n, hsv, h5⟩
    · exact absurd hsv (h5 _ _)
    · have e : step E cfg d (.deleteIdentity id) = (.deleted true, ⟨{ d.world with
          client := { d.world.client with vault := v' }, store := some blob, rnd := n }, true⟩) := by
        rw [step_live rfl ha, h5]
      rw [e] at hi'
      obtain ⟨c', -, hr, -, hc'⟩ := hi'
      obtain rfl := hc' rfl
      refine ⟨s, _, e, rfl, ?_, h4, rfl, rfl, ?_⟩
      · rw [h1, List.find?_append, List.find?_eq_none.2 (fun x hx => by simpa using h3 x hx)]
        simp [h2]
      · intro rnd
        obtain ⟨c', q1, q2, -⟩ := hr rnd
        exact ⟨c', q1, q2⟩

/-! ## C63 -/

/-- The sealing key is the configured one after any history with restarts. -/
theorem C63_sealing_key (L : Laws E) (hu : Usable E cfg) (ops : List Op)
    (ha : (after E cfg (boot E cfg) ops).alive = true) :
    (after E cfg (boot E cfg) ops).world.client.deviceKey = cfg.deviceKey := by
  obtain ⟨c, -, -, hk, hc⟩ := keeps_reachable (cfg := cfg) L hu ops
  obtain rfl := hc ha
  exact hk.1

/-- A key handle handed out at some point of a history works for its application at every later point
at which the device runs, whatever happens in between (restarts, crashes, PIN changes, deletions, other
registrations), and is refused for every other application, and a check recognizes it exactly for its
application. -/
theorem C63_forever (L : Laws E) (hu : Usable E cfg) (ops later : List Op) {application : Bytes}
    {reg : Registration} {x y : Nat} (ha : (after E cfg (boot E cfg) ops).alive = true)
    (h : Registered E (after E cfg (boot E cfg) ops).world application reg x y)
    (hl : (after E cfg (boot E cfg) (ops ++ later)).alive = true)
    (cla p2 : UInt8) (le : Option UInt16) (challenge : Bytes) (hc : challenge.length = 32) :
    (∀ control,
      (control = 3 ∧ E.approve (after E cfg (boot E cfg) (ops ++ later)).world.asks .u2fAuthenticate
        [] [] = true) ∨ control = 8 →
      ∃ answer d' auth,
        step E cfg (after E cfg (boot E cfg) (ops ++ later)) (.u2f
          (apdu cla 2 control p2 (authenticateData challenge application reg.keyHandle) le)) =
          (.answer answer, d') ∧
        parseAuthentication answer = some auth ∧ auth.userPresence = 1 ∧
        E.verifyEC { p256 := true, x := x, y := y }
          (E.sha256 (application ++ [auth.userPresence] ++ auth.counterBytes ++ challenge))
          auth.signature = true) ∧
    (∀ control other, other.length = 32 → other ≠ application →
      step E cfg (after E cfg (boot E cfg) (ops ++ later)) (.u2f
          (apdu cla 2 control p2 (authenticateData challenge other reg.keyHandle) le)) =
        (.answer [0x6A, 0x80], after E cfg (boot E cfg) (ops ++ later))) ∧
    step E cfg (after E cfg (boot E cfg) (ops ++ later)) (.u2f
        (apdu cla 2 7 p2 (authenticateData challenge application reg.keyHandle) le)) =
      (.answer [0x69, 0x85], after E cfg (boot E cfg) (ops ++ later)) := by
  have hk : (after E cfg (boot E cfg) (ops ++ later)).world.client.deviceKey =
      (after E cfg (boot E cfg) ops).world.client.deviceKey := by
    rw [C63_sealing_key L hu _ hl, C63_sealing_key L hu _ ha]
  generalize after E cfg (boot E cfg) (ops ++ later) = d at *
  have hs : ∀ m b v, U2f.handleMessage E m d.world = (.ok b, v) →
      step E cfg d (.u2f m) = (.answer b, ⟨v, true⟩) := by
    intro m b v e
    rw [step_live rfl hl]
    simp only [perform, Go.run_bind, e, Go.run_pure]
  have hd : d = ⟨d.world, true⟩ := by cases d; cases hl; rfl
  refine ⟨?_, ?_, ?_⟩
  · intro control hu
    obtain ⟨answer, v', auth, h1, h2, -, h3, h4⟩ := C63_own_application L h hk cla control p2 le
      challenge hc hu
    exact ⟨answer, _, auth, hs _ _ _ h1, h2, h4, h3⟩
  · intro control other ho hne
    rw [hs _ _ _ (C63_other_application L h hk cla control p2 le challenge other hc ho hne), ← hd]
  · rw [hs _ _ _ (C63_check_only L h hk cla p2 le challenge hc), ← hd]

/-- A history in which this happens: a credential is created, an application registered,
the device restarted; and there is a credential to delete. -/
example : ∃ (E : Env) (cfg : Client.Config) (make : Op) (application : Bytes) (reg : Registration)
    (x y : Nat), Laws E ∧ Usable E cfg ∧ (after E cfg (boot E cfg) [make]).alive = true ∧
    Registered E (after E cfg (boot E cfg) [make]).world application reg x y ∧
    (after E cfg (boot E cfg) ([make] ++ [.restart])).alive = true ∧
    ∃ id, ∃ s ∈ (after E cfg (boot E cfg) [make]).world.client.vault, s.id = id := by
  let ap : List Ask → Action → Bytes → Bytes → Bool := fun _ _ _ _ => true
  have L := Toy.toy_laws ap
  obtain ⟨b0, w1, blob, m, n, h1, h2, h3, h4, h5, -⟩ := made L
    (w := (boot (Toy.toy ap) (Toy.config false)).world) (Toy.boot_healthy ap false)
    (Toy.boot_attests ap false) (Toy.make_decodes ap [] none (.inl rfl) (by simp))
    (by dsimp only [Toy.makeArgs]; decide +kernel) rfl rfl (flags := 0) rfl rfl
  have s1 := step_ctap (E := Toy.toy ap) (cfg := Toy.config false)
    (d := boot (Toy.toy ap) (Toy.config false)) rfl h1
  obtain ⟨c', s3, r1, r2, r3⟩ := restarted (cfg := Toy.config false) (d := ⟨w1, true⟩) L h3 h4 h5
  have e1 : after (Toy.toy ap) (Toy.config false) (boot (Toy.toy ap) (Toy.config false))
      [.ctap (0x01 :: Toy.makeData [] none)] = ⟨w1, true⟩ := by
    rw [after_cons, s1]; rfl
  have e2 : after (Toy.toy ap) (Toy.config false) ⟨w1, true⟩ [.restart] =
      ⟨{ w1 with client := c', rnd := w1.rnd + 2 }, true⟩ := by
    rw [after_cons, s3]; rfl
  obtain ⟨reg, x, y, hr⟩ := registers L (w := w1)
    (by rw [h2]; dsimp only [boot, Client.fresh, Toy.config]; decide) h3
    (by
      obtain ⟨i, q1, q2, q3⟩ := Toy.boot_attests ap false
      exact ⟨i, by rw [h2]; exact q1, q2, by rw [h2]; exact q3⟩) rfl
  refine ⟨Toy.toy ap, Toy.config false, .ctap (0x01 :: Toy.makeData [] none), List.replicate 32 2, reg,
    x, y, L, Toy.config_usable ap false, by rw [e1], by rw [e1]; exact hr,
    by rw [after_append, e1, e2], _, Vault.newIdentity (Toy.toy ap) (some Toy.rp) (some Toy.user) 2,
    ?_, rfl⟩
  rw [e1]
  show _ ∈ w1.client.vault
  rw [h2]
  exact List.mem_append_right _ (List.mem_singleton.2 rfl)

end VF.Props
