import Verif.Proofs.VaultTwin
import Verif.Props.Restart
import Verif.Props.Token

/-!
# C116: relying parties and each other's credentials
-/

namespace VF.Props

open VF.Fido VF.Fido.Device VF.Spec.Ctap VF.Spec.Client VF.Spec.History VF.Spec.Isolation

variable {E : Env} {cfg : Client.Config}

/-- C116: what a relying party gets does not depend on the credentials of others: of two devices that
differ in those only, all replies are the same, and the user is asked the same, in any history of
requests and calls without a restart and a deletion in which assertions are requested for this relying
party only; and its credentials stay the same on both. -/
theorem C116_others_make_no_difference (L : Laws E) {rpId : Bytes} {d1 d2 : Device}
    (h : DifferInOthers rpId d1 d2) (ops : List Op) (ho : ∀ op ∈ ops, Within E rpId op) :
    (run E cfg d1 ops).1 = (run E cfg d2 ops).1 ∧
    (after E cfg d1 ops).world.asks = (after E cfg d2 ops).world.asks ∧
    (after E cfg d1 ops).alive = (after E cfg d2 ops).alive ∧
    ((after E cfg d1 ops).alive = true →
      (after E cfg d1 ops).world.client.vault.filter (isFor rpId) =
        (after E cfg d2 ops).world.client.vault.filter (isFor rpId)) := by
  obtain ⟨a1, a2, h1, h2, h3, h4, h5, h6⟩ := h
  have ht : Isolation.TwinDevice rpId d1 d2 :=
    ⟨a2.trans a1.symm, ⟨h2, h3⟩, fun _ => ⟨h1, h4, h5, h6⟩⟩
  obtain ⟨e, q1, q2, q3⟩ := Isolation.twin_run (cfg := cfg) L ops ht ho
  exact ⟨e.symm, q2.asks.symm, q1.symm, fun ha => (q3 ha).same⟩

theorem saved_with {w : World} {blob : Bytes} {n : Nat} (h : Ctap.Saves E w.client w.rnd blob n) :
    Client.saveData E w = (.ok (), { w with store := some blob, rnd := n }) := by
  obtain ⟨st, h1, h2⟩ := h
  unfold Client.saveData
  rw [h1]
  dsimp only
  rw [h2]

theorem savable_of_healthy (L : Laws E) {c : Client} (h : Healthy E c) : Savable c.vault := by
  obtain ⟨blob, st, hs, -⟩ := healthy_saves L h 0
  unfold Client.exportState at hs
  cases hk : Cose.marshalPrivate c.certKey with
  | panic q => rw [hk] at hs; cases hs
  | ok k =>
    rw [hk, Res.bind_ok] at hs
    cases he : Vault.exportSources c.vault with
    | panic q => rw [he] at hs; cases hs
    | ok l => exact ⟨l, he⟩

/-- All devices in use meet the last hypothesis of C116. -/
theorem C116_savable (L : Laws E) (hu : Usable E cfg) (ops : List Op)
    (ha : (after E cfg (boot E cfg) ops).alive = true) : Savable (after E cfg (boot E cfg) ops).world.client.vault := by
  obtain ⟨c, h1, -, -, h4⟩ := inv_reachable L hu ops
  have e := h4 ha
  rw [e] at h1
  exact savable_of_healthy L h1

/-- Deleting on a running healthy device. -/
theorem delete_live (L : Laws E) {d : Device} (ha : d.alive = true) {id : Bytes} {v : List Source}
    (hv : Vault.deleteIdentity d.world.client.vault id = (v, true))
    (hh : Healthy E { d.world.client with vault := v }) :
    ∃ w, step E cfg d (.deleteIdentity id) = (.deleted true, ⟨w, true⟩) ∧
      w.client = { d.world.client with vault := v } ∧ w.asks = d.world.asks ∧
      w.rnd = d.world.rnd + 4 := by
  obtain ⟨blob, hs⟩ := healthy_saves L hh d.world.rnd
  have e : perform E (.deleteIdentity id) d.world =
      (do Client.saveData E; pure (.deleted true) : Go World Reply)
        { d.world with client := { d.world.client with vault := v } } := by
    have e1 : (Vault.deleteIdentity d.world.client.vault id).1 = v := by rw [hv]
    have e2 : (Vault.deleteIdentity d.world.client.vault id).2 = true := by rw [hv]
    subst e1
    have : Client.deleteIdentity E id d.world = (do Client.saveData E; pure true : Go World Bool)
        { d.world with client := { d.world.client with vault := (Vault.deleteIdentity d.world.client.vault id).1 } } := by
      unfold Client.deleteIdentity
      rw [Go.get_bind_run]
      dsimp only
      rw [if_pos e2]
      rfl
    unfold perform
    dsimp only
    rw [Go.run_bind, this]
    rcases hx : Client.saveData E { d.world with client := { d.world.client with vault := (Vault.deleteIdentity d.world.client.vault id).1 } } with ⟨r, w⟩
    cases r with
    | ok a => rw [Go.run_bind_ok hx, Go.run_bind_ok hx]; rfl
    | panic c => rw [Go.run_bind_panic hx, Go.run_bind_panic hx]
  rw [step_live rfl ha, e, Go.run_bind_ok (saved_with (w := { d.world with client := _ }) hs)]
  exact ⟨_, rfl, rfl, rfl, rfl⟩

/-- Switching the PIN off on a running healthy device. -/
theorem disable_live (L : Laws E) {d : Device} (ha : d.alive = true)
    (hh : Healthy E { d.world.client with pinEnabled := false }) :
    ∃ w, step E cfg d .disablePIN = (.done, ⟨w, true⟩) ∧
      w.client = { d.world.client with pinEnabled := false } ∧ w.asks = d.world.asks ∧
      w.rnd = d.world.rnd + 4 := by
  obtain ⟨blob, hs⟩ := healthy_saves L hh d.world.rnd
  have e : perform E .disablePIN d.world = (do Client.saveData E; pure .done : Go World Reply)
      { d.world with client := { d.world.client with pinEnabled := false } } := rfl
  rw [step_live rfl ha, e, Go.run_bind_ok (saved_with (w := { d.world with client := _ }) hs)]
  exact ⟨_, rfl, rfl, rfl, rfl⟩

/-- After a restart it is not so: two devices that differ only in that one of them still has the credential
of another relying party. Before a restart they do the same; after one, the first can be logged in to
by `example.org` and the second not. -/
theorem C116_after_restart_refuted : ∃ (E : Env) (cfg : Client.Config) (makeA makeB getA id body : Bytes)
    (args : GetAssertionArgs) (d1 d2 : Device),
    Laws E ∧ Usable E cfg ∧
    E.decodeGetAssertion getA = some args ∧ args.rpId = ascii "example.org" ∧
    after E cfg (boot E cfg) [.ctap (0x01 :: makeA), .ctap (0x01 :: makeB), .deleteIdentity id] = d1 ∧
    after E cfg (boot E cfg) [.ctap (0x01 :: makeA), .ctap (0x01 :: makeB), .disablePIN] = d2 ∧
    DifferInOthers (ascii "example.org") d1 d2 ∧
    d1.world.client.vault.length = 1 ∧ d2.world.client.vault.length = 2 ∧
    (run E cfg d1 [.restart, .ctap (0x02 :: getA)]).1 = [.started, .answer (0 :: body)] ∧
    ∀ body', (run E cfg d2 [.restart, .ctap (0x02 :: getA)]).1 ≠ [.started, .answer (0 :: body')] := by
  let ap : List Ask → Action → Bytes → Bytes → Bool := fun _ _ _ _ => true
  have L := Toy.toy_laws ap
  have hus := Toy.config_usable ap false
  let E := Toy.toy ap
  let cfg := Toy.config false
  have hm1 := Toy.make_decodes ap [] none (.inl rfl) (by simp)
  have hm2 := L.decode_makeCred _ otherMake_fits
  obtain ⟨b0, w1, blob1, m1, n1, h1, h2, h3, -, -, hr, -⟩ := made L (w := (boot E cfg).world)
    (Toy.boot_healthy ap false) (Toy.boot_attests ap false) hm1
    (by dsimp only [Toy.makeArgs]; decide +kernel) rfl rfl (flags := 0) rfl rfl
  have s1 := step_ctap (E := E) (cfg := cfg) (d := boot E cfg) rfl h1
  have hat : CanAttest E w1.client := by
    obtain ⟨i, q⟩ := Toy.boot_attests ap false
    rw [h2]; exact ⟨i, q⟩
  obtain ⟨b1, w2, blob2, m2, n2, k1, k2, k3, k4, k5, -, -⟩ := made L (w := w1) h3 hat hm2
    (rp := otherRp) (user := Toy.user)
    (by dsimp only [otherMake, Toy.makeArgs]; decide +kernel) rfl rfl (flags := 0)
    (by rw [h2]; rfl) rfl
  have s2 := step_ctap (E := E) (cfg := cfg) (d := ⟨w1, true⟩) rfl k1
  obtain ⟨a, ea⟩ : ∃ a, a = Vault.newIdentity E (some Toy.rp) (some Toy.user) 2 := ⟨_, rfl⟩
  obtain ⟨b, eb⟩ : ∃ b, b = Vault.newIdentity E (some otherRp) (some Toy.user) w1.rnd := ⟨_, rfl⟩
  have hv : w2.client.vault = [a, b] := by
    rw [k2, ea, eb]
    show w1.client.vault ++ _ = _
    rw [h2]; rfl
  have harp : a.rp = some Toy.rp := by rw [ea]; rfl
  have hbrp : b.rp = some otherRp := by rw [eb]; rfl
  have hal : a.id.length = 16 := by rw [ea]; exact L.rand_length _ _
  have hne : Toy.rp.id ≠ otherRp.id := by dsimp only [Toy.rp, otherRp]; decide +kernel
  have hpin : w2.client.pinEnabled = false := by rw [k2, h2]; rfl
  have hab : a.id ≠ b.id := by
    intro q
    rw [ea, eb] at q
    have q2 : List.replicate 16 (UInt8.ofNat 2) = List.replicate 16 (UInt8.ofNat w1.rnd) := q
    have q2 := Toy.toy_draws ap (n := 256) (Nat.le_refl _) 2 w1.rnd (by omega)
      (by have : w1.rnd ≤ 2 + 8 := hr.2; omega) q2
    have : 2 < w1.rnd := hr.1
    omega
  have hga := Toy.get_decodes ap none none none (.inl rfl) (by simp)
  have happ : ∀ l x y z, E.approve l x y z = true := fun _ _ _ _ => rfl
  have hrid : Toy.rp.id = ascii "example.org" := rfl
  have hargs : (Toy.getArgs none none none).rpId = Toy.rp.id ∧ (Toy.getArgs none none none).allowList = none ∧
    (Toy.getArgs none none none).pinAuth = none := ⟨rfl, rfl, rfl⟩
  generalize Toy.getArgs none none none = args at *
  generalize Toy.getData none none none = getA at *
  generalize Cbor.encode (Spec.Platform.makeCredItem otherMake) = makeB at *
  generalize Toy.makeData [] none = makeA at *
  have hus : Usable E cfg := hus
  have L : Laws E := L
  have hga : E.decodeGetAssertion getA = some args := hga
  have k3 : Healthy E w2.client := k3
  clear_value E cfg
  clear hm1 hm2 h1 h2 k1 k2 ea eb hr h3 hat k4 k5
  have hdel : Vault.deleteIdentity w2.client.vault b.id = ([a], true) := by
    rw [hv]
    simp [Vault.deleteIdentity, List.findIdx?_cons, hab]
  have hh1 : Healthy E { w2.client with vault := [a] } := by
    obtain ⟨q1, q2, q3, q4, q5⟩ := k3
    exact ⟨q1, q2, q3, q4, fun s hs => q5 s (by rw [hv]; exact List.mem_cons.2 (.inl (List.mem_singleton.1 hs)))⟩
  have hh2 : Healthy E { w2.client with pinEnabled := false } := k3
  obtain ⟨v1, t1, c1, x1, y1⟩ := delete_live (cfg := cfg) (d := ⟨w2, true⟩) L rfl hdel hh1
  obtain ⟨v2, t2, c2, x2, y2⟩ := disable_live (cfg := cfg) (d := ⟨w2, true⟩) L rfl hh2
  have e1 : after E cfg (boot E cfg) [.ctap (0x01 :: makeA), .ctap (0x01 :: makeB), .deleteIdentity b.id] =
      ⟨v1, true⟩ := by
    rw [after_cons, s1, after_cons, s2, after_cons, t1]; rfl
  have e2 : after E cfg (boot E cfg) [.ctap (0x01 :: makeA), .ctap (0x01 :: makeB), .disablePIN] =
      ⟨v2, true⟩ := by
    rw [after_cons, s1, after_cons, s2, after_cons, t2]; rfl
  have z1 : v1.client.vault = [a] := by rw [c1]
  have z2 : v2.client.vault = [a, b] := by rw [c2]; exact hv
  have fa : isFor (ascii "example.org") a = true := by
    unfold isFor; rw [harp, ← hrid]; simp
  have fb : isFor (ascii "example.org") b = false := by
    unfold isFor; rw [hbrp, ← hrid]; simpa using hne.symm
  have r1 := restart_uniform (cfg := cfg) L hus
    [.ctap (0x01 :: makeA), .ctap (0x01 :: makeB), .deleteIdentity b.id] (by rw [e1])
  rw [e1] at r1
  obtain ⟨c', u1, u2, u3, u4⟩ := r1
  have hlast : ∀ s ∈ c'.vault, s.rp = a.rp := fun s hs => (u4 a (by dsimp only; rw [z1]; rfl) s hs).1
  obtain ⟨s', hs'⟩ : ∃ s', s' ∈ c'.vault := by
    have := u2.2.2.2.2.2.1
    dsimp only at this
    rw [z1] at this
    cases hc : c'.vault with
    | nil => rw [hc] at this; cases this
    | cons s l => exact ⟨s, List.mem_cons_self ..⟩
  obtain ⟨flags, hp⟩ := (assertionPinOk_iff E c' args).1 (.inr (.inl hargs.2.2))
  obtain ⟨body, w', hw⟩ := Ctap.getAssertion_succeeds L
    (w := { v1 with client := c', rnd := v1.rnd + 2 }) u3 hga hp
    ⟨s', hs', ⟨Toy.rp, by rw [hlast s' hs', harp], hargs.1.symm⟩, by
      intro l hl'
      rw [hargs.2.1] at hl'
      cases hl'⟩ (.inr fun _ _ => happ _ _ _ _)
  have restarted : ∀ (d : Device) (w : World), (step E cfg d .restart).2 = ⟨w, true⟩ →
      (step E cfg d .restart).1 = .started := by
    intro d w hd
    cases hst : Client.start E cfg d.world.store d.world.rnd with
    | ok c => simp only [step, hst]
    | panic q => simp only [step, hst] at hd; cases hd
  refine ⟨E, cfg, makeA, makeB, getA, b.id, body, args, ⟨v1, true⟩, ⟨v2, true⟩, L, hus, hga,
    hargs.1.trans hrid, e1, e2, ⟨rfl, rfl, ?_, ?_, ?_, ?_, ?_, ?_⟩, by dsimp only; rw [z1]; rfl,
    by dsimp only; rw [z2]; rfl, ?_, ?_⟩
  · dsimp only
    rw [c1, c2]
    dsimp only
    rw [← hpin]
  · dsimp only; rw [y1, y2]
  · dsimp only; rw [x1, x2]
  · dsimp only
    rw [z1, z2]
    simp [fa, fb]
  · dsimp only
    rw [c1]
    exact savable_of_healthy L hh1
  · dsimp only
    rw [c2]
    exact savable_of_healthy L hh2
  · rw [run_cons, run_cons]
    dsimp only
    rw [restarted _ _ u1, u1, step_ctap rfl hw]
    rfl
  · intro body' hb
    rw [run_cons, run_cons] at hb
    dsimp only at hb
    injection hb with _ hb
    injection hb with hb _
    obtain ⟨args', last, rp', g1, g2, g3, g4⟩ := C78_only_last_relying_party (cfg := cfg) L hus
      [.ctap (0x01 :: makeA), .ctap (0x01 :: makeB), .disablePIN] e2 rfl rfl (data := getA) (body := body')
      (d'' := (step E cfg (step E cfg ⟨v2, true⟩ .restart).2 (.ctap (0x02 :: getA))).2) (Prod.ext hb rfl)
    dsimp only at g2
    rw [z2] at g2
    obtain rfl : b = last := by simpa using g2
    rw [hbrp] at g3
    cases g3
    rw [hga] at g1
    cases g1
    exact hne (hargs.1.symm.trans g4.symm)

end VF.Props
