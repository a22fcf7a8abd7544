import Verif.Proofs.ToyDevice
import Verif.Proofs.Counters

/-!
# A concrete history

On a toy device: create a credential, log in, restart, log in again.
-/

namespace VF.Fido.Device

open VF.Spec.Client VF.Spec.Vault VF.Spec.History VF.Spec.Ctap Client Ctap

variable {E : Env} {cfg : Config}

theorem step_ctap {d : Device} {m b : Bytes} {w' : World} (ha : d.alive = true)
    (h : Ctap.handleMessage E m d.world = (.ok b, w')) :
    step E cfg d (.ctap m) = (.answer b, ⟨w', true⟩) := by
  rw [step_live rfl ha, perform_ctap', h]
  rfl

theorem step_u2f {d : Device} {m b : Bytes} {w' : World} (ha : d.alive = true)
    (h : U2f.handleMessage E m d.world = (.ok b, w')) :
    step E cfg d (.u2f m) = (.answer b, ⟨w', true⟩) := by
  rw [step_live rfl ha, perform_u2f', h]
  rfl

/-- A creation that succeeds. -/
theorem made (L : Laws E) {data : Bytes} {w : World}
    {args : MakeCredArgs} {rp : RPEntity} {user : UserEntity} {flags : UInt8}
    (hh : Healthy E w.client) (hat : CanAttest E w.client)
    (hd : E.decodeMakeCred data = some args) (hs : supported args.params = true)
    (hrp : args.rp = some rp) (hu : args.user = some user)
    (hp : makeCredentialPIN E w.client args = .ok flags)
    (ha : E.approve w.asks .makeCredential rp.name [] = true) :
    ∃ body w' blob m n, handleMessage E (0x01 :: data) w = (.ok (0 :: body), w') ∧
      w'.client = { w.client with
        vault := w.client.vault ++ [Vault.newIdentity E (some rp) (some user) w.rnd] } ∧
      Healthy E w'.client ∧ w'.store = some blob ∧ Saves E w'.client m blob n ∧
      (w.rnd < w'.rnd ∧ w'.rnd ≤ w.rnd + 8) ∧
      w'.asks = w.asks ++ [⟨.makeCredential, rp.name, [], true⟩] := by
  obtain ⟨body, w', h⟩ := makeCredential_succeeds L hh hat hd hs hrp hu hp ha
  have hc := handleMakeCredential_cases E data w
  have h' := h
  rw [handleMessage_make] at h'
  rw [h'] at hc
  dsimp only at hc
  cases hc with
  | nothing hw hr =>
    obtain ⟨e, he, hb⟩ := hr _ rfl
    exact absurd (List.cons.inj hb).1.symm he
  | refused args' rp' flags hd' hs hp hrp ha hr hw => simp at hr
  | unsaved args' rp' flags hd' hs hp hrp ha hn c hr hw => simp at hr
  | saved args' rp' flags blob n m hd' hs hp hrp' ha hn hm hw hr =>
    rw [hd] at hd'
    obtain rfl := Option.some.inj hd'
    rw [hrp] at hrp'
    obtain rfl := Option.some.inj hrp'
    have hnr := saves_rnd L hn
    have hic := newIdentity_complete L hd hrp hu w.rnd
    have hhe := healthy_append hh hic
    rw [hrp, hu] at hn hhe
    refine ⟨body, w', blob, w.rnd + 2, n, h, by rw [hw, hrp, hu], ?_, by rw [hw], ?_, ?_, by rw [hw]⟩
    · rw [hw, hrp, hu]; exact hhe
    · rw [hw, hrp, hu]; exact hn
    · rw [hw]; dsimp only; omega

/-- A login that succeeds. -/
theorem got (L : Laws E) {data : Bytes} {w : World}
    {args : GetAssertionArgs} {flags : UInt8} (hh : Healthy E w.client)
    (hd : E.decodeGetAssertion data = some args)
    (hp : getAssertionPIN E w.client args = .ok flags)
    (hm : ∃ s ∈ w.client.vault, Matches args.rpId args.allowList s)
    (ha : args.up = some false ∨ ∀ rp user, E.approve w.asks .getAssertion rp user = true)
    (hv : ∀ s ∈ w.client.vault, s.id.length ≤ 65535 ∧ s.key.ecdsa.isSome) :
    ∃ body w' i s authData sig ad blob m n,
      handleMessage E (0x02 :: data) w = (.ok (0 :: body), w') ∧
      body.length < 18446744073709551616 ∧
      w.client.vault[i]? = some s ∧ Matches args.rpId args.allowList s ∧
      IsAssertion (0 :: body) s.id authData sig ∧ parseAuthData authData = some ad ∧
      ad.rpIdHash = E.sha256 args.rpId ∧
      w'.client = { w.client with vault := bump w.client.vault i } ∧ Healthy E w'.client ∧
      w'.store = some blob ∧ Saves E w'.client m blob n ∧ w'.rnd = w.rnd + 5 := by
  obtain ⟨body, w', h⟩ := getAssertion_succeeds L hh hd hp hm ha
  have hlen : body.length < 18446744073709551616 := by
    refine assertion_length L h ?_
    intro s hs
    obtain ⟨q1, q2⟩ := hv s hs
    obtain ⟨k, hk⟩ := Option.isSome_iff_exists.1 q2
    have hv := (hh.2.2.2.2 s hs).2.1
    simp only [KeyValid, hk] at hv
    exact ⟨q1, k, hk, hv⟩
  obtain ⟨args', i, s, rp, user, flags, blob, n, authData, sig, ad, h1, h2, -, -, -, h6, h7, h8, h9, -,
    h11, h12, h13, -⟩ := Ctap.assertion_spec L h hlen
  rw [hd] at h1
  obtain rfl := Option.some.inj h1
  have hnr := saves_rnd L h7
  exact ⟨body, w', i, s, authData, sig, ad, blob, w.rnd, n, h, hlen, h2.1, h2.2.1, h11, h12, h13,
    h6, by rw [h6]; exact healthy_bump hh i, h8, h7, by omega⟩

/-- A restart of a healthy device that was saved. -/
theorem restarted (L : Laws E) {d : Device} {blob : Bytes} {m n : Nat}
    (hh : Healthy E d.world.client) (hst : d.world.store = some blob)
    (hsv : Saves E d.world.client m blob n) :
    ∃ c', step E cfg d .restart =
        (.started, ⟨{ d.world with client := c', rnd := d.world.rnd + 2 }, true⟩) ∧
      SameDevice d.world.client c' ∧ Healthy E c' ∧
      ∀ last, d.world.client.vault.getLast? = some last →
        ∀ s ∈ c'.vault, s.rp = last.rp ∧ s.user = last.user := by
  obtain ⟨-, c', h1, h2, h3, -, -, -, -, h8⟩ := saves_restore L hh hsv cfg d.world.rnd
  refine ⟨c', ?_, h2, h3, h8⟩
  simp only [step, hst, h1]

end VF.Fido.Device

namespace VF.Toy

open VF.Fido VF.Fido.Device VF.Spec.Platform VF.Spec.Client VF.Spec.Vault VF.Spec.Cose VF.Cbor
  VF.Spec.History VF.Spec.Ctap

noncomputable def config (pinEnabled : Bool) : Client.Config :=
  { cert := cert, certKey := { ecdsa := some ((toy (fun _ _ _ _ => true)).genEC 0) }
    deviceKey := List.replicate 32 9, enablePIN := pinEnabled }

section
variable (ap : List Ask → Action → Bytes → Bytes → Bool)

theorem config_usable (pe : Bool) : Usable (toy ap) (config pe) :=
  ⟨(client_healthy ap pe none 8 (by simp)).1, .ecdsa _, (toy_laws ap).genEC_valid 0⟩

theorem boot_healthy (pe : Bool) : Healthy (toy ap) (boot (toy ap) (config pe)).world.client :=
  ⟨(client_healthy ap pe none 8 (by simp)).1, .ecdsa _, (toy_laws ap).genEC_valid 0,
    by simp [boot, Client.fresh], by simp [boot, Client.fresh]⟩

theorem boot_attests (pe : Bool) : CanAttest (toy ap) (boot (toy ap) (config pe)).world.client :=
  ⟨(toy ap).genEC 0, rfl, (toy_laws ap).genEC_valid 0,
    ((toy_laws ap).createCert_sound _ _ _ _ _ _ (cert_made ap)).2.1⟩

theorem toy_draws {n : Nat} (h : n ≤ 256) : DistinctDraws (toy ap) n := by
  intro i j hi hj e
  have e : List.replicate 16 (UInt8.ofNat i) = List.replicate 16 (UInt8.ofNat j) := e
  have := congrArg List.head? e
  simp only [List.head?_replicate] at this
  have := congrArg UInt8.toNat (Option.some.inj this)
  rw [UInt8.toNat_ofNat', UInt8.toNat_ofNat'] at this
  omega

end

/-- Create, log in, restart, log in again with the same credential; with what was sent and answered. -/
theorem login_restart_login_args : ∃ (E : Env) (cfg : Client.Config) (make get body0 : Bytes)
    (margs : MakeCredArgs) (gargs : GetAssertionArgs) (d1 d2 d3 d4 : Device) (body1 body2 id authData1 authData2 sig1 sig2 : Bytes)
    (ad1 ad2 : AuthData), Laws E ∧ Usable E cfg ∧ CanAttest E (boot E cfg).world.client ∧
    after E cfg (boot E cfg) [.ctap (0x01 :: make)] = d1 ∧
    step E cfg (boot E cfg) (.ctap (0x01 :: make)) = (.answer (0 :: body0), d1) ∧
    E.decodeMakeCred make = some margs ∧ margs.rp.map (·.id) = some (ascii "example.org") ∧
    E.decodeGetAssertion get = some gargs ∧ gargs.rpId = ascii "example.org" ∧ gargs.up = none ∧
    step E cfg d2 .restart = (.started, d3) ∧
    step E cfg d1 (.ctap (0x02 :: get)) = (.answer (0 :: body1), d2) ∧
    after E cfg d2 [.restart] = d3 ∧
    step E cfg d3 (.ctap (0x02 :: get)) = (.answer (0 :: body2), d4) ∧
    IsAssertion (0 :: body1) id authData1 sig1 ∧ parseAuthData authData1 = some ad1 ∧
    IsAssertion (0 :: body2) id authData2 sig2 ∧ parseAuthData authData2 = some ad2 ∧
    DistinctDraws E d4.world.rnd ∧
    List.countP isGetAssertion [.ctap (0x01 :: make)] + List.countP isGetAssertion [.restart] + 2 < 2 ^ 32 := by
  let ap : List Ask → Action → Bytes → Bytes → Bool := fun _ _ _ _ => true
  have L := toy_laws ap
  obtain ⟨b0, w1, blob, m, n, h1, h2, h3, h4, h5, h6, -⟩ := made L (w := (boot (toy ap) (config false)).world)
    (boot_healthy ap false) (boot_attests ap false) (make_decodes ap [] none (.inl rfl) (by simp))
    (by dsimp only [makeArgs]; decide +kernel) rfl rfl (flags := 0) rfl rfl
  have s1 := step_ctap (E := toy ap) (cfg := config false) (d := boot (toy ap) (config false)) rfl h1
  have hv1 : w1.client.vault = [Vault.newIdentity (toy ap) (some rp) (some user) 2] := by rw [h2]; rfl
  obtain ⟨b1, w2, i, s, a1, g1, ad1, blob2, m2, n2, k1, k2, k3, k4, k5, k6, k7, k8, k9, k10, k11, k12⟩ :=
    got L (w := w1) h3 (get_decodes ap none none none (.inl rfl) (by simp)) (flags := 0)
      (by simp [Ctap.getAssertionPIN, h2, boot, Client.fresh, config])
      ⟨Vault.newIdentity (toy ap) (some rp) (some user) 2, by rw [hv1]; simp, ⟨rp, rfl, rfl⟩, by intro l hl; cases hl⟩ (.inr (fun _ _ => rfl))
      (by
        rw [hv1]
        intro s hs
        obtain rfl := List.mem_singleton.1 hs
        exact ⟨by show ((toy ap).rand _ 16).length ≤ _; rw [L.rand_length]; omega, rfl⟩)
  have s2 := step_ctap (E := toy ap) (cfg := config false) (d := ⟨w1, true⟩) rfl k1
  obtain ⟨c', s3, r1, r2, r3⟩ := restarted (cfg := config false) (d := ⟨w2, true⟩) L k9 k10 k11
  obtain ⟨j, hj⟩ : ∃ j, i = j := ⟨i, rfl⟩
  have hs : i = 0 ∧ s = Vault.newIdentity (toy ap) (some rp) (some user) 2 := by
    rw [hv1] at k3
    have := (List.getElem?_eq_some_iff.1 k3).1
    simp at this
    subst this
    exact ⟨rfl, (Option.some.inj k3).symm⟩
  obtain ⟨hi, hs⟩ := hs
  have hv2 : w2.client.vault = [Ctap.bumped s] := by rw [k8, hv1, hi, hs]; rfl
  have hlen : c'.vault.length = 1 := by
    rw [← r1.2.2.2.2.2.1]
    show w2.client.vault.length = 1
    rw [hv2]; rfl
  have hrp : ∀ x ∈ c'.vault, x.rp = some rp ∧ x.id = s.id ∧ x.key.ecdsa.isSome := by
    intro x hx
    obtain ⟨y, y1, y2, -, y3⟩ := sameCredentials_mem r1.2.2.2.2.2 hx
    have y1 : y ∈ w2.client.vault := y1
    rw [hv2, List.mem_singleton] at y1
    subst y1
    have := (r3 (Ctap.bumped s) (by show w2.client.vault.getLast? = _; rw [hv2]; rfl) x hx).1
    refine ⟨by rw [this, hs]; rfl, y2.symm, by rw [← y3, hs]; rfl⟩
  obtain ⟨x, hx⟩ : ∃ x, x ∈ c'.vault := by
    cases hc : c'.vault with
    | nil => rw [hc] at hlen; simp at hlen
    | cons x _ => exact ⟨x, by simp⟩
  have hpe : c'.pinEnabled = false := by
    rw [← r1.2.2.2.1]
    show w2.client.pinEnabled = false
    rw [k8, h2]; rfl
  obtain ⟨b2, w4, i', s', a2, g2, ad2, _, _, _, p1, p2, p3, p4, p5, p6, p7, p8, p9, -, -, p12⟩ :=
    got L (w := { w2 with client := c', rnd := w2.rnd + 2 }) r2
      (get_decodes ap none none none (.inl rfl) (by simp)) (flags := 0)
      (by simp [Ctap.getAssertionPIN, hpe])
      ⟨x, hx, ⟨rp, (hrp x hx).1, rfl⟩, by intro l hl; cases hl⟩ (.inr (fun _ _ => rfl))
      (by
        intro y hy
        refine ⟨?_, (hrp y hy).2.2⟩
        rw [(hrp y hy).2.1, hs]
        show ((toy ap).rand _ 16).length ≤ _
        rw [L.rand_length]; omega)
  have s4 := step_ctap (E := toy ap) (cfg := config false)
    (d := ⟨{ w2 with client := c', rnd := w2.rnd + 2 }, true⟩) rfl p1
  have hid : s'.id = s.id := (hrp s' (List.mem_of_getElem? p3)).2.1
  rw [hid] at p5
  refine ⟨toy ap, config false, makeData [] none, _, b0, _, _, ⟨w1, true⟩, ⟨w2, true⟩, _, ⟨w4, true⟩, b1, b2, s.id, a1, a2, g1, g2,
    ad1, ad2, L, config_usable ap false, boot_attests ap false, ?_, s1, make_decodes ap [] none (.inl rfl) (by simp), rfl,
    get_decodes ap none none none (.inl rfl) (by simp), rfl, rfl, s3, s2, ?_, s4, k5, k6, p5, p6, ?_,
    show 0 + 0 + 2 < 2 ^ 32 by decide⟩
  · rw [after_cons, s1]; rfl
  · rw [after_cons, s3]; rfl
  · have h6 : w1.rnd ≤ 2 + 8 := h6.2
    have p12 : w4.rnd = w2.rnd + 2 + 5 := p12
    exact toy_draws ap (by show w4.rnd ≤ 256; omega)

/-- Create, log in, restart, log in again with the same credential. -/
theorem login_restart_login : ∃ (E : Env) (cfg : Client.Config) (make get : Bytes)
    (d1 d2 d3 d4 : Device) (body1 body2 id authData1 authData2 sig1 sig2 : Bytes)
    (ad1 ad2 : AuthData), Laws E ∧ Usable E cfg ∧ CanAttest E (boot E cfg).world.client ∧
    after E cfg (boot E cfg) [.ctap make] = d1 ∧
    step E cfg d1 (.ctap (0x02 :: get)) = (.answer (0 :: body1), d2) ∧
    after E cfg d2 [.restart] = d3 ∧
    step E cfg d3 (.ctap (0x02 :: get)) = (.answer (0 :: body2), d4) ∧
    IsAssertion (0 :: body1) id authData1 sig1 ∧ parseAuthData authData1 = some ad1 ∧
    IsAssertion (0 :: body2) id authData2 sig2 ∧ parseAuthData authData2 = some ad2 ∧
    DistinctDraws E d4.world.rnd ∧
    List.countP isGetAssertion [.ctap make] + List.countP isGetAssertion [.restart] + 2 < 2 ^ 32 := by
  obtain ⟨E, cfg, make, get, body0, margs, gargs, d1, d2, d3, d4, body1, body2, id, a1, a2, g1, g2, ad1, ad2, L,
    hu, hat, h1, -, -, -, -, -, -, -, h⟩ := login_restart_login_args
  exact ⟨E, cfg, 0x01 :: make, get, d1, d2, d3, d4, body1, body2, id, a1, a2, g1, g2, ad1, ad2, L, hu, hat, h1, h⟩

end VF.Toy
