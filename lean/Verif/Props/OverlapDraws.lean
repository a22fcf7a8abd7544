import Verif.Proofs.OverlapSaves
import Verif.Proofs.ExclusivePlay
import Verif.Proofs.OverlapRaces
import Verif.Props.U2f

/-!
# Random values are used once (C110)
-/

namespace VF.Props

open VF.Fido VF.Fido.Overlap VF.Spec.Client VF.Spec.Overlap VF.Spec.U2f VF.Spec.Store VF.Spec.History

variable {E : Env} {cfg : Client.Config}

/-- Two requests that got new keys, by CTAP2 or by U2F, got different ones, however requests and calls overlap, also when the
process was ended and started again in between, as long as no key is generated twice. -/
theorem C110_keys_differ (L : Laws E) (hu : Usable E cfg) {evs : List Event} {i j : Nat} {op1 op2 : Op} {r1 r2 : Reply}
    {k1 k2 : Nat × Nat} (hij : i ≠ j)
    (hi : ((boot E cfg).run E cfg evs).threads[i]? = some (.ready op1 r1))
    (hj : ((boot E cfg).run E cfg evs).threads[j]? = some (.ready op2 r2))
    (h1 : Spec.Draws.newKey (op1, r1) = some k1) (h2 : Spec.Draws.newKey (op2, r2) = some k2)
    (hd : Spec.Draws.DistinctKeys E ((boot E cfg).run E cfg evs).mem.world.rnd) : k1 ≠ k2 := by
  obtain ⟨a, ha, ea⟩ := (own_draws L hu (perform_newKey L) evs i).2 op1 r1 hi (by rw [h1]; rfl)
  obtain ⟨b, hb, eb⟩ := (own_draws L hu (perform_newKey L) evs j).2 op2 r2 hj (by rw [h2]; rfl)
  obtain ⟨hab, la, lb⟩ := drew_differ L hu ha hb hij
  rintro rfl
  refine hab (hd a b la lb ?_)
  have e := (ea _ h1).symm.trans (eb _ h2)
  obtain ⟨pa, -⟩ := Vault.ecValid_bounds L (L.genEC_valid a)
  obtain ⟨pb, -⟩ := Vault.ecValid_bounds L (L.genEC_valid b)
  have ex := congrArg Prod.fst e
  have ey := congrArg Prod.snd e
  dsimp only at ex ey
  generalize (E.genEC a).pub = p at *
  generalize (E.genEC b).pub = q at *
  cases p
  cases q
  simp_all

/-- The key handles of two registrations are sealed under different nonces, and so are different. -/
theorem C110_handles_differ (L : Laws E) (hu : Usable E cfg) {evs : List Event} {i j : Nat} {op1 op2 : Op} {r1 r2 : Reply}
    {reg1 reg2 : Registration} (hij : i ≠ j)
    (hi : ((boot E cfg).run E cfg evs).threads[i]? = some (.ready op1 r1))
    (hj : ((boot E cfg).run E cfg evs).threads[j]? = some (.ready op2 r2))
    (h1 : Spec.Draws.Registered (op1, r1) reg1) (h2 : Spec.Draws.Registered (op2, r2) reg2)
    (hd : Spec.Draws.Distinct E 12 ((boot E cfg).run E cfg evs).mem.world.rnd) :
    ∃ n1 n2, Spec.Draws.nonceOf E reg1.keyHandle = some n1 ∧ Spec.Draws.nonceOf E reg2.keyHandle = some n2 ∧ n1 ≠ n2 ∧
      reg1.keyHandle ≠ reg2.keyHandle := by
  obtain ⟨a, ha, ea⟩ := (own_draws L hu (fun op => (perform_owes L op).2) evs i).2 op1 r1 hi ⟨_, h1⟩
  obtain ⟨b, hb, eb⟩ := (own_draws L hu (fun op => (perform_owes L op).2) evs j).2 op2 r2 hj ⟨_, h2⟩
  obtain ⟨hab, la, lb⟩ := drew_differ L hu ha hb hij
  obtain ⟨_, _, b1, e1, q1⟩ := h1
  obtain ⟨_, _, b2, e2, q2⟩ := h2
  have f1 := (ea b1 (Prod.mk.inj e1).2 reg1 q1).2 a rfl
  have f2 := (eb b2 (Prod.mk.inj e2).2 reg2 q2).2 b rfl
  have hne : E.rand a 12 ≠ E.rand b 12 := fun h => hab (hd a b la lb h)
  refine ⟨_, _, f1, f2, hne, ?_⟩
  intro h
  rw [h, f2] at f1
  exact hne (Option.some.inj f1).symm

/-- Whenever what is saved has changed, also after restarts, it has been encrypted anew: salt, nonces and data key are different
from those of anything saved before. -/
theorem C110_saved_differ (L : Laws E) (hu : Usable E cfg) {evs evs' : List Event} {d1 d2 : Bytes}
    (h1 : ((boot E cfg).run E cfg evs).mem.world.store = some d1)
    (h2 : ((boot E cfg).run E cfg (evs ++ evs')).mem.world.store = some d2) (hne : d1 ≠ d2)
    (hd12 : Spec.Draws.Distinct E 12 ((boot E cfg).run E cfg (evs ++ evs')).mem.world.rnd)
    (hd16 : Spec.Draws.Distinct E 16 ((boot E cfg).run E cfg (evs ++ evs')).mem.world.rnd)
    (hd32 : Spec.Draws.Distinct E 32 ((boot E cfg).run E cfg (evs ++ evs')).mem.world.rnd) :
    ∃ b1 b2 k1 k2, E.parseBlob d1 = some b1 ∧ E.parseBlob d2 = some b2 ∧ b1.salt ≠ b2.salt ∧
      [b1.keyNonce, b1.dataNonce, b2.keyNonce, b2.dataNonce].Nodup ∧
      Spec.Draws.dataKey E b1 = some k1 ∧ Spec.Draws.dataKey E b2 = some k2 ∧ k1 ≠ k2 := by
  obtain ⟨i, q1⟩ := (saving (E := E) (cfg := cfg) evs).store d1 h1
  obtain ⟨j, q2⟩ := (saving (E := E) (cfg := cfg) (evs ++ evs')).store d2 h2
  obtain ⟨k, k', st, st', n, n', e1, e2, hk, l1, l2⟩ := encrypted_differ L hu (q1.append evs') q2 hne
  obtain ⟨-, hn, b1, p1, s1, y1, n1, m1⟩ := encrypted_with L e1
  obtain ⟨-, hn', b2, p2, s2, y2, n2, m2⟩ := encrypted_with L e2
  have l1 : n ≤ ((boot E cfg).run E cfg (evs ++ evs')).mem.world.rnd := l1
  have l2 : n' ≤ ((boot E cfg).run E cfg (evs ++ evs')).mem.world.rnd := l2
  refine ⟨b1, b2, _, _, p1, p2, ?_, ?_, y1, y2, ?_⟩
  · rw [s1, s2]
    intro h
    have := hd16 _ _ (by omega) (by omega) h
    omega
  · have hn12 : ∀ a b, a < ((boot E cfg).run E cfg (evs ++ evs')).mem.world.rnd → b < ((boot E cfg).run E cfg (evs ++ evs')).mem.world.rnd →
        a ≠ b → E.rand a 12 ≠ E.rand b 12 := fun a b ha hb hab h => hab (hd12 a b ha hb h)
    rw [n1, m1, n2, m2]
    have d1 := hn12 (k + 2) (k + 3) (by omega) (by omega) (by omega)
    have d2 := hn12 (k + 2) (k' + 2) (by omega) (by omega) (by omega)
    have d3 := hn12 (k + 2) (k' + 3) (by omega) (by omega) (by omega)
    have d4 := hn12 (k + 3) (k' + 2) (by omega) (by omega) (by omega)
    have d5 := hn12 (k + 3) (k' + 3) (by omega) (by omega) (by omega)
    have d6 := hn12 (k' + 2) (k' + 3) (by omega) (by omega) (by omega)
    simp [d1, d2, d3, d4, d5, d6]
  · intro h
    have := hd32 _ _ (by omega) (by omega) h
    omega

section
open VF.Toy

theorem toy_distinct (ap : List Ask → Action → Bytes → Bytes → Bool) {l n : Nat} (hl : 0 < l) (h : n ≤ 256) : Spec.Draws.Distinct (toy ap) l n := by
  intro i j hi hj e
  have e : List.replicate l (UInt8.ofNat i) = List.replicate l (UInt8.ofNat j) := e
  have := congrArg List.head? e
  obtain ⟨l, rfl⟩ : ∃ k, l = k + 1 := ⟨l - 1, by omega⟩
  simp only [List.replicate_succ, List.head?_cons] at this
  have := congrArg UInt8.toNat (Option.some.inj this)
  rw [UInt8.toNat_ofNat', UInt8.toNat_ofNat'] at this
  omega

theorem toy_keys (ap : List Ask → Action → Bytes → Bytes → Bool) {n : Nat} (h : n ≤ 256) : Spec.Draws.DistinctKeys (toy ap) n := by
  intro i j hi hj e
  have e : (point (scalar i)).1 = (point (scalar j)).1 := congrArg ECPub.x e
  have o : 1000 < p256Order - 1 := by decide +kernel
  have q : (1000 : Nat) < 2 ^ 256 := by decide +kernel
  unfold point scalar at e
  dsimp only at e
  rw [Nat.mod_eq_of_lt (show i < p256Order - 1 by omega), Nat.mod_eq_of_lt (show j < p256Order - 1 by omega),
    Nat.mod_eq_of_lt (show i + 1 < 2 ^ 256 by omega), Nat.mod_eq_of_lt (show j + 1 < 2 ^ 256 by omega)] at e
  omega

/-- A registration request. -/
def regOp : Op := .u2f (apdu 0 1 0 0 (registerData (List.replicate 32 1) (List.replicate 32 2)) none)

theorem reg_perform {w : World} (h : Ready w) (hk : aesKeyOk w.client.deviceKey = true) : ∃ b w' reg,
    Device.perform (toy agree) regOp w = (.ok (.answer b), w') ∧ w'.client = w.client ∧ w'.store = w.store ∧ w'.rnd = w.rnd + 4 ∧
      Spec.Draws.Registered (regOp, .answer b) reg ∧ (Spec.Draws.newKey (regOp, .answer b)).isSome := by
  have L := toy_laws agree
  have hl : (registerData (List.replicate 32 1) (List.replicate 32 2)).length = 64 := by simp [registerData]
  obtain ⟨answer, w', hr⟩ := U2f.register_succeeds L hl hk h.1 h.2.1
  obtain ⟨-, -, ⟨ha, -⟩ | ⟨-, rfl, cert, sig, hp, -⟩⟩ := U2f.register_spec L hr
  · cases ha
  · refine ⟨answer, { w with rnd := w.rnd + 4, asks := w.asks ++ [⟨.u2fRegister, [], [], true⟩] }, _, ?_, rfl, rfl, rfl, ⟨0, _, answer, rfl, hp⟩, ?_⟩
    · show Device.perform _ (.u2f _) w = _
      rw [Device.perform_u2f', U2f.handleMessage_register _ _ _ _ _ _ _ (by intro h; rw [h] at hl; cases hl) (by omega), hr]
      rfl
    · obtain ⟨-, bx, bY, -⟩ := Vault.ecValid_bounds L (L.genEC_valid w.rnd)
      show ((parseRegistration answer).bind fun reg => parsePoint reg.publicKey).isSome
      rw [hp, Option.bind_some]
      dsimp only
      rw [U2f.parsePoint_marshal bx bY]
      rfl

theorem make_saves {w : World} (h : Ready w) : ∃ body w' blob m n,
    Device.perform (toy agree) makeOp w = (.ok (.answer (0 :: body)), w') ∧ Ready w' ∧
      w'.client.deviceKey = w.client.deviceKey ∧ w'.client.vault.length = w.client.vault.length + 1 ∧
      w'.store = some blob ∧ Ctap.Saves (toy agree) w'.client m blob n ∧ w'.rnd ≤ w.rnd + 8 := by
  obtain ⟨h1, h2, h3⟩ := h
  obtain ⟨b, w', blob, m, n, k1, k2, k3, k4, k5, k6, k7⟩ := Device.made (toy_laws agree) h1 h2
    (make_decodes agree [] none (.inl rfl) (by simp)) make_supported rfl rfl (flags := 0)
    (by simp [Ctap.makeCredentialPIN, h3]) rfl
  refine ⟨b, w', blob, m, n, ?_, ⟨k3, ?_, ?_⟩, ?_, ?_, k4, k5, k6.2⟩
  · show Device.perform _ (.ctap _) w = _
    rw [Device.perform_ctap', k1]
    rfl
  · rw [k2]
    exact h2
  · rw [k2]
    exact h3
  · rw [k2]
  · rw [k2]
    simp

/-- The hypotheses can be met: a creation has begun, then two registrations are made and another creation, then the first one is
done; both creations save. -/
theorem four_keys : ∃ (E : Env) (cfg : Client.Config) (evs evs' : List Event) (data b0 b1 b2 b3 d1 d2 : Bytes) (reg : Bytes) (reg1 reg2 : Registration),
    Laws E ∧ Usable E cfg ∧
    ((boot E cfg).run E cfg (evs ++ evs')).threads = [.ready (.ctap (1 :: data)) (.answer b0), .ready (.u2f reg) (.answer b1),
      .ready (.u2f reg) (.answer b2), .ready (.ctap (1 :: data)) (.answer b3)] ∧
    (∃ p, ((boot E cfg).run E cfg evs).threads = [.working (.ctap (1 :: data)) p, .ready (.u2f reg) (.answer b1),
      .ready (.u2f reg) (.answer b2), .ready (.ctap (1 :: data)) (.answer b3)]) ∧
    (Spec.Draws.newKey (.ctap (1 :: data), .answer b0)).isSome ∧ (Spec.Draws.newKey (.ctap (1 :: data), .answer b3)).isSome ∧
    (Spec.Draws.newKey (.u2f reg, .answer b1)).isSome ∧ (Spec.Draws.newKey (.u2f reg, .answer b2)).isSome ∧
    Spec.Draws.Registered (.u2f reg, .answer b1) reg1 ∧ Spec.Draws.Registered (.u2f reg, .answer b2) reg2 ∧
    ((boot E cfg).run E cfg evs).mem.world.store = some d1 ∧ ((boot E cfg).run E cfg (evs ++ evs')).mem.world.store = some d2 ∧ d1 ≠ d2 ∧
    Spec.Draws.DistinctKeys E ((boot E cfg).run E cfg (evs ++ evs')).mem.world.rnd ∧
    ∀ l, 0 < l → Spec.Draws.Distinct E l ((boot E cfg).run E cfg (evs ++ evs')).mem.world.rnd := by
  let E := Toy.toy Toy.agree
  let cfg := Toy.config false
  let s1 : Process := { boot E cfg with threads := [.working Toy.makeOp (perform E Toy.makeOp)] }
  have e1 : (boot E cfg).run E cfg [.begin Toy.makeOp] = s1 := by
    show (boot E cfg).step E cfg (.begin Toy.makeOp) = s1
    exact begin_working rfl (by simp [Toy.makeOp]) Toy.make_acts
  have hb : Ready (view s1.mem) := Toy.boot_ready
  have hk0 : aesKeyOk (view s1.mem).client.deviceKey = true := by
    show aesKeyOk (view (load _)).client.deviceKey = true
    rw [view_load]
    rfl
  have hv0 : (view s1.mem).client.vault.length = 0 := rfl
  have hn0 : (view s1.mem).rnd = 2 := rfl
  obtain ⟨b1, w1, reg1, h1, c1, t1, n1, g1, f1⟩ := reg_perform hb hk0
  obtain ⟨a1, m1, k1, v1, d1⟩ := do_op (E := E) (cfg := cfg) (s := s1) rfl (sound_load _) (by simp [regOp]) h1
  have r1 : Ready (view m1) := by rw [v1]; unfold Ready; rw [c1]; exact hb
  obtain ⟨b2, w2, reg2, h2, c2, t2, n2, g2, f2⟩ := reg_perform r1 (by rw [v1, c1]; exact hk0)
  obtain ⟨a2, m2, k2, v2, d2⟩ := do_op (E := E) (cfg := cfg) (s := { mem := m1, threads := s1.threads ++ [.ready regOp (.answer b1)], alive := true })
    rfl d1 (by simp [regOp]) h2
  have r2 : Ready (view m2) := by rw [v2]; unfold Ready; rw [c2]; exact r1
  obtain ⟨b3, w3, blob3, p3, q3, h3, r3, -, l3, t3, s3, n3⟩ := make_saves r2
  obtain ⟨a3, m3, k3, v3, d3⟩ := do_op (E := E) (cfg := cfg)
    (s := { mem := m2, threads := (s1.threads ++ [Thread.ready regOp (.answer b1)]) ++ [.ready regOp (.answer b2)], alive := true })
    rfl d2 (by simp [Toy.makeOp]) h3
  rw [← v3] at r3 l3 t3 s3 n3
  obtain ⟨b0, w0, blob0, p0, q0, h0, r0, -, l0, t0, s0, n0⟩ := make_saves r3
  obtain ⟨m0, j1, j2, j3⟩ := perform_run (E := E) d3 h0
  obtain ⟨n', j4⟩ := complete (E := E) (cfg := cfg)
    (s := { mem := m3, threads := ((s1.threads ++ [Thread.ready regOp (.answer b1)]) ++ [Thread.ready regOp (.answer b2)]) ++ [.ready Toy.makeOp (.answer (0 :: b3))], alive := true })
    (i := 0) (op := Toy.makeOp) rfl rfl Toy.make_acts j1
  let x1 : List Event := .begin regOp :: List.replicate a1 (.turn s1.threads.length)
  let x2 : List Event := .begin regOp :: List.replicate a2 (.turn (s1.threads ++ [Thread.ready regOp (.answer b1)]).length)
  let x3 : List Event := .begin Toy.makeOp :: List.replicate a3 (.turn ((s1.threads ++ [Thread.ready regOp (.answer b1)]) ++ [Thread.ready regOp (.answer b2)]).length)
  have z3 : (boot E cfg).run E cfg ([.begin Toy.makeOp] ++ x1 ++ x2 ++ x3) =
      { mem := m3, threads := ((s1.threads ++ [Thread.ready regOp (.answer b1)]) ++ [Thread.ready regOp (.answer b2)]) ++ [.ready Toy.makeOp (.answer (0 :: b3))], alive := true } := by
    rw [run_append, run_append, run_append, e1, show s1.run E cfg x1 = _ from k1, show Process.run E cfg _ x2 = _ from k2]
    exact k3
  have z0 : (boot E cfg).run E cfg ([.begin Toy.makeOp] ++ x1 ++ x2 ++ x3 ++ List.replicate n' (.turn 0)) =
      { mem := m0, threads := [.ready Toy.makeOp (.answer (0 :: b0)), .ready regOp (.answer b1), .ready regOp (.answer b2), .ready Toy.makeOp (.answer (0 :: b3))], alive := true } := by
    rw [run_append, z3]
    exact j4
  obtain ⟨cr3, u3, -⟩ := Toy.make_announces h3
  obtain ⟨cr0, u0, -⟩ := Toy.make_announces h0
  have hrnd : m0.world.rnd ≤ 256 := by
    rw [show m0.world.rnd = (view m0).rnd from rfl, j2]
    rw [v2] at n3
    rw [v1] at n2
    omega
  have hst3 : m3.world.store = some blob3 := t3
  have hst0 : m0.world.store = some blob0 := by
    rw [show m0.world.store = (view m0).store from rfl, j2]
    exact t0
  refine ⟨E, cfg, [.begin Toy.makeOp] ++ x1 ++ x2 ++ x3, List.replicate n' (.turn 0), _, 0 :: b0, b1, b2, 0 :: b3, blob3, blob0, _, reg1, reg2,
    Toy.toy_laws _, Toy.config_usable _ _, by rw [z0]; rfl, ⟨_, by rw [z3]; rfl⟩, ?_, ?_, f1, f2, g1, g2, by rw [z3]; exact hst3, by rw [z0]; exact hst0, ?_, ?_, ?_⟩
  · show ((announced (0 :: b0)).map _).isSome
    rw [u0]; rfl
  · show ((announced (0 :: b3)).map _).isSome
    rw [u3]; rfl
  · rintro rfl
    obtain ⟨-, c', i1, ⟨-, -, -, -, -, i2, -⟩, -⟩ := saves_restore (Toy.toy_laws _) r3.1 s3 cfg 0
    obtain ⟨-, c'', i1', ⟨-, -, -, -, -, i2', -⟩, -⟩ := saves_restore (Toy.toy_laws _) r0.1 s0 cfg 0
    rw [i1] at i1'
    obtain rfl := Res.ok.inj i1'
    omega
  · rw [z0]
    exact toy_keys _ hrnd
  · intro l hl
    rw [z0]
    exact toy_distinct _ hl hrnd
end

end VF.Props
