import Verif.Proofs.StatusHistory
import Verif.Proofs.ToyHistory
import Verif.Proofs.U2fStatus

/-!
# C87, C88: the outcome of every CTAP2 and of every U2F request
-/

namespace VF.Props

open VF.Fido VF.Fido.Device VF.Spec.Client VF.Spec.Vault VF.Spec.History VF.Spec.Status

variable {E : Env} {cfg : Client.Config}

/-- **C87.**  After any history of a device that can attest, while its process runs, the reply to any
CTAP2 request shows exactly the outcome of the decision tables of `Spec.Status`: the status byte, with
errors being this byte alone, or the end of the process. -/
theorem C87_status_table (L : Laws E) (hu : Usable E cfg)
    (hat : CanAttest E (boot E cfg).world.client) (ops : List Op) (d : Device)
    (hd : after E cfg (boot E cfg) ops = d) (ha : d.alive = true) (m : Bytes) (o : Outcome) :
    Shows (step E cfg d (.ctap m)).1 o ↔ Expected E d.world m o := by
  subst hd
  have hr := retriesOk_after ops (retriesOk_boot (E := E) (cfg := cfg)) ha
  obtain ⟨rnd, hs, -⟩ := sessionOk_after L ops (sessionOk_boot (E := E) (cfg := cfg)) ha
  have ht : (after E cfg (boot E cfg) ops).world.client.pinToken.length = 16 := by
    rw [show (after E cfg (boot E cfg) ops).world.client.pinToken = E.rand rnd 16 from
        congrArg Prod.fst hs]
    exact L.rand_length _ _
  obtain ⟨h1, h2⟩ := attests_reachable L hu hat ops ha
  obtain ⟨o', q1, q2⟩ := Ctap.message_status L h1 h2 hr ht m
  have hsh : Shows (step E cfg (after E cfg (boot E cfg) ops) (.ctap m)).1 o' := by
    rw [step_live rfl ha, perform_ctap']
    generalize (Ctap.handleMessage E m (after E cfg (boot E cfg) ops).world).1 = r at *
    cases q2 with
    | success body => exact .success body
    | error s hs => exact .error s hs
    | crash c => exact .crash
  constructor
  · intro h
    rw [shows_unique h hsh]
    exact q1
  · intro h
    rw [expected_unique h q1]
    exact hsh

/-- There is always exactly one outcome. -/
theorem C87_one_outcome (L : Laws E) (hu : Usable E cfg)
    (hat : CanAttest E (boot E cfg).world.client) (ops : List Op) (d : Device)
    (hd : after E cfg (boot E cfg) ops = d) (ha : d.alive = true) (m : Bytes) :
    ∃ o, Shows (step E cfg d (.ctap m)).1 o ∧ ∀ o', Expected E d.world m o' → o' = o := by
  have h := C87_status_table L hu hat ops d hd ha m
  have hex : ∃ o, Expected E d.world m o := by
    subst hd
    have hr := retriesOk_after ops (retriesOk_boot (E := E) (cfg := cfg)) ha
    obtain ⟨rnd, hs, -⟩ := sessionOk_after L ops (sessionOk_boot (E := E) (cfg := cfg)) ha
    have ht : (after E cfg (boot E cfg) ops).world.client.pinToken.length = 16 := by
      rw [show (after E cfg (boot E cfg) ops).world.client.pinToken = E.rand rnd 16 from
        congrArg Prod.fst hs]
      exact L.rand_length _ _
    obtain ⟨h1, h2⟩ := attests_reachable L hu hat ops ha
    obtain ⟨o', q1, -⟩ := Ctap.message_status L h1 h2 hr ht m
    exact ⟨o', q1⟩
  obtain ⟨o, ho⟩ := hex
  exact ⟨o, (h o).2 ho, fun o' ho' => expected_unique ho' ho⟩

/-- On a device with PIN support, after a credential was made: a creation with a wrong proof of the
PIN, a login, a login with a wrong proof, an unknown command. -/
example : ∃ (E : Env) (cfg : Client.Config) (ops : List Op) (d : Device)
    (make make' get get' : Bytes), Laws E ∧ Usable E cfg ∧
    CanAttest E (boot E cfg).world.client ∧ ops = [.ctap make] ∧
    after E cfg (boot E cfg) ops = d ∧ d.alive = true ∧
    (step E cfg d (.ctap make')).1 = .answer [0x33] ∧
    (∃ body, (step E cfg d (.ctap get)).1 = .answer (0 :: body)) ∧
    (step E cfg d (.ctap get')).1 = .answer [0x33] ∧
    (step E cfg d (.ctap [0x03])).1 = .panicked := by
  let ap : List Ask → Action → Bytes → Bytes → Bool := fun _ _ _ _ => true
  have L := Toy.toy_laws ap
  obtain ⟨b0, w1, blob, m, n, h1, h2, h3, h4, h5, h6, -⟩ :=
    made L (w := (boot (Toy.toy ap) (Toy.config true)).world)
    (Toy.boot_healthy ap true) (Toy.boot_attests ap true)
    (Toy.make_decodes ap [] none (.inl rfl) (by simp))
    (by dsimp only [Toy.makeArgs]; decide +kernel) rfl rfl (flags := 0) rfl rfl
  have s1 := step_ctap (E := Toy.toy ap) (cfg := Toy.config true)
    (d := boot (Toy.toy ap) (Toy.config true)) rfl h1
  have hv1 : w1.client.vault = [Vault.newIdentity (Toy.toy ap) (some Toy.rp) (some Toy.user) 2] := by
    rw [h2]; rfl
  have hpe : w1.client.pinEnabled = true := by rw [h2]; rfl
  have hpt : w1.client.pinToken = (Toy.toy ap).rand 0 16 := by rw [h2]; rfl
  have hd : after (Toy.toy ap) (Toy.config true) (boot (Toy.toy ap) (Toy.config true))
      [.ctap (0x01 :: Toy.makeData [] none)] = ⟨w1, true⟩ := by
    rw [after_cons, s1]; rfl
  have table := C87_status_table L (Toy.config_usable ap true) (Toy.boot_attests ap true) _ _ hd rfl
  have err : ∀ {s : UInt8} {r : Reply}, Shows r (.status s) → s ≠ 0 → r = .answer [s] := by
    intro s r h hs
    cases h with
    | success => exact absurd rfl hs
    | error => rfl
  obtain ⟨bad, hb1, hb2⟩ : ∃ bad : Bytes, bad.length = 16 ∧
      bad ≠ ((Toy.toy ap).hmac w1.client.pinToken (List.replicate 32 1)).take 16 := by
    by_cases h : List.replicate 16 1 =
        ((Toy.toy ap).hmac w1.client.pinToken (List.replicate 32 1)).take 16
    · exact ⟨List.replicate 16 2, by simp, by rw [← h]; decide⟩
    · exact ⟨List.replicate 16 1, by simp, h⟩
  refine ⟨_, _, _, _, _, 0x01 :: Toy.makeData [] (some bad),
    0x02 :: Toy.getData none none none, 0x02 :: Toy.getData none none (some bad), L,
    Toy.config_usable ap true, Toy.boot_attests ap true, rfl, hd, rfl, ?_, ?_, ?_, ?_⟩
  · refine err ((table _ _).2 (.makeCredential (Toy.make_decodes ap [] _ (.inl rfl)
      (by intro b hb; obtain rfl := Option.some.inj hb; exact hb1))
      (.next (fun h => h ⟨_, .head _, rfl, rfl⟩) (.here ⟨hpe, by simp [Toy.makeArgs], ?_⟩)))) (by decide)
    rintro ⟨-, h⟩
    exact hb2 (Option.some.inj h)
  · have hm : Matches (Toy.getArgs none none none).rpId (Toy.getArgs none none none).allowList
        (Vault.newIdentity (Toy.toy ap) (some Toy.rp) (some Toy.user) 2) :=
      ⟨⟨Toy.rp, rfl, rfl⟩, by intro l hl; cases hl⟩
    have := (table (0x02 :: Toy.getData none none none) (.status 0)).2 (.getAssertion
      (Toy.get_decodes ap none none none (.inl rfl) (by simp))
      (.next (fun h => h.2.1 rfl) (.next (fun h => h ⟨_, by rw [hv1]; exact .head _, hm⟩)
      (.next (fun h => ?_) (.here trivial)))))
    · generalize (step (Toy.toy ap) (Toy.config true) ⟨w1, true⟩ (.ctap (0x02 :: Toy.getData none none none))).1 = r at *
      cases this with
      | success body => exact ⟨body, rfl⟩
      | error s h => exact absurd rfl h
    · obtain ⟨-, s, rp, user, -, -, -, h⟩ := h
      cases h
  · refine err ((table _ _).2 (.getAssertion (Toy.get_decodes ap none none _ (.inl rfl)
      (by intro b hb; obtain rfl := Option.some.inj hb; exact hb1))
      (.here ⟨hpe, by simp [Toy.getArgs], ?_⟩))) (by decide)
    rintro ⟨-, h⟩
    exact hb2 (Option.some.inj h)
  · have := (table [0x03] .crash).2 (.unknown (by decide) (by decide) (by decide) (by decide))
    generalize (step (Toy.toy ap) (Toy.config true) ⟨w1, true⟩ (.ctap [0x03])).1 = r at *
    cases this
    rfl

/-! ## C88 -/

/-- **C88.**  After any history of a device that can attest and has a sealing key of a proper size,
while its process runs, the reply to any U2F request, whatever its bytes, shows exactly the outcome of
the decision tables of `Spec.U2fStatus`: the status word, with errors being this word alone, or the end
of the process. -/
theorem C88_status_table (L : Laws E) (hu : Usable E cfg) (hk : aesKeyOk cfg.deviceKey = true)
    (hat : CanAttest E (boot E cfg).world.client) (ops : List Op) (d : Device)
    (hd : after E cfg (boot E cfg) ops = d) (ha : d.alive = true) (m : Bytes)
    (o : Spec.U2fStatus.Outcome) :
    Spec.U2fStatus.Shows (step E cfg d (.u2f m)).1 o ↔ Spec.U2fStatus.Expected E d.world m o := by
  subst hd
  obtain ⟨h1, h2⟩ := attests_reachable L hu hat ops ha
  have hk' : aesKeyOk (after E cfg (boot E cfg) ops).world.client.deviceKey = true := by
    obtain ⟨c, -, -, ⟨k1, -⟩, h4⟩ := keeps_reachable L hu ops
    rw [← h4 ha, k1]
    exact hk
  obtain ⟨o', q1, q2⟩ := U2f.message_status L hk' h1 h2 m
  have hsh : Spec.U2fStatus.Shows (step E cfg (after E cfg (boot E cfg) ops) (.u2f m)).1 o' := by
    rw [step_live rfl ha, perform_u2f']
    generalize (U2f.handleMessage E m (after E cfg (boot E cfg) ops).world).1 = r at *
    cases q2 with
    | success body => exact .success body
    | error s hs => exact .error s hs
    | crash c => exact .crash
  constructor
  · intro h
    rw [U2f.shows_unique h hsh]
    exact q1
  · intro h
    rw [U2f.expected_unique h q1]
    exact hsh

/-- There is always exactly one outcome. -/
theorem C88_one_outcome (L : Laws E) (hu : Usable E cfg) (hk : aesKeyOk cfg.deviceKey = true)
    (hat : CanAttest E (boot E cfg).world.client) (ops : List Op) (d : Device)
    (hd : after E cfg (boot E cfg) ops = d) (ha : d.alive = true) (m : Bytes) :
    ∃ o, Spec.U2fStatus.Shows (step E cfg d (.u2f m)).1 o ∧
      ∀ o', Spec.U2fStatus.Expected E d.world m o' → o' = o := by
  have h := C88_status_table L hu hk hat ops d hd ha m
  have hex : ∃ o, Spec.U2fStatus.Expected E d.world m o := by
    subst hd
    obtain ⟨h1, h2⟩ := attests_reachable L hu hat ops ha
    obtain ⟨c, -, -, ⟨k1, -⟩, h4⟩ := keeps_reachable L hu ops
    obtain ⟨o', q1, -⟩ := U2f.message_status L (by rw [← h4 ha, k1]; exact hk) h1 h2 m
    exact ⟨o', q1⟩
  obtain ⟨o, ho⟩ := hex
  exact ⟨o, (h o).2 ho, fun o' ho' => U2f.expected_unique ho' ho⟩

/-- A device whose user refuses everything, after a restart: a registration is refused, one that is
too short ends the process, as does an unknown instruction; a version request is answered. -/
example : ∃ (E : Env) (cfg : Client.Config) (ops : List Op) (d : Device), Laws E ∧ Usable E cfg ∧
    aesKeyOk cfg.deviceKey = true ∧ CanAttest E (boot E cfg).world.client ∧ ops ≠ [] ∧
    after E cfg (boot E cfg) ops = d ∧ d.alive = true ∧
    (step E cfg d (.u2f (Spec.U2f.apdu 0 1 0 0 (List.replicate 64 7) none))).1 = .answer [0x69, 0x85] ∧
    (step E cfg d (.u2f (Spec.U2f.apdu 0 1 0 0 (List.replicate 63 7) none))).1 = .panicked ∧
    (step E cfg d (.u2f [0, 4, 0, 0])).1 = .panicked ∧
    ∃ body, (step E cfg d (.u2f [0, 3, 0, 0])).1 = .answer (body ++ [0x90, 0x00]) := by
  let ap : List Ask → Action → Bytes → Bytes → Bool := fun _ _ _ _ => false
  have L := Toy.toy_laws ap
  let d : Device := after (Toy.toy ap) (Toy.config true) (boot (Toy.toy ap) (Toy.config true)) [.restart]
  have ha : d.alive = true := rfl
  have hk : aesKeyOk (Toy.config true).deviceKey = true := by
    show aesKeyOk (List.replicate 32 9) = true
    decide
  have table := C88_status_table L (Toy.config_usable ap true) hk (Toy.boot_attests ap true) [.restart]
    d rfl ha
  have err : ∀ {s : UInt16} {r : Reply}, Spec.U2fStatus.Shows r (.sw s) → s ≠ 0x9000 →
      r = .answer (be16 s) := by
    intro s r h hs
    cases h with
    | success => exact absurd rfl hs
    | error => rfl
  have crash : ∀ {r : Reply}, Spec.U2fStatus.Shows r .crash → r = .panicked := by
    intro r h
    cases h
    rfl
  refine ⟨_, _, [.restart], d, L, Toy.config_usable ap true, hk, Toy.boot_attests ap true, by simp, rfl,
    ha, ?_, ?_, ?_, ?_⟩
  · refine err ((table _ (.sw 0x6985)).2 (.register (p1 := 0) (data := List.replicate 64 7)
      (.data (a := 0) (b := 64) (body := List.replicate 64 7) (by decide) (by decide))
      (.next (fun h => h (by decide)) (.here rfl)))) (by decide)
  · refine crash ((table _ .crash).2 (.register (p1 := 0) (data := List.replicate 63 7)
      (.data (a := 0) (b := 63) (body := List.replicate 63 7) (by decide) (by decide))
      (.here (by decide))))
  · exact crash ((table _ .crash).2 (.unknown .header (by decide) (by decide) (by decide)))
  · have := (table [0, 3, 0, 0] (.sw 0x9000)).2 (.version .header)
    generalize (step (Toy.toy ap) (Toy.config true) d (.u2f [0, 3, 0, 0])).1 = r at *
    cases this with
    | success body => exact ⟨body, rfl⟩
    | error s h => exact absurd rfl h

end VF.Props
