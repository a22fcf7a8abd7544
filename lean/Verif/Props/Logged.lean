import Verif.Proofs.LoggedShown
import Verif.Props.Token
import Verif.Props.U2f
import Verif.Props.Secrecy
import Verif.Props.OverlapPin

/-!
# C126: what the log shows of secrets
-/

namespace VF.Props

open VF.Fido VF.Fido.Device VF.Fido.Logged VF.Spec.Ctap VF.Spec.Client VF.Spec.History VF.Spec.Pin VF.Spec.U2f VF.Spec.LogSecrets

/-- The handlers with their log statements do what the handlers without them do. -/
theorem C126_same_device (E : Env) (op : Op) (w : LWorld) :
    (Logged.perform E op w).1 = (Device.perform E op w.world).1 ∧
      (Logged.perform E op w).2.world = (Device.perform E op w.world).2 :=
  erases_perform E op w

/-- Two devices, with whatever secrets, that answer the same messages in the same way, log the same: so apart from what
`Discreet` leaves out, the lines that need no Unsafe tell no more than the messages and the answers. -/
theorem C126_tells_no_more {E E' : Env} (L : Laws E) (L' : Laws E') (he : ReadsAlike E E') {cfg cfg' : Client.Config}
    {d d' : Device} {ops : List Op} (hr : (run E cfg d ops).1 = (run E' cfg' d' ops).1)
    (hd : AllDiscreet E ops (run E cfg d ops).1) :
    visible (logOf E cfg d ops) = visible (logOf E' cfg' d' ops) := by
  have hdis : ∀ (ops : List Op) (rs : List Reply), AllDiscreet E ops rs → AllDiscreet E' ops rs := by
    intro ops
    induction ops with
    | nil => intro rs _; cases rs <;> trivial
    | cons op ops ih =>
      intro rs h
      rcases rs with _ | ⟨r, rs⟩
      · trivial
      · refine ⟨?_, ih rs h.2⟩
        have h1 := h.1
        unfold Discreet at h1 ⊢
        rw [← he.pin]
        exact h1
  rw [logOf_discreet L hd, logOf_discreet L' (by rw [← hr]; exact hdis _ _ hd), ← hr]
  congr 2
  funext op r
  exact eventLines_alike he r op

/-! ### PINs -/

theorem printed_ctap {E : Env} {d : Device} (ha : d.alive = true) (m : Bytes) :
    printed E d (.ctap m) = (ctapMessage E m ⟨d.world, []⟩).2.lines := by
  simp only [printed, ha, if_true]
  unfold Logged.perform
  dsimp only
  rw [Go.run_bind]
  rcases ctapMessage E m ⟨d.world, []⟩ with ⟨_ | _, _⟩ <;> rfl

theorem printed_u2f {E : Env} {d : Device} (ha : d.alive = true) (m : Bytes) :
    printed E d (.u2f m) = (u2fMessage E m ⟨d.world, []⟩).2.lines := by
  simp only [printed, ha, if_true]
  unfold Logged.perform
  dsimp only
  rw [Go.run_bind]
  rcases u2fMessage E m ⟨d.world, []⟩ with ⟨_ | _, _⟩ <;> rfl

theorem ctap_step {E : Env} {cfg : Client.Config} {d : Device} (ha : d.alive = true) {m b : Bytes}
    (h : (step E cfg d (.ctap m)).1 = .answer b) :
    (ctapMessage E m ⟨d.world, []⟩).1 = .ok b ∧
      (step E cfg d (.ctap m)).2.world = (ctapMessage E m ⟨d.world, []⟩).2.world := by
  obtain ⟨e1, e2⟩ := erases_ctap E m ⟨d.world, []⟩
  rw [e1, e2]
  rw [step_live rfl ha, perform_ctap'] at h ⊢
  dsimp only at h ⊢
  rcases hx : Ctap.handleMessage E m d.world with ⟨b' | c, w'⟩ <;> rw [hx] at h
  · obtain rfl := Reply.answer.inj h
    exact ⟨rfl, rfl⟩
  · cases h

/-- A request for the token that got as far as comparing PINs, be they equal or not, puts the stored hash into the log, at
level Debug. -/
theorem C126_token_shows_hash {E : Env} {cfg : Client.Config} {d : Device} {data b : Bytes} {args : ClientPINArgs}
    (ha : d.alive = true) (hd : E.decodeClientPIN data = some args) (hs : args.subCommand = 5)
    (h : (step E cfg d (.ctap (6 :: data))).1 = .answer b) (hb : b = [0x31] ∨ b.head? = some 0) :
    Shows (printed E d (.ctap (6 :: data))) (.bytes (d.world.client.pinHash.getD [])) := by
  obtain ⟨new, h1, h2⟩ := token_message_lines hd hs (ctap_step ha h).1 hb
  rw [printed_ctap ha, h1]
  exact h2

/-- So does setting a PIN by CTAP2. -/
theorem C126_set_shows_hash {E : Env} {cfg : Client.Config} {d : Device} {data : Bytes} {args : ClientPINArgs}
    (ha : d.alive = true) (hd : E.decodeClientPIN data = some args) (hs : args.subCommand = 3)
    (h : (step E cfg d (.ctap (6 :: data))).1 = .answer [0]) :
    ∃ hash, (step E cfg d (.ctap (6 :: data))).2.world.client.pinHash = some hash ∧
      Shows (printed E d (.ctap (6 :: data))) (.bytes hash) := by
  obtain ⟨e1, e2⟩ := ctap_step ha h
  obtain ⟨hash, new, h0, h1, h2⟩ := set_message_lines hd hs e1
  rw [printed_ctap ha, h1, e2]
  exact ⟨hash, h0, h2⟩

/-- Whoever has the hash needs no PIN: they get the token, as the owner does (C59). -/
theorem C126_hash_gives_token {E : Env} (L : Laws E) {w : World} {platform : ECDHKey} {key : EC2Key} {secret hash : Bytes}
    (hon : w.client.pinEnabled = true) (hn : 0 < w.client.pinRetries ∧ w.client.pinRetries ≤ 8)
    (htok : w.client.pinToken.length = 16) (hpin : w.client.pinHash = some hash) (hl : hash.length = 16)
    (hag : Agreement E w.client platform key secret) :
    ∃ answer enc, Ctap.handleMessage E (request (tokenByHash E key secret hash)) w =
        (.ok answer, { w with client := { w.client with pinRetries := 8 } }) ∧
      Success answer (.map [(.int 2, .bytes enc)]) ∧ E.cbcDecrypt secret enc = w.client.pinToken := by
  obtain ⟨hss, hsl, hfit, hx⟩ := agreement_secret L hag
  have hel : (E.cbcEncrypt secret hash).length = 16 := by
    rw [L.cbc_length _ _ hsl (by omega), hl]
  have htl : (E.cbcEncrypt secret w.client.pinToken).length = 16 := by
    rw [L.cbc_length _ _ hsl (by omega), htok]
  have hfits : Spec.Platform.ClientPINFits (tokenByHash E key secret hash) := by
    refine ⟨?_, by simp [tokenByHash], by simp [tokenByHash], ?_⟩
    · intro k hk; obtain rfl : k = key := by simpa [tokenByHash] using hk.symm
      exact hfit
    · intro b hb
      obtain rfl : b = _ := by simpa [tokenByHash] using hb.symm
      unfold Short; omega
  have hr := Ctap.getToken_succeeds hon hn (L.decode_clientPIN _ hfits) rfl rfl rfl hx rfl hss hsl
    (by omega) (by rw [hpin, L.cbc_decrypt _ _ hsl (by omega)]; rfl) (by omega)
  refine ⟨_, _, hr, ?_, L.cbc_decrypt _ _ hsl (by omega)⟩
  have hi : Ctap.pinTokenItem (E.cbcEncrypt secret w.client.pinToken) =
      .map [(.int 2, .bytes (E.cbcEncrypt secret w.client.pinToken))] := by
    unfold Ctap.pinTokenItem
    rw [if_neg]
    intro e
    simp only [List.isEmpty_iff] at e
    rw [e] at htl; simp at htl
  rw [← hi]
  exact Ctap.success_of_wf (Ctap.pinTokenItem_wf (by unfold Short; omega))

/-! ### Keys -/

/-- For every registered application: an authentication for another one that names its key handle puts its private key into
the log, at level Debug, without asking anybody. -/
theorem C126_foreign_shows_key {E : Env} (L : Laws E) {w : World} {application : Bytes} {reg : Registration} {x y : Nat}
    (h : Registered E w application reg x y) {d : Device} (ha : d.alive = true)
    (hv : d.world.client.deviceKey = w.client.deviceKey) (cla control p2 : UInt8) (le : Option UInt16)
    (challenge other : Bytes) (hc : challenge.length = 32) (ho : other.length = 32) (hne : other ≠ application) :
    ∃ k der key, Shows (printed E d (.u2f (apdu cla 2 control p2 (authenticateData challenge other reg.keyHandle) le))) (.keyHandle k) ∧
      k.privateKey = some der ∧ E.parseECDER der = some key ∧ key.pub = { p256 := true, x := x, y := y } := by
  obtain ⟨hk, he, hp⟩ := registered_handle L h
  have hl := U2f.madeHandle_length L w.rnd hk h.application_length
  have hse := U2f.madeHandle_sealed L w.rnd hk h.application_length
  rw [← he] at hl hse
  rw [← hv] at hse hk
  obtain ⟨der, hop, hder⟩ := U2f.openKeyHandle_sealed (c := d.world.client) hk hse (by
    intro box hb
    rw [he] at hb
    exact U2f.madeHandle_iv L (by rw [← hv]; exact hk) h.application_length hb)
  obtain ⟨new, h1, h2⟩ := foreign_lines (E := E) (cla := cla) (control := control) (p2 := p2) (le := le) (w := ⟨d.world, []⟩) hc ho
    (by intro e; rw [e] at hl; cases hl) (by omega) hop (Ne.symm hne)
  rw [printed_u2f ha, h1]
  exact ⟨_, der, _, h2, rfl, hder, hp⟩

/-! ### Concrete cases -/

/-- Two toy devices with different PINs that answer the same and log something. -/
theorem C126_case : ∃ (E : Env) (cfg : Client.Config) (d d' : Device) (ops : List Op), Laws E ∧ Usable E cfg ∧
    d.world.client.pinHash ≠ d'.world.client.pinHash ∧ (run E cfg d ops).1 = (run E cfg d' ops).1 ∧
    AllDiscreet E ops (run E cfg d ops).1 ∧ 3 ≤ (visible (logOf E cfg d ops)).length := by
  have L := Toy.toy_laws Toy.agree
  have hu := Toy.config_usable Toy.agree true
  have hh := Toy.boot_healthy Toy.agree true
  have h1 : hash (Toy.toy Toy.agree) (ascii "1234") ≠ hash (Toy.toy Toy.agree) (ascii "56789") := by decide +kernel
  have hal : (boot (Toy.toy Toy.agree) (Toy.config true)).alive = true := rfl
  have hen : (boot (Toy.toy Toy.agree) (Toy.config true)).world.client.pinEnabled = true := rfl
  have hka : ECDHValid (Toy.toy Toy.agree) (boot (Toy.toy Toy.agree) (Toy.config true)).world.client.keyAgreement :=
    L.genECDH_valid 1
  generalize Toy.toy Toy.agree = E at *
  generalize Toy.config true = cfg at *
  have hk := L.decode_clientPIN getKeyAgreement ⟨by simp [getKeyAgreement], by simp [getKeyAgreement],
    by simp [getKeyAgreement], by simp [getKeyAgreement]⟩
  obtain ⟨w1, s1, c1, -⟩ := set_live (cfg := cfg) L hal hh (ascii "1234")
  obtain ⟨w2, s2, c2, -⟩ := set_live (cfg := cfg) L hal hh (ascii "56789")
  have hr := (C115_wrong_guesses_tell_nothing L hu [] [.ctap [4], .ctap (request getKeyAgreement)] (ascii "1234") (ascii "56789") (by
    rintro before op rest e h ⟨data, args, key, secret, rfl, hd, hs, -⟩
    rcases before with _ | ⟨x, _ | ⟨y, before⟩⟩
    · cases e
    · injection e with _ e
      injection e with e _
      injection e with e
      injection e with _ e
      subst e
      rw [hk] at hd
      obtain rfl := Option.some.inj hd
      rcases hs with hs | hs <;> cases hs
    · injection e with _ e
      injection e with _ e
      cases before <;> cases e)).1
  rw [List.nil_append, List.nil_append, run_cons, s1, run_cons (op := .setPIN _), s2] at hr
  have hr := (List.cons.inj hr).2
  have hdis : ∀ r1 r2, AllDiscreet E [.ctap [4], .ctap (request getKeyAgreement)] [r1, r2] := by
    intro r1 r2
    refine ⟨trivial, ?_, trivial⟩
    intro args hd
    rw [hk] at hd
    obtain rfl := Option.some.inj hd
    decide
  refine ⟨E, cfg, ⟨w1, true⟩, ⟨w2, true⟩, [.ctap [4], .ctap (request getKeyAgreement)], L, hu, ?_, hr, hdis _ _, ?_⟩
  · rw [c1, c2]
    intro h
    exact h1 (Option.some.inj h)
  · obtain ⟨answer, _, _, ra, -⟩ := C59_key_agreement (w := w1) L (by rw [c1]; exact hen) (by rw [c1]; exact hka)
    have e1 : step E cfg ⟨w1, true⟩ (.ctap [4]) = (.answer (0 :: Cbor.encode (Ctap.getInfoItem
        (if w1.client.pinEnabled then some w1.client.pinHash.isSome else none))), ⟨w1, true⟩) := rfl
    have er : run E cfg ⟨w1, true⟩ [.ctap [4], .ctap (request getKeyAgreement)] =
        ([.answer (0 :: Cbor.encode (Ctap.getInfoItem (if w1.client.pinEnabled then some w1.client.pinHash.isSome else none))),
          .answer answer], ⟨w1, true⟩) := by
      rw [run_cons, e1, run_cons, step_ctap (d := ⟨w1, true⟩) rfl ra]
      rfl
    rw [logOf_discreet L (by rw [er]; exact hdis _ _), er]
    simp [List.zipWith, eventLines, ctapLines, infoLines, request]

/-- The PIN protects nothing against those who read the log of level Debug: somebody without the PIN asks for the token, in
vain; a line of the log then holds what gets them the token. -/
theorem C126_pin_refuted : ∃ (E : Env) (cfg : Client.Config) (pin guess value : Bytes) (key : EC2Key) (secret : Bytes)
    (answer enc : Bytes), Laws E ∧ Usable E cfg ∧
    let ops : List Op := [.setPIN pin, .ctap (request (getPINToken E key secret guess))]
    (run E cfg (boot E cfg) ops).1 = [.done, .answer [0x31]] ∧
    Shows (logOf E cfg (boot E cfg) ops) (.bytes value) ∧
    (step E cfg (after E cfg (boot E cfg) ops) (.ctap (request (tokenByHash E key secret value)))).1 = .answer answer ∧
    Success answer (.map [(.int 2, .bytes enc)]) ∧
    E.cbcDecrypt secret enc = (after E cfg (boot E cfg) ops).world.client.pinToken := by
  have L := Toy.toy_laws Toy.agree
  obtain ⟨platform, key, secret, hag⟩ :=
    toy_agreement (c := (boot (Toy.toy Toy.agree) (Toy.config true)).world.client) rfl
  have hu := Toy.config_usable Toy.agree true
  have hh := Toy.boot_healthy Toy.agree true
  have h1 : hash (Toy.toy Toy.agree) (ascii "0000") ≠ hash (Toy.toy Toy.agree) (ascii "1234") := by decide +kernel
  have hen : (boot (Toy.toy Toy.agree) (Toy.config true)).world.client.pinEnabled = true := rfl
  have hal : (boot (Toy.toy Toy.agree) (Toy.config true)).alive = true := rfl
  have htl : (boot (Toy.toy Toy.agree) (Toy.config true)).world.client.pinToken.length = 16 := rfl
  have hre : (boot (Toy.toy Toy.agree) (Toy.config true)).world.client.pinRetries = 8 := rfl
  generalize Toy.toy Toy.agree = E at *
  generalize Toy.config true = cfg at *
  obtain ⟨w1, s1, c1, -⟩ := set_live (cfg := cfg) L hal hh (ascii "1234")
  have g1 : Agreement E w1.client platform key secret := by
    obtain ⟨a1, a2, a3, a4, a5⟩ := hag
    rw [c1]
    exact ⟨a1, a2, a3, a4, a5⟩
  obtain ⟨hss, hsl, hfit, hx⟩ := agreement_secret L g1
  have hl := hash_length L (ascii "0000")
  have hd := L.decode_clientPIN _ (getPINToken_fits (pin := ascii "0000") L g1)
  have hw := Ctap.getToken_wrong (w := w1) (by rw [c1]; exact hen) (by rw [c1]; dsimp only; rw [hre]; decide) hd rfl rfl rfl hx rfl
    hss hsl (by rw [L.cbc_length _ _ hsl (by omega)]; omega)
    (by rw [L.cbc_decrypt _ _ hsl (by omega), c1]; exact h1)
  have hw' : step E cfg ⟨w1, true⟩ (.ctap (request (getPINToken E key secret (ascii "0000")))) =
      (.answer [0x31], ⟨{ w1 with client := { w1.client with pinRetries := w1.client.pinRetries - 1 } }, true⟩) :=
    step_ctap (cfg := cfg) (d := ⟨w1, true⟩) rfl hw
  have g2 : Agreement E { w1.client with pinRetries := w1.client.pinRetries - 1 } platform key secret := by
    obtain ⟨a1, a2, a3, a4, a5⟩ := g1
    exact ⟨a1, a2, a3, a4, a5⟩
  obtain ⟨answer, enc, ht, su, hdec⟩ := C126_hash_gives_token (hash := hash E (ascii "1234"))
    (w := { w1 with client := { w1.client with pinRetries := w1.client.pinRetries - 1 } }) L
    (by rw [c1]; exact hen) (by rw [c1]; dsimp only; rw [hre]; decide) (by rw [c1]; exact htl) (by rw [c1])
    (hash_length L _) g2
  have hsh := C126_token_shows_hash (cfg := cfg) (d := ⟨w1, true⟩) rfl hd rfl (congrArg Prod.fst hw') (.inl rfl)
  rw [show w1.client.pinHash.getD [] = hash E (ascii "1234") by rw [c1]; rfl] at hsh
  refine ⟨E, cfg, ascii "1234", ascii "0000", hash E (ascii "1234"), key, secret, answer, enc, L, hu, ?_, ?_, ?_, su, ?_⟩
  · rw [run_cons, s1, run_cons, hw']
    rfl
  · obtain ⟨l, hl, hv⟩ := hsh
    refine ⟨l, ?_, hv⟩
    unfold logOf logOf
    rw [s1]
    unfold visible at hl ⊢
    rw [List.filter_append, List.filter_append]
    exact List.mem_append.2 (.inr (List.mem_append.2 (.inl hl)))
  · rw [after_cons, s1, after_cons, hw']
    dsimp only [after_nil]
    rw [step_ctap rfl ht]
  · rw [after_cons, s1, after_cons, hw']
    exact hdec

/-- Nor are keys of applications: a registration, and then an authentication for another application, asks the user once,
and the private key of the first application is in the log of level Debug. -/
theorem C126_key_refuted : ∃ (E : Env) (cfg : Client.Config) (register other answer : Bytes) (reg : Registration) (x y : Nat)
    (k : KeyHandle) (der : Bytes) (key : ECPriv), Laws E ∧ Usable E cfg ∧
    let ops : List Op := [.u2f register, .u2f other]
    (run E cfg (boot E cfg) ops).1 = [.answer answer, .answer [0x6A, 0x80]] ∧
    parseRegistration answer = some reg ∧ parsePoint reg.publicKey = some (x, y) ∧
    Shows (logOf E cfg (boot E cfg) ops) (.keyHandle k) ∧
    k.privateKey = some der ∧ E.parseECDER der = some key ∧ key.pub = { p256 := true, x := x, y := y } ∧
    (after E cfg (boot E cfg) ops).world.asks = [⟨.u2fRegister, [], [], true⟩] := by
  have L := Toy.toy_laws Toy.agree
  have hu := Toy.config_usable Toy.agree true
  have hh := Toy.boot_healthy Toy.agree true
  have hat := Toy.boot_attests Toy.agree true
  have hal : (boot (Toy.toy Toy.agree) (Toy.config true)).alive = true := rfl
  have has : (boot (Toy.toy Toy.agree) (Toy.config true)).world.asks = [] := rfl
  have hap : (Toy.toy Toy.agree).approve [] .u2fRegister [] [] = true := rfl
  have hk : aesKeyOk (boot (Toy.toy Toy.agree) (Toy.config true)).world.client.deviceKey = true := by decide +kernel
  generalize Toy.toy Toy.agree = E at *
  generalize Toy.config true = cfg at *
  generalize hd0 : boot E cfg = d at *
  obtain ⟨reg, x, y, hreg⟩ := registers L hk hh hat (by rw [has]; exact hap)
  have hreg' := hreg
  obtain ⟨ha, ⟨cla, p1, p2, le, challenge, answer, w', hc, hm, hp⟩, hq⟩ := hreg'
  have hl : (registerData challenge (List.replicate 32 2)).length = 64 := by simp [registerData, hc]
  have hm' := hm
  rw [U2f.handleMessage_register E cla p1 p2 _ le _ (by intro h; rw [h] at hl; cases hl) (by omega)] at hm'
  obtain ⟨-, -, ⟨hn, -⟩ | ⟨-, hw, -⟩⟩ := U2f.register_spec L hm'
  · rw [has, hap] at hn
    cases hn
  have e1 := step_u2f (cfg := cfg) hal hm
  have hv : w'.client.deviceKey = d.world.client.deviceKey := by rw [hw]
  have e2 := step_u2f (cfg := cfg) (d := ⟨w', true⟩) rfl (C63_other_application L hreg hv 0 3 0 none (List.replicate 32 4)
    (List.replicate 32 5) (by simp) (by simp) (by decide))
  obtain ⟨k, der, key, h1, h2, h3, h4⟩ := C126_foreign_shows_key L hreg (d := ⟨w', true⟩) rfl hv 0 3 0 none (List.replicate 32 4)
    (List.replicate 32 5) (by simp) (by simp) (by decide)
  refine ⟨E, cfg, apdu cla 1 p1 p2 (registerData challenge (List.replicate 32 2)) le,
    apdu 0 2 3 0 (authenticateData (List.replicate 32 4) (List.replicate 32 5) reg.keyHandle) none, answer, reg, x, y, k, der,
    key, L, hu, ?_, hp, hq, ?_, h2, h3, h4, ?_⟩ <;> rw [hd0]
  · rw [run_cons, e1, run_cons, e2]
    rfl
  · obtain ⟨l, hl, hv⟩ := h1
    refine ⟨l, ?_, hv⟩
    unfold logOf logOf
    rw [e1]
    unfold visible at hl ⊢
    rw [List.filter_append, List.filter_append]
    exact List.mem_append.2 (.inr (List.mem_append.2 (.inl hl)))
  · rw [after_cons, e1, after_cons, e2]
    show w'.asks = _
    rw [hw, has]
    rfl

end VF.Props
