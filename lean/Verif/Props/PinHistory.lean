import Verif.Proofs.PinHistory
import Verif.Proofs.StatusHistory
import Verif.Props.PinProtocol
import Verif.Props.OverlapPin
import Verif.Props.Token
import Verif.Props.Answers

/-!
# C134: the PIN is the one last set
-/

namespace VF.Props

open VF.Fido VF.Fido.Device VF.Spec.Ctap VF.Spec.Client VF.Spec.History VF.Spec.Pin VF.Spec.PinHistory

variable {E : Env} {cfg : Client.Config}

theorem setTo_sets {c : Client} {e : Op × Reply} {pin : Bytes} (h : SetTo E c e pin) : setsPIN E e = true := by
  cases h with
  | call => rfl
  | request hd hs hk hsec hp => rcases hs with hs | hs <;> simp [setsPIN, hd, hs]

/-- What is known of a running device after a history. -/
structure Known (E : Env) (cfg : Client.Config) (ops : List Op) (h : Option Bytes) : Prop where
  healthy : Healthy E (after E cfg (boot E cfg) ops).world.client
  enabled : (after E cfg (boot E cfg) ops).world.client.pinEnabled = pinOn cfg.enablePIN (events E cfg (boot E cfg) ops)
  hash : (after E cfg (boot E cfg) ops).world.client.pinHash = h
  retries : (after E cfg (boot E cfg) ops).world.client.pinRetries = (tries E (events E cfg (boot E cfg) ops) : Int)
  few : (after E cfg (boot E cfg) ops).world.client.pinRetries ≤ 8
  token : (after E cfg (boot E cfg) ops).world.client.pinToken.length = 16

theorem known_of (L : Laws E) {ops : List Op} {h : Option Bytes} (ha : (after E cfg (boot E cfg) ops).alive = true)
    (hp : PinIs E cfg (pinOn cfg.enablePIN (events E cfg (boot E cfg) ops)) h (after E cfg (boot E cfg) ops)) :
    Known E cfg ops h := by
  obtain ⟨c, h1, -, ⟨h2, h3⟩, h4⟩ := hp
  obtain rfl := h4 ha
  obtain ⟨rnd, hs, -⟩ := sessionOk_after L ops (sessionOk_boot (E := E) (cfg := cfg)) ha
  refine ⟨h1, h2, h3, tries_history ops ha, (retriesOk_after ops retriesOk_boot ha).2, ?_⟩
  rw [show (after E cfg (boot E cfg) ops).world.client.pinToken = E.rand rnd 16 from congrArg Prod.fst hs]
  exact L.rand_length _ _

theorem events_at (d : Device) (xs ys : List Op) (op : Op) : events E cfg d (xs ++ op :: ys) = events E cfg d xs ++
    (op, (step E cfg (after E cfg d xs) op).1) :: events E cfg (step E cfg (after E cfg d xs) op).2 ys := by
  induction xs generalizing d with
  | nil => rfl
  | cons x xs ih => rw [List.cons_append, events_cons, events_cons, List.cons_append, ih]; rfl

theorem known_set (L : Laws E) (hu : Usable E cfg) {xs ys : List Op} {op : Op} {pin : Bytes}
    (hset : SetTo E (after E cfg (boot E cfg) xs).world.client (op, (step E cfg (after E cfg (boot E cfg) xs) op).1) pin)
    (hno : ∀ e ∈ events E cfg (step E cfg (after E cfg (boot E cfg) xs) op).2 ys, setsPIN E e = false)
    (ha : (after E cfg (boot E cfg) (xs ++ op :: ys)).alive = true) :
    Known E cfg (xs ++ op :: ys) (some (hash E pin)) := by
  obtain ⟨h0, h1⟩ := pinIs_after (cfg := cfg) L xs (pinIs_boot hu)
  obtain ⟨h', h2, -, h3⟩ := pinIs_step L op h1
  obtain ⟨pin', rfl, h4⟩ := h3 (setTo_sets hset)
  obtain rfl := h4 pin hset
  refine known_of L ha ?_
  have e2 : after E cfg (boot E cfg) (xs ++ op :: ys) =
      after E cfg (step E cfg (after E cfg (boot E cfg) xs) op).2 ys := by rw [after_append, after_cons]
  rw [events_at, e2]
  have := pinIs_stays L ys h2 hno
  unfold pinOn at this ⊢
  rw [List.foldl_append, List.foldl_cons]
  exact this

theorem known_none (L : Laws E) (hu : Usable E cfg) {ops : List Op}
    (hno : ∀ e ∈ events E cfg (boot E cfg) ops, setsPIN E e = false)
    (ha : (after E cfg (boot E cfg) ops).alive = true) : Known E cfg ops none :=
  known_of L ha (pinIs_stays L ops (pinIs_boot hu) hno)

theorem step_message {d : Device} {m b : Bytes} {w : World} (ha : d.alive = true) (h : Ctap.handleMessage E m d.world = (.ok b, w)) :
    step E cfg d (.ctap m) = (.answer b, ⟨w, true⟩) := by
  rw [step_live rfl ha, perform_ctap', h]
  rfl

theorem step_ends {d : Device} {m : Bytes} {w : World} {c : Cause} (ha : d.alive = true)
    (h : Ctap.handleMessage E m d.world = (.panic c, w)) : step E cfg d (.ctap m) = (.panicked, ⟨w, false⟩) := by
  rw [step_live rfl ha, perform_ctap', h]
  rfl

theorem hash_ne_nil (L : Laws E) (pin : Bytes) : hash E pin ≠ [] := by
  intro h
  have := hash_length L pin
  rw [h] at this
  cases this

theorem token_refused (L : Laws E) {w : World} {platform : ECDHKey} {key : EC2Key} {secret guess : Bytes}
    (hon : w.client.pinEnabled = true) (hn : 0 < w.client.pinRetries ∧ w.client.pinRetries ≤ 8)
    (hag : Agreement E w.client platform key secret) (hne : hash E guess ≠ w.client.pinHash.getD []) :
    ∃ w', Ctap.handleMessage E (request (getPINToken E key secret guess)) w = (.ok [0x31], w') ∧
      w' = { w with client := { w.client with pinRetries := w.client.pinRetries - 1 } } := by
  obtain ⟨hss, hsl, -, hx⟩ := agreement_secret L hag
  have hl := hash_length L guess
  have hel : (E.cbcEncrypt secret (hash E guess)).length = 16 := by
    rw [L.cbc_length _ _ hsl (by omega), hl]
  have hr := Ctap.getToken_wrong hon hn (L.decode_clientPIN _ (getPINToken_fits (pin := guess) L hag)) rfl rfl rfl hx rfl hss hsl
    (by omega) (by rw [L.cbc_decrypt _ _ hsl (by omega)]; exact hne)
  exact ⟨_, hr, rfl⟩

theorem token_granted (L : Laws E) {w : World} {platform : ECDHKey} {key : EC2Key} {secret guess : Bytes}
    (hon : w.client.pinEnabled = true) (hn : 0 < w.client.pinRetries ∧ w.client.pinRetries ≤ 8)
    (htok : w.client.pinToken.length = 16) (hag : Agreement E w.client platform key secret)
    (hpin : w.client.pinHash = some (hash E guess)) :
    ∃ answer enc w', Ctap.handleMessage E (request (getPINToken E key secret guess)) w = (.ok answer, w') ∧
      Success answer (.map [(.int 2, .bytes enc)]) ∧ E.cbcDecrypt secret enc = w.client.pinToken := by
  obtain ⟨answer, enc, h1, h2, h3⟩ := C59_get_token L hon hn htok hpin hag
  exact ⟨answer, enc, _, h1, h2, h3⟩

theorem change_fits (L : Laws E) {c : Client} {platform : ECDHKey} {key : EC2Key} {secret old new : Bytes}
    (hag : Agreement E c platform key secret) (h63 : new.length ≤ 63) :
    Spec.Platform.ClientPINFits (changePIN E key secret old new) := by
  obtain ⟨-, hsl, hfit, -⟩ := agreement_secret L hag
  have hl := pad64_length h63
  have hhl := hash_length L old
  have hel : (E.cbcEncrypt secret (pad64 new)).length = 64 := by
    rw [L.cbc_length _ _ hsl (by omega), hl]
  have hhel : (E.cbcEncrypt secret (hash E old)).length = 16 := by
    rw [L.cbc_length _ _ hsl (by omega), hhl]
  refine ⟨?_, ?_, ?_, ?_⟩
  · intro k hk; obtain rfl : k = key := by simpa [changePIN] using hk.symm
    exact hfit
  · intro b hb
    obtain rfl : b = _ := by simpa [changePIN] using hb.symm
    have := auth_length L secret (E.cbcEncrypt secret (pad64 new) ++ E.cbcEncrypt secret (hash E old))
    unfold Short; omega
  · intro b hb
    obtain rfl : b = _ := by simpa [changePIN] using hb.symm
    unfold Short; omega
  · intro b hb
    obtain rfl : b = _ := by simpa [changePIN] using hb.symm
    unfold Short; omega

theorem change_refused (L : Laws E) {w : World} {platform : ECDHKey} {key : EC2Key} {secret guess new : Bytes}
    (hon : w.client.pinEnabled = true) (hn : 0 < w.client.pinRetries ∧ w.client.pinRetries ≤ 8)
    (hag : Agreement E w.client platform key secret) (h63 : new.length ≤ 63) (hne : hash E guess ≠ w.client.pinHash.getD []) :
    ∃ w', Ctap.handleMessage E (request (changePIN E key secret guess new)) w = (.ok [0x31], w') := by
  obtain ⟨hss, hsl, -, -⟩ := agreement_secret L hag
  have hl := hash_length L guess
  have hel : (E.cbcEncrypt secret (hash E guess)).length = 16 := by
    rw [L.cbc_length _ _ hsl (by omega), hl]
  have hg := Ctap.getPINRetries_ok hn
  refine ⟨{ w with client := { w.client with pinRetries := w.client.pinRetries - 1 } }, ?_⟩
  unfold request
  rw [Ctap.handleMessage_pin]
  unfold Ctap.handleClientPIN
  rw [Go.get_bind_run, if_neg (by simp [hon]), L.decode_clientPIN _ (change_fits (old := guess) L hag h63)]
  show Ctap.handleChangePIN E (changePIN E key secret guess new) w = _
  unfold Ctap.handleChangePIN changePIN
  dsimp only [Option.getD_some]
  rw [Go.run_bind_ok hg, if_neg (by omega), Go.get_bind_run, hss, Go.lift_ok_bind,
    if_neg (by simp [Ctap.derivePINAuth, auth]), Go.run_bind_ok hg]
  simp only [Client.setPINRetries, Client.update, Go.modify_bind_run, decryptAESCBC, Saved.aesKeyOk_32 hsl, if_true,
    hel, Go.lift_ok_bind, Go.get_bind_run]
  rw [if_pos]
  · rfl
  · rw [L.cbc_decrypt _ _ hsl (by omega)]
    exact fun h => hne h.symm

theorem set_refused (L : Laws E) {w : World} {platform : ECDHKey} {key : EC2Key} {secret new : Bytes}
    (hon : w.client.pinEnabled = true) (hag : Agreement E w.client platform key secret) (h63 : new.length ≤ 63)
    (hset : w.client.pinHash ≠ none) :
    Ctap.handleMessage E (request (setPIN E key secret new)) w = (.ok [0x33], w) := by
  unfold request
  rw [Ctap.handleMessage_pin]
  unfold Ctap.handleClientPIN
  rw [Go.get_bind_run, if_neg (by simp [hon]), L.decode_clientPIN _ (setPIN_fits (pin := new) L hag h63)]
  show Ctap.handleSetPIN E (setPIN E key secret new) w = _
  unfold Ctap.handleSetPIN
  rw [Go.get_bind_run, if_pos (by rw [Option.isSome_iff_ne_none]; exact hset)]
  rfl

/-- **The PIN is the one last set.**  In some history a PIN was set, by the program or by a request, and none was set
afterwards, whatever else took place, starts included.  PIN support is on, and tries are left.  Then whoever has agreed on a
secret with the device gets the token for this PIN and for no other (PIN_INVALID), can change the PIN with this PIN and with
no other, and cannot set it anew. -/
theorem C134_last_set (L : Laws E) (hu : Usable E cfg) {xs ys : List Op} {op : Op} {pin : Bytes}
    (hset : SetTo E (after E cfg (boot E cfg) xs).world.client (op, (step E cfg (after E cfg (boot E cfg) xs) op).1) pin)
    (hno : ∀ e ∈ events E cfg (step E cfg (after E cfg (boot E cfg) xs) op).2 ys, setsPIN E e = false)
    {d : Device} (hd : after E cfg (boot E cfg) (xs ++ op :: ys) = d) (ha : d.alive = true)
    (hon : pinOn cfg.enablePIN (events E cfg (boot E cfg) (xs ++ op :: ys)) = true)
    (htries : 0 < tries E (events E cfg (boot E cfg) (xs ++ op :: ys)))
    {platform : ECDHKey} {key : EC2Key} {secret : Bytes} (hag : Agreement E d.world.client platform key secret)
    (guess new : Bytes) (h4 : 4 ≤ new.length) (h63 : new.length ≤ 63) (hz : (0 : UInt8) ∉ new) :
    (hash E guess = hash E pin →
      (∃ answer enc d', step E cfg d (.ctap (request (getPINToken E key secret guess))) = (.answer answer, d') ∧
        Success answer (.map [(.int 2, .bytes enc)]) ∧ E.cbcDecrypt secret enc = d.world.client.pinToken) ∧
      (step E cfg d (.ctap (request (changePIN E key secret guess new)))).1 = .answer [0]) ∧
    (hash E guess ≠ hash E pin →
      (step E cfg d (.ctap (request (getPINToken E key secret guess)))).1 = .answer [0x31] ∧
      (step E cfg d (.ctap (request (changePIN E key secret guess new)))).1 = .answer [0x31]) ∧
    step E cfg d (.ctap (request (setPIN E key secret new))) = (.answer [0x33], d) := by
  subst hd
  have k := known_set L hu hset hno ha
  have hen := k.enabled.trans hon
  have hn : 0 < (after E cfg (boot E cfg) (xs ++ op :: ys)).world.client.pinRetries ∧
      (after E cfg (boot E cfg) (xs ++ op :: ys)).world.client.pinRetries ≤ 8 := ⟨by rw [k.retries]; omega, k.few⟩
  refine ⟨fun hg => ⟨?_, ?_⟩, fun hg => ⟨?_, ?_⟩, ?_⟩
  · obtain ⟨answer, enc, w', h1, h2, h3⟩ := token_granted (guess := guess) L hen hn k.token hag (by rw [k.hash, hg])
    exact ⟨answer, enc, _, step_message ha h1, h2, h3⟩
  · obtain ⟨w', h1, -⟩ := C59_change_pin (old := guess) L k.healthy hen hn (by rw [k.hash, hg]) hag h4 h63 hz
    rw [step_message ha h1]
  · obtain ⟨w', h1, -⟩ := token_refused (guess := guess) L hen hn hag (by rw [k.hash]; exact hg)
    rw [step_message ha h1]
  · obtain ⟨w', h1⟩ := change_refused (guess := guess) (new := new) L hen hn hag h63 (by rw [k.hash]; exact hg)
    rw [step_message ha h1]
  · rw [step_message ha (set_refused L hen hag h63 (by rw [k.hash]; simp))]
    generalize after E cfg (boot E cfg) (xs ++ op :: ys) = d at *
    cases d
    cases ha
    rfl

/-- **While no PIN was ever set** there is none: no guess gets the token, and whoever agreed on a secret can set one. -/
theorem C134_never_set (L : Laws E) (hu : Usable E cfg) {ops : List Op}
    (hno : ∀ e ∈ events E cfg (boot E cfg) ops, setsPIN E e = false)
    {d : Device} (hd : after E cfg (boot E cfg) ops = d) (ha : d.alive = true)
    (hon : pinOn cfg.enablePIN (events E cfg (boot E cfg) ops) = true)
    (htries : 0 < tries E (events E cfg (boot E cfg) ops))
    {platform : ECDHKey} {key : EC2Key} {secret : Bytes} (hag : Agreement E d.world.client platform key secret)
    (guess new : Bytes) (h4 : 4 ≤ new.length) (h63 : new.length ≤ 63) (hz : (0 : UInt8) ∉ new) :
    (step E cfg d (.ctap (request (getPINToken E key secret guess)))).1 = .answer [0x31] ∧
    (step E cfg d (.ctap (request (changePIN E key secret guess new)))).1 = .answer [0x31] ∧
    (step E cfg d (.ctap (request (setPIN E key secret new)))).1 = .answer [0] := by
  subst hd
  have k := known_none L hu hno ha
  have hen := k.enabled.trans hon
  have hn : 0 < (after E cfg (boot E cfg) ops).world.client.pinRetries ∧
      (after E cfg (boot E cfg) ops).world.client.pinRetries ≤ 8 := ⟨by rw [k.retries]; omega, k.few⟩
  refine ⟨?_, ?_, ?_⟩
  · obtain ⟨w', h1, -⟩ := token_refused (guess := guess) L hen hn hag (by rw [k.hash]; exact hash_ne_nil L _)
    rw [step_message ha h1]
  · obtain ⟨w', h1⟩ := change_refused (guess := guess) (new := new) L hen hn hag h63 (by rw [k.hash]; exact hash_ne_nil L _)
    rw [step_message ha h1]
  · obtain ⟨w', h1, -⟩ := C59_set_pin L k.healthy hen k.hash hag h4 h63 hz
    rw [step_message ha h1]

/-- **Without tries left** an attempt, right or wrong, ends the process and changes nothing. -/
theorem C134_no_tries (L : Laws E) (hu : Usable E cfg) {ops : List Op} {d : Device} (hd : after E cfg (boot E cfg) ops = d)
    (ha : d.alive = true) (hon : pinOn cfg.enablePIN (events E cfg (boot E cfg) ops) = true)
    (htries : tries E (events E cfg (boot E cfg) ops) = 0)
    {platform : ECDHKey} {key : EC2Key} {secret : Bytes} (hag : Agreement E d.world.client platform key secret)
    (guess new : Bytes) (h63 : new.length ≤ 63) :
    step E cfg d (.ctap (request (getPINToken E key secret guess))) = (.panicked, ⟨d.world, false⟩) ∧
    step E cfg d (.ctap (request (changePIN E key secret guess new))) = (.panicked, ⟨d.world, false⟩) := by
  subst hd
  obtain ⟨h, hp⟩ := pinIs_after (cfg := cfg) L ops (pinIs_boot hu)
  have k := known_of L ha hp
  have hen := k.enabled.trans hon
  have hz : (after E cfg (boot E cfg) ops).world.client.pinRetries = 0 := by rw [k.retries, htries]; rfl
  obtain ⟨-, -, -, hx⟩ := agreement_secret L hag
  have hg : Client.getPINRetries (after E cfg (boot E cfg) ops).world = (.panic .explicit, (after E cfg (boot E cfg) ops).world) := by
    rcases Ctap.getPINRetries_run (after E cfg (boot E cfg) ops).world with ⟨h1, -⟩ | ⟨-, h1⟩
    · omega
    · exact h1
  refine ⟨?_, ?_⟩
  · refine step_ends (c := .explicit) ha ?_
    unfold request
    rw [Ctap.handleMessage_pin]
    unfold Ctap.handleClientPIN
    rw [Go.get_bind_run, if_neg (by simp [hen]), L.decode_clientPIN _ (getPINToken_fits (pin := guess) L hag)]
    show Ctap.handleGetPINToken E (getPINToken E key secret guess) _ = _
    unfold Ctap.handleGetPINToken getPINToken
    dsimp only
    rw [if_neg hx, Go.run_bind_panic hg]
  · refine step_ends (c := .explicit) ha ?_
    unfold request
    rw [Ctap.handleMessage_pin]
    unfold Ctap.handleClientPIN
    rw [Go.get_bind_run, if_neg (by simp [hen]), L.decode_clientPIN _ (change_fits (old := guess) L hag h63)]
    show Ctap.handleChangePIN E (changePIN E key secret guess new) _ = _
    unfold Ctap.handleChangePIN changePIN
    dsimp only
    rw [Go.run_bind_panic hg]

/-- **GetInfo** says whether a PIN was ever set, if PIN support is on, and says nothing of PINs otherwise. -/
theorem C134_info (L : Laws E) (hu : Usable E cfg) {ops : List Op} {d : Device} (hd : after E cfg (boot E cfg) ops = d)
    (ha : d.alive = true) (data : Bytes) :
    ∃ answer info options, step E cfg d (.ctap (4 :: data)) = (.answer answer, d) ∧
      Success answer (.map info) ∧ (.int 4, .map options) ∈ info ∧ (∀ e ∈ info, e.1 = .int 4 → e.2 = .map options) ∧
      Spec.Cbor.lookup options (textKey "clientPin") =
        if pinOn cfg.enablePIN (events E cfg (boot E cfg) ops)
        then some (.bool ((events E cfg (boot E cfg) ops).any (setsPIN E))) else none := by
  subst hd
  have k : ∃ h, Known E cfg ops h ∧ h.isSome = (events E cfg (boot E cfg) ops).any (setsPIN E) := by
    have main : ∀ (ops : List Op) (d : Device) (on : Bool) (h : Option Bytes), PinIs E cfg on h d →
        ∃ h', PinIs E cfg (pinOn on (events E cfg d ops)) h' (after E cfg d ops) ∧
          h'.isSome = (h.isSome || (events E cfg d ops).any (setsPIN E)) := by
      intro ops
      induction ops with
      | nil => exact fun d on h hd => ⟨h, hd, by simp [events]⟩
      | cons op ops ih =>
        intro d on h hd
        obtain ⟨h1, q1, q2, q3⟩ := pinIs_step L op hd
        obtain ⟨h2, q4, q5⟩ := ih _ _ _ q1
        refine ⟨h2, by rw [events_cons, pinOn_cons, after_cons]; exact q4, ?_⟩
        rw [q5, events_cons, List.any_cons]
        cases hs : setsPIN E (op, (step E cfg d op).1) with
        | false => rw [q2 hs]; simp
        | true => obtain ⟨pin, rfl, -⟩ := q3 hs; simp
    obtain ⟨h', q1, q2⟩ := main ops _ _ _ (pinIs_boot hu)
    exact ⟨h', known_of L ha q1, by simpa using q2⟩
  obtain ⟨h, k, hs⟩ := k
  obtain ⟨answer, info, options, h1, h2, h3, h4, h5⟩ := C60_getInfo_tells_pin_state E data (after E cfg (boot E cfg) ops).world
  refine ⟨answer, info, options, ?_, h2, h3, h4, ?_⟩
  · rw [step_message ha h1]
    generalize after E cfg (boot E cfg) ops = d at *
    cases d
    cases ha
    rfl
  · rw [h5, k.enabled, k.hash, hs]

/-! ### Concrete cases -/

/-- A platform that shares a secret with the toy device after one PIN was set and it was started anew. -/
theorem toy_agreement_later {c : Client} (hc : c.keyAgreement = (Toy.toy Toy.agree).genECDH 7) :
    ∃ platform key secret, Agreement (Toy.toy Toy.agree) c platform key secret := by
  have L := Toy.toy_laws Toy.agree
  let plat : ECDHKey := { priv := BigInt.toBytes (2 ^ 248), x := 2 ^ 248, y := 2 ^ 248 }
  have hs : (Toy.toy Toy.agree).ecdh plat.priv c.keyAgreement.x c.keyAgreement.y = some (8 * 2 ^ 248) := by
    rw [hc]
    show some (BigInt.ofBytes (BigInt.toBytes (2 ^ 248)) * _ % 2 ^ 256) = _
    rw [BigInt.ofBytes_toBytes]
    congr 1
  refine ⟨plat, ⟨2, -25, 1, some (1 :: List.replicate 31 0), some (1 :: List.replicate 31 0), []⟩,
    (Toy.toy Toy.agree).sha256 (8 :: List.replicate 31 0), ⟨?_, ⟨2 ^ 248, by decide +kernel, by decide +kernel,
      BigInt.ofBytes_toBytes _, by decide +kernel⟩, ⟨_, _, rfl, by decide +kernel, rfl,
      by decide +kernel, rfl⟩, ⟨_, rfl, ?_, rfl⟩, ?_⟩⟩
  · rw [hc]
    exact L.genECDH_valid 7
  · rw [hs]
    decide +kernel
  · intro s h
    rw [hs] at h
    obtain rfl := Option.some.inj h
    decide +kernel

/-- The hypotheses of `C134_last_set` are met: a PIN is set and the toy device is started anew; 1234 is then right and 0000
wrong. -/
theorem C134_case : ∃ (E : Env) (cfg : Client.Config) (platform : ECDHKey) (key : EC2Key) (secret : Bytes) (d : Device),
    Laws E ∧ Usable E cfg ∧
    SetTo E (after E cfg (boot E cfg) []).world.client
      (.setPIN (ascii "1234"), (step E cfg (after E cfg (boot E cfg) []) (.setPIN (ascii "1234"))).1) (ascii "1234") ∧
    (∀ e ∈ events E cfg (step E cfg (after E cfg (boot E cfg) []) (.setPIN (ascii "1234"))).2 [.restart], setsPIN E e = false) ∧
    after E cfg (boot E cfg) ([] ++ .setPIN (ascii "1234") :: [.restart]) = d ∧ d.alive = true ∧
    pinOn cfg.enablePIN (events E cfg (boot E cfg) ([] ++ .setPIN (ascii "1234") :: [.restart])) = true ∧
    tries E (events E cfg (boot E cfg) ([] ++ .setPIN (ascii "1234") :: [.restart])) = 8 ∧
    Agreement E d.world.client platform key secret ∧ hash E (ascii "0000") ≠ hash E (ascii "1234") := by
  have L := Toy.toy_laws Toy.agree
  have hu := Toy.config_usable Toy.agree true
  have hh := Toy.boot_healthy Toy.agree true
  have hne : hash (Toy.toy Toy.agree) (ascii "0000") ≠ hash (Toy.toy Toy.agree) (ascii "1234") := by decide +kernel
  obtain ⟨w, s1, c1, -, r1⟩ := set_live (cfg := Toy.config true) L (d := boot (Toy.toy Toy.agree) (Toy.config true)) rfl hh
    (ascii "1234")
  have hrs := C40_restart_succeeds L hu [.setPIN (ascii "1234")]
  rw [after_cons, s1, after_nil] at hrs
  obtain ⟨c, hst, e2⟩ : ∃ c, Client.start (Toy.toy Toy.agree) (Toy.config true) w.store w.rnd = .ok c ∧
      step (Toy.toy Toy.agree) (Toy.config true) ⟨w, true⟩ .restart = (.started, ⟨{ w with client := c, rnd := w.rnd + 2 }, true⟩) := by
    cases hst : Client.start (Toy.toy Toy.agree) (Toy.config true) w.store w.rnd with
    | ok c => exact ⟨c, rfl, by simp only [step, hst]⟩
    | panic q => simp only [step, hst] at hrs; exact absurd hrs.1 (by simp)
  have hk : c.keyAgreement = (Toy.toy Toy.agree).genECDH 7 := by
    have := congrArg Prod.snd (start_session hst)
    rw [r1] at this
    exact this
  obtain ⟨platform, key, secret, hag⟩ := toy_agreement_later hk
  have hev : events (Toy.toy Toy.agree) (Toy.config true) (boot (Toy.toy Toy.agree) (Toy.config true))
      ([] ++ .setPIN (ascii "1234") :: [.restart]) = [(.setPIN (ascii "1234"), .done), (.restart, .started)] := by
    rw [events_at, after_nil, s1, events_cons, e2]
    rfl
  refine ⟨_, _, platform, key, secret, _, L, hu, ?_, ?_, rfl, ?_, ?_, ?_, ?_, hne⟩
  · rw [after_nil, s1]; exact .call _
  · rw [after_nil, s1, events_cons, e2]
    intro e he
    cases he with
    | head => rfl
    | tail _ he => cases he
  · rw [List.nil_append, after_cons, s1, after_cons, e2]; rfl
  · rw [hev]; rfl
  · rw [hev]; rfl
  · rw [List.nil_append, after_cons, s1, after_cons, e2]; exact hag

/-- Wrong guesses, one after the other, at a device without a PIN. -/
theorem guesses (L : Laws E) {platform : ECDHKey} {key : EC2Key} {secret : Bytes} (guess : Bytes) :
    ∀ (n : Nat) (d : Device), d.alive = true → d.world.client.pinEnabled = true → d.world.client.pinHash = none →
      Agreement E d.world.client platform key secret → (n : Int) ≤ d.world.client.pinRetries → d.world.client.pinRetries ≤ 8 →
      events E cfg d (List.replicate n (.ctap (request (getPINToken E key secret guess)))) =
        List.replicate n (.ctap (request (getPINToken E key secret guess)), .answer [0x31]) ∧
      (after E cfg d (List.replicate n (.ctap (request (getPINToken E key secret guess))))).alive = true ∧
      Agreement E (after E cfg d (List.replicate n (.ctap (request (getPINToken E key secret guess))))).world.client
        platform key secret
  | 0, d, ha, _, _, hag, _, _ => ⟨rfl, ha, hag⟩
  | n + 1, d, ha, hen, hnone, hag, hn, h8 => by
    obtain ⟨w', h1, h2⟩ := token_refused (guess := guess) L hen ⟨by omega, h8⟩ hag
      (by rw [hnone]; exact hash_ne_nil L _)
    have hs := step_message (cfg := cfg) ha h1
    obtain ⟨g1, g2, g3⟩ := guesses L guess n ⟨w', true⟩ rfl (by rw [h2]; exact hen) (by rw [h2]; exact hnone)
      (by rw [h2]; exact ⟨hag.1, hag.2, hag.3, hag.4, hag.5⟩) (by rw [h2]; show (n : Int) ≤ _ - 1; omega) (by rw [h2]; show (_ : Int) - 1 ≤ 8; omega)
    rw [List.replicate_succ, List.replicate_succ, events_cons, after_cons, hs]
    exact ⟨by rw [g1], g2, g3⟩

/-- The hypotheses of `C134_no_tries` are met: somebody guesses eight times at the toy device, which has no PIN. -/
theorem C134_case_no_tries : ∃ (E : Env) (cfg : Client.Config) (ops : List Op) (platform : ECDHKey) (key : EC2Key)
    (secret : Bytes) (d : Device), Laws E ∧ Usable E cfg ∧ after E cfg (boot E cfg) ops = d ∧ d.alive = true ∧
    pinOn cfg.enablePIN (events E cfg (boot E cfg) ops) = true ∧ tries E (events E cfg (boot E cfg) ops) = 0 ∧
    Agreement E d.world.client platform key secret := by
  have L := Toy.toy_laws Toy.agree
  have hu := Toy.config_usable Toy.agree true
  obtain ⟨platform, key, secret, hag⟩ := toy_agreement (c := (boot (Toy.toy Toy.agree) (Toy.config true)).world.client) rfl
  obtain ⟨h1, h2, h3⟩ := guesses (cfg := Toy.config true) L (ascii "1234") 8 (boot (Toy.toy Toy.agree) (Toy.config true)) rfl rfl rfl
    hag (by decide) (by decide)
  refine ⟨_, _, _, platform, key, secret, _, L, hu, rfl, h2, ?_, ?_, h3⟩
  · rw [h1]; rfl
  · rw [h1]
    have hc : ∀ m : Bytes, ∀ n, counted (Toy.toy Toy.agree) n (.ctap (6 :: m), .answer [0x31]) = n - 1 := by
      intro m n
      unfold counted
      rw [if_neg (by simp)]
      simp [isRightPIN, isWrongPIN]
    unfold tries request
    simp only [List.replicate, List.foldl_cons, List.foldl_nil, hc]

end VF.Props
