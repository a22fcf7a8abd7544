import Verif.Proofs.OverlapRaces
import Verif.Proofs.OverlapPin
import Verif.Proofs.OverlapFootprint
import Verif.Props.PinProtocol
import Verif.Props.History

/-!
# The PIN while requests overlap (C98, C99) and what each request may change (C102)
-/

namespace VF.Props

open VF.Fido VF.Fido.Overlap VF.Spec.Client VF.Spec.Pin VF.Spec.History VF.Spec.Overlap

variable {E : Env} {cfg : Client.Config}

/-! ## C98: who can set the PIN and get the PIN token -/

/-- However requests overlap, with restarts and panics: a request to set or change the PIN or for the PIN token is
only answered with success if at one of its own steps it was entitled to it: there was no PIN and it sets
the first, or it showed the hash of the PIN there was. -/
theorem C98_granted (L : Laws E) (hu : Usable E cfg) (evs : List Event) (i : Nat) (op : Op) (r : Reply)
    (h : ((boot E cfg).run E cfg evs).threads[i]? = some (.ready op r)) (hg : Granted E op r) :
    Vouched E cfg evs i op := by
  rcases earned_run (cfg := cfg) L hu evs i _ h with h | h
  · exact h
  · exact absurd hg h

/-- The PIN only changes, other than at a restart, by a step of a goroutine at work on an operation that
was entitled to it at one of its steps. -/
theorem C98_pin_changes (L : Laws E) (hu : Usable E cfg) (evs : List Event) (e : Event) (he : e ≠ .restart)
    (h : ((boot E cfg).run E cfg (evs ++ [e])).mem.world.client.pinHash ≠
      ((boot E cfg).run E cfg evs).mem.world.client.pinHash) :
    ∃ (i : Nat) (op : Op) (p : Prog Reply), e = .turn i ∧
      ((boot E cfg).run E cfg evs).threads[i]? = some (.working op p) ∧ Vouched E cfg (evs ++ [e]) i op :=
  pin_changed L hu evs e he h

/-! ## C99: the limit on wrong PINs -/

/-- False under overlap: whenever the PIN can be tried at all, any number of wrong PINs, all different if one likes, can be
tried at once; each is answered "wrong PIN", and the retry counter falls by at most one. -/
theorem C99_guesses_at_once (L : Laws E) (evs : List Event) {platform : ECDHKey} {key : EC2Key}
    {secret : Bytes} (halive : ((boot E cfg).run E cfg evs).alive = true)
    (hon : ((boot E cfg).run E cfg evs).mem.world.client.pinEnabled = true)
    (hn : 0 < ((boot E cfg).run E cfg evs).mem.world.client.pinRetries ∧
      ((boot E cfg).run E cfg evs).mem.world.client.pinRetries ≤ 8)
    (hag : Agreement E ((boot E cfg).run E cfg evs).mem.world.client platform key secret)
    (pins : List Bytes)
    (hwrong : ∀ pin ∈ pins, some (hash E pin) ≠ ((boot E cfg).run E cfg evs).mem.world.client.pinHash) :
    ∃ evs', .restart ∉ evs' ∧
      ((boot E cfg).run E cfg (evs ++ evs')).threads = ((boot E cfg).run E cfg evs).threads ++
        pins.map (fun pin => .ready (.ctap (request (getPINToken E key secret pin))) (.answer [0x31])) ∧
      ((boot E cfg).run E cfg (evs ++ evs')).alive = true ∧
      ((boot E cfg).run E cfg evs).mem.world.client.pinRetries - 1 ≤
        ((boot E cfg).run E cfg (evs ++ evs')).mem.world.client.pinRetries := by
  obtain ⟨hss, hsl, hfit, hx⟩ := agreement_secret L hag
  obtain ⟨evs', h1, h2, h3, h4⟩ := many_guesses (E := E) (cfg := cfg) (s := (boot E cfg).run E cfg evs) halive hon hn hx
    hss (pins.map (fun pin => (VF.Cbor.encode (Spec.Platform.clientPINItem (getPINToken E key secret pin)),
      E.cbcEncrypt secret (hash E pin)))) (by
      intro g hg
      obtain ⟨pin, hp, rfl⟩ := List.mem_map.1 hg
      have hl := hash_length L pin
      have hel : (E.cbcEncrypt secret (hash E pin)).length = 16 := by
        rw [L.cbc_length _ _ hsl (by omega), hl]
      have hfits : Spec.Platform.ClientPINFits (getPINToken E key secret pin) := by
        refine ⟨?_, by simp [getPINToken], by simp [getPINToken], ?_⟩
        · intro k hk
          obtain rfl : k = key := by simpa [getPINToken] using hk.symm
          exact hfit
        · intro b hb
          obtain rfl : b = _ := by simpa [getPINToken] using hb.symm
          unfold Short
          omega
      refine ⟨_, hash E pin, L.decode_clientPIN _ hfits, rfl, rfl, rfl, rfl, ?_, ?_⟩
      · unfold decryptAESCBC
        rw [Saved.aesKeyOk_32 hsl, if_pos rfl, if_pos (by dsimp only; omega), L.cbc_decrypt _ _ hsl (by omega)]
      · intro h
        have hw := hwrong pin hp
        cases hc : ((boot E cfg).run E cfg evs).mem.world.client.pinHash with
        | none =>
          rw [hc] at h
          rw [h] at hl
          cases hl
        | some b =>
          rw [hc] at h hw
          exact hw (congrArg some h))
  refine ⟨evs', fun h => h1 _ h rfl, ?_⟩
  rw [run_append]
  refine ⟨?_, h3, h4⟩
  rw [h2, List.map_map]
  rfl

/-! ## C102: what a request may change -/

/-- Each step of a request, whatever else is going on, changes only what a request of its kind may change. -/
theorem C102_step (evs : List Event) (i : Nat) (op : Op) (p : Prog Reply)
    (h : ((boot E cfg).run E cfg evs).threads[i]? = some (.working op p)) :
    Keeps (touches E op) ((boot E cfg).run E cfg evs).mem
      ((boot E cfg).run E cfg (evs ++ [.turn i])).mem := by
  rw [run_snoc]
  exact turn_keeps evs i op p h

/-- The arrival of a request changes nothing. -/
theorem C102_begin (evs : List Event) (op : Op) :
    ((boot E cfg).run E cfg (evs ++ [.begin op])).mem = ((boot E cfg).run E cfg evs).mem := by
  rw [run_snoc]
  exact begin_mem _ op

/-- Requests that overlap change together only what their kinds may change. -/
theorem C102_together (t : Touches) (evs evs' : List Event) (hr : .restart ∉ evs')
    (hw : ∀ op p, Thread.working op p ∈ ((boot E cfg).run E cfg evs).threads → (touches E op).Within t)
    (hb : ∀ op, .begin op ∈ evs' → (touches E op).Within t) :
    Keeps t ((boot E cfg).run E cfg evs).mem ((boot E cfg).run E cfg (evs ++ evs')).mem :=
  history_keeps evs evs' hr hw hb

/-- While only requests that read are at work and begin, nothing changes at all. -/
theorem C102_readers (evs evs' : List Event) (hr : .restart ∉ evs')
    (hw : ∀ op p, Thread.working op p ∈ ((boot E cfg).run E cfg evs).threads → touches E op = {})
    (hb : ∀ op, .begin op ∈ evs' → touches E op = {}) :
    ((boot E cfg).run E cfg (evs ++ evs')).mem = ((boot E cfg).run E cfg evs).mem :=
  keeps_nothing (history_keeps evs evs' hr (fun op p h => by rw [hw op p h]; simp [Touches.Within])
    (fun op h => by rw [hb op h]; simp [Touches.Within]))

/-- Requests that read: GetInfo, the retries left, the key agreement key, the U2F version,
and every command the device does not know. -/
theorem C102_reading (data : Bytes) (cla : UInt8) (args : ClientPINArgs)
    (hd : E.decodeClientPIN data = some args) (hs : args.subCommand = 1 ∨ args.subCommand = 2) :
    touches E (.ctap [4]) = {} ∧ touches E (.ctap (6 :: data)) = {} ∧
      touches E (.u2f (cla :: 3 :: data)) = {} ∧
      (∀ cmd : UInt8, cmd ≠ 1 → cmd ≠ 2 → cmd ≠ 6 → touches E (.ctap (cmd :: data)) = {}) := by
  refine ⟨rfl, ?_, rfl, ?_⟩
  · unfold touches
    simp only [hd]
    rcases hs with h | h <;> simp [h]
  · intro cmd h1 h2 h6
    unfold touches
    split <;> simp_all

/-! ## The hypotheses are met -/

/-- A platform that shares a secret with the toy device after its first start. -/
theorem toy_agreement {c : Client} (hc : c.keyAgreement = (Toy.toy Toy.agree).genECDH 1) :
    ∃ platform key secret, Agreement (Toy.toy Toy.agree) c platform key secret := by
  have L := Toy.toy_laws Toy.agree
  let plat : ECDHKey := { priv := BigInt.toBytes (2 ^ 248), x := 2 ^ 248, y := 2 ^ 248 }
  have hs : (Toy.toy Toy.agree).ecdh plat.priv c.keyAgreement.x c.keyAgreement.y = some (2 * 2 ^ 248) := by
    rw [hc]
    show some (BigInt.ofBytes (BigInt.toBytes (2 ^ 248)) * _ % 2 ^ 256) = _
    rw [BigInt.ofBytes_toBytes]
    congr 1
  refine ⟨plat, ⟨2, -25, 1, some (1 :: List.replicate 31 0), some (1 :: List.replicate 31 0), []⟩,
    (Toy.toy Toy.agree).sha256 (2 :: List.replicate 31 0), ⟨?_, ⟨2 ^ 248, by decide +kernel, by decide +kernel,
      BigInt.ofBytes_toBytes _, by decide +kernel⟩, ⟨_, _, rfl, by decide +kernel, rfl,
      by decide +kernel, rfl⟩, ⟨_, rfl, ?_, rfl⟩, ?_⟩⟩
  · rw [hc]
    exact L.genECDH_valid 1
  · rw [hs]
    decide +kernel
  · intro s h
    rw [hs] at h
    obtain rfl := Option.some.inj h
    decide +kernel

/-- On a toy device a platform sets the PIN while a call to switch the PIN on is under way. -/
theorem toy_pin_set : ∃ (evs : List Event) (platform : ECDHKey) (key : EC2Key) (secret : Bytes) (p : Prog Reply),
    .restart ∉ evs ∧
    ((boot (Toy.toy Toy.agree) (Toy.config true)).run (Toy.toy Toy.agree) (Toy.config true) evs).threads =
      [.ready (.ctap (request (setPIN (Toy.toy Toy.agree) key secret [1, 2, 3, 4]))) (.answer [0]),
        .working .enablePIN p] ∧
    ((boot (Toy.toy Toy.agree) (Toy.config true)).run (Toy.toy Toy.agree) (Toy.config true) evs).alive = true ∧
    ((boot (Toy.toy Toy.agree) (Toy.config true)).run (Toy.toy Toy.agree) (Toy.config true)
      evs).mem.world.client.pinEnabled = true ∧
    ((boot (Toy.toy Toy.agree) (Toy.config true)).run (Toy.toy Toy.agree) (Toy.config true)
      evs).mem.world.client.pinRetries = 8 ∧
    ((boot (Toy.toy Toy.agree) (Toy.config true)).run (Toy.toy Toy.agree) (Toy.config true)
      evs).mem.world.client.pinHash = some (hash (Toy.toy Toy.agree) [1, 2, 3, 4]) ∧
    Agreement (Toy.toy Toy.agree) ((boot (Toy.toy Toy.agree) (Toy.config true)).run (Toy.toy Toy.agree)
      (Toy.config true) evs).mem.world.client platform key secret := by
  have L := Toy.toy_laws Toy.agree
  let s0 := boot (Toy.toy Toy.agree) (Toy.config true)
  have hv0 : view s0.mem = (Device.boot (Toy.toy Toy.agree) (Toy.config true)).world := view_load _
  obtain ⟨platform, key, secret, hag⟩ := toy_agreement (c := (view s0.mem).client) (by rw [hv0]; rfl)
  obtain ⟨w', h1, h2, -, -⟩ := C59_set_pin (pin := [1, 2, 3, 4]) L (w := view s0.mem)
    (by rw [hv0]; exact Toy.boot_healthy Toy.agree true) (by rw [hv0]; rfl) (by rw [hv0]; rfl) hag (by simp)
    (by simp) (by simp)
  let op : Op := .ctap (request (setPIN (Toy.toy Toy.agree) key secret [1, 2, 3, 4]))
  have h3 : Device.perform (Toy.toy Toy.agree) op (view s0.mem) = (.ok (.answer [0]), w') := by
    unfold Device.perform
    dsimp only [op]
    rw [Go.run_bind_ok h1]
    rfl
  obtain ⟨m1, k1, rfl, k3⟩ := perform_run (sound_load _) h3
  have hact : ∃ upd next, perform (Toy.toy Toy.agree) op = .act upd next := by
    unfold perform
    dsimp only [op, request]
    exact ⟨_, _, rfl⟩
  let s1 : Process := { s0 with threads := [.working op (perform (Toy.toy Toy.agree) op)] }
  have e1 : s0.step (Toy.toy Toy.agree) (Toy.config true) (.begin op) = s1 :=
    begin_working rfl (by simp [op]) hact
  let pe := perform (Toy.toy Toy.agree) .enablePIN
  let s2 : Process := { s0 with threads := [.working op (perform (Toy.toy Toy.agree) op), .working .enablePIN pe] }
  have e2 : s1.step (Toy.toy Toy.agree) (Toy.config true) (.begin .enablePIN) = s2 :=
    begin_working (s := s1) rfl (by simp) ⟨_, _, rfl⟩
  obtain ⟨n, e3⟩ := complete (E := Toy.toy Toy.agree) (cfg := Toy.config true) (s := s2) (i := 0)
    (op := op) rfl rfl hact k1
  have hc : m1.world.client = { (view m1).client with vault := m1.world.client.vault } := rfl
  have hrun : s0.run (Toy.toy Toy.agree) (Toy.config true)
      (.begin op :: .begin .enablePIN :: List.replicate n (.turn 0)) =
      { mem := m1, threads := [.ready op (.answer [0]), .working .enablePIN pe], alive := true } := by
    rw [run_begin, e1, run_begin, e2, e3]
    rfl
  refine ⟨.begin op :: .begin .enablePIN :: List.replicate n (.turn 0), platform, key, secret, pe, ?_, ?_⟩
  · simp
  · rw [hrun]
    have hk : m1.world.client.keyAgreement = (view s0.mem).client.keyAgreement := by
      show (view m1).client.keyAgreement = _
      rw [h2]
    refine ⟨rfl, rfl, ?_, ?_, ?_, ?_⟩
    · show (view m1).client.pinEnabled = true
      rw [h2, hv0]
      rfl
    · show (view m1).client.pinRetries = 8
      rw [h2]
    · show (view m1).client.pinHash = _
      rw [h2]
    · obtain ⟨q1, q2, q3, q4, q5⟩ := hag
      exact ⟨by rw [hk]; exact q1, q2, q3, by rw [hk]; exact q4, by rw [hk]; exact q5⟩

/-- A successful answer to a request that sets the PIN (C98), and a PIN that changes. -/
example : ∃ (E : Env) (cfg : Client.Config) (evs : List Event) (op : Op) (r : Reply), Laws E ∧ Usable E cfg ∧
    ((boot E cfg).run E cfg evs).threads[0]? = some (.ready op r) ∧ Granted E op r ∧ .restart ∉ evs ∧
    ((boot E cfg).run E cfg evs).mem.world.client.pinHash ≠ ((boot E cfg).run E cfg []).mem.world.client.pinHash := by
  obtain ⟨evs, platform, key, secret, p, h1, h2, -, -, -, h3, h4⟩ := toy_pin_set
  have L := Toy.toy_laws Toy.agree
  obtain ⟨hss, hsl, hfit, hx⟩ := agreement_secret L h4
  refine ⟨Toy.toy Toy.agree, Toy.config true, evs, _, _, L, Toy.config_usable _ _, by rw [h2]; rfl, ?_, h1, ?_⟩
  · have hfits : Spec.Platform.ClientPINFits (setPIN (Toy.toy Toy.agree) key secret [1, 2, 3, 4]) := by
      have hel : ((Toy.toy Toy.agree).cbcEncrypt secret (pad64 [1, 2, 3, 4])).length = 64 := by
        rw [L.cbc_length _ _ hsl (by rw [pad64_length (by simp)]), pad64_length (by simp)]
      refine ⟨?_, ?_, ?_, by simp [Spec.Pin.setPIN]⟩
      · intro k hk
        obtain rfl : k = key := by simpa [Spec.Pin.setPIN] using hk.symm
        exact hfit
      · intro b hb
        obtain rfl : b = _ := by simpa [Spec.Pin.setPIN] using hb.symm
        have := auth_length L secret ((Toy.toy Toy.agree).cbcEncrypt secret (pad64 [1, 2, 3, 4]))
        unfold Short
        omega
      · intro b hb
        obtain rfl : b = _ := by simpa [Spec.Pin.setPIN] using hb.symm
        unfold Short
        omega
    exact ⟨_, L.decode_clientPIN _ hfits, .inl rfl⟩
  · rw [h3]
    exact fun h => by cases h

/-- The property C56 has of requests one after the other is false of overlapping requests: on a device with a PIN, without a
restart or a right PIN, any number of wrong PINs are answered "wrong PIN". -/
theorem C99_limit_refuted (N : Nat) : ∃ (E : Env) (cfg : Client.Config) (evs evs' : List Event), Laws E ∧ Usable E cfg ∧
    ((boot E cfg).run E cfg evs).mem.world.client.pinHash ≠ none ∧ .restart ∉ evs' ∧
    ∃ new, results ((boot E cfg).run E cfg (evs ++ evs')) = results ((boot E cfg).run E cfg evs) ++ new ∧
      (∀ e ∈ new, isRightPIN E e = false) ∧ new.countP isWrongPIN = N ∧
      7 ≤ ((boot E cfg).run E cfg (evs ++ evs')).mem.world.client.pinRetries := by
  obtain ⟨evs, platform, key, secret, p, h1, h2, h3, h4, h5, h6, h7⟩ := toy_pin_set
  have L := Toy.toy_laws Toy.agree
  obtain ⟨evs', g1, g2, g3, g4⟩ := C99_guesses_at_once (cfg := Toy.config true) L evs h3 h4 (by rw [h5]; simp) h7
    (List.replicate N [5, 6, 7, 8]) (by
      intro pin hp
      obtain rfl := List.eq_of_mem_replicate hp
      rw [h6]
      intro h
      have h := Option.some.inj h
      revert h
      show ¬ ((Toy.shaped 32 [5, 6, 7, 8]).take 16 = (Toy.shaped 32 [1, 2, 3, 4]).take 16)
      decide +kernel)
  refine ⟨Toy.toy Toy.agree, Toy.config true, evs, evs', L, Toy.config_usable _ _, by rw [h6]; simp, g1, ?_⟩
  rw [List.map_replicate] at g2
  refine ⟨List.replicate N (.ctap (request (getPINToken (Toy.toy Toy.agree) key secret [5, 6, 7, 8])),
    .answer [0x31]), ?_, ?_, ?_, ?_⟩
  · unfold results
    rw [g2, List.filterMap_append]
    congr 1
    rw [List.filterMap_replicate_of_some]
    rfl
  · intro e he
    rw [List.eq_of_mem_replicate he]
    rfl
  · rw [List.countP_replicate]
    rfl
  · rw [h5] at g4
    omega

/-- Requests that read overlap with each other (C102). -/
example : ∃ (evs evs' : List Event), evs = [.begin (.ctap [4])] ∧ evs'.length = 3 ∧ .restart ∉ evs' ∧
    (∀ op p, Thread.working op p ∈ ((boot E cfg).run E cfg evs).threads → touches E op = {}) ∧
    (∀ op, .begin op ∈ evs' → touches E op = {}) := by
  refine ⟨_, [.begin (.u2f [0, 3, 0, 0]), .turn 1, .turn 0], rfl, rfl, by simp, ?_, ?_⟩
  · intro op p h
    obtain ⟨i, hi⟩ := List.mem_iff_getElem?.1 h
    have hi : ((boot E cfg).step E cfg (.begin (.ctap [4]))).threads[i]? = some (.working op p) := hi
    rcases thread_step hi with ⟨u, hu, -⟩ | ⟨op', he, -, -, -, h⟩ | ⟨op', upd, next, he, -⟩
    · cases hu
    · injection he with he
      obtain ⟨rfl, -⟩ := settle_working h.symm
      rw [← he]
      rfl
    · cases he
  · intro op h
    simp at h
    rw [h]
    rfl

end VF.Props
