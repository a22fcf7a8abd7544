import Verif.Props.PinHistory

/-!
# C58: the limit on wrong PINs does not stop anybody who can start the program anew
-/

namespace VF.Props

open VF.Fido VF.Fido.Device VF.Spec.Ctap VF.Spec.Client VF.Spec.History VF.Spec.Pin VF.Spec.PinHistory

variable {E : Env} {cfg : Client.Config}

/-- Somebody tries PINs at a device: before each the program is started anew, and a platform agrees on a secret with the
device that is then running and asks for the token. -/
inductive Search (E : Env) (cfg : Client.Config) : Device → List Bytes → List Op → Prop
  | nil (d : Device) : Search E cfg d [] []
  | cons {d : Device} {guess secret : Bytes} {platform : ECDHKey} {key : EC2Key} {guesses : List Bytes} {ops : List Op}
      (hag : Agreement E (step E cfg d .restart).2.world.client platform key secret)
      (rest : Search E cfg (after E cfg d [.restart, .ctap (request (getPINToken E key secret guess))]) guesses ops) :
      Search E cfg d (guess :: guesses) (.restart :: .ctap (request (getPINToken E key secret guess)) :: ops)

/-- What they are told: each guess is answered, with a token if it is right and with PIN_INVALID if it is wrong. -/
def TellsAll (E : Env) (pin : Bytes) : List Bytes → List Reply → Prop
  | [], replies => replies = []
  | guess :: guesses, replies => ∃ reply rest, replies = .started :: reply :: rest ∧ TellsAll E pin guesses rest ∧
      (hash E guess = hash E pin → ∃ answer enc, reply = .answer answer ∧ Success answer (.map [(.int 2, .bytes enc)])) ∧
      (hash E guess ≠ hash E pin → reply = .answer [0x31])

theorem tries_snoc_start (seen : List (Op × Reply)) : tries E (seen ++ [(.restart, .started)]) = 8 := by
  unfold tries
  rw [List.foldl_append]
  rfl

theorem events_append' (d : Device) (xs ys : List Op) :
    events E cfg d (xs ++ ys) = events E cfg d xs ++ events E cfg (after E cfg d xs) ys := by
  induction xs generalizing d with
  | nil => rfl
  | cons x xs ih => rw [List.cons_append, events_cons, events_cons, List.cons_append, ih]; rfl

/-- A device after some history in which `pin` was set and no PIN after it, with PIN support on. -/
def HasPIN (E : Env) (cfg : Client.Config) (xs : List Op) (op : Op) (ys : List Op) (d : Device) : Prop :=
  (∀ e ∈ events E cfg (step E cfg (after E cfg (boot E cfg) xs) op).2 ys, setsPIN E e = false) ∧
  after E cfg (boot E cfg) (xs ++ op :: ys) = d ∧
  pinOn cfg.enablePIN (events E cfg (boot E cfg) (xs ++ op :: ys)) = true

theorem search_step (L : Laws E) (hu : Usable E cfg) {xs ys : List Op} {op : Op} {pin : Bytes} {d : Device}
    (hset : SetTo E (after E cfg (boot E cfg) xs).world.client (op, (step E cfg (after E cfg (boot E cfg) xs) op).1) pin)
    (h : HasPIN E cfg xs op ys d) {guess secret : Bytes} {platform : ECDHKey} {key : EC2Key}
    (hag : Agreement E (step E cfg d .restart).2.world.client platform key secret) :
    (step E cfg d .restart).1 = .started ∧
    ∃ answer w', step E cfg (step E cfg d .restart).2 (.ctap (request (getPINToken E key secret guess))) =
          (.answer answer, ⟨w', true⟩) ∧
      (hash E guess = hash E pin → ∃ enc, Success answer (.map [(.int 2, .bytes enc)])) ∧
      (hash E guess ≠ hash E pin → answer = [0x31]) ∧ w'.rnd = (step E cfg d .restart).2.world.rnd ∧
      HasPIN E cfg xs op (ys ++ [.restart, .ctap (request (getPINToken E key secret guess))])
        (after E cfg d [.restart, .ctap (request (getPINToken E key secret guess))]) := by
  obtain ⟨hno, hd, hon⟩ := h
  obtain ⟨r1, r2⟩ := C40_restart_succeeds L hu (xs ++ op :: ys)
  rw [hd] at r1 r2
  have hd1 : after E cfg (boot E cfg) (xs ++ op :: (ys ++ [.restart])) = (step E cfg d .restart).2 := by
    rw [← List.cons_append, ← List.append_assoc, after_append, hd]; rfl
  have hev1 : events E cfg (boot E cfg) (xs ++ op :: (ys ++ [.restart])) =
      events E cfg (boot E cfg) (xs ++ op :: ys) ++ [(.restart, .started)] := by
    rw [← List.cons_append, ← List.append_assoc, events_append', hd, events_cons, r1]; rfl
  have hdy : after E cfg (step E cfg (after E cfg (boot E cfg) xs) op).2 ys = d := by
    rw [← hd, after_append, after_cons]
  have hno1 : ∀ e ∈ events E cfg (step E cfg (after E cfg (boot E cfg) xs) op).2 (ys ++ [.restart]), setsPIN E e = false := by
    rw [events_append', hdy, events_cons, r1]
    intro e he
    rcases List.mem_append.1 he with he | he
    · exact hno e he
    · cases he with
      | head => rfl
      | tail _ he => cases he
  have hon1 : pinOn cfg.enablePIN (events E cfg (boot E cfg) (xs ++ op :: (ys ++ [.restart]))) = true := by
    rw [hev1]
    unfold pinOn at hon ⊢
    rw [List.foldl_append, hon]
    rfl
  have k := known_set L hu hset hno1 (by rw [hd1]; exact r2)
  have ht := k.retries
  have ken := k.enabled
  have kh := k.hash
  have kt := k.token
  rw [hev1, tries_snoc_start, hd1] at ht
  rw [hd1, hon1] at ken
  rw [hd1] at kh kt
  have hreply : ∃ answer w', step E cfg (step E cfg d .restart).2 (.ctap (request (getPINToken E key secret guess))) =
      (.answer answer, ⟨w', true⟩) ∧
      (hash E guess = hash E pin → ∃ enc, Success answer (.map [(.int 2, .bytes enc)])) ∧
      (hash E guess ≠ hash E pin → answer = [0x31]) ∧ w'.rnd = (step E cfg d .restart).2.world.rnd := by
    by_cases hg : hash E guess = hash E pin
    · obtain ⟨answer, enc, h1, h2, -⟩ := C59_get_token (pin := guess) L ken (by omega) kt (by rw [kh, hg]) hag
      exact ⟨answer, _, step_message r2 h1, fun _ => ⟨enc, h2⟩, fun h => absurd hg h, rfl⟩
    · obtain ⟨w', h1, rfl⟩ := token_refused (guess := guess) L ken (by omega) hag (by rw [kh]; exact hg)
      exact ⟨_, _, step_message r2 h1, fun h => absurd h hg, fun _ => rfl, rfl⟩
  obtain ⟨answer, w', hst, hyes, hnot, hrnd⟩ := hreply
  refine ⟨r1, answer, w', hst, hyes, hnot, hrnd, ?_⟩
  have hev2 : events E cfg (step E cfg d .restart).2 [.ctap (request (getPINToken E key secret guess))] =
      [(.ctap (request (getPINToken E key secret guess)), .answer answer)] := by
    rw [events_cons, hst]; rfl
  have hsets : setsPIN E (.ctap (request (getPINToken E key secret guess)), .answer answer) = false := by
    unfold request setsPIN
    rw [show ((0x06 : UInt8)) = 6 from rfl]
    cases answer with
    | nil => rfl
    | cons b body =>
      split
      · rename_i h; cases h
      · rename_i data body' h
        have h' := (Prod.mk.inj h).1
        injection h' with h'
        injection h' with _ h'
        rw [← h', L.decode_clientPIN _ (getPINToken_fits (pin := guess) L hag)]
        rfl
      · rfl
  have hadd : ∀ zs : List Op, zs ++ [.restart, .ctap (request (getPINToken E key secret guess))] =
      (zs ++ [.restart]) ++ [.ctap (request (getPINToken E key secret guess))] := by
    intro zs; rw [List.append_assoc]; rfl
  have hdy1 : after E cfg (step E cfg (after E cfg (boot E cfg) xs) op).2 (ys ++ [.restart]) = (step E cfg d .restart).2 := by
    rw [after_append, hdy]; rfl
  refine ⟨?_, ?_, ?_⟩
  · rw [hadd, events_append', hdy1, hev2]
    intro e he
    rcases List.mem_append.1 he with he | he
    · exact hno1 e he
    · obtain rfl := List.mem_singleton.1 he
      exact hsets
  · rw [← List.cons_append, ← List.append_assoc, after_append, hd]
  · rw [hadd, ← List.cons_append, ← List.append_assoc, events_append', hd1, hev2]
    unfold pinOn at hon1 ⊢
    rw [List.foldl_append, hon1]
    rfl

theorem search_told (L : Laws E) (hu : Usable E cfg) {xs : List Op} {op : Op} {pin : Bytes}
    (hset : SetTo E (after E cfg (boot E cfg) xs).world.client (op, (step E cfg (after E cfg (boot E cfg) xs) op).1) pin)
    {guesses : List Bytes} : ∀ {ys ops : List Op} {d : Device}, HasPIN E cfg xs op ys d →
    Search E cfg d guesses ops → TellsAll E pin guesses ((run E cfg d ops).1) := by
  induction guesses with
  | nil =>
    intro ys ops d _ hs
    cases hs
    rfl
  | cons guess guesses ih =>
    intro ys ops d h hs
    cases hs with
    | @cons _ _ secret platform key _ ops hag rest =>
      obtain ⟨r1, answer, w', hst, hyes, hnot, -, h'⟩ := search_step (guess := guess) L hu hset h hag
      refine ⟨.answer answer, _, ?_, ih h' rest, ?_, ?_⟩
      · show (run E cfg d (.restart :: .ctap (request (getPINToken E key secret guess)) :: ops)).1 = _
        simp only [run, after, r1, hst]
      · intro hg
        obtain ⟨enc, h⟩ := hyes hg
        exact ⟨answer, enc, rfl, h⟩
      · exact fun hg => by rw [hnot hg]

/-- **Whoever can start the program anew finds the PIN by trying.**  A PIN was set and none after it, and PIN support is on.
However many guesses they make, each is evaluated: the right one gets a token. -/
theorem C58_pin_found (L : Laws E) (hu : Usable E cfg) {xs ys ops : List Op} {op : Op} {pin : Bytes}
    (hset : SetTo E (after E cfg (boot E cfg) xs).world.client (op, (step E cfg (after E cfg (boot E cfg) xs) op).1) pin)
    (hno : ∀ e ∈ events E cfg (step E cfg (after E cfg (boot E cfg) xs) op).2 ys, setsPIN E e = false)
    {d : Device} (hd : after E cfg (boot E cfg) (xs ++ op :: ys) = d)
    (hon : pinOn cfg.enablePIN (events E cfg (boot E cfg) (xs ++ op :: ys)) = true)
    {guesses : List Bytes} (hs : Search E cfg d guesses ops) : TellsAll E pin guesses (run E cfg d ops).1 :=
  search_told L hu hset ⟨hno, hd, hon⟩ hs

/-! ### A concrete case -/

/-- A platform that shares a secret with the toy device. -/
theorem toy_agreement_any {c : Client} (n : Nat) (hn : n < 255) (hc : c.keyAgreement = (Toy.toy Toy.agree).genECDH n) :
    ∃ platform key secret, Agreement (Toy.toy Toy.agree) c platform key secret := by
  have L := Toy.toy_laws Toy.agree
  let plat : ECDHKey := { priv := BigInt.toBytes (2 ^ 248), x := 2 ^ 248, y := 2 ^ 248 }
  have hs : (Toy.toy Toy.agree).ecdh plat.priv c.keyAgreement.x c.keyAgreement.y = some ((n + 1) * 2 ^ 248) := by
    rw [hc]
    show some (BigInt.ofBytes (BigInt.toBytes (2 ^ 248)) * (Toy.scalar n % 2 ^ 256) % 2 ^ 256) = _
    rw [BigInt.ofBytes_toBytes]
    have : Toy.scalar n = n + 1 := by
      unfold Toy.scalar
      rw [Nat.mod_eq_of_lt]
      have : 256 < p256Order := by decide +kernel
      omega
    rw [this]
    congr 1
    omega
  refine ⟨plat, ⟨2, -25, 1, some (1 :: List.replicate 31 0), some (1 :: List.replicate 31 0), []⟩,
    (Toy.toy Toy.agree).sha256 (UInt8.ofNat (n + 1) :: List.replicate 31 0), ⟨?_, ⟨2 ^ 248, by decide +kernel, by decide +kernel,
      BigInt.ofBytes_toBytes _, by decide +kernel⟩, ⟨_, _, rfl, by decide +kernel, rfl,
      by decide +kernel, rfl⟩, ⟨_, rfl, ?_, rfl⟩, ?_⟩⟩
  · rw [hc]
    exact L.genECDH_valid n
  · rw [hs]
    have : ∀ n < 255, Spec.Cbor.beNat (UInt8.ofNat (n + 1) :: List.replicate 31 0) = (n + 1) * 2 ^ 248 := by decide +kernel
    rw [this n hn]
  · intro s h
    rw [hs] at h
    obtain rfl := Option.some.inj h
    omega

/-- The toy device can be searched with a hundred guesses. -/
theorem toy_search {xs : List Op} {op : Op} {pin : Bytes}
    (hset : SetTo (Toy.toy Toy.agree) (after (Toy.toy Toy.agree) (Toy.config true) (boot (Toy.toy Toy.agree) (Toy.config true)) xs).world.client
      (op, (step (Toy.toy Toy.agree) (Toy.config true)
        (after (Toy.toy Toy.agree) (Toy.config true) (boot (Toy.toy Toy.agree) (Toy.config true)) xs) op).1) pin) :
    ∀ (guesses : List Bytes) (ys : List Op) (d : Device), HasPIN (Toy.toy Toy.agree) (Toy.config true) xs op ys d →
      d.world.rnd + 2 * guesses.length < 250 → ∃ ops, Search (Toy.toy Toy.agree) (Toy.config true) d guesses ops
  | [], _, d, _, _ => ⟨[], .nil d⟩
  | guess :: guesses, ys, d, h, hr => by
    have L := Toy.toy_laws Toy.agree
    have hu := Toy.config_usable Toy.agree true
    have r1 := (C40_restart_succeeds L hu (xs ++ op :: ys)).1
    rw [h.2.1] at r1
    obtain ⟨c, hst, e2⟩ : ∃ c, Client.start (Toy.toy Toy.agree) (Toy.config true) d.world.store d.world.rnd = .ok c ∧
        step (Toy.toy Toy.agree) (Toy.config true) d .restart =
          (.started, ⟨{ d.world with client := c, rnd := d.world.rnd + 2 }, true⟩) := by
      cases hst : Client.start (Toy.toy Toy.agree) (Toy.config true) d.world.store d.world.rnd with
      | ok c => exact ⟨c, rfl, by simp only [step, hst]⟩
      | panic q => simp only [step, hst] at r1; cases r1
    have hk : c.keyAgreement = (Toy.toy Toy.agree).genECDH (d.world.rnd + 1) := congrArg Prod.snd (start_session hst)
    rw [List.length_cons] at hr
    obtain ⟨platform, key, secret, hag⟩ := toy_agreement_any (d.world.rnd + 1) (by omega) hk
    have hag' : Agreement (Toy.toy Toy.agree) (step (Toy.toy Toy.agree) (Toy.config true) d .restart).2.world.client
        platform key secret := by rw [e2]; exact hag
    obtain ⟨-, answer, w', hst', -, -, hrnd, h'⟩ := search_step (guess := guess) L hu hset h hag'
    obtain ⟨ops, ho⟩ := toy_search hset guesses _ _ h' (by
      rw [after_cons, after_cons, hst', after_nil]
      show w'.rnd + _ < _
      rw [hrnd, e2]
      show d.world.rnd + 2 + _ < _
      omega)
    exact ⟨_, .cons hag' ho⟩

/-- The hypotheses of `C58_pin_found` are met with thirty wrong guesses, more than three times the limit, and the right one. -/
theorem C58_case_found : ∃ (E : Env) (cfg : Client.Config) (d : Device) (ops : List Op), Laws E ∧ Usable E cfg ∧
    SetTo E (after E cfg (boot E cfg) []).world.client
      (.setPIN (ascii "1234"), (step E cfg (after E cfg (boot E cfg) []) (.setPIN (ascii "1234"))).1) (ascii "1234") ∧
    (∀ e ∈ events E cfg (step E cfg (after E cfg (boot E cfg) []) (.setPIN (ascii "1234"))).2 [], setsPIN E e = false) ∧
    after E cfg (boot E cfg) ([] ++ .setPIN (ascii "1234") :: []) = d ∧
    pinOn cfg.enablePIN (events E cfg (boot E cfg) ([] ++ .setPIN (ascii "1234") :: [])) = true ∧
    Search E cfg d (List.replicate 30 (ascii "0000") ++ [ascii "1234"]) ops ∧
    hash E (ascii "0000") ≠ hash E (ascii "1234") := by
  have L := Toy.toy_laws Toy.agree
  have hu := Toy.config_usable Toy.agree true
  have hh := Toy.boot_healthy Toy.agree true
  have hne : hash (Toy.toy Toy.agree) (ascii "0000") ≠ hash (Toy.toy Toy.agree) (ascii "1234") := by decide +kernel
  obtain ⟨w, s1, c1, -, r1⟩ := set_live (cfg := Toy.config true) L (d := boot (Toy.toy Toy.agree) (Toy.config true)) rfl hh
    (ascii "1234")
  have hset : SetTo (Toy.toy Toy.agree) (after (Toy.toy Toy.agree) (Toy.config true) (boot (Toy.toy Toy.agree) (Toy.config true)) []).world.client
      (.setPIN (ascii "1234"), (step (Toy.toy Toy.agree) (Toy.config true)
        (after (Toy.toy Toy.agree) (Toy.config true) (boot (Toy.toy Toy.agree) (Toy.config true)) []) (.setPIN (ascii "1234"))).1)
      (ascii "1234") := by
    rw [after_nil, s1]; exact .call _
  have hno : ∀ e ∈ events (Toy.toy Toy.agree) (Toy.config true) (step (Toy.toy Toy.agree) (Toy.config true)
      (after (Toy.toy Toy.agree) (Toy.config true) (boot (Toy.toy Toy.agree) (Toy.config true)) []) (.setPIN (ascii "1234"))).2 [],
      setsPIN (Toy.toy Toy.agree) e = false := by
    intro e he; cases he
  have hon : pinOn (Toy.config true).enablePIN (events (Toy.toy Toy.agree) (Toy.config true)
      (boot (Toy.toy Toy.agree) (Toy.config true)) ([] ++ .setPIN (ascii "1234") :: [])) = true := by
    rw [events_at, after_nil, s1]; rfl
  obtain ⟨ops, ho⟩ := toy_search hset (List.replicate 30 (ascii "0000") ++ [ascii "1234"]) [] _ ⟨hno, rfl, hon⟩ (by
    rw [List.nil_append, after_cons, s1, after_nil]
    show w.rnd + _ < _
    rw [r1]
    show 2 + 4 + _ < _
    simp)
  exact ⟨_, _, _, ops, L, hu, hset, hno, rfl, hon, ho, hne⟩

end VF.Props
