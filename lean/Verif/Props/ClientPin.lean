import Verif.Proofs.PinSpec
import Verif.Proofs.ToyDevice

/-!
# authenticatorClientPIN (C53–C55, C57, C58)
-/

namespace VF.Props

open VF.Fido VF.Spec.Ctap VF.Spec.Client VF.Spec.Pin

/-! ## C53 -/

/-- A setPIN request either changes nothing and is not answered with success, or no PIN was set,
PIN support is on, `pinAuth` verifies under the shared secret, the decrypted PIN has at least 4
bytes; then the PIN is set and the retries are back at 8. -/
theorem C53_setPIN_only_without_pin (E : Env) {data : Bytes} {w w' : World} {r : Res Bytes}
    {args : ClientPINArgs} (h : Ctap.handleMessage E (0x06 :: data) w = (r, w'))
    (hd : E.decodeClientPIN data = some args) (hs : args.subCommand = 3) :
    (w'.client = w.client ∧ w'.store = w.store ∧ ∀ body, r ≠ .ok (0 :: body)) ∨
    (w.client.pinHash = none ∧ w.client.pinEnabled = true ∧
      ∃ key enc secret pin, args.keyAgreement = some key ∧ args.newPinEnc = some enc ∧
        Secret E w.client key secret ∧ args.pinAuth = some (auth E secret enc) ∧
        Padded pin (E.cbcDecrypt secret enc) ∧ 4 ≤ pin.length ∧
        w'.client = { w.client with pinHash := some (hash E pin), pinRetries := 8 }) := by
  have hc := Ctap.handleClientPIN_cases E data w
  rw [Ctap.handleMessage_pin] at h
  rw [h] at hc
  dsimp only at hc
  cases hc with
  | nothing hw hr =>
    subst hw
    refine .inl ⟨rfl, rfl, ?_⟩
    intro body hb
    obtain ⟨e, he, -, -, hb⟩ := hr _ hb
    simp at hb
    exact he hb.1.symm
  | retries args' n he hd' hs' hn hw hr =>
    rw [hd] at hd'; obtain rfl := Option.some.inj hd'; rw [hs] at hs'; cases hs'
  | agreement args' he hd' hs' hw hr =>
    rw [hd] at hd'; obtain rfl := Option.some.inj hd'; rw [hs] at hs'; cases hs'
  | set args' key au enc secret pin he hd' hs' hn hk ha hc hss hauth hpin hl hw =>
    rw [hd] at hd'; obtain rfl := Option.some.inj hd'
    refine .inr ⟨hn, he, key, enc, secret, pin, hk, hc, Ctap.sharedSecret_ok hss,
      by rw [ha, ← hauth]; rfl, Ctap.decryptPIN_ok hpin hl, hl, ?_⟩
    rcases hw with ⟨c, -, e, -⟩ | ⟨blob, n, -, -, e⟩ <;> rw [e] <;> rfl
  | wrong args' key secret he hd' hs' hn hk hss hh hr hw =>
    rw [hd] at hd'; obtain rfl := Option.some.inj hd'; rw [hs] at hs'
    rcases hs' with hs' | hs' <;> cases hs'
  | change args' key au secret he hd' hs' hn hk ha hss hauth hh hw =>
    rw [hd] at hd'; obtain rfl := Option.some.inj hd'; rw [hs] at hs'; cases hs'
  | token args' key enc secret he hd' hs' hn hk hx hc hss hh hw hr =>
    rw [hd] at hd'; obtain rfl := Option.some.inj hd'; rw [hs] at hs'; cases hs'

/-! ## C54 -/

/-- Whatever CTAP message is received, a set PIN only changes through a changePIN request that
carries the hash of the current PIN and a `pinAuth`, both under the shared secret; the new PIN is
the decrypted one and has at least 4 bytes. -/
theorem C54_pin_replaced_only_with_pin (E : Env) {msg : Bytes} {w w' : World} {r : Res Bytes}
    {current : Bytes} (h : Ctap.handleMessage E msg w = (r, w'))
    (hset : w.client.pinHash = some current) (hch : w'.client.pinHash ≠ w.client.pinHash) :
    ∃ data args key secret pin, msg = 0x06 :: data ∧ E.decodeClientPIN data = some args ∧
      args.subCommand = 4 ∧ args.keyAgreement = some key ∧ Secret E w.client key secret ∧
      args.pinAuth = some (auth E secret (args.newPinEnc.getD [] ++ args.pinHashEnc.getD [])) ∧
      E.cbcDecrypt secret (args.pinHashEnc.getD []) = current ∧
      Padded pin (E.cbcDecrypt secret (args.newPinEnc.getD [])) ∧ 4 ≤ pin.length ∧
      w'.client.pinHash = some (hash E pin) := by
  match msg with
  | [] => simp [Ctap.handleMessage] at h; rw [h.2] at hch; exact absurd rfl hch
  | c :: data =>
    by_cases c1 : c = 1
    · subst c1
      have hc := Ctap.handleMakeCredential_cases E data w
      rw [Ctap.handleMessage_make] at h
      rw [h] at hc
      dsimp only at hc
      cases hc with
      | nothing hw hr => rw [hw] at hch; exact absurd rfl hch
      | refused args rp flags hd hs hp hrp ha hr hw => rw [hw] at hch; exact absurd rfl hch
      | unsaved args rp flags hd hs hp hrp ha hn c hr hw => rw [hw] at hch; exact absurd rfl hch
      | saved args rp flags blob n m hd hs hp hrp ha hn hm hw hr =>
        rw [hw] at hch; exact absurd rfl hch
    by_cases c2 : c = 2
    · subst c2
      have hc := Ctap.handleGetAssertion_cases E data w
      rw [Ctap.handleMessage_get] at h
      rw [h] at hc
      dsimp only at hc
      cases hc with
      | nothing hw hr => rw [hw] at hch; exact absurd rfl hch
      | none args flags hd hp hm hw hr => rw [hw] at hch; exact absurd rfl hch
      | unsaved args flags i s hd hp hi hn c hr hw => rw [hw] at hch; exact absurd rfl hch
      | refused args flags i s rp user blob n hd hp hi hn hup hrp hu ha hr hw =>
        rw [hw] at hch; exact absurd rfl hch
      | saved args flags flags' i s rp user blob n asks hd hp hi hn hrp hu hq hw hr =>
        rw [hw] at hch; exact absurd rfl hch
    by_cases c4 : c = 4
    · subst c4
      rw [Ctap.handleMessage_info] at h
      have : w' = w := (congrArg Prod.snd h).symm
      rw [this] at hch; exact absurd rfl hch
    by_cases c6 : c = 6
    · subst c6
      have hc := Ctap.handleClientPIN_cases E data w
      rw [Ctap.handleMessage_pin] at h
      rw [h] at hc
      dsimp only at hc
      cases hc with
      | nothing hw hr => rw [hw] at hch; exact absurd rfl hch
      | retries args' n he hd' hs' hn hw hr => rw [hw] at hch; exact absurd rfl hch
      | agreement args' he hd' hs' hw hr => rw [hw] at hch; exact absurd rfl hch
      | set args' key au enc secret pin he hd' hs' hn hk ha hc hss hauth hpin hl hw =>
        rw [hset] at hn; cases hn
      | wrong args' key secret he hd' hs' hn hk hss hh hr hw =>
        rw [hw] at hch; exact absurd rfl hch
      | change args key au secret he hd hs hn hk ha hss hauth hh hw =>
        rcases hw with ⟨-, e⟩ | ⟨pin, hpin, hl, hw⟩
        · rw [e] at hch; exact absurd rfl hch
        · refine ⟨data, args, key, secret, pin, rfl, hd, hs, hk, Ctap.sharedSecret_ok hss,
            by rw [ha, ← hauth]; rfl, ?_, Ctap.decryptPIN_ok hpin hl, hl, ?_⟩
          · rw [← (Ctap.decryptAESCBC_ok hh).1, hset]; rfl
          · rcases hw with ⟨c, -, e, -⟩ | ⟨blob, n, -, -, e⟩ <;> rw [e] <;> rfl
      | token args' key enc secret he hd' hs' hn hk hx hc hss hh hw hr =>
        rw [hw] at hch; exact absurd rfl hch
    · rw [Ctap.handleMessage_other E c data c1 c2 c4 c6] at h
      have : w' = w := (congrArg Prod.snd h).symm
      rw [this] at hch; exact absurd rfl hch

/-! ## C55 -/

/-- The token is released (encrypted under the shared secret) only if the decrypted PIN hash is
the stored one; an absent PIN counts as an empty hash. -/
theorem C55_token_needs_pin {E : Env} (L : Laws E) {data body : Bytes} {w w' : World}
    {args : ClientPINArgs} (h : Ctap.handleMessage E (0x06 :: data) w = (.ok (0 :: body), w'))
    (hd : E.decodeClientPIN data = some args) (hs : args.subCommand = 5)
    (ht : w.client.pinToken.length = 16) :
    ∃ key secret enc, args.keyAgreement = some key ∧ Secret E w.client key secret ∧
      args.pinHashEnc = some enc ∧ E.cbcDecrypt secret enc = w.client.pinHash.getD [] ∧
      Success (0 :: body) (.map [(.int 2, .bytes (E.cbcEncrypt secret w.client.pinToken))]) := by
  have hc := Ctap.handleClientPIN_cases E data w
  rw [Ctap.handleMessage_pin] at h
  rw [h] at hc
  dsimp only at hc
  cases hc with
  | nothing hw hr =>
    obtain ⟨e, he, -, -, hb⟩ := hr _ rfl
    simp at hb
    exact absurd hb.1.symm he
  | retries args' n he hd' hs' hn hw hr =>
    rw [hd] at hd'; obtain rfl := Option.some.inj hd'; rw [hs] at hs'; cases hs'
  | agreement args' he hd' hs' hw hr =>
    rw [hd] at hd'; obtain rfl := Option.some.inj hd'; rw [hs] at hs'; cases hs'
  | set args' key au enc secret pin he hd' hs' hn hk ha hc hss hauth hpin hl hw =>
    rw [hd] at hd'; obtain rfl := Option.some.inj hd'; rw [hs] at hs'; cases hs'
  | wrong args' key secret he hd' hs' hn hk hss hh hr hw =>
    rcases hr with ⟨c, hr⟩ | hr <;> simp at hr
  | change args' key au secret he hd' hs' hn hk ha hss hauth hh hw =>
    rw [hd] at hd'; obtain rfl := Option.some.inj hd'; rw [hs] at hs'; cases hs'
  | token args' key enc secret he hd' hs' hn hk hx hc hss hh hw hr =>
    rw [hd] at hd'; obtain rfl := Option.some.inj hd'
    rcases hr with ⟨c, hr⟩ | ⟨t, hen, hr⟩
    · simp at hr
    · obtain ⟨rfl, -⟩ := Ctap.encryptAESCBC_ok hen
      have hsec := Ctap.sharedSecret_ok hss
      have hl : (E.cbcEncrypt secret w.client.pinToken).length = 16 := by
        obtain ⟨b, -, e, -⟩ := hsec
        rw [L.cbc_length _ _ (by rw [e]; exact L.sha256_length _) (by omega), ht]
      refine ⟨key, secret, enc, hk, hsec, hc, (Ctap.decryptAESCBC_ok hh).1.symm, ?_⟩
      have : (0 :: body) = 0 :: VF.Cbor.encode (Ctap.pinTokenItem (E.cbcEncrypt secret w.client.pinToken)) :=
        Res.ok.inj hr
      rw [this]
      have hi : Ctap.pinTokenItem (E.cbcEncrypt secret w.client.pinToken) =
          .map [(.int 2, .bytes (E.cbcEncrypt secret w.client.pinToken))] := by
        unfold Ctap.pinTokenItem
        rw [if_neg]
        intro e
        simp only [List.isEmpty_iff] at e
        rw [e] at hl; simp at hl
      rw [← hi]
      exact Ctap.success_of_wf (Ctap.pinTokenItem_wf (by unfold Short; omega))

/-- No other ClientPIN subcommand answers with the token: the other successful answers are empty,
the retries, or the key agreement key. -/
theorem C55_other_answers (E : Env) {data body : Bytes} {w w' : World}
    {args : ClientPINArgs} (h : Ctap.handleMessage E (0x06 :: data) w = (.ok (0 :: body), w'))
    (hd : E.decodeClientPIN data = some args) (hs : args.subCommand ≠ 5) :
    body = [] ∨
    (∃ n, body = VF.Cbor.encode (.map [(.int 3, .uint n)])) ∨
    (∃ x y, body = VF.Cbor.encode (.map [(.int 1, .map [(.int 1, .int 2), (.int 3, .int (-25)),
      (.int (-1), .int 0), (.int (-2), .bytes x), (.int (-3), .bytes y)])]) ∧
      Spec.Cbor.beNat x = w.client.keyAgreement.x ∧ Spec.Cbor.beNat y = w.client.keyAgreement.y) := by
  have hc := Ctap.handleClientPIN_cases E data w
  rw [Ctap.handleMessage_pin] at h
  rw [h] at hc
  dsimp only at hc
  cases hc with
  | nothing hw hr =>
    obtain ⟨e, he, -, -, hb⟩ := hr _ rfl
    simp at hb
    exact absurd hb.1.symm he
  | retries args' n he hd' hs' hn hw hr =>
    refine .inr (.inl ⟨(UInt8.ofInt n).toNat, ?_⟩)
    simpa [Ctap.retriesItem] using hr
  | agreement args' he hd' hs' hw hr =>
    refine .inr (.inr ⟨_, _, ?_, BigInt.ofBytes_toBytes _, BigInt.ofBytes_toBytes _⟩)
    have := Res.ok.inj hr
    simp only [List.cons.injEq, true_and] at this
    exact this
  | set args' key au enc secret pin he hd' hs' hn hk ha hc hss hauth hpin hl hw =>
    rcases hw with ⟨c, e, -⟩ | ⟨blob, n, e, -⟩
    · simp at e
    · exact .inl (by simpa using e)
  | wrong args' key secret he hd' hs' hn hk hss hh hr hw =>
    rcases hr with ⟨c, hr⟩ | hr <;> simp at hr
  | change args' key au secret he hd' hs' hn hk ha hss hauth hh hw =>
    rcases hw with ⟨⟨c, e⟩ | e, -⟩ | ⟨pin, -, -, ⟨c, e, -⟩ | ⟨blob, n, e, -⟩⟩
    · simp at e
    · simp at e
    · simp at e
    · exact .inl (by simpa using e)
  | token args' key enc secret he hd' hs' hn hk hx hc hss hh hw hr =>
    rw [hd] at hd'; obtain rfl := Option.some.inj hd'; exact absurd hs' hs

/-- A request to get the token with an empty PIN hash, from a platform with the key agreement key
made by draw 0. -/
noncomputable def emptyPinArgs : ClientPINArgs :=
  { pinProtocol := 1, subCommand := 5
    keyAgreement := some { kty := 2, alg := -25, crv := 1, x := some [1], y := some [1], d := [] }
    pinAuth := none, newPinEnc := none, pinHashEnc := some [] }

theorem emptyPinArgs_fits : Spec.Platform.ClientPINFits emptyPinArgs := by
  refine ⟨?_, by simp [emptyPinArgs], by simp [emptyPinArgs], ?_⟩
  · intro k hk
    obtain rfl : _ = k := by simpa [emptyPinArgs] using hk
    simp [Spec.Platform.EC2Fits, Int8Range, Short]
  · intro b hb
    obtain rfl : b = [] := by simpa [emptyPinArgs] using hb
    simp [Short]

/-- With no PIN set the token is released to anybody who asks with an empty PIN hash (the
decryption of nothing is nothing). -/
theorem C55_no_pin_no_token_refuted :
    ∃ (E : Env) (w w' : World) (data body : Bytes) (args : ClientPINArgs), Laws E ∧
      Healthy E w.client ∧ w.client.pinToken.length = 16 ∧ w.client.pinHash = none ∧
      E.decodeClientPIN data = some args ∧ args.subCommand = 5 ∧
      Ctap.handleMessage E (0x06 :: data) w = (.ok (0 :: body), w') := by
  let ap : List Ask → Action → Bytes → Bytes → Bool := fun _ _ _ _ => true
  have L := Toy.toy_laws ap
  have hd := L.decode_clientPIN _ emptyPinArgs_fits
  have hr : ∃ b, Ctap.handleMessage (Toy.toy ap)
      (0x06 :: VF.Cbor.encode (Spec.Platform.clientPINItem emptyPinArgs)) (Toy.world true none 8)
      = (.ok (0 :: b), Toy.world true none 8) := by
    rw [Ctap.handleMessage_pin]
    unfold Ctap.handleClientPIN
    rw [Go.get_bind_run, if_neg (by simp [Toy.world, Toy.client]), hd]
    dsimp only
    rw [if_neg (by simp [emptyPinArgs]), if_neg (by simp [emptyPinArgs]),
      if_neg (by simp [emptyPinArgs]), if_neg (by simp [emptyPinArgs]),
      if_neg (by simp [emptyPinArgs]), if_pos (by simp [emptyPinArgs])]
    unfold Ctap.handleGetPINToken
    have hss : ∃ x, Ctap.sharedSecret (Toy.toy ap) (Toy.client true none 8)
        { kty := 2, alg := -25, crv := 1, x := some [1], y := some [1], d := [] } = .ok x ∧
        x.length = 32 := ⟨_, rfl, L.sha256_length _⟩
    obtain ⟨x, hss, hx⟩ := hss
    have hk := Saved.aesKeyOk_32 hx
    have hg : Client.getPINRetries (Toy.world true none 8) = (.ok 8, Toy.world true none 8) := rfl
    simp only [emptyPinArgs]
    rw [if_neg (by simp), Go.run_bind_ok hg, if_neg (by decide), Go.get_bind_run]
    rw [show (Toy.world true none 8).client = Toy.client true none 8 from rfl, hss,
      Go.lift_ok_bind, Go.run_bind_ok hg]
    simp only [Client.setPINRetries, Client.update, Go.modify_bind_run, decryptAESCBC, hk,
      encryptAESCBC, if_true, List.length_nil]
    exact ⟨_, rfl⟩
  obtain ⟨b, hr⟩ := hr
  exact ⟨_, _, _, _, b, _, L, Toy.client_healthy ap _ _ _ (by simp), rfl, rfl, hd, rfl, hr⟩

/-! ## C57 -/

/-- PIN_BLOCKED is never answered. -/
theorem C57_never_answered_blocked (E : Env) (msg : Bytes) (w : World) :
    (Ctap.handleMessage E (0x06 :: msg) w).1 ≠ .ok [0x32] := by
  intro h
  have hc := Ctap.handleClientPIN_cases E msg w
  rw [Ctap.handleMessage_pin] at h
  rw [h] at hc
  cases hc with
  | nothing hw hr =>
    obtain ⟨e, -, -, he, hb⟩ := hr _ rfl
    exact he (by simpa using hb.symm)
  | retries args' n he hd' hs' hn hw hr => simp at hr
  | agreement args' he hd' hs' hw hr => simp at hr
  | set args' key au enc secret pin he hd' hs' hn hk ha hc hss hauth hpin hl hw =>
    rcases hw with ⟨c, e, -⟩ | ⟨blob, n, e, -⟩ <;> simp at e
  | wrong args' key secret he hd' hs' hn hk hss hh hr hw =>
    rcases hr with ⟨c, hr⟩ | hr <;> simp at hr
  | change args' key au secret he hd' hs' hn hk ha hss hauth hh hw =>
    rcases hw with ⟨⟨c, e⟩ | e, -⟩ | ⟨pin, -, -, ⟨c, e, -⟩ | ⟨blob, n, e, -⟩⟩ <;> simp at e
  | token args' key enc secret he hd' hs' hn hk hx hc hss hh hw hr =>
    rcases hr with ⟨c, hr⟩ | ⟨t, hen, hr⟩ <;> simp at hr

/-- With no retries left every PIN attempt, and every question for the retries, panics and
changes nothing; in particular the PIN cannot be tried. -/
theorem C57_locked_out_panics (E : Env) {data : Bytes} {w : World} {args : ClientPINArgs}
    (hon : w.client.pinEnabled = true) (hn : w.client.pinRetries ≤ 0)
    (hd : E.decodeClientPIN data = some args) (hp : args.pinProtocol = 1)
    (hs : args.subCommand = 1 ∨
      (args.subCommand = 4 ∧ args.keyAgreement ≠ none ∧ args.pinAuth ≠ none) ∨
      (args.subCommand = 5 ∧ args.pinHashEnc ≠ none ∧
        ∃ key, args.keyAgreement = some key ∧ key.x ≠ none)) :
    Ctap.handleMessage E (0x06 :: data) w = (.panic .explicit, w) := by
  have hg : Client.getPINRetries w = (.panic .explicit, w) := by
    rcases Ctap.getPINRetries_run w with ⟨h1, -⟩ | ⟨-, h⟩
    · omega
    · exact h
  rw [Ctap.handleMessage_pin]
  unfold Ctap.handleClientPIN
  rw [Go.get_bind_run, if_neg (by simp [hon]), hd]
  dsimp only
  rw [if_neg (by simp [hp])]
  rcases hs with hs | ⟨hs, hk, ha⟩ | ⟨hs, he, key, hk, hx⟩
  · rw [if_pos hs]
    exact Go.run_bind_panic hg
  · rw [if_neg (by simp [hs]), if_neg (by simp [hs]), if_neg (by simp [hs]), if_pos hs]
    unfold Ctap.handleChangePIN
    obtain ⟨key, hk⟩ := Option.ne_none_iff_exists'.1 hk
    obtain ⟨au, ha⟩ := Option.ne_none_iff_exists'.1 ha
    rw [hk, ha]
    exact Go.run_bind_panic hg
  · rw [if_neg (by simp [hs]), if_neg (by simp [hs]), if_neg (by simp [hs]), if_neg (by simp [hs]),
      if_pos hs]
    unfold Ctap.handleGetPINToken
    obtain ⟨enc, he⟩ := Option.ne_none_iff_exists'.1 he
    rw [he, hk]
    dsimp only
    rw [if_neg hx]
    exact Go.run_bind_panic hg

/-! ## C58 -/

/-- Every start sets the retries to 8, whatever was saved. -/
theorem C58_restart_resets_retries (E : Env) (cfg : Client.Config) (store : Option Bytes) (rnd : Nat)
    (c : Client) (h : Client.start E cfg store rnd = .ok c) : c.pinRetries = 8 := by
  unfold Client.start at h
  cases store with
  | none => obtain rfl := Res.ok.inj h; rfl
  | some data =>
    simp only [Client.importData] at h
    cases hs : Saved.decryptState E data E.passphrase with
    | panic c => rw [hs] at h; simp at h
    | ok s =>
      cases s with
      | none => rw [hs] at h; simp at h
      | some st =>
        rw [hs] at h
        simp only [Res.bind_ok] at h
        split at h
        · simp at h
        · cases hk : Vault.importKey E st.certKey with
          | panic c => rw [hk] at h; simp at h
          | ok k =>
            cases k with
            | none => rw [hk] at h; simp at h
            | some k =>
              rw [hk] at h
              simp only [Res.bind_ok] at h
              cases hi : Vault.importSources E [] st.sources with
              | panic c => rw [hi] at h; simp at h
              | ok v =>
                rw [hi] at h
                simp only [Res.bind_ok] at h
                obtain rfl := Res.ok.inj h
                rfl

/-- A device with two retries left, saved and restarted, has eight. -/
theorem C58_lockout_survives_restart_refuted :
    ∃ (E : Env) (c c' : Client) (blob : Bytes) (rnd : Nat) (cfg : Client.Config) (st : SavedState),
      Laws E ∧ Healthy E c ∧ c.pinHash ≠ none ∧ c.pinRetries = 2 ∧
      Client.exportState c = .ok st ∧ Saved.encryptState E st E.passphrase 0 = some (blob, rnd) ∧
      Client.start E cfg (some blob) rnd = .ok c' ∧ SameDevice c c' ∧ c'.pinRetries = 8 := by
  let ap : List Ask → Action → Bytes → Bytes → Bool := fun _ _ _ _ => true
  have L := Toy.toy_laws ap
  have hh := Toy.client_healthy ap true (some [1]) 2 (by simp)
  obtain ⟨blob, st, h1, h2⟩ := healthy_saves L hh 0
  obtain ⟨-, c', h3, h4, -, -, h5, -⟩ := saves_restore L hh ⟨st, h1, h2⟩ ⟨[], {}, [], false⟩ (0 + 4)
  exact ⟨_, _, c', blob, _, _, st, L, hh, by simp [Toy.client], rfl, h1, h2, h3, h4, h5⟩

end VF.Props
