import Verif.Proofs.LoggedLines

/-!
# What the handlers show of secrets
-/

namespace VF.Fido.Logged

open Client Log VF.Spec.LogSecrets VF.Spec.U2f

theorem retries_cases (w : World) :
    (∃ n, getPINRetries w = (.ok n, w)) ∨ ∃ c, getPINRetries w = (.panic c, w) := by
  unfold getPINRetries
  rw [Go.get_bind_run]
  split
  · exact .inl ⟨_, rfl⟩
  · exact .inr ⟨_, rfl⟩

theorem lift_cases {α : Type} (r : Res α) (w : World) :
    (∃ a, r = .ok a ∧ Go.lift r w = (.ok a, w)) ∨ ∃ c, Go.lift r w = (.panic c, w) := by
  cases r with
  | ok a => exact .inl ⟨a, rfl, rfl⟩
  | panic c => exact .inr ⟨c, rfl⟩

theorem log_run {α : Type} {level : Level} {text : String} {data : List Datum} {f : Unit → Go LWorld α} {w : LWorld} :
    (log level text data >>= f) w = f () ⟨w.world, w.lines ++ [⟨level, text, data⟩]⟩ := rfl

/-- The PIN was compared with the stored one. -/
def Compared (b : Bytes) : Prop := b = [0x31] ∨ b.head? = some 0

theorem not_compared {e : UInt8} (h1 : e ≠ 0x31) (h2 : e ≠ 0) : ¬ Compared [e] := by
  rintro (h | h)
  · exact h1 (List.cons.inj h).1
  · exact h2 (Option.some.inj h)

/-- Comparing a PIN puts the stored hash into the log. -/
theorem token_lines {E : Env} {args : ClientPINArgs} {w : LWorld} {b : Bytes}
    (h : (handleGetPINToken E args w).1 = .ok b) (hb : Compared b) :
    ∃ new, (handleGetPINToken E args w).2.lines = w.lines ++ new ∧
      ∃ l ∈ visible new, Datum.bytes (w.world.client.pinHash.getD []) ∈ l.data := by
  revert h
  have no : ∀ {e : UInt8} {v : LWorld} {P : Prop}, e ≠ 0x31 → e ≠ 0 → ((pure [e] : Go LWorld Bytes) v).1 = .ok b → P := by
    intro e v P h1 h2 h
    obtain rfl := Res.ok.inj h
    exact absurd hb (not_compared h1 h2)
  unfold handleGetPINToken
  rcases args.pinHashEnc with _ | enc
  · exact no (by decide) (by decide)
  rcases args.keyAgreement with _ | key
  · exact fun h => nomatch h
  dsimp only
  by_cases hx : key.x = none
  · rw [if_pos hx]; exact no (by decide) (by decide)
  rw [if_neg hx]
  rcases retries_cases w.world with ⟨n, hn⟩ | ⟨c, hn⟩
  rotate_left
  · rw [quiet_panic hn]; exact fun h => nomatch h
  rw [quiet_ok hn]
  by_cases hz : n ≤ 0
  · rw [if_pos hz]; exact no (by decide) (by decide)
  rw [if_neg hz, quiet_get]
  rcases lift_cases (Ctap.sharedSecret E w.world.client key) w.world with ⟨secret, -, hs⟩ | ⟨c, hs⟩
  rotate_left
  · rw [quiet_panic hs]; exact fun h => nomatch h
  rw [quiet_ok hs, quiet_ok (w := LWorld.mk w.world w.lines) hn,
    quiet_ok (a := ()) (v := { w.world with client := { w.world.client with pinRetries := n - 1 } }) rfl]
  rcases lift_cases (decryptAESCBC E secret enc) { w.world with client := { w.world.client with pinRetries := n - 1 } } with
    ⟨hash, -, hs⟩ | ⟨c, hs⟩
  rotate_left
  · rw [quiet_panic hs]; exact fun h => nomatch h
  rw [quiet_ok hs]
  intro _
  rw [show ctapLog = log .debug from rfl, log_run, quiet_get]
  by_cases hm : hash ≠ w.world.client.pinHash.getD []
  · refine ⟨[⟨.debug, "TRYING PIN HASH", [.bytes hash]⟩,
      ⟨.debug, "MISMATCH: Provided PIN doesn't match stored PIN", [.bytes hash, .bytes (w.world.client.pinHash.getD [])]⟩],
      ?_, _, .tail _ (.head _), .tail _ (.head _)⟩
    rw [if_pos hm, log_run]
    show (w.lines ++ _) ++ _ = _
    rw [List.append_assoc]
    rfl
  · rw [if_neg hm]
    have hs : Says (do
        quiet (setPINRetries 8)
        let token ← quiet (Go.lift (encryptAESCBC E secret w.world.client.pinToken))
        let response := Cbor.encode (Ctap.pinTokenItem token)
        log .debug "GET_PIN_TOKEN RESPONSE" [.response response]
        pure (Ctap.success :: response)) (fun _ _ => True) :=
      says_then (fun _ => trivial) fun _ => says_then (fun _ => trivial) fun _ => says_log (by decide) (says_pure trivial)
    obtain ⟨new, hn, -⟩ := hs (LWorld.mk { w.world with client := { w.world.client with pinRetries := n - 1 } }
      (w.lines ++ [⟨.debug, "TRYING PIN HASH", [.bytes hash]⟩]))
    refine ⟨⟨.debug, "TRYING PIN HASH", [.bytes hash]⟩ :: new, ?_, _, .head _, ?_⟩
    · refine hn.trans ?_
      simp
    · rw [← Decidable.not_not.1 hm]
      exact .head _

/-- The same for the whole message. -/
theorem token_message_lines {E : Env} {data : Bytes} {args : ClientPINArgs} {w : LWorld} {b : Bytes}
    (hd : E.decodeClientPIN data = some args) (hs : args.subCommand = 5)
    (h : (ctapMessage E (6 :: data) w).1 = .ok b) (hb : Compared b) :
    ∃ new, (ctapMessage E (6 :: data) w).2.lines = w.lines ++ new ∧
      ∃ l ∈ visible new, Datum.bytes (w.world.client.pinHash.getD []) ∈ l.data := by
  revert h
  unfold ctapMessage
  dsimp only
  rw [show ctapLog = log .debug from rfl, log_run, if_neg (by decide), if_neg (by decide), if_neg (by decide), if_pos rfl]
  unfold handleClientPIN
  rw [quiet_get]
  by_cases hon : w.world.client.pinEnabled = false
  · rw [if_pos hon]
    intro h
    obtain rfl := Res.ok.inj h
    exact absurd hb (not_compared (by decide) (by decide))
  rw [if_neg hon, hd]
  dsimp only
  by_cases hp : args.pinProtocol ≠ 1
  · rw [if_pos hp]
    intro h
    obtain rfl := Res.ok.inj h
    exact absurd hb (not_compared (by decide) (by decide))
  rw [if_neg hp, show ctapLog = log .debug from rfl, log_run, hs, if_neg (by decide), if_neg (by decide), if_neg (by decide),
    if_neg (by decide), if_pos rfl]
  unfold respond
  rw [Go.run_bind]
  intro h
  generalize hw : (LWorld.mk w.world ((w.lines ++ [⟨.debug, "CTAP COMMAND", [.command 6]⟩]) ++
    [⟨.debug, "CLIENT_PIN", [.pinArgs args]⟩])) = w1 at h ⊢
  have e1 : w1.world = w.world := by rw [← hw]
  have e2 : w1.lines = (w.lines ++ [⟨.debug, "CTAP COMMAND", [.command 6]⟩]) ++ [⟨.debug, "CLIENT_PIN", [.pinArgs args]⟩] := by
    rw [← hw]
  rcases hx : handleGetPINToken E args w1 with ⟨r, w2⟩
  rw [hx] at h
  cases r with
  | panic c => cases h
  | ok b' =>
    obtain rfl := Res.ok.inj h
    obtain ⟨new, hn, l, hl, hm⟩ := token_lines (w := w1) (by rw [hx]) hb
    rw [hx] at hn
    refine ⟨[⟨.debug, "CTAP COMMAND", [.command 6]⟩, ⟨.debug, "CLIENT_PIN", [.pinArgs args]⟩] ++
      (new ++ [⟨.debug, "CLIENT_PIN RESPONSE", [.bytes b']⟩]), ?_, l, ?_, by rw [← e1]; exact hm⟩
    · show w2.lines ++ _ = _
      rw [hn, e2]
      simp
    · rw [visible_append, visible_append]
      simp [hl]

/-- Setting a PIN puts its hash into the log. -/
theorem set_lines {E : Env} {args : ClientPINArgs} {w : LWorld} (h : (handleSetPIN E args w).1 = .ok [0]) :
    ∃ hash new, (handleSetPIN E args w).2.world.client.pinHash = some hash ∧
      (handleSetPIN E args w).2.lines = w.lines ++ new ∧ ∃ l ∈ visible new, Datum.bytes hash ∈ l.data := by
  revert h
  unfold handleSetPIN
  rw [quiet_get]
  by_cases hno : w.world.client.pinHash.isSome = true
  · rw [if_pos hno]; exact fun h => nomatch h
  rw [if_neg hno]
  rcases args.keyAgreement with _ | key
  · exact fun h => nomatch h
  rcases args.pinAuth with _ | auth
  · exact fun h => nomatch h
  rcases args.newPinEnc with _ | enc
  · exact fun h => nomatch h
  dsimp only
  rcases lift_cases (Ctap.sharedSecret E w.world.client key) w.world with ⟨secret, -, hs⟩ | ⟨c, hs⟩
  rotate_left
  · rw [quiet_panic hs]; exact fun h => nomatch h
  rw [quiet_ok hs]
  by_cases ha : Ctap.derivePINAuth E secret enc ≠ auth
  · rw [if_pos ha]; exact fun h => nomatch h
  rw [if_neg ha]
  rcases lift_cases (Ctap.decryptPIN E secret enc) w.world with ⟨pin, -, hs⟩ | ⟨c, hs⟩
  rotate_left
  · rw [quiet_panic hs]; exact fun h => nomatch h
  rw [quiet_ok hs]
  by_cases hl : pin.length < 4
  · rw [if_pos hl]; exact fun h => nomatch h
  rw [if_neg hl, quiet_ok (a := ()) (v := { w.world with client := { w.world.client with pinRetries := 8 } }) rfl]
  have hset : setPINHash E (some ((E.sha256 pin).take 16)) { w.world with client := { w.world.client with pinRetries := 8 } } =
      saveData E { w.world with
        client := { w.world.client with pinRetries := 8, pinHash := some ((E.sha256 pin).take 16) } } := rfl
  rcases Ctap.saveData_cases E { w.world with
      client := { w.world.client with pinRetries := 8, pinHash := some ((E.sha256 pin).take 16) } } with
    ⟨c, hsv, -⟩ | ⟨d, n, -, hsv⟩
  · rw [quiet_panic (hset.trans hsv)]; exact fun h => nomatch h
  rw [quiet_ok (hset.trans hsv)]
  intro _
  exact ⟨(E.sha256 pin).take 16, [⟨.debug, "SETTING PIN HASH", [.bytes ((E.sha256 pin).take 16)]⟩], rfl, rfl, _, .head _, .head _⟩

/-- The same for the whole message. -/
theorem set_message_lines {E : Env} {data : Bytes} {args : ClientPINArgs} {w : LWorld}
    (hd : E.decodeClientPIN data = some args) (hs : args.subCommand = 3) (h : (ctapMessage E (6 :: data) w).1 = .ok [0]) :
    ∃ hash new, (ctapMessage E (6 :: data) w).2.world.client.pinHash = some hash ∧
      (ctapMessage E (6 :: data) w).2.lines = w.lines ++ new ∧ ∃ l ∈ visible new, Datum.bytes hash ∈ l.data := by
  revert h
  unfold ctapMessage
  dsimp only
  rw [show ctapLog = log .debug from rfl, log_run, if_neg (by decide), if_neg (by decide), if_neg (by decide), if_pos rfl]
  unfold handleClientPIN
  rw [quiet_get]
  by_cases hon : w.world.client.pinEnabled = false
  · rw [if_pos hon]; exact fun h => nomatch h
  rw [if_neg hon, hd]
  dsimp only
  by_cases hp : args.pinProtocol ≠ 1
  · rw [if_pos hp]; exact fun h => nomatch h
  rw [if_neg hp, show ctapLog = log .debug from rfl, log_run, hs, if_neg (by decide), if_neg (by decide), if_pos rfl]
  unfold respond
  rw [Go.run_bind]
  intro h
  generalize hw : (LWorld.mk w.world ((w.lines ++ [⟨.debug, "CTAP COMMAND", [.command 6]⟩]) ++
    [⟨.debug, "CLIENT_PIN", [.pinArgs args]⟩])) = w1 at h ⊢
  have e2 : w1.lines = (w.lines ++ [⟨.debug, "CTAP COMMAND", [.command 6]⟩]) ++ [⟨.debug, "CLIENT_PIN", [.pinArgs args]⟩] := by
    rw [← hw]
  rcases hx : handleSetPIN E args w1 with ⟨r, w2⟩
  rw [hx] at h
  cases r with
  | panic c => cases h
  | ok b' =>
    have hb' := Res.ok.inj h
    subst hb'
    obtain ⟨hash, new, hq, hn, l, hl, hm⟩ := set_lines (w := w1) (by rw [hx])
    rw [hx] at hn hq
    refine ⟨hash, [⟨.debug, "CTAP COMMAND", [.command 6]⟩, ⟨.debug, "CLIENT_PIN", [.pinArgs args]⟩] ++
      (new ++ [⟨.debug, "CLIENT_PIN RESPONSE", [.bytes [0]]⟩]), hq, ?_, l, ?_, hm⟩
    · show w2.lines ++ _ = _
      rw [hn, e2]
      simp
    · rw [visible_append, visible_append]
      simp [hl]

/-- Naming the handle of another application puts its private key into the log. -/
theorem foreign_lines {E : Env} {challenge app handle application der : Bytes} {control cla p2 : UInt8} {le : Option UInt16}
    {w : LWorld} (hc : challenge.length = 32) (hal : app.length = 32) (hh : handle ≠ []) (hl : handle.length ≤ 255)
    (ho : U2f.openKeyHandle E w.world.client handle = .ok (some { privateKey := some der, applicationID := application }))
    (hne : application ≠ app) :
    ∃ new, (u2fMessage E (apdu cla 2 control p2 (authenticateData challenge app handle) le) w).2.lines = w.lines ++ new ∧
      ∃ l ∈ visible new, Datum.keyHandle { privateKey := some der, applicationID := application } ∈ l.data := by
  have hd := U2f.decodeAuthenticate_data challenge app handle hc hal hh hl
  have hm := U2f.decodeMessage_apdu cla 2 control p2 (authenticateData challenge app handle) le
    (U2f.authenticateData_ne _ _ _) (by
      have := U2f.authenticateData_length challenge app handle hc hal
      omega)
  unfold u2fMessage
  rw [quiet_ok (v := w.world) (by rw [hm]; rfl)]
  dsimp only
  rw [show u2fLog = log .debug from rfl, log_run]
  rw [Go.run_bind]
  unfold u2fCommand
  dsimp only
  rw [if_neg (by decide), if_neg (by decide), if_pos rfl]
  unfold handleAuthenticate
  rw [quiet_ok (v := w.world) (by rw [hd]; rfl)]
  dsimp only
  rw [quiet_get, quiet_ok (v := w.world) (by dsimp only; rw [ho]; rfl)]
  dsimp only
  rw [if_pos hne]
  refine ⟨[⟨.debug, "MESSAGE", [.header { cla := cla, command := 2, param1 := control, param2 := p2 },
      .bytes (authenticateData challenge app handle), .number (le.getD 0).toNat]⟩, ⟨.debug, "U2F AUTHENTICATE: Invalid input data", [.keyHandle { privateKey := some der, applicationID := application }]⟩,
    ⟨.debug, "RESPONSE", [.bytes [0x6A, 0x80]]⟩], ?_,
    ⟨.debug, "U2F AUTHENTICATE: Invalid input data", [.keyHandle { privateKey := some der, applicationID := application }]⟩,
    ?_, List.mem_singleton.2 rfl⟩
  · show ((w.lines ++ _) ++ _) ++ _ = _
    rw [List.append_assoc, List.append_assoc]
    rfl
  · simp [visible]

end VF.Fido.Logged
