import Verif.Proofs.Logged
import Verif.Proofs.U2fSpec
import Verif.Proofs.CtapCases
import Verif.Spec.LogSecrets

/-!
# Which lines the handlers log
-/

namespace VF.Fido.Logged

open Client Log VF.Spec.LogSecrets

variable {α β : Type}

/-- The result and the visible lines of a run. -/
def Says (x : Go LWorld α) (Q : Res α → List Line → Prop) : Prop :=
  ∀ w, ∃ new, (x w).2.lines = w.lines ++ new ∧ Q (x w).1 (visible new)

theorem visible_append (l l' : List Line) : visible (l ++ l') = visible l ++ visible l' := List.filter_append ..

theorem says_pure {a : α} {Q : Res α → List Line → Prop} (h : Q (.ok a) []) : Says (pure a) Q :=
  fun _ => ⟨[], (List.append_nil _).symm, h⟩

theorem says_throw {c : Cause} {Q : Res α → List Line → Prop} (h : Q (.panic c) []) : Says (Go.throw c) Q :=
  fun _ => ⟨[], (List.append_nil _).symm, h⟩

theorem says_quiet {y : Go World α} {Q : Res α → List Line → Prop} (h : ∀ w, Q (y w).1 []) : Says (quiet y) Q :=
  fun w => ⟨[], (List.append_nil _).symm, h w.world⟩

theorem says_mono {x : Go LWorld α} {P Q : Res α → List Line → Prop} (h : Says x P) (hq : ∀ r l, P r l → Q r l) : Says x Q :=
  fun w => let ⟨new, h1, h2⟩ := h w; ⟨new, h1, hq _ _ h2⟩

theorem says_bind {x : Go LWorld α} {f : α → Go LWorld β} {P : Res α → List Line → Prop} {Q : Res β → List Line → Prop}
    (h : Says x P) (hp : ∀ c l, P (.panic c) l → Q (.panic c) l)
    (hf : ∀ a l, P (.ok a) l → Says (f a) (fun r l' => Q r (l ++ l'))) : Says (x >>= f) Q := by
  intro w
  obtain ⟨new, h1, h2⟩ := h w
  rw [Go.run_bind]
  rcases hx : x w with ⟨r, w'⟩
  rw [hx] at h1 h2
  cases r with
  | panic c => exact ⟨new, h1, hp _ _ h2⟩
  | ok a =>
    obtain ⟨new', h3, h4⟩ := hf a _ h2 w'
    refine ⟨new ++ new', ?_, ?_⟩
    · rw [← List.append_assoc, ← h1]; exact h3
    · rw [visible_append]; exact h4

/-- Code that logs nothing, before other code. -/
theorem says_then {y : Go World α} {f : α → Go LWorld β} {Q : Res β → List Line → Prop} (hp : ∀ c, Q (.panic c) [])
    (hf : ∀ a, Says (f a) Q) : Says (quiet y >>= f) Q :=
  says_bind (P := fun _ l => l = []) (says_quiet fun _ => rfl) (fun c l h => by subst h; exact hp c)
    fun a l h => by subst h; exact hf a

theorem says_get {f : World → Go LWorld β} {Q : Res β → List Line → Prop} (hf : ∀ a, Says (f a) Q) :
    Says (quiet Go.get >>= f) Q := fun w => hf w.world w

theorem says_log {level : Level} {text : String} {data : List Datum} {f : Unit → Go LWorld α} {Q : Res α → List Line → Prop}
    (hl : level ≠ .unsafeL) (h : Says (f ()) (fun r l => Q r (⟨level, text, data⟩ :: l))) :
    Says (log level text data >>= f) Q := by
  intro w
  obtain ⟨new, h1, h2⟩ := h (LWorld.mk w.world (w.lines ++ [Line.mk level text data]))
  refine ⟨Line.mk level text data :: new, ?_, ?_⟩
  · rw [← List.singleton_append, ← List.append_assoc]; exact h1
  · have : visible (Line.mk level text data :: new) = Line.mk level text data :: visible new :=
      List.filter_cons_of_pos (by simpa using hl)
    rw [this]; exact h2

theorem says_unsafe {text : String} {data : List Datum} {f : Unit → Go LWorld α} {Q : Res α → List Line → Prop}
    (h : Says (f ()) Q) : Says (log .unsafeL text data >>= f) Q := by
  intro w
  obtain ⟨new, h1, h2⟩ := h (LWorld.mk w.world (w.lines ++ [Line.mk .unsafeL text data]))
  refine ⟨Line.mk .unsafeL text data :: new, ?_, ?_⟩
  · rw [← List.singleton_append, ← List.append_assoc]; exact h1
  · exact h2

theorem says_ite {p : Prop} [Decidable p] {a b : Go LWorld α} {Q : Res α → List Line → Prop} (h : p → Says a Q)
    (h' : ¬ p → Says b Q) : Says (if p then a else b) Q := by
  by_cases hp : p
  · rw [if_pos hp]; exact h hp
  · rw [if_neg hp]; exact h' hp

theorem quiet_ok {y : Go World α} {f : α → Go LWorld β} {w : LWorld} {a : α} {v : World} (h : y w.world = (.ok a, v)) :
    (quiet y >>= f) w = f a ⟨v, w.lines⟩ := by
  rw [Go.run_bind]
  have e : quiet y w = (.ok a, ⟨v, w.lines⟩) := by unfold quiet; rw [h]
  rw [e]

theorem quiet_panic {y : Go World α} {f : α → Go LWorld β} {w : LWorld} {c : Cause} {v : World}
    (h : y w.world = (.panic c, v)) : (quiet y >>= f) w = (.panic c, ⟨v, w.lines⟩) := by
  rw [Go.run_bind]
  have e : quiet y w = (.panic c, ⟨v, w.lines⟩) := by unfold quiet; rw [h]
  rw [e]

theorem quiet_get {f : World → Go LWorld β} {w : LWorld} : (quiet Go.get >>= f) w = f w.world w := rfl

/-! ## The lines, from the message and the answer -/

/-- What was answered. -/
def ans : Res Bytes → Option Bytes
  | .ok b => some b
  | .panic _ => none

def makeLines (E : Env) (data : Bytes) (r : Option Bytes) : List Line :=
  match E.decodeMakeCred data with
  | none => []
  | some args => ⟨.debug, "MAKE CREDENTIAL", [.makeArgs args]⟩ ::
    match r with
    | some (e :: b) =>
      if e = 0x26 then [⟨.debug, "ERROR: Unsupported Algorithm", []⟩]
      else if e = 0x27 then [⟨.debug, "ERROR: Unapproved action (Create account)", []⟩]
      else if e = 0 then [⟨.debug, "MAKE CREDENTIAL RESPONSE", [.response b]⟩]
      else []
    | _ => []

theorem makeCredentialPIN_error {E : Env} {c : Client} {args : MakeCredArgs} {e : UInt8}
    (h : Ctap.makeCredentialPIN E c args = .error e) : e = 0x33 ∨ e = 0x36 := by
  unfold Ctap.makeCredentialPIN at h
  repeat' split at h
  all_goals first
    | (obtain rfl := Except.error.inj h; exact .inl rfl)
    | (obtain rfl := Except.error.inj h; exact .inr rfl)
    | cases h

theorem getAssertionPIN_error {E : Env} {c : Client} {args : GetAssertionArgs} {e : UInt8}
    (h : Ctap.getAssertionPIN E c args = .error e) : e = 0x33 := by
  unfold Ctap.getAssertionPIN at h
  repeat' split at h
  all_goals first
    | (obtain rfl := Except.error.inj h; rfl)
    | cases h

theorem make_says (E : Env) (data : Bytes) :
    Says (handleMakeCredential E data) (fun r l => l = makeLines E data (ans r)) := by
  unfold handleMakeCredential makeLines
  rcases E.decodeMakeCred data with _ | args
  · exact says_throw rfl
  dsimp only
  refine says_log (by decide) ?_
  simp only [List.cons.injEq, true_and]
  refine says_ite (fun _ => says_log (by decide) (says_pure rfl)) fun _ => ?_
  refine says_then (fun _ => rfl) fun w => ?_
  rcases hp : Ctap.makeCredentialPIN E w.client args with e | flags
  · refine says_pure ?_
    rcases makeCredentialPIN_error hp with rfl | rfl <;> rfl
  dsimp only
  rcases args.rp with _ | rp
  · exact says_throw rfl
  refine says_then (fun _ => rfl) fun approved => ?_
  refine says_ite (fun _ => says_log (by decide) (says_pure rfl)) fun _ => ?_
  refine says_then (fun _ => rfl) fun source => ?_
  rcases source with _ | s
  · exact says_log (by decide) (says_pure rfl)
  refine says_then (fun _ => rfl) fun _ => says_then (fun _ => rfl) fun _ => says_then (fun _ => rfl) fun _ => ?_
  exact says_log (by decide) (says_pure rfl)

def infoLines (r : Option Bytes) : List Line :=
  match r with
  | some (_ :: b) => [⟨.debug, "GET_INFO RESPONSE", [.response b]⟩]
  | _ => []

theorem info_says : Says handleGetInfo (fun r l => l = infoLines (ans r)) :=
  says_then (fun _ => rfl) fun _ => says_log (by decide) (says_pure rfl)

/-- Which line there is for a source. -/
theorem source_says (E : Env) (rpId : Bytes) (allowList : Option (List Descriptor)) :
    Says (getAssertionSource E rpId allowList) (fun r l =>
      l = if r = .ok none then [⟨.debug, "ERROR: No Credentials", []⟩] else []) := by
  intro w
  rcases hm : Vault.getMatching rpId allowList 0 w.world.client.vault with ps | c
  · rcases ps with _ | ⟨i, ps⟩
    · have e : getAssertionSource E rpId allowList w =
          (.ok none, LWorld.mk w.world (w.lines ++ [Line.mk .debug "ERROR: No Credentials" []])) := by
        unfold getAssertionSource
        rw [quiet_get, quiet_ok (by rw [hm]; rfl)]
        rfl
      rw [e]
      exact ⟨_, rfl, rfl⟩
    · have e : getAssertionSource E rpId allowList w = (do
          quiet (update (fun c => { c with vault := bump c.vault i }))
          quiet (saveData E)
          let w ← quiet Go.get
          pure w.client.vault[i]?) w := by
        unfold getAssertionSource
        rw [quiet_get, quiet_ok (by rw [hm]; rfl)]
      rw [e, quiet_ok (a := ()) (v := { w.world with client := { w.world.client with vault := bump w.world.client.vault i } }) rfl]
      obtain ⟨s, hs, -⟩ := ((Ctap.getMatching_ok hm).2.2 i).1 (List.mem_cons_self ..)
      rcases Ctap.saveData_cases E { w.world with client := { w.world.client with vault := bump w.world.client.vault i } } with
        ⟨c, hsv, -⟩ | ⟨d, n, -, hsv⟩
      · rw [quiet_panic hsv]
        exact ⟨[], (List.append_nil _).symm, rfl⟩
      · rw [quiet_ok hsv, quiet_get]
        refine ⟨[], (List.append_nil _).symm, ?_⟩
        have e : (bump w.world.client.vault i)[i]? = some { s with counter := s.counter + 1 } := by
          simp [bump, hs]
        change [] = if Res.ok (bump w.world.client.vault i)[i]? = .ok none then _ else _
        rw [e, if_neg (by simp)]
  · have e : getAssertionSource E rpId allowList w = (.panic c, w) := by
      unfold getAssertionSource
      rw [quiet_get, quiet_panic (by rw [hm]; rfl)]
    rw [e]
    exact ⟨[], (List.append_nil _).symm, rfl⟩

def getLines (E : Env) (data : Bytes) (r : Option Bytes) : List Line :=
  match E.decodeGetAssertion data with
  | none => [⟨.debug, "ERROR", [.undecodable data]⟩]
  | some args => ⟨.debug, "GET ASSERTION", [.getArgs args]⟩ ::
    match r with
    | some (e :: b) =>
      if e = 0x2E then [⟨.debug, "ERROR: No Credentials", []⟩, ⟨.debug, "ERROR: No Credentials", []⟩]
      else if e = 0x27 then [⟨.debug, "ERROR: Unapproved action (Account login)", []⟩]
      else if e = 0 then [⟨.debug, "GET ASSERTION RESPONSE", [.response b]⟩]
      else []
    | _ => []

theorem get_says (E : Env) (data : Bytes) :
    Says (handleGetAssertion E data) (fun r l => l = getLines E data (ans r)) := by
  unfold handleGetAssertion getLines
  rcases E.decodeGetAssertion data with _ | args
  · exact says_log (by decide) (says_pure rfl)
  dsimp only
  refine says_log (by decide) ?_
  simp only [List.cons.injEq, true_and]
  refine says_then (fun _ => rfl) fun w => ?_
  rcases hp : Ctap.getAssertionPIN E w.client args with e | flags
  · refine says_pure ?_
    rcases getAssertionPIN_error hp with rfl
    rfl
  dsimp only
  refine says_bind (source_says E args.rpId args.allowList) (fun c l h => h) fun source l h => ?_
  refine says_unsafe ?_
  rcases source with _ | s
  · rw [if_pos rfl] at h
    subst h
    exact says_log (by decide) (says_pure rfl)
  · rw [if_neg (by simp)] at h
    subst h
    have hfin : ∀ flags, Says (finishAssertion E args s flags) (fun r l' => [] ++ l' =
        match ans r with
        | some (e :: b) =>
          if e = 0x2E then [⟨.debug, "ERROR: No Credentials", []⟩, ⟨.debug, "ERROR: No Credentials", []⟩]
          else if e = 0x27 then [⟨.debug, "ERROR: Unapproved action (Account login)", []⟩]
          else if e = 0 then [⟨.debug, "GET ASSERTION RESPONSE", [.response b]⟩]
          else []
        | _ => []) := fun flags => says_then (fun _ => rfl) fun _ => says_log (by decide) (says_pure rfl)
    refine says_ite (fun _ => hfin flags) fun _ => says_then (fun _ => rfl) fun approved => ?_
    exact says_ite (fun _ => says_log (by decide) (says_pure rfl)) fun _ => hfin (flags ||| Ctap.flagUP)

/-- The lines of the subcommands that say nothing but what is in the message and the answer. -/
def subLines (sub : UInt32) (r : Option Bytes) : List Line :=
  match r with
  | none => []
  | some b =>
    (if sub = 1 then [⟨.debug, "CLIENT_PIN_GET_RETRIES", [.response b.tail]⟩]
    else if sub = 2 then [⟨.debug, "CLIENT_PIN_GET_KEY_AGREEMENT RESPONSE", [.response b.tail]⟩]
    else []) ++ (if sub = 1 ∨ sub = 2 ∨ sub = 4 then [⟨.debug, "CLIENT_PIN RESPONSE", [.bytes b]⟩] else [])

def pinLines (E : Env) (data : Bytes) (r : Option Bytes) : List Line :=
  if r = some [Ctap.errInvalidCommand] then []
  else
    match E.decodeClientPIN data with
    | none => [⟨.debug, "ERROR", [.undecodable data]⟩]
    | some args =>
      if args.pinProtocol ≠ 1 then []
      else ⟨.debug, "CLIENT_PIN", [.pinArgs args]⟩ :: subLines args.subCommand r

/-- What code can return. -/
def Returns (y : Go World α) (P : α → Prop) : Prop := ∀ w a, (y w).1 = .ok a → P a

theorem returns_bind {y : Go World α} {f : α → Go World β} {P : β → Prop} (h : ∀ a, Returns (f a) P) :
    Returns (y >>= f) P := by
  intro w b hb
  rw [Go.run_bind] at hb
  rcases hy : y w with ⟨r, v⟩
  rw [hy] at hb
  cases r with
  | panic c => cases hb
  | ok a => exact h a v b hb

theorem returns_pure {a : α} {P : α → Prop} (h : P a) : Returns (pure a) P := by
  intro w b hb
  obtain rfl := Res.ok.inj hb
  exact h

theorem returns_ite {p : Prop} [Decidable p] {a b : Go World α} {P : α → Prop} (h : Returns a P) (h' : Returns b P) :
    Returns (if p then a else b) P := by
  split
  · exact h
  · exact h'

theorem change_returns (E : Env) (args : ClientPINArgs) :
    Returns (Ctap.handleChangePIN E args) (· ≠ [Ctap.errInvalidCommand]) := by
  unfold Ctap.handleChangePIN
  rcases args.keyAgreement with _ | key
  · exact returns_pure (by decide)
  rcases args.pinAuth with _ | auth
  · exact returns_pure (by decide)
  refine returns_bind fun _ => returns_ite (returns_pure (by decide)) (returns_bind fun _ => returns_bind fun _ => ?_)
  refine returns_ite (returns_pure (by decide)) (returns_bind fun _ => returns_bind fun _ => returns_bind fun _ =>
    returns_bind fun _ => returns_ite (returns_pure (by decide)) (returns_bind fun _ => returns_bind fun _ => ?_))
  exact returns_ite (returns_pure (by decide)) (returns_bind fun _ => returns_pure (by decide))

theorem respond_says {x : Go LWorld Bytes} {P Q : Res Bytes → List Line → Prop} (h : Says x P)
    (hp : ∀ c l, P (.panic c) l → Q (.panic c) l)
    (ho : ∀ b l, P (.ok b) l → Q (.ok b) (l ++ [⟨.debug, "CLIENT_PIN RESPONSE", [.bytes b]⟩])) : Says (respond x) Q :=
  says_bind h hp fun b l hb => says_log (by decide) (says_pure (ho b l hb))

/-- The answer of a subcommand, and its lines. -/
theorem sub_says (E : Env) (args : ClientPINArgs) (h3 : args.subCommand ≠ 3) (h5 : args.subCommand ≠ 5) :
    Says (if args.subCommand = 1 then respond handleGetRetries
        else if args.subCommand = 2 then respond handleGetKeyAgreement
        else if args.subCommand = 3 then respond (handleSetPIN E args)
        else if args.subCommand = 4 then respond (quiet (Ctap.handleChangePIN E args))
        else if args.subCommand = 5 then respond (handleGetPINToken E args)
        else pure [Ctap.errMissingParam]) (fun r l => ans r ≠ some [Ctap.errInvalidCommand] ∧ l = subLines args.subCommand (ans r)) := by
  refine says_ite (fun h => ?_) fun h1 => says_ite (fun h => ?_) fun h2 => says_ite (fun h => absurd h h3) fun _ =>
    says_ite (fun h => ?_) fun h4 => says_ite (fun h => absurd h h5) fun _ => says_pure ?_
  · rw [h]
    refine respond_says (P := fun r l => match r with
      | .panic _ => l = []
      | .ok b => b.head? = some 0 ∧ l = [⟨.debug, "CLIENT_PIN_GET_RETRIES", [.response b.tail]⟩])
      (says_then (fun _ => rfl) fun _ => says_log (by decide) (says_pure ⟨rfl, rfl⟩)) ?_ ?_
    · rintro c l rfl
      exact ⟨nofun, rfl⟩
    · rintro b l ⟨hb, rfl⟩
      refine ⟨fun hh => ?_, rfl⟩
      rw [Option.some.inj hh] at hb
      cases hb
  · rw [h]
    refine respond_says (P := fun r l => match r with
      | .panic _ => l = []
      | .ok b => b.head? = some 0 ∧ l = [⟨.debug, "CLIENT_PIN_GET_KEY_AGREEMENT RESPONSE", [.response b.tail]⟩])
      (says_then (fun _ => rfl) fun _ => says_log (by decide) (says_pure ⟨rfl, rfl⟩)) ?_ ?_
    · rintro c l rfl
      exact ⟨nofun, rfl⟩
    · rintro b l ⟨hb, rfl⟩
      refine ⟨fun hh => ?_, rfl⟩
      rw [Option.some.inj hh] at hb
      cases hb
  · rw [h]
    refine respond_says (P := fun r l => l = [] ∧ ∀ b, r = .ok b → b ≠ [Ctap.errInvalidCommand])
      (says_quiet fun w => ⟨rfl, fun b hb => change_returns E args w b hb⟩) ?_ ?_
    · rintro c l ⟨rfl, -⟩
      exact ⟨nofun, rfl⟩
    · rintro b l ⟨rfl, hb⟩
      exact ⟨fun hh => hb b rfl (Option.some.inj hh), rfl⟩
  · refine ⟨by decide, ?_⟩
    simp [subLines, ans, h1, h2, h4]

theorem pin_says (E : Env) (data : Bytes)
    (h : ∀ args, E.decodeClientPIN data = some args → args.subCommand ≠ 3 ∧ args.subCommand ≠ 5) :
    Says (handleClientPIN E data) (fun r l => l = pinLines E data (ans r)) := by
  unfold handleClientPIN pinLines
  refine says_get fun w => ?_
  refine says_ite (fun _ => says_pure rfl) fun _ => ?_
  rcases hd : E.decodeClientPIN data with _ | args
  · exact says_log (by decide) (says_pure rfl)
  dsimp only
  refine says_ite (fun hpp => says_pure ?_) fun hpp => says_log (by decide) ?_
  · rw [if_neg (by decide), if_pos hpp]
  refine says_mono (sub_says E args (h args hd).1 (h args hd).2) ?_
  rintro r l ⟨h1, rfl⟩
  rw [if_neg h1, if_neg hpp]

def ctapLines (E : Env) (data : Bytes) (r : Option Bytes) : List Line :=
  match data with
  | [] => []
  | command :: body => ⟨.debug, "CTAP COMMAND", [.command command]⟩ ::
    (if command = 0x01 then makeLines E body r
    else if command = 0x04 then infoLines r
    else if command = 0x02 then getLines E body r
    else if command = 0x06 then pinLines E body r
    else [])

theorem ctap_says (E : Env) (data : Bytes)
    (h : ∀ body args, data = 6 :: body → E.decodeClientPIN body = some args → args.subCommand ≠ 3 ∧ args.subCommand ≠ 5) :
    Says (ctapMessage E data) (fun r l => l = ctapLines E data (ans r)) := by
  unfold ctapMessage ctapLines
  rcases data with _ | ⟨command, body⟩
  · exact says_throw rfl
  dsimp only
  refine says_log (by decide) ?_
  simp only [List.cons.injEq, true_and]
  by_cases h1 : command = 0x01
  · simp only [if_pos h1]; exact make_says E body
  by_cases h4 : command = 0x04
  · simp only [if_neg h1, if_pos h4]; exact info_says
  by_cases h2 : command = 0x02
  · simp only [if_neg h1, if_neg h4, if_pos h2]; exact get_says E body
  by_cases h6 : command = 0x06
  · simp only [if_neg h1, if_neg h4, if_neg h2, if_pos h6]
    exact pin_says E body fun args ha => h body args (by rw [h6]) ha
  · simp only [if_neg h1, if_neg h4, if_neg h2, if_neg h6]
    exact says_throw rfl

/-! ## U2F -/

theorem register_says {E : Env} (L : Laws E) {request b : Bytes} {reg : Spec.U2f.Registration} {w : LWorld}
    (h : (handleRegister E request w).1 = .ok b) (hr : Spec.U2f.parseRegistration b = some reg) :
    ∃ new, (handleRegister E request w).2.lines = w.lines ++ new ∧
      visible new = [⟨.debug, "KEY HANDLE", [.number reg.keyHandle.length, .bytes reg.keyHandle]⟩] := by
  have her := erases_register E request w
  have hm : U2f.handleRegister E request w.world = (.ok b, (U2f.handleRegister E request w.world).2) := by
    rw [← h, her.1]
  obtain ⟨h1, h2, ⟨-, hb, -⟩ | ⟨ha, -, cert, sig, hp, -⟩⟩ := U2f.register_spec L hm
  · rw [hb] at hr
    cases hr
  rw [hr] at hp
  obtain rfl := Option.some.inj hp
  have hdl : (request.drop 32).length = 32 := by rw [List.length_drop, h1]
  unfold handleRegister
  rw [if_neg (by omega)]
  dsimp only
  rw [if_neg (by rw [hdl]; decide),
    quiet_ok (a := E.genEC w.world.rnd) (v := { w.world with rnd := w.world.rnd + 1 }) rfl,
    quiet_ok (a := U2f.madeHandle E w.world.client.deviceKey (request.drop 32) w.world.rnd)
      (v := { w.world with rnd := w.world.rnd + 1 + 1 })
      (by simp [U2f.sealKeyHandle, Go.run_bind, draw, sealBox, encrypt, h2, U2f.madeHandle])]
  refine says_log (Q := fun _ l => l = [⟨.debug, "KEY HANDLE", _⟩]) (by decide) ?_ _
  simp only [List.cons.injEq, true_and]
  refine says_then (fun _ => rfl) fun _ => says_ite (fun _ => says_pure rfl) fun _ => ?_
  exact says_then (fun _ => rfl) fun _ => says_then (fun _ => rfl) fun _ => says_pure rfl

/-- An authentication whose key handle is not refused logs nothing of its own. -/
theorem authenticate_says (E : Env) (control : UInt8) (request : Bytes) :
    Says (handleAuthenticate E control request) (fun r l => r ≠ .ok [0x6A, 0x80] → l = []) := by
  unfold handleAuthenticate
  refine says_then (fun _ _ => rfl) fun fields => says_get fun w => says_then (fun _ _ => rfl) fun opened => ?_
  rcases opened with _ | k
  · exact says_log (by decide) (says_pure fun h => absurd rfl h)
  rcases k with ⟨_ | der, application⟩
  · exact says_log (by decide) (says_pure fun h => absurd rfl h)
  refine says_ite (fun _ => says_log (by decide) (says_pure fun h => absurd rfl h)) fun _ => ?_
  rcases E.parseECDER der with _ | key
  · exact says_throw fun _ => rfl
  refine says_ite (fun _ => says_pure fun _ => rfl) fun _ => says_ite (fun _ => ?_) fun _ => ?_
  · refine says_then (fun _ _ => rfl) fun _ => says_ite (fun _ => says_pure fun _ => rfl) fun _ => says_quiet fun _ _ => rfl
  · exact says_ite (fun _ => says_quiet fun _ _ => rfl) fun _ => says_pure fun _ => rfl

def u2fLines (message : Bytes) (r : Option Bytes) : List Line :=
  match U2f.decodeMessage message with
  | .panic _ => []
  | .ok (header, request, n) => ⟨.debug, "MESSAGE", [.header header, .bytes request, .number n.toNat]⟩ ::
    match r with
    | none => []
    | some b =>
      (if header.command = 0x01 then
        match Spec.U2f.parseRegistration b with
        | some reg => [⟨.debug, "KEY HANDLE", [.number reg.keyHandle.length, .bytes reg.keyHandle]⟩]
        | none => []
      else []) ++ [⟨.debug, "RESPONSE", [.bytes b]⟩]

theorem u2f_says {E : Env} (L : Laws E) {message : Bytes} {w : LWorld}
    (h1 : ∀ cla rest, message = cla :: 1 :: rest →
      ∃ b reg, (u2fMessage E message w).1 = .ok b ∧ Spec.U2f.parseRegistration b = some reg)
    (h2 : ∀ cla rest, message = cla :: 2 :: rest → (u2fMessage E message w).1 ≠ .ok [0x6A, 0x80]) :
    ∃ new, (u2fMessage E message w).2.lines = w.lines ++ new ∧
      visible new = u2fLines message (ans (u2fMessage E message w).1) := by
  rcases hd : U2f.decodeMessage message with ⟨header, request, n⟩ | c
  · have hcmd : ∃ cla rest, message = cla :: header.command :: rest := by
      rcases message with _ | ⟨cla, _ | ⟨ins, _ | ⟨p1, _ | ⟨p2, rest⟩⟩⟩⟩
      iterate 4 cases hd
      have := U2f.decodeMessage_header hd
      exact ⟨cla, p1 :: p2 :: rest, by rw [show header.command = ins from congrArg U2f.Header.command this]⟩
    obtain ⟨cla, rest, hcmd⟩ := hcmd
    let w1 : LWorld := ⟨w.world, w.lines ++ [⟨.debug, "MESSAGE", [.header header, .bytes request, .number n.toNat]⟩]⟩
    have e : u2fMessage E message w = (do
        let response ← u2fCommand E header request
        u2fLog "RESPONSE" [.bytes response]
        pure response) w1 := by
      unfold u2fMessage
      rw [quiet_ok (a := (header, request, n)) (v := w.world) (by rw [hd]; rfl)]
      rfl
    unfold u2fLines
    rw [hd]
    dsimp only
    rcases hx : u2fCommand E header request w1 with ⟨b | c, w2⟩
    · have e' : u2fMessage E message w = (.ok b, ⟨w2.world, w2.lines ++ [⟨.debug, "RESPONSE", [.bytes b]⟩]⟩) := by
        rw [e, Go.run_bind, hx]
        rfl
      rw [e'] at h1 h2 ⊢
      suffices h : ∃ new, w2.lines = w1.lines ++ new ∧ visible new = (if header.command = 0x01 then
          match Spec.U2f.parseRegistration b with
          | some reg => [⟨.debug, "KEY HANDLE", [.number reg.keyHandle.length, .bytes reg.keyHandle]⟩]
          | none => []
          else []) by
        obtain ⟨new, hn1, hn2⟩ := h
        refine ⟨[⟨.debug, "MESSAGE", [.header header, .bytes request, .number n.toNat]⟩] ++ (new ++ [⟨.debug, "RESPONSE", [.bytes b]⟩]),
          ?_, ?_⟩
        · dsimp only
          rw [hn1]
          simp [w1]
        · rw [visible_append, visible_append, hn2]
          rfl
      unfold u2fCommand at hx
      by_cases c3 : header.command = 0x03
      · rw [if_pos c3] at hx
        obtain ⟨-, rfl⟩ := Prod.mk.inj hx
        exact ⟨[], (List.append_nil _).symm, by rw [c3]; rfl⟩
      rw [if_neg c3] at hx
      by_cases c1 : header.command = 0x01
      · rw [if_pos c1] at hx ⊢
        rw [c1] at hcmd
        obtain ⟨b', reg, hb, hr⟩ := h1 cla rest hcmd
        obtain rfl := Res.ok.inj hb
        rw [hr]
        have := register_says L (w := w1) (by rw [hx]) hr
        rw [hx] at this
        exact this
      rw [if_neg c1] at hx ⊢
      by_cases c2 : header.command = 0x02
      · rw [if_pos c2] at hx
        rw [c2] at hcmd
        obtain ⟨new, hn1, hn2⟩ := authenticate_says E header.param1 request w1
        rw [hx] at hn1 hn2
        exact ⟨new, hn1, hn2 (h2 cla rest hcmd)⟩
      · rw [if_neg c2] at hx
        cases hx
    · have e' : u2fMessage E message w = (.panic c, w2) := by
        rw [e, Go.run_bind, hx]
      rw [e'] at h1 h2 ⊢
      suffices h : ∃ new, w2.lines = w1.lines ++ new ∧ visible new = [] by
        obtain ⟨new, hn1, hn2⟩ := h
        refine ⟨[⟨.debug, "MESSAGE", [.header header, .bytes request, .number n.toNat]⟩] ++ new, ?_, ?_⟩
        · dsimp only
          rw [hn1]
          simp [w1]
        · rw [visible_append, hn2]
          rfl
      unfold u2fCommand at hx
      by_cases c3 : header.command = 0x03
      · rw [if_pos c3] at hx
        cases hx
      rw [if_neg c3] at hx
      by_cases c1 : header.command = 0x01
      · rw [c1] at hcmd
        obtain ⟨b', reg, hb, hr⟩ := h1 cla rest hcmd
        cases hb
      rw [if_neg c1] at hx
      by_cases c2 : header.command = 0x02
      · rw [if_pos c2] at hx
        obtain ⟨new, hn1, hn2⟩ := authenticate_says E header.param1 request w1
        rw [hx] at hn1 hn2
        exact ⟨new, hn1, hn2 nofun⟩
      · rw [if_neg c2] at hx
        obtain ⟨-, rfl⟩ := Prod.mk.inj hx
        exact ⟨[], (List.append_nil _).symm, rfl⟩
  · have e : u2fMessage E message w = (.panic c, w) := by
      unfold u2fMessage
      rw [quiet_panic (c := c) (v := w.world) (by rw [hd]; rfl)]
    rw [e]
    refine ⟨[], (List.append_nil _).symm, ?_⟩
    unfold u2fLines
    rw [hd]
    rfl

/-! ## Events -/

/-- The visible lines of an event that says nothing of its own. -/
def eventLines (E : Env) (reply : Reply) : Op → List Line
  | .ctap m =>
    match reply with
    | .answer b => ctapLines E m (some b)
    | .panicked => ctapLines E m none
    | _ => []
  | .u2f m =>
    match reply with
    | .answer b => u2fLines m (some b)
    | .panicked => u2fLines m none
    | _ => []
  | _ => []

theorem printed_discreet {E : Env} (L : Laws E) {cfg : Client.Config} {d : Device} {op : Op}
    (h : Discreet E (Device.step E cfg d op).1 op) :
    visible (printed E d op) = eventLines E (Device.step E cfg d op).1 op := by
  rcases hal : d.alive with _ | _
  · cases op <;> simp [printed, hal, eventLines, Device.step, visible]
  cases op with
  | ctap m =>
    have her := erases_ctap E m ⟨d.world, []⟩
    have hsay := ctap_says E m (fun body args hm ha => by
      subst hm; exact h args ha) ⟨d.world, []⟩
    obtain ⟨new, hn1, hn2⟩ := hsay
    have e : (perform E (.ctap m) ⟨d.world, []⟩).2.lines = (ctapMessage E m ⟨d.world, []⟩).2.lines := by
      unfold perform
      dsimp only
      rw [Go.run_bind]
      rcases ctapMessage E m ⟨d.world, []⟩ with ⟨_ | _, _⟩ <;> rfl
    simp only [printed, hal, if_true]
    rw [e, hn1, List.nil_append, hn2]
    dsimp only [Device.step]
    rw [hal, if_pos rfl]
    unfold Device.perform
    dsimp only
    rw [Go.run_bind, her.1]
    dsimp only
    rcases Ctap.handleMessage E m d.world with ⟨b | c, w'⟩ <;> rfl
  | u2f m =>
    have her := erases_u2f E m ⟨d.world, []⟩
    have hst : (Device.step E cfg d (.u2f m)).1 = match (u2fMessage E m ⟨d.world, []⟩).1 with
        | .ok b => .answer b
        | .panic _ => .panicked := by
      dsimp only [Device.step]
      rw [hal, if_pos rfl, her.1]
      unfold Device.perform
      dsimp only
      rw [Go.run_bind]
      rcases U2f.handleMessage E m d.world with ⟨b | c, w'⟩ <;> rfl
    have e : (perform E (.u2f m) ⟨d.world, []⟩).2.lines = (u2fMessage E m ⟨d.world, []⟩).2.lines := by
      unfold perform
      dsimp only
      rw [Go.run_bind]
      rcases u2fMessage E m ⟨d.world, []⟩ with ⟨_ | _, _⟩ <;> rfl
    rw [hst] at h ⊢
    obtain ⟨new, hn1, hn2⟩ := u2f_says L (message := m) (w := ⟨d.world, []⟩)
      (by
        rintro cla rest rfl
        obtain ⟨b, reg, hb, hr⟩ := h
        rcases hx : (u2fMessage E (cla :: 1 :: rest) ⟨d.world, []⟩).1 with b' | c
        · rw [hx] at hb
          obtain rfl := Reply.answer.inj hb
          exact ⟨_, reg, rfl, hr⟩
        · rw [hx] at hb
          cases hb)
      (by
        rintro cla rest rfl hx
        rw [hx] at h
        exact h rfl)
    simp only [printed, hal, if_true]
    rw [e, hn1, List.nil_append, hn2]
    rcases (u2fMessage E m ⟨d.world, []⟩).1 with b | c <;> rfl
  | _ => simp [printed, hal, perform, quiet, eventLines, visible]

theorem logOf_discreet {E : Env} (L : Laws E) {cfg : Client.Config} : ∀ {ops : List Op} {d : Device},
    AllDiscreet E ops (Device.run E cfg d ops).1 →
    visible (logOf E cfg d ops) = (List.zipWith (fun op r => eventLines E r op) ops (Device.run E cfg d ops).1).flatten
  | [], _, _ => rfl
  | op :: ops, d, h => by
    have e : (Device.run E cfg d (op :: ops)).1 =
      (Device.step E cfg d op).1 :: (Device.run E cfg (Device.step E cfg d op).2 ops).1 := rfl
    rw [e] at h ⊢
    unfold logOf
    rw [visible_append, printed_discreet L h.1, logOf_discreet L h.2]
    rfl

theorem eventLines_alike {E E' : Env} (h : ReadsAlike E E') (r : Reply) (op : Op) : eventLines E r op = eventLines E' r op := by
  have hc : ∀ m r, ctapLines E m r = ctapLines E' m r := by
    intro m r
    unfold ctapLines makeLines getLines pinLines
    rw [h.make, h.get, h.pin]
  cases op <;> simp only [eventLines, hc]

end VF.Fido.Logged
