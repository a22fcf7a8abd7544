import Verif.Proofs.U2fParty
import Verif.Props.RelyingParty
import Verif.Props.History

/-!
# C120: a U2F relying party that checks everything accepts what the device answers
-/

namespace VF.Props

open VF.Fido VF.Fido.Device VF.Spec.Client VF.Spec.History VF.Spec.U2f VF.Spec.U2fParty

variable {E : Env} {cfg : Client.Config}

/-- **Registration.**  Whatever happened before (restarts and crashes included): every answer to a
registration request with status 0x9000 passes all the checks of the relying party whose application
parameter is in the request, if the party trusts the issuer the device was configured with. -/
theorem C120_registration_accepted (L : Laws E) (hu : Usable E cfg)
    (hat : CanAttest E (boot E cfg).world.client) (p : Party)
    (hanchor : Cose.publicOf cfg.certKey = .ok p.anchor) (ops : List Op) {m data b challenge : Bytes}
    {d d' : Device} (hd : after E cfg (boot E cfg) ops = d)
    (h : step E cfg d (.u2f m) = (.answer b, d')) (hs : succeeded b ≠ none)
    (hm : request m = some (1, data)) (hf : registerFields data = some (challenge, p.application))
    (hnonces : DistinctNonces E d'.world.rnd) :
    ∃ k, register E p (keys E p (events E cfg (boot E cfg) ops)) challenge b = some k := by
  subst hd
  obtain ⟨hal, -, hh⟩ := u2f_answered h
  have hk := keeps_reachable L hu ops
  have hmade := madeKeys_reachable L hu p ops
  obtain ⟨a1, a2⟩ := anchor_kept L hat hanchor hk hal
  obtain ⟨cert, q1, q2, q3, q4, -, q5⟩ := u2f_register_eq L hh hm hf hs
  obtain ⟨c, -, -, ⟨k1, -⟩, k2⟩ := hk
  obtain rfl := k2 hal
  rw [q5 p _ rfl, if_pos]
  · exact ⟨_, rfl⟩
  refine ⟨anchor_signs L a1 a2 q4, ?_⟩
  rw [List.all_eq_true]
  intro k hk
  obtain ⟨i, h1, h2, h3, h4, -⟩ := hmade k hk
  rw [bne_iff_ne]
  intro e
  rw [h4, k1] at e
  have := hnonces _ _ (by omega) (by omega) (madeHandle_inj L h2 h3 e)
  omega

/-- **Login.**  Whatever happened before (restarts and crashes included): every answer with status
0x9000 to an authentication request for a handle registered with a relying party passes all the checks of this
party.  If the party looks at the counter, each restart must have been preceded by one of the
operations that save (a credential made or used, a change of the PIN setting) since the last authentication. -/
theorem C120_login_accepted (L : Laws E) (hu : Usable E cfg) (p : Party) (ops : List Op)
    {m data b challenge handle : Bytes} {d d' : Device} (hd : after E cfg (boot E cfg) ops = d)
    (h : step E cfg d (.u2f m) = (.answer b, d')) (hs : succeeded b ≠ none)
    (hm : request m = some (2, data))
    (hf : authenticateFields data = some (challenge, p.application, handle))
    (hknown : ∃ k ∈ keys E p (events E cfg (boot E cfg) ops), k.handle = handle)
    (hcount : p.checksCounter = true → Settled false (events E cfg (boot E cfg) ops) ∧
      ops.countP isU2fAuthenticate + 2 < 2 ^ 32) :
    ∃ k, login E p (keys E p (events E cfg (boot E cfg) ops)) challenge handle b = some k ∧
      k.handle = handle := by
  subst hd
  obtain ⟨hal, -, hh⟩ := u2f_answered h
  obtain ⟨auth, hp⟩ := u2f_login_parses hh hm hf hs
  have hmade := madeKeys_reachable L hu p ops
  obtain ⟨c, -, -, ⟨k1, -⟩, k2⟩ := keeps_reachable (cfg := cfg) L hu ops
  obtain rfl := k2 hal
  have hfl : p.checksCounter = true → ∃ pending, Floors E cfg
      (keys E p (events E cfg (boot E cfg) ops)) pending (after E cfg (boot E cfg) ops) := by
    intro hc
    obtain ⟨h1, h2⟩ := hcount hc
    refine floors_after L p ops [] 0 false (boot E cfg) (inv_boot hu trivial) (authBound_boot 0) ?_ h1 floor_boot
      (by intro r hr; cases hr)
    rw [show (2 : Nat) ^ 32 = 4294967296 from rfl] at h2
    omega
  generalize hl : keys E p (events E cfg (boot E cfg) ops) = l at *
  cases hfind : l.find? (fun k => k.handle == handle) with
  | none =>
    obtain ⟨k, hk, e⟩ := hknown
    rw [List.find?_eq_none] at hfind
    exact absurd (by simpa using e) (hfind k hk)
  | some k =>
    have hk := List.mem_of_find?_eq_some hfind
    have hkh : k.handle = handle := by simpa using List.find?_some hfind
    obtain ⟨i, h1, h2, h3, h4, h5⟩ := hmade k hk
    obtain ⟨g1, g2, g3, g4⟩ := u2f_login_eq L hh hm hf hp (n := i) (by rw [k1]; exact h2)
      (by rw [k1, ← hkh]; exact h4)
    unfold login
    simp only [hp, hfind, Option.bind_eq_bind, Option.bind_some]
    rw [if_pos]
    · exact ⟨_, rfl, hkh⟩
    refine ⟨by rw [g1]; rfl, by rw [h5]; exact g4, ?_⟩
    intro hc
    obtain ⟨pending, hf⟩ := hfl hc
    have := (hf k hk).1 hal
    omega

theorem settled_of_no_restart (pending : Bool) (seen : List (Op × Reply))
    (h : ∀ e ∈ seen, e.1 ≠ .restart) : Settled pending seen := by
  induction seen generalizing pending with
  | nil => trivial
  | cons e seen ih =>
    have h' := fun b => ih b (fun x hx => h x (List.mem_cons_of_mem _ hx))
    have h0 := h e (List.mem_cons_self ..)
    obtain ⟨op, reply⟩ := e
    cases op with
    | restart => exact absurd rfl h0
    | _ => exact h' _

theorem request_apdu (cla ins p1 p2 : UInt8) (data : Bytes) (le : Option UInt16)
    (h : data.length < 65536) : request (apdu cla ins p1 p2 data le) = some (ins, data) := by
  have e : ∃ a b, be16 (UInt16.ofNat data.length) = [a, b] ∧ 256 * a.toNat + b.toNat = data.length := by
    refine ⟨_, _, rfl, ?_⟩
    simp only [UInt16.toNat_toUInt8, UInt16.toNat_shiftRight, UInt16.toNat_ofNat']
    simp [Nat.shiftRight_eq_div_pow]
    omega
  obtain ⟨a, b, e1, e2⟩ := e
  simp only [apdu, e1, List.cons_append, List.nil_append, request, e2]
  rw [if_pos (by simp)]
  simp

theorem authenticateFields_data {challenge application handle : Bytes} (hc : challenge.length = 32)
    (ha : application.length = 32) (h0 : handle ≠ []) (h1 : handle.length ≤ 255) :
    authenticateFields (authenticateData challenge application handle) =
      some (challenge, application, handle) := by
  have e1 : (authenticateData challenge application handle).drop 64 =
      UInt8.ofNat handle.length :: handle := by
    rw [show (64 : Nat) = (challenge ++ application).length by simp [hc, ha]]
    simp [authenticateData]
  have e2 : (authenticateData challenge application handle).take 32 = challenge := by
    rw [← hc]; simp [authenticateData]
  have e3 : ((authenticateData challenge application handle).drop 32).take 32 = application := by
    rw [show (authenticateData challenge application handle).drop 32 =
      application ++ ([UInt8.ofNat handle.length] ++ handle) by rw [← hc]; simp [authenticateData]]
    rw [← ha]; simp
  unfold authenticateFields
  rw [e1, e2, e3]
  dsimp only
  rw [if_pos ⟨by simp; omega, h0⟩]

/-- **Who registered can log in.**  Whatever happened before (restarts and crashes included), a running
device answers every authentication request for a handle registered with a relying party, as soon
as the user agrees (control byte 3) or without asking (control byte 8), and the relying party accepts the
answer. -/
theorem C120_registered_can_login (L : Laws E) (hu : Usable E cfg) (p : Party) (ops : List Op)
    {d : Device} (hd : after E cfg (boot E cfg) ops = d) (ha : d.alive = true) {k : Key}
    (hk : k ∈ keys E p (events E cfg (boot E cfg) ops))
    (cla control p2 : UInt8) (le : Option UInt16) (challenge : Bytes) (hc : challenge.length = 32)
    (hagrees : (control = 3 ∧ E.approve d.world.asks .u2fAuthenticate [] [] = true) ∨ control = 8)
    (hcount : p.checksCounter = true → Settled false (events E cfg (boot E cfg) ops) ∧
      ops.countP isU2fAuthenticate + 2 < 2 ^ 32) :
    ∃ b d' k', step E cfg d
        (.u2f (apdu cla 2 control p2 (authenticateData challenge p.application k.handle) le)) =
        (.answer b, d') ∧
      login E p (keys E p (events E cfg (boot E cfg) ops)) challenge k.handle b = some k' := by
  obtain ⟨i, h1, h2, h3, h4, h5⟩ := madeKeys_reachable L hu p ops k hk
  have hl := U2f.madeHandle_length L i h2 h3
  rw [← h4] at hl
  have hal := U2f.authenticateData_length challenge p.application k.handle hc h3
  obtain ⟨c, -, -, ⟨k1, -⟩, k2⟩ := keeps_reachable (cfg := cfg) L hu ops
  rw [hd] at k2
  obtain rfl := k2 ha
  have run : ∃ b w', U2f.handleMessage E
      (apdu cla 2 control p2 (authenticateData challenge p.application k.handle) le) d.world =
      (.ok b, w') ∧ succeeded b ≠ none := by
    rw [U2f.handleMessage_authenticate E cla control p2 _ le _ (U2f.authenticateData_ne _ _ _) (by omega)]
    rw [h4]
    rw [U2f.authenticate_made L h2 k1 h3 hc _ h3, if_neg (by simp)]
    have fin : ∀ u : World, ∃ b w', U2f.finishAuthenticate E (E.genEC i) p.application challenge u =
        (.ok b, w') ∧ succeeded b ≠ none := by
      intro u
      obtain ⟨s, g1, -⟩ := L.signEC_verifies (E.genEC i)
        (E.sha256 (p.application ++ [1] ++ be32 u.client.authCounter ++ challenge)) u.rnd
        (L.genEC_valid i)
      obtain ⟨sig, g2, g3⟩ := U2f.finishAuthenticate_succeeds p.application challenge u
        ⟨s, by unfold signECDSA; rw [g1]⟩
      exact ⟨_, _, g3, by rw [U2f.succeeded_append]; exact Option.some_ne_none _⟩
    rcases hagrees with ⟨rfl, hap⟩ | rfl
    · rw [if_neg (by decide), if_pos rfl, if_pos hap]; exact fin _
    · rw [if_neg (by decide), if_neg (by decide), if_pos rfl]; exact fin _
  obtain ⟨b, w', g1, g2⟩ := run
  have hst := step_u2f (E := E) (cfg := cfg) (d := d) ha g1
  obtain ⟨k', g3, -⟩ := C120_login_accepted L hu p ops hd hst g2
    (request_apdu cla 2 control p2 _ le (by omega))
    (authenticateFields_data hc h3 (by intro e; rw [e] at hl; cases hl) (by omega)) ⟨k, hk, rfl⟩ hcount
  exact ⟨b, _, k', hst, g3⟩

/-! ## Concrete cases -/

theorem events_nil (d : Device) : events E cfg d [] = [] := rfl

theorem registerFields_data {challenge application : Bytes} (hc : challenge.length = 32)
    (ha : application.length = 32) :
    registerFields (registerData challenge application) = some (challenge, application) := by
  unfold registerFields registerData
  rw [if_pos (by simp [hc, ha])]
  simp [← hc]

/-- The device of `u2f_history_args` with a party that checks counters: its key after the registration and
after the first login. -/
theorem u2f_party_history : ∃ (E : Env) (cfg : Client.Config) (p : Party) (k : Key)
    (regMsg authMsg b0 b1 b2 : Bytes) (d1 d2 d4 d5 : Device),
    Laws E ∧ Usable E cfg ∧ CanAttest E (boot E cfg).world.client ∧
    Cose.publicOf cfg.certKey = .ok p.anchor ∧ p.checksCounter = true ∧
    (∀ asks a x y, E.approve asks a x y = true) ∧
    regMsg = apdu 0 1 0 0 (registerData (List.replicate 32 1) p.application) none ∧
    authMsg = apdu 0 2 3 0 (authenticateData (List.replicate 32 3) p.application k.handle) none ∧
    request authMsg = some (2, authenticateData (List.replicate 32 3) p.application k.handle) ∧
    authenticateFields (authenticateData (List.replicate 32 3) p.application k.handle) =
      some (List.replicate 32 3, p.application, k.handle) ∧
    step E cfg (boot E cfg) (.u2f regMsg) = (.answer b0, d1) ∧
    step E cfg d1 (.u2f authMsg) = (.answer b1, d2) ∧
    step E cfg d2 .restart = (.started, d4) ∧
    step E cfg d4 (.u2f authMsg) = (.answer b2, d5) ∧ succeeded b2 ≠ none ∧
    register E p [] (List.replicate 32 1) b0 = some k ∧ d2.alive = true ∧
    login E p [k] (List.replicate 32 3) k.handle b1 = some { k with counter := 1 } ∧
    (∀ l, see E p l (.u2f regMsg, .answer b0) =
      l ++ (register E p l (List.replicate 32 1) b0).toList) ∧
    see E p [k] (.u2f authMsg, .answer b1) = [{ k with counter := 1 }] ∧
    login E p [{ k with counter := 1 }] (List.replicate 32 3) k.handle b2 = none := by
  obtain ⟨E, cfg, rest, answer0, answer, answer', answer'', handle, auth, auth', auth'', d1, d2, d3, d4, d5,
    L, hu, hat, hap, hrand, h1, ⟨reg, hp0, hh⟩, hmsg, hn, ha1, h2, h3, ⟨h4, h5⟩, p1, p2, p3, c1, c2, c3⟩ :=
    u2f_history_args
  have hat' := hat
  obtain ⟨issuer, e1, -⟩ := hat'
  have hpub : Cose.publicOf cfg.certKey = .ok { ecdsa := some issuer.pub } := by
    have e1 : cfg.certKey = { ecdsa := some issuer } := e1
    rw [e1]; rfl
  obtain ⟨p, hp⟩ : ∃ p : Party, p = ⟨List.replicate 32 2, { ecdsa := some issuer.pub }, true⟩ := ⟨_, rfl⟩
  have happ : p.application = List.replicate 32 2 := by rw [hp]
  have hck : p.checksCounter = true := by rw [hp]
  have hpan : Cose.publicOf cfg.certKey = .ok p.anchor := by rw [hp]; exact hpub
  clear hp
  rw [← happ] at h1 hmsg
  have hapl : p.application.length = 32 := by rw [happ]; simp
  have hreq0 := request_apdu 0 1 0 0 (registerData (List.replicate 32 1) p.application) none
    (by simp [registerData, hapl])
  have hf0 := registerFields_data (challenge := List.replicate 32 1) (by simp) hapl
  have hnn : DistinctNonces E d1.world.rnd := by
    intro i j hi hj e
    rw [hrand, hrand] at e
    have := congrArg List.head? e
    simp only [List.head?_replicate] at this
    have := congrArg UInt8.toNat (Option.some.inj this)
    rw [UInt8.toNat_ofNat', UInt8.toNat_ofNat'] at this
    omega
  have hs0 : succeeded answer0 ≠ none := by
    intro e
    simp [parseRegistration, e] at hp0
  obtain ⟨k, hk⟩ := C120_registration_accepted L hu hat p hpan [] (d := boot E cfg) rfl h1 hs0 hreq0 hf0 hnn
  have hk : register E p [] (List.replicate 32 1) answer0 = some k := hk
  have hkh : k.handle = handle ∧ k.counter = 0 := by
    have e := hk
    unfold register at e
    simp only [hp0, Option.bind_eq_bind, Option.bind_eq_some_iff, Option.some.injEq] at e
    obtain ⟨_, rfl, _, -, _, -, _, -, e⟩ := e
    split at e
    case isFalse => cases e
    rw [← Option.some.inj e]
    exact ⟨hh, rfl⟩
  obtain ⟨rfl, hk0⟩ := hkh
  have see0 : ∀ l, see E p l (.u2f (apdu 0 1 0 0 (registerData (List.replicate 32 1) p.application) none),
      .answer answer0) = l ++ (register E p l (List.replicate 32 1) answer0).toList := by
    intro l
    simp only [see, hreq0, hf0, if_true]
  have keys1 : keys E p (events E cfg (boot E cfg)
      [.u2f (apdu 0 1 0 0 (registerData (List.replicate 32 1) p.application) none)]) = [k] := by
    simp only [events_cons, h1, events_nil, keys, List.foldl_cons, List.foldl_nil, see0, hk,
      Option.toList_some, List.nil_append]
  have af1 : after E cfg (boot E cfg)
      [.u2f (apdu 0 1 0 0 (registerData (List.replicate 32 1) p.application) none)] = d1 := by
    rw [after_cons, h1]; rfl
  obtain ⟨i, -, a2, a3, a4, -⟩ := madeKeys_reachable L hu p
    [.u2f (apdu 0 1 0 0 (registerData (List.replicate 32 1) p.application) none)] k
    (by rw [keys1]; exact List.mem_singleton.2 rfl)
  have hl := U2f.madeHandle_length L i a2 a3
  rw [← a4] at hl
  have hal := U2f.authenticateData_length (List.replicate 32 3) p.application k.handle (by simp) hapl
  have hreq1 := request_apdu 0 2 3 0 (authenticateData (List.replicate 32 3) p.application k.handle) none
    (by omega)
  have hf1 := authenticateFields_data (challenge := List.replicate 32 3) (handle := k.handle) (by simp) hapl
    (by intro e; rw [e] at hl; cases hl) (by omega)
  rw [hmsg] at h2 h5
  have hs1 : succeeded answer ≠ none := by
    intro e
    simp [parseAuthentication, e] at p1
  have hs2 : succeeded answer'' ≠ none := by
    intro e
    simp [parseAuthentication, e] at p3
  obtain ⟨k1, hk1, -⟩ := C120_login_accepted L hu p _ af1 h2 hs1 hreq1 hf1
    ⟨k, by rw [keys1]; exact List.mem_singleton.2 rfl, rfl⟩
    (fun _ => ⟨settled_of_no_restart _ _ (by
      rw [events_cons]
      intro e he
      obtain rfl := List.mem_singleton.1 he
      exact fun e => nomatch e), by simp [isU2fAuthenticate, apdu]⟩)
  rw [keys1] at hk1
  have hk1' : k1 = { k with counter := 1 } := by
    have e := hk1
    unfold login at e
    simp only [p1, Option.bind_eq_bind, Option.bind_some, List.find?_singleton, beq_self_eq_true, if_true] at e
    split at e
    case isFalse => cases e
    rw [← Option.some.inj e, c1]
  subst hk1'
  obtain ⟨-, al2, -⟩ := u2f_answered h2
  refine ⟨E, cfg, p, k, _, _, answer0, answer, answer'', d1, d2, d4, d5, L, hu, hat, hpan, hck, hap, rfl, rfl,
    hreq1, hf1, h1, h2, h4, h5, hs2, hk, al2, hk1, see0, ?_, ?_⟩
  · simp only [see, hreq1, hf1, if_true, hk1, List.map_cons, List.map_nil]
  · unfold login
    simp [p3, c3, hck]

/-- **Not across every restart.**  A registration, a login and a restart: the next answer with status 0x9000 must be
rejected by a relying party that looks at the counter, for it repeats the counter of the first. -/
theorem C120_restart_refuted : ∃ (E : Env) (cfg : Client.Config) (p : Party) (k : Key)
    (regMsg authMsg data challenge b0 b1 b2 : Bytes),
    Laws E ∧ Usable E cfg ∧ CanAttest E (boot E cfg).world.client ∧
    Cose.publicOf cfg.certKey = .ok p.anchor ∧
    (events E cfg (boot E cfg) [.u2f regMsg, .u2f authMsg, .restart, .u2f authMsg]).map (·.2) =
      [.answer b0, .answer b1, .started, .answer b2] ∧
    keys E p (events E cfg (boot E cfg) [.u2f regMsg, .u2f authMsg, .restart]) = [k] ∧
    request authMsg = some (2, data) ∧
    authenticateFields data = some (challenge, p.application, k.handle) ∧
    succeeded b2 ≠ none ∧ login E p [k] challenge k.handle b2 = none := by
  obtain ⟨E, cfg, p, k, regMsg, authMsg, b0, b1, b2, d1, d2, d4, d5, L, hu, hat, hpan, -, -, -, -, hreq, hf,
    h1, h2, h4, h5, hs, hk, -, -, see0, see1, hno⟩ := u2f_party_history
  refine ⟨E, cfg, p, { k with counter := 1 }, regMsg, authMsg, _, _, b0, b1, b2, L, hu, hat, hpan, ?_, ?_, hreq,
    hf, hs, hno⟩
  · simp only [events_cons, h1, h2, h4, h5, events_nil, List.map_cons, List.map_nil]
  · simp only [events_cons, h1, h2, h4, events_nil, keys, List.foldl_cons, List.foldl_nil, see0, hk,
      Option.toList_some, List.nil_append, see1]
    rfl

theorem disable_done (L : Laws E) {d : Device} (hi : Inv E cfg (fun _ _ => True) d) (ha : d.alive = true) :
    ∃ d', step E cfg d .disablePIN = (.done, d') ∧ d'.alive = true ∧
      d'.world.asks = d.world.asks := by
  obtain ⟨c, h1, -, -, h4⟩ := hi
  obtain rfl := h4 ha
  obtain ⟨blob, hs⟩ := healthy_saves L (c := { d.world.client with pinEnabled := false }) h1 d.world.rnd
  rcases Ctap.saveData_cases E { d.world with client := { d.world.client with pinEnabled := false } } with
    ⟨c, -, hn⟩ | ⟨data, n, -, e⟩
  · exact absurd hs (hn _ _)
  · obtain ⟨w', hw⟩ : ∃ w' : World, w' = { d.world with
        client := { d.world.client with pinEnabled := false }
        store := some data
        rnd := n } := ⟨_, rfl⟩
    refine ⟨⟨w', true⟩, ?_, rfl, by rw [hw]⟩
    have hp : perform E .disablePIN d.world = (do
        Client.update (fun c => { c with pinEnabled := false })
        Client.saveData E
        pure .done : Go World Reply) d.world := rfl
    rw [step_live rfl ha, hp, hw]
    simp only [Client.update, Go.run_bind, Go.run_modify, e]
    rfl

/-- **A concrete case.**  A party that looks at the counter accepts a registration, a login, and, after the
PIN was switched off and the process restarted, another login. -/
theorem C120_case : ∃ (E : Env) (cfg : Client.Config) (p : Party) (k k1 k2 : Key)
    (regMsg authMsg b0 b1 b2 challenge0 challenge : Bytes),
    Laws E ∧ Usable E cfg ∧ CanAttest E (boot E cfg).world.client ∧
    Cose.publicOf cfg.certKey = .ok p.anchor ∧ p.checksCounter = true ∧
    regMsg = apdu 0 1 0 0 (registerData challenge0 p.application) none ∧
    authMsg = apdu 0 2 3 0 (authenticateData challenge p.application k.handle) none ∧
    (events E cfg (boot E cfg)
      [.u2f regMsg, .u2f authMsg, .disablePIN, .restart, .u2f authMsg]).map (·.2) =
      [.answer b0, .answer b1, .done, .started, .answer b2] ∧
    Settled false (events E cfg (boot E cfg) [.u2f regMsg, .u2f authMsg, .disablePIN, .restart]) ∧
    register E p [] challenge0 b0 = some k ∧ login E p [k] challenge k.handle b1 = some k1 ∧
    login E p [k1] challenge k.handle b2 = some k2 := by
  obtain ⟨E, cfg, p, k, regMsg, authMsg, b0, b1, b2, d1, d2, d4, d5, L, hu, hat, hpan, hck, hap, e1, e2, hreq, hf,
    h1, h2, -, -, -, hk, al2, hk1, see0, see1, -⟩ := u2f_party_history
  have af2 : after E cfg (boot E cfg) [.u2f regMsg, .u2f authMsg] = d2 := by
    rw [after_cons, h1, after_cons, h2]; rfl
  obtain ⟨d3, h3, al3, -⟩ := disable_done L (cfg := cfg) (d := d2)
    (by rw [← af2]; exact inv_true_after L _ _ (inv_boot hu trivial)) al2
  have af3 : after E cfg (boot E cfg) [.u2f regMsg, .u2f authMsg, .disablePIN] = d3 := by
    rw [after_cons, h1, after_cons, h2, after_cons, h3]; rfl
  obtain ⟨h4, al4⟩ := C40_restart_succeeds (cfg := cfg) L hu [.u2f regMsg, .u2f authMsg, .disablePIN]
  rw [af3] at h4 al4
  have h4 : step E cfg d3 .restart = (.started, (step E cfg d3 .restart).2) := Prod.ext h4 rfl
  generalize (step E cfg d3 .restart).2 = d4 at h4 al4
  have af4 : after E cfg (boot E cfg) [.u2f regMsg, .u2f authMsg, .disablePIN, .restart] = d4 := by
    rw [after_cons, h1, after_cons, h2, after_cons, h3, after_cons, h4]; rfl
  have ev4 : events E cfg (boot E cfg) [.u2f regMsg, .u2f authMsg, .disablePIN, .restart] =
      [(.u2f regMsg, .answer b0), (.u2f authMsg, .answer b1), (.disablePIN, .done), (.restart, .started)] := by
    simp only [events_cons, h1, h2, h3, h4, events_nil]
  have keys4 : keys E p (events E cfg (boot E cfg)
      [.u2f regMsg, .u2f authMsg, .disablePIN, .restart]) = [{ k with counter := 1 }] := by
    rw [ev4]
    simp only [keys, List.foldl_cons, List.foldl_nil, see0, hk, Option.toList_some, List.nil_append, see1]
    rfl
  have hset : Settled false (events E cfg (boot E cfg)
      [.u2f regMsg, .u2f authMsg, .disablePIN, .restart]) := by
    rw [ev4]
    exact ⟨by simp [saves, counts], trivial⟩
  obtain ⟨b, d', k', h5, hk2⟩ := C120_registered_can_login L hu p _ af4 al4
    (k := { k with counter := 1 }) (by rw [keys4]; exact List.mem_singleton.2 rfl) 0 3 0 none
    (List.replicate 32 3) (by simp) (.inl ⟨rfl, hap _ _ _ _⟩)
    (fun _ => ⟨hset, by rw [e1, e2]; simp [isU2fAuthenticate, apdu]⟩)
  rw [keys4] at hk2
  refine ⟨E, cfg, p, k, _, k', regMsg, authMsg, b0, b1, b, _, _, L, hu, hat, hpan, hck, e1, e2, ?_, hset, hk, hk1,
    hk2⟩
  rw [← e2] at h5
  simp only [events_cons, h1, h2, h3, h4, h5, events_nil, List.map_cons, List.map_nil]

end VF.Props
