import Verif.Spec.U2fParty
import Verif.Proofs.U2fStatus
import Verif.Proofs.RelyingParty

/-!
# U2F relying parties and the device
-/

namespace VF.Fido.Device

open VF.Spec.Client VF.Spec.History VF.Spec.U2f VF.Spec.U2fParty
open VF.Spec.U2fStatus (Frame upTo)
open Client

variable {E : Env} {cfg : Config}

/-! ## Requests -/

/-- A request a party can read is read by the device in the same way. -/
theorem request_read {m data : Bytes} {ins : UInt8} (h : request m = some (ins, data)) (hd : data ≠ [])
    {x : U2f.Header × Bytes × UInt16} (hm : U2f.decodeMessage m = .ok x) :
    x.1.command = ins ∧ x.2.1 = data := by
  unfold request at h
  split at h
  case h_2 => cases h
  rename_i cla ins' p1 p2 a b body
  split at h
  case isFalse => cases h
  rename_i hl
  simp only [Option.some.injEq, Prod.mk.injEq] at h
  obtain ⟨rfl, rfl⟩ := h
  rcases U2f.decodeMessage_frame (cla :: ins' :: p1 :: p2 :: 0 :: a :: b :: body) with
    ⟨header, data', n, e, f, -⟩ | ⟨c, e, -⟩
  · rw [e] at hm
    obtain rfl := Res.ok.inj hm
    dsimp only
    generalize hc : header.command = c at *
    generalize header.param1 = p at *
    cases f with
    | answerLength => exact absurd (by simp) hd
    | data hb hr =>
      refine ⟨rfl, ?_⟩
      simp [upTo, Nat.sub_eq_zero_of_le hl]
  · rw [e] at hm; cases hm

theorem request_shape {m data : Bytes} {ins : UInt8} (h : request m = some (ins, data)) :
    ∃ cla p1 p2 rest, m = cla :: ins :: p1 :: p2 :: rest := by
  unfold request at h
  split at h
  case h_2 => cases h
  split at h
  case isFalse => cases h
  simp only [Option.some.injEq, Prod.mk.injEq] at h
  obtain ⟨rfl, -⟩ := h
  exact ⟨_, _, _, _, rfl⟩

theorem authenticateFields_read {data challenge application handle : Bytes}
    (h : authenticateFields data = some (challenge, application, handle)) :
    challenge.length = 32 ∧ application.length = 32 ∧ handle ≠ [] ∧ handle.length ≤ 255 ∧
    data = authenticateData challenge application handle := by
  unfold authenticateFields at h
  split at h
  case h_2 => cases h
  rename_i len handle' e
  split at h
  case isFalse => cases h
  rename_i hl
  simp only [Option.some.injEq, Prod.mk.injEq] at h
  obtain ⟨rfl, rfl, rfl⟩ := h
  have hlen : 64 < data.length := by
    have := congrArg List.length e
    simp only [List.length_drop, List.length_cons] at this
    omega
  have h8 := len.toNat_lt
  refine ⟨by rw [List.length_take]; omega, by rw [List.length_take, List.length_drop]; omega, hl.2, by omega, ?_⟩
  unfold authenticateData
  rw [hl.1, show UInt8.ofNat len.toNat = len from UInt8.ofNat_toNat]
  rw [List.append_assoc, List.append_assoc, List.singleton_append, ← e,
    show data.drop 64 = (data.drop 32).drop 32 by rw [List.drop_drop], List.take_append_drop,
    List.take_append_drop]

theorem u2f_answered {d d' : Device} {m b : Bytes} (h : step E cfg d (.u2f m) = (.answer b, d')) :
    d.alive = true ∧ d'.alive = true ∧ U2f.handleMessage E m d.world = (.ok b, d'.world) := by
  have halive : d.alive = true := by
    cases hal : d.alive with
    | true => rfl
    | false => rw [step_dead rfl hal] at h; cases h
  rw [step_live rfl halive, perform_u2f'] at h
  cases hr : (U2f.handleMessage E m d.world).1 with
  | panic c => rw [hr] at h; cases h
  | ok x =>
    rw [hr] at h
    simp only [outcome, Prod.mk.injEq, Reply.answer.injEq] at h
    obtain ⟨rfl, rfl⟩ := h
    exact ⟨halive, rfl, by rw [← hr]⟩

/-! ## What a party makes of the answers -/

/-- Of a registration that succeeded. -/
theorem u2f_register_eq (L : Laws E) {m data b challenge application : Bytes} {w w' : World}
    (h : U2f.handleMessage E m w = (.ok b, w')) (hr : request m = some (1, data))
    (hf : registerFields data = some (challenge, application)) (hp : succeeded b ≠ none) :
    ∃ cert, application.length = 32 ∧ aesKeyOk w.client.deviceKey = true ∧ w'.rnd = w.rnd + 4 ∧
      Cose.createAttestationCert E w.client.cert w.client.certKey { ecdsa := some (E.genEC w.rnd) }
        (w.rnd + 1 + 1) = .ok (some cert) ∧
      (parseRegistration b).map (·.certificate) = some cert ∧
      ∀ (p : Party) (known : List Key), application = p.application →
        register E p known challenge b =
          if E.certSignedBy cert p.anchor = true ∧ known.all (fun k => k.handle !=
            U2f.madeHandle E w.client.deviceKey application w.rnd) = true
          then some ⟨U2f.madeHandle E w.client.deviceKey application w.rnd, (E.genEC w.rnd).pub.x,
            (E.genEC w.rnd).pub.y, 0⟩ else none := by
  obtain ⟨cla, p1, p2, rest, rfl⟩ := request_shape hr
  unfold registerFields at hf
  split at hf
  case isFalse => cases hf
  rename_i hl
  simp only [Option.some.injEq, Prod.mk.injEq] at hf
  obtain ⟨rfl, rfl⟩ := hf
  rcases U2f.handleMessage_cases_register E cla p1 p2 rest w with ⟨c, e⟩ | ⟨data', n, e1, e2⟩
  · rw [e] at h; cases h
  obtain ⟨-, e3⟩ := request_read hr (by rintro rfl; simp at hl) e1
  dsimp only at e3
  subst e3
  rw [e2] at h
  obtain ⟨-, hk, ⟨-, rfl, -⟩ | ⟨-, hw, cert, sig, q1, q2, q3, q4⟩⟩ := U2f.register_spec_cert L h
  · exact absurd (by decide) hp
  obtain ⟨bp, bx, bY, -⟩ := Vault.ecValid_bounds L (L.genEC_valid w.rnd)
  refine ⟨cert, by simp [hl], hk, by rw [hw], q2, by rw [q1]; rfl, ?_⟩
  intro p known happ
  unfold register
  simp only [q1, Option.bind_eq_bind, Option.bind_some, U2f.parsePoint_marshal bx bY, q3, ← happ, q4, true_and]

/-- Of an authentication that succeeded, with a handle made by the device. -/
theorem u2f_login_eq (L : Laws E) {m data b challenge application handle : Bytes} {w w' : World}
    {auth : Authentication} (h : U2f.handleMessage E m w = (.ok b, w')) (hr : request m = some (2, data))
    (hf : authenticateFields data = some (challenge, application, handle))
    (hp : parseAuthentication b = some auth) {n : Nat} (hk : aesKeyOk w.client.deviceKey = true)
    (hm : handle = U2f.madeHandle E w.client.deviceKey application n) :
    auth.userPresence = 1 ∧ auth.counter = w.client.authCounter.toNat ∧
    w'.client.authCounter = w.client.authCounter + 1 ∧
    E.verifyEC (E.genEC n).pub
      (E.sha256 (application ++ [auth.userPresence] ++ auth.counterBytes ++ challenge)) auth.signature = true := by
  obtain ⟨cla, p1, p2, rest, rfl⟩ := request_shape hr
  obtain ⟨hc, ha, h0, h1, rfl⟩ := authenticateFields_read hf
  rcases U2f.handleMessage_cases_authenticate E cla p1 p2 rest w with ⟨c, e⟩ | ⟨data', n', e1, e2⟩
  · rw [e] at h; cases h
  obtain ⟨-, e3⟩ := request_read hr (U2f.authenticateData_ne _ _ _) e1
  dsimp only at e3
  subst e3
  rw [e2] at h
  obtain ⟨c', a', k', key, asks, sig, q1, q2, q3, q4, q5, q6⟩ := U2f.authenticate_spec h hp
  rw [U2f.decodeAuthenticate_data challenge application handle hc ha h0 h1] at q1
  simp only [Res.ok.injEq, Prod.mk.injEq] at q1
  obtain ⟨rfl, rfl, rfl⟩ := q1
  obtain rfl : E.genEC n = key := by
    obtain ⟨b1, p1, d1, g1, g2, g3, g4⟩ := U2f.madeHandle_sealed L n hk ha
    obtain ⟨b2, p2, d2, k1, k2, k3, k4⟩ := q2
    rw [hm, g1] at k1
    obtain rfl := Option.some.inj k1
    rw [g2] at k2
    obtain rfl := Option.some.inj k2
    rw [g3] at k3
    simp only [Option.some.injEq, KeyHandle.mk.injEq, and_true] at k3
    subst k3
    rw [g4] at k4
    exact Option.some.inj k4
  rw [q6]
  exact ⟨rfl, rfl, by rw [q4], (Ctap.signECDSA_ok L (L.genEC_valid n) q5).1⟩

/-- An authentication that succeeded can be parsed. -/
theorem u2f_login_parses {m data b challenge application handle : Bytes} {w w' : World}
    (h : U2f.handleMessage E m w = (.ok b, w')) (hr : request m = some (2, data))
    (hf : authenticateFields data = some (challenge, application, handle)) (hs : succeeded b ≠ none) :
    ∃ auth, parseAuthentication b = some auth := by
  obtain ⟨cla, p1, p2, rest, rfl⟩ := request_shape hr
  rcases U2f.handleMessage_cases_authenticate E cla p1 p2 rest w with ⟨c, e⟩ | ⟨data', n', e1, e2⟩
  · rw [e] at h; cases h
  rw [e2] at h
  have hc := U2f.handleAuthenticate_cases E p1 data' w
  rw [h] at hc
  dsimp only at hc
  cases hc with
  | nothing hw hr => exact absurd (U2f.succeeded_error (hr _ rfl)) hs
  | refused challenge application handle key hd hk hc ha hr hw =>
    obtain rfl := Res.ok.inj hr
    exact absurd (U2f.succeeded_error (.inr (.inl rfl))) hs
  | signed challenge application handle key asks hd hk hc hw hr =>
    rcases hr with ⟨c, hr⟩ | ⟨sig, hs, hr⟩
    · cases hr
    · obtain rfl := Res.ok.inj hr
      exact ⟨_, U2f.parseAuthentication_answer _ _⟩

/-- Handles made with different nonces are different. -/
theorem madeHandle_inj (L : Laws E) {deviceKey application : Bytes} {i j : Nat}
    (hk : aesKeyOk deviceKey = true) (ha : application.length = 32)
    (h : U2f.madeHandle E deviceKey application i = U2f.madeHandle E deviceKey application j) :
    E.rand (i + 1) 12 = E.rand (j + 1) 12 := by
  have box : ∀ n, ∃ data, E.decodeBox (U2f.madeHandle E deviceKey application n) =
      some ⟨data, E.rand (n + 1) 12⟩ := by
    intro n
    have h1 := U2f.keyHandle_length (U2f.ecToDER_length L (L.genEC_valid n)) ha
    have h2 := L.gcm_length deviceKey (E.rand (n + 1) 12)
      (Cbor.encode (U2f.keyHandleItem
        { privateKey := some (ecToDER (E.genEC n)), applicationID := application })) hk
      (L.rand_length _ _)
    rw [h1] at h2
    unfold U2f.madeHandle
    rw [L.decode_box _ (by unfold Short; dsimp only; omega)
      (by unfold Short; dsimp only; rw [L.rand_length]; omega)]
    exact ⟨_, rfl⟩
  obtain ⟨x, h1⟩ := box i
  obtain ⟨y, h2⟩ := box j
  rw [h, h2] at h1
  exact (Box.mk.inj (Option.some.inj h1)).2.symm

/-- What a party makes of one request and its reply. -/
theorem u2f_see_cases (E : Env) (p : Party) (l : List Key) (op : Op) (reply : Reply) :
    see E p l (op, reply) = l ∨
    (∃ m b data challenge k, op = .u2f m ∧ reply = .answer b ∧ request m = some (1, data) ∧
      registerFields data = some (challenge, p.application) ∧ register E p l challenge b = some k ∧
      see E p l (op, reply) = l ++ [k]) ∨
    (∃ m b data challenge handle k, op = .u2f m ∧ reply = .answer b ∧ request m = some (2, data) ∧
      authenticateFields data = some (challenge, p.application, handle) ∧
      login E p l challenge handle b = some k ∧
      see E p l (op, reply) = l.map (fun o => if o.handle = k.handle then k else o)) := by
  unfold see
  split
  case h_2 => exact .inl rfl
  rename_i m b heq
  simp only [Prod.mk.injEq] at heq
  obtain ⟨rfl, rfl⟩ := heq
  split
  · rename_i data hreq
    split
    case h_2 => exact .inl rfl
    rename_i challenge application hf
    by_cases ha : application = p.application
    · subst ha
      rw [if_pos rfl]
      cases hr : register E p l challenge b with
      | none => exact .inl (by simp)
      | some k => exact .inr (.inl ⟨m, b, data, challenge, k, rfl, rfl, hreq, hf, hr, rfl⟩)
    · rw [if_neg ha]; exact .inl rfl
  · rename_i data hreq
    split
    case h_2 => exact .inl rfl
    rename_i challenge application handle hf
    by_cases ha : application = p.application
    · subst ha
      rw [if_pos rfl]
      cases hr : login E p l challenge handle b with
      | none => exact .inl rfl
      | some k => exact .inr (.inr ⟨m, b, data, challenge, handle, k, rfl, rfl, hreq, hf, hr, rfl⟩)
    · rw [if_neg ha]; exact .inl rfl
  · exact .inl rfl

/-! ## The counter in memory and in what is saved -/

/-- The counter in memory is at least `lo`, and so is that in what is saved unless something is pending. -/
def Floor (E : Env) (cfg : Config) (lo : Nat) (pending : Bool) (d : Device) : Prop :=
  (d.alive = true → lo ≤ d.world.client.authCounter.toNat) ∧
  (pending = false → ∀ rnd c, start E cfg d.world.store rnd = .ok c → lo ≤ c.authCounter.toNat)

theorem floor_boot : Floor E cfg 1 false (boot E cfg) := by
  refine ⟨fun _ => Nat.le_refl 1, ?_⟩
  intro _ rnd c hc
  obtain rfl := Res.ok.inj hc
  exact Nat.le_refl 1

theorem floor_pending {lo : Nat} {pending : Bool} {d : Device} (h : Floor E cfg lo pending d) :
    Floor E cfg lo true d := ⟨h.1, nofun⟩

theorem floor_step (L : Laws E) {lo k : Nat} {pending : Bool} {d : Device} (op : Op)
    (hi : Inv E cfg (fun _ _ => True) d) (hb : AuthBound E cfg k d) (hk : k + 1 + 1 < 4294967296)
    (hr' : op = .restart → pending = false) (h : Floor E cfg lo pending d) :
    Floor E cfg lo pending (step E cfg d op).2 := by
  obtain ⟨c, h1, h2, -, h4⟩ := hi
  cases hr : isRestart op with
  | true =>
    cases op with
    | restart =>
      obtain ⟨c', s1, -⟩ := h2 d.world.rnd
      have e : step E cfg d .restart =
          (.started, ⟨{ d.world with client := c', rnd := d.world.rnd + 2 }, true⟩) := by
        simp only [step, s1]
      rw [e]
      exact ⟨fun _ => h.2 (hr' rfl) _ _ s1, h.2⟩
    | _ => cases hr
  | false =>
    cases ha : d.alive with
    | false => rw [step_dead hr ha]; exact h
    | true =>
      obtain rfl := h4 ha
      have e := step_live (E := E) (cfg := cfg) hr ha
      obtain ⟨o1, o2⟩ := perform_out L op d.world
      have ew : (step E cfg d op).2.world = (perform E op d.world).2 := by
        rw [e]
        cases (perform E op d.world).1 <;> rfl
      have hcount : lo ≤ (perform E op d.world).2.client.authCounter.toNat := by
        have h0 := h.1 ha
        have h3 := hb.1 ha
        rcases perform_counter E op d.world with q | ⟨q1, q⟩
        · rw [q]; exact h0
        · rw [q]
          have := counter_succ (c := d.world.client.authCounter) (by omega)
          omega
      unfold Floor
      rw [ew]
      refine ⟨fun _ => hcount, ?_⟩
      intro hpe rnd c hc
      cases o2 with
      | kept hs _ => rw [hs] at hc; exact h.2 hpe rnd c hc
      | saved blob m n hs hv hh hch =>
        rw [hs] at hc
        obtain ⟨-, c', q1, -, -, q2, -⟩ := saves_restore L (hh h1) hv cfg rnd
        rw [q1] at hc
        obtain rfl := Res.ok.inj hc
        rw [q2]
        exact hcount
      | lost c' _ hs => rw [hs] at hc; exact h.2 hpe rnd c hc

theorem settled_of_saves (L : Laws E) {d : Device} (hi : Inv E cfg (fun _ _ => True) d) (ha : d.alive = true)
    {blob : Bytes} {m n : Nat} (hs : d.world.store = some blob)
    (hv : Ctap.Saves E d.world.client m blob n) :
    d.alive = true ∧ ∀ rnd c, start E cfg d.world.store rnd = .ok c →
      c.authCounter = d.world.client.authCounter := by
  obtain ⟨c0, h1, -, -, h4⟩ := hi
  obtain rfl := h4 ha
  refine ⟨ha, ?_⟩
  intro rnd c hc
  rw [hs] at hc
  obtain ⟨-, c', q1, -, -, q2, -⟩ := saves_restore L h1 hv cfg rnd
  rw [q1] at hc
  obtain rfl := Res.ok.inj hc
  exact q2

theorem settled_of_api (L : Laws E) {d d' : Device} {op : Op} (f : Client → Client)
    (hr : isRestart op = false)
    (hp : perform E op d.world = (do update f; saveData E; pure .done : Go World Reply) d.world)
    (h : step E cfg d op = (.done, d')) (hi : Inv E cfg (fun _ _ => True) d') :
    d'.alive = true ∧ ∀ rnd c, start E cfg d'.world.store rnd = .ok c →
      c.authCounter = d'.world.client.authCounter := by
  have ha : d.alive = true := by
    cases ha : d.alive with
    | true => rfl
    | false => rw [step_dead hr ha] at h; cases h
  rw [step_live hr ha, hp] at h
  simp only [update, Go.run_bind, Go.run_modify] at h
  rcases Ctap.saveData_cases E { d.world with client := f d.world.client } with
    ⟨c, e, -⟩ | ⟨data, n, hs, e⟩
  · dsimp only at e; rw [e] at h; cases h
  · dsimp only at e
    rw [e] at h
    obtain rfl := (Prod.mk.inj h).2
    exact settled_of_saves L hi rfl rfl hs

/-- After `saves` the counter saved is that in memory. -/
theorem saves_settles (L : Laws E) {d d' : Device} {op : Op} {reply : Reply}
    (hst : step E cfg d op = (reply, d'))
    (hi : Inv E cfg (fun _ _ => True) d') (h : saves (op, reply) = true) :
    d'.alive = true ∧ ∀ rnd c, start E cfg d'.world.store rnd = .ok c →
      c.authCounter = d'.world.client.authCounter := by
  unfold saves at h
  split at h
  · rename_i data body heq
    simp only [Prod.mk.injEq] at heq
    obtain ⟨rfl, rfl⟩ := heq
    obtain ⟨-, a2, hm⟩ := ctap_answered hst
    obtain ⟨_, _, _, blob, n, _, _, _, _, _, _, _, _, -, -, -, -, -, -, -, q1, q2, -⟩ := Ctap.creation_spec L hm
    exact settled_of_saves L hi a2 q2 q1
  · rename_i data body heq
    simp only [Prod.mk.injEq] at heq
    obtain ⟨rfl, rfl⟩ := heq
    obtain ⟨-, a2, hm⟩ := ctap_answered hst
    have hc := Ctap.handleGetAssertion_cases E data d.world
    rw [Ctap.handleMessage_get] at hm
    rw [hm] at hc
    dsimp only at hc
    cases hc with
    | nothing hw hr =>
      obtain ⟨e, he, -, hb⟩ := hr _ rfl
      exact absurd (List.cons.inj hb).1.symm he
    | none args flags hd hp hm hw hr => simp at hr
    | unsaved args flags i s hd hp hi hn c hr hw => simp at hr
    | refused args flags i s rp user blob n hd hp hi hn hup hrp hu ha hr hw => simp at hr
    | saved args flags flags' i s rp user blob n asks hd hp hi' hn hrp hu hq hw hr =>
      exact settled_of_saves L hi a2 (by rw [hw]) (by rw [hw]; exact hn)
  · rename_i heq
    simp only [Prod.mk.injEq] at heq
    obtain ⟨rfl, rfl⟩ := heq
    exact settled_of_api L (fun c => { c with pinEnabled := true }) rfl rfl hst hi
  · rename_i heq
    simp only [Prod.mk.injEq] at heq
    obtain ⟨rfl, rfl⟩ := heq
    exact settled_of_api L (fun c => { c with pinEnabled := false }) rfl rfl hst hi
  · rename_i pin heq
    simp only [Prod.mk.injEq] at heq
    obtain ⟨rfl, rfl⟩ := heq
    exact settled_of_api L (fun c => { c with pinHash := some ((E.sha256 pin).take 16) }) rfl rfl hst hi
  · cases h

/-! ## The keys a party keeps -/

/-- The keys are those of handles the device has made for the party. -/
def MadeKeys (E : Env) (cfg : Config) (p : Party) (l : List Key) (n : Nat) : Prop :=
  ∀ r ∈ l, ∃ i, i + 1 < n ∧ aesKeyOk cfg.deviceKey = true ∧ p.application.length = 32 ∧
    r.handle = U2f.madeHandle E cfg.deviceKey p.application i ∧ r.pub = (E.genEC i).pub

theorem ecPub_eta (L : Laws E) (n : Nat) :
    ({ p256 := true, x := (E.genEC n).pub.x, y := (E.genEC n).pub.y } : ECPub) = (E.genEC n).pub := by
  obtain ⟨bp, -⟩ := Vault.ecValid_bounds L (L.genEC_valid n)
  rw [← bp]

theorem madeKeys_step (L : Laws E) (p : Party) {l : List Key} {d : Device} (op : Op) (hk : Keeps E cfg d)
    (h : MadeKeys E cfg p l d.world.rnd) :
    MadeKeys E cfg p (see E p l (op, (step E cfg d op).1)) (step E cfg d op).2.world.rnd := by
  have hn : d.world.rnd ≤ (step E cfg d op).2.world.rnd := by
    have := after_rnd (cfg := cfg) L d [op]
    rwa [after_cons] at this
  have old : MadeKeys E cfg p l (step E cfg d op).2.world.rnd := by
    intro r hr
    obtain ⟨i, h1, h2⟩ := h r hr
    exact ⟨i, by omega, h2⟩
  rcases u2f_see_cases E p l op (step E cfg d op).1 with e | ⟨m, b, data, challenge, k, rfl, e1, e2, e3, e4, e⟩ |
    ⟨m, b, data, challenge, handle, k, rfl, e1, e2, e3, e4, e⟩
  · rw [e]; exact old
  · rw [e]
    obtain ⟨a1, a2, hm⟩ := u2f_answered (E := E) (cfg := cfg) (d := d) (d' := (step E cfg d (.u2f m)).2)
      (Prod.ext e1 rfl)
    intro r hr
    rcases List.mem_append.1 hr with hr | hr
    · exact old r hr
    obtain rfl := List.mem_singleton.1 hr
    have hp : succeeded b ≠ none := by
      intro hn
      simp [register, parseRegistration, hn] at e4
    obtain ⟨cert, q1, q2, q3, -, -, q5⟩ := u2f_register_eq L hm e2 e3 hp
    rw [q5 p l rfl] at e4
    split at e4
    case isFalse => cases e4
    obtain ⟨c, -, -, ⟨k1, -⟩, k2⟩ := hk
    obtain rfl := k2 a1
    rw [k1] at e4 q2
    obtain rfl := Option.some.inj e4
    exact ⟨d.world.rnd, by omega, q2, q1, rfl, ecPub_eta L _⟩
  · rw [e]
    intro r hr
    obtain ⟨o, ho, rfl⟩ := List.mem_map.1 hr
    split
    · rename_i hh
      unfold login at e4
      cases hp : parseAuthentication b with
      | none => rw [hp] at e4; cases e4
      | some auth =>
        cases hf : l.find? (fun k => k.handle == handle) with
        | none => rw [hp, hf] at e4; cases e4
        | some x =>
          rw [hp, hf] at e4
          simp only [Option.bind_eq_bind, Option.bind_some] at e4
          split at e4
          case isFalse => cases e4
          obtain rfl := Option.some.inj e4
          exact old x (List.mem_of_find?_eq_some hf)
    · exact old o ho

theorem madeKeys_after (L : Laws E) (p : Party) : ∀ (ops : List Op) (l : List Key) (d : Device),
    Keeps E cfg d → MadeKeys E cfg p l d.world.rnd →
    MadeKeys E cfg p ((events E cfg d ops).foldl (see E p) l) (after E cfg d ops).world.rnd
  | [], _, _, _, h => h
  | op :: ops, l, d, hk, h => by
    rw [after_cons, events_cons, List.foldl_cons]
    exact madeKeys_after L p ops _ _ (keeps_step L hk) (madeKeys_step L p op hk h)

theorem madeKeys_reachable (L : Laws E) (hu : Usable E cfg) (p : Party) (ops : List Op) :
    MadeKeys E cfg p (keys E p (events E cfg (boot E cfg) ops)) (after E cfg (boot E cfg) ops).world.rnd :=
  madeKeys_after L p ops [] (boot E cfg) (keeps_reachable L hu []) (by intro r hr; cases hr)

/-- A party's counters are below the device's. -/
def Floors (E : Env) (cfg : Config) (l : List Key) (pending : Bool) (d : Device) : Prop :=
  ∀ r ∈ l, Floor E cfg (r.counter + 1) pending d

theorem floor_event (L : Laws E) {lo k : Nat} {pending : Bool} {d : Device} (op : Op)
    (hi : Inv E cfg (fun _ _ => True) d) (hb : AuthBound E cfg k d) (hk : k + 1 + 1 < 4294967296)
    (hr : op = .restart → pending = false) (h : Floor E cfg lo pending d) :
    Floor E cfg lo (counts (op, (step E cfg d op).1) || (pending && !saves (op, (step E cfg d op).1)))
      (step E cfg d op).2 := by
  have h1 := floor_step L op hi hb hk hr h
  cases hc : counts (op, (step E cfg d op).1) with
  | true => exact floor_pending h1
  | false =>
    cases hp : pending with
    | false => rw [hp] at h1; exact h1
    | true =>
      cases hs : saves (op, (step E cfg d op).1) with
      | false => rw [hp] at h1; exact h1
      | true =>
        obtain ⟨a, b⟩ := saves_settles L (d := d) (op := op) rfl (inv_true_after L [op] d hi) hs
        exact ⟨h1.1, fun _ rnd c hc => by rw [b rnd c hc]; exact h1.1 a⟩

theorem floors_step (L : Laws E) (p : Party) {l : List Key} {k : Nat} {pending : Bool} {d : Device} (op : Op)
    (hi : Inv E cfg (fun _ _ => True) d) (hb : AuthBound E cfg k d) (hk : k + 1 + 1 < 4294967296)
    (hr : op = .restart → pending = false) (h1 : Floor E cfg 1 false d) (h : Floors E cfg l pending d) :
    Floors E cfg (see E p l (op, (step E cfg d op).1))
      (counts (op, (step E cfg d op).1) || (pending && !saves (op, (step E cfg d op).1)))
      (step E cfg d op).2 := by
  have old : Floors E cfg l _ _ := fun r hr' => floor_event L op hi hb hk hr (h r hr')
  rcases u2f_see_cases E p l op (step E cfg d op).1 with e | ⟨m, b, data, challenge, x, rfl, e1, e2, e3, e4, e⟩ |
    ⟨m, b, data, challenge, handle, x, rfl, e1, e2, e3, e4, e⟩
  · rw [e]; exact old
  · rw [e]
    intro r hr'
    rcases List.mem_append.1 hr' with hr' | hr'
    · exact old r hr'
    obtain rfl := List.mem_singleton.1 hr'
    have hx : r.counter = 0 := by
      unfold register at e4
      simp only [Option.bind_eq_bind, Option.bind_eq_some_iff] at e4
      obtain ⟨_, -, _, -, _, -, _, -, e4⟩ := e4
      split at e4
      case isFalse => cases e4
      rw [← Option.some.inj e4]
    rw [hx]
    have := floor_step L (.u2f m) hi hb hk nofun h1
    exact ⟨this.1, fun _ => this.2 rfl⟩
  · rw [e]
    obtain ⟨cla, p1, p2, rest, rfl⟩ := request_shape e2
    have hst : step E cfg d (.u2f (cla :: 2 :: p1 :: p2 :: rest)) =
        (.answer b, (step E cfg d (.u2f (cla :: 2 :: p1 :: p2 :: rest))).2) := Prod.ext e1 rfl
    obtain ⟨a1, a2, hm⟩ := u2f_answered hst
    intro r hr'
    obtain ⟨o, ho, rfl⟩ := List.mem_map.1 hr'
    split
    case isFalse => exact old o ho
    unfold login at e4
    simp only [Option.bind_eq_bind, Option.bind_eq_some_iff] at e4
    obtain ⟨auth, hp, y, -, e4⟩ := e4
    split at e4
    case isFalse => cases e4
    obtain ⟨q1, q2⟩ := u2f_step a1 hst hp
    have hx : x.counter = auth.counter := by rw [← Option.some.inj e4]
    have hc : counts (.u2f (cla :: 2 :: p1 :: p2 :: rest), .answer b) = true := by
      simp [counts, hp]
    rw [e1, hc]
    refine ⟨fun _ => ?_, nofun⟩
    have h3 := hb.1 a1
    have := counter_succ (c := d.world.client.authCounter) (by omega)
    rw [hx, q1, q2]
    omega

theorem floors_after (L : Laws E) (p : Party) : ∀ (ops : List Op) (l : List Key) (k : Nat) (pending : Bool)
    (d : Device), Inv E cfg (fun _ _ => True) d → AuthBound E cfg k d →
    k + ops.countP isU2fAuthenticate + 2 < 4294967296 → Settled pending (events E cfg d ops) →
    Floor E cfg 1 false d → Floors E cfg l pending d →
    ∃ pending', Floors E cfg ((events E cfg d ops).foldl (see E p) l) pending' (after E cfg d ops)
  | [], _, _, pending, _, _, _, _, _, _, h => ⟨pending, h⟩
  | op :: ops, l, k, pending, d, hi, hb, hk, hs, h1, h => by
    rw [events_cons] at hs
    rw [List.countP_cons] at hk
    rw [after_cons, events_cons, List.foldl_cons]
    have hr : op = .restart → pending = false := by
      rintro rfl
      exact hs.1
    have hs' : Settled (counts (op, (step E cfg d op).1) ||
        (pending && !saves (op, (step E cfg d op).1))) (events E cfg (step E cfg d op).2 ops) := by
      cases op with
      | restart =>
        have := hs.1
        rw [this]
        exact hs.2
      | _ => exact hs
    exact floors_after L p ops _ _ _ _ (inv_true_after L [op] d hi) (authBound_step L op hi hb)
      (by split at hk <;> simp_all <;> omega) hs' (floor_step L op hi hb (by omega) (fun _ => rfl) h1)
      (floors_step L p op hi hb (by omega) hr h1 h)

end VF.Fido.Device
