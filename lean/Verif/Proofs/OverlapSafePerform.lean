import Verif.Proofs.OverlapSafeHandlers

/-!
# Interleaved requests keep to the rules and are answered faithfully
-/

namespace VF.Fido.Overlap

open VF.Spec.Client VF.Spec.Vault VF.Spec.Cose VF.Spec.Ctap VF.Spec.U2f VF.Spec.Overlap VF.Spec.Approval
open Prog
open Ctap (success errInvalidCommand errInvalidParameter errInvalidCBOR errMissingParam
  errUnsupportedAlgorithm errOperationDenied errNoCredentials errPINInvalid errPINBlocked
  errPINAuthInvalid errPINRequired errPINPolicyViolation flagUP flagUV derivePINAuth)

variable {E : Env} {cfg : Client.Config} {keep own may : Bool} {α β : Type} {q : Option Ask} {m : Mem}
  {R : Option Ask → β → Mem → Prop}

/-! ### MakeCredential -/

/-- With the PIN on and set when the request began, and not turned off meanwhile, the request had the right
`pinAuth`. -/
def Gate (E : Env) (keep : Bool) (m0 : Mem) (data : Bytes) : Prop :=
  keep = true → m0.world.client.pinEnabled = true → m0.world.client.pinHash ≠ none →
    ∃ args, E.decodeMakeCred data = some args ∧
      PinAuthOk E m0.world.client args.clientDataHash args.pinAuth args.pinProtocol

def MakePost (E : Env) (keep : Bool) (m0 : Mem) (data : Bytes) (q : Option Ask) (r : Bytes) (m : Mem) :
    Prop :=
  (∃ e, e ≠ 0 ∧ r = [e]) ∨ (Created E data r q m ∧ Gate E keep m0 data)

theorem attest_safe (L : Laws E) (hko : keep = true → own = true) {m0 : Mem} {data : Bytes}
    {args : MakeCredArgs} {rp : RPEntity} {flags : UInt8} {p : Nat}
    (hd : E.decodeMakeCred data = some args) (hrp : args.rp = some rp)
    (hp : Points E m p (fun s => s.rp = args.rp ∧ s.user = args.user))
    (hfl : flags = 0 ∨ flags = 4)
    (huv : flags = 4 → PinAuthOk E m.world.client args.clientDataHash args.pinAuth args.pinProtocol)
    (hgate : Gate E keep m0 data) :
    Safe E cfg keep own may (MakePost E keep m0 data) (some ⟨.makeCredential, rp.name, [], true⟩)
      (attest E args rp flags p) m := by
  unfold attest
  refine Safe.deref_bind ?_
  intro m1 s r1 g1 hs
  obtain ⟨s', k, e1, hk, hv, hid, hs1, hs2⟩ := hp.later r1 (fun s n h => h)
  rw [hs] at e1
  obtain rfl := Option.some.inj e1
  refine Safe.lift_bind ?_
  intro attested ha
  refine createCertificate_safe hko ?_
  intro cert ca issuer n m2 r2 g2 hcert
  refine signWith_safe hko ?_
  intro sig n' m3 r3 g3 hsig
  obtain ⟨c, hc⟩ := (r2.trans r3).heap p s hs
  obtain ⟨authData, ad, at', xb, yb, e, q1, q2, q3, q4, q5, -, -, -, q6, -, q7, q8, q9, q10, q11⟩ :=
    Ctap.creation_answer L hk hv hid hfl ha hcert hsig
  subst e
  rw [hk] at hcert
  refine .inr ⟨⟨args, rp, _, k, _, sig, cert, ad, at', xb, yb, hd, hrp, List.mem_of_getElem? hc, hk,
    hs1.trans hrp, hs2, q1, q2, q3, q4, ?_, q6, q7, q8, q9, q10, q11,
    (U2f.attestation_sound L hcert).1, rfl⟩, hgate⟩
  intro hu
  rw [pinAuthOk_later (r1.trans (r2.trans r3))]
  exact huv (q5.1 hu)

theorem handleMakeCredential_safe (L : Laws E) (hko : keep = true → own = true) (hmay : may = true)
    (data : Bytes) :
    Safe E cfg keep own may (MakePost E keep m data) none (handleMakeCredential E data) m := by
  unfold handleMakeCredential
  cases hd : E.decodeMakeCred data with
  | none => exact Safe.fail
  | some args =>
    dsimp only
    split
    · exact Safe.pure (.inl ⟨_, by decide, rfl⟩)
    · refine makeCredentialPIN_safe ?_ ?_
      · intro e m1 _ _ he
        exact Safe.pure (.inl ⟨e, he, rfl⟩)
      · intro flags m1 r1 g1 hfl huv hgate
        dsimp only
        cases hrp : args.rp with
        | none => exact Safe.fail
        | some rp =>
          dsimp only
          unfold approveAccountCreation
          refine approve_safe hmay ?_ hko
          intro b m2 r2 g2
          cases b with
          | false => exact Safe.pure (.inl ⟨_, by decide, rfl⟩)
          | true =>
            rw [if_neg (by simp), ← hrp]
            refine newCredentialSource_safe L hko hd ?_ ?_
            · exact Safe.pure (.inl ⟨_, by decide, rfl⟩)
            · intro p m3 r3 g3 hp
              refine attest_safe L hko hd hrp hp hfl ?_ (fun h1 h2 h3 => ⟨args, hd, hgate h1 h2 h3⟩)
              intro h4
              rw [pinAuthOk_later (r1.trans (r2.trans r3))]
              exact huv h4

/-! ### GetAssertion -/

def GetPost (E : Env) (data : Bytes) (q : Option Ask) (r : Bytes) (m : Mem) : Prop :=
  (∃ e, e ≠ 0 ∧ r = [e]) ∨ Asserted E data r q m

theorem finishAssertion_safe (L : Laws E) (hko : keep = true → own = true) {data : Bytes}
    {args : GetAssertionArgs} {flags up : UInt8} {p : Nat} (hd : E.decodeGetAssertion data = some args)
    (hp : Points E m p (Matches args.rpId args.allowList))
    (hfl : flags = 0 ∨ flags = 4) (hup : up = 0 ∨ up = 1) (hiff : up = 1 ↔ args.up ≠ some false)
    (huv : flags = 4 → PinAuthOk E m.world.client args.clientDataHash args.pinAuth args.pinProtocol)
    (hq : up = 1 → ∃ s rp user, m.heap[p]? = some s ∧ s.rp = some rp ∧ s.user = some user ∧
      q = some ⟨.getAssertion, rp.name, user.name, true⟩) :
    Safe E cfg keep own may (GetPost E data) q (finishAssertion E args p (flags ||| up)) m := by
  unfold finishAssertion
  refine Safe.deref_bind ?_
  intro m1 s r1 g1 hs
  obtain ⟨s', k, e1, hk, hv, hid, hm⟩ := hp.later r1 (fun s n h => h)
  rw [hs] at e1
  obtain rfl := Option.some.inj e1
  refine signWith_safe hko ?_
  intro sig n m2 r2 g2 hsig
  obtain ⟨c, hc⟩ := r2.heap p s hs
  rw [show Util.concat [Ctap.makeAuthData E args.rpId s none (flags ||| up), args.clientDataHash] =
    Ctap.makeAuthData E args.rpId s none (flags ||| up) ++ args.clientDataHash by
      simp [Util.concat_eq]] at hsig
  obtain ⟨authData, ad, e, q1, q2, q3, q4, q5, -, -, -, -, q6⟩ :=
    Ctap.assertion_answer L (by rw [hk]) hv hid hfl hup hsig
  subst e
  refine .inr ⟨args, _, k, _, sig, ad, hd, List.mem_of_getElem? hc, hm, hk, q1, q2, q3,
    q4.trans hiff, ?_, ?_, q6⟩
  · intro h
    obtain ⟨t, rp, user, t1, t2, t3, t4⟩ := hq (q4.1 h)
    obtain ⟨c', hc'⟩ := r1.heap p t t1
    rw [hs] at hc'
    have e := Option.some.inj hc'
    exact ⟨rp, user, by rw [e]; exact t2, by rw [e]; exact t3, t4⟩
  · intro h
    rw [pinAuthOk_later (r1.trans r2)]
    exact huv (q5.1 h)

theorem handleGetAssertion_safe (L : Laws E) (hko : keep = true → own = true) (hmay : may = true)
    (data : Bytes) :
    Safe E cfg keep own may (GetPost E data) none (handleGetAssertion E data) m := by
  unfold handleGetAssertion
  cases hd : E.decodeGetAssertion data with
  | none => exact Safe.pure (.inl ⟨_, by decide, rfl⟩)
  | some args =>
    dsimp only
    refine getAssertionPIN_safe ?_ ?_
    · intro e m1 _ _ he
      exact Safe.pure (.inl ⟨e, he, rfl⟩)
    · intro flags m1 r1 g1 hfl huv
      dsimp only
      refine getAssertionSource_safe L hko ?_ ?_
      · intro m2 _ _
        exact Safe.pure (.inl ⟨_, by decide, rfl⟩)
      · intro p m2 r2 g2 hp
        have huv2 : flags = 4 →
            PinAuthOk E m2.world.client args.clientDataHash args.pinAuth args.pinProtocol := by
          rw [pinAuthOk_later (r1.trans r2)]
          exact huv
        dsimp only
        split
        · rename_i hup
          have e0 : flags = flags ||| 0 := by simp
          rw [e0]
          exact finishAssertion_safe L hko hd hp hfl (.inl rfl) (by simp [hup]) huv2
            (fun h => absurd h (by decide))
        · rename_i hup
          unfold approveAccountLogin
          rw [Prog.bind_assoc]
          refine Safe.deref_bind ?_
          intro m3 s r3 g3 hs
          cases hrp : s.rp with
          | none => exact Safe.fail
          | some rp =>
            cases hu : s.user with
            | none => exact Safe.fail
            | some user =>
              dsimp only
              refine approve_safe hmay ?_ hko
              intro b m4 r4 g4
              cases b with
              | false => exact Safe.pure (.inl ⟨_, by decide, rfl⟩)
              | true =>
                rw [if_neg (by simp)]
                obtain ⟨c, hc⟩ := r4.heap p s hs
                refine finishAssertion_safe L hko hd (hp.later (r3.trans r4) (fun s n h => h)) hfl
                  (.inr rfl) ⟨fun _ => hup, fun _ => rfl⟩ ?_
                  (fun _ => ⟨_, rp, user, hc, hrp, hu, rfl⟩)
                rw [pinAuthOk_later (r3.trans r4)]
                exact huv2

/-! ### The other CTAP2 commands -/

/-- Nothing is said of the result. -/
def Any (_ : Option Ask) (_ : α) (_ : Mem) : Prop := True

theorem setPINRetries_safe (hko : keep = true → own = true) {n : Int} {f : Unit → Prog β}
    (h : ∀ m', Rel keep m m' → Good E cfg m' → Safe E cfg keep own may R q (f ()) m') :
    Safe E cfg keep own may R q (setPINRetries n >>= f) m := by
  unfold setPINRetries
  refine setField_safe ?_ ?_ ?_ ?_ ?_ ?_ ?_ ?_ hko h <;> intros <;> first | rfl | assumption

theorem pinHash_ne (L : Laws E) (pin : Bytes) : some ((E.sha256 pin).take 16) ≠ some [] := by
  intro h
  have := congrArg List.length (Option.some.inj h)
  simp [L.sha256_length] at this

theorem setPINHash_safe (L : Laws E) (hko : keep = true → own = true) {pin : Bytes}
    {f : Unit → Prog β}
    (h : ∀ m', Rel keep m m' → Good E cfg m' → Safe E cfg keep own may R q (f ()) m') :
    Safe E cfg keep own may R q (setPINHash E (some ((E.sha256 pin).take 16)) >>= f) m := by
  unfold setPINHash
  rw [Prog.bind_assoc]
  refine setField_safe ?_ ?_ ?_ ?_ ?_ ?_ ?_ ?_ hko ?_
  · intros; rfl
  · intros; rfl
  · intros; rfl
  · intro c _
    exact pinHash_ne L pin
  · intros; rfl
  · intros; rfl
  · intro c _
    simp
  · intro _ c hc
    exact hc
  · intro m1 r1 g1
    refine saveData_safe L hko ?_
    intro m2 r2 g2
    exact h m2 (r1.trans r2) g2

theorem getPINRetries_safe {f : Int → Prog β}
    (h : ∀ n m', Rel keep m m' → Good E cfg m' → Safe E cfg keep own may R q (f n) m') :
    Safe E cfg keep own may R q (getPINRetries >>= f) m := by
  unfold getPINRetries
  rw [Prog.bind_assoc]
  refine Safe.field_bind ?_
  intro m1 r1 g1
  split
  · rw [Prog.bind_assoc]
    refine Safe.field_bind ?_
    intro m2 r2 g2
    split
    · refine Safe.field_bind ?_
      intro m3 r3 g3
      exact h _ m3 (r1.trans (r2.trans r3)) g3
    · exact Safe.fail
  · exact Safe.fail

theorem sharedSecret_safe {k : EC2Key} {f : Bytes → Prog β}
    (h : ∀ n m', Rel keep m m' → Good E cfg m' → Safe E cfg keep own may R q (f n) m') :
    Safe E cfg keep own may R q (sharedSecret E k >>= f) m := by
  unfold sharedSecret
  simp only [Prog.bind_assoc, Prog.pure_bind]
  refine Safe.field_bind ?_
  intro m1 r1 g1
  refine Safe.lift_bind ?_
  intro s _
  exact h _ m1 r1 g1

theorem handleSetPIN_safe (L : Laws E) (hko : keep = true → own = true) (args : ClientPINArgs) :
    Safe E cfg keep own may Any q (handleSetPIN E args) m := by
  unfold handleSetPIN
  refine Safe.field_bind ?_
  intro m1 r1 g1
  split
  · exact Safe.pure trivial
  · split
    · refine sharedSecret_safe ?_
      intro secret m2 r2 g2
      split
      · exact Safe.pure trivial
      · refine Safe.lift_bind ?_
        intro pin _
        split
        · exact Safe.pure trivial
        · refine setPINRetries_safe hko ?_
          intro m3 _ _
          refine setPINHash_safe L hko ?_
          intro m4 _ _
          exact Safe.pure trivial
    · exact Safe.pure trivial

theorem handleChangePIN_safe (L : Laws E) (hko : keep = true → own = true) (args : ClientPINArgs) :
    Safe E cfg keep own may Any q (handleChangePIN E args) m := by
  unfold handleChangePIN
  split
  · refine getPINRetries_safe ?_
    intro n m1 _ _
    split
    · exact Safe.pure trivial
    · refine sharedSecret_safe ?_
      intro secret m2 _ _
      split
      · exact Safe.pure trivial
      · refine getPINRetries_safe ?_
        intro n m3 _ _
        refine setPINRetries_safe hko ?_
        intro m4 _ _
        refine Safe.lift_bind ?_
        intro hash _
        refine Safe.field_bind ?_
        intro m5 _ _
        split
        · exact Safe.pure trivial
        · refine setPINRetries_safe hko ?_
          intro m6 _ _
          refine Safe.lift_bind ?_
          intro pin _
          split
          · exact Safe.pure trivial
          · refine setPINHash_safe L hko ?_
            intro m7 _ _
            exact Safe.pure trivial
  · exact Safe.pure trivial

theorem handleGetPINToken_safe (hko : keep = true → own = true) (args : ClientPINArgs) :
    Safe E cfg keep own may Any q (handleGetPINToken E args) m := by
  unfold handleGetPINToken
  split
  · exact Safe.pure trivial
  · split
    · exact Safe.fail
    · split
      · exact Safe.pure trivial
      · refine getPINRetries_safe ?_
        intro n m1 _ _
        split
        · exact Safe.pure trivial
        · refine sharedSecret_safe ?_
          intro secret m2 _ _
          refine getPINRetries_safe ?_
          intro n m3 _ _
          unfold attempt
          refine setPINRetries_safe hko ?_
          intro m4 _ _
          refine Safe.lift_bind ?_
          intro hash _
          refine Safe.field_bind ?_
          intro m5 _ _
          split
          · exact Safe.pure trivial
          · refine setPINRetries_safe hko ?_
            intro m6 _ _
            refine Safe.field_bind ?_
            intro m7 _ _
            refine Safe.lift_bind ?_
            intro sent _
            exact Safe.pure trivial

theorem handleClientPIN_safe (L : Laws E) (hko : keep = true → own = true) (data : Bytes) :
    Safe E cfg keep own may Any q (handleClientPIN E data) m := by
  unfold handleClientPIN
  refine Safe.field_bind ?_
  intro m1 _ _
  split
  · exact Safe.pure trivial
  · split
    · exact Safe.pure trivial
    · split
      · exact Safe.pure trivial
      · split
        · unfold handleGetRetries
          refine getPINRetries_safe ?_
          intros
          exact Safe.pure trivial
        · split
          · unfold handleGetKeyAgreement
            refine Safe.field_bind ?_
            intros
            exact Safe.pure trivial
          · split
            · exact handleSetPIN_safe L hko _
            · split
              · exact handleChangePIN_safe L hko _
              · split
                · exact handleGetPINToken_safe hko _
                · exact Safe.pure trivial

theorem handleGetInfo_safe : Safe E cfg keep own may Any q handleGetInfo m := by
  unfold handleGetInfo
  refine Safe.field_bind ?_
  intro m1 _ _
  split
  · refine Safe.field_bind ?_
    intros
    exact Safe.pure trivial
  · exact Safe.pure trivial

/-! ### U2F -/

def RegisterPost (E : Env) (request : Bytes) (q : Option Ask) (r : Bytes) (m : Mem) : Prop :=
  U2f.isError r ∨ RegisteredFor E request r q m

theorem handleRegister_safe (L : Laws E) (hko : keep = true → own = true) (hmay : may = true)
    (request : Bytes) :
    Safe E cfg keep own may (RegisterPost E request) none (handleRegister E request) m := by
  unfold handleRegister
  split
  · exact Safe.fail
  · rename_i hl
    dsimp only
    split
    · exact Safe.fail
    · rename_i hl2
      have hl2 : (request.drop 32).length = 32 := by simpa using hl2
      unfold newPrivateKey sealKeyHandle
      simp only [Prog.bind_assoc, Prog.pure_bind]
      refine draw_safe ?_ hko
      intro i m1 r1 g1 _
      refine Safe.field_bind ?_
      intro m2 r2 g2
      refine draw_safe ?_ hko
      intro j m3 r3 g3 _
      refine Safe.lift_bind ?_
      intro bx hbx
      refine approve_safe hmay ?_ hko
      intro b m4 r4 g4
      cases b with
      | false => exact Safe.pure (.inl (.inr (.inl rfl)))
      | true =>
        rw [if_neg (by simp)]
        refine createCertificate_safe hko ?_
        intro cert ca issuer n m5 r5 g5 hcert
        refine signWith_safe hko ?_
        intro sig n' m6 r6 g6 hsig
        have r26 := r3.trans (r4.trans (r5.trans r6))
        have hv := L.genEC_valid i
        obtain ⟨bp, bx', bY, -⟩ := Vault.ecValid_bounds L hv
        obtain ⟨c1, c2⟩ := U2f.attestation_sound L hcert
        unfold sealBox encrypt at hbx
        by_cases hk : aesKeyOk m2.world.client.deviceKey = true
        · rw [if_pos hk] at hbx
          have hbx := (Res.ok.inj hbx).symm
          have hiv := L.rand_length j 12
          have hlen := U2f.handleOf_length L hv hiv hk hl2
          have hseal := U2f.handleOf_sealed L hv hiv hk hl2
          have e : Cbor.encode (U2f.boxItem bx.1) = U2f.handleOf E m2.world.client.deviceKey
              (request.drop 32) (E.genEC i) (E.rand j 12) := by rw [hbx]; rfl
          rw [e] at hsig ⊢
          refine .inr ⟨request.take 32, request.drop 32,
            ⟨ellipticMarshal (E.genEC i).pub.x (E.genEC i).pub.y, U2f.handleOf E
              m2.world.client.deviceKey (request.drop 32) (E.genEC i) (E.rand j 12), cert, sig⟩, E.genEC i,
            (List.take_append_drop 32 request).symm, by simp; omega, hl2, ?_,
            U2f.parsePoint_marshal bx' bY, ?_, c1, ?_, rfl⟩
          · have := U2f.parseRegistration_answer (sig := sig)
              (U2f.ellipticMarshal_length bx' bY) (handle := U2f.handleOf E m2.world.client.deviceKey
              (request.drop 32) (E.genEC i) (E.rand j 12)) (by omega) c2
            rw [← this]
            simp [Util.concat_eq, Util.toBE16_eq]
            rfl
          · rw [r26.deviceKey]
            exact hseal
          · have := (Ctap.signECDSA_ok L hv hsig).1
            rw [← this]
            simp [Util.concat_eq]
        · rw [if_neg hk] at hbx
          cases hbx

def AuthPost (E : Env) (control : UInt8) (request : Bytes) (q : Option Ask) (r : Bytes) (m : Mem) : Prop :=
  U2f.isError r ∨ AuthenticatedFor E control request r q m

theorem finishAuthenticate_safe (hko : keep = true → own = true) {control : UInt8}
    {request challenge application handle : Bytes} {key : ECPriv}
    (hd : U2f.decodeAuthenticate request = .ok (challenge, application, handle))
    (hs : Sealed E m.world.client.deviceKey handle application key)
    (hq : (control = 3 ∧ q = some ⟨.u2fAuthenticate, [], [], true⟩) ∨ control = 8) :
    Safe E cfg keep own may (AuthPost E control request) q
      (finishAuthenticate E key application challenge) m := by
  unfold finishAuthenticate newAuthCounter
  simp only [Prog.bind_assoc, Prog.pure_bind]
  refine Safe.field_bind ?_
  intro m1 r1 g1
  refine Safe.field_bind ?_
  intro m2 r2 g2
  refine setField_safe ?_ ?_ ?_ ?_ ?_ ?_ ?_ ?_ hko ?_
  · intros; rfl
  · intros; rfl
  · intros; rfl
  · intro c h; exact h
  · intros; rfl
  · intros; rfl
  · intro c h; exact h
  · intro _ c hc; exact hc
  intro m3 r3 g3
  refine signWith_safe hko ?_
  intro sig n m4 r4 g4 hsig
  have hp := U2f.parseAuthentication_answer m1.world.client.authCounter sig
  refine .inr ⟨challenge, application, handle, key,
    { userPresence := 1, counter := m1.world.client.authCounter.toNat
      counterBytes := be32 m1.world.client.authCounter, signature := sig }, n, hd, ?_, ?_, ?_, hq⟩
  · rw [(r1.trans (r2.trans (r3.trans r4))).deviceKey]
    exact hs
  · rw [← hp]
    simp [Util.concat_eq, Util.toBE16_eq]
    rfl
  · simp only [Cose.sign, signECDSA, Util.concat_eq, Util.toBE32_eq] at hsig
    cases he : E.signEC key (E.sha256 [application, [1], be32 m1.world.client.authCounter,
        challenge].flatten) n with
    | none => rw [he] at hsig; cases hsig
    | some x =>
      rw [he] at hsig
      obtain rfl := Res.ok.inj hsig
      rw [← he]
      simp

theorem handleAuthenticate_safe (hko : keep = true → own = true) (hmay : may = true)
    (control : UInt8) (request : Bytes) :
    Safe E cfg keep own may (AuthPost E control request) none (handleAuthenticate E control request) m := by
  unfold handleAuthenticate
  refine Safe.lift_bind ?_
  rintro ⟨challenge, application, handle⟩ hd
  dsimp only
  unfold openKeyHandle
  cases hb : E.decodeBox handle with
  | none => exact Safe.pure (.inl (.inl rfl))
  | some box =>
    dsimp only
    simp only [Prog.bind_assoc, Prog.pure_bind]
    refine Safe.field_bind ?_
    intro m1 r1 g1
    refine Safe.lift_bind ?_
    intro plain hplain
    cases hk : E.decodeKeyHandle plain with
    | none => exact Safe.pure (.inl (.inl rfl))
    | some k =>
      dsimp only
      cases hder : k.privateKey with
      | none => exact Safe.pure (.inl (.inl rfl))
      | some der =>
        dsimp only
        split
        · exact Safe.pure (.inl (.inl rfl))
        · rename_i happ
          cases hkey : E.parseECDER der with
          | none => exact Safe.fail
          | some key =>
            dsimp only
            have hs : Sealed E m1.world.client.deviceKey handle application key :=
              U2f.sealed_of_handleKey ⟨box, plain, k, der, hb, hplain, hk, hder, by simpa using happ, hkey⟩
            split
            · exact Safe.pure (.inl (.inr (.inl rfl)))
            · split
              · rename_i h3
                refine approve_safe hmay ?_ hko
                intro b m2 r2 g2
                cases b with
                | false => exact Safe.pure (.inl (.inr (.inl rfl)))
                | true =>
                  rw [if_neg (by simp)]
                  exact finishAuthenticate_safe hko hd (by rw [r2.deviceKey]; exact hs)
                    (.inl ⟨h3, rfl⟩)
              · split
                · rename_i h8
                  exact finishAuthenticate_safe hko hd hs (.inr h8)
                · exact Safe.pure (.inl (.inr (.inr rfl)))

/-! ### All operations -/

/-- A result with no claim to be about anything. -/
theorem faithful_other {op : Op} {r : Reply} {q : Option Ask} {m : Mem}
    (h1 : ∀ data, op ≠ .ctap (1 :: data)) (h2 : ∀ data, op ≠ .ctap (2 :: data))
    (h3 : ∀ msg, op ≠ .u2f msg) : Faithful E op r q m where
  created := fun data _ h => absurd h (h1 data)
  asserted := fun data _ h => absurd h (h2 data)
  registered := fun _ _ _ _ _ h => absurd h (h3 _)
  authenticated := fun _ _ _ _ _ h => absurd h (h3 _)
  short := fun _ _ h => absurd h (h3 _)

/-- The condition in which an operation that began in `m0` ends. -/
def Post (E : Env) (keep : Bool) (m0 : Mem) (op : Op) (q : Option Ask) (r : Reply) (m : Mem) : Prop :=
  Faithful E op r q m ∧
    ∀ data body, op = .ctap (1 :: data) → r = .answer (0 :: body) → Gate E keep m0 data

theorem handleCtap_safe (L : Laws E) (hko : keep = true → own = true) (hmay : may = true)
    (hg : Good E cfg m) (msg : Bytes) :
    Safe E cfg keep own may (Post E keep m (.ctap msg)) none (perform E (.ctap msg)) m := by
  unfold perform handleCtap
  cases msg with
  | nil => exact Safe.fail
  | cons command body =>
    dsimp only
    have other : ∀ p : Prog Bytes, command ≠ 1 → command ≠ 2 → Safe E cfg keep own may Any none p m →
        Safe E cfg keep own may (Post E keep m (.ctap (command :: body))) none
          (p >>= fun b => pure (.answer b)) m := by
      intro p hc1 hc2 hp
      refine Safe.bind hko hg hp ?_
      intro q' b m' _ _ _
      refine Safe.pure ⟨faithful_other ?_ ?_ ?_, ?_⟩
      · rintro data h
        cases h
        exact hc1 rfl
      · rintro data h
        cases h
        exact hc2 rfl
      · rintro msg h
        cases h
      · rintro data b h
        cases h
        exact absurd rfl hc1
    split
    · rename_i hc
      subst hc
      refine Safe.bind hko hg (handleMakeCredential_safe L hko hmay body) ?_
      rintro q' b m' _ _ (⟨e, he, rfl⟩ | ⟨h1, h2⟩)
      · refine Safe.pure ⟨⟨?_, ?_, ?_, ?_, ?_⟩, ?_⟩
        · rintro data body' - h
          cases h
          exact absurd rfl he
        · rintro data body' h
          cases h
        · rintro _ _ _ _ _ h
          cases h
        · rintro _ _ _ _ _ h
          cases h
        · rintro _ _ h
          cases h
        · rintro data body' - h
          cases h
          exact absurd rfl he
      · refine Safe.pure ⟨⟨?_, ?_, ?_, ?_, ?_⟩, ?_⟩
        · rintro data body' h h'
          cases h
          cases h'
          exact h1
        · rintro data body' h
          cases h
        · rintro _ _ _ _ _ h
          cases h
        · rintro _ _ _ _ _ h
          cases h
        · rintro _ _ h
          cases h
        · rintro data body' h h'
          cases h
          exact h2
    · rename_i hc1
      split
      · rename_i hc
        subst hc
        exact other _ (by decide) (by decide) handleGetInfo_safe
      · split
        · rename_i hc
          subst hc
          refine Safe.bind hko hg (handleGetAssertion_safe L hko hmay body) ?_
          rintro q' b m' _ _ h
          refine Safe.pure ⟨⟨?_, ?_, ?_, ?_, ?_⟩, ?_⟩
          · rintro data body' h
            cases h
          · rintro data body' h1 h2
            cases h1
            cases h2
            rcases h with ⟨e, he, h⟩ | h
            · cases h
              exact absurd rfl he
            · exact h
          · rintro _ _ _ _ _ h
            cases h
          · rintro _ _ _ _ _ h
            cases h
          · rintro _ _ h
            cases h
          · rintro data body' h
            cases h
        · rename_i hc2
          split
          · exact other _ hc1 hc2 (handleClientPIN_safe L hko body)
          · exact Safe.fail

theorem handleU2f_safe (L : Laws E) (hko : keep = true → own = true) (hmay : may = true)
    (hg : Good E cfg m) (msg : Bytes) :
    Safe E cfg keep own may (Post E keep m (.u2f msg)) none (perform E (.u2f msg)) m := by
  unfold perform handleU2f
  dsimp only
  rw [Prog.bind_assoc]
  refine Safe.lift_bind ?_
  rintro ⟨header, request, le⟩ hd
  dsimp only
  have post : ∀ (q : Option Ask) (b : Bytes) (m' : Mem),
      (header.command = 1 → succeeded b ≠ none → RegisteredFor E request b q m') →
      (header.command = 2 → succeeded b ≠ none → AuthenticatedFor E header.param1 request b q m') →
      Post E keep m (.u2f msg) q (.answer b) m' := by
    intro q b m' h1 h2
    refine ⟨⟨?_, ?_, ?_, ?_, ?_⟩, ?_⟩
    · rintro data body' h
      cases h
    · rintro data body' h
      cases h
    · rintro cla p1 p2 rest answer h hr hs
      cases h
      cases hr
      have e := U2f.decodeMessage_header hd
      dsimp only at e
      exact ⟨request, le, by rw [hd, e], h1 (by rw [e]) hs⟩
    · rintro cla p1 p2 rest answer h hr hs
      cases h
      cases hr
      have e := U2f.decodeMessage_header hd
      dsimp only at e
      refine ⟨request, le, by rw [hd, e], ?_⟩
      have := h2 (by rw [e]) hs
      rw [e] at this
      exact this
    · rintro msg' answer h -
      cases h
      rcases msg with _ | ⟨_, _ | ⟨_, _ | ⟨_, _ | ⟨_, _⟩⟩⟩⟩
      · cases hd
      · cases hd
      · cases hd
      · cases hd
      · simp
    · rintro data body' h
      cases h
  split
  · rename_i hc
    refine Safe.pure (post _ _ _ ?_ ?_) <;> intro h <;> rw [hc] at h <;> exact absurd h (by decide)
  · split
    · rename_i hc
      refine Safe.bind hko hg (handleRegister_safe L hko hmay request) ?_
      rintro q' b m' _ _ h
      refine Safe.pure (post _ _ _ ?_ ?_)
      · intro _ hs
        rcases h with h | h
        · exact absurd (Device.succeeded_error h) hs
        · exact h
      · intro h
        rw [hc] at h
        exact absurd h (by decide)
    · split
      · rename_i hc
        refine Safe.bind hko hg (handleAuthenticate_safe hko hmay header.param1 request) ?_
        rintro q' b m' _ _ h
        refine Safe.pure (post _ _ _ ?_ ?_)
        · intro h
          rw [hc] at h
          exact absurd h (by decide)
        · intro _ hs
          rcases h with h | h
          · exact absurd (Device.succeeded_error h) hs
          · exact h
      · exact Safe.fail

/-- An operation does not turn the PIN off. -/
def keepsPIN (op : Op) : Bool := decide (op ≠ .disablePIN)

theorem perform_safe (L : Laws E) (op : Op) (hko : keep = true → keepsPIN op = true)
    (hg : Good E cfg m) :
    Safe E cfg keep (keepsPIN op) (isRequest op) (Post E keep m op) none (perform E op) m := by
  cases op with
  | ctap msg => exact handleCtap_safe L hko rfl hg msg
  | u2f msg => exact handleU2f_safe L hko rfl hg msg
  | enablePIN =>
    unfold perform enablePIN
    dsimp only
    rw [Prog.bind_assoc]
    refine setField_safe ?_ ?_ ?_ ?_ ?_ ?_ ?_ ?_ hko ?_
    · intros; rfl
    · intros; rfl
    · intros; rfl
    · intro c h; exact h
    · intros; rfl
    · intros; rfl
    · intro c h; exact h
    · intros; rfl
    intro m1 r1 g1
    refine saveData_safe L hko ?_
    intro m2 _ _
    exact Safe.pure ⟨faithful_other (by simp) (by simp) (by simp), by simp⟩
  | disablePIN =>
    unfold perform disablePIN
    dsimp only
    rw [Prog.bind_assoc]
    refine setField_safe ?_ ?_ ?_ ?_ ?_ ?_ ?_ ?_ hko ?_
    · intros; rfl
    · intros; rfl
    · intros; rfl
    · intro c h; exact h
    · intros; rfl
    · intros; rfl
    · intro c h; exact h
    · intro h; exact absurd h (by decide)
    intro m1 r1 g1
    refine saveData_safe L hko ?_
    intro m2 _ _
    exact Safe.pure ⟨faithful_other (by simp) (by simp) (by simp), by simp⟩
  | setPIN pin =>
    unfold perform setPIN
    refine setPINHash_safe L hko ?_
    intro m2 _ _
    exact Safe.pure ⟨faithful_other (by simp) (by simp) (by simp), by simp⟩
  | deleteIdentity id =>
    unfold perform
    refine deleteIdentity_safe L hko ?_
    intro b m2 _ _
    exact Safe.pure ⟨faithful_other (by simp) (by simp) (by simp), by simp⟩
  | restart => exact Safe.pure ⟨faithful_other (by simp) (by simp) (by simp), by simp⟩

end VF.Fido.Overlap
