import Verif.Proofs.OverlapLives

/-!
# Harmless operations do not panic
-/

namespace VF.Fido.Overlap

open VF.Spec.Client VF.Spec.Vault VF.Spec.Cose VF.Spec.Harmless Prog
open VF.Spec.Status (Blocks)
open VF.Spec.U2fStatus (Frame Fields)

variable {E : Env} {cfg : Client.Config} {α β : Type} {b d : Nat} {m : Mem} {R : Nat → Nat → β → Mem → Prop}

/-- Nothing is said of the result. -/
def Ends (_ _ : Nat) (_ : α) (_ : Mem) : Prop := True

/-! ### MakeCredential -/

theorem makeCredentialPIN_lives {args : MakeCredArgs} {f : Except UInt8 UInt8 → Prog β}
    (h : ∀ x m' d', Rel false m m' → d ≤ d' → Fine E cfg b m' d' → Lives E cfg R b d' (f x) m') :
    Lives E cfg R b d (makeCredentialPIN E args >>= f) m := by
  unfold makeCredentialPIN
  rw [Prog.bind_assoc]
  refine Lives.field_bind ?_
  intro m1 d1 r1 e1 g1
  split
  · exact h _ m1 d1 r1 e1 g1
  · split
    · split
      · rw [Prog.bind_assoc]
        refine Lives.field_bind ?_
        intro m2 d2 r2 e2 g2
        split
        · exact h _ m2 d2 (r1.trans r2) (by omega) g2
        · exact h _ m2 d2 (r1.trans r2) (by omega) g2
      · exact h _ m1 d1 r1 e1 g1
    · rw [Prog.bind_assoc]
      refine Lives.field_bind ?_
      intro m2 d2 r2 e2 g2
      split
      · exact h _ m2 d2 (r1.trans r2) (by omega) g2
      · exact h _ m2 d2 (r1.trans r2) (by omega) g2

theorem attest_lives (L : Laws E) {args : MakeCredArgs} {rp : RPEntity} {flags : UInt8} {p : Nat}
    (hp : p < m.heap.length) : Lives E cfg Ends b d (attest E args rp flags p) m := by
  unfold attest
  refine Lives.deref_bind hp ?_
  intro m1 d1 s r1 e1 g1 hs
  obtain ⟨⟨i, j, -, -, -, hk⟩, -⟩ := g1.good.made s (List.mem_of_getElem? hs)
  have ha : ∃ x, Ctap.makeAttestedCredentialData s = .ok x := by
    obtain ⟨bp, -⟩ := Vault.ecValid_bounds L (L.genEC_valid j)
    simp only [Ctap.makeAttestedCredentialData, hk, Cose.publicOf, Res.bind_ok,
      Cose.marshalPublic, Cose.encodeECDSAPublicKey, bp, if_true]
    exact ⟨_, rfl⟩
  obtain ⟨attested, ha⟩ := ha
  refine Lives.lift_bind ha ?_
  rw [hk]
  refine createCertificate_lives L ?_
  intro cert m2 d2 r2 e2 g2
  refine signWith_lives L (show KeyValid E { ecdsa := some (E.genEC j) } from L.genEC_valid j) ?_
  intro sig m3 d3 r3 e3 g3
  exact Lives.pure trivial

theorem handleMakeCredential_lives (L : Laws E) {data : Bytes} {args : MakeCredArgs}
    (hd : E.decodeMakeCred data = some args) (h1 : args.rp ≠ none) (h2 : args.user ≠ none) :
    Lives E cfg Ends b d (handleMakeCredential E data) m := by
  unfold handleMakeCredential
  rw [hd]
  dsimp only
  split
  · exact Lives.pure trivial
  · refine makeCredentialPIN_lives ?_
    intro x m1 d1 r1 e1 g1
    cases x with
    | error e => exact Lives.pure trivial
    | ok flags =>
      dsimp only
      obtain ⟨rp, hrp⟩ := Option.ne_none_iff_exists'.1 h1
      simp only [hrp]
      unfold approveAccountCreation
      refine approve_lives ?_
      intro y m2 d2 r2 e2 g2
      split
      · exact Lives.pure trivial
      · rw [← hrp]
        refine newCredentialSource_lives L h1 h2 ?_ ?_
        · exact Lives.pure trivial
        · intro p m3 d3 r3 e3 g3 hp
          exact attest_lives L hp

/-! ### GetAssertion -/

theorem getAssertionPIN_lives {args : GetAssertionArgs} {f : Except UInt8 UInt8 → Prog β}
    (h : ∀ x m' d', Rel false m m' → d ≤ d' → Fine E cfg b m' d' → Lives E cfg R b d' (f x) m') :
    Lives E cfg R b d (getAssertionPIN E args >>= f) m := by
  unfold getAssertionPIN
  rw [Prog.bind_assoc]
  refine Lives.field_bind ?_
  intro m1 d1 r1 e1 g1
  split
  · exact h _ m1 d1 r1 e1 g1
  · split
    · exact h _ m1 d1 r1 e1 g1
    · split
      · exact h _ m1 d1 r1 e1 g1
      · rw [Prog.bind_assoc]
        refine Lives.field_bind ?_
        intro m2 d2 r2 e2 g2
        split
        · exact h _ m2 d2 (r1.trans r2) (by omega) g2
        · exact h _ m2 d2 (r1.trans r2) (by omega) g2

theorem finishAssertion_lives (L : Laws E) {args : GetAssertionArgs} {p : Nat} {flags : UInt8}
    (hp : p < m.heap.length) : Lives E cfg Ends b d (finishAssertion E args p flags) m := by
  unfold finishAssertion
  refine Lives.deref_bind hp ?_
  intro m1 d1 s r1 e1 g1 hs
  obtain ⟨⟨i, j, -, -, -, hk⟩, -⟩ := g1.good.made s (List.mem_of_getElem? hs)
  refine signWith_lives L (by rw [hk]; exact L.genEC_valid j) ?_
  intro sig m2 d2 r2 e2 g2
  exact Lives.pure trivial

theorem handleGetAssertion_lives (L : Laws E) (data : Bytes) :
    Lives E cfg Ends b d (handleGetAssertion E data) m := by
  unfold handleGetAssertion
  split
  · exact Lives.pure trivial
  · refine getAssertionPIN_lives ?_
    intro x m1 d1 r1 e1 g1
    cases x with
    | error e => exact Lives.pure trivial
    | ok flags =>
      dsimp only
      refine getAssertionSource_lives L ?_ ?_
      · intro m2 d2 r2 e2 g2
        exact Lives.pure trivial
      · intro p m2 d2 r2 e2 g2 hp
        dsimp only
        split
        · exact finishAssertion_lives L hp
        · unfold approveAccountLogin
          rw [Prog.bind_assoc]
          refine Lives.deref_bind hp ?_
          intro m3 d3 s r3 e3 g3 hs
          obtain ⟨w1, w2⟩ := g3.calm.whole s (List.mem_of_getElem? hs)
          obtain ⟨rp, hrp⟩ := Option.ne_none_iff_exists'.1 w1
          obtain ⟨user, hu⟩ := Option.ne_none_iff_exists'.1 w2
          rw [hrp, hu]
          dsimp only
          refine approve_lives ?_
          intro y m4 d4 r4 e4 g4
          split
          · exact Lives.pure trivial
          · refine finishAssertion_lives L ?_
            have := (r3.trans r4).length
            omega

/-! ### ClientPIN -/

/-- Reading the retries. -/
theorem getPINRetries_lives {f : Int → Prog β}
    (h : ∀ n m' d', Rel false m m' → d ≤ d' → Fine E cfg b m' d' → 8 - (d' : Int) ≤ n → n ≤ 8 →
      Lives E cfg R b d' (f n) m') :
    Lives E cfg R b d (getPINRetries >>= f) m := by
  unfold getPINRetries
  rw [Prog.bind_assoc]
  refine Lives.field_bind ?_
  intro m1 d1 r1 e1 g1
  have q1 := g1.calm.low
  have q2 := g1.room
  rw [if_pos (by omega), Prog.bind_assoc]
  refine Lives.field_bind ?_
  intro m2 d2 r2 e2 g2
  rw [if_pos g2.calm.high]
  refine Lives.field_bind ?_
  intro m3 d3 r3 e3 g3
  exact h _ m3 d3 (r1.trans (r2.trans r3)) (by omega) g3 g3.calm.low g3.calm.high

/-- Lowering the retries. -/
theorem lower_lives {n : Int} {f : Unit → Prog β} (h1 : 8 - (d : Int) ≤ n) (h2 : n ≤ 8)
    (h : ∀ m' d', Rel false m m' → d ≤ d' → Fine E cfg b m' d' → Lives E cfg R b d' (f ()) m') :
    Lives E cfg R (b + 1) d (setPINRetries (n - 1) >>= f) m := by
  intro m' d' r1 e1 g1
  refine ⟨b, Nat.le_succ _, ?_, ?_⟩
  · refine ⟨g1.calm.whole, ?_, ?_⟩
    · show 8 - ((d' + (b + 1 - b) : Nat) : Int) ≤ n - 1
      omega
    · show n - 1 ≤ 8
      omega
  · intro k1 k2
    exact h _ _ (r1.trans k1) (by omega) k2

/-- Setting the retries to eight. -/
theorem setPINRetries_lives {f : Unit → Prog β}
    (h : ∀ m' d', Rel false m m' → d ≤ d' → Fine E cfg b m' d' → Lives E cfg R b d' (f ()) m') :
    Lives E cfg R b d (setPINRetries 8 >>= f) m := by
  refine Lives.write_bind ?_ ?_
  · intro m' d' _ hc
    refine ⟨hc.whole, ?_, ?_⟩
    · show 8 - (d' : Int) ≤ 8
      omega
    · show (8 : Int) ≤ 8
      omega
  · intro m1 d1 r1 e1 g1 r2 _
    exact h _ d1 (r1.trans r2) e1 g1

theorem setPINHash_lives (L : Laws E) {hash : Option Bytes} {f : Unit → Prog β}
    (h : ∀ m' d', Rel false m m' → d ≤ d' → Fine E cfg b m' d' → Lives E cfg R b d' (f ()) m') :
    Lives E cfg R b d (setPINHash E hash >>= f) m := by
  unfold setPINHash
  rw [Prog.bind_assoc]
  refine setField_lives (fun _ => rfl) ?_
  intro m1 d1 r1 e1 g1
  refine saveData_lives L ?_
  intro m2 d2 r2 e2 g2
  exact h m2 d2 (r1.trans r2) (by omega) g2

theorem sharedSecret_lives (L : Laws E) {k : EC2Key} (hk : OfPlatform E k) {f : Bytes → Prog β}
    (h : ∀ s m' d', Rel false m m' → d ≤ d' → Fine E cfg b m' d' → s.length = 32 →
      Lives E cfg R b d' (f s) m') :
    Lives E cfg R b d (sharedSecret E k >>= f) m := by
  unfold sharedSecret
  simp only [Prog.bind_assoc, Prog.pure_bind]
  refine Lives.field_bind ?_
  intro m1 d1 r1 e1 g1
  obtain ⟨platform, hv, hx, hy⟩ := hk
  obtain ⟨s, -, hs, -⟩ := L.ecdh_agrees _ platform g1.agreement hv
  have he : ecdhSecret E m1.world.client.keyAgreement (BigInt.ofBytes (k.x.getD []))
      (BigInt.ofBytes (k.y.getD [])) = .ok (BigInt.toBytes s) := by
    simp only [ecdhSecret, hx, hy, hs]
  refine Lives.lift_bind he ?_
  exact h _ m1 d1 r1 e1 g1 (L.sha256_length _)

theorem aes_ok {s : Bytes} (h : s.length = 32) : aesKeyOk s = true := by
  simp [aesKeyOk, h]

theorem decrypt_ok {s enc : Bytes} (h : s.length = 32) (hb : Blocks enc) :
    decryptAESCBC E s enc = .ok (E.cbcDecrypt s enc) := by
  unfold decryptAESCBC
  rw [if_pos (aes_ok h)]
  exact if_pos hb

theorem decryptPIN_ok {s enc : Bytes} (h : s.length = 32) (hb : Blocks enc) :
    ∃ pin, Ctap.decryptPIN E s enc = .ok pin := by
  unfold Ctap.decryptPIN
  rw [decrypt_ok h hb, Res.bind_ok]
  exact ⟨_, rfl⟩

theorem handleSetPIN_lives (L : Laws E) {args : ClientPINArgs}
    (h : ∀ key enc, args.keyAgreement = some key → args.newPinEnc = some enc → OfPlatform E key ∧ Blocks enc) :
    Lives E cfg Ends b d (handleSetPIN E args) m := by
  unfold handleSetPIN
  refine Lives.field_bind ?_
  intro m1 d1 r1 e1 g1
  split
  · exact Lives.pure trivial
  · split
    · rename_i key auth enc hk ha he
      obtain ⟨h1, h2⟩ := h key enc hk he
      refine sharedSecret_lives L h1 ?_
      intro secret m2 d2 r2 e2 g2 hs
      split
      · exact Lives.pure trivial
      · obtain ⟨pin, hp⟩ := decryptPIN_ok hs h2
        refine Lives.lift_bind hp ?_
        split
        · exact Lives.pure trivial
        · refine setPINRetries_lives ?_
          intro m3 d3 _ _ _
          refine setPINHash_lives L ?_
          intro m4 d4 _ _ _
          exact Lives.pure trivial
    · exact Lives.pure trivial

theorem handleChangePIN_lives (L : Laws E) {args : ClientPINArgs}
    (h : ∀ key, args.keyAgreement = some key →
      OfPlatform E key ∧ Blocks (args.newPinEnc.getD []) ∧ Blocks (args.pinHashEnc.getD [])) :
    Lives E cfg Ends (b + 1) d (handleChangePIN E args) m := by
  unfold handleChangePIN
  split
  · rename_i key auth hk ha
    obtain ⟨h1, h2, h3⟩ := h key hk
    refine getPINRetries_lives ?_
    intro n m1 d1 _ _ _ _ _
    split
    · exact Lives.pure trivial
    · refine sharedSecret_lives L h1 ?_
      intro secret m2 d2 _ _ _ hs
      split
      · exact Lives.pure trivial
      · refine getPINRetries_lives ?_
        intro n m3 d3 _ _ _ hn1 hn2
        refine lower_lives hn1 hn2 ?_
        intro m4 d4 _ _ _
        refine Lives.lift_bind (decrypt_ok hs h3) ?_
        refine Lives.field_bind ?_
        intro m5 d5 _ _ _
        split
        · exact Lives.pure trivial
        · refine setPINRetries_lives ?_
          intro m6 d6 _ _ _
          obtain ⟨pin, hp⟩ := decryptPIN_ok hs h2
          refine Lives.lift_bind hp ?_
          split
          · exact Lives.pure trivial
          · refine setPINHash_lives L ?_
            intro m7 d7 _ _ _
            exact Lives.pure trivial
  · exact Lives.pure trivial

theorem handleGetPINToken_lives (L : Laws E) {args : ClientPINArgs}
    (h : ∀ enc, args.pinHashEnc = some enc →
      ∃ key, args.keyAgreement = some key ∧ (key.x = none ∨ (OfPlatform E key ∧ Blocks enc))) :
    Lives E cfg Ends (b + 1) d (handleGetPINToken E args) m := by
  unfold handleGetPINToken
  split
  · exact Lives.pure trivial
  · rename_i enc henc
    obtain ⟨key, hk, hkey⟩ := h enc henc
    rw [hk]
    dsimp only
    split
    · exact Lives.pure trivial
    · rename_i hx
      obtain ⟨h1, h2⟩ := hkey.resolve_left hx
      refine getPINRetries_lives ?_
      intro n m1 d1 _ _ _ _ _
      split
      · exact Lives.pure trivial
      · refine sharedSecret_lives L h1 ?_
        intro secret m2 d2 _ _ _ hs
        refine getPINRetries_lives ?_
        intro n m3 d3 _ _ _ hn1 hn2
        unfold attempt
        refine lower_lives hn1 hn2 ?_
        intro m4 d4 _ _ _
        refine Lives.lift_bind (decrypt_ok hs h2) ?_
        refine Lives.field_bind ?_
        intro m5 d5 _ _ _
        split
        · exact Lives.pure trivial
        · refine setPINRetries_lives ?_
          intro m6 d6 _ _ _
          refine Lives.field_bind ?_
          intro m7 d7 _ _ g7
          have he : encryptAESCBC E secret m7.world.client.pinToken =
              .ok (E.cbcEncrypt secret m7.world.client.pinToken) := by
            unfold encryptAESCBC
            rw [if_pos (aes_ok hs), if_pos g7.token]
          refine Lives.lift_bind he ?_
          exact Lives.pure trivial

theorem handleClientPIN_lives (L : Laws E) {data : Bytes}
    (h : ∀ args, E.decodeClientPIN data = some args → HarmlessPIN E args)
    (hb : ∀ args, E.decodeClientPIN data = some args → (args.subCommand = 4 ∨ args.subCommand = 5) → b ≠ 0) :
    Lives E cfg Ends b d (handleClientPIN E data) m := by
  unfold handleClientPIN
  refine Lives.field_bind ?_
  intro m1 d1 _ _ _
  split
  · exact Lives.pure trivial
  · split
    · exact Lives.pure trivial
    · rename_i args hd
      have hargs := h args hd
      split
      · exact Lives.pure trivial
      · split
        · unfold handleGetRetries
          refine getPINRetries_lives ?_
          intros
          exact Lives.pure trivial
        · split
          · unfold handleGetKeyAgreement
            refine Lives.field_bind ?_
            intros
            exact Lives.pure trivial
          · split
            · rename_i hs
              exact handleSetPIN_lives L (hargs.setPIN hs)
            · split
              · rename_i hs
                obtain ⟨b', rfl⟩ := Nat.exists_eq_succ_of_ne_zero (hb args hd (.inl hs))
                exact handleChangePIN_lives L (hargs.changePIN hs)
              · split
                · rename_i hs
                  obtain ⟨b', rfl⟩ := Nat.exists_eq_succ_of_ne_zero (hb args hd (.inr hs))
                  exact handleGetPINToken_lives L (hargs.getPINToken hs)
                · exact Lives.pure trivial

theorem handleGetInfo_lives : Lives E cfg Ends b d handleGetInfo m := by
  unfold handleGetInfo
  refine Lives.field_bind ?_
  intro m1 _ _ _ _
  split
  · refine Lives.field_bind ?_
    intros
    exact Lives.pure trivial
  · exact Lives.pure trivial

/-! ### U2F -/

theorem handleRegister_lives (L : Laws E) {request : Bytes} (hl : request.length = 64) :
    Lives E cfg Ends b d (handleRegister E request) m := by
  unfold handleRegister
  rw [if_neg (by omega)]
  dsimp only
  rw [if_neg (by simp [hl])]
  unfold newPrivateKey sealKeyHandle
  simp only [Prog.bind_assoc, Prog.pure_bind]
  refine draw_lives ?_
  intro i m1 d1 r1 e1 g1 _
  refine Lives.field_bind ?_
  intro m2 d2 r2 e2 g2
  refine draw_lives ?_
  intro j m3 d3 r3 e3 g3 _
  refine Lives.lift_bind (by unfold sealBox encrypt; rw [if_pos g2.key]) ?_
  refine approve_lives ?_
  intro x m4 d4 r4 e4 g4
  split
  · exact Lives.pure trivial
  · refine createCertificate_lives L ?_
    intro cert m5 d5 r5 e5 g5
    refine signWith_lives L (show KeyValid E { ecdsa := some (E.genEC i) } from L.genEC_valid i) ?_
    intro sig m6 d6 r6 e6 g6
    exact Lives.pure trivial

theorem finishAuthenticate_lives (L : Laws E) {key : ECPriv} (hk : ECValid E key) {application challenge : Bytes} :
    Lives E cfg Ends b d (finishAuthenticate E key application challenge) m := by
  unfold finishAuthenticate newAuthCounter
  simp only [Prog.bind_assoc, Prog.pure_bind]
  refine Lives.field_bind ?_
  intro m1 d1 r1 e1 g1
  refine Lives.field_bind ?_
  intro m2 d2 r2 e2 g2
  refine setField_lives (fun _ => rfl) ?_
  intro m3 d3 r3 e3 g3
  refine signWith_lives L (show KeyValid E { ecdsa := some key } from hk) ?_
  intro sig m4 d4 r4 e4 g4
  exact Lives.pure trivial

theorem handleAuthenticate_lives (L : Laws E) {control : UInt8} {request challenge application handle : Bytes}
    (hd : U2f.decodeAuthenticate request = .ok (challenge, application, handle))
    (ho : E.decodeBox handle = none ∨ Issued E cfg.deviceKey handle) :
    Lives E cfg Ends b d (handleAuthenticate E control request) m := by
  unfold handleAuthenticate
  refine Lives.lift_bind hd ?_
  dsimp only
  unfold openKeyHandle
  rcases ho with ho | ⟨box, plain, hb, hiv, hopen, hkey⟩
  · rw [ho]
    exact Lives.pure trivial
  · rw [hb]
    dsimp only
    simp only [Prog.bind_assoc, Prog.pure_bind]
    refine Lives.field_bind ?_
    intro m1 d1 r1 e1 g1
    have hob : openBox E m1.world.client.deviceKey box = .ok plain := by
      have hk := g1.key
      rw [g1.device] at hk ⊢
      unfold openBox decrypt
      rw [if_pos hk, if_pos hiv, hopen]
    refine Lives.lift_bind hob ?_
    cases hk : E.decodeKeyHandle plain with
    | none => exact Lives.pure trivial
    | some k =>
      dsimp only
      cases hder : k.privateKey with
      | none => exact Lives.pure trivial
      | some der =>
        dsimp only
        split
        · exact Lives.pure trivial
        · obtain ⟨key, hp, hv⟩ := hkey k der hk hder
          rw [hp]
          dsimp only
          split
          · exact Lives.pure trivial
          · split
            · refine approve_lives ?_
              intro x m2 d2 r2 e2 g2
              split
              · exact Lives.pure trivial
              · exact finishAuthenticate_lives L hv
            · split
              · exact finishAuthenticate_lives L hv
              · exact Lives.pure trivial

/-! ### All operations -/

/-- How often the operation may lower the retries. -/
def allowance (E : Env) (op : Op) : Nat := if tries E op then 1 else 0

theorem handleCtap_lives (L : Laws E) {msg : Bytes} (h : HarmlessCtap E msg) :
    Lives E cfg Ends (allowance E (.ctap msg)) d (handleCtap E msg) m := by
  cases h with
  | makeCredential hd hrp hu => exact handleMakeCredential_lives L hd hrp hu
  | getAssertion data => exact handleGetAssertion_lives L data
  | getInfo data => exact handleGetInfo_lives
  | @clientPIN data h =>
    refine handleClientPIN_lives L h ?_
    intro args hd hs
    have : tries E (.ctap (6 :: data)) = true := by
      simp only [tries, hd]
      rcases hs with hs | hs <;> simp [hs]
    unfold allowance
    rw [if_pos this]
    simp

theorem handleU2f_lives (L : Laws E) {msg : Bytes} (h : HarmlessU2f E cfg.deviceKey msg) :
    Lives E cfg Ends b d (handleU2f E msg) m := by
  unfold handleU2f
  rcases U2f.decodeMessage_frame msg with ⟨header, data, n, hd, -, hu⟩ | ⟨c, -, hf⟩
  · refine Lives.lift_bind hd ?_
    dsimp only
    cases h with
    | version hf =>
      obtain ⟨h1, -, -⟩ := hu _ _ _ hf
      rw [if_pos h1.symm]
      exact Lives.pure trivial
    | register hf hl =>
      obtain ⟨h1, -, rfl⟩ := hu _ _ _ hf
      rw [← h1, if_neg (by decide), if_pos rfl]
      exact handleRegister_lives L hl
    | @authenticate p1 data' challenge application handle hf hfl ho =>
      obtain ⟨h1, -, rfl⟩ := hu _ _ _ hf
      rw [← h1, if_neg (by decide), if_neg (by decide), if_pos rfl]
      rcases U2f.decodeAuthenticate_fields data' with ⟨c, a, hh, hda, hff⟩ | ⟨q, -, hno⟩
      · obtain ⟨rfl, rfl, rfl⟩ := U2f.fields_unique hfl hff
        exact handleAuthenticate_lives L hda ho
      · exact absurd ⟨_, _, _, hfl⟩ hno
  · exact absurd (by
      cases h with
      | version hf => exact ⟨_, _, _, hf⟩
      | register hf hl => exact ⟨_, _, _, hf⟩
      | authenticate hf hfl ho => exact ⟨_, _, _, hf⟩) hf

theorem perform_lives (L : Laws E) {op : Op} (h : Harmless E cfg.deviceKey op)
    (hg : Fine E cfg (allowance E op) m d) :
    Lives E cfg Ends (allowance E op) d (perform E op) m := by
  cases op with
  | ctap msg => exact Lives.bind hg (handleCtap_lives L h) (fun _ _ _ _ _ _ _ _ => Lives.pure trivial)
  | u2f msg => exact Lives.bind hg (handleU2f_lives L h) (fun _ _ _ _ _ _ _ _ => Lives.pure trivial)
  | enablePIN =>
    unfold perform enablePIN
    dsimp only
    rw [Prog.bind_assoc]
    refine setField_lives (fun _ => rfl) ?_
    intro m1 d1 _ _ _
    refine saveData_lives L ?_
    intros
    exact Lives.pure trivial
  | disablePIN =>
    unfold perform disablePIN
    dsimp only
    rw [Prog.bind_assoc]
    refine setField_lives (fun _ => rfl) ?_
    intro m1 d1 _ _ _
    refine saveData_lives L ?_
    intros
    exact Lives.pure trivial
  | setPIN pin =>
    unfold perform setPIN
    refine setPINHash_lives L ?_
    intros
    exact Lives.pure trivial
  | deleteIdentity id =>
    unfold perform
    refine deleteIdentity_lives L ?_
    intros
    exact Lives.pure trivial
  | restart => exact Lives.pure trivial

end VF.Fido.Overlap
