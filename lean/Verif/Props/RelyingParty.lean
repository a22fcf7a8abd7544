import Verif.Proofs.RelyingParty
import Verif.Props.Restart

/-!
# C119: a relying party that checks everything accepts what the device answers
-/

namespace VF.Props

open VF.Fido VF.Fido.Device VF.Spec.Client VF.Spec.Vault VF.Spec.History VF.Spec.Ctap VF.Spec.Store
open VF.Spec.RelyingParty

variable {E : Env} {cfg : Client.Config}

theorem see_ids (p : Party) (l : List Record) (e : Op × Reply) :
    ∀ r ∈ l, ∃ r' ∈ see E p l e, r'.id = r.id := by
  intro r hr
  obtain ⟨op, reply⟩ := e
  rcases see_cases E p l op reply with e | ⟨_, _, _, r', -, -, -, -, -, e⟩ |
    ⟨_, _, _, r', -, -, -, -, -, e⟩
  · rw [e]; exact ⟨r, hr, rfl⟩
  · rw [e]; exact ⟨r, List.mem_append_left _ hr, rfl⟩
  · rw [e]
    refine ⟨_, List.mem_map.2 ⟨r, hr, rfl⟩, ?_⟩
    split
    · rename_i h; exact h.symm
    · rfl

theorem foldl_see_ids (p : Party) (es : List (Op × Reply)) :
    ∀ (l : List Record), ∀ r ∈ l, ∃ r' ∈ es.foldl (see E p) l, r'.id = r.id := by
  induction es with
  | nil => exact fun l r hr => ⟨r, hr, rfl⟩
  | cons e es ih =>
    intro l r hr
    obtain ⟨r', h1, h2⟩ := see_ids (E := E) p l e r hr
    obtain ⟨r'', h3, h4⟩ := ih _ r' h1
    exact ⟨r'', h3, h4.trans h2⟩

/-- The issuer of the certificates of a device that can attest. -/
theorem anchor_signs (L : Laws E) {c : Client} {k : ECPriv} {cert : Bytes} {n : Nat} {anchor : PubKey}
    (hat : CanAttest E c) (ha : Cose.publicOf c.certKey = .ok anchor)
    (h : Cose.createAttestationCert E c.cert c.certKey { ecdsa := some k } n = .ok (some cert)) :
    E.certSignedBy cert anchor = true := by
  obtain ⟨issuer, e1, e2, -⟩ := hat
  rw [e1] at ha h
  simp only [Cose.createAttestationCert, Cose.publicOf, Cose.extractPublicKey, Cose.extractPrivateKey,
    Res.bind_ok] at h
  cases hcc : E.createCert (Cose.attestationTemplate E n) (some c.cert) { ecdsa := some k.pub } { ecdsa := some issuer } n with
  | none => rw [hcc] at h; simp at h
  | some c' =>
    rw [hcc] at h
    simp only at h
    split at h
    · obtain rfl := Option.some.inj (Res.ok.inj h)
      exact L.createCert_signed _ _ _ _ _ _ _ hcc e2 ha
    · simp at h

/-- A device that goes on running. -/
theorem live_change (L : Laws E) {d : Device} {op : Op} (hr : isRestart op = false)
    (ha : (step E cfg d op).2.alive = true) :
    d.alive = true ∧ Change E op d.world.rnd (step E cfg d op).2.world.rnd d.world.client.vault
      (step E cfg d op).2.world.client.vault := by
  cases hal : d.alive with
  | false =>
    rw [step_dead (E := E) (cfg := cfg) hr hal] at ha
    rw [hal] at ha
    cases ha
  | true =>
    refine ⟨rfl, ?_⟩
    have e := step_live (E := E) (cfg := cfg) hr hal
    obtain ⟨o1, o2⟩ := perform_out L op d.world
    rw [e] at ha ⊢
    cases hx : (perform E op d.world).1 with
    | panic c => rw [hx] at ha; cases ha
    | ok r =>
      rw [hx] at o2
      dsimp only
      cases o2 with
      | kept hs hc => exact .same hc.2.2.2.2.2.symm
      | saved blob m n hs hv hh hch => exact hch
      | lost c hr' hs => cases hr'

/-- The anchor is the public key of the attestation key the device was configured with. -/
theorem anchor_kept (L : Laws E) {d : Device} {anchor : PubKey}
    (hat : CanAttest E (boot E cfg).world.client) (ha : Cose.publicOf cfg.certKey = .ok anchor)
    (hk : Keeps E cfg d) (hal : d.alive = true) :
    CanAttest E d.world.client ∧ Cose.publicOf d.world.client.certKey = .ok anchor := by
  have h := attests_keeps hat hk hal
  refine ⟨h, ?_⟩
  obtain ⟨c, -, -, ⟨-, -, k3⟩, h4⟩ := hk
  obtain rfl := h4 hal
  obtain ⟨issuer, e1, -, -⟩ := hat
  have e1 : cfg.certKey = { ecdsa := some issuer } := e1
  obtain ⟨i2, e2, -, -⟩ := h
  rw [e1] at ha
  have := k3.1
  rw [e1, e2] at this
  dsimp only at this
  rw [e2, ← Option.some.inj this]
  exact ha

/-- **Registration.**  Whatever happened before (restarts and crashes included): every successful
answer to MakeCredential passes all the checks of the relying party it is for, if the party trusts the
issuer the device was configured with, and the user verification it may demand was asked for. -/
theorem C119_registration_accepted (L : Laws E) (hu : Usable E cfg)
    (hat : CanAttest E (boot E cfg).world.client) (p : Party)
    (hanchor : Cose.publicOf cfg.certKey = .ok p.anchor) (ops : List Op) {data body : Bytes}
    {d d' : Device} {args : MakeCredArgs} {rp : RPEntity}
    (hd : after E cfg (boot E cfg) ops = d)
    (h : step E cfg d (.ctap (0x01 :: data)) = (.answer (0 :: body), d'))
    (hargs : E.decodeMakeCred data = some args) (hrp : args.rp = some rp) (hid : rp.id = p.id)
    (huv : p.demandsUV = true → d.world.client.pinEnabled = true ∧ args.pinAuth ≠ none)
    (hdraws : DistinctDraws E d'.world.rnd) (huses : ops.countP isGetAssertion < 2 ^ 32) :
    ∃ r, register E p (records E p (events E cfg (boot E cfg) ops)) args (0 :: body) = some r := by
  subst hd
  obtain ⟨hal, -, hm⟩ := ctap_answered h
  obtain ⟨args', rp', k, cert, ad, flags, q1, q2, q3, q4, q5, -, q7, q8, q9, ⟨n, q10⟩, -, q12⟩ :=
    register_eq L hm
  obtain rfl : args' = args := by rw [hargs] at q1; exact (Option.some.inj q1).symm
  obtain rfl : rp' = rp := by rw [hrp] at q2; exact (Option.some.inj q2).symm
  obtain ⟨a1, a2⟩ := anchor_kept L hat hanchor (keeps_reachable L hu ops) hal
  have hf := follows_reachable L hu p ops
    (fun i j hi hj => hdraws i j (by omega) (by omega)) huses
  obtain ⟨c, -, -, hf, -⟩ := hf
  rw [q12, if_pos]
  · exact ⟨_, rfl⟩
  refine ⟨?_, ?_, anchor_signs L a1 a2 q10, ?_⟩
  · simp only [genuine, q8, q9, hid, Bool.and_eq_true, beq_self_eq_true, true_and, Bool.or_eq_true,
      Bool.not_eq_true']
    cases hdem : p.demandsUV with
    | false => exact .inl rfl
    | true =>
      right
      obtain ⟨h1, h2⟩ := huv hdem
      refine q5.2 ?_
      rcases Ctap.makeCredentialPIN_ok q4 with ⟨g, -⟩ | ⟨-, -, g⟩ | ⟨-, g, -⟩
      · rw [h1] at g; cases g
      · exact g
      · exact absurd g h2
  · simp only [Client.supported, List.any_eq_true, Bool.and_eq_true, beq_iff_eq] at q3
    obtain ⟨q, hq, e, -⟩ := q3
    exact ⟨q, hq, e⟩
  · intro r hr e
    obtain ⟨i, h1, h2⟩ := hf.known r hr
    rw [h2] at e
    have := hdraws i _ (by omega) q7 e
    omega

/-- **Login.**  Whatever happened before (restarts and crashes included): every successful
answer to GetAssertion for a relying party passes all the checks of this party, if the answer names a credential registered with it, and
the user's presence, and user verification if the party demands it, were asked for.  In particular the counter is higher than the party has
seen, and the signature is right. -/
theorem C119_login_accepted (L : Laws E) (hu : Usable E cfg) (p : Party) (ops : List Op)
    {data body id authData sig : Bytes} {d d' : Device} {args : GetAssertionArgs}
    (hd : after E cfg (boot E cfg) ops = d)
    (h : step E cfg d (.ctap (0x02 :: data)) = (.answer (0 :: body), d'))
    (hargs : E.decodeGetAssertion data = some args) (hid : args.rpId = p.id)
    (ha : IsAssertion (0 :: body) id authData sig)
    (hknown : ∃ r ∈ records E p (events E cfg (boot E cfg) ops), r.id = id)
    (hup : args.up ≠ some false)
    (huv : p.demandsUV = true → d.world.client.pinEnabled = true ∧ args.pinAuth ≠ none)
    (hdraws : DistinctDraws E d.world.rnd) (huses : ops.countP isGetAssertion + 1 < 2 ^ 32) :
    ∃ r, login E p (records E p (events E cfg (boot E cfg) ops)) args (0 :: body) = some r ∧
      r.id = id := by
  subst hd
  have hi := follows_reachable L hu p ops hdraws (by omega)
  obtain ⟨args', i, s, rp, flags, authData', sig', ad, key, q1, q2, q3, q4, q5, q6, q7, q8, q9, q10,
      q11, q12, q13⟩ := follows_assertion L h (by omega) hi
  obtain rfl : args' = args := by rw [hargs] at q1; exact (Option.some.inj q1).symm
  obtain rfl : s.id = id := by
    obtain ⟨b1, e1, g1⟩ := ha
    obtain ⟨b2, e2, g2⟩ := q6
    rw [e1] at e2
    obtain rfl := (List.cons.inj e2).2
    rw [g1] at g2
    have := Option.some.inj g2
    simp only [VF.Cbor.map.injEq, List.cons.injEq, Prod.mk.injEq, VF.Cbor.bytes.injEq, true_and,
      and_true] at this
    exact this.1.symm
  obtain ⟨c, -, -, hf, hc⟩ := hi
  obtain rfl := hc (ctap_answered h).1
  generalize records E p (events E cfg (boot E cfg) ops) = l at *
  rw [login_eq q6 q7]
  cases hfind : l.find? (fun r => r.id == s.id) with
  | none =>
    obtain ⟨r, hr, e⟩ := hknown
    rw [List.find?_eq_none] at hfind
    exact absurd (by simpa using e) (hfind r hr)
  | some r =>
    have hr := List.mem_of_find?_eq_some hfind
    have hrid : r.id = s.id := by simpa using List.find?_some hfind
    obtain ⟨g1, g2⟩ := hf.agree s (List.mem_of_getElem? q2.1) r hr hrid
    simp only [Option.bind_some]
    rw [if_pos]
    · exact ⟨_, rfl, hrid⟩
    refine ⟨?_, ?_, ?_, .inr (by omega)⟩
    · cases hl : args'.allowList with
      | none => rfl
      | some al =>
        obtain ⟨x, hx, e⟩ := q2.2.1.2 al hl
        simp only [allowed, List.any_eq_true, beq_iff_eq]
        exact ⟨x, hx, e⟩
    · simp only [genuine, q8, q9.1 hup, hid, Bool.and_eq_true, beq_self_eq_true, true_and,
        Bool.or_eq_true, Bool.not_eq_true']
      cases hdem : p.demandsUV with
      | false => exact .inl rfl
      | true =>
        right
        obtain ⟨h1, h2⟩ := huv hdem
        refine q10.2 ?_
        rcases Ctap.getAssertionPIN_ok q4 with ⟨g, -⟩ | ⟨-, -, g⟩ | ⟨-, g, -⟩
        · rw [h1] at g; cases g
        · exact g
        · exact absurd g h2
    · rw [q12] at g1
      rw [← Option.some.inj g1]
      exact q13

/-! ## In one process -/

theorem live_prefix (L : Laws E) {d : Device} {ops : List Op} (hno : ∀ op ∈ ops, op ≠ .restart)
    (ha : (after E cfg d ops).alive = true) : d.alive = true := by
  induction ops generalizing d with
  | nil => exact ha
  | cons op ops ih =>
    rw [after_cons] at ha
    have h1 := ih (fun o ho => hno o (List.mem_cons_of_mem _ ho)) ha
    refine (live_change L ?_ h1).1
    cases op with
    | restart => exact absurd rfl (hno _ (List.mem_cons_self ..))
    | _ => rfl

/-- The party knows every credential in the vault that is for it. -/
def KnowsAll (p : Party) (l : List Record) (v : List Source) : Prop :=
  ∀ s ∈ v, s.rp.map (·.id) = some p.id → ∃ r ∈ l, r.id = s.id

theorem knowsAll_step (L : Laws E) {N : Nat} (hdraws : DistinctDraws E N)
    (hat : CanAttest E (boot E cfg).world.client) (p : Party)
    (hanchor : Cose.publicOf cfg.certKey = .ok p.anchor) (hpuv : p.demandsUV = false)
    {l : List Record} {k : Nat} {d : Device} {op : Op} (hr : op ≠ .restart)
    (hN : (step E cfg d op).2.world.rnd ≤ N)
    (hk : Keeps E cfg d) (hf : Inv E cfg (Follows E l k) d) (ha : (step E cfg d op).2.alive = true)
    (h : KnowsAll p l d.world.client.vault) :
    KnowsAll p (see E p l (op, (step E cfg d op).1)) (step E cfg d op).2.world.client.vault := by
  have hr' : isRestart op = false := by
    cases op with
    | restart => exact absurd rfl hr
    | _ => rfl
  obtain ⟨hal, hch⟩ := live_change L hr' ha
  have old : ∀ s : Source, (∃ r ∈ l, r.id = s.id) →
      ∃ r ∈ see E p l (op, (step E cfg d op).1), r.id = s.id := by
    rintro s ⟨r, h1, h2⟩
    obtain ⟨r', h3, h4⟩ := see_ids (E := E) p l (op, (step E cfg d op).1) r h1
    exact ⟨r', h3, h4.trans h2⟩
  generalize hv : (step E cfg d op).2.world.client.vault = v at hch ⊢
  cases hch with
  | same e => rw [e]; exact fun s hs e => old s (h s hs e)
  | used i e ho =>
    rw [e]
    intro s hs e
    obtain ⟨t, h1, h2⟩ := Ctap.mem_bump hs
    have h3 : t.rp = s.rp ∧ t.id = s.id := by rcases h2 with rfl | rfl <;> exact ⟨rfl, rfl⟩
    rw [← h3.1] at e
    obtain ⟨r, h4, h5⟩ := h t h1 e
    exact old s ⟨r, h4, h5.trans h3.2⟩
  | removed s e ho =>
    intro t ht et
    exact old t (h t (e.mem_iff.2 (List.mem_cons_of_mem _ ht)) et)
  | added rp user e hn ho =>
    have hop : ∃ data, op = .ctap (1 :: data) := by
      unfold isMakeCredential at ho
      split at ho
      · exact ⟨_, rfl⟩
      · cases ho
    obtain ⟨data, rfl⟩ := hop
    obtain ⟨a1, a2⟩ := anchor_kept L hat hanchor hk hal
    obtain ⟨c, hh, -, hf, hc⟩ := hf
    obtain rfl := hc hal
    have est := step_live (E := E) (cfg := cfg) (op := .ctap (1 :: data)) rfl hal
    rw [perform_ctap'] at est
    rcases make_ends L data hh a1 with ⟨e', w', -, hm, hw⟩ | ⟨c, w', hm, -⟩ | ⟨body, w', hm⟩
    · exfalso
      rw [est, hm] at hv
      dsimp only [outcome] at hv
      rw [hw, e] at hv
      have := congrArg List.length hv
      simp at this
    · exfalso
      rw [est, hm] at ha
      cases ha
    · rw [hm] at est
      dsimp only [outcome] at est
      rw [est] at hv hN ⊢
      dsimp only at hv hN
      obtain ⟨args', rp', key, cert, ad, flags, q1, q2, q3, q4, q5, q6, q7, q8, q9, ⟨n, q10⟩, -, q12⟩ :=
        register_eq L hm
      rw [← hv, q6]
      intro s hs es
      rcases List.mem_append.1 hs with hs | hs
      · obtain ⟨r, h1, h2⟩ := h s hs es
        obtain ⟨r', h3, h4⟩ := see_ids (E := E) p l (.ctap (1 :: data), .answer (0 :: body)) r h1
        exact ⟨r', h3, h4.trans h2⟩
      · obtain rfl := List.mem_singleton.1 hs
        dsimp only [Option.map_some] at es
        have es := Option.some.inj es
        have hreg : register E p l args' (0 :: body) =
            some ⟨E.rand d.world.rnd 16, key.pub.x, key.pub.y, 0⟩ := by
          rw [q12, if_pos]
          refine ⟨?_, ?_, anchor_signs L a1 a2 q10, ?_⟩
          · simp [genuine, q8, q9, es, hpuv]
          · simp only [Client.supported, List.any_eq_true, Bool.and_eq_true, beq_iff_eq] at q3
            obtain ⟨q, hq, e, -⟩ := q3
            exact ⟨q, hq, e⟩
          · intro r hr e
            obtain ⟨i, h1, h2⟩ := hf.known r hr
            rw [h2] at e
            have := hdraws i _ (by omega) (by omega) e
            omega
        refine ⟨⟨E.rand d.world.rnd 16, key.pub.x, key.pub.y, 0⟩, ?_, rfl⟩
        simp only [see, q1, q2, Option.map_some, es, if_true, hreg, Option.toList_some]
        exact List.mem_append_right _ (List.mem_singleton.2 rfl)

theorem knowsAll_after (L : Laws E) {N : Nat} (hdraws : DistinctDraws E N)
    (hat : CanAttest E (boot E cfg).world.client) (p : Party)
    (hanchor : Cose.publicOf cfg.certKey = .ok p.anchor) (hpuv : p.demandsUV = false) :
    ∀ (ops : List Op) (l : List Record) (k : Nat) (d : Device), (∀ op ∈ ops, op ≠ .restart) →
      k + ops.countP isGetAssertion < 4294967296 → (after E cfg d ops).world.rnd ≤ N →
      Keeps E cfg d → Inv E cfg (Follows E l k) d → (after E cfg d ops).alive = true →
      KnowsAll p l d.world.client.vault →
      KnowsAll p ((events E cfg d ops).foldl (see E p) l) (after E cfg d ops).world.client.vault
  | [], l, k, d, _, _, _, _, _, _, h => h
  | op :: ops, l, k, d, hno, huses, hN, hk, hf, ha, h => by
    have hr := after_rnd (cfg := cfg) L (step E cfg d op).2 ops
    rw [after_cons] at hN ha ⊢
    rw [List.countP_cons] at huses
    rw [events_cons, List.foldl_cons]
    have hno' : ∀ o ∈ ops, o ≠ .restart := fun o ho => hno o (List.mem_cons_of_mem _ ho)
    have hf' := follows_step (op := op) L hdraws p
      (by generalize (if isGetAssertion op = true then 1 else 0) = x at *; omega) (by omega) hf
    exact knowsAll_after L hdraws hat p hanchor hpuv ops _ _ _ hno'
      (by generalize (if isGetAssertion op = true then 1 else 0) = x at *; omega) hN (keeps_step L hk) hf'
      ha (knowsAll_step L hdraws hat p hanchor hpuv (hno op (List.mem_cons_self ..)) (by omega) hk hf
        (live_prefix L hno' ha) h)

/-- **Every answer of one process is accepted.**  In one process, without restarts: every successful answer to a GetAssertion request
for a relying party, with the user's presence asked for, passes all the checks of this party, which has registered all
credentials it was shown.  (The party does not demand user verification and trusts the issuer the device was
configured with.) -/
theorem C119_all_accepted (L : Laws E) (hu : Usable E cfg)
    (hat : CanAttest E (boot E cfg).world.client) (p : Party)
    (hanchor : Cose.publicOf cfg.certKey = .ok p.anchor) (hpuv : p.demandsUV = false) (ops : List Op)
    (hno : ∀ op ∈ ops, op ≠ .restart) {data body : Bytes} {d d' : Device} {args : GetAssertionArgs}
    (hd : after E cfg (boot E cfg) ops = d)
    (h : step E cfg d (.ctap (0x02 :: data)) = (.answer (0 :: body), d'))
    (hargs : E.decodeGetAssertion data = some args) (hid : args.rpId = p.id)
    (hup : args.up ≠ some false)
    (hdraws : DistinctDraws E d.world.rnd) (huses : ops.countP isGetAssertion + 1 < 2 ^ 32) :
    ∃ r, login E p (records E p (events E cfg (boot E cfg) ops)) args (0 :: body) = some r := by
  have hi := follows_reachable L hu p ops (by rw [hd]; exact hdraws) (by omega)
  rw [hd] at hi
  obtain ⟨args', i, s, rp, flags, authData, sig, ad, key, q1, q2, q3, q4, q5, q6, q7, q8, q9, q10,
      q11, q12, q13⟩ := follows_assertion L h (by omega) hi
  obtain rfl : args' = args := by rw [hargs] at q1; exact (Option.some.inj q1).symm
  have hall := knowsAll_after L (N := d.world.rnd) hdraws hat p hanchor hpuv ops [] 0 (boot E cfg) hno
    (by omega) (by rw [hd]; exact Nat.le_refl _) (keeps_reachable L hu []) (follows_boot hu)
    (by rw [hd]; exact (ctap_answered h).1) (fun s hs => by cases hs)
  rw [hd] at hall
  have hs := List.mem_of_getElem? q2.1
  obtain ⟨rp', g1, g2⟩ := q2.2.1.1
  obtain ⟨r, h1, -⟩ := C119_login_accepted L hu p ops hd h hargs hid q6
    (hall s hs (by rw [g1]; exact congrArg some (g2.trans hid))) hup
    (fun e => by rw [hpuv] at e; cases e) hdraws huses
  exact ⟨r, h1⟩

theorem stays_step (L : Laws E) {id rpId : Bytes} {d : Device} {op : Op} (hr : op ≠ .restart)
    (hdel : op ≠ .deleteIdentity id) (ha : (step E cfg d op).2.alive = true)
    (h : ∃ s ∈ d.world.client.vault, s.id = id ∧ s.rp.map (·.id) = some rpId) :
    ∃ s ∈ (step E cfg d op).2.world.client.vault, s.id = id ∧ s.rp.map (·.id) = some rpId := by
  have hr' : isRestart op = false := by
    cases op with
    | restart => exact absurd rfl hr
    | _ => rfl
  obtain ⟨-, hch⟩ := live_change L hr' ha
  obtain ⟨s, h1, h2, h3⟩ := h
  cases hch with
  | same e => rw [e]; exact ⟨s, h1, h2, h3⟩
  | added rp user e hn ho => rw [e]; exact ⟨s, List.mem_append_left _ h1, h2, h3⟩
  | used i e ho =>
    rw [e]
    obtain ⟨j, hj⟩ := List.mem_iff_getElem?.1 h1
    by_cases hij : i = j
    · subst hij
      exact ⟨_, mem_bump_self hj, h2, h3⟩
    · refine ⟨s, List.mem_iff_getElem?.2 ⟨j, ?_⟩, h2, h3⟩
      simp [Client.bump, List.getElem?_modify, hij, hj]
  | removed t e ho =>
    rcases List.mem_cons.1 (e.mem_iff.1 h1) with rfl | h
    · exact absurd (by rw [ho, h2]) hdel
    · exact ⟨s, h, h2, h3⟩

theorem stays_after (L : Laws E) {id rpId : Bytes} :
    ∀ (ops : List Op) (d : Device), (∀ op ∈ ops, op ≠ .restart ∧ op ≠ .deleteIdentity id) →
      (after E cfg d ops).alive = true →
      (∃ s ∈ d.world.client.vault, s.id = id ∧ s.rp.map (·.id) = some rpId) →
      ∃ s ∈ (after E cfg d ops).world.client.vault, s.id = id ∧ s.rp.map (·.id) = some rpId
  | [], d, _, _, h => h
  | op :: ops, d, hno, ha, h => by
    rw [after_cons] at ha ⊢
    have hno' : ∀ o ∈ ops, o ≠ .restart ∧ o ≠ .deleteIdentity id :=
      fun o ho => hno o (List.mem_cons_of_mem _ ho)
    have h1 := hno op (List.mem_cons_self ..)
    exact stays_after L ops _ hno' ha
      (stays_step L h1.1 h1.2 (live_prefix L (fun o ho => (hno' o ho).1) ha) h)

/-- **Who registered can log in.**  A relying party accepted a registration (after any history, with restarts and
crashes).  Then anything may happen in the same process but a deletion of this credential: other
registrations and logins with any relying parties, successful or not, changes of the PIN, U2F.  As long as the
process did not panic, a login request for this credential that meets the PIN rules is answered, as
soon as the user agrees, and the relying party accepts the answer. -/
theorem C119_registered_can_login (L : Laws E) (hu : Usable E cfg) (p : Party) (pre mid : List Op)
    {data1 b1 data2 : Bytes} {d1 d2 d3 : Device} {args1 : MakeCredArgs} {args2 : GetAssertionArgs}
    {r : Record} {desc : Descriptor}
    (h1 : after E cfg (boot E cfg) pre = d1)
    (h2 : step E cfg d1 (.ctap (0x01 :: data1)) = (.answer b1, d2))
    (hargs1 : E.decodeMakeCred data1 = some args1) (hid1 : args1.rp.map (·.id) = some p.id)
    (hreg : register E p (records E p (events E cfg (boot E cfg) pre)) args1 b1 = some r)
    (h3 : after E cfg d2 mid = d3)
    (hmid : ∀ op ∈ mid, op ≠ .restart ∧ op ≠ .deleteIdentity r.id) (halive : d3.alive = true)
    (hargs2 : E.decodeGetAssertion data2 = some args2) (hid2 : args2.rpId = p.id)
    (hallow : args2.allowList = some [desc]) (hdesc : desc.id = r.id)
    (hpin : AssertionPinOk E d3.world.client args2)
    (huv : p.demandsUV = true → d3.world.client.pinEnabled = true ∧ args2.pinAuth ≠ none)
    (hup : args2.up ≠ some false)
    (happrove : ∀ rp user, E.approve d3.world.asks .getAssertion rp user = true)
    (hdraws : DistinctDraws E d3.world.rnd)
    (huses : pre.countP isGetAssertion + mid.countP isGetAssertion + 1 < 2 ^ 32) :
    ∃ body d4 r', step E cfg d3 (.ctap (0x02 :: data2)) = (.answer (0 :: body), d4) ∧
      login E p (records E p (events E cfg (boot E cfg) (pre ++ .ctap (0x01 :: data1) :: mid))) args2
        (0 :: body) = some r' ∧ r'.id = r.id := by
  have hb1 : ∃ body1, b1 = 0 :: body1 := by
    unfold register at hreg
    split at hreg
    · exact ⟨_, rfl⟩
    · cases hreg
  obtain ⟨body1, rfl⟩ := hb1
  obtain ⟨-, -, hm⟩ := ctap_answered h2
  obtain ⟨args', rp, key, cert, ad, flags, q1, q2, q3, q4, q5, q6, q7, q8, q9, -, -, q12⟩ :=
    register_eq L hm
  obtain rfl : args' = args1 := by rw [hargs1] at q1; exact (Option.some.inj q1).symm
  have hrid : r.id = E.rand d1.world.rnd 16 := by
    rw [q12] at hreg
    split at hreg
    · rw [← Option.some.inj hreg]
    · cases hreg
  have hs2 : ∃ s ∈ d2.world.client.vault, s.id = r.id ∧ s.rp.map (·.id) = some p.id := by
    rw [q6]
    refine ⟨_, List.mem_append_right _ (List.mem_singleton.2 rfl), hrid.symm, ?_⟩
    rw [← hid1, q2]
  obtain ⟨s, hs, hsid, hsrp⟩ := stays_after (rpId := p.id) L mid d2 hmid (by rw [h3]; exact halive) hs2
  rw [h3] at hs
  have hall : after E cfg (boot E cfg) (pre ++ .ctap (0x01 :: data1) :: mid) = d3 := by
    rw [after_append, h1, after_cons, h2]
    exact h3
  have hcount : (pre ++ .ctap (0x01 :: data1) :: mid).countP isGetAssertion + 1 < 2 ^ 32 := by
    rw [List.countP_append, List.countP_cons]
    have : isGetAssertion (.ctap (0x01 :: data1)) = false := rfl
    rw [this]
    simpa [Nat.add_assoc] using huses
  have hi := follows_reachable L hu p (pre ++ .ctap (0x01 :: data1) :: mid)
    (by rw [hall]; exact hdraws) (by omega)
  rw [hall] at hi
  have hh : Healthy E d3.world.client := by
    obtain ⟨c, hh, -, -, hc⟩ := hi
    rw [← hc halive]; exact hh
  obtain ⟨rp2, e1, e2⟩ := Option.map_eq_some_iff.1 hsrp
  obtain ⟨fl, hfl⟩ := (assertionPinOk_iff E d3.world.client args2).1 hpin
  obtain ⟨body, w', hm2⟩ := Ctap.getAssertion_succeeds L (w := d3.world) hh hargs2 hfl
    ⟨s, hs, ⟨rp2, e1, e2.trans hid2.symm⟩, by
      intro l hl
      rw [hallow] at hl
      obtain rfl := Option.some.inj hl
      exact ⟨desc, List.mem_singleton.2 rfl, hdesc.trans hsid.symm⟩⟩ (.inr happrove)
  have hst : step E cfg d3 (.ctap (0x02 :: data2)) = (.answer (0 :: body), ⟨w', true⟩) := by
    rw [step_live rfl halive, perform_ctap', hm2]
    rfl
  obtain ⟨args', i, t, rp', flags', authData, sig, ad', key', g1, g2, g3, g4, g5, g6, -⟩ :=
    follows_assertion L hst (by omega) hi
  obtain rfl : args' = args2 := by rw [hargs2] at g1; exact (Option.some.inj g1).symm
  have htid : t.id = r.id := by
    obtain ⟨x, hx, e⟩ := g2.2.1.2 _ hallow
    rw [List.mem_singleton.1 hx] at e
    exact e.symm.trans hdesc
  have hknown : ∃ r' ∈ records E p (events E cfg (boot E cfg) (pre ++ .ctap (0x01 :: data1) :: mid)),
      r'.id = t.id := by
    have hev : events E cfg (boot E cfg) (pre ++ .ctap (0x01 :: data1) :: mid) =
        events E cfg (boot E cfg) pre ++ (.ctap (0x01 :: data1), .answer (0 :: body1)) ::
          events E cfg d2 mid := by
      have app : ∀ (xs ys : List Op) (d : Device), events E cfg d (xs ++ ys) =
          events E cfg d xs ++ events E cfg (after E cfg d xs) ys := by
        intro xs
        induction xs with
        | nil => intro ys d; rfl
        | cons x xs ih =>
          intro ys d
          rw [List.cons_append, events_cons, events_cons, ih, after_cons]
          rfl
      rw [app, events_cons, h1, h2]
    rw [hev, records, List.foldl_append, List.foldl_cons]
    obtain ⟨r', z1, z2⟩ := foldl_see_ids (E := E) p (events E cfg d2 mid) (see E p (records E p
        (events E cfg (boot E cfg) pre)) (.ctap (0x01 :: data1), .answer (0 :: body1))) r (by
      simp only [see, hargs1, hid1, if_true]
      rw [hreg]
      exact List.mem_append_right _ (List.mem_singleton.2 rfl))
    exact ⟨r', z1, z2.trans htid.symm⟩
  obtain ⟨r', z1, z2⟩ := C119_login_accepted L hu p _ hall hst hargs2 hid2 g6 hknown hup huv hdraws hcount
  exact ⟨body, _, r', hst, z1, z2.trans htid⟩

/-! ## Across a restart -/

/-- What a party has registered is for it. -/
def OwnOnly (p : Party) (l : List Record) (v : List Source) : Prop :=
  ∀ s ∈ v, ∀ r ∈ l, r.id = s.id → s.rp.map (·.id) = some p.id

theorem ownOnly_step (L : Laws E) {N : Nat} (hdraws : DistinctDraws E N) (p : Party)
    {l : List Record} {k : Nat} {d : Device} {op : Op} (hr : op ≠ .restart)
    (hk : k + (if isGetAssertion op then 1 else 0) < 4294967296)
    (hN : (step E cfg d op).2.world.rnd ≤ N)
    (hf : Inv E cfg (Follows E l k) d) (ha : (step E cfg d op).2.alive = true)
    (h : OwnOnly p l d.world.client.vault) :
    OwnOnly p (see E p l (op, (step E cfg d op).1)) (step E cfg d op).2.world.client.vault := by
  have hr' : isRestart op = false := by
    cases op with
    | restart => exact absurd rfl hr
    | _ => rfl
  obtain ⟨hal, hch⟩ := live_change L hr' ha
  have hf' := follows_step (op := op) L hdraws p hk hN hf
  obtain ⟨c, -, -, hf, hc⟩ := hf
  obtain rfl := hc hal
  obtain ⟨c', -, -, hf', hc'⟩ := hf'
  obtain rfl := hc' ha
  have old : OwnOnly p l (step E cfg d op).2.world.client.vault := by
    generalize (step E cfg d op).2.world.client.vault = v at *
    cases hch with
    | same e => rw [e]; exact h
    | used i e ho =>
      rw [e]
      intro s hs r hr e
      obtain ⟨t, h1, h2⟩ := Ctap.mem_bump hs
      have h3 : t.rp = s.rp ∧ t.id = s.id := by rcases h2 with rfl | rfl <;> exact ⟨rfl, rfl⟩
      rw [← h3.1]
      exact h t h1 r hr (e.trans h3.2.symm)
    | removed s e ho =>
      exact fun t ht => h t (e.mem_iff.2 (List.mem_cons_of_mem _ ht))
    | added rp user e hn ho =>
      rw [e]
      intro s hs r hr es
      rcases List.mem_append.1 hs with hs | hs
      · exact h s hs r hr es
      · obtain rfl := List.mem_singleton.1 hs
        obtain ⟨i, h1, h2⟩ := hf.known r hr
        rw [h2] at es
        have es : E.rand i 16 = E.rand d.world.rnd 16 := es
        have := hdraws i _ (by omega) (by omega) es
        omega
  rcases see_cases E p l op (step E cfg d op).1 with e | ⟨data, body, args, r, rfl, e1, e2, e3, e4, e⟩ |
    ⟨data, body, args, r, rfl, e1, e2, e3, e4, e⟩
  · rw [e]; exact old
  · rw [e]
    have hst : step E cfg d (.ctap (1 :: data)) =
        (.answer (0 :: body), (step E cfg d (.ctap (1 :: data))).2) := by rw [← e1]
    obtain ⟨-, -, hm⟩ := ctap_answered hst
    obtain ⟨args', rp, key, cert, ad, flags, q1, q2, -, -, -, q6, q7, -, -, -, q11, q12⟩ :=
      register_eq L hm
    obtain rfl : args' = args := by rw [e2] at q1; exact (Option.some.inj q1).symm
    intro s hs r' hr' es
    rcases List.mem_append.1 hr' with hr' | hr'
    · exact old s hs r' hr' es
    · obtain rfl := List.mem_singleton.1 hr'
      rw [q12] at e4
      split at e4
      · have hid : r'.id = E.rand d.world.rnd 16 := by rw [← Option.some.inj e4]
        obtain rfl := eq_of_id hf'.ids hs (y := ⟨ascii "public-key", E.rand d.world.rnd 16,
          { ecdsa := some key }, some rp, args'.user, 0⟩) (by rw [q6]; simp) (es.symm.trans hid)
        rw [← e3, q2]
      · cases e4
  · rw [e]
    intro s hs r' hr' es
    obtain ⟨o, ho, rfl⟩ := List.mem_map.1 hr'
    refine old s hs o ho ?_
    rw [← es]
    split
    · rename_i e; exact e
    · rfl

theorem ownOnly_after (L : Laws E) {N : Nat} (hdraws : DistinctDraws E N) (p : Party) :
    ∀ (ops : List Op) (l : List Record) (k : Nat) (d : Device), (∀ op ∈ ops, op ≠ .restart) →
      k + ops.countP isGetAssertion < 4294967296 → (after E cfg d ops).world.rnd ≤ N →
      Inv E cfg (Follows E l k) d → (after E cfg d ops).alive = true →
      OwnOnly p l d.world.client.vault →
      OwnOnly p ((events E cfg d ops).foldl (see E p) l) (after E cfg d ops).world.client.vault
  | [], l, k, d, _, _, _, _, _, h => h
  | op :: ops, l, k, d, hno, huses, hN, hf, ha, h => by
    have hr := after_rnd (cfg := cfg) L (step E cfg d op).2 ops
    rw [after_cons] at hN ha ⊢
    rw [List.countP_cons] at huses
    rw [events_cons, List.foldl_cons]
    have hno' : ∀ o ∈ ops, o ≠ .restart := fun o ho => hno o (List.mem_cons_of_mem _ ho)
    have hf' := follows_step (op := op) L hdraws p
      (by generalize (if isGetAssertion op = true then 1 else 0) = x at *; omega) (by omega) hf
    exact ownOnly_after L hdraws p ops _ _ _ hno'
      (by generalize (if isGetAssertion op = true then 1 else 0) = x at *; omega) hN hf'
      ha (ownOnly_step L hdraws p (hno op (List.mem_cons_self ..))
        (by generalize (if isGetAssertion op = true then 1 else 0) = x at *; omega) (by omega) hf
        (live_prefix L hno' ha) h)

/-- **Not across restarts.**  After two registrations and a restart, the first party asks for a login and is told
that there is no credential, although it has registered one, which was not deleted; and the second party
gets a successful answer that it has to reject. -/
theorem C119_restart_refuted : ∃ (E : Env) (cfg : Client.Config) (pA pB : Party)
    (makeA makeB getA getB body : Bytes) (argsA argsB : GetAssertionArgs) (d : Device),
    Laws E ∧ Usable E cfg ∧ CanAttest E (boot E cfg).world.client ∧
    Cose.publicOf cfg.certKey = .ok pA.anchor ∧ Cose.publicOf cfg.certKey = .ok pB.anchor ∧
    pA.demandsUV = false ∧ pB.demandsUV = false ∧
    after E cfg (boot E cfg) [.ctap (0x01 :: makeA), .ctap (0x01 :: makeB), .restart] = d ∧
    records E pA (events E cfg (boot E cfg)
      [.ctap (0x01 :: makeA), .ctap (0x01 :: makeB), .restart]) ≠ [] ∧
    E.decodeGetAssertion getA = some argsA ∧ argsA.rpId = pA.id ∧ argsA.up ≠ some false ∧
    (step E cfg d (.ctap (0x02 :: getA))).1 = .answer [0x2E] ∧
    E.decodeGetAssertion getB = some argsB ∧ argsB.rpId = pB.id ∧ argsB.up ≠ some false ∧
    (step E cfg d (.ctap (0x02 :: getB))).1 = .answer (0 :: body) ∧
    login E pB (records E pB (events E cfg (boot E cfg)
      [.ctap (0x01 :: makeA), .ctap (0x01 :: makeB), .restart])) argsB (0 :: body) = none := by
  obtain ⟨E, cfg, makeA, makeB, getA, getB, argsA, argsB, d, d', a, b, body, body', authData, sig, L, hu, h3,
    h4, h5, h6, h7, h8, h9, h10, h11, h12, -, h14, h15, h16, hat, hupA, hupB, hdraws⟩ := restart_witness
  have hal : d.alive = true := by
    cases hal : d.alive with
    | true => rfl
    | false =>
      rw [step_dead rfl hal] at h12; cases h12
  have hat' := hat
  obtain ⟨issuer, e1, -⟩ := hat'
  have hpub : Cose.publicOf cfg.certKey = .ok { ecdsa := some issuer.pub } := by
    have e1 : cfg.certKey = { ecdsa := some issuer } := e1
    rw [e1]; rfl
  let pA : Party := { id := ascii "example.org", anchor := { ecdsa := some issuer.pub }, demandsUV := false }
  let pB : Party := { id := ascii "other.org", anchor := { ecdsa := some issuer.pub }, demandsUV := false }
  have hev : events E cfg (boot E cfg) [.ctap (0x01 :: makeA), .ctap (0x01 :: makeB), .restart] =
      events E cfg (boot E cfg) [.ctap (0x01 :: makeA), .ctap (0x01 :: makeB)] ++
        [(.restart, .started)] := by
    rw [events_cons, events_cons, events_cons, events_cons, events_cons]
    have : (step E cfg (step E cfg (step E cfg (boot E cfg) (.ctap (0x01 :: makeA))).2
        (.ctap (0x01 :: makeB))).2 .restart).1 = .started := by
      rw [after_cons, after_cons] at h7
      rw [show (step E cfg (step E cfg (boot E cfg) (.ctap (0x01 :: makeA))).2
        (.ctap (0x01 :: makeB))).2 = d from h7, h11]
    rw [this]
    rfl
  have hrec : ∀ p, records E p (events E cfg (boot E cfg)
      [.ctap (0x01 :: makeA), .ctap (0x01 :: makeB), .restart]) =
      records E p (events E cfg (boot E cfg) [.ctap (0x01 :: makeA), .ctap (0x01 :: makeB)]) := by
    intro p
    rw [hev, records, List.foldl_append]
    rfl
  have hno : ∀ op ∈ [Op.ctap (0x01 :: makeA), .ctap (0x01 :: makeB)], op ≠ .restart := by
    intro op ho
    simp only [List.mem_cons, List.not_mem_nil, or_false] at ho
    rcases ho with rfl | rfl <;> exact fun e => nomatch e
  have hkn := knowsAll_after L (N := d.world.rnd) hdraws hat pA hpub rfl
    [.ctap (0x01 :: makeA), .ctap (0x01 :: makeB)] [] 0 (boot E cfg) hno
    (by simp [isGetAssertion]) (by rw [h7]; exact Nat.le_refl _) (keeps_reachable L hu [])
    (follows_boot hu) (by rw [h7]; exact hal) (fun s hs => by cases hs)
  have how := ownOnly_after L (N := d.world.rnd) hdraws pB
    [.ctap (0x01 :: makeA), .ctap (0x01 :: makeB)] [] 0 (boot E cfg) hno
    (by simp [isGetAssertion]) (by rw [h7]; exact Nat.le_refl _)
    (follows_boot hu) (by rw [h7]; exact hal) (fun s hs => by cases hs)
  rw [h7] at hkn how
  have ha : a ∈ d.world.client.vault := by rw [h8]; simp
  refine ⟨E, cfg, pA, pB, makeA, makeB, getA, getB, body', argsA, argsB, d', L, hu, hat,
    hpub, hpub, rfl, rfl, ?_, ?_, h3, h4, (by rw [hupA]; exact fun h => (nomatch h)), h14, h5, h6,
    (by rw [hupB]; exact fun h => (nomatch h)), h15, ?_⟩
  · show after E cfg (boot E cfg) ([.ctap (0x01 :: makeA), .ctap (0x01 :: makeB)] ++ [.restart]) = d'
    rw [after_append, h7, after_cons, h11]
    rfl
  · rw [hrec]
    obtain ⟨r, hr, -⟩ := hkn a ha h9
    intro e
    have hr : r ∈ records E pA (events E cfg (boot E cfg)
      [.ctap (0x01 :: makeA), .ctap (0x01 :: makeB)]) := hr
    rw [e] at hr
    cases hr
  · rw [hrec]
    cases hp : parseAuthData authData with
    | none =>
      obtain ⟨bd, e, hd⟩ := h16
      obtain rfl := (List.cons.inj e).2
      have f1 : ∀ a b c : Cbor, field 1 (.map [(.int 1, a), (.int 2, b), (.int 3, c)]) = some a := by
        intros; rfl
      have f2 : ∀ a b c : Cbor, field 2 (.map [(.int 1, a), (.int 2, b), (.int 3, c)]) = some b := by
        intros; rfl
      have f3 : ∀ a b c : Cbor, field 3 (.map [(.int 1, a), (.int 2, b), (.int 3, c)]) = some c := by
        intros; rfl
      simp only [login, hd, Option.bind_eq_bind, Option.bind_some, bytesField, f1, f2, f3, hp,
        Option.bind_none]
      cases (named "id" _).bind asBytes <;> rfl
    | some ad =>
      rw [login_eq h16 hp]
      have : (records E pB (events E cfg (boot E cfg)
          [.ctap (0x01 :: makeA), .ctap (0x01 :: makeB)])).find? (fun r => r.id == a.id) = none := by
        rw [List.find?_eq_none]
        intro r hr e
        have hrp := how a ha r hr (by simpa using e)
        rw [h9] at hrp
        revert hrp
        show ¬ some (ascii "example.org") = some (ascii "other.org")
        decide +kernel
      rw [this]
      rfl

/-- The theorems at work: a registration, a login, a restart and a login, all accepted. -/
theorem C119_case : ∃ (E : Env) (cfg : Client.Config) (p : Party) (make get body0 body1 body2 : Bytes)
    (margs : MakeCredArgs) (gargs : GetAssertionArgs) (r r1 r2 : Record),
    Laws E ∧ Usable E cfg ∧ CanAttest E (boot E cfg).world.client ∧
    Cose.publicOf cfg.certKey = .ok p.anchor ∧
    E.decodeMakeCred make = some margs ∧ E.decodeGetAssertion get = some gargs ∧
    (events E cfg (boot E cfg) [.ctap (0x01 :: make), .ctap (0x02 :: get), .restart,
        .ctap (0x02 :: get)]).map (·.2) =
      [.answer (0 :: body0), .answer (0 :: body1), .started, .answer (0 :: body2)] ∧
    register E p [] margs (0 :: body0) = some r ∧
    login E p [r] gargs (0 :: body1) = some r1 ∧
    login E p [r1] gargs (0 :: body2) = some r2 ∧ r1.id = r.id ∧ r2.id = r.id := by
  obtain ⟨E, cfg, make, get, body0, margs, gargs, d1, d2, d3, d4, body1, body2, id, a1, a2, g1, g2, ad1, ad2, L,
    hu, hat, h1, h2, h3, h4, h5, h6, h7, hs3, h8, h9, h10, i1, i2, i3, i4, hdraws, -⟩ :=
    Toy.login_restart_login_args
  have hat' := hat
  obtain ⟨issuer, e1, -⟩ := hat'
  have hpub : Cose.publicOf cfg.certKey = .ok { ecdsa := some issuer.pub } := by
    have e1 : cfg.certKey = { ecdsa := some issuer } := e1
    rw [e1]; rfl
  obtain ⟨p, hp⟩ : ∃ p : Party, p = ⟨ascii "example.org", { ecdsa := some issuer.pub }, false⟩ := ⟨_, rfl⟩
  have hpid : p.id = ascii "example.org" := by rw [hp]
  have hpuv : p.demandsUV = false := by rw [hp]
  have hpan : Cose.publicOf cfg.certKey = .ok p.anchor := by rw [hp]; exact hpub
  clear hp
  have n1 : d1.world.rnd ≤ d4.world.rnd := by
    have := after_rnd (cfg := cfg) L d1 [.ctap (0x02 :: get), .restart, .ctap (0x02 :: get)]
    rw [after_cons, h8, after_cons] at this
    dsimp only at this
    rw [hs3, after_cons] at this
    dsimp only at this
    rw [h10] at this
    exact this
  have n3 : d3.world.rnd ≤ d4.world.rnd := by
    have := after_rnd (cfg := cfg) L d3 [.ctap (0x02 :: get)]
    rw [after_cons, h10] at this
    exact this
  cases hrp : margs.rp with
  | none => rw [hrp] at h4; cases h4
  | some rp =>
    have hrid : rp.id = p.id := by rw [hrp] at h4; rw [hpid]; exact Option.some.inj h4
    obtain ⟨r, hr⟩ := C119_registration_accepted L hu hat p hpan [] (d := boot E cfg) rfl h2 h3 hrp hrid
      (fun e => by rw [hpuv] at e; cases e)
      (fun i j hi hj => hdraws i j (by omega) (by omega)) (by simp)
    have hr : register E p [] margs (0 :: body0) = some r := hr
    have rec1 : records E p (events E cfg (boot E cfg) [.ctap (0x01 :: make)]) = [r] := by
      rw [events_cons, h2]
      show see E p [] (.ctap (1 :: make), .answer (0 :: body0)) = [r]
      rw [see, h3]
      show (if margs.rp.map (·.id) = some p.id then _ else _) = _
      rw [if_pos (by rw [h4, hpid]), hr]
      rfl
    obtain ⟨r1, hr1⟩ := C119_all_accepted L hu hat p hpan hpuv [.ctap (0x01 :: make)]
      (by intro op ho; obtain rfl := List.mem_singleton.1 ho; exact fun e => nomatch e) h1 h8 h5
      (by rw [h6, hpid]) (by rw [h7]; exact fun e => nomatch e)
      (fun i j hi hj => hdraws i j (by omega) (by omega)) (by simp [isGetAssertion])
    rw [rec1] at hr1
    have hid : r.id = id ∧ r1.id = id := by
      have := hr1
      rw [login_eq i1 i2] at this
      cases hf : [r].find? (fun r => r.id == id) with
      | none => rw [hf] at this; cases this
      | some o =>
        rw [hf] at this
        have ho := List.mem_singleton.1 (List.mem_of_find?_eq_some hf)
        have hoi : o.id = id := by simpa using List.find?_some hf
        rw [← ho]
        refine ⟨hoi, ?_⟩
        rw [Option.bind_some] at this
        split at this
        · rw [← Option.some.inj this]; exact hoi
        · cases this
    have rec2 : records E p (events E cfg (boot E cfg)
        [.ctap (0x01 :: make), .ctap (0x02 :: get), .restart]) = [r1] := by
      rw [events_cons, h2, events_cons]
      dsimp only
      rw [h8, events_cons]
      dsimp only
      rw [hs3]
      show see E p (see E p (see E p [] (.ctap (1 :: make), .answer (0 :: body0)))
        (.ctap (2 :: get), .answer (0 :: body1))) (.restart, .started) = [r1]
      have rec1 : see E p [] (.ctap (1 :: make), .answer (0 :: body0)) = [r] := by
        rw [events_cons, h2] at rec1; exact rec1
      rw [rec1]
      show see E p [r] (.ctap (2 :: get), .answer (0 :: body1)) = [r1]
      rw [see, h5]
      show (if gargs.rpId = p.id then _ else _) = _
      rw [if_pos (by rw [h6, hpid]), hr1]
      show [if r.id = r1.id then r1 else r] = [r1]
      rw [if_pos (by rw [hid.1, hid.2])]
    have hd3 : after E cfg (boot E cfg) [.ctap (0x01 :: make), .ctap (0x02 :: get), .restart] = d3 := by
      rw [after_cons, h2, after_cons]
      dsimp only
      rw [h8]
      exact h9
    obtain ⟨r2, hr2, hid2⟩ := C119_login_accepted L hu p
      [.ctap (0x01 :: make), .ctap (0x02 :: get), .restart] hd3 h10 h5 (by rw [h6, hpid]) i3
      ⟨r1, by rw [rec2]; simp, hid.2⟩ (by rw [h7]; exact fun e => nomatch e)
      (fun e => by rw [hpuv] at e; cases e)
      (fun i j hi hj => hdraws i j (by omega) (by omega)) (by simp [isGetAssertion])
    rw [rec2] at hr2
    refine ⟨E, cfg, p, make, get, body0, body1, body2, margs, gargs, r, r1, r2, L, hu, hat, hpan, h3, h5,
      ?_, hr, hr1, hr2, by rw [hid.1, hid.2], by rw [hid.1, hid2]⟩
    rw [events_cons, h2, events_cons]
    dsimp only
    rw [h8, events_cons]
    dsimp only
    rw [hs3, events_cons]
    dsimp only
    rw [h10]
    rfl

end VF.Props
