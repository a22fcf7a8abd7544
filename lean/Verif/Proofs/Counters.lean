import Verif.Proofs.History
import Verif.Proofs.CtapSpec
import Verif.Proofs.U2fSpec

/-!
# Counters over time
-/

namespace VF.Fido.Device

open VF.Spec.Client VF.Spec.Vault VF.Spec.History VF.Spec.Ctap Client Ctap

variable {E : Env} {cfg : Config}

/-! ## Credentials -/

theorem sameCredentials_mem {v v' : List Source} (h : SameCredentials v v') {s' : Source}
    (hs : s' ∈ v') : ∃ s ∈ v, s.id = s'.id ∧ s.counter = s'.counter ∧ s.key.ecdsa = s'.key.ecdsa := by
  obtain ⟨j, hj⟩ := List.mem_iff_getElem?.1 hs
  have hl : j < v.length := by
    rw [h.1]
    exact (List.getElem?_eq_some_iff.1 hj).1
  have := h.2 j v[j] s' (List.getElem?_eq_getElem hl) hj
  exact ⟨v[j], List.getElem_mem hl, this.1, this.2.2.1, this.2.2.2.1⟩

theorem sameCredentials_ids {v v' : List Source} (h : SameCredentials v v') :
    v.map (·.id) = v'.map (·.id) := by
  apply List.ext_getElem
  · simpa using h.1
  · intro j h1 h2
    simp only [List.length_map] at h1 h2
    simp only [List.getElem_map]
    exact (h.2 j _ _ (List.getElem?_eq_getElem h1) (List.getElem?_eq_getElem h2)).1

theorem bump_ids (v : List Source) (i : Nat) : (bump v i).map (·.id) = v.map (·.id) := by
  apply List.ext_getElem?
  intro j
  simp only [bump, List.getElem?_map, List.getElem?_modify]
  cases v[j]? with
  | none => rfl
  | some s => by_cases h : i = j <;> simp [h]

theorem eq_of_id : ∀ {v : List Source}, (v.map (·.id)).Nodup → ∀ {x y : Source}, x ∈ v → y ∈ v →
    x.id = y.id → x = y
  | [], _, _, _, hx, _, _ => by cases hx
  | a :: v, h, x, y, hx, hy, e => by
    rw [List.map_cons, List.nodup_cons] at h
    rcases List.mem_cons.1 hx with h1 | h1
    · rcases List.mem_cons.1 hy with h2 | h2
      · rw [h1, h2]
      · exact absurd (List.mem_map.2 ⟨y, h2, by rw [← e, h1]⟩) h.1
    · rcases List.mem_cons.1 hy with h2 | h2
      · exact absurd (List.mem_map.2 ⟨x, h1, by rw [e, h2]⟩) h.1
      · exact eq_of_id h.2 h1 h2 e

/-- Ids are distinct draws, counters are at most `k`, that of `cid` is at least
`lo`, and keys are for ECDSA. -/
def Tracked (E : Env) (cid : Bytes) (lo k n : Nat) (v : List Source) : Prop :=
  (v.map (·.id)).Nodup ∧ (lo = 0 ∨ ∃ i, i < n ∧ cid = E.rand i 16) ∧
  ∀ s ∈ v, (∃ i, i < n ∧ s.id = E.rand i 16) ∧ s.counter.toNat ≤ k ∧
    (s.id = cid → lo ≤ s.counter.toNat) ∧ s.key.ecdsa.isSome

theorem tracked_same {cid : Bytes} {lo k n : Nat} {v v' : List Source}
    (h : SameCredentials v v') (ht : Tracked E cid lo k n v) : Tracked E cid lo k n v' := by
  refine ⟨by rw [← sameCredentials_ids h]; exact ht.1, ht.2.1, ?_⟩
  intro s hs
  obtain ⟨t, ht', e1, e2, e3⟩ := sameCredentials_mem h hs
  have := ht.2.2 t ht'
  rw [← e1, ← e2, ← e3]
  exact this

theorem tracked_mono {cid : Bytes} {lo k k' n n' : Nat} {v : List Source} (hk : k ≤ k')
    (hn : n ≤ n') (ht : Tracked E cid lo k n v) : Tracked E cid lo k' n' v := by
  refine ⟨ht.1, ht.2.1.imp id (fun ⟨i, h, e⟩ => ⟨i, by omega, e⟩), ?_⟩
  intro s hs
  obtain ⟨⟨i, h1, h2⟩, h3, h4⟩ := ht.2.2 s hs
  exact ⟨⟨i, by omega, h2⟩, by omega, h4⟩

theorem counter_succ {c : UInt32} (h : c.toNat + 1 < 4294967296) :
    (c + 1).toNat = c.toNat + 1 := by
  rw [UInt32.toNat_add]
  exact Nat.mod_eq_of_lt h

theorem tracked_change {N : Nat} (hd : DistinctDraws E N) {cid : Bytes} {lo : Nat} {op : Op}
    {k n n' : Nat} {v v' : List Source} (hn : n ≤ n') (hN : n' ≤ N)
    (hk : k + (if isGetAssertion op then 1 else 0) < 4294967296)
    (hc : Change E op n n' v v') (ht : Tracked E cid lo k n v) :
    Tracked E cid lo (k + (if isGetAssertion op then 1 else 0)) n' v' := by
  cases hc with
  | same h => rw [h]; exact tracked_mono (by omega) hn ht
  | added rp user h hr ho =>
    subst h
    have ht' := tracked_mono (Nat.le_add_right k (if isGetAssertion op then 1 else 0)) hn ht
    refine ⟨?_, ht'.2.1, ?_⟩
    · rw [List.map_append, List.nodup_append]
      refine ⟨ht.1, by simp, ?_⟩
      intro a ha b hb
      simp only [List.map_cons, List.map_nil, List.mem_singleton] at hb
      subst hb
      obtain ⟨s, hs, rfl⟩ := List.mem_map.1 ha
      obtain ⟨⟨i, h1, h2⟩, -⟩ := ht.2.2 s hs
      intro e
      rw [h2] at e
      have := hd i n (by omega) (by omega) e
      omega
    · intro s hs
      rcases List.mem_append.1 hs with hs | hs
      · exact ht'.2.2 s hs
      · simp only [List.mem_singleton] at hs
        subst hs
        refine ⟨⟨n, by omega, rfl⟩, Nat.zero_le _, ?_, rfl⟩
        intro e
        rcases ht.2.1 with h0 | ⟨i, h1, h2⟩
        · omega
        · have : E.rand n 16 = E.rand i 16 := by rw [← h2]; exact e
          have := hd n i (by omega) (by omega) this
          omega
  | used i h hu =>
    subst h
    rw [hu] at hk ⊢
    simp only [if_true] at hk ⊢
    refine ⟨by rw [bump_ids]; exact ht.1,
      ht.2.1.imp id (fun ⟨i, h, e⟩ => ⟨i, by omega, e⟩), ?_⟩
    intro s hs
    obtain ⟨t, h1, h2⟩ := mem_bump hs
    obtain ⟨⟨j, h3, h4⟩, h5, h6, h7⟩ := ht.2.2 t h1
    rcases h2 with rfl | rfl
    · exact ⟨⟨j, by omega, h4⟩, by omega, h6, h7⟩
    · have e : (bumped t).counter.toNat = t.counter.toNat + 1 :=
        counter_succ (by omega)
      refine ⟨⟨j, by omega, h4⟩, by omega, ?_, h7⟩
      intro h
      have := h6 h
      omega
  | removed s h ho =>
    have hids := h.map (fun s : Source => s.id)
    refine ⟨?_, ht.2.1.imp id (fun ⟨i, h, e⟩ => ⟨i, by omega, e⟩), ?_⟩
    · have := hids.nodup_iff.1 ht.1
      rw [List.map_cons, List.nodup_cons] at this
      exact this.2
    · intro t ht'
      obtain ⟨⟨i, h1, h2⟩, h3, h4⟩ := ht.2.2 t (h.mem_iff.2 (List.mem_cons_of_mem _ ht'))
      exact ⟨⟨i, by omega, h2⟩, by omega, h4⟩

theorem tracked_after (L : Laws E) {N : Nat} (hd : DistinctDraws E N) {cid : Bytes} {lo k : Nat}
    {d : Device} {ops : List Op} (hk : k + ops.countP isGetAssertion < 4294967296)
    (hN : (after E cfg d ops).world.rnd ≤ N) (h : Inv E cfg (Tracked E cid lo k) d) :
    Inv E cfg (Tracked E cid lo (k + ops.countP isGetAssertion)) (after E cfg d ops) := by
  refine inv_after (P := Tracked E cid lo) (K := 4294967295) L
    (fun k n v v' h1 h2 => tracked_same h1 h2) (fun k k' n n' v h1 h2 h3 => tracked_mono h1 h2 h3)
    ?_ ops k d (by omega) hN h
  intro op k n n' v v' h1 h2 h3 h4 h5
  exact tracked_change hd h1 h2 (by omega) h4 h5

theorem head_length (m n : Nat) : (Cbor.head m n).length ≤ 9 := by
  unfold Cbor.head
  dsimp only
  split
  · simp
  split
  · simp
  split
  · simp [Util.toBE16_eq]
  split
  · simp [Util.toBE32_eq]
  · simp [Util.toBE32_eq]

/-- Answers for ECDSA credentials with ids of usual length are short. -/
theorem assertion_length (L : Laws E) {data body : Bytes} {w w' : World}
    (h : Ctap.handleMessage E (0x02 :: data) w = (.ok (0 :: body), w'))
    (hv : ∀ s ∈ w.client.vault, s.id.length ≤ 65535 ∧ ∃ k, s.key.ecdsa = some k ∧ ECValid E k) :
    body.length < 18446744073709551616 := by
  have hc := Ctap.handleGetAssertion_cases E data w
  rw [Ctap.handleMessage_get] at h
  rw [h] at hc
  dsimp only at hc
  cases hc with
  | nothing hw hr =>
    obtain ⟨e, he, -, hb⟩ := hr _ rfl
    simp at hb
    exact absurd hb.1.symm he
  | none args flags hd hp hm hw hr => simp at hr
  | unsaved args flags i s hd hp hi hn c hr hw => simp at hr
  | refused args flags i s rp user blob n hd hp hi hn hup hrp hu ha hr hw => simp at hr
  | saved args flags flags' i s rp user blob n asks hd hp hi hn hrp hu hq hw hr =>
    obtain ⟨sig, h1, h2⟩ := hr _ rfl
    obtain ⟨hid, k, hk, hkv⟩ := hv s (List.mem_of_getElem? hi.1)
    have hb : body = Cbor.encode (Ctap.getAssertionItem s.id
        (Ctap.makeAuthData E args.rpId (Ctap.bumped s) .none flags') sig) := by
      simpa using h2
    have h1' : signECDSA E k (Ctap.makeAuthData E args.rpId (Ctap.bumped s) .none flags' ++
        args.clientDataHash) n = .ok sig := by
      simpa only [Cose.sign, hk] using h1
    have hsig := (Ctap.signECDSA_ok L hkv h1').2
    have had : (Ctap.makeAuthData E args.rpId (Ctap.bumped s) .none flags').length = 37 := by
      rw [(Ctap.authData_plain E L args.rpId (Ctap.bumped s) flags').1]
      simp [L.sha256_length]
    rw [hb]
    simp only [Ctap.getAssertionItem, Cbor.encode, Cbor.encodeEntries, List.length_append, had]
    have c1 : (Cbor.int 1).encode.length = 1 := by decide
    have c2 : (Cbor.int 2).encode.length = 1 := by decide
    have c3 : (Cbor.int 3).encode.length = 1 := by decide
    have c4 : (Cbor.str "id").encode.length = 3 := by decide +kernel
    have c5 : (Cbor.str "type").encode.length = 5 := by decide +kernel
    have c6 : (Cbor.str "public-key").encode.length = 11 := by decide +kernel
    have k1 := head_length 2 s.id.length
    have k2 := head_length 2 37
    have k3 := head_length 2 sig.length
    have k4 := fun n => head_length 5 n
    have k5 := k4 2
    have k6 := k4 3
    simp only [c1, c2, c3, c4, c5, c6, List.length_cons, List.length_nil, Nat.zero_add,
      Nat.reduceAdd]
    omega

/-- A successful assertion of a tracked device: it reports a counter that is one more than it was
and from then on a lower bound. -/
theorem tracked_assertion (L : Laws E) {N : Nat} (hd : DistinctDraws E N) {cid id : Bytes}
    {lo k : Nat} {d : Device} {data body authData sig : Bytes} {ad : AuthData}
    (hk : k + 1 < 4294967296) (hN : (step E cfg d (.ctap (2 :: data))).2.world.rnd ≤ N)
    (hr : (step E cfg d (.ctap (2 :: data))).1 = .answer (0 :: body))
    (ha : IsAssertion (0 :: body) id authData sig) (hp : parseAuthData authData = some ad)
    (h : Inv E cfg (Tracked E cid lo k) d) :
    (id = cid → lo < ad.counter) ∧
      Inv E cfg (Tracked E id ad.counter (k + 1)) (step E cfg d (.ctap (2 :: data))).2 := by
  have halive : d.alive = true := by
    cases hal : d.alive with
    | true => rfl
    | false => rw [step_dead rfl hal] at hr; cases hr
  have hm : Ctap.handleMessage E (0x02 :: data) d.world =
      (.ok (0 :: body), (step E cfg d (.ctap (2 :: data))).2.world) := by
    have e := step_live (E := E) (cfg := cfg) (op := .ctap (2 :: data)) rfl halive
    rw [perform_ctap'] at e
    rw [e] at hr ⊢
    cases hh : (Ctap.handleMessage E (2 :: data) d.world).1 with
    | panic c => rw [hh] at hr; cases hr
    | ok b =>
      rw [hh] at hr
      simp only [outcome, Reply.answer.injEq] at hr ⊢
      rw [← hr, ← hh]
  have hlen : body.length < 18446744073709551616 := by
    obtain ⟨c, g1, -, g3, g4⟩ := h
    obtain rfl := g4 halive
    refine assertion_length L hm ?_
    intro s hs
    obtain ⟨⟨i, -, q1⟩, -, -, q2⟩ := g3.2.2 s hs
    obtain ⟨k, hk⟩ := Option.isSome_iff_exists.1 q2
    have hv := (g1.2.2.2.2 s hs).2.1
    simp only [KeyValid, hk] at hv
    exact ⟨by rw [q1, L.rand_length]; omega, k, hk, hv⟩
  obtain ⟨args, i, s, rp, user, flags, blob, n, authData', sig', ad', h1, h2, -, -, -, h6, -, -, h9, -,
    h11, h12, -, -, -, -, h17, -⟩ := Ctap.assertion_spec L hm hlen
  have hsame : s.id = id ∧ authData' = authData := by
    obtain ⟨b1, e1, q1⟩ := ha
    obtain ⟨b2, e2, q2⟩ := h11
    rw [e1] at e2
    obtain rfl := (List.cons.inj e2).2
    rw [q1] at q2
    have := Option.some.inj q2
    simp only [VF.Cbor.map.injEq, List.cons.injEq, Prod.mk.injEq, VF.Cbor.bytes.injEq, true_and,
      and_true] at this
    exact ⟨this.1.symm, this.2.1.symm⟩
  obtain ⟨rfl, rfl⟩ := hsame
  obtain rfl : ad' = ad := by rw [hp] at h12; exact (Option.some.inj h12).symm
  have hold := h
  obtain ⟨c, -, -, ht, hc⟩ := hold
  obtain rfl := hc halive
  have hs : s ∈ d.world.client.vault := List.mem_of_getElem? h2.1
  obtain ⟨q1, q2, q3, -⟩ := ht.2.2 s hs
  have hcount : ad'.counter = s.counter.toNat + 1 := by
    rw [h17]; exact counter_succ (by omega)
  refine ⟨fun e => by have := q3 e; omega, ?_⟩
  have hnew := inv_step (Q := Tracked E s.id 0 (k + 1)) (P := Tracked E cid lo k) L
    (fun n v v' a b => tracked_same a b)
    (fun n n' v a b t => by
      have := tracked_mono (Nat.le_add_right k 1) a t
      exact ⟨this.1, .inl rfl, fun x hx => ⟨(this.2.2 x hx).1, (this.2.2 x hx).2.1,
        fun _ => Nat.zero_le _, (this.2.2 x hx).2.2.2⟩⟩)
    (fun n v v' a b hch t => by
      have := tracked_change (lo := lo) hd a (Nat.le_trans b hN)
        (by simpa [isGetAssertion] using hk) hch t
      simp only [isGetAssertion, if_true] at this
      exact ⟨this.1, .inl rfl, fun x hx => ⟨(this.2.2 x hx).1, (this.2.2 x hx).2.1,
        fun _ => Nat.zero_le _, (this.2.2 x hx).2.2.2⟩⟩) h
  obtain ⟨c, g1, g2, g3, g4⟩ := hnew
  have hal' : (step E cfg d (.ctap (2 :: data))).2.alive = true := by
    have e := step_live (E := E) (cfg := cfg) (op := .ctap (2 :: data)) rfl halive
    rw [perform_ctap', hm] at e
    rw [e]; rfl
  obtain rfl := g4 hal'
  refine ⟨_, g1, g2, ⟨g3.1, ?_, ?_⟩, g4⟩
  · right
    obtain ⟨j, hj, e⟩ := q1
    have := step_rnd (cfg := cfg) L d (.ctap (2 :: data))
    exact ⟨j, by omega, e⟩
  · intro x hx
    refine ⟨(g3.2.2 x hx).1, (g3.2.2 x hx).2.1, ?_, (g3.2.2 x hx).2.2.2⟩
    intro e
    have hb : bumped s ∈ (step E cfg d (.ctap (2 :: data))).2.world.client.vault := by
      rw [h6]
      exact List.mem_of_getElem? (Ctap.bump_get h2.1)
    have : x = bumped s := eq_of_id g3.1 hx hb e
    rw [this, hcount]
    exact Nat.le_of_eq (counter_succ (c := s.counter) (by omega)).symm

/-! ## The U2F counter -/

theorem u2f_counter (E : Env) (m : Bytes) (w : World) :
    (U2f.handleMessage E m w).2.client.authCounter = w.client.authCounter ∨
    (isU2fAuthenticate (.u2f m) = true ∧
      (U2f.handleMessage E m w).2.client.authCounter = w.client.authCounter + 1) := by
  match m with
  | [] => exact .inl rfl
  | [_] => exact .inl rfl
  | [_, _] => exact .inl rfl
  | [_, _, _] => exact .inl rfl
  | cla :: ins :: p1 :: p2 :: rest =>
    unfold U2f.handleMessage
    cases hd : U2f.decodeMessage (cla :: ins :: p1 :: p2 :: rest) with
    | panic c => exact .inl rfl
    | ok p =>
      obtain ⟨header, request, n⟩ := p
      obtain rfl := U2f.decodeMessage_header hd
      rw [Go.lift_ok_bind]
      dsimp only
      split
      · exact .inl rfl
      · split
        · have hc := U2f.handleRegister_cases E request w
          generalize (U2f.handleRegister E request w).1 = r at *
          generalize (U2f.handleRegister E request w).2 = w' at *
          cases hc with
          | nothing c n hr hn hw => subst hw; exact .inl rfl
          | refused hl hk ha hr hw => subst hw; exact .inl rfl
          | agreed n hl hk ha hn hw hr => subst hw; exact .inl rfl
        · split
          · rename_i h2
            have h2 : ins = 2 := h2
            subst h2
            have hc := U2f.handleAuthenticate_cases E p1 request w
            generalize (U2f.handleAuthenticate E p1 request w).1 = r at *
            generalize (U2f.handleAuthenticate E p1 request w).2 = w' at *
            cases hc with
            | nothing hw hr => subst hw; exact .inl rfl
            | refused challenge application handle key hd hk hc ha hr hw =>
              subst hw; exact .inl rfl
            | signed challenge application handle key asks hd hk hc hw hr =>
              subst hw; exact .inr ⟨rfl, rfl⟩
          · exact .inl rfl

/-- What a process has in memory only. -/
def volatile (c : Client) : UInt32 × Int × Bytes × ECDHKey :=
  (c.authCounter, c.pinRetries, c.pinToken, c.keyAgreement)

theorem ctap_volatile (E : Env) (c : UInt8) (data : Bytes) (w : World) (h6 : c ≠ 6) :
    volatile (Ctap.handleMessage E (c :: data) w).2.client = volatile w.client := by
  by_cases h1 : c = 1
  · subst h1
    have hc := handleMakeCredential_cases E data w
    rw [handleMessage_make]
    generalize (handleMakeCredential E data w).1 = r at *
    generalize (handleMakeCredential E data w).2 = w' at *
    cases hc with
    | nothing hw hr => subst hw; rfl
    | refused args rp flags hd hs hp hrp ha hr hw => subst hw; rfl
    | unsaved args rp flags hd hs hp hrp ha hn c hr hw => subst hw; rfl
    | saved args rp flags blob n m hd hs hp hrp ha hn hm hw hr => subst hw; rfl
  by_cases h2 : c = 2
  · subst h2
    have hc := handleGetAssertion_cases E data w
    rw [handleMessage_get]
    generalize (handleGetAssertion E data w).1 = r at *
    generalize (handleGetAssertion E data w).2 = w' at *
    cases hc with
    | nothing hw hr => subst hw; rfl
    | none args flags hd hp hm hw hr => subst hw; rfl
    | unsaved args flags i s hd hp hi hn c hr hw => subst hw; rfl
    | refused args flags i s rp user blob n hd hp hi hn hup hrp hu ha hr hw => subst hw; rfl
    | saved args flags flags' i s rp user blob n asks hd hp hi hn hrp hu hq hw hr => subst hw; rfl
  by_cases h4 : c = 4
  · subst h4; rfl
  rw [handleMessage_other E c data h1 h2 h4 h6]

theorem ctap_counter (E : Env) (m : Bytes) (w : World) :
    (Ctap.handleMessage E m w).2.client.authCounter = w.client.authCounter := by
  cases m with
  | nil => rfl
  | cons c data =>
    by_cases h6 : c = 6
    · subst h6
      have hc := handleClientPIN_cases E data w
      rw [handleMessage_pin]
      generalize (handleClientPIN E data w).1 = r at *
      generalize (handleClientPIN E data w).2 = w' at *
      cases hc with
      | nothing hw hr => subst hw; rfl
      | retries args n he hd hs hn hw hr => subst hw; rfl
      | agreement args he hd hs hw hr => subst hw; rfl
      | set args key au enc secret pin he hd hs hn hk ha hc hss hauth hpin hl hw =>
        rcases hw with ⟨c, -, e, -⟩ | ⟨blob, n, -, -, e⟩ <;> subst e <;> rfl
      | wrong args key secret he hd hs hn hk hss hh hr hw => subst hw; rfl
      | change args key au secret he hd hs hn hk ha hss hauth hh hw =>
        rcases hw with ⟨-, hw⟩ | ⟨pin, -, -, ⟨c, hr, hw, -⟩ | ⟨blob, n, hr, hv, hw⟩⟩ <;>
          subst hw <;> rfl
      | token args key enc secret he hd hs hn hk hx hc hss hh hw hr => subst hw; rfl
    exact congrArg Prod.fst (ctap_volatile E c data w h6)

theorem perform_counter (E : Env) (op : Op) (w : World) :
    (perform E op w).2.client.authCounter = w.client.authCounter ∨
    (isU2fAuthenticate op = true ∧
      (perform E op w).2.client.authCounter = w.client.authCounter + 1) := by
  have hsave : ∀ (f : Client → Client) (r : Reply), (f w.client).authCounter = w.client.authCounter →
      ((do update f; saveData E; pure r : Go World Reply) w).2.client.authCounter =
        w.client.authCounter := by
    intro f r hf
    simp only [Go.run_bind, update, Go.modify, Go.run_pure]
    rcases saveData_cases E { w with client := f w.client } with ⟨c, h, -⟩ | ⟨blob, n, hs, h⟩ <;>
      simp only [h] <;> exact hf
  cases op with
  | ctap m => rw [perform_ctap']; exact .inl (ctap_counter E m w)
  | u2f m => rw [perform_u2f']; exact u2f_counter E m w
  | enablePIN => exact .inl (hsave (fun c => { c with pinEnabled := true }) .done rfl)
  | disablePIN => exact .inl (hsave (fun c => { c with pinEnabled := false }) .done rfl)
  | setPIN pin =>
    exact .inl (hsave (fun c => { c with pinHash := some (pinDigest E pin) }) .done rfl)
  | deleteIdentity id =>
    rcases perform_delete E id w with
      ⟨-, h⟩ | ⟨l, s, r, v', hv, -, -, hp, ⟨c, -, h⟩ | ⟨blob, n, hs, h⟩⟩ <;> rw [h] <;> exact .inl rfl
  | restart => exact .inl rfl

/-- Counters are at most one more than the number of uses, in memory and in what is saved. -/
def AuthBound (E : Env) (cfg : Config) (k : Nat) (d : Device) : Prop :=
  (d.alive = true → d.world.client.authCounter.toNat ≤ k + 1) ∧
  ∀ rnd c, start E cfg d.world.store rnd = .ok c → c.authCounter.toNat ≤ k + 1

theorem counter_le (c : UInt32) : (c + 1).toNat ≤ c.toNat + 1 := by
  rw [UInt32.toNat_add]
  exact Nat.mod_le _ _

theorem authBound_step (L : Laws E) {k : Nat} {d : Device} (op : Op)
    (hi : Inv E cfg (fun _ _ => True) d) (h : AuthBound E cfg k d) :
    AuthBound E cfg (k + (if isU2fAuthenticate op then 1 else 0)) (step E cfg d op).2 := by
  obtain ⟨c, h1, h2, -, h4⟩ := hi
  cases hr : isRestart op with
  | true =>
    cases op with
    | restart =>
      obtain ⟨c', s1, -⟩ := h2 d.world.rnd
      have e : step E cfg d .restart =
          (.started, ⟨{ d.world with client := c', rnd := d.world.rnd + 2 }, true⟩) := by
        simp only [step, s1]
      rw [e]
      exact ⟨fun _ => h.2 _ _ s1, h.2⟩
    | _ => cases hr
  | false =>
    cases ha : d.alive with
    | false =>
      rw [step_dead hr ha]
      exact ⟨fun h => absurd (ha.symm.trans h) (by decide), fun rnd c hc => by
        have := h.2 rnd c hc; omega⟩
    | true =>
      obtain rfl := h4 ha
      have e := step_live (E := E) (cfg := cfg) hr ha
      obtain ⟨o1, o2⟩ := perform_out L op d.world
      have ew : (step E cfg d op).2.world = (perform E op d.world).2 := by
        rw [e]
        cases (perform E op d.world).1 <;> rfl
      have hcount : (perform E op d.world).2.client.authCounter.toNat ≤
          k + (if isU2fAuthenticate op then 1 else 0) + 1 := by
        have h0 := h.1 ha
        rcases perform_counter E op d.world with q | ⟨q1, q⟩
        · rw [q]; omega
        · rw [q, q1]
          have := counter_le d.world.client.authCounter
          simp only [if_true]
          omega
      unfold AuthBound
      rw [ew]
      refine ⟨fun _ => hcount, ?_⟩
      intro rnd c hc
      cases o2 with
      | kept hs _ =>
        rw [hs] at hc
        have := h.2 rnd c hc
        omega
      | saved blob m n hs hv hh hch =>
        rw [hs] at hc
        obtain ⟨-, c', q1, -, -, q2, -⟩ := saves_restore L (hh h1) hv cfg rnd
        rw [q1] at hc
        obtain rfl := Res.ok.inj hc
        rw [q2]
        exact hcount
      | lost c' _ hs =>
        rw [hs] at hc
        have := h.2 rnd c hc
        omega

theorem inv_true_after (L : Laws E) (ops : List Op) : ∀ (d : Device),
    Inv E cfg (fun _ _ => True) d → Inv E cfg (fun _ _ => True) (after E cfg d ops) := by
  induction ops with
  | nil => exact fun d h => h
  | cons op ops ih =>
    intro d h
    exact ih _ (inv_step L (fun _ _ _ _ _ => trivial) (fun _ _ _ _ _ _ => trivial)
      (fun _ _ _ _ _ _ _ => trivial) h)

theorem authBound_after (L : Laws E) : ∀ (ops : List Op) {k : Nat} {d : Device},
    Inv E cfg (fun _ _ => True) d → AuthBound E cfg k d →
    AuthBound E cfg (k + ops.countP isU2fAuthenticate) (after E cfg d ops)
  | [], _, _, _, h => h
  | op :: ops, k, d, hi, h => by
    have hi' := inv_true_after L [op] d hi
    have := authBound_after L ops hi' (authBound_step L op hi h)
    rw [after_cons, List.countP_cons]
    rwa [show k + (List.countP isU2fAuthenticate ops +
      if isU2fAuthenticate op = true then 1 else 0) =
      k + (if isU2fAuthenticate op then 1 else 0) + List.countP isU2fAuthenticate ops by omega]

theorem authBound_boot (k : Nat) : AuthBound E cfg k (boot E cfg) := by
  refine ⟨fun _ => Nat.le_add_left 1 k, ?_⟩
  intro rnd c hc
  obtain rfl := Res.ok.inj hc
  exact Nat.le_add_left 1 k

/-- Within one process the counter does not go back, as long as it does not overflow. -/
theorem auth_floor (L : Laws E) : ∀ (ops : List Op) {k lo : Nat} {d : Device},
    (∀ op ∈ ops, isRestart op = false) → k + ops.countP isU2fAuthenticate + 1 < 4294967296 →
    d.world.client.authCounter.toNat ≤ k + 1 → lo ≤ d.world.client.authCounter.toNat →
    (after E cfg d ops).alive = true →
    lo ≤ (after E cfg d ops).world.client.authCounter.toNat
  | [], _, _, _, _, _, _, h, _ => h
  | op :: ops, k, lo, d, hr, hk, hu, hl, hal => by
    have hr0 := hr op (List.mem_cons_self ..)
    rw [List.countP_cons] at hk
    have hrest := fun o ho => hr o (List.mem_cons_of_mem _ ho)
    cases ha : d.alive with
    | false =>
      have e := step_dead (E := E) (cfg := cfg) hr0 ha
      rw [after_cons, e] at hal ⊢
      exact auth_floor L ops (k := k) hrest (by split at hk <;> omega) hu hl hal
    | true =>
      have e := step_live (E := E) (cfg := cfg) hr0 ha
      have ew : (step E cfg d op).2.world = (perform E op d.world).2 := by
        rw [e]
        cases (perform E op d.world).1 <;> rfl
      rw [after_cons] at hal ⊢
      rcases perform_counter E op d.world with q | ⟨q1, q⟩
      · exact auth_floor L ops (k := k) hrest (by split at hk <;> omega)
          (by rw [ew, q]; exact hu) (by rw [ew, q]; exact hl) hal
      · rw [q1] at hk
        simp only [if_true] at hk
        have := counter_succ (c := d.world.client.authCounter) (by omega)
        exact auth_floor L ops (k := k + 1) hrest (by omega)
          (by rw [ew, q]; omega) (by rw [ew, q]; omega) hal

/-- A successful authentication reports the counter and increments it. -/
theorem u2f_step {d d' : Device} {cla : UInt8} {rest answer : Bytes}
    {auth : VF.Spec.U2f.Authentication} (ha : d.alive = true)
    (h : step E cfg d (.u2f (cla :: 0x02 :: rest)) = (.answer answer, d'))
    (hp : VF.Spec.U2f.parseAuthentication answer = some auth) :
    auth.counter = d.world.client.authCounter.toNat ∧
      d'.world.client.authCounter = d.world.client.authCounter + 1 := by
  rw [step_live rfl ha, perform_u2f'] at h
  have hm : U2f.handleMessage E (cla :: 0x02 :: rest) d.world = (.ok answer, d'.world) := by
    cases hh : (U2f.handleMessage E (cla :: 0x02 :: rest) d.world).1 with
    | panic c => rw [hh] at h; cases h
    | ok b =>
      rw [hh] at h
      simp only [outcome, Prod.mk.injEq, Reply.answer.injEq] at h
      rw [← h.2, ← h.1, ← hh]
  match rest, hm with
  | [], hm => cases hm
  | [_], hm => cases hm
  | p1 :: p2 :: rest, hm =>
    rcases U2f.handleMessage_cases_authenticate E cla p1 p2 rest d.world with
      ⟨c, e⟩ | ⟨data, n, -, e⟩
    · rw [e] at hm; cases hm
    · rw [e] at hm
      obtain ⟨_, _, _, _, _, _, -, -, -, hw, -, hauth⟩ := U2f.authenticate_spec hm hp
      rw [hw, hauth]
      exact ⟨rfl, rfl⟩

end VF.Fido.Device
