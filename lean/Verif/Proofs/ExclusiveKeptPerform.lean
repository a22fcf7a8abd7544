import Verif.Proofs.ExclusiveKept

/-!
# Announced credentials are kept: the operations
-/

namespace VF.Fido.Overlap

open Prog VF.Spec.Client VF.Spec.Vault VF.Spec.Cose VF.Spec.Overlap VF.Spec.History VF.Spec.Ctap VF.Spec.Store

variable {E : Env} {cfg : Client.Config} {b : Bool} {c : Cred} {m : Mem} {K X : Prop} {α β : Type}

theorem J.quiet {m' : Mem} (h : J K b E cfg c m) (hq : Quiet b m m') : J K b E cfg c m' := fun hk => (h hk).quiet hq

theorem setPINHash_keep (L : Laws E) (h : Option Bytes) (hm : J K b E cfg c m) :
    Keep K b E cfg c (fun _ m' => J K b E cfg c m') (setPINHash E h) m := by
  unfold setPINHash
  refine Keep.others (Q := fun _ => True) ?_ hm fun _ m' _ hm' _ => saveData_rest L hm'
  exact traced_write fun m => { keeps_refl besides m with pinHash := fun h' => by cases h' }

theorem handleSetPIN_keep (L : Laws E) (args : ClientPINArgs) (hm : J K b E cfg c m) :
    Keep K b E cfg c (fun _ m' => J K b E cfg c m') (handleSetPIN E args) m := by
  unfold handleSetPIN
  refine Keep.others (reads _) hm fun _ _ _ hm _ => ?_
  split
  · exact hm
  · split
    · refine Keep.others (sharedSecret_traced _) hm fun _ _ _ hm _ => ?_
      split
      · exact hm
      · refine Keep.others (lifts _) hm fun _ _ _ hm _ => ?_
        split
        · exact hm
        · refine Keep.others (setPINRetries_traced rfl _) hm fun _ m' _ hm _ => (setPINHash_keep L _ hm).bind ?_
          intro a m'' hm
          exact hm
    · trivial

theorem handleChangePIN_keep (L : Laws E) (args : ClientPINArgs) (hm : J K b E cfg c m) :
    Keep K b E cfg c (fun _ m' => J K b E cfg c m') (handleChangePIN E args) m := by
  unfold handleChangePIN
  split
  · refine Keep.others getPINRetries_traced hm fun _ _ _ hm _ => ?_
    split
    · exact hm
    · refine Keep.others (sharedSecret_traced _) hm fun _ _ _ hm _ => ?_
      split
      · exact hm
      · refine Keep.others getPINRetries_traced hm fun _ _ _ hm _ => Keep.others (setPINRetries_traced rfl _) hm fun _ _ _ hm _ =>
          Keep.others (lifts _) hm fun _ _ _ hm _ => Keep.others (reads _) hm fun _ _ _ hm _ => ?_
        split
        · exact hm
        · refine Keep.others (setPINRetries_traced rfl _) hm fun _ _ _ hm _ => Keep.others (lifts _) hm fun _ _ _ hm _ => ?_
          split
          · exact hm
          · refine (setPINHash_keep L _ hm).bind ?_
            intro a m'' hm
            exact hm
  · exact hm

theorem handleClientPIN_keep (L : Laws E) (data : Bytes) (hm : J K b E cfg c m) :
    Keep K b E cfg c (fun _ m' => J K b E cfg c m') (handleClientPIN E data) m := by
  unfold handleClientPIN
  refine Keep.others (reads _) hm fun _ m1 _ hm _ => ?_
  split
  · exact hm
  · split
    · exact hm
    · split
      · exact hm
      · split
        · refine Keep.rest ?_ hm
          unfold handleGetRetries
          exact getPINRetries_traced.then fun _ => trivial
        · split
          · refine Keep.rest ?_ hm
            unfold handleGetKeyAgreement
            exact (reads _).then fun _ => trivial
          · split
            · exact handleSetPIN_keep L _ hm
            · split
              · exact handleChangePIN_keep L _ hm
              · split
                · exact Keep.rest (getPINToken_traced rfl _) hm
                · exact hm

theorem handleGetAssertion_keep (L : Laws E) (data : Bytes) (hm : J K b E cfg c m) :
    Keep K b E cfg c (fun _ m' => J K b E cfg c m') (handleGetAssertion E data) m := by
  unfold handleGetAssertion
  split
  · exact hm
  · refine Keep.others (getAssertionPIN_traced _) hm fun pin _ _ hm _ => ?_
    split
    · exact hm
    · refine Runs.bind (Q := fun _ m' => J K b E cfg c m') ?_ ?_
      · unfold getAssertionSource
        refine Keep.others (looks _) hm fun _ _ _ hm _ => Keep.others (getMatching_traced _ _ _) hm fun l _ _ hm _ => ?_
        split
        · exact hm
        · refine Keep.others (Q := fun _ => True) ?_ hm fun _ _ _ hm _ => Keep.saved L hm fun _ hm => hm
          unfold bump
          exact (deref_traced _).then fun s => traced_write fun m => modify_keeps rfl m _ _
      · intro src m2 hm
        split
        · exact hm
        · split
          · exact Keep.rest (finishAssertion_traced rfl _ _ _) hm
          · refine Keep.others (Q := fun _ => True) ?_ hm fun _ _ _ hm _ => ?_
            · unfold approveAccountLogin
              refine (deref_traced _).then fun s => ?_
              split
              · exact approve_traced rfl _ _ _
              · trivial
            · split
              · exact hm
              · exact Keep.rest (finishAssertion_traced rfl _ _ _) hm

theorem heapLe_snoc (m : Mem) (s : Source) : HeapLe m { m with heap := m.heap ++ [s] } := by
  intro p u hu
  refine ⟨u.counter, ?_⟩
  show (m.heap ++ [s])[p]? = some u
  rw [List.getElem?_append_left (List.getElem?_eq_some_iff.1 hu).1]
  exact hu

theorem newCredentialSource_keep (L : Laws E) (params : List CredParam) (ex : List Descriptor) (rp : Option RPEntity)
    (user : Option UserEntity) (hm : J K b E cfg c m) :
    Keep K b E cfg c (fun r m' => J K b E cfg c m' ∧ ∀ p, r = some p → ∃ s, m'.heap[p]? = some s ∧ (Is c s → Kept b E cfg c m'))
      (newCredentialSource E params ex rp user) m := by
  unfold newCredentialSource
  split
  · exact ⟨hm, fun p hp => by cases hp⟩
  · refine Keep.others (draw_traced rfl) hm fun n m1 _ hm _ => Keep.others (draw_traced rfl) hm fun k m2 _ hm _ => ?_
    generalize hs0 : ({ type := ascii "public-key", id := E.rand n 16, key := { ecdsa := some (E.genEC k) }, rp := rp, user := user, counter := 0 } : Source) = s0
    intro m3 r3 _ _
    have j3 : J K b E cfg c { m3 with heap := m3.heap ++ [s0] } := fun hk =>
      ⟨((hm hk).quiet r3).1.later rfl (heapLe_snoc m3 s0), ((hm hk).quiet r3).2⟩
    have hat : ({ m3 with heap := m3.heap ++ [s0] } : Mem).heap[m3.heap.length]? = some s0 := by simp
    refine ⟨j3, ?_⟩
    show Keep K b E cfg c _ (addIdentity m3.heap.length >>= _) _
    unfold addIdentity
    simp only [Prog.bind_assoc]
    refine Keep.look_bind j3 ?_
    intro m4 r4 b4
    intro m5 r5 b5 _
    obtain ⟨n5, h5⟩ := (r4.heap.trans r5.heap) _ _ hat
    have hmem : Is c s0 → InMemory c { m5 with slots := m4.slots ++ [m3.heap.length] } := by
      intro hi
      exact ⟨m3.heap.length, by simp, _, h5, hi⟩
    have j5 : J K b E cfg c { m5 with slots := m4.slots ++ [m3.heap.length] } := by
      intro hk
      have h := (j3 hk).quiet (r4.trans r5)
      obtain ⟨⟨p, hp, s, h1, h2⟩, h3⟩ := h
      rw [r5.slots] at hp
      exact ⟨⟨p, List.mem_append_left _ hp, s, h1, h2⟩, h3⟩
    refine ⟨j5, ?_⟩
    show Keep K b E cfg c _ (saveData E >>= _) { m5 with slots := m4.slots ++ [m3.heap.length] }
    refine Runs.bind (saveData_keep (X := K ∨ Is c s0) L .inl j5 ?_) ?_
    · rintro (hk | hi)
      · exact (j5 hk).1
      · exact hmem hi
    · rintro _ m6 ⟨j6, -, hh, hX⟩
      refine ⟨j6, ?_⟩
      intro p hp
      obtain rfl := Option.some.inj hp
      obtain ⟨n6, h6⟩ := hh _ _ h5
      exact ⟨_, h6, fun hi => hX (.inr hi)⟩

theorem attest_keep (L : Laws E) {args : MakeCredArgs} {rp : RPEntity} {flags : UInt8} {p : Nat} {s0 : Source}
    (hm : J K b E cfg c m) (hp : m.heap[p]? = some s0) (hi : Is c s0 → Kept b E cfg c m) (hfl : flags = 0 ∨ flags = 4) :
    Keep K b E cfg c (fun a m' => J K b E cfg c m' ∧ (announced a = some c → Kept b E cfg c m')) (attest E args rp flags p) m := by
  unfold attest
  intro m1 r1 b1 _
  have j1 := J.quiet hm r1
  refine ⟨j1, ?_⟩
  obtain ⟨n1, h1⟩ := r1.heap _ _ hp
  show Keep K b E cfg c _ (Prog.bind (match m1.heap[p]? with
    | some s => ret s
    | none => Prog.fail .nilDeref) _) m1
  rw [h1]
  have hI : Is c { s0 with counter := n1 } → Kept b E cfg c m1 := fun h => (hi h).quiet r1
  generalize ({ s0 with counter := n1 } : Source) = s at h1 hI
  obtain ⟨⟨i, j, -, -, hid, hk⟩, -⟩ := b1.made s (List.mem_of_getElem? h1)
  refine Keep.lift_bind ?_
  intro attested ha
  refine Keep.others (createCertificate_made rfl _) j1 fun cert m2 r2 j2 hcert => ?_
  obtain ⟨ca, issuer, n, hcert⟩ := hcert
  refine Keep.others (signWith_made rfl _ _) j2 fun sig m3 r3 j3 hsig => ?_
  obtain ⟨n', hsig⟩ := hsig
  obtain ⟨authData, ad, at', xb, yb, e, q1, q2, q3, q4, q5, -, -, -, q6, -, q7, q8, q9, q10, q11⟩ :=
    Ctap.creation_answer L hk (L.genEC_valid _) (by rw [hid]; exact L.rand_length _ _) hfl ha hcert hsig
  subst e
  refine ⟨j3, ?_⟩
  obtain ⟨bytes, e, hd⟩ := q1
  have e := (List.cons.inj e).2
  have f1 : ∀ a b c : Cbor, Spec.Store.field 2 (.map [(.int 1, a), (.int 2, b), (.int 3, c)]) = some b := by
    intros; rfl
  have f2 : ∀ a b c d e : Cbor, Spec.Store.field (-2) (.map [(.int 1, a), (.int 3, b), (.int (-1), c),
      (.int (-2), d), (.int (-3), e)]) = some d := by
    intros; rfl
  have f3 : ∀ a b c d e : Cbor, Spec.Store.field (-3) (.map [(.int 1, a), (.int 3, b), (.int (-1), c),
      (.int (-2), d), (.int (-3), e)]) = some e := by
    intros; rfl
  rw [← e] at hd
  intro hann
  have hann : announced (0 :: Cbor.encode _) = some c := hann
  simp only [announced, hd, Option.bind_eq_bind, Option.bind_some, bytesField, f1, q2, q6, q8, f2, f3] at hann
  obtain rfl := Option.some.inj hann
  refine (hI ⟨q7.symm, ?_⟩).quiet (r2.trans r3)
  rw [hk]
  obtain ⟨bp, -, -, -⟩ := Vault.ecValid_bounds L (L.genEC_valid j)
  have : (E.genEC j).pub = { p256 := true, x := Spec.Cbor.beNat xb, y := Spec.Cbor.beNat yb } := by
    rw [q9, q10, ← bp]
  show Res.ok ({ ecdsa := some (E.genEC j).pub } : PubKey) = _
  rw [this]
  rfl

/-- What is known of the result of an operation: a creation that announces `c`. -/
def Announcing (c : Cred) (op : Op) (r : Reply) : Prop := ∃ data a, op = .ctap (1 :: data) ∧ r = .answer a ∧ announced a = some c

theorem handleMakeCredential_keep (L : Laws E) (data : Bytes) (hm : J K b E cfg c m) :
    Keep K b E cfg c (fun a m' => J K b E cfg c m' ∧ (announced a = some c → Kept b E cfg c m')) (handleMakeCredential E data) m := by
  have herr : ∀ {e : UInt8} {m}, J K b E cfg c m → e ≠ 0 → J K b E cfg c m ∧ (announced [e] = some c → Kept b E cfg c m) := by
    intro e m hm he
    refine ⟨hm, fun hc => ?_⟩
    exfalso
    unfold announced at hc
    split at hc
    · rename_i h
      exact he (List.cons.inj h).1
    · cases hc
  unfold handleMakeCredential
  split
  · trivial
  · split
    · exact herr hm (by decide)
    · refine Keep.others (makeCredentialPIN_made _) hm fun pin m1 r1 hm hpin => ?_
      split
      · exact herr hm hpin
      · split
        · trivial
        · refine Keep.others (approve_traced rfl _ _ _) hm fun ok m2 r2 hm _ => ?_
          split
          · exact herr hm (by decide)
          · refine Runs.bind (newCredentialSource_keep L _ _ _ _ hm) ?_
            rintro r m3 ⟨hm, h3⟩
            split
            · exact herr hm (by decide)
            · obtain ⟨s, h4, h5⟩ := h3 _ rfl
              exact attest_keep L hm h4 h5 hpin

theorem findIdentity_keep (id : Bytes) : ∀ (l : List Nat) (m : Mem), J K b E cfg c m →
    Keep K b E cfg c (fun r m' => Quiet b m m' ∧ ∀ i, r = some i → ∃ p s, l[i]? = some p ∧ m'.heap[p]? = some s ∧ s.id = id)
      (findIdentity id l) m
  | [], m, _ => ⟨Quiet.refl b m, fun i h => by cases h⟩
  | p :: rest, m, hm => by
    unfold findIdentity
    intro m1 r1 b1 _
    have j1 := J.quiet hm r1
    refine ⟨j1, ?_⟩
    show Keep K b E cfg c _ (Prog.bind (match m1.heap[p]? with
      | some s => ret s
      | none => Prog.fail .nilDeref) _) m1
    cases hs : m1.heap[p]? with
    | none => trivial
    | some s =>
      show Keep K b E cfg c _ (if s.id = id then Pure.pure (some 0) else _) m1
      split
      · rename_i he
        refine ⟨r1, fun i h => ?_⟩
        obtain rfl := Option.some.inj h
        exact ⟨p, s, rfl, hs, he⟩
      · refine (findIdentity_keep id rest m1 j1).bind ?_
        rintro r m2 ⟨r2, h2⟩
        refine ⟨r1.trans r2, fun i h => ?_⟩
        cases r with
        | none => cases h
        | some j =>
          obtain ⟨q, t, k1, k2, k3⟩ := h2 j rfl
          have h : some (j + 1) = some i := h
          obtain rfl := Option.some.inj h
          exact ⟨q, t, by simpa using k1, k2, k3⟩

theorem mem_remove {l : List Nat} {i p q last : Nat} (hl : l.getLast? = some last) (hi : l[i]? = some q) (hp : p ∈ l)
    (hne : q ≠ p) : p ∈ (l.set i last).dropLast := by
  obtain ⟨init, rfl⟩ := List.getLast?_eq_some_iff.1 hl
  by_cases hlt : i < init.length
  · rw [List.set_append_left _ _ hlt, List.dropLast_concat]
    rw [List.getElem?_append_left hlt] at hi
    rcases List.mem_append.1 hp with hp | hp
    · obtain ⟨j, hj⟩ := List.mem_iff_getElem?.1 hp
      refine List.mem_iff_getElem?.2 ⟨j, ?_⟩
      rw [List.getElem?_set, if_neg, hj]
      rintro rfl
      rw [hi] at hj
      exact hne (Option.some.inj hj)
    · obtain rfl : p = last := by simpa using hp
      exact List.mem_iff_getElem?.2 ⟨i, by rw [List.getElem?_set, if_pos rfl, if_pos hlt]⟩
  · have hil := (List.getElem?_eq_some_iff.1 hi).1
    obtain rfl : i = init.length := by
      simp at hil
      omega
    simp only [List.getElem?_concat_length] at hi
    obtain rfl := Option.some.inj hi
    rw [List.set_append_right _ _ (Nat.le_refl _)]
    simp only [Nat.sub_self, List.set_cons_zero, List.dropLast_concat]
    rcases List.mem_append.1 hp with hp | hp
    · exact hp
    · exact absurd (by simpa using hp : p = last).symm hne

theorem deleteIdentity_keep (L : Laws E) {id : Bytes} (hid : id ≠ c.id) (hm : J K b E cfg c m) :
    Keep K b E cfg c (fun _ m' => J K b E cfg c m') (deleteIdentity E id) m := by
  unfold deleteIdentity
  refine Keep.look_bind hm ?_
  intro m1 r1 b1
  have j1 := J.quiet hm r1
  refine (findIdentity_keep id m1.slots m1 j1).bind ?_
  rintro found m2 ⟨r2, h2⟩
  have j2 := J.quiet j1 r2
  split
  · rename_i i last hl
    obtain ⟨q, t, k1, k2, k3⟩ := h2 i rfl
    intro m3 r3 b3 _
    have j3 : J K b E cfg c { m3 with slots := (m1.slots.set i last).dropLast } := by
      intro hk
      obtain ⟨⟨p, hp, s, h3, h4⟩, h5⟩ := (j2 hk).quiet r3
      refine ⟨⟨p, mem_remove hl k1 (by rw [r3.slots, r2.slots] at hp; exact hp) ?_, s, h3, h4⟩, h5⟩
      rintro rfl
      obtain ⟨n, hn⟩ := r3.heap _ _ k2
      rw [hn] at h3
      obtain rfl := Option.some.inj h3
      exact hid (k3.symm.trans h4.1)
    refine ⟨j3, ?_⟩
    exact Keep.saved L j3 fun _ h => h
  · exact j2

theorem perform_keep (L : Laws E) {op : Op} (hop : op ≠ .deleteIdentity c.id) (hm : J K b E cfg c m) :
    Keep K b E cfg c (fun r m' => J K b E cfg c m' ∧ (Announcing c op r → Kept b E cfg c m')) (perform E op) m := by
  have hno : ∀ {r m}, (∀ data, op ≠ .ctap (1 :: data)) → J K b E cfg c m → J K b E cfg c m ∧ (Announcing c op r → Kept b E cfg c m) := by
    rintro r m hne hm
    refine ⟨hm, ?_⟩
    rintro ⟨data, a, h, -⟩
    exact absurd h (hne data)
  cases op with
  | ctap msg =>
    cases msg with
    | nil => trivial
    | cons x body =>
      show Keep K b E cfg c _ (handleCtap E (x :: body) >>= fun b => Pure.pure (Reply.answer b)) m
      unfold handleCtap
      dsimp only
      split
      · refine Runs.bind (handleMakeCredential_keep L body hm) ?_
        rintro r m1 ⟨h1, h2⟩
        refine ⟨h1, ?_⟩
        rintro ⟨data, a, -, e, h3⟩
        obtain rfl : r = a := by injection e
        exact h2 h3
      · rename_i hx
        have hne : ∀ data, Op.ctap (x :: body) ≠ .ctap (1 :: data) := by
          intro data e1
          injection e1 with e1
          exact absurd (List.cons.inj e1).1 hx
        split
        · exact (Keep.rest getInfo_traced hm).bind fun r m1 h1 => hno hne h1
        · split
          · exact (handleGetAssertion_keep L body hm).bind fun r m1 h1 => hno hne h1
          · split
            · exact (handleClientPIN_keep L body hm).bind fun r m1 h1 => hno hne h1
            · trivial
  | u2f msg =>
    have h : ∀ m, (touches E (.u2f m)).credentials = false ∧ (touches E (.u2f m)).store = false := by
      intro m
      unfold touches
      split <;> (first | (exact ⟨rfl, rfl⟩) | (rename_i h; cases h))
    refine Runs.bind (Q := fun _ m' => J K b E cfg c m') ?_ fun r m1 h1 => hno (fun _ h => by cases h) h1
    refine (Runs.of_traced (P := fun m' => Quiet b m m') (u2f_traced msg) (fun _ _ h1 h2 _ => h1.trans h2)
      (fun _ _ h1 h2 => h1.trans (keeps_quiet (h msg).1 (fun _ => (h msg).2) h2)) (fun m' h hk => (hm hk).quiet h)
      (Quiet.refl b m)).mono fun _ _ h => J.quiet hm h.2
  | enablePIN =>
    refine Runs.bind (Q := fun _ m' => J K b E cfg c m') ?_ fun r m1 h1 => hno (fun _ h => by cases h) h1
    unfold enablePIN
    refine Keep.others (Q := fun _ => True) ?_ hm fun _ _ _ hm _ => saveData_rest L hm
    exact traced_write fun m => { keeps_refl besides m with pinEnabled := fun h' => by cases h' }
  | disablePIN =>
    refine Runs.bind (Q := fun _ m' => J K b E cfg c m') ?_ fun r m1 h1 => hno (fun _ h => by cases h) h1
    unfold disablePIN
    refine Keep.others (Q := fun _ => True) ?_ hm fun _ _ _ hm _ => saveData_rest L hm
    exact traced_write fun m => { keeps_refl besides m with pinEnabled := fun h' => by cases h' }
  | setPIN pin =>
    refine Runs.bind (Q := fun _ m' => J K b E cfg c m') ?_ fun r m1 h1 => hno (fun _ h => by cases h) h1
    exact setPINHash_keep L _ hm
  | deleteIdentity id =>
    refine (deleteIdentity_keep L (fun h => hop (by rw [h])) hm).bind fun r m1 h1 => hno (fun _ h => by cases h) h1
  | restart => exact hno (fun _ h => by cases h) hm

/-! ### The rule -/

theorem _root_.VF.Fido.Prog.Runs.outer {N : Mem → Prop} {R : Mem → Mem → Prop} {G G' : Mem → Prop} {Q : α → Mem → Prop}
    {p : Prog α} (hp : Runs N R G Q p m) (h : ∀ m, G m → G' m) : Runs N R G' Q p m := by
  induction p generalizing m with
  | ret a => exact hp
  | fail c => trivial
  | act upd next ih =>
    intro m' h1 h2 h3
    obtain ⟨k1, k2⟩ := hp m' h1 h2 h3
    exact ⟨h _ k1, ih m' k2⟩

/-- Creations whose answers announce `c`. -/
def announcing (c : Cred) : Op × Reply → Bool
  | (.ctap (1 :: _), .answer a) => decide (announced a = some c)
  | _ => false

theorem announcing_iff {op : Op} {r : Reply} : announcing c (op, r) = true ↔ Announcing c op r := by
  constructor
  · intro h
    unfold announcing at h
    split at h
    · rename_i a b d heq
      simp only [Prod.mk.injEq] at heq
      exact ⟨_, _, heq.1, heq.2, of_decide_eq_true h⟩
    · cases h
  · rintro ⟨data, a, rfl, rfl, h⟩
    exact decide_eq_true h

/-- The kinds: what changes the list; with `b` what saves. -/
def keptKind (b : Bool) (E : Env) (op : Op) : Bool := if b then saves E op else changesList op

theorem touches_credentials (E : Env) (op : Op) : (touches E op).credentials = changesList op := by
  unfold touches
  split
  · rfl
  · rfl
  · split
    · split
      · rfl
      · split <;> rfl
    · rfl
  · rfl
  · rfl
  · rfl
  · rfl
  · rfl
  · rfl
  · rename_i h1 h2 h3 h4 h5 h6 h7 h8 h9
    unfold changesList
    split
    · exact absurd rfl (h1 _)
    · exact absurd rfl (h9 _)
    · rfl

theorem changesList_saves (E : Env) {op : Op} (h : changesList op = true) : saves E op = true := by
  unfold changesList at h
  split at h
  · rfl
  · rfl
  · cases h

theorem kept_others {op : Op} {m m' : Mem} (hk : keptKind b E op = false) (h : Keeps (touches E op) m m') : Quiet b m m' := by
  cases b with
  | false =>
    exact keeps_quiet ((touches_credentials E op).trans hk) (fun h => by cases h) h
  | true =>
    have hk : saves E op = false := hk
    refine keeps_quiet ?_ (fun _ => hk) h
    rw [touches_credentials]
    cases hc : changesList op with
    | false => rfl
    | true => rw [changesList_saves E hc] at hk; cases hk

/-- Since the list of results was `l0`, `c` was announced: it is kept. -/
def Since (b : Bool) (E : Env) (cfg : Client.Config) (c : Cred) (l0 : List (Op × Reply)) (m : Mem) (l : List (Op × Reply)) : Prop :=
  (∃ new, l = l0 ++ new) ∧ J (l ≠ l0) b E cfg c m

theorem kept_rule (L : Laws E) (l0 : List (Op × Reply)) :
    Rule E (fun op => op ≠ .deleteIdentity c.id) (keptKind b E) (announcing c) (Good E cfg) (Quiet b)
      (Since b E cfg c l0) (Since b E cfg c l0) where
  refl := Quiet.refl b
  trans _ _ _ := Quiet.trans
  others _ _ _ _ := kept_others
  kinds op r h := by
    obtain ⟨data, a, rfl, -⟩ := announcing_iff.1 h
    cases b <;> rfl
  instant op r h := by
    cases hs : announcing c (op, r) with
    | false => rfl
    | true =>
      obtain ⟨data, a, rfl, rfl, h1⟩ := announcing_iff.1 hs
      exfalso
      have h : (handleMakeCredential E data >>= fun b => Pure.pure (Reply.answer b)) = .ret (.answer a) := h
      unfold handleMakeCredential at h
      split at h
      · cases h
      · split at h
        · have h : Prog.ret (Reply.answer [Ctap.errUnsupportedAlgorithm]) = .ret (.answer a) := h
          injection h with h
          injection h with h
          rw [← h] at h1
          cases h1
        · cases h
  inner := fun m m' l h hr _ => ⟨h.1, J.quiet h.2 hr⟩
  outer := fun m m' l h hr _ => ⟨h.1, J.quiet h.2 hr⟩
  weaker _ _ h := h
  op := by
    rintro op m l hok hk hg ⟨⟨new, rfl⟩, hj⟩
    refine ((perform_keep (K := l0 ++ new ≠ l0) L hok hj).mono ?_).outer fun m h => ⟨⟨new, rfl⟩, h⟩
    rintro r m' ⟨h1, h2⟩
    by_cases hs : announcing c (op, r) = true
    · rw [if_pos hs]
      exact ⟨⟨new ++ [(op, r)], by rw [List.append_assoc]⟩, fun _ => h2 (announcing_iff.1 hs)⟩
    · rw [if_neg hs, List.append_nil]
      exact ⟨⟨new, rfl⟩, h1⟩

end VF.Fido.Overlap
