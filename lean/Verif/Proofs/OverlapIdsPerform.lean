import Verif.Proofs.OverlapIds

/-!
# Ids of credentials do not repeat: the operations
-/

namespace VF.Fido.Overlap

open Prog VF.Spec.Client VF.Spec.Vault VF.Spec.Cose VF.Spec.Overlap VF.Spec.History VF.Spec.Ctap VF.Spec.Store

variable {E : Env} {cfg : Client.Config} {α β : Type} {t : Ticket} {m : Mem}

/-- All that neither credentials nor saved data are concerned with. -/
def besides : Touches :=
  { counters := true, pinHash := true, pinRetries := true, pinEnabled := true, authCounter := true, asks := true, rnd := true }

theorem Owns.others {Q : α → Prop} {R : Ticket → β → Mem → Prop} {p : Prog α} {f : α → Prog β}
    (h : Traced (fun _ => True) (fun _ => False) (Keeps besides) Q p)
    (hf : ∀ a m', Rel false m m' → Q a → Owns E cfg R t (f a) m') : Owns E cfg R t (p >>= f) m :=
  Owns.after rfl rfl rfl h hf

/-- The answer, and the ticket still as it was. -/
theorem Owns.rest {p : Prog α} (h : Traced (fun _ => True) (fun _ => False) (Keeps besides) (fun _ => True) p) :
    Owns E cfg (fun t' _ _ => t' = t) t p m :=
  (Owns.of_traced (tc := besides) rfl rfl rfl h).mono (fun _ _ _ h => h.1)

/-- Saving, then something else. -/
theorem Owns.saved (L : Laws E) {R : Ticket → β → Mem → Prop} {f : Unit → Prog β}
    (hf : ∀ m', Rel false m m' → Owns E cfg R t (f ()) m') : Owns E cfg R t (saveData E >>= f) m := by
  refine (saveData_owns L m).bind ?_
  rintro t' a m' h1 rfl
  exact hf m' h1

theorem setPINHash_owns (L : Laws E) (b : Option Bytes) : Owns E cfg (fun t' _ _ => t' = t) t (setPINHash E b) m := by
  unfold setPINHash
  refine Owns.others (Q := fun _ => True) ?_ fun _ m' _ _ => saveData_owns L m'
  exact traced_write fun m => { keeps_refl besides m with pinHash := fun h' => by cases h' }

theorem handleSetPIN_owns (L : Laws E) (args : ClientPINArgs) :
    Owns E cfg (fun t' _ _ => t' = t) t (handleSetPIN E args) m := by
  unfold handleSetPIN
  refine Owns.others (reads _) fun _ _ _ _ => ?_
  split
  · rfl
  · split
    · refine Owns.others (sharedSecret_traced _) fun _ _ _ _ => ?_
      split
      · rfl
      · refine Owns.others (lifts _) fun _ _ _ _ => ?_
        split
        · rfl
        · refine Owns.others (setPINRetries_traced rfl _) fun _ m' _ _ => (setPINHash_owns L _).bind ?_
          rintro t' a m'' - rfl
          rfl
    · trivial

theorem handleChangePIN_owns (L : Laws E) (args : ClientPINArgs) :
    Owns E cfg (fun t' _ _ => t' = t) t (handleChangePIN E args) m := by
  unfold handleChangePIN
  split
  · refine Owns.others getPINRetries_traced fun _ _ _ _ => ?_
    split
    · rfl
    · refine Owns.others (sharedSecret_traced _) fun _ _ _ _ => ?_
      split
      · rfl
      · refine Owns.others getPINRetries_traced fun _ _ _ _ => Owns.others (setPINRetries_traced rfl _) fun _ _ _ _ =>
          Owns.others (lifts _) fun _ _ _ _ => Owns.others (reads _) fun _ _ _ _ => ?_
        split
        · rfl
        · refine Owns.others (setPINRetries_traced rfl _) fun _ _ _ _ => Owns.others (lifts _) fun _ _ _ _ => ?_
          split
          · rfl
          · refine (setPINHash_owns L _).bind ?_
            rintro t' a m'' - rfl
            rfl
  · rfl

theorem handleClientPIN_owns (L : Laws E) (data : Bytes) :
    Owns E cfg (fun t' _ _ => t' = t) t (handleClientPIN E data) m := by
  unfold handleClientPIN
  refine Owns.others (reads _) fun _ m1 _ _ => ?_
  split
  · rfl
  · split
    · rfl
    · split
      · rfl
      · split
        · refine Owns.rest ?_
          unfold handleGetRetries
          exact getPINRetries_traced.then fun _ => trivial
        · split
          · refine Owns.rest ?_
            unfold handleGetKeyAgreement
            exact (reads _).then fun _ => trivial
          · split
            · exact handleSetPIN_owns L _
            · split
              · exact handleChangePIN_owns L _
              · split
                · exact Owns.rest (getPINToken_traced rfl _)
                · rfl

theorem handleGetAssertion_owns (L : Laws E) (data : Bytes) :
    Owns E cfg (fun t' _ _ => t' = t) t (handleGetAssertion E data) m := by
  unfold handleGetAssertion
  split
  · rfl
  · refine Owns.others (getAssertionPIN_traced _) fun pin _ _ _ => ?_
    split
    · rfl
    · refine Owns.bind (Q := fun t' _ _ => t' = t) ?_ ?_
      · unfold getAssertionSource
        refine Owns.others (looks _) fun _ _ _ _ => Owns.others (getMatching_traced _ _ _) fun l _ _ _ => ?_
        split
        · rfl
        · refine Owns.others (Q := fun _ => True) ?_ fun _ _ _ _ => Owns.saved L fun _ _ => rfl
          unfold bump
          exact (deref_traced _).then fun s => traced_write fun m => modify_keeps rfl m _ _
      · rintro t' src m2 - rfl
        split
        · rfl
        · split
          · exact Owns.rest (finishAssertion_traced rfl _ _ _)
          · refine Owns.others (Q := fun _ => True) ?_ fun _ _ _ _ => ?_
            · unfold approveAccountLogin
              refine (deref_traced _).then fun s => ?_
              split
              · exact approve_traced rfl _ _ _
              · trivial
            · split
              · rfl
              · exact Owns.rest (finishAssertion_traced rfl _ _ _)

theorem newCredentialSource_owns (L : Laws E) (params : List CredParam) (ex : List Descriptor) (rp : Option RPEntity)
    (user : Option UserEntity) :
    Owns E cfg (fun t' r m' => ∀ p, r = some p → ∃ a, t' = .done a ∧ idAt m' p = some a) .blank
      (newCredentialSource E params ex rp user) m := by
  unfold newCredentialSource
  split
  · intro p hp
    cases hp
  · intro m1 r1 b1 g1 k1
    refine ⟨_, .draw rfl rfl rfl rfl, ?_⟩
    show Owns E cfg _ _ (draw >>= _) _
    refine Owns.others (draw_traced rfl) fun k m2 r2 _ => ?_
    intro m3 r3 b3 g3 k3
    have hal : idAt { m3 with heap := m3.heap ++ [{ type := ascii "public-key", id := E.rand m1.world.rnd 16, key := { ecdsa := some (E.genEC k) }, rp := rp, user := user, counter := 0 }] } m3.heap.length = some (E.rand m1.world.rnd 16) := by
      simp [idAt, ids]
    refine ⟨_, .alloc (by simp [ids]) rfl rfl, ?_⟩
    show Owns E cfg _ _ (addIdentity m3.heap.length >>= _) _
    unfold addIdentity
    simp only [Prog.bind_assoc]
    intro m4 r4 b4 g4 k4
    refine ⟨_, .look, ?_⟩
    intro m5 r5 b5 g5 k5
    refine ⟨_, .add rfl rfl rfl, ?_⟩
    refine Owns.saved L fun m6 r6 => ?_
    intro p hp
    obtain rfl := Option.some.inj hp
    exact ⟨_, rfl, idAt_later (idAt_later hal (r4.trans (k4.trans (r5.trans k5)))) r6⟩

theorem createCertificate_made {tc : Touches} (hr : tc.rnd = true) (k : PrivKey) :
    Traced (fun _ => True) (fun _ => False) (Keeps tc)
      (fun c => ∃ ca issuer n, Cose.createAttestationCert E ca issuer k n = .ok (some c)) (createCertificate E k) := by
  unfold createCertificate
  refine (draw_traced hr).then fun n => (reads _).then fun ca => (reads _).then fun issuer =>
    Traced.bind (Q := fun c => Cose.createAttestationCert E ca issuer k n = .ok c) (traced_lift fun _ h => h) fun c hc => ?_
  split
  · exact ⟨ca, issuer, n, hc⟩
  · trivial

theorem signWith_made {tc : Touches} (hr : tc.rnd = true) (k : PrivKey) (b : Bytes) :
    Traced (fun _ => True) (fun _ => False) (Keeps tc) (fun sig => ∃ n, Cose.sign E k b n = .ok sig) (signWith E k b) :=
  (draw_traced hr).then fun n => traced_lift fun _ h => ⟨n, h⟩

theorem attest_owns (L : Laws E) {args : MakeCredArgs} {rp : RPEntity} {flags : UInt8} {p : Nat} {a : Bytes}
    (hp : idAt m p = some a) (hfl : flags = 0 ∨ flags = 4) :
    Owns E cfg (fun t' b _ => t' = .done a ∧ ∃ c, announced b = some c ∧ c.id = a) (.done a) (attest E args rp flags p) m := by
  unfold attest
  intro m1 r1 b1 g1 k1
  refine ⟨_, .quiet rfl rfl (.inl rfl), ?_⟩
  show Owns E cfg _ _ (Prog.bind (match m1.heap[p]? with
    | some s => ret s
    | none => Prog.fail .nilDeref) _) m1
  cases hs : m1.heap[p]? with
  | none => trivial
  | some s =>
    have hid : s.id = a := by
      have := idAt_later hp r1
      unfold idAt ids at this
      rw [List.getElem?_map, hs] at this
      exact Option.some.inj this
    obtain ⟨⟨i, j, -, -, hi, hk⟩, -⟩ := b1.good.made s (List.mem_of_getElem? hs)
    refine Owns.lift_bind ?_
    intro attested ha
    refine Owns.others (createCertificate_made rfl _) fun cert m2 _ hcert => ?_
    obtain ⟨ca, issuer, n, hcert⟩ := hcert
    refine Owns.others (signWith_made rfl _ _) fun sig m3 _ hsig => ?_
    obtain ⟨n', hsig⟩ := hsig
    obtain ⟨authData, ad, at', xb, yb, e, q1, q2, q3, q4, q5, -, -, -, q6, -, q7, q8, q9, q10, q11⟩ :=
      Ctap.creation_answer L hk (L.genEC_valid _) (by rw [hi]; exact L.rand_length _ _) hfl ha hcert hsig
    subst e
    refine ⟨rfl, ⟨at'.id, Spec.Cbor.beNat xb, Spec.Cbor.beNat yb⟩, ?_, q7.trans hid⟩
    obtain ⟨b, e, hd⟩ := q1
    have e := (List.cons.inj e).2
    have f1 : ∀ a b c : Cbor, Spec.Store.field 2 (.map [(.int 1, a), (.int 2, b), (.int 3, c)]) = some b := by
      intros; rfl
    have f2 : ∀ a b c d e : Cbor, Spec.Store.field (-2) (.map [(.int 1, a), (.int 3, b), (.int (-1), c),
        (.int (-2), d), (.int (-3), e)]) = some d := by
      intros; rfl
    have f3 : ∀ a b c d e : Cbor, Spec.Store.field (-3) (.map [(.int 1, a), (.int 3, b), (.int (-1), c),
        (.int (-2), d), (.int (-3), e)]) = some e := by
      intros; rfl
    rw [← e] at hd
    show announced (0 :: Cbor.encode _) = _
    simp only [announced, hd, Option.bind_eq_bind, Option.bind_some, bytesField, f1, q2, q6, q8, f2, f3]

/-- Flags, or an error. -/
def PinResult : Except UInt8 UInt8 → Prop
  | .ok flags => flags = 0 ∨ flags = 4
  | .error e => e ≠ 0

theorem makeCredentialPIN_made {tc : Touches} (args : MakeCredArgs) :
    Traced (fun _ => True) (fun _ => False) (Keeps tc) PinResult (makeCredentialPIN E args) := by
  unfold makeCredentialPIN
  refine (reads _).then fun _ => ?_
  split
  · exact .inl rfl
  · split
    · split
      · refine (reads _).then fun _ => ?_
        split
        · exact .inr rfl
        · exact (by decide : (0x33 : UInt8) ≠ 0)
      · exact (by decide : (0x33 : UInt8) ≠ 0)
    · refine (reads _).then fun _ => ?_
      split
      · exact (by decide : (0x36 : UInt8) ≠ 0)
      · exact .inl rfl

theorem handleMakeCredential_owns (L : Laws E) (data : Bytes) :
    Owns E cfg (fun t' b _ => ∀ c, announced b = some c → t' = .done c.id) .blank (handleMakeCredential E data) m := by
  have herr : ∀ {t : Ticket} {e : UInt8}, e ≠ 0 → ∀ c, announced [e] = some c → t = .done c.id := by
    intro t e he c hc
    exfalso
    unfold announced at hc
    split at hc
    · rename_i h
      exact he (List.cons.inj h).1
    · cases hc
  unfold handleMakeCredential
  split
  · trivial
  · split
    · exact herr (by decide)
    · refine Owns.others (makeCredentialPIN_made _) fun pin m1 r1 hpin => ?_
      split
      · exact herr hpin
      · split
        · trivial
        · refine Owns.others (approve_traced rfl _ _ _) fun ok m2 r2 _ => ?_
          split
          · exact herr (by decide)
          · refine (newCredentialSource_owns L _ _ _ _).bind ?_
            intro t' r m3 r3 h3
            split
            · exact herr (by decide)
            · obtain ⟨a, rfl, ha⟩ := h3 _ rfl
              refine (attest_owns L ha hpin).mono ?_
              rintro t' b m4 ⟨rfl, c, h4, h5⟩ c' hc
              rw [h4] at hc
              obtain rfl := Option.some.inj hc
              rw [h5]

theorem nodup_remove {l : List Nat} {i : Nat} {last : Nat} (hl : l.getLast? = some last) (hi : i < l.length) :
    (l.Nodup → ((l.set i last).dropLast).Nodup) ∧ ∀ p ∈ (l.set i last).dropLast, p ∈ l := by
  obtain ⟨init, rfl⟩ := List.getLast?_eq_some_iff.1 hl
  by_cases hlt : i < init.length
  · rw [List.set_append_left _ _ hlt, List.dropLast_concat]
    constructor
    · intro hn
      rw [List.nodup_append] at hn
      obtain ⟨h1, -, h3⟩ := hn
      unfold List.Nodup
      rw [List.pairwise_iff_getElem]
      intro a b ha hb hab he
      rw [List.length_set] at ha hb
      rw [List.getElem_set, List.getElem_set] at he
      have hmem : ∀ (k : Nat) (hk : k < init.length), init[k] ≠ last := fun k hk =>
        h3 _ (List.getElem_mem hk) last (by simp)
      by_cases hia : i = a
      · rw [if_pos hia, if_neg (by omega)] at he
        exact hmem b hb he.symm
      · by_cases hib : i = b
        · rw [if_neg hia, if_pos hib] at he
          exact hmem a ha he
        · rw [if_neg hia, if_neg hib] at he
          have := List.pairwise_iff_getElem.1 h1 a b ha hb hab
          exact this he
    · intro p hp
      rcases List.mem_or_eq_of_mem_set hp with h | h
      · exact List.mem_append_left _ h
      · rw [h]
        simp
  · obtain rfl : i = init.length := by
      simp at hi
      omega
    rw [List.set_append_right _ _ (Nat.le_refl _)]
    simp only [Nat.sub_self, List.set_cons_zero, List.dropLast_concat]
    constructor
    · intro hn
      exact (List.nodup_append.1 hn).1
    · intro p hp
      exact List.mem_append_left _ hp

theorem findIdentity_lt {tc : Touches} (id : Bytes) : ∀ l, Traced (fun _ => True) (fun _ => False) (Keeps tc)
    (fun r => ∀ i, r = some i → i < l.length) (findIdentity id l)
  | [] => fun i h => by cases h
  | p :: rest => by
    unfold findIdentity
    refine (deref_traced p).then fun s => ?_
    split
    · intro i h
      cases h
      simp
    · refine (findIdentity_lt id rest).bind fun r hr => ?_
      intro i h
      cases r with
      | none => cases h
      | some j =>
        have h : some (j + 1) = some i := h
        have := hr j rfl
        obtain rfl := Option.some.inj h
        simp
        exact this

theorem deleteIdentity_owns (L : Laws E) (id : Bytes) :
    Owns E cfg (fun _ _ _ => True) .blank (deleteIdentity E id) m := by
  unfold deleteIdentity
  intro m1 r1 b1 g1 k1
  refine ⟨_, .lookDel, ?_⟩
  show Owns E cfg _ _ (findIdentity id m1.slots >>= _) _
  refine Owns.others (findIdentity_lt id m1.slots) fun found m2 r2 hf => ?_
  split
  · rename_i i last hl
    obtain ⟨h1, h2⟩ := nodup_remove hl (hf i rfl)
    intro m3 r3 b3 g3 k3
    refine ⟨_, .del rfl h1 h2 rfl, ?_⟩
    refine Owns.saved L fun m4 r4 => trivial
  · trivial

/-- What is known of the result of an operation: a creation that announces a credential has its id. -/
def Announces (op : Op) (t : Ticket) (r : Reply) : Prop :=
  ∀ data b c, op = .ctap (1 :: data) → r = .answer b → announced b = some c → t = .done c.id

theorem perform_owns (L : Laws E) (op : Op) :
    Owns E cfg (fun t' r _ => Announces op t' r) .blank (perform E op) m := by
  cases op with
  | ctap msg =>
    cases msg with
    | nil => trivial
    | cons c body =>
      show Owns E cfg _ _ (handleCtap E (c :: body) >>= fun b => Pure.pure (Reply.answer b)) m
      unfold handleCtap
      dsimp only
      split
      · rename_i hc
        refine (handleMakeCredential_owns L body).bind ?_
        intro t' r m1 r1 h1 data b c' e1 e2 e3
        obtain rfl : r = b := by injection e2
        exact h1 c' e3
      · rename_i hc
        have hne : ∀ t' r, Announces (.ctap (c :: body)) t' r := by
          intro t' r data b c' e1
          injection e1 with e1
          exact absurd (List.cons.inj e1).1 hc
        split
        · refine (Owns.rest getInfo_traced).bind fun t' r m1 r1 h1 => hne _ _
        · split
          · exact (handleGetAssertion_owns L body).bind fun t' r m1 r1 h1 => hne _ _
          · split
            · exact (handleClientPIN_owns L body).bind fun t' r m1 r1 h1 => hne _ _
            · trivial
  | u2f msg =>
    have h : ∀ m, (touches E (.u2f m)).creates = false ∧ (touches E (.u2f m)).credentials = false ∧
        (touches E (.u2f m)).store = false := by
      intro m
      unfold touches
      split <;> (first | (exact ⟨rfl, rfl, rfl⟩) | (rename_i h; cases h))
    exact (Owns.of_traced (h msg).1 (h msg).2.1 (h msg).2.2 (u2f_traced msg)).bind fun t' r m1 r1 h1 data b c h => by cases h
  | enablePIN =>
    refine Owns.bind (Q := fun _ _ _ => True) ?_ fun t' r m1 r1 h1 data b c h => by cases h
    unfold enablePIN
    refine Owns.others (Q := fun _ => True) ?_ fun _ _ _ _ => (saveData_owns L _).mono fun _ _ _ _ => trivial
    exact traced_write fun m => { keeps_refl besides m with pinEnabled := fun h' => by cases h' }
  | disablePIN =>
    refine Owns.bind (Q := fun _ _ _ => True) ?_ fun t' r m1 r1 h1 data b c h => by cases h
    unfold disablePIN
    refine Owns.others (Q := fun _ => True) ?_ fun _ _ _ _ => (saveData_owns L _).mono fun _ _ _ _ => trivial
    exact traced_write fun m => { keeps_refl besides m with pinEnabled := fun h' => by cases h' }
  | setPIN pin =>
    refine Owns.bind (Q := fun _ _ _ => True) ?_ fun t' r m1 r1 h1 data b c h => by cases h
    exact (setPINHash_owns L _).mono fun _ _ _ _ => trivial
  | deleteIdentity id =>
    exact (deleteIdentity_owns L id).bind fun t' r m1 r1 h1 data b c h => by cases h
  | restart => intro data b c h; cases h

end VF.Fido.Overlap
