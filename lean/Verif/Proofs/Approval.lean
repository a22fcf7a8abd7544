import Verif.Spec.Approval
import Verif.Proofs.Store
import Verif.Proofs.U2fSpec

/-!
# Successful answers and approvals
-/

namespace VF.Fido.Device

open VF.Spec.Client VF.Spec.Vault VF.Spec.History VF.Spec.Ctap VF.Spec.Store VF.Spec.Approval Client Ctap

variable {E : Env} {cfg : Config}

/-- All ids have 16 bytes and all keys are for ECDSA. -/
def Plain (_ : Nat) (v : List Source) : Prop := ∀ s ∈ v, s.id.length = 16 ∧ s.key.ecdsa.isSome

theorem plain_step (L : Laws E) (op : Op) {d : Device} (h : Inv E cfg Plain d) :
    Inv E cfg Plain (step E cfg d op).2 := by
      refine inv_step (P := Plain) (Q := Plain) L ?_ (fun _ _ _ _ _ h => h) ?_ h
      · intro n v v' hs hp s hm
        obtain ⟨t, ht, e1, -, e3⟩ := sameCredentials_mem hs hm
        rw [← e1, ← e3]
        exact hp t ht
      · intro n v v' _ _ hc hp s hm
        cases hc with
        | same e => rw [e] at hm; exact hp s hm
        | added rp user e hr ho =>
          rw [e] at hm
          rcases List.mem_append.1 hm with hm | hm
          · exact hp s hm
          · rw [List.mem_singleton.1 hm]
            exact ⟨L.rand_length _ _, rfl⟩
        | used i e ho =>
          rw [e] at hm
          obtain ⟨t, q1, q2⟩ := mem_bump hm
          rcases q2 with rfl | rfl
          · exact hp s q1
          · exact hp t q1
        | removed t e ho => exact hp s (e.mem_iff.2 (List.mem_cons_of_mem _ hm))

theorem plain_boot (hu : Usable E cfg) : Inv E cfg Plain (boot E cfg) :=
  inv_boot hu (fun s hs => by cases hs)

theorem succeeded_error {s : Bytes} (h : U2f.isError s) : VF.Spec.U2f.succeeded s = none := by
  rcases h with rfl | rfl | rfl <;> decide

/-- Accounting for one request. -/
def Accounted (op : Op) (w : World) (r : Res Bytes) (w' : World) : Prop :=
  ∃ new, w'.asks = w.asks ++ new ∧ new.length ≤ 1 ∧
    ∀ b a, r = .ok b → claims (op, .answer b) = some a →
      ∃ q, new = [q] ∧ q.action = a ∧ q.answer = true

theorem accounted_none {op : Op} {w w' : World} {r : Res Bytes} (h : w'.asks = w.asks)
    (hc : ∀ b, r = .ok b → claims (op, .answer b) = none) : Accounted op w r w' := by
  refine ⟨[], by rw [h]; simp, Nat.zero_le _, ?_⟩
  intro b a h1 h2
  rw [hc b h1] at h2
  cases h2

theorem accounted_asked {op : Op} {w w' : World} {r : Res Bytes} {q : Ask}
    (h : w'.asks = w.asks ++ [q])
    (hc : ∀ b a, r = .ok b → claims (op, .answer b) = some a → q.action = a ∧ q.answer = true) :
    Accounted op w r w' :=
  ⟨[q], h, Nat.le_refl _, fun b a h1 h2 => ⟨q, rfl, hc b a h1 h2⟩⟩

theorem claims_make {data b : Bytes} {a : Action} (h : claims (.ctap (1 :: data), .answer b) = some a) :
    a = .makeCredential ∧ ∃ body, b = 0 :: body := by
  unfold claims at h
  split at h <;> simp_all

theorem asks_make (E : Env) (data : Bytes) (w : World) :
    Accounted (.ctap (1 :: data)) w (handleMessage E (1 :: data) w).1
      (handleMessage E (1 :: data) w).2 := by
  have hc := handleMakeCredential_cases E data w
  rw [handleMessage_make]
  generalize (handleMakeCredential E data w).1 = r at *
  generalize (handleMakeCredential E data w).2 = w' at *
  cases hc with
  | nothing hw hr =>
    subst hw
    refine accounted_none rfl ?_
    intro b hb
    obtain ⟨e, he, rfl⟩ := hr b hb
    cases hcl : claims (.ctap (1 :: data), .answer [e]) with
    | none => rfl
    | some a =>
      obtain ⟨-, body, h⟩ := claims_make hcl
      exact absurd (List.cons.inj h).1 he
  | refused args rp flags hd hs hp hrp ha hr hw =>
    subst hw; subst hr
    refine accounted_asked rfl ?_
    intro b a hb hcl
    obtain rfl := Res.ok.inj hb
    obtain ⟨-, body, h⟩ := claims_make hcl
    cases h
  | unsaved args rp flags hd hs hp hrp ha hn c hr hw =>
    subst hw; subst hr
    exact accounted_asked rfl (fun b a hb => by cases hb)
  | saved args rp flags blob n m hd hs hp hrp ha hn hm hw hr =>
    subst hw
    exact accounted_asked rfl (fun b a _ hcl => ⟨(claims_make hcl).1.symm, rfl⟩)

theorem claims_get {data b : Bytes} {a : Action} (h : claims (.ctap (2 :: data), .answer b) = some a) :
    a = .getAssertion ∧ present b = true := by
  unfold claims at h
  split at h <;> simp_all

theorem asks_get (L : Laws E) (data : Bytes) {w : World} (hh : Healthy E w.client)
    (hp : Plain w.rnd w.client.vault) :
    Accounted (.ctap (2 :: data)) w (handleMessage E (2 :: data) w).1
      (handleMessage E (2 :: data) w).2 := by
  have hshort : ∀ e, claims (.ctap (2 :: data), .answer [e]) = none := by
    intro e
    cases hcl : claims (.ctap (2 :: data), .answer [e]) with
    | none => rfl
    | some a =>
      have h := (claims_get hcl).2
      unfold present at h
      split at h
      · rename_i body e'
        obtain rfl := (List.cons.inj e').2
        exact absurd h (by decide)
      · cases h
  have hc := handleGetAssertion_cases E data w
  have hspec := fun body w' => Ctap.assertion_spec (E := E) (data := data) (body := body) (w := w) (w' := w') L
  have hlen := fun body w' => assertion_length (E := E) (data := data) (body := body) (w := w) (w' := w') L
  rw [handleMessage_get] at *
  have hsurj : handleGetAssertion E data w =
    ((handleGetAssertion E data w).1, (handleGetAssertion E data w).2) := rfl
  rw [hsurj] at hspec hlen
  generalize (handleGetAssertion E data w).1 = r at *
  generalize (handleGetAssertion E data w).2 = w' at *
  cases hc with
  | nothing hw hr =>
    subst hw
    refine accounted_none rfl ?_
    intro b hb
    obtain ⟨e, -, -, rfl⟩ := hr b hb
    exact hshort e
  | none args flags hd hp hm hw hr =>
    subst hw; subst hr
    refine accounted_none rfl ?_
    intro b hb
    obtain rfl := Res.ok.inj hb
    exact hshort _
  | unsaved args flags i s hd hp hi hn c hr hw =>
    subst hw; subst hr
    exact accounted_none rfl (fun b hb => by cases hb)
  | refused args flags i s rp user blob n hd hp hi hn hup hrp hu ha hr hw =>
    subst hw; subst hr
    refine accounted_asked rfl ?_
    intro b a hb hcl
    obtain rfl := Res.ok.inj hb
    rw [hshort] at hcl
    cases hcl
  | saved args flags flags' i s rp user blob n asks hd hp' hi hn hrp hu hq hw hr =>
    rcases hq with ⟨-, q, -⟩ | ⟨-, -, q, -⟩
    · refine accounted_none (by rw [hw]; exact q) ?_
      intro b hb
      obtain ⟨sig, -, hbb⟩ := hr b hb
      subst hbb
      subst hb
      have hl := hlen _ w' rfl (fun s hs => by
        obtain ⟨q1, q2⟩ := hp s hs
        obtain ⟨k, hk⟩ := Option.isSome_iff_exists.1 q2
        have hv := (hh.2.2.2.2 s hs).2.1
        simp only [KeyValid, hk] at hv
        exact ⟨by omega, k, hk, hv⟩)
      obtain ⟨_, _, _, _, _, _, _, _, authData, sig', ad, -, -, -, -, -, -, -, -, -, h10,
        h11, h12, -⟩ := hspec _ w' rfl hl
      have hup : ad.userPresent = false := by
        rcases h10 with ⟨-, -, h⟩ | ⟨-, h, -⟩
        · exact h
        · rw [hw] at h
          dsimp only at h
          rw [q] at h
          simp at h
      obtain ⟨b', e, hdec⟩ := h11
      rw [e]
      have hpr : present (0 :: b') = false := by
        have f1 : ∀ a b c : Cbor, field 2 (.map [(.int 1, a), (.int 2, b), (.int 3, c)]) = some b := by
          intros; rfl
        simp only [present, hdec, Option.bind_eq_bind, Option.bind_some, bytesField, f1, h12, hup]
      cases hcl : claims (.ctap (2 :: data), .answer (0 :: b')) with
      | none => rfl
      | some a =>
        have := (claims_get hcl).2
        rw [hpr] at this
        cases this
    · exact accounted_asked (by rw [hw]; exact q) (fun b a _ hcl => ⟨(claims_get hcl).1.symm, rfl⟩)

theorem asks_ctap (L : Laws E) (m : Bytes) {w : World} (hh : Healthy E w.client)
    (hp : Plain w.rnd w.client.vault) :
    Accounted (.ctap m) w (handleMessage E m w).1 (handleMessage E m w).2 := by
  cases m with
  | nil => exact accounted_none rfl (fun b hb => rfl)
  | cons c data =>
    by_cases h1 : c = 1
    · subst h1; exact asks_make E data w
    by_cases h2 : c = 2
    · subst h2; exact asks_get L data hh hp
    have hno : ∀ b, claims (.ctap (c :: data), .answer b) = none := by
      intro b
      unfold claims
      split <;> simp_all
    refine accounted_none ?_ (fun b _ => hno b)
    by_cases h4 : c = 4
    · subst h4; rfl
    by_cases h6 : c = 6
    · subst h6
      have hc := handleClientPIN_cases E data w
      rw [handleMessage_pin]
      generalize (handleClientPIN E data w).1 = r at *
      generalize (handleClientPIN E data w).2 = w' at *
      cases hc with
      | nothing hw hr => subst hw; rfl
      | retries args n he hd hs hn hw hr => subst hw; rfl
      | agreement args he hd hs hw hr => subst hw; rfl
      | set args key au enc secret pin he hd hs hn hk ha hc hss hauth hpin hl hw =>
        rcases hw with ⟨c, -, e, -⟩ | ⟨blob, n, -, -, e⟩ <;> subst e <;> rfl
      | wrong args key secret he hd hs hn hk hss hh hr hw => subst hw; rfl
      | change args key au secret he hd hs hn hk ha hss hauth hh hw =>
        rcases hw with ⟨-, hw⟩ | ⟨pin, -, -, ⟨c, hr, hw, -⟩ | ⟨blob, n, hr, hv, hw⟩⟩ <;>
          subst hw <;> rfl
      | token args key enc secret he hd hs hn hk hx hc hss hh hw hr => subst hw; rfl
    rw [handleMessage_other E c data h1 h2 h4 h6]

theorem asks_u2f (E : Env) (m : Bytes) (w : World) :
    Accounted (.u2f m) w (U2f.handleMessage E m w).1 (U2f.handleMessage E m w).2 := by
  match m with
  | [] => exact accounted_none rfl (fun b hb => by cases hb)
  | [_] => exact accounted_none rfl (fun b hb => by cases hb)
  | [_, _] => exact accounted_none rfl (fun b hb => by cases hb)
  | [_, _, _] => exact accounted_none rfl (fun b hb => by cases hb)
  | cla :: ins :: p1 :: p2 :: rest =>
    unfold U2f.handleMessage
    cases hd : U2f.decodeMessage (cla :: ins :: p1 :: p2 :: rest) with
    | panic c => exact accounted_none rfl (fun b hb => by cases hb)
    | ok p =>
      obtain ⟨header, request, n⟩ := p
      obtain rfl := U2f.decodeMessage_header hd
      rw [Go.lift_ok_bind]
      dsimp only
      have herr : ∀ b, U2f.isError b →
          claims (.u2f (cla :: ins :: p1 :: p2 :: rest), .answer b) = none := by
        intro b hb
        have := succeeded_error hb
        unfold claims
        split <;> simp_all
      split
      · rename_i h3
        have h3 : ins = 3 := h3
        subst h3
        refine accounted_none rfl (fun b _ => ?_)
        unfold claims
        split <;> simp_all
      · split
        · have hc := U2f.handleRegister_cases E request w
          generalize (U2f.handleRegister E request w).1 = r at *
          generalize (U2f.handleRegister E request w).2 = w' at *
          rename_i h1
          have h1 : ins = 1 := h1
          subst h1
          have hcl : ∀ b a, claims (.u2f (cla :: 1 :: p1 :: p2 :: rest), .answer b) = some a →
              a = .u2fRegister := by
            intro b a h
            unfold claims at h
            split at h <;> simp_all
          cases hc with
          | nothing c n hr hn hw =>
            subst hw; subst hr
            exact accounted_none rfl (fun b hb => by cases hb)
          | refused hl hk ha hr hw =>
            subst hw; subst hr
            refine accounted_asked rfl ?_
            intro b a hb h
            obtain rfl := Res.ok.inj hb
            rw [herr _ (.inr (.inl rfl))] at h
            cases h
          | agreed n hl hk ha hn hw hr =>
            subst hw
            exact accounted_asked rfl (fun b a _ h => ⟨(hcl b a h).symm, rfl⟩)
        · split
          · rename_i h2
            have h2 : ins = 2 := h2
            subst h2
            have hc := U2f.handleAuthenticate_cases E p1 request w
            generalize (U2f.handleAuthenticate E p1 request w).1 = r at *
            generalize (U2f.handleAuthenticate E p1 request w).2 = w' at *
            have hcl : ∀ b a, claims (.u2f (cla :: 2 :: p1 :: p2 :: rest), .answer b) = some a →
                a = .u2fAuthenticate ∧ p1 = 3 := by
              intro b a h
              unfold claims at h
              split at h <;> simp_all
            cases hc with
            | nothing hw hr =>
              subst hw
              exact accounted_none rfl (fun b hb => herr b (hr b hb))
            | refused challenge application handle key hd hk hc ha hr hw =>
              subst hw; subst hr
              refine accounted_asked rfl ?_
              intro b a hb h
              obtain rfl := Res.ok.inj hb
              rw [herr _ (.inr (.inl rfl))] at h
              cases h
            | signed challenge application handle key asks hd hk hc hw hr =>
              rcases hc with ⟨-, -, q⟩ | ⟨h8, q⟩
              · exact accounted_asked (by rw [hw]; exact q) (fun b a _ h => ⟨(hcl b a h).1.symm, rfl⟩)
              · refine accounted_none (by rw [hw]; exact q) ?_
                intro b _
                cases h : claims (.u2f (cla :: 2 :: p1 :: p2 :: rest), .answer b) with
                | none => rfl
                | some a =>
                  have := (hcl b a h).2
                  rw [h8] at this
                  exact absurd this (by decide)
          · exact accounted_none rfl (fun b hb => by cases hb)

/-- One operation: at most one question, during a request, and agreed to if the answer says so. -/
theorem perform_asks (L : Laws E) (op : Op) {w : World} (hh : Healthy E w.client)
    (hp : Plain w.rnd w.client.vault) :
    ∃ new, (perform E op w).2.asks = w.asks ++ new ∧ new.length ≤ (if isRequest op then 1 else 0) ∧
      ∀ r a, (perform E op w).1 = .ok r → claims (op, r) = some a →
        ∃ q, new = [q] ∧ q.action = a ∧ q.answer = true := by
  have hnone : ∀ w', (perform E op w).2 = w' → w'.asks = w.asks →
      (∀ r, (perform E op w).1 = .ok r → claims (op, r) = none) →
      ∃ new, (perform E op w).2.asks = w.asks ++ new ∧
        new.length ≤ (if isRequest op then 1 else 0) ∧
        ∀ r a, (perform E op w).1 = .ok r → claims (op, r) = some a →
          ∃ q, new = [q] ∧ q.action = a ∧ q.answer = true := by
    intro w' h1 h2 h3
    refine ⟨[], by rw [h1, h2]; simp, Nat.zero_le _, ?_⟩
    intro r a h4 h5
    rw [h3 r h4] at h5
    cases h5
  have hsave : ∀ (f : Client → Client) (r : Reply),
      ((do update f; saveData E; pure r : Go World Reply) w).2.asks = w.asks := by
    intro f r
    simp only [Go.run_bind, update, Go.modify, Go.run_pure]
    rcases saveData_cases E { w with client := f w.client } with ⟨c, h, -⟩ | ⟨blob, n, hs, h⟩ <;>
      simp only [h]
  cases op with
  | ctap m =>
    obtain ⟨new, h1, h2, h3⟩ := asks_ctap L m hh hp
    rw [perform_ctap']
    refine ⟨new, h1, h2, ?_⟩
    intro r a h4 h5
    cases hr : (handleMessage E m w).1 with
    | panic c => rw [hr] at h4; cases h4
    | ok b =>
      rw [hr] at h4
      obtain rfl := Res.ok.inj h4
      exact h3 b a hr h5
  | u2f m =>
    obtain ⟨new, h1, h2, h3⟩ := asks_u2f E m w
    rw [perform_u2f']
    refine ⟨new, h1, h2, ?_⟩
    intro r a h4 h5
    cases hr : (U2f.handleMessage E m w).1 with
    | panic c => rw [hr] at h4; cases h4
    | ok b =>
      rw [hr] at h4
      obtain rfl := Res.ok.inj h4
      exact h3 b a hr h5
  | enablePIN => exact hnone _ rfl (hsave (fun c => { c with pinEnabled := true }) .done) (fun _ _ => rfl)
  | disablePIN =>
    exact hnone _ rfl (hsave (fun c => { c with pinEnabled := false }) .done) (fun _ _ => rfl)
  | setPIN pin =>
    exact hnone _ rfl (hsave (fun c => { c with pinHash := some (pinDigest E pin) }) .done)
      (fun _ _ => rfl)
  | deleteIdentity id =>
    refine hnone _ rfl ?_ (fun _ _ => rfl)
    rcases perform_delete E id w with
      ⟨-, h⟩ | ⟨l, s, r, v', hv, -, -, hp, ⟨c, -, h⟩ | ⟨blob, n, hs, h⟩⟩ <;> rw [h]
  | restart => exact hnone _ rfl rfl (fun _ _ => rfl)

/-- One event. -/
theorem step_asks (L : Laws E) (op : Op) {d : Device} (h : Inv E cfg Plain d) :
    ∃ new, (step E cfg d op).2.world.asks = d.world.asks ++ new ∧
      new.length ≤ (if isRequest op then 1 else 0) ∧
      ∀ a, claims (op, (step E cfg d op).1) = some a → ∃ q, new = [q] ∧ q.action = a ∧ q.answer = true := by
  cases hr : isRestart op with
  | true =>
    cases op with
    | restart =>
      refine ⟨[], ?_, Nat.zero_le _, fun a h => by cases h⟩
      simp only [step, List.append_nil]
      cases start E cfg d.world.store d.world.rnd <;> rfl
    | _ => cases hr
  | false =>
    cases ha : d.alive with
    | false =>
      rw [step_dead (E := E) (cfg := cfg) hr ha]
      refine ⟨[], by simp, Nat.zero_le _, fun a h => ?_⟩
      unfold claims at h
      split at h <;> simp_all
    | true =>
      obtain ⟨c, hh, -, hp, hc⟩ := h
      obtain rfl := hc ha
      obtain ⟨new, h1, h2, h3⟩ := perform_asks L op hh hp
      rw [step_live hr ha]
      cases hres : (perform E op d.world).1 with
      | ok r => exact ⟨new, h1, h2, fun a => h3 r a hres⟩
      | panic c =>
        refine ⟨new, h1, h2, fun a h => ?_⟩
        unfold claims at h
        split at h <;> simp_all

end VF.Fido.Device
