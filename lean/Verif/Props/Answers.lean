import Verif.Proofs.CborStrict
import Verif.Proofs.PinSpec
import Verif.Proofs.ToyDevice

/-!
# Answers and effects of all CTAP commands (C34, C60, C61)
-/

namespace VF.Props

open VF.Fido VF.Spec.Ctap VF.Spec.Client

/-! ## C34 -/

/-- Any two byte strings the strict reader reads as the same item are equal: it accepts one form
only. -/
theorem C34_canonical_form_unique {a b : Bytes} {v : Cbor} (ha : Spec.Cbor.decode a = some v)
    (hb : Spec.Cbor.decode b = some v) : a = b := by
  rw [VF.Cbor.decode_inv ha, VF.Cbor.decode_inv hb]

/-- Every answer (of less than 2^64 bytes) to every message is one status byte, or 0 followed by
exactly one canonical CBOR item. -/
theorem C34_answers_are_canonical (E : Env) {msg answer : Bytes} {w w' : World}
    (h : Ctap.handleMessage E msg w = (.ok answer, w'))
    (hlen : answer.length < 18446744073709551616) :
    (∃ e, answer = [e]) ∨ ∃ item, Success answer item := by
  have wrap : ∀ item, VF.Cbor.WF item → answer = 0 :: VF.Cbor.encode item →
      (∃ e, answer = [e]) ∨ ∃ item, Success answer item := by
    intro item hw e
    rw [e]
    exact .inr ⟨item, Ctap.success_of_wf hw⟩
  match msg with
  | [] => simp [Ctap.handleMessage] at h
  | c :: data =>
    by_cases c1 : c = 1
    · subst c1
      have hc := Ctap.handleMakeCredential_cases E data w
      rw [Ctap.handleMessage_make] at h
      rw [h] at hc
      dsimp only at hc
      cases hc with
      | nothing hw hr => obtain ⟨e, -, he⟩ := hr _ rfl; exact .inl ⟨e, he⟩
      | refused args rp flags hd hs hp hrp ha hr hw => exact .inl ⟨_, Res.ok.inj hr⟩
      | unsaved args rp flags hd hs hp hrp ha hn c hr hw => cases hr
      | saved args rp flags blob n m hd hs hp hrp ha hn hm hw hr =>
        obtain ⟨attested, cert, sig, -, -, -, -, e⟩ := hr _ rfl
        have hl := Ctap.makeCredentialItem_length
          (Ctap.makeAuthData E rp.id (Vault.newIdentity E args.rp args.user w.rnd) (some attested)
            (flags ||| Ctap.flagUP)) sig cert
        have := congrArg List.length e
        simp only [List.length_cons] at this
        exact wrap _ (Ctap.makeCredentialItem_wf (by unfold Short; omega) (by unfold Short; omega)
          (by unfold Short; omega)) e
    by_cases c2 : c = 2
    · subst c2
      have hc := Ctap.handleGetAssertion_cases E data w
      rw [Ctap.handleMessage_get] at h
      rw [h] at hc
      dsimp only at hc
      cases hc with
      | nothing hw hr => obtain ⟨e, -, -, he⟩ := hr _ rfl; exact .inl ⟨e, he⟩
      | none args flags hd hp hm hw hr => exact .inl ⟨_, Res.ok.inj hr⟩
      | unsaved args flags i s hd hp hi hn c hr hw => cases hr
      | refused args flags i s rp user blob n hd hp hi hn hup hrp hu ha hr hw =>
        exact .inl ⟨_, Res.ok.inj hr⟩
      | saved args flags flags' i s rp user blob n asks hd hp hi hn hrp hu hq hw hr =>
        obtain ⟨sig, -, e⟩ := hr _ rfl
        have hl := Ctap.getAssertionItem_length s.id
          (Ctap.makeAuthData E args.rpId (Ctap.bumped s) none flags') sig
        have := congrArg List.length e
        simp only [List.length_cons] at this
        exact wrap _ (Ctap.getAssertionItem_wf (by unfold Short; omega) (by unfold Short; omega)
          (by unfold Short; omega)) e
    by_cases c4 : c = 4
    · subst c4
      rw [Ctap.handleMessage_info] at h
      exact wrap _ (Ctap.getInfoItem_wf _) (Res.ok.inj (congrArg Prod.fst h)).symm
    by_cases c6 : c = 6
    · subst c6
      have hc := Ctap.handleClientPIN_cases E data w
      rw [Ctap.handleMessage_pin] at h
      rw [h] at hc
      dsimp only at hc
      cases hc with
      | nothing hw hr => obtain ⟨e, -, -, -, he⟩ := hr _ rfl; exact .inl ⟨e, he⟩
      | retries args' n he hd' hs' hn hw hr => exact wrap _ (Ctap.retriesItem_wf _) (Res.ok.inj hr)
      | agreement args' he hd' hs' hw hr =>
        have e := Res.ok.inj hr
        have hl := congrArg List.length e
        simp only [Ctap.keyAgreementItem, Cose.ec2Item, Cose.bytesOrNull, Cose.omitEmpty,
          List.isEmpty_nil, if_true, List.append_nil, VF.Cbor.encode, VF.Cbor.encodeEntries,
          List.length_cons, List.length_append] at hl
        refine wrap _ (Ctap.keyAgreementItem_wf (VF.Cbor.ec2Item_wf _ ?_ ?_ ?_ ?_ ?_ ?_)) e
        · simp [Cose.ktyEC2, Int8Range]
        · simp [Cose.algECDH, Int8Range]
        · simp [Int8Range]
        · intro x hx; obtain rfl := by simpa using hx
          unfold Short; omega
        · intro x hx; obtain rfl := by simpa using hx
          unfold Short; omega
        · simp [Short]
      | set args' key au enc secret pin he hd' hs' hn hk ha hc hss hauth hpin hl hw =>
        rcases hw with ⟨c, e, -⟩ | ⟨blob, n, e, -⟩
        · cases e
        · exact .inl ⟨_, Res.ok.inj e⟩
      | wrong args' key secret he hd' hs' hn hk hss hh hr hw =>
        rcases hr with ⟨c, hr⟩ | hr
        · cases hr
        · exact .inl ⟨_, Res.ok.inj hr⟩
      | change args' key au secret he hd' hs' hn hk ha hss hauth hh hw =>
        rcases hw with ⟨⟨c, e⟩ | e, -⟩ | ⟨pin, -, -, ⟨c, e, -⟩ | ⟨blob, n, e, -⟩⟩
        · cases e
        · exact .inl ⟨_, Res.ok.inj e⟩
        · cases e
        · exact .inl ⟨_, Res.ok.inj e⟩
      | token args' key enc secret he hd' hs' hn hk hx hc hss hh hw hr =>
        rcases hr with ⟨c, hr⟩ | ⟨t, hen, hr⟩
        · cases hr
        · have e := Res.ok.inj hr
          have hl := Ctap.pinTokenItem_length t
          have := congrArg List.length e
          simp only [List.length_cons] at this
          exact wrap _ (Ctap.pinTokenItem_wf (by unfold Short; omega)) e
    · rw [Ctap.handleMessage_other E c data c1 c2 c4 c6] at h
      cases h

/-- The content of the answer to getRetries: the number of retries left. -/
theorem C34_retries_content (E : Env) {data body : Bytes} {w w' : World} {args : ClientPINArgs}
    (h : Ctap.handleMessage E (0x06 :: data) w = (.ok (0 :: body), w'))
    (hd : E.decodeClientPIN data = some args) (hs : args.subCommand = 1) :
    w' = w ∧ ∃ n : Nat, (n : Int) = w.client.pinRetries ∧
      Success (0 :: body) (.map [(.int 3, .uint n)]) := by
  have hc := Ctap.handleClientPIN_cases E data w
  rw [Ctap.handleMessage_pin] at h
  rw [h] at hc
  dsimp only at hc
  cases hc with
  | nothing hw hr =>
    obtain ⟨e, he, -, -, hb⟩ := hr _ rfl
    simp at hb
    exact absurd hb.1.symm he
  | retries args' n he hd' hs' hn hw hr =>
    obtain ⟨m, rfl⟩ : ∃ m : Nat, (m : Int) = n := ⟨n.toNat, by omega⟩
    refine ⟨hw, m, hn.1.symm, ?_⟩
    have : Ctap.retriesItem (UInt8.ofInt (m : Int)) = .map [(.int 3, .uint m)] := by
      have : (UInt8.ofInt (m : Int)).toNat = m := by
        have : m ≤ 8 := by omega
        match m, this with
        | 0, _ | 1, _ | 2, _ | 3, _ | 4, _ | 5, _ | 6, _ | 7, _ | 8, _ => rfl
        | m + 9, h => omega
      unfold Ctap.retriesItem
      rw [this]
    rw [Res.ok.inj hr, ← this]
    exact Ctap.success_of_wf (Ctap.retriesItem_wf _)
  | agreement args' he hd' hs' hw hr =>
    rw [hd] at hd'; obtain rfl := Option.some.inj hd'; rw [hs] at hs'; cases hs'
  | set args' key au enc secret pin he hd' hs' hn hk ha hc hss hauth hpin hl hw =>
    rw [hd] at hd'; obtain rfl := Option.some.inj hd'; rw [hs] at hs'; cases hs'
  | wrong args' key secret he hd' hs' hn hk hss hh hr hw =>
    rcases hr with ⟨c, hr⟩ | hr <;> simp at hr
  | change args' key au secret he hd' hs' hn hk ha hss hauth hh hw =>
    rw [hd] at hd'; obtain rfl := Option.some.inj hd'; rw [hs] at hs'; cases hs'
  | token args' key enc secret he hd' hs' hn hk hx hc hss hh hw hr =>
    rw [hd] at hd'; obtain rfl := Option.some.inj hd'; rw [hs] at hs'; cases hs'

/-! ## C60 -/

/-- The entry of a map item under a text key. -/
def textKey (s : String) : Cbor → Bool
  | .text b => b == ascii s
  | _ => false

theorem getInfoItem_shape (p : Option Bool) : ∃ info options, Ctap.getInfoItem p = .map info ∧
    (.int 4, .map options) ∈ info ∧ (∀ e ∈ info, e.1 = .int 4 → e.2 = .map options) ∧
    Spec.Cbor.lookup options (textKey "clientPin") = p.map .bool := by
  have hrk : textKey "clientPin" (.str "rk") = false := by decide +kernel
  have hup : textKey "clientPin" (.str "up") = false := by decide +kernel
  have hpl : textKey "clientPin" (.str "plat") = false := by decide +kernel
  have hcp : textKey "clientPin" (.str "clientPin") = true := by decide +kernel
  have no : ∀ i : Int, i ≠ 4 → Cbor.int i ≠ .int 4 := fun i h e => h (Items.int_inj e)
  have h1 := no 1 (by decide)
  have h3 := no 3 (by decide)
  have h6 := no 6 (by decide)
  cases p with
  | none =>
    refine ⟨_, _, rfl, List.mem_append_left _ (.tail _ (.tail _ (.head _))), ?_, ?_⟩
    · intro e he h4
      simp only [List.append_nil, List.mem_cons, List.not_mem_nil, or_false] at he
      rcases he with rfl | rfl | rfl
      · exact absurd h4 h1
      · exact absurd h4 h3
      · rfl
    · simp [Spec.Cbor.lookup, hrk, hup, hpl]
  | some b =>
    refine ⟨_, _, rfl, List.mem_append_left _ (.tail _ (.tail _ (.head _))), ?_, ?_⟩
    · intro e he h4
      simp only [List.cons_append, List.nil_append, List.mem_cons, List.not_mem_nil, or_false] at he
      rcases he with rfl | rfl | rfl | rfl
      · exact absurd h4 h1
      · exact absurd h4 h3
      · rfl
      · exact absurd h4 h6
    · simp [Spec.Cbor.lookup, hrk, hup, hpl, hcp]

/-- GetInfo changes nothing and answers with a map whose entry 4 (options) contains `clientPin`
with the right value, or does not contain it if PIN support is off. -/
theorem C60_getInfo_tells_pin_state (E : Env) (data : Bytes) (w : World) :
    ∃ answer info options,
      Ctap.handleMessage E (0x04 :: data) w = (.ok answer, w) ∧
      Success answer (.map info) ∧ (.int 4, .map options) ∈ info ∧
      (∀ e ∈ info, e.1 = .int 4 → e.2 = .map options) ∧
      Spec.Cbor.lookup options (textKey "clientPin") =
        if w.client.pinEnabled then some (.bool w.client.pinHash.isSome) else none := by
  obtain ⟨info, options, e, h1, h2, h3⟩ := getInfoItem_shape
    (if w.client.pinEnabled then some w.client.pinHash.isSome else none)
  refine ⟨_, info, options, rfl, ?_, h1, h2, ?_⟩
  · rw [← e]; exact Ctap.success_of_wf (Ctap.getInfoItem_wf _)
  · rw [h3]; cases w.client.pinEnabled <;> rfl

/-! ## C61 -/

/-- Nothing but the vault differs. -/
def OnlyVault (c c' : Client) : Prop := c' = { c with vault := c'.vault }

/-- Nothing but PIN hash and retries differs. -/
def OnlyPin (c c' : Client) : Prop := c' = { c with pinHash := c'.pinHash, pinRetries := c'.pinRetries }

/-- Whatever the message and however its handling ends (also by a panic): MakeCredential appends
at most one credential, with counter 0; GetAssertion increments at most one counter; ClientPIN
changes nothing but PIN hash and retries; every other message changes nothing at all. -/
theorem C61_effects (E : Env) {msg : Bytes} {w w' : World} {r : Res Bytes}
    (h : Ctap.handleMessage E msg w = (r, w')) :
    (msg.head? = some 0x01 ∧ OnlyVault w.client w'.client ∧
      (w'.client.vault = w.client.vault ∨
        ∃ s, s.counter = 0 ∧ w'.client.vault = w.client.vault ++ [s])) ∨
    (msg.head? = some 0x02 ∧ OnlyVault w.client w'.client ∧
      (w'.client.vault = w.client.vault ∨
        ∃ before s after, w.client.vault = before ++ s :: after ∧
          w'.client.vault = before ++ { s with counter := s.counter + 1 } :: after)) ∨
    (msg.head? = some 0x06 ∧ OnlyPin w.client w'.client ∧ w'.asks = w.asks) ∨
    w' = w := by
  have bumpSplit : ∀ (v : List Source) (i : Nat) (s : Source), v[i]? = some s →
      ∃ before after, v = before ++ s :: after ∧
        Client.bump v i = before ++ { s with counter := s.counter + 1 } :: after := by
    intro v i s hi
    have hl : i < v.length := (List.getElem?_eq_some_iff.1 hi).1
    have he : v[i] = s := (List.getElem?_eq_some_iff.1 hi).2
    refine ⟨v.take i, v.drop (i + 1), ?_, ?_⟩
    · rw [← he]; simp
    · unfold Client.bump
      rw [List.modify_eq_take_cons_drop hl, he]
  match msg with
  | [] => simp [Ctap.handleMessage] at h; exact .inr (.inr (.inr h.2.symm))
  | c :: data =>
    by_cases c1 : c = 1
    · subst c1
      left
      have hc := Ctap.handleMakeCredential_cases E data w
      rw [Ctap.handleMessage_make] at h
      rw [h] at hc
      dsimp only at hc
      refine ⟨rfl, ?_⟩
      cases hc with
      | nothing hw hr => rw [hw]; exact ⟨rfl, .inl rfl⟩
      | refused args rp flags hd hs hp hrp ha hr hw => rw [hw]; exact ⟨rfl, .inl rfl⟩
      | unsaved args rp flags hd hs hp hrp ha hn c hr hw =>
        rw [hw]; exact ⟨rfl, .inr ⟨_, rfl, rfl⟩⟩
      | saved args rp flags blob n m hd hs hp hrp ha hn hm hw hr =>
        rw [hw]; exact ⟨rfl, .inr ⟨_, rfl, rfl⟩⟩
    by_cases c2 : c = 2
    · subst c2
      right; left
      have hc := Ctap.handleGetAssertion_cases E data w
      rw [Ctap.handleMessage_get] at h
      rw [h] at hc
      dsimp only at hc
      refine ⟨rfl, ?_⟩
      cases hc with
      | nothing hw hr => rw [hw]; exact ⟨rfl, .inl rfl⟩
      | none args flags hd hp hm hw hr => rw [hw]; exact ⟨rfl, .inl rfl⟩
      | unsaved args flags i s hd hp hi hn c hr hw =>
        obtain ⟨b, a, e1, e2⟩ := bumpSplit _ _ _ hi.1
        rw [hw]; exact ⟨rfl, .inr ⟨b, s, a, e1, e2⟩⟩
      | refused args flags i s rp user blob n hd hp hi hn hup hrp hu ha hr hw =>
        obtain ⟨b, a, e1, e2⟩ := bumpSplit _ _ _ hi.1
        rw [hw]; exact ⟨rfl, .inr ⟨b, s, a, e1, e2⟩⟩
      | saved args flags flags' i s rp user blob n asks hd hp hi hn hrp hu hq hw hr =>
        obtain ⟨b, a, e1, e2⟩ := bumpSplit _ _ _ hi.1
        rw [hw]; exact ⟨rfl, .inr ⟨b, s, a, e1, e2⟩⟩
    by_cases c4 : c = 4
    · subst c4
      rw [Ctap.handleMessage_info] at h
      exact .inr (.inr (.inr (congrArg Prod.snd h).symm))
    by_cases c6 : c = 6
    · subst c6
      right; right; left
      have hc := Ctap.handleClientPIN_cases E data w
      rw [Ctap.handleMessage_pin] at h
      rw [h] at hc
      dsimp only at hc
      refine ⟨rfl, ?_⟩
      cases hc with
      | nothing hw hr => rw [hw]; exact ⟨rfl, rfl⟩
      | retries args' n he hd' hs' hn hw hr => rw [hw]; exact ⟨rfl, rfl⟩
      | agreement args' he hd' hs' hw hr => rw [hw]; exact ⟨rfl, rfl⟩
      | set args' key au enc secret pin he hd' hs' hn hk ha hc hss hauth hpin hl hw =>
        rcases hw with ⟨c, -, e, -⟩ | ⟨blob, n, -, -, e⟩ <;> rw [e] <;> exact ⟨rfl, rfl⟩
      | wrong args' key secret he hd' hs' hn hk hss hh hr hw => rw [hw]; exact ⟨rfl, rfl⟩
      | change args' key au secret he hd' hs' hn hk ha hss hauth hh hw =>
        rcases hw with ⟨-, e⟩ | ⟨pin, -, -, ⟨c, -, e, -⟩ | ⟨blob, n, -, -, e⟩⟩ <;> rw [e] <;>
          exact ⟨rfl, rfl⟩
      | token args' key enc secret he hd' hs' hn hk hx hc hss hh hw hr =>
        rw [hw]; exact ⟨rfl, rfl⟩
    · rw [Ctap.handleMessage_other E c data c1 c2 c4 c6] at h
      exact .inr (.inr (.inr (congrArg Prod.snd h).symm))

end VF.Props
