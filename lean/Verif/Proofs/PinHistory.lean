import Verif.Spec.PinHistory
import Verif.Proofs.Retries
import Verif.Proofs.Status

/-!
# The PIN over time
-/

namespace VF.Fido.Device

open VF.Spec.Client VF.Spec.History VF.Spec.Pin VF.Spec.PinHistory Client Ctap

variable {E : Env} {cfg : Config}

/-- What is saved of the PIN. -/
def pinSettings (c : Client) : Bool × Option Bytes := (c.pinEnabled, c.pinHash)

theorem ctap_pinSettings (E : Env) (c : UInt8) (data : Bytes) (w : World) (h6 : c ≠ 6) :
    pinSettings (Ctap.handleMessage E (c :: data) w).2.client = pinSettings w.client := by
  by_cases h1 : c = 1
  · subst h1
    have hc := handleMakeCredential_cases E data w
    rw [handleMessage_make]
    generalize (handleMakeCredential E data w).1 = r at *
    generalize (handleMakeCredential E data w).2 = w' at *
    cases hc with
    | nothing hw hr => subst hw; rfl
    | refused args rp flags hd hs hp hrp ha hr hw => subst hw; rfl
    | unsaved args rp flags hd hs hp hrp ha hn c hr hw => subst hw; rfl
    | saved args rp flags blob n m hd hs hp hrp ha hn hm hw hr => subst hw; rfl
  by_cases h2 : c = 2
  · subst h2
    have hc := handleGetAssertion_cases E data w
    rw [handleMessage_get]
    generalize (handleGetAssertion E data w).1 = r at *
    generalize (handleGetAssertion E data w).2 = w' at *
    cases hc with
    | nothing hw hr => subst hw; rfl
    | none args flags hd hp hm hw hr => subst hw; rfl
    | unsaved args flags i s hd hp hi hn c hr hw => subst hw; rfl
    | refused args flags i s rp user blob n hd hp hi hn hup hrp hu ha hr hw => subst hw; rfl
    | saved args flags flags' i s rp user blob n asks hd hp hi hn hrp hu hq hw hr => subst hw; rfl
  by_cases h4 : c = 4
  · subst h4; rfl
  rw [handleMessage_other E c data h1 h2 h4 h6]

/-- What an operation does to the PIN. -/
inductive PinOut (E : Env) (op : Op) (w : World) (r : Res Reply) (w' : World) : Prop
  | same (hs : pinSettings w'.client = pinSettings w.client)
      (hq : ∀ q, r = .ok q → setsPIN E (op, q) = false ∧ ∀ b, switched b (op, q) = b)
  | set (q : Reply) (pin : Bytes) (hr : r = .ok q) (hq : setsPIN E (op, q) = true ∧ ∀ b, switched b (op, q) = b)
      (he : w'.client.pinEnabled = w.client.pinEnabled) (hp : w'.client.pinHash = some (hash E pin))
      (ho : ∀ pin', SetTo E w.client (op, q) pin' → pin' = pin)
  | switch (hr : r = .ok .done) (hop : op = .enablePIN ∨ op = .disablePIN)
      (he : w'.client.pinEnabled = switched w.client.pinEnabled (op, .done)) (hp : w'.client.pinHash = w.client.pinHash)

theorem padded_unique {a b p : Bytes} (h1 : Padded a p) (h2 : Padded b p) : a = b := by
  rw [← (takeWhile_padded h1).2, ← (takeWhile_padded h2).2]

theorem secret_unique (L : Laws E) {c : Client} {key : EC2Key} {a b : Bytes} (h1 : Secret E c key a) (h2 : Secret E c key b) :
    a = b := by
  rcases secret_cases L c key with ⟨s, -, -, -, h⟩ | ⟨q, -, h⟩
  · rw [h a h1, h b h2]
  · exact absurd h1 (h a)

theorem switched_ctap (b : Bool) (m : Bytes) (q : Reply) : switched b (.ctap m, q) = b := rfl

theorem pinOut_pin (L : Laws E) (data : Bytes) {w : World} (hh : Healthy E w.client) :
    PinOut E (.ctap (6 :: data)) w (perform E (.ctap (6 :: data)) w).1 (perform E (.ctap (6 :: data)) w).2 := by
  rw [perform_ctap', handleMessage_pin]
  have hc := handleClientPIN_cases E data w
  generalize (handleClientPIN E data w).1 = r at *
  generalize (handleClientPIN E data w).2 = w' at *
  cases hc with
  | nothing hw hr =>
    subst hw
    refine .same rfl ?_
    intro q hq
    cases r with
    | panic c => cases hq
    | ok b =>
      cases hq
      obtain ⟨e, h0, -, -, rfl⟩ := hr b rfl
      refine ⟨?_, fun _ => rfl⟩
      unfold setsPIN
      split
      · rename_i heq; cases heq
      · rename_i heq
        cases heq
        exact absurd rfl h0
      · rfl
  | retries args n he hd hs hn hw hr =>
    subst hw; subst hr
    refine .same rfl ?_
    intro q hq
    cases hq
    exact ⟨by simp [setsPIN, hd, hs], fun _ => rfl⟩
  | agreement args he hd hs hw hr =>
    subst hw; subst hr
    refine .same rfl ?_
    intro q hq
    cases hq
    exact ⟨by simp [setsPIN, hd, hs], fun _ => rfl⟩
  | set args key au enc secret pin he hd hs hn hk ha hc hss hauth hpin hl hw =>
    rcases hw with ⟨c, hr, hw, hno⟩ | ⟨blob, n, hr, hv, hw⟩
    · obtain ⟨blob, hb⟩ := healthy_saves L (healthy_pin L hh 8 pin) w.rnd
      rw [hw] at hno
      exact absurd hb (hno _ _)
    · subst hw; subst hr
      refine .set (.answer [0]) pin rfl ⟨by simp [setsPIN, hd, hs], fun _ => rfl⟩ rfl rfl ?_
      intro pin' h'
      cases h' with
      | request hd' hs' hk' hsec hp =>
        rw [hd] at hd'; cases hd'
        rw [hk] at hk'; cases hk'
        obtain rfl := secret_unique L hsec (sharedSecret_ok hss)
        rw [hc] at hp
        exact padded_unique hp (decryptPIN_ok hpin hl)
  | wrong args key secret he hd hs hn hk hss hh hr hw =>
    subst hw
    refine .same rfl ?_
    intro q hq
    rcases hr with ⟨c, hr⟩ | hr
    · subst hr; cases hq
    · subst hr; cases hq
      exact ⟨by simp [setsPIN], fun _ => rfl⟩
  | change args key au secret he hd hs hn hk ha hss hauth hh' hw =>
    rcases hw with ⟨⟨c, hr⟩ | hr, hw⟩ | ⟨pin, hpin, hl, ⟨c, hr, hw, hno⟩ | ⟨blob, n, hr, hv, hw⟩⟩
    · subst hw; subst hr; exact .same rfl (fun q hq => by cases hq)
    · subst hw; subst hr
      refine .same rfl ?_
      intro q hq
      cases hq
      exact ⟨by simp [setsPIN], fun _ => rfl⟩
    · obtain ⟨blob, hb⟩ := healthy_saves L (healthy_pin L hh 8 pin) w.rnd
      rw [hw] at hno
      exact absurd hb (hno _ _)
    · subst hw; subst hr
      refine .set (.answer [0]) pin rfl ⟨by simp [setsPIN, hd, hs], fun _ => rfl⟩ rfl rfl ?_
      intro pin' h'
      cases h' with
      | request hd' hs' hk' hsec hp =>
        rw [hd] at hd'; cases hd'
        rw [hk] at hk'; cases hk'
        obtain rfl := secret_unique L hsec (sharedSecret_ok hss)
        exact padded_unique hp (decryptPIN_ok hpin hl)
  | token args key enc secret he hd hs hn hk hx hc hss hh hw hr =>
    subst hw
    refine .same rfl ?_
    intro q hq
    rcases hr with ⟨c, hr⟩ | ⟨t, -, hr⟩
    · subst hr; cases hq
    · subst hr; cases hq
      exact ⟨by simp [setsPIN, hd, hs], fun _ => rfl⟩

theorem update_saves (L : Laws E) {w : World} {f : Client → Client} {q : Reply} (hh : Healthy E (f w.client)) :
    ∃ blob n, (do update f; saveData E; pure q : Go World Reply) w =
      (.ok q, { w with client := f w.client, store := some blob, rnd := n }) := by
  obtain ⟨blob, hb⟩ := healthy_saves L hh w.rnd
  simp only [Go.run_bind, update, Go.modify, Go.run_pure]
  rcases saveData_cases E { w with client := f w.client } with ⟨c, h, hno⟩ | ⟨blob', n, hs, h⟩
  · exact absurd hb (hno _ _)
  · rw [h]; exact ⟨_, _, rfl⟩

theorem perform_pin (L : Laws E) (op : Op) {w : World} (hh : Healthy E w.client) (hr : isRestart op = false) :
    PinOut E op w (perform E op w).1 (perform E op w).2 := by
  have hother : ∀ q : Reply, (∀ m, op ≠ .ctap m) → (∀ p, op ≠ .setPIN p) → setsPIN E (op, q) = false := by
    intro q h1 h2
    unfold setsPIN
    split
    · rename_i h; cases h; exact absurd rfl (h2 _)
    · rename_i h; cases h; exact absurd rfl (h1 _)
    · rfl
  have hsw : ∀ (q : Reply), op ≠ .enablePIN → op ≠ .disablePIN → ∀ b, switched b (op, q) = b := by
    intro q h1 h2 b
    unfold switched
    split
    · rename_i h; cases h; exact absurd rfl h1
    · rename_i h; cases h; exact absurd rfl h2
    · rfl
  cases op with
  | ctap m =>
    cases m with
    | nil => exact .same rfl (fun q hq => by cases hq)
    | cons c data =>
      by_cases h6 : c = 6
      · subst h6; exact pinOut_pin L data hh
      · refine .same ?_ ?_
        · rw [perform_ctap']
          exact ctap_pinSettings E c data w h6
        · intro q _
          refine ⟨?_, fun _ => rfl⟩
          unfold setsPIN
          split
          · rename_i h; cases h
          · rename_i h; cases h; exact absurd rfl h6
          · rfl
  | u2f m =>
    refine .same ?_ (fun q _ => ⟨hother q (fun _ h => by cases h) (fun _ h => by cases h), hsw q (by simp) (by simp)⟩)
    rw [perform_u2f']
    unfold U2f.handleMessage
    cases hd : U2f.decodeMessage m with
    | panic c => rfl
    | ok p =>
      obtain ⟨header, request, n⟩ := p
      rw [Go.lift_ok_bind]
      dsimp only
      split
      · rfl
      · split
        · have hc := U2f.handleRegister_cases E request w
          generalize (U2f.handleRegister E request w).1 = r at *
          generalize (U2f.handleRegister E request w).2 = w' at *
          cases hc with
          | nothing c n hr hn hw => subst hw; rfl
          | refused hl hk ha hr hw => subst hw; rfl
          | agreed n hl hk ha hn hw hr => subst hw; rfl
        · split
          · have hc := U2f.handleAuthenticate_cases E header.param1 request w
            generalize (U2f.handleAuthenticate E header.param1 request w).1 = r at *
            generalize (U2f.handleAuthenticate E header.param1 request w).2 = w' at *
            cases hc with
            | nothing hw hr => subst hw; rfl
            | refused challenge application handle key hd hk hc ha hr hw => subst hw; rfl
            | signed challenge application handle key asks hd hk hc hw hr => subst hw; rfl
          · rfl
  | enablePIN =>
    obtain ⟨blob, n, h⟩ := update_saves (q := Reply.done) L (w := w) (f := fun c => { c with pinEnabled := true })
      (healthy_enabled hh true)
    have h : perform E .enablePIN w = _ := h
    rw [h]
    exact .switch rfl (.inl rfl) rfl rfl
  | disablePIN =>
    obtain ⟨blob, n, h⟩ := update_saves (q := Reply.done) L (w := w) (f := fun c => { c with pinEnabled := false })
      (healthy_enabled hh false)
    have h : perform E .disablePIN w = _ := h
    rw [h]
    exact .switch rfl (.inr rfl) rfl rfl
  | setPIN pin =>
    obtain ⟨blob, n, h⟩ := update_saves (q := Reply.done) L (w := w) (f := fun c => { c with pinHash := some (pinDigest E pin) })
      (healthy_pin L hh w.client.pinRetries pin)
    have h : perform E (.setPIN pin) w = _ := h
    rw [h]
    exact .set .done pin rfl ⟨rfl, fun _ => rfl⟩ rfl rfl (fun pin' h' => by cases h'; rfl)
  | deleteIdentity id =>
    refine .same ?_ (fun q _ => ⟨hother q (fun _ h => by cases h) (fun _ h => by cases h), hsw q (by simp) (by simp)⟩)
    rcases perform_delete E id w with
      ⟨-, h⟩ | ⟨l, s, r, v', hv, -, -, hp, ⟨c, -, h⟩ | ⟨blob, n, hs, h⟩⟩ <;> rw [h] <;> rfl
  | restart => cases hr

/-- The device has, in memory and saved, PIN support `on` and the hash `h` of a PIN. -/
def PinIs (E : Env) (cfg : Config) (on : Bool) (h : Option Bytes) (d : Device) : Prop :=
  ∃ c, Healthy E c ∧ Restores E cfg d.world.store c ∧ (c.pinEnabled = on ∧ c.pinHash = h) ∧
    (d.alive = true → c = d.world.client)

theorem pinIs_boot (hu : Usable E cfg) : PinIs E cfg cfg.enablePIN none (boot E cfg) := by
  obtain ⟨c, h1, h2, -, h4⟩ := inv_boot (E := E) hu (P := fun _ _ => True) trivial
  have := h4 rfl
  exact ⟨c, h1, h2, by rw [this]; exact ⟨rfl, rfl⟩, h4⟩

theorem pinIs_step (L : Laws E) {d : Device} {on : Bool} {h : Option Bytes} (op : Op) (hd : PinIs E cfg on h d) :
    ∃ h', PinIs E cfg (switched on (op, (step E cfg d op).1)) h' (step E cfg d op).2 ∧
      (setsPIN E (op, (step E cfg d op).1) = false → h' = h) ∧
      (setsPIN E (op, (step E cfg d op).1) = true → ∃ pin, h' = some (hash E pin) ∧
        ∀ pin', SetTo E d.world.client (op, (step E cfg d op).1) pin' → pin' = pin) := by
  obtain ⟨c, h1, h2, ⟨k1, k2⟩, h4⟩ := hd
  cases hr : isRestart op with
  | true =>
    cases op with
    | restart =>
      obtain ⟨c', s1, s2, s3, -, s5⟩ := h2 d.world.rnd
      have e : step E cfg d .restart =
          (.started, ⟨{ d.world with client := c', rnd := d.world.rnd + 2 }, true⟩) := by
        simp only [step, s1]
      rw [e]
      refine ⟨h, ⟨c', s3, h2.same s2 (last_of_uniform s2.2.2.2.2.2 s5), ⟨?_, ?_⟩, fun _ => rfl⟩, fun _ => rfl, ?_⟩
      · exact s2.2.2.2.1.symm.trans k1
      · exact s2.2.2.2.2.1.symm.trans k2
      · intro h; cases h
    | _ => cases hr
  | false =>
    cases ha : d.alive with
    | false =>
      rw [step_dead (E := E) (cfg := cfg) hr ha]
      have e1 : switched on (op, .nothing) = on := by cases op <;> rfl
      have e2 : setsPIN E (op, .nothing) = false := by
        unfold setsPIN
        split
        · rename_i h; cases h
        · rename_i h; cases h
        · rfl
      rw [e1, e2]
      exact ⟨h, ⟨c, h1, h2, ⟨k1, k2⟩, h4⟩, fun _ => rfl, fun h => by cases h⟩
    | true =>
      obtain rfl := h4 ha
      have e := step_live (E := E) (cfg := cfg) hr ha
      obtain ⟨o1, o2⟩ := perform_out L op d.world
      have hp := perform_pin L op h1 hr
      have hnew : ∀ r, (perform E op d.world).1 = .ok r → ∀ on' h', pinSettings (perform E op d.world).2.client = (on', h') →
          PinIs E cfg on' h' ⟨(perform E op d.world).2, true⟩ := by
        intro r hok on' h' hs'
        have hs1 : (perform E op d.world).2.client.pinEnabled = on' := congrArg Prod.fst hs'
        have hs2 : (perform E op d.world).2.client.pinHash = h' := congrArg Prod.snd hs'
        cases o2 with
        | kept hs hc =>
          refine ⟨(perform E op d.world).2.client, hc.healthy h1, ?_, ⟨hs1, hs2⟩, fun _ => rfl⟩
          show Restores E cfg (perform E op d.world).2.store _
          rw [hs]
          refine h2.same hc.same ?_
          rw [hc.2.2.2.2.2]
          exact fun last h => ⟨last, h, rfl, rfl⟩
        | saved blob m n hs hv hh hch hk =>
          refine ⟨(perform E op d.world).2.client, hh h1, ?_, ⟨hs1, hs2⟩, fun _ => rfl⟩
          show Restores E cfg (perform E op d.world).2.store _
          rw [hs]
          intro rnd
          obtain ⟨-, c', q1, q2, q3, -, q4, -, -, q5⟩ := saves_restore L (hh h1) hv cfg rnd
          exact ⟨c', q1, q2, q3, q4, q5⟩
        | lost c hr' hs => rw [hok] at hr'; cases hr'
      rw [e]
      cases hp with
      | same hs hq =>
        cases hok : (perform E op d.world).1 with
        | ok q =>
          obtain ⟨q1, q2⟩ := hq q hok
          dsimp only
          rw [q1, q2]
          refine ⟨h, hnew q hok on h ?_, fun _ => rfl, fun h => by cases h⟩
          rw [hs]
          exact Prod.ext k1 k2
        | panic cause =>
          have e1 : switched on (op, .panicked) = on := by cases op <;> rfl
          have e2 : setsPIN E (op, .panicked) = false := by
            unfold setsPIN
            split
            · rename_i h; cases h
            · rename_i h; cases h
            · rfl
          dsimp only
          rw [e1, e2]
          refine ⟨h, ?_, fun _ => rfl, fun h => by cases h⟩
          cases o2 with
          | kept hs hc =>
            exact ⟨d.world.client, h1, by show Restores E cfg (perform E op d.world).2.store _; rw [hs]; exact h2, ⟨k1, k2⟩,
              fun h => by cases h⟩
          | saved blob m n hs' hv hh hch hk =>
            refine ⟨(perform E op d.world).2.client, hh h1, ?_, ?_, fun h => by cases h⟩
            · show Restores E cfg (perform E op d.world).2.store _
              rw [hs']
              intro rnd
              obtain ⟨-, c', q1, q2, q3, -, q4, -, -, q5⟩ := saves_restore L (hh h1) hv cfg rnd
              exact ⟨c', q1, q2, q3, q4, q5⟩
            · exact ⟨(congrArg Prod.fst hs).trans k1, (congrArg Prod.snd hs).trans k2⟩
          | lost c hr' hs =>
            exact ⟨d.world.client, h1, by show Restores E cfg (perform E op d.world).2.store _; rw [hs]; exact h2, ⟨k1, k2⟩,
              fun h => by cases h⟩
      | set q pin hok hq he hp ho =>
        rw [hok]
        dsimp only
        rw [hq.1, hq.2]
        exact ⟨some (hash E pin), hnew q hok _ _ (Prod.ext (he.trans k1) hp), (fun h => by cases h), fun _ => ⟨pin, rfl, ho⟩⟩
      | switch hok hop he hp =>
        rw [hok]
        dsimp only
        have e2 : setsPIN E (op, .done) = false := by rcases hop with rfl | rfl <;> rfl
        rw [e2]
        refine ⟨h, hnew _ hok _ _ (Prod.ext ?_ (hp.trans k2)), fun _ => rfl, fun h => by cases h⟩
        rw [← k1]
        exact he

theorem pinOn_cons (b : Bool) (e : Op × Reply) (l : List (Op × Reply)) : pinOn b (e :: l) = pinOn (switched b e) l := rfl

/-- While no PIN is set, the PIN stays. -/
theorem pinIs_stays (L : Laws E) (ops : List Op) : ∀ {d : Device} {on : Bool} {h : Option Bytes}, PinIs E cfg on h d →
    (∀ e ∈ events E cfg d ops, setsPIN E e = false) →
    PinIs E cfg (pinOn on (events E cfg d ops)) h (after E cfg d ops) := by
  induction ops with
  | nil => exact fun h _ => h
  | cons op ops ih =>
    intro d on h hd hno
    rw [events_cons] at hno ⊢
    obtain ⟨h', h1, h2, -⟩ := pinIs_step L op hd
    obtain rfl := h2 (hno _ (List.mem_cons_self ..))
    rw [pinOn_cons, after_cons]
    exact ih h1 fun e he => hno e (List.mem_cons_of_mem _ he)

/-- After any history. -/
theorem pinIs_after (L : Laws E) (ops : List Op) : ∀ {d : Device} {on : Bool} {h : Option Bytes}, PinIs E cfg on h d →
    ∃ h', PinIs E cfg (pinOn on (events E cfg d ops)) h' (after E cfg d ops) := by
  induction ops with
  | nil => exact fun h => ⟨_, h⟩
  | cons op ops ih =>
    intro d on h hd
    obtain ⟨h', h1, -⟩ := pinIs_step L op hd
    rw [events_cons, pinOn_cons, after_cons]
    exact ih h1

/-! ### Tries -/

theorem right_not_wrong {e : Op × Reply} (h : isWrongPIN e = true) : isRightPIN E e = false := by
  unfold isWrongPIN at h
  split at h
  · rfl
  · cases h

/-- PIN_POLICY_VIOLATION tells somebody who tries a PIN that it is right. -/
theorem change_policy {args : ClientPINArgs} {w w' : World} (h : handleChangePIN E args w = (.ok [0x37], w')) :
    w'.client.pinRetries = 8 := by
  unfold handleChangePIN at h
  cases hk : args.keyAgreement with
  | none => rw [hk] at h; cases h
  | some key =>
    cases ha : args.pinAuth with
    | none => rw [hk, ha] at h; cases h
    | some auth =>
      rw [hk, ha] at h
      dsimp only at h
      rcases getPINRetries_run w with ⟨hn1, hn2, hg⟩ | ⟨-, hg⟩
      · rw [Go.run_bind_ok hg, if_neg (by omega), Go.get_bind_run] at h
        cases hss : sharedSecret E w.client key with
        | panic c => rw [hss] at h; cases h
        | ok secret =>
          rw [hss, Go.lift_ok_bind] at h
          by_cases hauth : derivePINAuth E secret
              (args.newPinEnc.getD [] ++ args.pinHashEnc.getD []) = auth
          · rw [if_neg (by simpa using hauth), Go.run_bind_ok hg] at h
            simp only [setPINRetries, update, Go.modify_bind_run] at h
            cases hh : decryptAESCBC E secret (args.pinHashEnc.getD []) with
            | panic c => rw [hh] at h; cases h
            | ok hash =>
              rw [hh, Go.lift_ok_bind, Go.get_bind_run] at h
              by_cases heq : w.client.pinHash.getD [] = hash
              · rw [if_neg (by simpa using heq), Go.modify_bind_run] at h
                cases hpin : decryptPIN E secret (args.newPinEnc.getD []) with
                | panic c => rw [hpin] at h; cases h
                | ok pin =>
                  rw [hpin, Go.lift_ok_bind] at h
                  by_cases hl : pin.length < 4
                  · rw [if_pos hl] at h
                    cases h
                    rfl
                  · rw [if_neg hl] at h
                    simp only [Go.run_bind] at h
                    rcases setPINHash_run E (pinDigest E pin)
                      { w with client := { w.client with pinRetries := 8 } } with
                      ⟨c, h', hn⟩ | ⟨blob, n, hsv, h'⟩ <;>
                    · unfold pinDigest at h'
                      rw [h'] at h
                      cases h
              · rw [if_pos heq] at h
                cases h
          · rw [if_pos hauth] at h
            cases h
      · rw [Go.run_bind_panic hg] at h
        cases h

theorem token_policy {args : ClientPINArgs} {w w' : World} : handleGetPINToken E args w ≠ (.ok [0x37], w') := by
  intro h
  unfold handleGetPINToken at h
  cases hc : args.pinHashEnc with
  | none => rw [hc] at h; cases h
  | some enc =>
    cases hk : args.keyAgreement with
    | none => rw [hc, hk] at h; cases h
    | some key =>
      rw [hc, hk] at h
      dsimp only at h
      by_cases hx : key.x = none
      · rw [if_pos hx] at h; cases h
      · rw [if_neg hx] at h
        rcases getPINRetries_run w with ⟨hn1, hn2, hg⟩ | ⟨-, hg⟩
        · rw [Go.run_bind_ok hg, if_neg (by omega), Go.get_bind_run] at h
          cases hss : sharedSecret E w.client key with
          | panic c => rw [hss] at h; cases h
          | ok secret =>
            rw [hss, Go.lift_ok_bind, Go.run_bind_ok hg] at h
            simp only [setPINRetries, update, Go.modify_bind_run] at h
            cases hh : decryptAESCBC E secret enc with
            | panic c => rw [hh] at h; cases h
            | ok hash =>
              rw [hh, Go.lift_ok_bind, Go.get_bind_run] at h
              by_cases heq : hash = w.client.pinHash.getD []
              · rw [if_neg (by simpa using heq), Go.modify_bind_run] at h
                cases ht : encryptAESCBC E secret w.client.pinToken with
                | panic c => rw [ht] at h; cases h
                | ok t => rw [ht] at h; cases h
              · rw [if_pos heq] at h
                cases h
        · rw [Go.run_bind_panic hg] at h
          cases h

theorem attempt_policy {data : Bytes} {w w' : World} (ha : isPINAttempt E (.ctap (6 :: data)) = true)
    (h : handleClientPIN E data w = (.ok [0x37], w')) : w'.client.pinRetries = 8 := by
  unfold handleClientPIN at h
  rw [Go.get_bind_run] at h
  by_cases he : w.client.pinEnabled = false
  · rw [if_pos he] at h; cases h
  · rw [if_neg he] at h
    unfold isPINAttempt at ha
    cases hd : E.decodeClientPIN data with
    | none => rw [hd] at h; cases h
    | some args =>
      rw [hd] at h
      simp only [hd, Bool.or_eq_true, beq_iff_eq] at ha
      dsimp only at h
      split at h
      · cases h
      rcases ha with ha | ha <;> simp only [ha] at h
      · rw [if_neg (by decide), if_neg (by decide), if_neg (by decide), if_pos trivial] at h
        exact change_policy h
      · rw [if_neg (by decide), if_neg (by decide), if_neg (by decide), if_neg (by decide), if_pos trivial] at h
        exact absurd h token_policy

/-- A right PIN leaves 8 tries. -/
theorem right_retries {op : Op} {q : Reply} {w w' : World} (h : perform E op w = (.ok q, w'))
    (hq : isRightPIN E (op, q) = true) : w'.client.pinRetries = 8 := by
  have hp := perform_retries E op w
  rw [h] at hp
  have hdata : ∃ data, op = .ctap (6 :: data) := by
    unfold isRightPIN at hq
    split at hq
    · rename_i heq
      cases heq
      unfold isPINAttempt isSetPIN at hq
      split at hq
      · exact ⟨_, rfl⟩
      · simp at hq
    · rename_i heq
      cases heq
      unfold isPINAttempt at hq
      split at hq
      · exact ⟨_, rfl⟩
      · cases hq
    · cases hq
  obtain ⟨data, rfl⟩ := hdata
  have hrun : ∃ b, q = .answer b ∧ handleClientPIN E data w = (.ok b, w') := by
    have e1 := perform_ctap' E (6 :: data) w
    rw [h, handleMessage_pin] at e1
    have e2 := congrArg Prod.fst e1
    have e3 := congrArg Prod.snd e1
    dsimp only at e2 e3
    cases hb : (handleClientPIN E data w).1 with
    | panic c => rw [hb] at e2; cases e2
    | ok b =>
      rw [hb] at e2
      cases e2
      exact ⟨b, rfl, Prod.ext hb e3.symm⟩
  obtain ⟨b, rfl, hb⟩ := hrun
  have hc := handleClientPIN_cases E data w
  rw [hb] at hc
  dsimp only at hc
  unfold isRightPIN at hq
  split at hq
  · rename_i heq
    cases heq
    cases hc with
    | nothing hw hr =>
      obtain ⟨e, h0, -, -, he⟩ := hr _ rfl
      cases he
      exact absurd rfl h0
    | retries args n he hd hs hn hw hr => simp [isPINAttempt, isSetPIN, hd, hs] at hq
    | agreement args he hd hs hw hr => simp [isPINAttempt, isSetPIN, hd, hs] at hq
    | set args key au enc secret pin he hd hs hn hk ha hc hss hauth hpin hl hw =>
      rcases hw with ⟨c, hr, -⟩ | ⟨blob, n, hr, hv, hw⟩
      · cases hr
      · subst hw; rfl
    | wrong args key secret he hd hs hn hk hss hh hr hw =>
      rcases hr with ⟨c, hr⟩ | hr <;> cases hr
    | change args key au secret he hd hs hn hk ha hss hauth hh hw =>
      rcases hw with ⟨⟨c, hr⟩ | hr, hw⟩ | ⟨pin, -, -, ⟨c, hr, hw, -⟩ | ⟨blob, n, hr, hv, hw⟩⟩
      · cases hr
      · cases hr
      · cases hr
      · subst hw; rfl
    | token args key enc secret he hd hs hn hk hx hc hss hh hw hr => subst hw; rfl
  · rename_i heq
    cases heq
    exact attempt_policy hq hb
  · cases hq

/-- The tries somebody counts are the ones the device has. -/
def TriesAre (n : Nat) (d : Device) : Prop := d.alive = true → d.world.client.pinRetries = (n : Int)

theorem tries_step {d : Device} {n : Nat} (op : Op) (h : TriesAre n d) :
    TriesAre (counted E n (op, (step E cfg d op).1)) (step E cfg d op).2 := by
  cases hr : isRestart op with
  | true =>
    cases op with
    | restart =>
      intro ha
      simp only [step] at ha ⊢
      cases hs : start E cfg d.world.store d.world.rnd with
      | panic c => rw [hs] at ha; cases ha
      | ok c =>
        dsimp only
        rw [start_retries hs, counted, if_pos rfl]
        rfl
    | _ => cases hr
  | false =>
    cases ha : d.alive with
    | false =>
      rw [step_dead hr ha]
      intro h'
      rw [ha] at h'
      cases h'
    | true =>
      rw [step_live hr ha]
      have hn := h ha
      have hp := perform_retries E op d.world
      have hright : ∀ q, (perform E op d.world).1 = .ok q → isRightPIN E (op, q) = true →
          (perform E op d.world).2.client.pinRetries = 8 := fun q hq => right_retries (Prod.ext hq rfl)
      generalize (perform E op d.world).1 = r at *
      generalize (perform E op d.world).2 = w' at *
      cases r with
      | panic c => intro h'; cases h'
      | ok q =>
        intro _
        dsimp only
        unfold counted
        rw [if_neg (by rintro h; cases h; cases hr)]
        cases hq : isRightPIN E (op, q) with
        | true => rw [if_pos rfl, hright q rfl hq]; rfl
        | false =>
          rw [if_neg (by simp)]
          cases hp with
          | panicked c hr hw => cases hr
          | kept q hr hq hw => cases hr; rw [hq, if_neg (by simp), hw, hn]
          | wrong q hr hq hn' hw => cases hr; rw [hq, if_pos rfl, hw, hn]; omega
          | right q hr hq' hw => cases hr; rw [hq] at hq'; cases hq'

theorem tries_after (ops : List Op) : ∀ {d : Device} {n : Nat}, TriesAre n d →
    TriesAre ((events E cfg d ops).foldl (counted E) n) (after E cfg d ops) := by
  induction ops with
  | nil => exact fun h => h
  | cons op ops ih =>
    intro d n h
    rw [events_cons, List.foldl_cons, after_cons]
    exact ih (tries_step op h)

/-- After any history the device has the tries somebody counts. -/
theorem tries_history (ops : List Op) (ha : (after E cfg (boot E cfg) ops).alive = true) :
    (after E cfg (boot E cfg) ops).world.client.pinRetries = (tries E (events E cfg (boot E cfg) ops) : Int) :=
  tries_after ops (n := 8) (fun _ => rfl) ha

end VF.Fido.Device
