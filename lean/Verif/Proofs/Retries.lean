import Verif.Proofs.Counters

/-!
# PIN retries over time
-/

namespace VF.Fido.Device

open VF.Spec.Client VF.Spec.Vault VF.Spec.History VF.Spec.Ctap Client Ctap

variable {E : Env} {cfg : Config}

theorem perform_retries_other (E : Env) (op : Op) (w : World)
    (h6 : ∀ data, op ≠ .ctap (6 :: data)) :
    (perform E op w).2.client.pinRetries = w.client.pinRetries := by
  have hsave : ∀ (f : Client → Client) (r : Reply), (f w.client).pinRetries = w.client.pinRetries →
      ((do update f; saveData E; pure r : Go World Reply) w).2.client.pinRetries =
        w.client.pinRetries := by
    intro f r hf
    simp only [Go.run_bind, update, Go.modify, Go.run_pure]
    rcases saveData_cases E { w with client := f w.client } with ⟨c, h, -⟩ | ⟨blob, n, hs, h⟩ <;>
      simp only [h] <;> exact hf
  cases op with
  | ctap m =>
    rw [perform_ctap']
    cases m with
    | nil => rfl
    | cons c data =>
      have : c ≠ 6 := fun e => h6 data (by rw [e])
      exact congrArg (fun p => p.2.1) (ctap_volatile E c data w this)
  | u2f m =>
    rw [perform_u2f']
    unfold U2f.handleMessage
    cases hd : U2f.decodeMessage m with
    | panic c => rfl
    | ok p =>
      obtain ⟨header, request, n⟩ := p
      rw [Go.lift_ok_bind]
      dsimp only
      split
      · rfl
      · split
        · have hc := U2f.handleRegister_cases E request w
          generalize (U2f.handleRegister E request w).1 = r at *
          generalize (U2f.handleRegister E request w).2 = w' at *
          cases hc with
          | nothing c n hr hn hw => subst hw; rfl
          | refused hl hk ha hr hw => subst hw; rfl
          | agreed n hl hk ha hn hw hr => subst hw; rfl
        · split
          · have hc := U2f.handleAuthenticate_cases E header.param1 request w
            generalize (U2f.handleAuthenticate E header.param1 request w).1 = r at *
            generalize (U2f.handleAuthenticate E header.param1 request w).2 = w' at *
            cases hc with
            | nothing hw hr => subst hw; rfl
            | refused challenge application handle key hd hk hc ha hr hw => subst hw; rfl
            | signed challenge application handle key asks hd hk hc hw hr => subst hw; rfl
          · rfl
  | enablePIN => exact hsave (fun c => { c with pinEnabled := true }) .done rfl
  | disablePIN => exact hsave (fun c => { c with pinEnabled := false }) .done rfl
  | setPIN pin => exact hsave (fun c => { c with pinHash := some (pinDigest E pin) }) .done rfl
  | deleteIdentity id =>
    rcases perform_delete E id w with
      ⟨-, h⟩ | ⟨l, s, r, v', hv, -, -, hp, ⟨c, -, h⟩ | ⟨blob, n, hs, h⟩⟩ <;> rw [h]
  | restart => rfl

/-- What an operation does to the retries. -/
inductive RetriesOut (E : Env) (op : Op) (w : World) (r : Res Reply) (w' : World) : Prop
  | panicked (c : Cause) (hr : r = .panic c)
      (hw : w'.client.pinRetries = w.client.pinRetries ∨ w'.client.pinRetries = 8 ∨
        0 < w.client.pinRetries ∧ w'.client.pinRetries = w.client.pinRetries - 1)
  | kept (q : Reply) (hr : r = .ok q) (hq : isWrongPIN (op, q) = false)
      (hw : w'.client.pinRetries = w.client.pinRetries)
  | wrong (q : Reply) (hr : r = .ok q) (hq : isWrongPIN (op, q) = true)
      (hn : 0 < w.client.pinRetries) (hw : w'.client.pinRetries = w.client.pinRetries - 1)
  | right (q : Reply) (hr : r = .ok q) (hq : isRightPIN E (op, q) = true)
      (hw : w'.client.pinRetries = 8)

theorem isWrongPIN_other {op : Op} {q : Reply} (h6 : ∀ data, op ≠ .ctap (6 :: data)) :
    isWrongPIN (op, q) = false := by
  unfold isWrongPIN
  split
  · rename_i data h
    exact absurd (congrArg Prod.fst h) (h6 _)
  · rfl

theorem perform_retries (E : Env) (op : Op) (w : World) :
    RetriesOut E op w (perform E op w).1 (perform E op w).2 := by
  by_cases h6 : ∃ data, op = .ctap (6 :: data)
  · obtain ⟨data, rfl⟩ := h6
    rw [perform_ctap', handleMessage_pin]
    have hc := handleClientPIN_cases E data w
    generalize (handleClientPIN E data w).1 = r at *
    generalize (handleClientPIN E data w).2 = w' at *
    cases hc with
    | nothing hw hr =>
      subst hw
      cases r with
      | panic c => exact .panicked c rfl (.inl rfl)
      | ok b =>
        obtain ⟨e, -, h31, -, rfl⟩ := hr b rfl
        refine .kept (.answer [e]) rfl ?_ rfl
        unfold isWrongPIN
        split
        · rename_i h
          simp only [Prod.mk.injEq, Reply.answer.injEq, List.cons.injEq, and_true] at h
          exact absurd h.2 h31
        · rfl
    | retries args n he hd hs hn hw hr =>
      subst hw; subst hr
      exact .kept _ rfl rfl rfl
    | agreement args he hd hs hw hr =>
      subst hw; subst hr
      exact .kept _ rfl rfl rfl
    | set args key au enc secret pin he hd hs hn hk ha hc hss hauth hpin hl hw =>
      rcases hw with ⟨c, hr, hw, -⟩ | ⟨blob, n, hr, hv, hw⟩
      · subst hw; subst hr; exact .panicked c rfl (.inr (.inl rfl))
      · subst hw; subst hr
        refine .right (.answer [0]) rfl ?_ rfl
        simp [isRightPIN, isSetPIN, hd, hs]
    | wrong args key secret he hd hs hn hk hss hh hr hw =>
      subst hw
      rcases hr with ⟨c, hr⟩ | hr
      · subst hr; exact .panicked c rfl (.inr (.inr ⟨hn.1, rfl⟩))
      · subst hr; exact .wrong _ rfl rfl hn.1 rfl
    | change args key au secret he hd hs hn hk ha hss hauth hh hw =>
      rcases hw with ⟨⟨c, hr⟩ | hr, hw⟩ | ⟨pin, -, -, ⟨c, hr, hw, -⟩ | ⟨blob, n, hr, hv, hw⟩⟩
      · subst hw; subst hr; exact .panicked c rfl (.inr (.inl rfl))
      · subst hw; subst hr
        refine .right (.answer [0x37]) rfl ?_ rfl
        simp [isRightPIN, isPINAttempt, hd, hs]
      · subst hw; subst hr; exact .panicked c rfl (.inr (.inl rfl))
      · subst hw; subst hr
        refine .right (.answer [0]) rfl ?_ rfl
        simp [isRightPIN, isPINAttempt, hd, hs]
    | token args key enc secret he hd hs hn hk hx hc hss hh hw hr =>
      subst hw
      rcases hr with ⟨c, hr⟩ | ⟨t, -, hr⟩
      · subst hr; exact .panicked c rfl (.inr (.inl rfl))
      · subst hr
        refine .right _ rfl ?_ rfl
        simp [isRightPIN, isPINAttempt, hd, hs]
  · have h6 : ∀ data, op ≠ .ctap (6 :: data) := fun data h => h6 ⟨data, h⟩
    have h := perform_retries_other E op w h6
    generalize (perform E op w).1 = r at *
    generalize (perform E op w).2 = w' at *
    cases r with
    | panic c => exact .panicked c rfl (.inl h)
    | ok q => exact .kept q rfl (isWrongPIN_other h6) h

/-- Retries are between 0 and 8. -/
def RetriesOk (d : Device) : Prop :=
  d.alive = true → 0 ≤ d.world.client.pinRetries ∧ d.world.client.pinRetries ≤ 8

theorem start_retries {store : Option Bytes} {rnd : Nat} {c : Client}
    (h : start E cfg store rnd = .ok c) : c.pinRetries = 8 := by
  cases store with
  | none => obtain rfl := Res.ok.inj h; rfl
  | some data =>
    simp only [start, importData] at h
    cases h1 : Saved.decryptState E data E.passphrase with
    | panic e => rw [h1] at h; cases h
    | ok st =>
      rw [h1, Res.bind_ok] at h
      cases st with
      | none => cases h
      | some st =>
        dsimp only at h
        split at h
        · cases h
        · cases h2 : Vault.importKey E st.certKey with
          | panic e => rw [h2] at h; cases h
          | ok k =>
            rw [h2, Res.bind_ok] at h
            cases k with
            | none => cases h
            | some k =>
              dsimp only at h
              cases h3 : Vault.importSources E [] st.sources with
              | panic e => rw [h3] at h; cases h
              | ok v =>
                rw [h3, Res.bind_ok] at h
                obtain rfl := Res.ok.inj h
                rfl

theorem retriesOk_step {d : Device} (op : Op) (h : RetriesOk d) :
    RetriesOk (step E cfg d op).2 := by
  cases hr : isRestart op with
  | true =>
    cases op with
    | restart =>
      unfold RetriesOk
      simp only [step]
      cases hs : start E cfg d.world.store d.world.rnd with
      | panic c => intro h; cases h
      | ok c =>
        intro _
        have := start_retries hs
        dsimp only
        omega
    | _ => cases hr
  | false =>
    cases ha : d.alive with
    | false => rw [step_dead hr ha]; exact h
    | true =>
      rw [step_live hr ha]
      have hb := h ha
      have hp := perform_retries E op d.world
      generalize (perform E op d.world).1 = r at *
      generalize (perform E op d.world).2 = w' at *
      cases hp with
      | panicked c hr hw => subst hr; intro h; cases h
      | kept q hr hq hw => subst hr; intro _; dsimp only; omega
      | wrong q hr hq hn hw => subst hr; intro _; dsimp only; omega
      | right q hr hq hw => subst hr; intro _; dsimp only; omega

theorem retriesOk_after : ∀ (ops : List Op) {d : Device}, RetriesOk d →
    RetriesOk (after E cfg d ops)
  | [], _, h => h
  | op :: ops, _, h => retriesOk_after ops (retriesOk_step op h)

theorem retriesOk_boot : RetriesOk (boot E cfg) :=
  fun _ => ⟨show (0 : Int) ≤ 8 by decide, show (8 : Int) ≤ 8 by decide⟩

/-- Attempts left: none without a process. -/
def left (d : Device) : Nat := if d.alive then d.world.client.pinRetries.toNat else 0

theorem left_step {d : Device} {op : Op} (hr : isRestart op = false) (h : RetriesOk d)
    (hright : isRightPIN E (op, (step E cfg d op).1) = false) :
    left (step E cfg d op).2 + (if isWrongPIN (op, (step E cfg d op).1) then 1 else 0) ≤
      left d := by
  cases ha : d.alive with
  | false =>
    rw [step_dead hr ha]
    have : isWrongPIN (op, Reply.nothing) = false := by
      unfold isWrongPIN
      split
      · rename_i h
        simp at h
      · rfl
    simp [this]
  | true =>
    rw [step_live hr ha] at hright ⊢
    have hb := h ha
    have hp := perform_retries E op d.world
    generalize (perform E op d.world).1 = r at *
    generalize (perform E op d.world).2 = w' at *
    cases hp with
    | panicked c hr hw =>
      subst hr
      have : isWrongPIN (op, Reply.panicked) = false := by
        unfold isWrongPIN
        split
        · rename_i h
          simp at h
        · rfl
      simp [this, left]
    | kept q hr hq hw => subst hr; simp [left, hq, hw, ha]
    | wrong q hr hq hn hw =>
      subst hr
      simp only [left, hq, hw, ha, if_true]
      omega
    | right q hr hq hw => subst hr; rw [hq] at hright; cases hright

theorem events_cons (d : Device) (op : Op) (ops : List Op) :
    events E cfg d (op :: ops) =
      (op, (step E cfg d op).1) :: events E cfg (step E cfg d op).2 ops := rfl

theorem left_after : ∀ (ops : List Op) {d : Device}, (∀ op ∈ ops, isRestart op = false) →
    RetriesOk d → (∀ e ∈ events E cfg d ops, isRightPIN E e = false) →
    left (after E cfg d ops) + (events E cfg d ops).countP isWrongPIN ≤ left d
  | [], _, _, _, _ => Nat.le_refl _
  | op :: ops, d, hr, h, hright => by
    have h1 := left_step (hr op (List.mem_cons_self ..)) h
      (hright (op, (step E cfg d op).1) (by rw [events_cons]; exact List.mem_cons_self ..))
    have h2 := left_after ops (fun o ho => hr o (List.mem_cons_of_mem _ ho)) (retriesOk_step op h)
      (fun e he => hright e (by rw [events_cons]; exact List.mem_cons_of_mem _ he))
    rw [after_cons, events_cons, List.countP_cons]
    omega

theorem left_le {d : Device} (h : RetriesOk d) : left d ≤ 8 := by
  unfold left
  split
  · rename_i ha
    have := h ha
    omega
  · omega

/-- Without attempts left, a PIN attempt has no effect, and is not answered with success or
PIN_INVALID. -/
theorem blocked {d : Device} {op : Op} (h : RetriesOk d) (h0 : left d = 0)
    (ho : isPINAttempt E op = true) :
    (step E cfg d op).2.world = d.world ∧
      ∀ b, (step E cfg d op).1 = .answer b → (∀ body, b ≠ 0 :: body) ∧ b ≠ [0x31] := by
  have hrs : isRestart op = false := by
    cases op <;> first | rfl | cases ho
  cases ha : d.alive with
  | false =>
    rw [step_dead hrs ha]
    exact ⟨rfl, fun b h => by cases h⟩
  | true =>
    rw [step_live hrs ha]
    have hz : d.world.client.pinRetries = 0 := by
      have := h ha
      simp only [left, ha, if_true] at h0
      omega
    have hd : ∃ data args, op = .ctap (6 :: data) ∧ E.decodeClientPIN data = some args ∧
        (args.subCommand = 4 ∨ args.subCommand = 5) := by
      unfold isPINAttempt at ho
      split at ho
      · split at ho
        · rename_i data _ args h
          refine ⟨data, args, rfl, h, ?_⟩
          simpa using ho
        · cases ho
      · cases ho
    obtain ⟨data, args, rfl, hd, hs⟩ := hd
    rw [perform_ctap', handleMessage_pin]
    have hc := handleClientPIN_cases E data d.world
    generalize (handleClientPIN E data d.world).1 = r at *
    generalize (handleClientPIN E data d.world).2 = w' at *
    have hno : ∀ {a : ClientPINArgs}, E.decodeClientPIN data = some a → a = args := by
      intro a h
      rw [hd] at h
      exact (Option.some.inj h).symm
    cases hc with
    | nothing hw hr =>
      subst hw
      cases r with
      | panic c => exact ⟨rfl, fun b h => by cases h⟩
      | ok q =>
        refine ⟨rfl, ?_⟩
        intro b hb
        obtain rfl : q = b := Reply.answer.inj hb
        obtain ⟨e, h1, h2, -, rfl⟩ := hr q rfl
        refine ⟨?_, by simpa using h2⟩
        intro body he
        exact h1 (List.cons.inj he).1
    | retries args' n he hd' hs' hn hw hr =>
      obtain rfl := hno hd'
      rcases hs with hs | hs <;> rw [hs] at hs' <;> cases hs'
    | agreement args' he hd' hs' hw hr =>
      obtain rfl := hno hd'
      rcases hs with hs | hs <;> rw [hs] at hs' <;> cases hs'
    | set args' key au enc secret pin he hd' hs' hn hk ha hc hss hauth hpin hl hw =>
      obtain rfl := hno hd'
      rcases hs with hs | hs <;> rw [hs] at hs' <;> cases hs'
    | wrong args' key secret he hd' hs' hn hk hss hh hr hw => omega
    | change args' key au secret he hd' hs' hn hk ha hss hauth hh hw => omega
    | token args' key enc secret he hd' hs' hn hk hx hc hss hh hw hr => omega

end VF.Fido.Device
