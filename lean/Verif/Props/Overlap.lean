import Verif.Proofs.OverlapFacts
import Verif.Proofs.OverlapToy

/-!
# Overlapping requests (C93–C97)

Every report of the host is handled in a goroutine of its own (usb_device.go:88) and only requests on the
same channel wait for each other (channel.go:27-28), so requests on different channels are handled
at the same time.  A history here is any list of events: an operation begins in a new goroutine, goroutine `i`
does its next access to shared memory, the process is killed and started again.
-/

namespace VF.Props

open VF.Fido VF.Fido.Overlap VF.Spec.Client VF.Spec.Vault VF.Spec.Cose VF.Spec.History VF.Spec.Approval
  VF.Spec.Overlap VF.Spec.Ctap

variable {E : Env} {cfg : Client.Config}

/-! ## C93: operations that do not overlap behave as the sequential device -/

/-- If each operation begins when no other is at work, then the memory, the results and whether the
process lives are those of the sequential model of the device, at every moment when nothing is at work. -/
theorem C93_sequential (evs : List Event) (h : OneAtATime E cfg (boot E cfg) evs)
    (hidle : ∀ t ∈ ((boot E cfg).run E cfg evs).threads, busy t = false) :
    sequential ((boot E cfg).run E cfg evs).mem =
        (Device.after E cfg (Device.boot E cfg) (operations evs)).world ∧
      ((boot E cfg).run E cfg evs).alive =
        (Device.after E cfg (Device.boot E cfg) (operations evs)).alive ∧
      results ((boot E cfg).run E cfg evs) =
        (events E cfg (Device.boot E cfg) (operations evs)).filter isResult := by
  obtain ⟨-, -, h1, h2, h3⟩ := (one_at_a_time evs (boot E cfg) [] (Device.boot E cfg)).1 ⟨idle_boot, h⟩ hidle
  exact ⟨h1, h2, h3⟩

/-- Every history of the sequential device is such a history: its operations can be done one after
the other, each goroutine taking turns until it has its result. -/
theorem C93_every_history (ops : List Op) : ∃ evs, OneAtATime E cfg (boot E cfg) evs ∧
    operations evs = ops ∧ ∀ t ∈ ((boot E cfg).run E cfg evs).threads, busy t = false :=
  schedule ops (boot E cfg) (fun t ht => by cases ht)

/-! ## C94: one approval each, however requests overlap -/

/-- However requests overlap, with restarts and panics: the questions to the user can be told apart by the
goroutine they were asked for, at most one each; a result that claims consent comes from a goroutine whose
question was of this kind and agreed to; calls of the embedding program ask nothing. -/
theorem C94_own_approval (L : Laws E) (hu : Usable E cfg) (evs : List Event) :
    ∃ asked : List (Option Ask), asked.length = ((boot E cfg).run E cfg evs).threads.length ∧
      (asked.filterMap id).Perm ((boot E cfg).run E cfg evs).mem.world.asks ∧
      (∀ (i : Nat) op r a, ((boot E cfg).run E cfg evs).threads[i]? = some (.ready op r) →
        claims (op, r) = some a → ∃ q, asked[i]? = some (some q) ∧ q.action = a ∧ q.answer = true) ∧
      (∀ (i : Nat) t, ((boot E cfg).run E cfg evs).threads[i]? = some t → isRequest (opOf t) = false →
        asked[i]? = some none) := by
  obtain ⟨bs, h⟩ := inv_overlap (E := E) (cfg := cfg) L hu evs
  refine ⟨bs, h.length, h.asks, ?_, ?_⟩
  · intro i op r a hi hc
    obtain ⟨b, m, h1, -, h2⟩ := h.ready i op r hi
    obtain ⟨q, rfl, h3, h4⟩ := faithful_claims h2 hc
    exact ⟨q, h1, h3, h4⟩
  · intro i t hi hr
    have hl : i < bs.length := by
      rw [h.length]
      exact (List.getElem?_eq_some_iff.1 hi).1
    have hb := List.getElem?_eq_getElem hl
    rw [hb, h.quiet i t _ hi hb hr]

/-- Counted: for each kind of action there are at least as many questions the user agreed to as
results that claim it was done with consent. -/
theorem C94_one_approval_each (L : Laws E) (hu : Usable E cfg) (evs : List Event) (a : Action) :
    (results ((boot E cfg).run E cfg evs)).countP (fun e => claims e == some a) ≤
      ((boot E cfg).run E cfg evs).mem.world.asks.countP (agreed a) := by
  obtain ⟨bs, h1, h2, h3, -⟩ := C94_own_approval (cfg := cfg) L hu evs
  rw [← h2.countP_eq]
  rw [show (results ((boot E cfg).run E cfg evs)).countP (fun e => claims e == some a) =
    ((boot E cfg).run E cfg evs).threads.countP (fun t => ((result t).map (fun e => claims e == some a)).getD false) from
    List.countP_filterMap]
  refine count_matched _ bs h1 ?_
  intro i t hi hc
  cases t with
  | ready op r =>
    obtain ⟨q, k1, k2, k3⟩ := h3 i op r a hi (by simpa [result] using hc)
    exact ⟨q, k1, by simp [agreed, k2, k3]⟩
  | working op p => cases hc
  | gone op => cases hc

/-- The user is asked at most once for each request, and never otherwise. -/
theorem C94_no_other_questions (L : Laws E) (hu : Usable E cfg) (evs : List Event) :
    ((boot E cfg).run E cfg evs).mem.world.asks.length ≤
      ((boot E cfg).run E cfg evs).threads.countP (fun t => isRequest (opOf t)) := by
  obtain ⟨bs, h1, h2, -, h4⟩ := C94_own_approval (cfg := cfg) L hu evs
  rw [← h2.length_eq]
  exact length_matched _ bs h1 h4

/-! ## C95: overlapping requests get their own answers -/

/-- However requests overlap: a result is what was asked for.  A successful answer is about the relying party,
client data and entities of its own request; the credential, the handle and the signature belong to it; the
flags are true of it; and the user agreed, in this goroutine, to this request.  The memory meant is
that of the moment the result was there. -/
theorem C95_own_answer (L : Laws E) (hu : Usable E cfg) (evs : List Event) (i : Nat) (op : Op) (r : Reply)
    (h : ((boot E cfg).run E cfg evs).threads[i]? = some (.ready op r)) :
    ∃ q m, Finished E cfg evs i m ∧ Faithful E op r q m ∧
      (∀ a, q = some a → a ∈ ((boot E cfg).run E cfg evs).mem.world.asks) := by
  obtain ⟨bs, hi⟩ := inv_overlap (E := E) (cfg := cfg) L hu evs
  obtain ⟨q, m, h1, h2, h3⟩ := hi.ready i op r h
  refine ⟨q, m, h2, h3, ?_⟩
  rintro a rfl
  exact hi.asks.mem_iff.1 (List.mem_filterMap.2 ⟨some a, List.mem_of_getElem? h1, rfl⟩)

/-! ## C96: the process can be killed while requests overlap -/

/-- Whatever is at work when the process is killed, it starts again, with the sealing key, the certificate and
the attestation key it was made with, and with credentials that all were in memory when it was killed. -/
theorem C96_killed_at_any_moment (L : Laws E) (hu : Usable E cfg) (evs : List Event) :
    let s := (boot E cfg).run E cfg evs
    let s' := (boot E cfg).run E cfg (evs ++ [.restart])
    s'.alive = true ∧ s'.mem.world.client.deviceKey = cfg.deviceKey ∧ s'.mem.world.client.cert = cfg.cert ∧
      SamePrivate s'.mem.world.client.certKey cfg.certKey ∧
      ∀ x ∈ (sequential s'.mem).client.vault, ∃ y ∈ s.mem.heap, x.id = y.id ∧ x.key = y.key := by
  intro s s'
  obtain ⟨bs, h⟩ := inv_overlap (E := E) (cfg := cfg) L hu evs
  obtain ⟨bs', h'⟩ := inv_overlap (E := E) (cfg := cfg) L hu (evs ++ [.restart])
  obtain ⟨c, h1, -, h3, -⟩ := good_restart h.good ((boot E cfg).run E cfg evs).mem.world.rnd
  have e : s' = ({ mem := load { s.mem.world with client := c, rnd := s.mem.world.rnd + 2 }
                   threads := s.threads.map Thread.ended, alive := true } : Process) := by
    show (boot E cfg).run E cfg (evs ++ [.restart]) = _
    rw [run_snoc]
    show (match Client.start E cfg s.mem.world.store s.mem.world.rnd with
      | .ok c => _
      | .panic _ => _) = _
    rw [h1]
  refine ⟨by rw [e], h'.keys.1, h'.keys.2.1, h'.keys.2.2, ?_⟩
  intro x hx
  rw [e] at hx
  have hv : sequential (load { s.mem.world with client := c, rnd := s.mem.world.rnd + 2 }) =
      { s.mem.world with client := c, rnd := s.mem.world.rnd + 2 } := view_load _
  rw [hv] at hx
  exact h3 x hx

/-! ## C97: the PIN guards creation while requests overlap -/

/-- If a PIN is set and switched on when a MakeCredential request arrives, and nobody is switching it off
or begins to, then whatever else is going on before, during and after, the request only succeeds with
the `pinAuth` that the PIN token gives for its client data. -/
theorem C97_pin_guards_creation (L : Laws E) (hu : Usable E cfg) (evs evs' : List Event) (data body : Bytes)
    (hon : ((boot E cfg).run E cfg evs).mem.world.client.pinEnabled = true)
    (hset : ((boot E cfg).run E cfg evs).mem.world.client.pinHash ≠ none)
    (halive : ((boot E cfg).run E cfg evs).alive = true)
    (hold : ∀ p, Thread.working .disablePIN p ∉ ((boot E cfg).run E cfg evs).threads)
    (hnew : ∀ e ∈ evs', e ≠ .begin .disablePIN)
    (hdone : ((boot E cfg).run E cfg (evs ++ .begin (.ctap (1 :: data)) :: evs')).threads[
      ((boot E cfg).run E cfg evs).threads.length]? =
        some (.ready (.ctap (1 :: data)) (.answer (0 :: body)))) :
    ∃ args, E.decodeMakeCred data = some args ∧ args.pinProtocol = 1 ∧
      args.pinAuth = some ((E.hmac ((boot E cfg).run E cfg evs).mem.world.client.pinToken
        args.clientDataHash).take 16) := by
  obtain ⟨args, h1, h2, h3⟩ := gate_creation L hu evs evs' data body hon hset halive hold hnew hdone
  exact ⟨args, h1, h2, h3⟩

/-! ## The hypotheses are met -/

/-- Two creations overlap, the second begins and ends while the first is at work; both succeed, so
that both claim consent (C94–C96). -/
example : ∃ (E : Env) (cfg : Client.Config) (evs : List Event) (data b0 b1 : Bytes), Laws E ∧ Usable E cfg ∧
    ((boot E cfg).run E cfg evs).threads[0]? = some (.ready (.ctap (1 :: data)) (.answer (0 :: b0))) ∧
    ((boot E cfg).run E cfg evs).threads[1]? = some (.ready (.ctap (1 :: data)) (.answer (0 :: b1))) ∧
    (results ((boot E cfg).run E cfg evs)).countP (fun e => claims e == some .makeCredential) = 2 ∧
    (sequential ((boot E cfg).run E cfg evs).mem).client.vault.length = 2 ∧
    evs.take 2 = [.begin (.ctap (1 :: data)), .begin (.ctap (1 :: data))] := by
  obtain ⟨evs, b0, b1, h1, h2, h3, -, h4, h5⟩ := Toy.two_creations
  refine ⟨Toy.toy Toy.agree, Toy.config false, evs, Toy.makeData [] none, b0, b1, h1, h2, by rw [h3]; rfl,
    by rw [h3]; rfl, ?_, h4, h5⟩
  unfold results
  rw [h3]
  rfl

/-- A creation with the right `pinAuth` overlaps with a call to switch the PIN on (C97). -/
example : ∃ (E : Env) (cfg : Client.Config) (evs evs' : List Event) (data body : Bytes), Laws E ∧ Usable E cfg ∧
    ((boot E cfg).run E cfg evs).mem.world.client.pinEnabled = true ∧
    ((boot E cfg).run E cfg evs).mem.world.client.pinHash ≠ none ∧
    ((boot E cfg).run E cfg evs).alive = true ∧
    (∀ p, Thread.working .disablePIN p ∉ ((boot E cfg).run E cfg evs).threads) ∧
    (∀ e ∈ evs', e ≠ .begin .disablePIN) ∧ .begin .enablePIN ∈ evs' ∧
    ((boot E cfg).run E cfg (evs ++ .begin (.ctap (1 :: data)) :: evs')).threads[
      ((boot E cfg).run E cfg evs).threads.length]? =
        some (.ready (.ctap (1 :: data)) (.answer (0 :: body))) := by
  obtain ⟨evs, evs', data, body, h⟩ := Toy.creation_with_pin
  exact ⟨Toy.toy Toy.agree, Toy.config true, evs, evs', data, body, h⟩

/-- A history without overlap, in which something is done (C93). -/
example : ∃ evs : List Event, OneAtATime E cfg (boot E cfg) evs ∧
    operations evs = [.ctap [4], .u2f [0, 3, 0, 0, 0, 0, 0], .restart, .enablePIN] ∧
    ∀ t ∈ ((boot E cfg).run E cfg evs).threads, busy t = false :=
  C93_every_history _

end VF.Props
