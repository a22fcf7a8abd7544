import Verif.Proofs.OverlapRaces
import Verif.Spec.Harmless

/-!
# A schedule in which PIN attempts use up the retries, right or wrong
-/

namespace VF.Fido.Overlap

open Prog VF.Spec.Client VF.Spec.History VF.Spec.Overlap VF.Spec.Harmless

variable {E : Env} {cfg : Client.Config}

/-- The memory with another number of retries. -/
def withRetries (m : Mem) (n : Int) : Mem :=
  { m with world := { m.world with client := { m.world.client with pinRetries := n } } }

theorem attempt_act {secret enc guess : Bytes} {n : Int} (hg : decryptAESCBC E secret enc = .ok guess) :
    ∃ next, ((attempt E secret enc n >>= fun b => pure (.answer b)) : Prog Reply) =
      .act (fun m => withRetries m (n - 1)) next ∧ ∀ m, ∃ u k, next m = .act u k := by
  refine ⟨fun _ => ((lift (decryptAESCBC E secret enc) >>= fun hash => field (·.pinHash) >>= fun own =>
    if hash ≠ own.getD [] then pure [Ctap.errPINInvalid]
    else do
      setPINRetries 8
      let token ← field (·.pinToken)
      let sent ← lift (encryptAESCBC E secret token)
      pure (Ctap.success :: Cbor.encode (Ctap.pinTokenItem sent))) >>= fun b => pure (.answer b)), rfl, ?_⟩
  intro m
  rw [hg]
  exact ⟨_, _, rfl⟩

/-- Each of some requests for the PIN token gets to where it has counted its attempt. -/
theorem drain {data : Bytes} {args : ClientPINArgs} {enc secret guess : Bytes} {key : EC2Key}
    (hd : E.decodeClientPIN data = some args) (hp : args.pinProtocol = 1) (hs : args.subCommand = 5)
    (hk : args.keyAgreement = some key) (hx : key.x ≠ none) (he : args.pinHashEnc = some enc)
    (hg : decryptAESCBC E secret enc = .ok guess) : ∀ (n : Nat) (s : Process), n ≤ 8 → s.alive = true →
    s.mem.world.client.pinEnabled = true → s.mem.world.client.pinRetries = n →
    Ctap.sharedSecret E s.mem.world.client key = .ok secret →
    ∃ evs ts, .restart ∉ evs ∧ (evs.filterMap beginning) = List.replicate n (.ctap (6 :: data)) ∧
      s.run E cfg evs = { s with mem := withRetries s.mem 0, threads := ts }
  | 0, s, _, _, _, hn, _ => ⟨[], s.threads, by simp, rfl, by
      show s = _
      have : withRetries s.mem 0 = s.mem := by
        unfold withRetries
        rw [show (0 : Int) = s.mem.world.client.pinRetries from hn.symm]
      rw [this]⟩
  | n + 1, s, h8, ha, hon, hn, hss => by
    have hsteps := guess_steps (E := E) (m := s.mem) hon ⟨by rw [hn]; omega, by rw [hn]; omega⟩ hd hp hs hk hx he hss
    let p : Prog Reply := attempt E secret enc s.mem.world.client.pinRetries >>= fun b => pure (.answer b)
    let op : Op := .ctap (6 :: data)
    have hpact : ∃ next, p = .act (fun m => withRetries m n) next ∧ ∀ m, ∃ u k, next m = .act u k := by
      have : s.mem.world.client.pinRetries - 1 = (n : Int) := by rw [hn]; omega
      rw [← this]
      exact attempt_act hg
    obtain ⟨next, hp1, hnext⟩ := hpact
    obtain ⟨u, k, hk1⟩ := hnext s.mem
    have hsteps : (perform E op).steps 9 s.mem = (.act u k, withRetries s.mem n) := by
      have key : ∀ (a : Nat) (q q' : Prog Reply) (m m' : Mem), q.steps a m = (q', m') → q.steps (a + 1) m = q'.steps 1 m' := by
        intro a
        induction a with
        | zero => intro q q' m m' h; obtain ⟨rfl, rfl⟩ := Prod.mk.inj h; rfl
        | succ a ih =>
          intro q q' m m' h
          cases q with
          | act u k => exact ih _ _ _ _ h
          | ret r => obtain ⟨rfl, rfl⟩ := Prod.mk.inj h; rfl
          | fail c => obtain ⟨rfl, rfl⟩ := Prod.mk.inj h; rfl
      rw [key 8 _ _ _ _ hsteps]
      show p.steps 1 s.mem = _
      rw [hp1]
      show (next s.mem, _) = _
      rw [hk1]
    have e1 := begin_working (E := E) (cfg := cfg) (s := s) (op := op) ha (by simp [op]) ⟨_, _, rfl⟩
    have e2 := partway (E := E) (cfg := cfg) op s.threads.length 9 (perform E op)
      { s with threads := s.threads ++ [.working op (perform E op)] } _ ha (by simp) hsteps
    obtain ⟨evs, ts, h1, h2, h3⟩ := drain hd hp hs hk hx he hg n { s with
      mem := withRetries s.mem n
      threads := (s.threads ++ [Thread.working op (perform E op)]).set s.threads.length (.working op (.act u k)) }
      (by omega) ha hon rfl hss
    refine ⟨.begin op :: (List.replicate 9 (.turn s.threads.length) ++ evs), ts, ?_, ?_, ?_⟩
    · simpa using h1
    · rw [List.filterMap_cons, List.filterMap_append, h2]
      simp [beginning, op, List.replicate_succ]
    · show (s.step E cfg (.begin op)).run E cfg _ = _
      rw [e1, run_append, e2, h3]
      rfl

/-- With no retries left, a request for their number ends the process. -/
theorem none_left {data : Bytes} {args : ClientPINArgs} {s : Process}
    (hd : E.decodeClientPIN data = some args) (hp : args.pinProtocol = 1) (hs : args.subCommand = 1)
    (ha : s.alive = true) (hon : s.mem.world.client.pinEnabled = true) (hn : s.mem.world.client.pinRetries = 0) :
    (s.run E cfg (.begin (.ctap (6 :: data)) :: List.replicate 2 (.turn s.threads.length))).alive = false := by
  let op : Op := .ctap (6 :: data)
  have e1 := begin_working (E := E) (cfg := cfg) (s := s) (op := op) ha (by simp [op]) ⟨_, _, rfl⟩
  have h4 : ∃ next, ((handleGetRetries >>= fun b => pure (Reply.answer b)) : Prog Reply) = .act id next ∧
      ∀ m, m.world.client.pinRetries = 0 → next m = .fail .explicit := by
    refine ⟨fun m => ((if 0 < m.world.client.pinRetries then (do
        let n ← field (·.pinRetries)
        if n ≤ 8 then field (·.pinRetries) else fail .explicit) else fail .explicit) >>= fun n =>
        (pure (Ctap.success :: Cbor.encode (Ctap.retriesItem (UInt8.ofInt n))) : Prog Bytes)) >>= fun b =>
        pure (Reply.answer b), rfl, ?_⟩
    intro m hm
    dsimp only
    rw [hm]
    rfl
  obtain ⟨next, h5, h6⟩ := h4
  have h2 : perform E op = .act id (fun m => (if m.world.client.pinEnabled = false then
      (pure [Ctap.errInvalidCommand] : Prog Bytes) else handleGetRetries) >>= fun b => pure (Reply.answer b)) := by
    show (handleClientPIN E data >>= fun b => (pure (Reply.answer b) : Prog Reply)) = _
    unfold handleClientPIN
    rw [hd]
    dsimp only
    rw [if_neg (by simp [hp]), if_pos hs]
    rfl
  have h3 : (perform E op).steps 1 s.mem = (.act id next, s.mem) := by
    rw [h2]
    show ((if s.mem.world.client.pinEnabled = false then (pure [Ctap.errInvalidCommand] : Prog Bytes)
      else handleGetRetries) >>= fun b => (pure (Reply.answer b) : Prog Reply), s.mem) = _
    rw [if_neg (by simp [hon]), h5]
  have e2 := partway (E := E) (cfg := cfg) op s.threads.length 1 (perform E op)
    { s with threads := s.threads ++ [.working op (perform E op)] } _ ha (by simp) h3
  show (((s.step E cfg (.begin op)).run E cfg (List.replicate 1 (.turn s.threads.length))).step E cfg
    (.turn s.threads.length)).alive = false
  rw [e1, e2]
  dsimp only
  rw [List.set_append_right _ _ (Nat.le_refl _), Nat.sub_self]
  unfold Process.step
  dsimp only
  rw [List.getElem?_append_right (Nat.le_refl _), Nat.sub_self]
  dsimp only [List.set_cons_zero, List.getElem?_cons_zero]
  rw [if_pos ha, h6 _ hn]
  rfl

end VF.Fido.Overlap
