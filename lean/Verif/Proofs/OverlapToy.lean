import Verif.Proofs.OverlapProcess
import Verif.Proofs.OverlapInvariant
import Verif.Proofs.ToyHistory

/-!
# Concrete overlapping requests
-/

namespace VF.Fido.Overlap

open Prog

variable {E : Env} {cfg : Client.Config}

theorem begin_working {s : Process} {op : Op} (ha : s.alive = true) (hop : op ≠ .restart)
    (hact : ∃ upd next, perform E op = .act upd next) :
    s.step E cfg (.begin op) = { s with threads := s.threads ++ [.working op (perform E op)] } := by
  obtain ⟨upd, next, h⟩ := hact
  unfold Process.step
  dsimp only
  rw [if_pos ⟨ha, hop⟩, h]
  unfold Process.moved
  dsimp only
  rw [show (s.threads ++ [Thread.gone op]).set s.threads.length (settle op (.act upd next)) =
    s.threads ++ [settle op (.act upd next)] by simp]
  rfl

/-- A goroutine takes turns until it has its result. -/
theorem complete {s : Process} {i : Nat} {op : Op} {p : Prog Reply} {r : Reply} {m' : Mem}
    (ha : s.alive = true) (hi : s.threads[i]? = some (.working op p))
    (hact : ∃ upd next, p = .act upd next) (hrun : p.run s.mem = (.ok r, m')) :
    ∃ n, s.run E cfg (List.replicate n (.turn i)) =
      { s with mem := m', threads := s.threads.set i (.ready op r) } := by
  have hl := (List.getElem?_eq_some_iff.1 hi).1
  obtain ⟨n, hn⟩ := finishes (E := E) (cfg := cfg) op i p s s.mem ha hl
  rw [hrun] at hn
  refine ⟨n, Eq.trans ?_ hn⟩
  congr 1
  obtain ⟨upd, next, rfl⟩ := hact
  unfold Process.moved
  dsimp only
  have : s.threads.set i (settle op (.act upd next)) = s.threads := by
    apply List.ext_getElem?
    intro j
    rw [List.getElem?_set]
    by_cases hj : i = j
    · subst hj
      rw [if_pos rfl, if_pos hl, hi]
      rfl
    · rw [if_neg hj]
  rw [this]

/-- An operation of the sequential model, run here. -/
theorem perform_run {op : Op} {m : Mem} {r : Reply} {w' : World} (hm : Sound m)
    (h : Device.perform E op (view m) = (.ok r, w')) :
    ∃ m', (perform E op).run m = (.ok r, m') ∧ view m' = w' ∧ Sound m' := by
  rcases perform_sim E op hm with ⟨a, b, m', h1, h2, h3, h4⟩ | ⟨c, m', h1, h2⟩
  · rw [h] at h2
    injection h2 with h5 h6
    injection h5 with h5
    have h4 : a = b := h4
    exact ⟨m', by rw [h1, h4, h5], h6.symm, h3⟩
  · rw [h] at h2
    cases (Prod.mk.inj h2).1

theorem make_acts {data : Bytes} {args : MakeCredArgs} (hd : E.decodeMakeCred data = some args)
    (hs : Client.supported args.params = true) :
    ∃ upd next, perform E (.ctap (1 :: data)) = .act upd next := by
  unfold perform handleCtap
  dsimp only
  rw [if_pos rfl]
  unfold handleMakeCredential
  rw [hd]
  dsimp only
  rw [if_neg (by simp [hs])]
  exact ⟨_, _, rfl⟩

end VF.Fido.Overlap

namespace VF.Toy

open VF.Fido VF.Fido.Overlap VF.Spec.Client VF.Spec.History VF.Spec.Ctap

def agree : List Ask → Action → Bytes → Bytes → Bool := fun _ _ _ _ => true

def makeOp : Op := .ctap (0x01 :: makeData [] none)

theorem make_supported : Client.supported (makeArgs [] none).params = true := by
  dsimp only [makeArgs]
  decide +kernel

/-- The state of a device that can create credentials. -/
def Ready (w : World) : Prop :=
  Healthy (toy agree) w.client ∧ CanAttest (toy agree) w.client ∧ w.client.pinEnabled = false

theorem make_perform {w : World} (h : Ready w) : ∃ body w',
    Device.perform (toy agree) makeOp w = (.ok (.answer (0 :: body)), w') ∧ Ready w' ∧
      w'.client.vault = w.client.vault ++ [Vault.newIdentity (toy agree) (some rp) (some user) w.rnd] ∧
      (w.rnd < w'.rnd ∧ w'.rnd ≤ w.rnd + 8) := by
  obtain ⟨h1, h2, h3⟩ := h
  obtain ⟨b, w', blob, m, n, k1, k2, k3, k4, k5, k6, k7⟩ := Device.made (toy_laws agree) h1 h2
    (make_decodes agree [] none (.inl rfl) (by simp)) make_supported rfl rfl (flags := 0)
    (by simp [Ctap.makeCredentialPIN, h3]) rfl
  refine ⟨b, w', ?_, ⟨k3, ?_, ?_⟩, ?_, k6⟩
  · show Device.perform _ (.ctap _) w = _
    rw [Device.perform_ctap', k1]
    rfl
  · rw [k2]
    exact h2
  · rw [k2]
    exact h3
  · rw [k2]

theorem make_acts : ∃ upd next, perform (toy agree) makeOp = .act upd next :=
  Overlap.make_acts (make_decodes agree [] none (.inl rfl) (by simp)) make_supported

theorem boot_ready : Ready (view (boot (toy agree) (config false)).mem) := by
  show Ready (view (load _))
  rw [view_load]
  exact ⟨boot_healthy agree false, boot_attests agree false, rfl⟩

/-- Two creations begin; the second is completed, then the first. -/
theorem two_creations : ∃ evs b0 b1, Laws (toy agree) ∧ Usable (toy agree) (config false) ∧
    ((boot (toy agree) (config false)).run (toy agree) (config false) evs).threads =
      [.ready makeOp (.answer (0 :: b0)), .ready makeOp (.answer (0 :: b1))] ∧
    ((boot (toy agree) (config false)).run (toy agree) (config false) evs).alive = true ∧
    (view ((boot (toy agree) (config false)).run (toy agree) (config false) evs).mem).client.vault.length = 2 ∧
    (evs.take 2 = [.begin makeOp, .begin makeOp]) := by
  let s0 := boot (toy agree) (config false)
  let s1 : Process := { s0 with threads := [.working makeOp (perform (toy agree) makeOp)] }
  let s2 : Process := { s0 with threads :=
    [.working makeOp (perform (toy agree) makeOp), .working makeOp (perform (toy agree) makeOp)] }
  have e1 : s0.step (toy agree) (config false) (.begin makeOp) = s1 :=
    begin_working rfl (by simp [makeOp]) make_acts
  have e2 : s1.step (toy agree) (config false) (.begin makeOp) = s2 :=
    begin_working (s := s1) rfl (by simp [makeOp]) make_acts
  obtain ⟨b1, w1, h1, h2, hv1, -⟩ := make_perform boot_ready
  obtain ⟨m1, k1, k2, k3⟩ := perform_run (sound_load _) h1
  obtain ⟨n1, t1⟩ := complete (E := toy agree) (cfg := config false) (s := s2) (i := 1)
    (op := makeOp) rfl rfl make_acts k1
  rw [← k2] at h2
  obtain ⟨b0, w2, h3, h4, hv2, -⟩ := make_perform h2
  obtain ⟨m2, k4, k5, k6⟩ := perform_run k3 h3
  obtain ⟨n2, t2⟩ := complete (E := toy agree) (cfg := config false)
    (s := { s2 with mem := m1, threads := s2.threads.set 1 (.ready makeOp (.answer (0 :: b1))) }) (i := 0)
    (op := makeOp) rfl rfl make_acts k4
  have hrun : s0.run (toy agree) (config false) (.begin makeOp :: .begin makeOp ::
      (List.replicate n1 (.turn 1) ++ List.replicate n2 (.turn 0))) =
      { s2 with mem := m2, threads :=
          [.ready makeOp (.answer (0 :: b0)), .ready makeOp (.answer (0 :: b1))] } := by
    show ((s0.step (toy agree) (config false) (.begin makeOp)).step (toy agree) (config false)
      (.begin makeOp)).run _ _ _ = _
    rw [e1, e2, run_append, t1, t2]
    rfl
  refine ⟨_, b0, b1, toy_laws agree, config_usable agree false, by rw [hrun], by rw [hrun]; rfl, ?_,
    rfl⟩
  rw [hrun]
  show (view m2).client.vault.length = 2
  rw [k5, hv2, k2, hv1]
  have : (view (boot (toy agree) (config false)).mem).client.vault = [] := by
    show (view (load _)).client.vault = []
    rw [view_load]
    rfl
  rw [this]
  rfl

/-- The PIN is set; a creation with `pinAuth` begins, then a call to switch the PIN on, which does not end. -/
theorem creation_with_pin : ∃ evs evs' data body, Laws (toy agree) ∧ Usable (toy agree) (config true) ∧
    ((boot (toy agree) (config true)).run (toy agree) (config true) evs).mem.world.client.pinEnabled = true ∧
    ((boot (toy agree) (config true)).run (toy agree) (config true) evs).mem.world.client.pinHash ≠ none ∧
    ((boot (toy agree) (config true)).run (toy agree) (config true) evs).alive = true ∧
    (∀ p, Thread.working .disablePIN p ∉
      ((boot (toy agree) (config true)).run (toy agree) (config true) evs).threads) ∧
    (∀ e ∈ evs', e ≠ .begin .disablePIN) ∧ .begin .enablePIN ∈ evs' ∧
    ((boot (toy agree) (config true)).run (toy agree) (config true)
      (evs ++ .begin (.ctap (1 :: data)) :: evs')).threads[
        ((boot (toy agree) (config true)).run (toy agree) (config true) evs).threads.length]? =
      some (.ready (.ctap (1 :: data)) (.answer (0 :: body))) := by
  let s0 := boot (toy agree) (config true)
  have hv0 : view s0.mem = (Device.boot (toy agree) (config true)).world := view_load _
  -- the PIN is set
  have hne : ((toy agree).sha256 (ascii "1234")).take 16 ≠ [] := by
    intro h
    have := congrArg List.length h
    simp [(toy_laws agree).sha256_length] at this
  obtain ⟨blob, hs, h1⟩ := Ctap.setPINHash_ok (toy_laws agree) (w := view s0.mem) hne
    (by rw [hv0]; exact boot_healthy agree true)
  have h2 : Device.perform (toy agree) (.setPIN (ascii "1234")) (view s0.mem) =
      (.ok .done, { view s0.mem with
        client := { (view s0.mem).client with pinHash := some (((toy agree).sha256 (ascii "1234")).take 16) }
        store := some blob, rnd := (view s0.mem).rnd + 4 }) := by
    unfold Device.perform Client.setPIN
    dsimp only
    rw [Go.run_bind, h1]
    rfl
  obtain ⟨m1, k1, k2, k3⟩ := perform_run (sound_load _) h2
  let op0 : Op := .setPIN (ascii "1234")
  let s1 : Process := { s0 with threads := [.working op0 (perform (toy agree) op0)] }
  have e1 : s0.step (toy agree) (config true) (.begin op0) = s1 :=
    begin_working rfl (by simp [op0]) ⟨_, _, rfl⟩
  obtain ⟨n1, t1⟩ := complete (E := toy agree) (cfg := config true) (s := s1) (i := 0)
    (op := op0) rfl rfl ⟨_, _, rfl⟩ k1
  let s2 : Process := { s0 with mem := m1, threads := [.ready op0 .done] }
  have e2 : s0.run (toy agree) (config true) (.begin op0 :: List.replicate n1 (.turn 0)) = s2 := by
    show (s0.step (toy agree) (config true) (.begin op0)).run _ _ _ = _
    rw [e1, t1]
    rfl
  -- the creation
  have hd := make_decodes agree [] (some (((toy agree).hmac (view m1).client.pinToken
    (List.replicate 32 1)).take 16)) (.inl rfl) (by
      intro b hb
      obtain rfl : _ = b := by simpa using hb
      simp [(toy_laws agree).hmac_length])
  have hh : Healthy (toy agree) (view m1).client := by
    rw [k2, hv0]
    obtain ⟨q1, q2, q3, q4, q5⟩ := boot_healthy agree true
    exact ⟨q1, q2, q3, by simpa using hne, q5⟩
  have hat : CanAttest (toy agree) (view m1).client := by
    rw [k2, hv0]
    exact boot_attests agree true
  have hon : (view m1).client.pinEnabled = true := by rw [k2, hv0]; rfl
  have hset : (view m1).client.pinHash = some (((toy agree).sha256 (ascii "1234")).take 16) := by rw [k2]
  obtain ⟨b, w', blob', m, n, j1, -⟩ := Device.made (toy_laws agree) (w := view m1) (flags := 4) hh hat hd
    (by dsimp only [makeArgs]; decide +kernel) rfl rfl
    (by simp [Ctap.makeCredentialPIN, hon, hset, makeArgs, Ctap.derivePINAuth, Ctap.flagUV]) rfl
  let op1 : Op := .ctap (1 :: makeData [] (some (((toy agree).hmac (view m1).client.pinToken
    (List.replicate 32 1)).take 16)))
  have j2 : Device.perform (toy agree) op1 (view m1) = (.ok (.answer (0 :: b)), w') := by
    show Device.perform _ (.ctap _) _ = _
    rw [Device.perform_ctap', j1]
    rfl
  obtain ⟨m2, k4, -, -⟩ := perform_run k3 j2
  have hact : ∃ upd next, perform (toy agree) op1 = .act upd next :=
    Overlap.make_acts hd (by dsimp only [makeArgs]; decide +kernel)
  let s3 : Process := { s2 with threads := [.ready op0 .done, .working op1 (perform (toy agree) op1)] }
  have e3 : s2.step (toy agree) (config true) (.begin op1) = s3 :=
    begin_working (s := s2) rfl (by simp [op1]) hact
  let s4 : Process := { s3 with threads := [.ready op0 .done, .working op1 (perform (toy agree) op1),
    .working .enablePIN (perform (toy agree) .enablePIN)] }
  have e4 : s3.step (toy agree) (config true) (.begin .enablePIN) = s4 :=
    begin_working (s := s3) rfl (by simp) ⟨_, _, rfl⟩
  obtain ⟨n2, t2⟩ := complete (E := toy agree) (cfg := config true) (s := s4) (i := 1)
    (op := op1) rfl rfl hact k4
  refine ⟨.begin op0 :: List.replicate n1 (.turn 0), .begin .enablePIN :: List.replicate n2 (.turn 1),
    makeData [] (some (((toy agree).hmac (view m1).client.pinToken (List.replicate 32 1)).take 16)), b,
    toy_laws agree, config_usable agree true, ?_, ?_, ?_, ?_, ?_, by simp, ?_⟩
  · show (s0.run _ _ _).mem.world.client.pinEnabled = true
    rw [e2]
    exact hon
  · show (s0.run _ _ _).mem.world.client.pinHash ≠ none
    rw [e2]
    show (view m1).client.pinHash ≠ none
    rw [hset]
    simp
  · show (s0.run _ _ _).alive = true
    rw [e2]
    rfl
  · intro p
    show _ ∉ (s0.run _ _ _).threads
    rw [e2]
    simp [s2]
  · intro e he
    rcases List.mem_cons.1 he with rfl | he
    · simp
    · rw [(List.mem_replicate.1 he).2]
      simp
  · show (s0.run _ _ _).threads[(s0.run _ _ _).threads.length]? = _
    rw [run_append, e2]
    show (((s2.step (toy agree) (config true) (.begin op1)).step (toy agree) (config true)
      (.begin .enablePIN)).run _ _ _).threads[s2.threads.length]? = _
    rw [e3, e4, t2]
    rfl

end VF.Toy
