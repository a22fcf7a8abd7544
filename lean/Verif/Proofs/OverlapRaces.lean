import Verif.Proofs.OverlapToy
import Verif.Proofs.OverlapFacts
import Verif.Proofs.Store
import Verif.Proofs.PinProgress

/-!
# Particular schedules
-/

namespace VF.Fido

/-- A handler after `n` steps of its own. -/
def Prog.steps {α : Type} : Nat → Prog α → Mem → Prog α × Mem
  | 0, p, m => (p, m)
  | n + 1, .act upd next, m => Prog.steps n (next m) (upd m)
  | _ + 1, p, m => (p, m)

namespace Overlap

open Prog VF.Spec.Client VF.Spec.History VF.Spec.Overlap

variable {E : Env} {cfg : Client.Config}

theorem getElem_set_self {ts : List Thread} {i : Nat} {t u : Thread} (h : ts[i]? = some t) :
    (ts.set i u)[i]? = some u := by
  rw [List.getElem?_set, if_pos rfl, if_pos (List.getElem?_eq_some_iff.1 h).1]

/-- A goroutine takes some turns, and is not at its end then. -/
theorem partway (op : Op) (i : Nat) {upd : Mem → Mem} {next : Mem → Prog Reply} : ∀ (n : Nat) (p : Prog Reply)
    (s : Process) (m' : Mem), s.alive = true → s.threads[i]? = some (.working op p) →
    p.steps n s.mem = (.act upd next, m') →
    s.run E cfg (List.replicate n (.turn i)) =
      { s with mem := m', threads := s.threads.set i (.working op (.act upd next)) }
  | 0, p, s, m', ha, hi, hs => by
    obtain ⟨rfl, rfl⟩ := Prod.mk.inj hs
    show s = _
    have : s.threads.set i (.working op (.act upd next)) = s.threads := by
      apply List.ext_getElem?
      intro j
      rw [List.getElem?_set]
      by_cases hj : i = j
      · subst hj
        rw [if_pos rfl, if_pos (List.getElem?_eq_some_iff.1 hi).1, hi]
      · rw [if_neg hj]
    rw [this]
  | n + 1, .ret r, s, m', ha, hi, hs => by cases (Prod.mk.inj hs).1
  | n + 1, .fail c, s, m', ha, hi, hs => by cases (Prod.mk.inj hs).1
  | n + 1, .act u k, s, m', ha, hi, hs => by
    have e : s.step E cfg (.turn i) = s.moved i op (u s.mem) (k s.mem) := by
      show (match s.threads[i]? with
        | some (.working op (.act upd next)) =>
          if s.alive then s.moved i op (upd s.mem) (next s.mem) else s
        | _ => s) = _
      rw [hi]
      dsimp only
      rw [if_pos ha]
    show (s.step E cfg (.turn i)).run E cfg (List.replicate n (.turn i)) = _
    rw [e]
    have hs : (k s.mem).steps n (u s.mem) = (.act upd next, m') := hs
    generalize hp : k s.mem = p at hs
    have hact : ∃ u' k', p = .act u' k' := by
      cases p with
      | act u' k' => exact ⟨u', k', rfl⟩
      | ret r => cases n <;> cases (Prod.mk.inj hs).1
      | fail c => cases n <;> cases (Prod.mk.inj hs).1
    obtain ⟨u', k', rfl⟩ := hact
    have := partway op i n (.act u' k')
      { s with mem := u s.mem, threads := s.threads.set i (.working op (.act u' k')) } m' ha
      (getElem_set_self hi) hs
    dsimp only at this
    rw [List.set_set] at this
    exact this

/-! ### Many guesses at once -/

theorem guess_steps {data : Bytes} {args : ClientPINArgs} {enc secret : Bytes} {key : EC2Key} {m : Mem}
    (hon : m.world.client.pinEnabled = true)
    (hn : 0 < m.world.client.pinRetries ∧ m.world.client.pinRetries ≤ 8)
    (hd : E.decodeClientPIN data = some args) (hp : args.pinProtocol = 1)
    (hs : args.subCommand = 5) (hk : args.keyAgreement = some key) (hx : key.x ≠ none)
    (he : args.pinHashEnc = some enc)
    (hss : Ctap.sharedSecret E m.world.client key = .ok secret) :
    (perform E (.ctap (6 :: data))).steps 8 m =
      (attempt E secret enc m.world.client.pinRetries >>= fun b => pure (.answer b), m) := by
  obtain ⟨n1, n2⟩ := hn
  have hss' : ecdhSecret E m.world.client.keyAgreement (BigInt.ofBytes (key.x.getD []))
      (BigInt.ofBytes (key.y.getD [])) >>= (fun s => .ok (E.sha256 s)) = .ok secret := hss
  have h1 : (if args.pinProtocol ≠ 1 then (pure [Ctap.errInvalidParameter] : Prog Bytes)
      else if args.subCommand = 1 then handleGetRetries
      else if args.subCommand = 2 then handleGetKeyAgreement
      else if args.subCommand = 3 then handleSetPIN E args
      else if args.subCommand = 4 then handleChangePIN E args
      else if args.subCommand = 5 then handleGetPINToken E args
      else pure [Ctap.errMissingParam]) = handleGetPINToken E args := by
    rw [if_neg (by simp [hp]), if_neg (by simp [hs]), if_neg (by simp [hs]), if_neg (by simp [hs]),
      if_neg (by simp [hs]), if_pos (by simp [hs])]
  have h2 : handleCtap E (6 :: data) = (field (·.pinEnabled) >>= fun enabled =>
      if enabled = false then pure [Ctap.errInvalidCommand] else handleGetPINToken E args) := by
    show handleClientPIN E data = _
    unfold handleClientPIN
    rw [hd]
    dsimp only
    rw [h1]
  unfold perform
  dsimp only
  rw [h2]
  unfold handleGetPINToken getPINRetries sharedSecret
  rw [he, hk]
  dsimp only
  rw [if_neg hx]
  have n3 : ¬ m.world.client.pinRetries ≤ 0 := by omega
  cases hq : ecdhSecret E m.world.client.keyAgreement (BigInt.ofBytes (key.x.getD []))
      (BigInt.ofBytes (key.y.getD [])) with
  | panic c => rw [hq] at hss'; cases hss'
  | ok q =>
    rw [hq] at hss'
    obtain rfl := Res.ok.inj hss'
    simp [Prog.steps, field, look, Prog.act_bind, hon, n1, n2, n3, hq, Prog.lift]

theorem attempt_run {secret enc guess : Bytes} {n : Int} {m : Mem}
    (hg : decryptAESCBC E secret enc = .ok guess) (hne : guess ≠ m.world.client.pinHash.getD []) :
    ((attempt E secret enc n >>= fun b => pure (.answer b)) : Prog Reply).run m =
      (.ok (.answer [0x31]), { m with world := { m.world with
        client := { m.world.client with pinRetries := n - 1 } } }) := by
  unfold attempt
  rw [hg]
  simp only [setPINRetries, setField, write, field, look, Prog.lift, Prog.act_bind, Prog.ret_bind]
  unfold Prog.run
  dsimp only
  unfold Prog.run
  dsimp only [id]
  rw [if_pos hne]
  rfl

/-- Many goroutines are made to read the counter: each job is an operation and where it has got to. -/
theorem many_begin {n : Nat} : ∀ (jobs : List (Op × Prog Reply)) (s : Process), s.alive = true →
    (∀ j ∈ jobs, j.1 ≠ .restart ∧ (∃ u k, perform E j.1 = .act u k) ∧ (∃ u k, j.2 = .act u k) ∧
      (perform E j.1).steps n s.mem = (j.2, s.mem)) →
    ∃ evs, (∀ e ∈ evs, e ≠ .restart) ∧ s.run E cfg evs =
      { s with threads := s.threads ++ jobs.map (fun j => .working j.1 j.2) }
  | [], s, _, _ => ⟨[], by simp, by simp [Process.run]⟩
  | (op, p) :: jobs, s, ha, hj => by
    obtain ⟨hop, hact, ⟨upd, next, hp⟩, hs⟩ := hj _ (.head _)
    dsimp only at hop hact hp hs
    subst hp
    have e1 := begin_working (E := E) (cfg := cfg) (s := s) ha hop hact
    have e2 := partway (E := E) (cfg := cfg) op s.threads.length n (perform E op)
      { s with threads := s.threads ++ [.working op (perform E op)] } s.mem ha (by simp) hs
    obtain ⟨evs, h1, h2⟩ := many_begin jobs
      { s with threads := s.threads ++ [.working op (.act upd next)] } ha
      (fun j h => hj j (.tail _ h))
    refine ⟨.begin op :: (List.replicate n (.turn s.threads.length) ++ evs), ?_, ?_⟩
    · intro e he
      rcases List.mem_cons.1 he with rfl | he
      · simp
      · rcases List.mem_append.1 he with he | he
        · rw [(List.mem_replicate.1 he).2]
          simp
        · exact h1 e he
    · show (s.step E cfg (.begin op)).run E cfg _ = _
      rw [e1, run_append, e2]
      dsimp only
      rw [List.set_append_right _ _ (Nat.le_refl _), Nat.sub_self]
      show Process.run E cfg { s with threads := s.threads ++ [Thread.working op (.act upd next)] } evs = _
      rw [h2]
      simp

/-- Each then goes on to its end. -/
theorem many_end {r : Reply} (P Q : Mem → Prop) :
    ∀ (jobs : List (Op × Prog Reply)) (ts : List Thread) (s : Process), s.alive = true → P s.mem →
    (∀ j ∈ jobs, (∃ u k, j.2 = .act u k) ∧ ∀ m, P m → ∃ m', j.2.run m = (.ok r, m') ∧ P m' ∧ Q m') →
    s.threads = ts ++ jobs.map (fun j => .working j.1 j.2) →
    ∃ evs m', (∀ e ∈ evs, e ≠ .restart) ∧ P m' ∧ (jobs ≠ [] ∨ Q s.mem → Q m') ∧
      s.run E cfg evs = { s with mem := m', threads := ts ++ jobs.map (fun j => .ready j.1 r) }
  | [], ts, s, _, hP, _, ht => ⟨[], s.mem, by simp, hP, fun h => h.elim (by simp) id, by
      show s = _
      have : ts = s.threads := by simp [ht]
      subst this
      simp⟩
  | (op, p) :: jobs, ts, s, ha, hP, hj, ht => by
    obtain ⟨hact, hrun⟩ := hj _ (.head _)
    dsimp only at hact hrun
    obtain ⟨m1, r1, r2, r3⟩ := hrun s.mem hP
    have hi : s.threads[ts.length]? = some (.working op p) := by
      rw [ht, List.getElem?_append_right (Nat.le_refl _), Nat.sub_self]
      rfl
    obtain ⟨n, e1⟩ := complete (E := E) (cfg := cfg) ha hi hact r1
    have e2 : s.threads.set ts.length (.ready op r) =
        (ts ++ [.ready op r]) ++ jobs.map (fun j => .working j.1 j.2) := by
      rw [ht, List.set_append_right _ _ (Nat.le_refl _), Nat.sub_self]
      simp
    obtain ⟨evs, m', h1, h2, h3, h4⟩ := many_end P Q jobs (ts ++ [.ready op r])
      { s with mem := m1, threads := s.threads.set ts.length (.ready op r) } ha r2
      (fun j h => hj j (.tail _ h)) e2
    refine ⟨List.replicate n (.turn ts.length) ++ evs, m', ?_, h2, ?_, ?_⟩
    · intro e he
      rcases List.mem_append.1 he with he | he
      · rw [(List.mem_replicate.1 he).2]
        simp
      · exact h1 e he
    · intro _
      exact h3 (.inr r3)
    · rw [run_append, e1, h4]
      simp

/-- A request for the PIN token whose `pinHashEnc` decrypts to something else than the hash of the PIN. -/
def WrongGuess (E : Env) (c : Client) (key : EC2Key) (secret data enc : Bytes) : Prop :=
  ∃ args guess, E.decodeClientPIN data = some args ∧ args.pinProtocol = 1 ∧ args.subCommand = 5 ∧
    args.keyAgreement = some key ∧ args.pinHashEnc = some enc ∧
    decryptAESCBC E secret enc = .ok guess ∧ guess ≠ c.pinHash.getD []

/-- Any number of wrong guesses at once cost one attempt. -/
theorem many_guesses {secret : Bytes} {key : EC2Key}
    {s : Process} (ha : s.alive = true) (hon : s.mem.world.client.pinEnabled = true)
    (hn : 0 < s.mem.world.client.pinRetries ∧ s.mem.world.client.pinRetries ≤ 8) (hx : key.x ≠ none)
    (hss : Ctap.sharedSecret E s.mem.world.client key = .ok secret)
    (guesses : List (Bytes × Bytes))
    (hg : ∀ g ∈ guesses, WrongGuess E s.mem.world.client key secret g.1 g.2) :
    ∃ evs, (∀ e ∈ evs, e ≠ .restart) ∧
      (s.run E cfg evs).threads = s.threads ++
        guesses.map (fun g => .ready (.ctap (6 :: g.1)) (.answer [0x31])) ∧
      (s.run E cfg evs).alive = true ∧
      s.mem.world.client.pinRetries - 1 ≤ (s.run E cfg evs).mem.world.client.pinRetries := by
  let job : Bytes × Bytes → Op × Prog Reply := fun g => (.ctap (6 :: g.1),
    attempt E secret g.2 s.mem.world.client.pinRetries >>= fun b => pure (.answer b))
  obtain ⟨evs, q1, q2⟩ := many_begin (E := E) (cfg := cfg) (n := 8) (guesses.map job) s ha (by
    intro j hj
    obtain ⟨g, h, rfl⟩ := List.mem_map.1 hj
    obtain ⟨args, guess, hd, hp, hs, hk, he, -⟩ := hg g h
    exact ⟨by simp [job], ⟨_, _, rfl⟩, ⟨_, _, rfl⟩,
      guess_steps (E := E) (m := s.mem) hon hn hd hp hs hk hx he hss⟩)
  obtain ⟨evs', m', r1, -, r3, r4⟩ := many_end (E := E) (cfg := cfg)
    (r := .answer [0x31])
    (fun m => m.world.client.pinHash = s.mem.world.client.pinHash)
    (fun m => s.mem.world.client.pinRetries - 1 ≤ m.world.client.pinRetries) (guesses.map job) s.threads
    { s with threads := s.threads ++ (guesses.map job).map (fun j => .working j.1 j.2) } ha rfl (by
      intro j hj
      obtain ⟨g, h, rfl⟩ := List.mem_map.1 hj
      obtain ⟨args, guess, -, -, -, -, -, hgu, hne⟩ := hg g h
      exact ⟨⟨_, _, rfl⟩, fun m hm => ⟨_, attempt_run hgu (by rw [hm]; exact hne), hm, Int.le_refl _⟩⟩) rfl
  refine ⟨evs ++ evs', ?_, ?_⟩
  · intro e he
    rcases List.mem_append.1 he with he | he
    · exact q1 e he
    · exact r1 e he
  · rw [run_append, q2, r4]
    refine ⟨?_, ha, r3 (.inr (by show s.mem.world.client.pinRetries - 1 ≤ s.mem.world.client.pinRetries; omega))⟩
    simp [job]

/-! ### A creation that read the list before another -/

/-- The new credential of a creation. -/
def newSource (E : Env) (args : MakeCredArgs) (n : Nat) : Source :=
  { type := ascii "public-key", id := E.rand n 16, key := { ecdsa := some (E.genEC (n + 1)) }
    rp := args.rp, user := args.user, counter := 0 }

/-- The memory after a creation has read the list of credentials. -/
def listRead (E : Env) (args : MakeCredArgs) (rp : RPEntity) (m : Mem) : Mem :=
  { m with
    world := { m.world with
      asks := m.world.asks ++ [⟨.makeCredential, rp.name, [], true⟩], rnd := m.world.rnd + 2 }
    heap := m.heap ++ [newSource E args m.world.rnd] }

theorem make_steps {data : Bytes} {args : MakeCredArgs} {rp : RPEntity} {m : Mem}
    (hoff : m.world.client.pinEnabled = false)
    (hd : E.decodeMakeCred data = some args) (hs : Client.supported args.params = true)
    (hrp : args.rp = some rp) (ha : E.approve m.world.asks .makeCredential rp.name [] = true) :
    ∃ (u : Mem → Mem) (k : Mem → Prog Reply), (perform E (.ctap (1 :: data))).steps 6 m =
      (.act (fun m' => { m' with slots := m.slots ++ [m.heap.length] }) (fun _ => .act u k),
        listRead E args rp m) := by
  have h2 : handleCtap E (1 :: data) = (makeCredentialPIN E args >>= fun pin =>
      match pin with
      | .error e => pure [e]
      | .ok flags => do
          let approved ← approveAccountCreation E rp.name
          if approved = false then pure [Ctap.errOperationDenied]
          else do
            let source ← newCredentialSource E args.params args.excludeList args.rp args.user
            match source with
            | none => pure [Ctap.errUnsupportedAlgorithm]
            | some p => attest E args rp flags p) := by
    show handleMakeCredential E data = _
    unfold handleMakeCredential
    rw [hd]
    dsimp only
    rw [if_neg (by simp [hs])]
    simp only [hrp]
    congr 1
  unfold perform
  dsimp only
  rw [h2]
  unfold makeCredentialPIN newCredentialSource approveAccountCreation addIdentity
  rw [if_neg (by simp [hs])]
  have hrest : ∃ u k, (((saveData E >>= fun _ => pure (some m.heap.length)) >>= fun source : Option Nat =>
    match source with
    | none => pure [Ctap.errUnsupportedAlgorithm]
    | some p => attest E args rp 0 p) >>= fun b => pure (.answer b) : Prog Reply) = .act u k := ⟨_, _, rfl⟩
  obtain ⟨u, k, hrest⟩ := hrest
  refine ⟨u, k, ?_⟩
  rw [← hrest]
  simp [Prog.steps, field, look, write, draw, alloc, approve, Prog.act_bind, hoff, ha]
  rfl

theorem run_begin (s : Process) (e : Event) (evs : List Event) :
    s.run E cfg (e :: evs) = (s.step E cfg e).run E cfg evs := rfl

theorem restart_ok {s : Process} {c : Client}
    (h : Client.start E cfg s.mem.world.store s.mem.world.rnd = .ok c) :
    s.step E cfg .restart =
      { mem := load { s.mem.world with client := c, rnd := s.mem.world.rnd + 2 }
        threads := s.threads.map Thread.ended, alive := true } := by
  unfold Process.step
  dsimp only
  rw [h]

/-- The embedding program switches the PIN off; all is collected and encrypted, and not handed over yet. -/
theorem off_steps {m : Mem} {data : Bytes} {n : Nat} (hs : m.slots = [])
    (h : Ctap.Saves E { m.world.client with pinEnabled := false, vault := [] } m.world.rnd data n) :
    (perform E .disablePIN).steps 9 m =
      (.act (fun m' => { m' with world := { m'.world with store := some data } }) (fun _ => .ret .done),
        { m with world := { m.world with client := { m.world.client with pinEnabled := false }, rnd := n } }) := by
  obtain ⟨st, h1, h2⟩ := h
  unfold Client.exportState at h1
  dsimp only at h1
  cases hk : Cose.marshalPrivate m.world.client.certKey with
  | panic c => rw [hk] at h1; cases h1
  | ok key =>
    rw [hk] at h1
    obtain rfl := Res.ok.inj h1
    unfold perform disablePIN saveData exportState encryptState putData
    simp [Prog.steps, field, look, setField, write, Prog.act_bind, hs, hk, Prog.lift, exportSources, h2]
    rfl

end Overlap
end VF.Fido

namespace VF.Toy

open VF.Fido VF.Fido.Overlap VF.Spec.Client VF.Spec.History VF.Spec.Ctap VF.Spec.Overlap VF.Spec.Store

theorem make_announces {w w' : World} {body : Bytes}
    (h : Device.perform (toy agree) makeOp w = (.ok (.answer (0 :: body)), w')) :
    ∃ c, announced (0 :: body) = some c ∧ c.id = (toy agree).rand w.rnd 16 := by
  have h1 : Ctap.handleMessage (toy agree) (0x01 :: makeData [] none) w = (.ok (0 :: body), w') := by
    have h : Device.perform (toy agree) (.ctap (0x01 :: makeData [] none)) w = _ := h
    rw [Device.perform_ctap'] at h
    injection h with h5 h6
    refine Prod.ext ?_ h6
    cases hq : (Ctap.handleMessage (toy agree) (0x01 :: makeData [] none) w).1 with
    | ok b => rw [hq] at h5; injection h5 with h5; injection h5 with h5; rw [h5]
    | panic c => rw [hq] at h5; cases h5
  obtain ⟨s, c, -, hid, hann, hshown, -⟩ := Device.creation_announces (toy_laws agree) h1
  exact ⟨c, hann, by rw [← hid]; exact (congrArg Prod.fst hshown).symm⟩

/-- The first creation reads the list, the second is done completely, the first writes its list. -/
theorem lost_in_memory : ∃ evs body c, Laws (toy agree) ∧ Usable (toy agree) (config false) ∧
    (∀ id, .begin (.deleteIdentity id) ∉ evs) ∧ .restart ∉ evs ∧
    ((boot (toy agree) (config false)).run (toy agree) (config false) evs).alive = true ∧
    ((boot (toy agree) (config false)).run (toy agree) (config false) evs).threads[1]? =
      some (.ready makeOp (.answer (0 :: body))) ∧
    announced (0 :: body) = some c ∧
    ∀ s ∈ (view ((boot (toy agree) (config false)).run (toy agree) (config false) evs).mem).client.vault,
      s.id ≠ c.id := by
  let s0 := boot (toy agree) (config false)
  let s1 : Process := { s0 with threads := [.working makeOp (perform (toy agree) makeOp)] }
  have e1 : s0.step (toy agree) (config false) (.begin makeOp) = s1 :=
    begin_working rfl (by simp [makeOp]) make_acts
  obtain ⟨u, k, hst⟩ := make_steps (E := toy agree) (m := s0.mem) (data := makeData [] none) (rp := rp) rfl
    (make_decodes agree [] none (.inl rfl) (by simp)) make_supported rfl rfl
  let pA : Prog Reply := .act (fun m' => { m' with slots := s0.mem.slots ++ [s0.mem.heap.length] }) (fun _ => .act u k)
  let mA : Mem := listRead (toy agree) (makeArgs [] none) rp s0.mem
  let s2 : Process := { s0 with mem := mA, threads := [.working makeOp pA] }
  have e2 : s1.run (toy agree) (config false) (List.replicate 6 (.turn 0)) = s2 :=
    partway makeOp 0 6 (perform (toy agree) makeOp) s1 mA rfl rfl hst
  let s3 : Process := { s0 with mem := mA, threads := [.working makeOp pA, .working makeOp (perform (toy agree) makeOp)] }
  have e3 : s2.step (toy agree) (config false) (.begin makeOp) = s3 :=
    begin_working (s := s2) rfl (by simp [makeOp]) make_acts
  have hvA : view mA = { (view s0.mem) with asks := [⟨.makeCredential, rp.name, [], true⟩], rnd := 4 } := rfl
  have hrA : Ready (view mA) := by
    have := boot_ready
    rw [hvA]
    exact this
  obtain ⟨b1, w1, h1, -, -, hr1, hr2⟩ := make_perform hrA
  obtain ⟨c, hann, hid⟩ := make_announces h1
  obtain ⟨mB, k1, k2, k3⟩ := perform_run (m := mA) ⟨List.nodup_nil, fun p hp => by cases hp⟩ h1
  obtain ⟨n, e4⟩ := complete (E := toy agree) (cfg := config false) (s := s3) (i := 1) rfl rfl make_acts k1
  let s4 : Process := { s0 with mem := mB, threads := [.working makeOp pA, .ready makeOp (.answer (0 :: b1))] }
  have e4 : s3.run (toy agree) (config false) (List.replicate n (.turn 1)) = s4 := e4
  let mC : Mem := { mB with slots := [0] }
  have e5 : s4.step (toy agree) (config false) (.turn 0) = 
      { s0 with mem := mC, threads := [.working makeOp (.act u k), .ready makeOp (.answer (0 :: b1))] } := rfl
  let evsA : List Event := .begin makeOp :: (List.replicate 6 (.turn 0))
  let evsB : List Event := .begin makeOp :: (List.replicate n (.turn 1))
  have hA : s0.run (toy agree) (config false) evsA = s2 := by
    show (s0.step (toy agree) (config false) (.begin makeOp)).run (toy agree) (config false) _ = _
    rw [e1, e2]
  have hB : s0.run (toy agree) (config false) (evsA ++ evsB) = s4 := by
    rw [run_append, hA]
    show (s2.step (toy agree) (config false) (.begin makeOp)).run (toy agree) (config false) _ = _
    rw [e3, e4]
  have hrel := rel_run (toy_laws agree) (config_usable agree false) evsB evsA (by
    intro e he
    rcases List.mem_cons.1 he with rfl | he
    · simp
    · rw [(List.mem_replicate.1 he).2]
      simp)
  rw [show boot (toy agree) (config false) = s0 from rfl, hA, hB] at hrel
  obtain ⟨cnt, hheap⟩ := hrel.heap 0 (newSource (toy agree) (makeArgs [] none) s0.mem.world.rnd) rfl
  have hC : s0.run (toy agree) (config false) ((evsA ++ evsB) ++ [.turn 0]) =
      { s0 with mem := mC, threads := [.working makeOp (.act u k), .ready makeOp (.answer (0 :: b1))] } := by
    rw [run_append, hB]
    exact e5
  have hev : ∀ e ∈ (evsA ++ evsB) ++ [.turn 0], e = .begin makeOp ∨ ∃ i, e = .turn i := by
    intro e he
    simp only [evsA, evsB, List.mem_append, List.mem_cons, List.mem_replicate, List.not_mem_nil, or_false] at he
    rcases he with ((h | h) | h | h) | h
    · exact .inl h
    · exact .inr ⟨_, h.2⟩
    · exact .inl h
    · exact .inr ⟨_, h.2⟩
    · exact .inr ⟨_, h⟩
  refine ⟨(evsA ++ evsB) ++ [.turn 0], b1, c, toy_laws agree, config_usable agree false, ?_, ?_, ?_, ?_, hann, ?_⟩
  · intro id hm
    rcases hev _ hm with h | ⟨i, h⟩ <;> simp [makeOp] at h
  · intro hm
    rcases hev _ hm with h | ⟨i, h⟩ <;> cases h
  · rw [show boot (toy agree) (config false) = s0 from rfl, hC]
    rfl
  · rw [show boot (toy agree) (config false) = s0 from rfl, hC]
    rfl
  · intro s hs
    rw [show boot (toy agree) (config false) = s0 from rfl, hC] at hs
    have hs : s ∈ List.filterMap (mB.heap[·]?) [0] := hs
    obtain ⟨j, hj, hs⟩ := List.mem_filterMap.1 hs
    obtain rfl := List.mem_singleton.1 hj
    have e := Option.some.inj (hs.symm.trans hheap)
    rw [e, hid]
    intro h
    have h : (toy agree).rand s0.mem.world.rnd 16 = (toy agree).rand (view mA).rnd 16 := h
    rw [hvA] at h
    have := toy_draws (ap := agree) (n := 256) (Nat.le_refl _) s0.mem.world.rnd 4 (by decide) (by decide) h
    revert this
    decide

/-- The embedding program switches the PIN off and has collected what to save; a creation is done completely;
the older state is saved over it, and the process is restarted. -/
theorem lost_in_store : ∃ evs body c, Laws (toy agree) ∧ Usable (toy agree) (config false) ∧
    (∀ id, .begin (.deleteIdentity id) ∉ evs) ∧
    (∀ t ∈ ((boot (toy agree) (config false)).run (toy agree) (config false) evs).threads, busy t = false) ∧
    ((boot (toy agree) (config false)).run (toy agree) (config false) evs).alive = true ∧
    ((boot (toy agree) (config false)).run (toy agree) (config false) evs).threads[1]? =
      some (.ready makeOp (.answer (0 :: body))) ∧
    announced (0 :: body) = some c ∧
    ((boot (toy agree) (config false)).run (toy agree) (config false) (evs ++ [.restart])).alive = true ∧
    ((boot (toy agree) (config false)).run (toy agree) (config false) (evs ++ [.restart])).mem.slots = [] := by
  let s0 := boot (toy agree) (config false)
  let s1 : Process := { s0 with threads := [.working .disablePIN (perform (toy agree) .disablePIN)] }
  have e1 : s0.step (toy agree) (config false) (.begin .disablePIN) = s1 :=
    begin_working rfl (by simp) ⟨_, _, rfl⟩
  have hr0 := boot_ready
  let c0 : Client := { s0.mem.world.client with pinEnabled := false, vault := [] }
  have hc0 : Healthy (toy agree) c0 := hr0.1
  obtain ⟨data, hsv⟩ := healthy_saves (toy_laws agree) hc0 s0.mem.world.rnd
  have hst := off_steps (E := toy agree) (m := s0.mem) rfl hsv
  let pA : Prog Reply := .act (fun m' => { m' with world := { m'.world with store := some data } })
    (fun _ => .ret .done)
  let mA : Mem := { s0.mem with world := { s0.mem.world with
    client := { s0.mem.world.client with pinEnabled := false }, rnd := s0.mem.world.rnd + 4 } }
  let s2 : Process := { s0 with mem := mA, threads := [.working .disablePIN pA] }
  have e2 : s1.run (toy agree) (config false) (List.replicate 9 (.turn 0)) = s2 :=
    partway .disablePIN 0 9 (perform (toy agree) .disablePIN) s1 mA rfl rfl hst
  let s3 : Process := { s0 with mem := mA, threads := [.working .disablePIN pA, .working makeOp (perform (toy agree) makeOp)] }
  have e3 : s2.step (toy agree) (config false) (.begin makeOp) = s3 :=
    begin_working (s := s2) rfl (by simp [makeOp]) make_acts
  have hrA : Ready (view mA) := ⟨hr0.1, hr0.2.1, rfl⟩
  obtain ⟨b1, w1, h1, -, -, hr1, hr2⟩ := make_perform hrA
  obtain ⟨c, hann, hid⟩ := make_announces h1
  obtain ⟨mB, k1, k2, k3⟩ := perform_run (m := mA) ⟨List.nodup_nil, fun p hp => by cases hp⟩ h1
  obtain ⟨n, e4⟩ := complete (E := toy agree) (cfg := config false) (s := s3) (i := 1) rfl rfl make_acts k1
  let s4 : Process := { s0 with mem := mB, threads := [.working .disablePIN pA, .ready makeOp (.answer (0 :: b1))] }
  have e4 : s3.run (toy agree) (config false) (List.replicate n (.turn 1)) = s4 := e4
  let mC : Mem := { mB with world := { mB.world with store := some data } }
  let s5 : Process := { s0 with mem := mC, threads := [.ready .disablePIN .done, .ready makeOp (.answer (0 :: b1))] }
  have e5 : s4.step (toy agree) (config false) (.turn 0) = s5 := rfl
  let evs : List Event := .begin .disablePIN :: (List.replicate 9 (.turn 0) ++ (.begin makeOp ::
    (List.replicate n (.turn 1) ++ [.turn 0])))
  have hC : s0.run (toy agree) (config false) evs = s5 := by
    rw [run_begin, e1, run_append, e2, run_begin, e3, run_append, e4]
    exact e5
  obtain ⟨-, c', g1, g2, -⟩ := saves_restore (toy_laws agree) hc0 hsv (config false) mB.world.rnd
  have hv : c'.vault = [] := by
    exact List.eq_nil_of_length_eq_zero g2.2.2.2.2.2.1.symm
  have hR : s0.run (toy agree) (config false) (evs ++ [.restart]) =
      { mem := load { mC.world with client := c', rnd := mC.world.rnd + 2 }
        threads := s5.threads.map Thread.ended, alive := true } := by
    rw [run_snoc, hC]
    exact restart_ok (s := s5) g1
  refine ⟨evs, b1, c, toy_laws agree, config_usable agree false, ?_, ?_, ?_, ?_, hann, ?_, ?_⟩
  · intro id hm
    simp [evs, makeOp, List.mem_replicate] at hm
  · rw [show boot (toy agree) (config false) = s0 from rfl, hC]
    intro t ht
    simp only [s5, List.mem_cons, List.not_mem_nil, or_false] at ht
    rcases ht with rfl | rfl <;> rfl
  · rw [show boot (toy agree) (config false) = s0 from rfl, hC]
    rfl
  · rw [show boot (toy agree) (config false) = s0 from rfl, hC]
    rfl
  · rw [show boot (toy agree) (config false) = s0 from rfl, hR]
  · rw [show boot (toy agree) (config false) = s0 from rfl, hR]
    show List.range c'.vault.length = []
    rw [hv]
    rfl

end VF.Toy
