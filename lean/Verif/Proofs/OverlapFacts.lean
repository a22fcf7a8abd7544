import Verif.Proofs.OverlapInvariant
import Verif.Proofs.OverlapProcess
import Verif.Proofs.Approval

/-!
# Consequences of the invariant of overlapping requests
-/

namespace VF.Fido.Overlap

open VF.Spec.Client VF.Spec.Vault VF.Spec.Cose VF.Spec.Overlap VF.Spec.Approval VF.Spec.History
  VF.Spec.Ctap Prog

variable {E : Env} {cfg : Client.Config}

/-! ### Schedules without overlap -/

theorem oneAtATime_turns (i n : Nat) (evs : List Event) : ∀ s : Process,
    OneAtATime E cfg (s.run E cfg (List.replicate n (.turn i))) evs →
    OneAtATime E cfg s (List.replicate n (.turn i) ++ evs) := by
  induction n with
  | zero => exact fun s h => h
  | succ n ih =>
    intro s h
    show OneAtATime E cfg (s.step E cfg (.turn i)) (List.replicate n (.turn i) ++ evs)
    exact ih _ h

theorem operations_turns (i n : Nat) (evs : List Event) :
    operations (List.replicate n (.turn i) ++ evs) = operations evs := by
  induction n with
  | zero => rfl
  | succ n ih => exact ih

theorem ended_not_busy (ts : List Thread) : ∀ t ∈ ts.map Thread.ended, busy t = false := by
  intro t ht
  obtain ⟨u, -, rfl⟩ := List.mem_map.1 ht
  cases u <;> rfl

theorem schedule : ∀ (ops : List Op) (s : Process), (∀ t ∈ s.threads, busy t = false) →
    ∃ evs, OneAtATime E cfg s evs ∧ operations evs = ops ∧
      ∀ t ∈ (s.run E cfg evs).threads, busy t = false
  | [], s, h => ⟨[], trivial, rfl, h⟩
  | op :: ops, s, h => by
    by_cases hr : op = .restart
    · subst hr
      have h1 : ∀ t ∈ (s.step E cfg .restart).threads, busy t = false := by
        unfold Process.step
        dsimp only
        split <;> exact ended_not_busy _
      obtain ⟨evs, k1, k2, k3⟩ := schedule ops _ h1
      exact ⟨.restart :: evs, ⟨h, k1⟩, by rw [← k2]; rfl, k3⟩
    · rcases Bool.eq_false_or_eq_true s.alive with ha | ha
      · have e : s.step E cfg (.begin op) =
            ({ s with threads := s.threads ++ [Thread.gone op] } : Process).moved s.threads.length op s.mem
              (perform E op) := if_pos ⟨ha, hr⟩
        obtain ⟨n, hn⟩ := finishes (E := E) (cfg := cfg) op s.threads.length (perform E op)
          { s with threads := s.threads ++ [Thread.gone op] } s.mem ha (by simp)
        rw [← e] at hn
        have h1 : ∀ t ∈ ((s.step E cfg (.begin op)).run E cfg
            (List.replicate n (.turn s.threads.length))).threads, busy t = false := by
          rw [hn]
          split
          · intro t ht
            dsimp only at ht
            rcases List.mem_or_eq_of_mem_set ht with ht | rfl
            · rcases List.mem_append.1 ht with ht | ht
              · exact h t ht
              · rw [List.mem_singleton.1 ht]
                rfl
            · rfl
          · exact ended_not_busy _
        obtain ⟨evs, k1, k2, k3⟩ := schedule ops _ h1
        refine ⟨.begin op :: (List.replicate n (.turn s.threads.length) ++ evs),
          ⟨h, oneAtATime_turns _ _ _ _ k1⟩, ?_, ?_⟩
        · show (if op = .restart then _ else op :: operations _) = _
          rw [if_neg hr, operations_turns, k2]
        · show ∀ t ∈ ((s.step E cfg (.begin op)).run E cfg _).threads, _
          rw [run_append]
          exact k3
      · have e : s.step E cfg (.begin op) = s := if_neg (fun hc => by rw [ha] at hc; cases hc.1)
        obtain ⟨evs, k1, k2, k3⟩ := schedule ops s h
        refine ⟨.begin op :: evs, ⟨h, by rw [e]; exact k1⟩, ?_, ?_⟩
        · show (if op = .restart then _ else op :: operations _) = _
          rw [if_neg hr, k2]
        · show ∀ t ∈ ((s.step E cfg (.begin op)).run E cfg _).threads, _
          rw [e]
          exact k3

/-! ### Approvals -/

theorem present_assertion {b id authData sig : Bytes} {ad : AuthData} (h : IsAssertion b id authData sig)
    (hp : parseAuthData authData = some ad) : present b = ad.userPresent := by
  obtain ⟨b', e, hdec⟩ := h
  rw [e]
  have f1 : ∀ a b c : Cbor, Spec.Store.field 2 (.map [(.int 1, a), (.int 2, b), (.int 3, c)]) = some b := by
    intros; rfl
  simp only [present, hdec, Option.bind_eq_bind, Option.bind_some, Spec.Store.bytesField, f1, hp]

/-- What a result claims was agreed to. -/
theorem faithful_claims {op : Op} {r : Reply} {q : Option Ask} {m : Mem} {a : Action}
    (h : Faithful E op r q m) (hc : claims (op, r) = some a) :
    ∃ ask, q = some ask ∧ ask.action = a ∧ ask.answer = true := by
  unfold claims at hc
  split at hc
  · rename_i data body e
    injection e with e1 e2
    obtain rfl := Option.some.inj hc
    obtain ⟨_, rp, _, _, _, _, _, _, _, _, _, -, -, -, -, -, -, -, -, -, -, -, -, -, -, -, -, -, -, h⟩ :=
      h.created data body e1 e2
    exact ⟨_, h, rfl, rfl⟩
  · rename_i data b e
    injection e with e1 e2
    split at hc
    · rename_i hp
      obtain rfl := Option.some.inj hc
      have hb : ∃ body, b = 0 :: body := by
        unfold present at hp
        split at hp
        · exact ⟨_, rfl⟩
        · cases hp
      obtain ⟨body, rfl⟩ := hb
      obtain ⟨_, s, _, _, _, ad, -, -, -, -, k5, k6, -, -, k9, -⟩ := h.asserted data body e1 e2
      rw [present_assertion k5 k6] at hp
      obtain ⟨rp, user, -, -, hq⟩ := k9 hp
      exact ⟨_, hq, rfl, rfl⟩
    · cases hc
  · rename_i cla tail b e
    injection e with e1 e2
    split at hc
    · rename_i hs
      obtain rfl := Option.some.inj hc
      have hl := h.short _ _ e1 e2
      match tail, hl with
      | p1 :: p2 :: rest, _ =>
        obtain ⟨_, _, -, _, _, _, _, -, -, -, -, -, -, -, -, hq⟩ :=
          h.registered cla p1 p2 rest b e1 e2 (fun hn => by rw [hn] at hs; cases hs)
        exact ⟨_, hq, rfl, rfl⟩
    · cases hc
  · rename_i cla tail b e
    injection e with e1 e2
    split at hc
    · rename_i hs
      obtain rfl := Option.some.inj hc
      have hl := h.short _ _ e1 e2
      match tail, hl with
      | p2 :: rest, _ =>
        obtain ⟨_, _, -, _, _, _, _, _, _, -, -, -, -, hq⟩ :=
          h.authenticated cla 3 p2 rest b e1 e2 (fun hn => by rw [hn] at hs; cases hs)
        rcases hq with ⟨-, hq⟩ | hq
        · exact ⟨_, hq, rfl, rfl⟩
        · cases hq
    · cases hc
  · cases hc

theorem count_matched {α β : Type} {f : α → Bool} {g : β → Bool} : ∀ (ts : List α) (bs : List (Option β)),
    bs.length = ts.length →
    (∀ (i : Nat) t, ts[i]? = some t → f t = true → ∃ b, bs[i]? = some (some b) ∧ g b = true) →
    ts.countP f ≤ (bs.filterMap id).countP g
  | [], _, _, _ => Nat.zero_le _
  | t :: ts, [], hl, _ => by cases hl
  | t :: ts, b :: bs, hl, h => by
    have ih := count_matched ts bs (by simpa using hl) (fun i t hi hf => by
      obtain ⟨b', k1, k2⟩ := h (i + 1) t (by simpa using hi) hf
      exact ⟨b', by simpa using k1, k2⟩)
    rw [List.countP_cons]
    split
    · rename_i hf
      obtain ⟨b', k1, k2⟩ := h 0 t rfl hf
      obtain rfl : b = some b' := by simpa using k1
      simp only [List.filterMap_cons, id, List.countP_cons, k2, if_true]
      omega
    · cases b with
      | none => exact ih
      | some b =>
        simp only [List.filterMap_cons, id, List.countP_cons]
        split <;> omega

theorem length_matched {α β : Type} {f : α → Bool} : ∀ (ts : List α) (bs : List (Option β)),
    bs.length = ts.length →
    (∀ (i : Nat) t, ts[i]? = some t → f t = false → bs[i]? = some none) →
    (bs.filterMap id).length ≤ ts.countP f
  | [], [], _, _ => Nat.le_refl _
  | [], b :: bs, hl, _ => by cases hl
  | t :: ts, [], hl, _ => by cases hl
  | t :: ts, b :: bs, hl, h => by
    have ih := length_matched ts bs (by simpa using hl) (fun i t hi hf => by
      simpa using h (i + 1) t (by simpa using hi) hf)
    rw [List.countP_cons]
    cases hf : f t with
    | false =>
      obtain rfl : b = none := by simpa using h 0 t rfl hf
      exact ih
    | true =>
      cases b with
      | none =>
        have e : ((none :: bs).filterMap id) = bs.filterMap id := rfl
        rw [e]
        omega
      | some b =>
        simp only [List.filterMap_cons, id, List.length_cons, if_true]
        omega

/-! ### What stays while the process runs -/

theorem moved_mem (s : Process) (i : Nat) (op : Op) (mem : Mem) (p : Prog Reply) :
    (s.moved i op mem p).mem = mem := by cases p <;> rfl

theorem rel_step {keep : Bool} {Q : Nat → Op → Option Ask → Reply → Mem → Prop} {H : Nat → Mem → Prop}
    {s : Process} {bs : List (Option Ask)} (h : Inv E cfg keep Q H s bs) {e : Event} (he : e ≠ .restart) :
    Rel false s.mem (s.step E cfg e).mem := by
  cases e with
  | begin op =>
    unfold Process.step
    dsimp only
    split
    · rw [moved_mem]
      exact Rel.refl _ _
    · exact Rel.refl _ _
  | turn i =>
    unfold Process.step
    dsimp only
    split
    · rename_i op upd next hi
      split
      · rw [moved_mem]
        obtain ⟨b, upd', next', -, e, -, hs⟩ := h.working i op _ hi
        injection e with e1 e2
        subst e1 e2
        obtain ⟨q', -, k2, -⟩ := hs s.mem (Rel.refl _ _) h.good
        exact k2.weaken (by simp)
      · exact Rel.refl _ _
    · exact Rel.refl _ _
  | restart => exact absurd rfl he

theorem rel_run (L : Laws E) (hu : Usable E cfg) : ∀ (evs' evs : List Event), (∀ e ∈ evs', e ≠ .restart) →
    Rel false ((boot E cfg).run E cfg evs).mem ((boot E cfg).run E cfg (evs ++ evs')).mem
  | [], evs, _ => by
    rw [List.append_nil]
    exact Rel.refl _ _
  | e :: evs', evs, he => by
    obtain ⟨bs, h⟩ := inv_overlap (E := E) (cfg := cfg) L hu evs
    have h1 := rel_step (E := E) (cfg := cfg) h (he e (List.mem_cons_self ..))
    have h2 := rel_run L hu evs' (evs ++ [e]) (fun x hx => he x (List.mem_cons_of_mem _ hx))
    rw [run_snoc, List.append_assoc] at h2
    exact h1.trans h2

/-! ### The PIN at creation -/

/-- What is known of results of goroutines from the `n0`th. -/
def Gated (E : Env) (n0 : Nat) (m0 : Mem) (data : Bytes) (i : Nat) (_ : Op) (_ : Option Ask) (r : Reply)
    (_ : Mem) : Prop :=
  i = n0 → ∀ body, r = .answer (0 :: body) → Gate E true m0 data

theorem gated_run (L : Laws E) {n0 : Nat} {m0 : Mem} {data : Bytes} :
    ∀ (evs : List Event) (s : Process) (bs : List (Option Ask)),
      (∀ e ∈ evs, e ≠ .begin .disablePIN) → n0 < s.threads.length →
      Inv E cfg true (Gated E n0 m0 data) (fun _ _ => True) s bs →
      ∃ bs', Inv E cfg true (Gated E n0 m0 data) (fun _ _ => True) (s.run E cfg evs) bs'
  | [], s, bs, _, _, h => ⟨bs, h⟩
  | e :: evs, s, bs, he, hn, h => by
    obtain ⟨bs', h'⟩ := h.step (H' := fun _ _ => True) (fun _ _ _ => trivial) e (fun _ _ _ _ _ => trivial) (by
      intro op ho _ _
      have hk : keepsPIN op = true := by
        refine decide_eq_true ?_
        rintro rfl
        exact he e (List.mem_cons_self ..) ho
      refine ⟨fun _ => hk, (perform_safe L op (fun _ => hk) h.good).mono ?_⟩
      intro q r m _ hi
      omega)
    refine gated_run L evs _ bs' (fun x hx => he x (List.mem_cons_of_mem _ hx)) ?_ h'
    -- goroutines are never forgotten
    have hmoved : ∀ (s : Process) i op mem p, (s.moved i op mem p).threads.length = s.threads.length := by
      intro s i op mem p
      cases p <;> simp [Process.moved]
    cases e with
    | begin op =>
      unfold Process.step
      dsimp only
      split
      · rw [hmoved]
        simp
        omega
      · exact hn
    | turn i =>
      unfold Process.step
      dsimp only
      split
      · split
        · rw [hmoved]
          exact hn
        · exact hn
      · exact hn
    | restart =>
      unfold Process.step
      dsimp only
      split <;> simpa using hn

theorem gate_creation (L : Laws E) (hu : Usable E cfg) (evs evs' : List Event) (data : Bytes)
    (body : Bytes) (hpin : ((boot E cfg).run E cfg evs).mem.world.client.pinEnabled = true)
    (hset : ((boot E cfg).run E cfg evs).mem.world.client.pinHash ≠ none)
    (halive : ((boot E cfg).run E cfg evs).alive = true)
    (hold : ∀ p, Thread.working .disablePIN p ∉ ((boot E cfg).run E cfg evs).threads)
    (hnew : ∀ e ∈ evs', e ≠ .begin .disablePIN)
    (hdone : ((boot E cfg).run E cfg (evs ++ .begin (.ctap (1 :: data)) :: evs')).threads[
      ((boot E cfg).run E cfg evs).threads.length]? = some (.ready (.ctap (1 :: data)) (.answer (0 :: body)))) :
    ∃ args, E.decodeMakeCred data = some args ∧
      PinAuthOk E ((boot E cfg).run E cfg evs).mem.world.client args.clientDataHash args.pinAuth
        args.pinProtocol := by
  obtain ⟨bs, h⟩ := inv_overlap (E := E) (cfg := cfg) L hu evs
  rw [run_append] at hdone
  generalize (boot E cfg).run E cfg evs = s at *
  have h1 : Inv E cfg true (Gated E s.threads.length s.mem data) (fun _ _ => True) s bs :=
    { good := h.good, keys := h.keys, length := h.length, asks := h.asks, quiet := h.quiet
      working := by
        intro i op p hi
        obtain ⟨b, upd, next, k1, k2, -, k4⟩ := h.working i op p hi
        refine ⟨b, upd, next, k1, k2, fun _ => ?_, k4.narrow.mono ?_⟩
        · refine decide_eq_true ?_
          rintro rfl
          exact hold p (List.mem_of_getElem? hi)
        · intro q r m _ hj
          have := (List.getElem?_eq_some_iff.1 hi).1
          omega
      ready := by
        intro i op r hi
        obtain ⟨b, m, k1, -⟩ := h.ready i op r hi
        refine ⟨b, m, k1, trivial, ?_⟩
        intro hj
        have := (List.getElem?_eq_some_iff.1 hi).1
        omega }
  obtain ⟨bs', h2⟩ := h1.step (H' := fun _ _ => True) (fun _ _ _ => trivial) (.begin (.ctap (1 :: data)))
    (fun _ _ _ _ _ => trivial) (by
      intro op ho _ _
      injection ho with ho
      subst ho
      refine ⟨fun _ => rfl, (perform_safe L _ (fun _ => rfl) h1.good).mono ?_⟩
      intro q r m hp _ body hr
      exact hp.2 data body rfl hr)
  have hlen : s.threads.length < (s.step E cfg (.begin (.ctap (1 :: data)))).threads.length := by
    rw [show s.step E cfg (.begin (.ctap (1 :: data))) = ({ s with threads := s.threads ++ [Thread.gone _] } :
      Process).moved s.threads.length _ s.mem (perform E (.ctap (1 :: data))) from if_pos ⟨halive, by simp⟩]
    cases perform E (.ctap (1 :: data)) <;> simp [Process.moved]
  obtain ⟨bs'', h3⟩ := gated_run L evs' _ bs' hnew hlen h2
  obtain ⟨b, m, -, -, k⟩ := h3.ready _ _ _ hdone
  exact k rfl body rfl rfl hpin hset

end VF.Fido.Overlap
