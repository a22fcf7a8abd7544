import Verif.Proofs.OverlapRaces
import Verif.Proofs.OverlapPin
import Verif.Proofs.Counters
import Verif.Proofs.CtapSpec
import Verif.Proofs.Progress

/-!
# Two logins that read the counter before either writes it
-/

namespace VF.Fido

theorem Prog.run_steps {α : Type} : ∀ (n : Nat) (p : Prog α) (m : Mem), p.run m = (p.steps n m).1.run (p.steps n m).2
  | 0, _, _ => rfl
  | n + 1, .ret _, _ => rfl
  | n + 1, .fail _, _ => rfl
  | n + 1, .act upd next, m => run_steps n (next m) (upd m)

theorem Prog.Traced.run {α : Type} {F : Mem → Mem → Prop} {Q : α → Prop} (hrefl : ∀ m, F m m)
    (htrans : ∀ a b c, F a b → F b c → F a c) {p : Prog α}
    (h : Prog.Traced (fun _ => True) (fun _ => False) F Q p) (m : Mem) : F m (p.run m).2 := by
  induction p generalizing m with
  | ret a => exact hrefl m
  | fail c => exact hrefl m
  | act upd next ih =>
    rcases h m trivial with h | ⟨h1, h2⟩
    · exact absurd h id
    · exact htrans _ _ _ h1 (ih m h2 (upd m))

namespace Overlap

open Prog VF.Spec.Client VF.Spec.Overlap VF.Spec.Vault

variable {E : Env} {cfg : Client.Config}

/-- A login after it wrote the counter. -/
def afterBump (E : Env) (args : GetAssertionArgs) (p : Nat) : Prog Reply :=
  ((saveData E >>= fun _ => pure (some p)) >>= fun source : Option Nat =>
    match source with
    | none => pure [Ctap.errNoCredentials]
    | some p =>
      if args.up = some false then finishAssertion E args p 0
      else do
        let approved ← approveAccountLogin E p
        if approved = false then pure [Ctap.errOperationDenied]
        else finishAssertion E args p (0 ||| Ctap.flagUP)) >>= fun b => pure (.answer b)

/-- A login up to having read the counter. -/
theorem get_steps {data : Bytes} {args : GetAssertionArgs} {m : Mem} {p : Nat} {s : Source} {rp : RPEntity}
    (hoff : m.world.client.pinEnabled = false) (hd : E.decodeGetAssertion data = some args)
    (hslots : m.slots = [p]) (hp : m.heap[p]? = some s) (hrp : s.rp = some rp) (hid : rp.id = args.rpId)
    (hall : args.allowList = none) :
    (perform E (.ctap (2 :: data))).steps 4 m =
      (.act (fun m' => { m' with heap := m'.heap.modify p (fun t => { t with counter := s.counter + 1 }) })
        (fun _ => afterBump E args p), m) := by
  have h2 : handleCtap E (2 :: data) = handleGetAssertion E data := rfl
  unfold perform
  dsimp only
  rw [h2]
  unfold handleGetAssertion getAssertionPIN getAssertionSource bump
  rw [hd]
  simp [Prog.steps, field, look, write, Prog.act_bind, hoff, hslots, getMatching, deref, hp, hrp, hid, hall,
    Vault.allowed]
  rfl

theorem single_slot {m : Mem} {s : Source} (hm : Sound m) (h : (view m).client.vault = [s]) :
    ∃ p, m.slots = [p] ∧ m.heap[p]? = some s := by
  have h : m.slots.filterMap (m.heap[·]?) = [s] := h
  cases hs : m.slots with
  | nil => rw [hs] at h; cases h
  | cons p rest =>
    rw [hs] at h
    have hp := List.getElem?_eq_getElem (hm.2 p (by rw [hs]; simp))
    rw [List.filterMap_cons, hp] at h
    injection h with h1 h2
    cases rest with
    | nil => exact ⟨p, rfl, by rw [hp, h1]⟩
    | cons q rest =>
      have hq := List.getElem?_eq_getElem (hm.2 q (by rw [hs]; simp))
      rw [List.filterMap_cons, hq] at h2
      cases h2

end Overlap
end VF.Fido

namespace VF.Toy

open VF.Fido VF.Fido.Overlap VF.Spec.Client VF.Spec.History VF.Spec.Ctap VF.Spec.Overlap VF.Spec.Vault

def getOp : Op := .ctap (0x02 :: getData none none none)

theorem get_acts : ∃ upd next, perform (toy agree) getOp = .act upd next := by
  have hd := get_decodes agree none none none (.inl rfl) (by simp)
  unfold getOp perform handleCtap
  dsimp only
  rw [if_neg (by decide), if_neg (by decide), if_pos rfl]
  unfold handleGetAssertion
  rw [hd]
  exact ⟨_, _, rfl⟩

theorem get_again {w : World} {s : Source} {n : Nat} {c : UInt32} (h : Ready w) (hv : w.client.vault = [s])
    (hs : s = { Vault.newIdentity (toy agree) (some rp) (some user) n with counter := c }) :
    ∃ body w' authData sig ad, Device.perform (toy agree) getOp w = (.ok (.answer (0 :: body)), w') ∧ Ready w' ∧
      w'.client = { w.client with vault := [Ctap.bumped s] } ∧ w'.rnd = w.rnd + 5 ∧
      IsAssertion (0 :: body) s.id authData sig ∧ parseAuthData authData = some ad ∧ ad.counter = (c + 1).toNat := by
  obtain ⟨h1, h2, h3⟩ := h
  have L := toy_laws agree
  have hd := get_decodes agree none none none (.inl rfl) (by simp)
  have hvm : ∀ x ∈ w.client.vault, x = s := by
    rw [hv]
    intro x hx
    exact List.mem_singleton.1 hx
  obtain ⟨b, w', i, s', a, g, ad, blob, m, n', k1, k2, k3, k4, k5, k6, k7, k8, k9, k10, k11, k12⟩ :=
    Device.got L (w := w) h1 hd (flags := 0) (by simp [Ctap.getAssertionPIN, h3])
      ⟨s, by rw [hv]; simp, ⟨rp, by rw [hs]; rfl, rfl⟩, by intro l hl; cases hl⟩ (.inr (fun _ _ => rfl))
      (by
        intro x hx
        rw [hvm x hx, hs]
        exact ⟨by show ((toy agree).rand _ 16).length ≤ _; rw [L.rand_length]; omega, rfl⟩)
  obtain ⟨args', i', s'', rp', user', flags', blob', n'', authData, sig, ad', q1, q2, -, -, -, q6, -, -, -, -, q11, q12, -, -, -, -,
    q17, -⟩ := Ctap.assertion_spec L k1 k2
  have hi : w.client.vault[i']? = some s'' := q2.1
  obtain ⟨hi', rfl⟩ : i' = 0 ∧ s'' = s := by
    rw [hv] at hi
    have := (List.getElem?_eq_some_iff.1 hi).1
    simp at this
    subst this
    exact ⟨rfl, (Option.some.inj hi).symm⟩
  have hw : w'.client = { w.client with vault := [Ctap.bumped s''] } := by
    rw [q6, hv, hi']
    rfl
  refine ⟨b, w', authData, sig, ad', ?_, ⟨k9, ?_, ?_⟩, hw, k12, q11, q12, ?_⟩
  · show Device.perform _ (.ctap _) w = _
    rw [Device.perform_ctap', k1]
    rfl
  · rw [hw]
    exact h2
  · rw [hw]
    exact h3
  · rw [q17, hs]

theorem get_perform {w : World} {s : Source} {n : Nat} (h : Ready w) (hv : w.client.vault = [s])
    (hs : s = Vault.newIdentity (toy agree) (some rp) (some user) n) :
    ∃ body w' authData sig ad, Device.perform (toy agree) getOp w = (.ok (.answer (0 :: body)), w') ∧
      w'.client = { w.client with vault := [Ctap.bumped s] } ∧ w'.rnd = w.rnd + 5 ∧
      IsAssertion (0 :: body) s.id authData sig ∧ parseAuthData authData = some ad ∧ ad.counter = 1 := by
  obtain ⟨body, w', a, g, ad, h1, -, h2⟩ := get_again (c := 0) h hv hs
  exact ⟨body, w', a, g, ad, h1, h2⟩

/-- A credential is made; two logins begin; the first reads the counter, the second is done completely, then
the first goes on. -/
theorem same_counter : ∃ evs b0 b1 b2 id a1 a2 g1 g2 ad1 ad2, Laws (toy agree) ∧ Usable (toy agree) (config false) ∧
    .restart ∉ evs ∧
    ((boot (toy agree) (config false)).run (toy agree) (config false) evs).threads =
      [.ready makeOp (.answer (0 :: b0)), .ready getOp (.answer (0 :: b1)), .ready getOp (.answer (0 :: b2))] ∧
    ((boot (toy agree) (config false)).run (toy agree) (config false) evs).alive = true ∧
    DistinctDraws (toy agree) ((boot (toy agree) (config false)).run (toy agree) (config false) evs).mem.world.rnd ∧
    IsAssertion (0 :: b1) id a1 g1 ∧ parseAuthData a1 = some ad1 ∧
    IsAssertion (0 :: b2) id a2 g2 ∧ parseAuthData a2 = some ad2 ∧ ad1.counter = ad2.counter := by
  let s0 := boot (toy agree) (config false)
  let s1 : Process := { s0 with threads := [.working makeOp (perform (toy agree) makeOp)] }
  have e1 : s0.step (toy agree) (config false) (.begin makeOp) = s1 :=
    begin_working rfl (by simp [makeOp]) make_acts
  obtain ⟨b0, w1, h1, hr1, hv1, hn1, hn1'⟩ := make_perform boot_ready
  obtain ⟨m1, k1, rfl, hm1⟩ := perform_run (sound_load _) h1
  obtain ⟨n1, t1⟩ := complete (E := toy agree) (cfg := config false) (s := s1) (i := 0)
    (op := makeOp) rfl rfl make_acts k1
  let s2 : Process := { mem := m1, threads := [.ready makeOp (.answer (0 :: b0))], alive := true }
  have e2 : s1.run (toy agree) (config false) (List.replicate n1 (.turn 0)) = s2 := t1
  have hv1 : (view m1).client.vault = [Vault.newIdentity (toy agree) (some rp) (some user)
      (view s0.mem).rnd] := hv1
  generalize hid : Vault.newIdentity (toy agree) (some rp) (some user) (view s0.mem).rnd = s at hv1
  have hs : s.counter = 0 ∧ s.rp = some rp := by rw [← hid]; exact ⟨rfl, rfl⟩
  obtain ⟨p, hp1, hp2⟩ := single_slot hm1 hv1
  have hd := get_decodes agree none none none (.inl rfl) (by simp)
  -- the first login
  let s3 : Process := { s2 with threads := [.ready makeOp (.answer (0 :: b0)),
    .working getOp (perform (toy agree) getOp)] }
  have e3 : s2.step (toy agree) (config false) (.begin getOp) = s3 :=
    begin_working (s := s2) rfl (by simp [getOp]) get_acts
  let pA : Prog Reply := .act (fun m' => { m' with heap := m'.heap.modify p (fun t => { t with counter := s.counter + 1 }) })
        (fun _ => afterBump (toy agree) (getArgs none none none) p)
  have hst : (perform (toy agree) getOp).steps 4 m1 = (pA, m1) :=
    get_steps hr1.2.2 hd hp1 hp2 hs.2 rfl rfl
  let s4 : Process := { s2 with threads := [.ready makeOp (.answer (0 :: b0)), .working getOp pA] }
  have e4 : s3.run (toy agree) (config false) (List.replicate 4 (.turn 1)) = s4 :=
    partway getOp 1 4 (perform (toy agree) getOp) s3 m1 rfl rfl hst
  -- the second login
  let s5 : Process := { s2 with threads := [.ready makeOp (.answer (0 :: b0)), .working getOp pA,
    .working getOp (perform (toy agree) getOp)] }
  have e5 : s4.step (toy agree) (config false) (.begin getOp) = s5 :=
    begin_working (s := s4) rfl (by simp [getOp]) get_acts
  obtain ⟨b2, w2, a2, g2, ad2, h2, hc2, hn2, ha2, hq2, hx2⟩ := get_perform hr1 hv1 hid.symm
  obtain ⟨m2, k2, rfl, hm2⟩ := perform_run hm1 h2
  obtain ⟨n2, t2⟩ := complete (E := toy agree) (cfg := config false) (s := s5) (i := 2)
    (op := getOp) rfl rfl get_acts k2
  let s6 : Process := { mem := m2, threads := [.ready makeOp (.answer (0 :: b0)), .working getOp pA,
    .ready getOp (.answer (0 :: b2))], alive := true }
  have e6 : s5.run (toy agree) (config false) (List.replicate n2 (.turn 2)) = s6 := t2
  -- the first goes on
  have hslots : m2.slots = [p] := by
    have := Prog.Traced.run (F := fun m m' => m'.slots = m.slots) (fun _ => rfl) (fun _ _ _ h h' => h'.trans h)
      (Prog.Traced.mono (perform_traced (E := toy agree) (R := fun _ => True) (K := fun _ => False) getOp) (fun _ => id)
        (fun _ _ h => h.credentials rfl) (fun _ => id)) m1
    rw [k2] at this
    rw [← hp1]
    exact this
  have hheap : m2.heap[p]? = some (Ctap.bumped s) := by
    have hv2 : (view m2).client.vault = [Ctap.bumped s] := by rw [hc2]
    obtain ⟨q, hq, hq'⟩ := single_slot hm2 hv2
    rw [hslots] at hq
    obtain rfl : p = q := by simpa using hq
    exact hq'
  let m2' : Mem := { m2 with heap := m2.heap.modify p (fun t => { t with counter := s.counter }) }
  have hheap' : m2'.heap[p]? = some s := by
    show (m2.heap.modify p _)[p]? = _
    rw [List.getElem?_modify, hheap]
    simp [Ctap.bumped]
  have hvA : (view m2').client = (view m1).client := by
    have : view m2' = { (view m2) with client := { (view m2).client with vault := [s] } } := by
      show ({ m2.world with client := { m2.world.client with vault := contents m2'.heap m2.slots } } : World) = _
      have : contents m2'.heap m2.slots = [s] := by
        unfold contents
        rw [hslots]
        simp [hheap']
      rw [this]
      rfl
    rw [this]
    show ({ (view m2).client with vault := [s] } : Client) = _
    rw [hc2, ← hv1]
  have hrA : Ready (view m2') := by
    unfold Ready
    rw [hvA]
    exact hr1
  obtain ⟨b1, w3, a1, g1, ad1, h3, hc3, hn3, ha1, hq1, hx1⟩ := get_perform (w := view m2') hrA (by rw [hvA]; exact hv1) hid.symm
  have hm2' : Sound m2' := ⟨hm2.1, fun q hq => by
    show q < (m2.heap.modify p _).length
    rw [List.length_modify]
    exact hm2.2 q hq⟩
  obtain ⟨m3, k3, rfl, hm3⟩ := perform_run hm2' h3
  have hrunA : pA.run m2 = (.ok (.answer (0 :: b1)), m3) := by
    have hst' : (perform (toy agree) getOp).steps 4 m2' = (pA, m2') :=
      get_steps (by
        have := hrA.2.2
        exact this) hd hslots hheap' hs.2 rfl rfl
    rw [Prog.run_steps 4, hst'] at k3
    rw [← k3]
    show (afterBump (toy agree) (getArgs none none none) p).run
        { m2 with heap := m2.heap.modify p (fun t => { t with counter := s.counter + 1 }) } =
      (afterBump (toy agree) (getArgs none none none) p).run
        { m2 with heap := (m2.heap.modify p (fun t => { t with counter := s.counter })).modify p (fun t => { t with counter := s.counter + 1 }) }
    rw [List.modify_modify_eq]
    rfl
  obtain ⟨n3, t3⟩ := complete (E := toy agree) (cfg := config false) (s := s6) (i := 1)
    (op := getOp) (p := pA) rfl rfl ⟨_, _, rfl⟩ hrunA
  let s7 : Process := { mem := m3, threads := [.ready makeOp (.answer (0 :: b0)), .ready getOp (.answer (0 :: b1)),
    .ready getOp (.answer (0 :: b2))], alive := true }
  have e7 : s6.run (toy agree) (config false) (List.replicate n3 (.turn 1)) = s7 := t3
  let evs : List Event := .begin makeOp :: (List.replicate n1 (.turn 0) ++ (.begin getOp ::
    (List.replicate 4 (.turn 1) ++ (.begin getOp :: (List.replicate n2 (.turn 2) ++ List.replicate n3 (.turn 1))))))
  have hev : s0.run (toy agree) (config false) evs = s7 := by
    rw [run_begin, e1, run_append, e2, run_begin, e3, run_append, e4, run_begin, e5, run_append, e6, e7]
  refine ⟨evs, b0, b1, b2, s.id, a1, a2, g1, g2, ad1, ad2, toy_laws agree, config_usable agree false, ?_, ?_, ?_, ?_,
    ha1, hq1, ha2, hq2, by rw [hx1, hx2]⟩
  · intro h
    simp [evs, List.mem_replicate] at h
  · rw [show boot (toy agree) (config false) = s0 from rfl, hev]
  · rw [show boot (toy agree) (config false) = s0 from rfl, hev]
  · rw [show boot (toy agree) (config false) = s0 from rfl, hev]
    refine toy_draws agree ?_
    have q1 : (view m3).rnd = (view m2').rnd + 5 := hn3
    have q2 : (view m2').rnd = (view m2).rnd := rfl
    have q3 : (view m2).rnd = (view m1).rnd + 5 := hn2
    have q4 : (view m1).rnd ≤ (view s0.mem).rnd + 8 := hn1'
    have q5 : (view s0.mem).rnd = 2 := rfl
    show (view m3).rnd ≤ 256
    omega

end VF.Toy
