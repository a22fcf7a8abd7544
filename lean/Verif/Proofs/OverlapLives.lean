import Verif.Spec.Harmless
import Verif.Proofs.OverlapInvariant
import Verif.Proofs.Progress
import Verif.Proofs.U2fStatus
import Verif.Proofs.Retries

/-!
# Interleaved handlers that do not panic

`Lives` says that a handler, interrupted anywhere by steps that respect `Rel` and keep `Fine`, does not panic and
itself keeps what others need for that.  A counter that is not in the program says how often the PIN retries were
lowered so far.
-/

namespace VF.Fido.Overlap

open VF.Spec.Client VF.Spec.Vault VF.Spec.Cose VF.Spec.Harmless Prog
open VF.Spec.Status (Blocks)

/-- The credentials in memory have both entities, and the retries were lowered by `d` at most. -/
structure Calm (m : Mem) (d : Nat) : Prop where
  whole : ∀ s ∈ m.heap, s.rp ≠ none ∧ s.user ≠ none
  low : 8 - (d : Int) ≤ m.world.client.pinRetries
  high : m.world.client.pinRetries ≤ 8

/-- What holds at all times, for a handler that is yet to lower the retries `b` times. -/
structure Fine (E : Env) (cfg : Client.Config) (b : Nat) (m : Mem) (d : Nat) : Prop where
  good : Good E cfg m
  calm : Calm m d
  attest : CanAttest E m.world.client
  key : aesKeyOk m.world.client.deviceKey = true
  device : m.world.client.deviceKey = cfg.deviceKey
  agreement : ECDHValid E m.world.client.keyAgreement
  token : m.world.client.pinToken.length % 16 = 0
  room : d + b ≤ 7

variable {E : Env} {cfg : Client.Config} {α β : Type}

/-- See the head of the file. -/
def Lives (E : Env) (cfg : Client.Config) (Q : Nat → Nat → α → Mem → Prop) : Nat → Nat → Prog α → Mem → Prop
  | b, d, .ret a, m => Q b d a m
  | _, _, .fail _, _ => False
  | b, d, .act upd next, m => ∀ m' d', Rel false m m' → d ≤ d' → Fine E cfg b m' d' →
      ∃ b', b' ≤ b ∧ Calm (upd m') (d' + (b - b')) ∧
        (Rel false m' (upd m') → Fine E cfg b' (upd m') (d' + (b - b')) →
          Lives E cfg Q b' (d' + (b - b')) (next m') (upd m'))

/-- Others do steps. -/
theorem Lives.later {Q : Nat → Nat → α → Mem → Prop} {b d d' : Nat} {upd : Mem → Mem}
    {next : Mem → Prog α} {m m' : Mem} (hs : Lives E cfg Q b d (.act upd next) m)
    (h : Rel false m m') (hd : d ≤ d') : Lives E cfg Q b d' (.act upd next) m' :=
  fun m'' d'' h1 h2 h3 => hs m'' d'' (h.trans h1) (Nat.le_trans hd h2) h3

theorem Lives.bind {Q : Nat → Nat → α → Mem → Prop} {R : Nat → Nat → β → Mem → Prop} {f : α → Prog β} :
    ∀ {p : Prog α} {b d : Nat} {m : Mem}, Fine E cfg b m d → Lives E cfg Q b d p m →
      (∀ b' d' a m', Rel false m m' → d ≤ d' → Fine E cfg b' m' d' → Q b' d' a m' →
        Lives E cfg R b' d' (f a) m') →
      Lives E cfg R b d (p >>= f) m
  | .ret a, b, d, m, hg, hs, hf => hf b d a m (Rel.refl _ _) (Nat.le_refl _) hg hs
  | .fail _, _, _, _, _, hs, _ => hs.elim
  | .act upd next, b, d, m, hg, hs, hf => by
    intro m' d' h1 h2 h3
    obtain ⟨b', h4, h5, h6⟩ := hs m' d' h1 h2 h3
    refine ⟨b', h4, h5, ?_⟩
    intro k1 k2
    exact Lives.bind k2 (h6 k1 k2) (fun b'' d'' a m'' q1 q2 q3 q4 =>
      hf b'' d'' a m'' (h1.trans (k1.trans q1)) (by omega) q3 q4)

section
variable {b d : Nat} {m : Mem} {R : Nat → Nat → β → Mem → Prop}

theorem Lives.pure {a : β} (h : R b d a m) : Lives E cfg R b d (Pure.pure a) m := h

theorem Lives.lift_bind {r : Res α} {f : α → Prog β} {a : α} (hr : r = .ok a)
    (h : Lives E cfg R b d (f a) m) : Lives E cfg R b d (Prog.lift r >>= f) m := by
  subst hr
  exact h

theorem Lives.look_bind {g : Mem → α} {f : α → Prog β}
    (h : ∀ m' d', Rel false m m' → d ≤ d' → Fine E cfg b m' d' → Lives E cfg R b d' (f (g m')) m') :
    Lives E cfg R b d (look g >>= f) m := by
  intro m' d' h1 h2 h3
  refine ⟨b, Nat.le_refl _, by simpa using h3.calm, ?_⟩
  simp only [Nat.sub_self, Nat.add_zero]
  intro _ _
  exact h m' d' h1 h2 h3

theorem Lives.field_bind {g : Client → α} {f : α → Prog β}
    (h : ∀ m' d', Rel false m m' → d ≤ d' → Fine E cfg b m' d' →
      Lives E cfg R b d' (f (g m'.world.client)) m') :
    Lives E cfg R b d (field g >>= f) m := Lives.look_bind h

theorem Lives.deref_bind {p : Nat} {f : Source → Prog β} (hp : p < m.heap.length)
    (h : ∀ m' d' s, Rel false m m' → d ≤ d' → Fine E cfg b m' d' → m'.heap[p]? = some s →
      Lives E cfg R b d' (f s) m') :
    Lives E cfg R b d (deref p >>= f) m := by
  intro m' d' h1 h2 h3
  refine ⟨b, Nat.le_refl _, by simpa using h3.calm, ?_⟩
  simp only [Nat.sub_self, Nat.add_zero]
  intro _ _
  have hl := h1.length
  have hs : m'.heap[p]? = some (m'.heap[p]'(by omega)) := List.getElem?_eq_getElem (by omega)
  show Lives E cfg R b d' (Prog.bind (match m'.heap[p]? with
    | some s => ret s
    | none => Prog.fail .nilDeref) f) m'
  rw [hs]
  exact h m' d' _ h1 h2 h3 hs

/-- A write that leaves credentials' entities and the retries as they are. -/
theorem Lives.write_bind {g : Mem → Mem} {f : Unit → Prog β}
    (hg : ∀ m' d', Rel false m m' → Calm m' d' → Calm (g m') d')
    (h : ∀ m' d', Rel false m m' → d ≤ d' → Fine E cfg b (g m') d' → Rel false m' (g m') →
      Fine E cfg b m' d' → Lives E cfg R b d' (f ()) (g m')) :
    Lives E cfg R b d (write g >>= f) m := by
  intro m' d' h1 h2 h3
  refine ⟨b, Nat.le_refl _, by simpa using hg m' d' h1 h3.calm, ?_⟩
  simp only [Nat.sub_self, Nat.add_zero]
  intro k1 k2
  exact h m' d' h1 h2 k2 k1 h3

/-! ### Primitives -/

theorem draw_lives {f : Nat → Prog β}
    (h : ∀ n m' d', Rel false m m' → d ≤ d' → Fine E cfg b m' d' → n < m'.world.rnd →
      Lives E cfg R b d' (f n) m') :
    Lives E cfg R b d (draw >>= f) m := by
  intro m' d' h1 h2 h3
  refine ⟨b, Nat.le_refl _, by simpa using ⟨h3.calm.whole, h3.calm.low, h3.calm.high⟩, ?_⟩
  simp only [Nat.sub_self, Nat.add_zero]
  intro k1 k2
  exact h _ _ d' (h1.trans k1) h2 k2 (Nat.lt_succ_self _)

theorem approve_lives {a : Action} {rp user : Bytes} {f : Bool → Prog β}
    (h : ∀ x m' d', Rel false m m' → d ≤ d' → Fine E cfg b m' d' → Lives E cfg R b d' (f x) m') :
    Lives E cfg R b d (approve E a rp user >>= f) m := by
  intro m' d' h1 h2 h3
  refine ⟨b, Nat.le_refl _, by simpa using ⟨h3.calm.whole, h3.calm.low, h3.calm.high⟩, ?_⟩
  simp only [Nat.sub_self, Nat.add_zero]
  intro k1 k2
  exact h _ _ d' (h1.trans k1) h2 k2

theorem setField_lives {g : Client → Client} {f : Unit → Prog β} (hr : ∀ c, (g c).pinRetries = c.pinRetries)
    (h : ∀ m' d', Rel false m m' → d ≤ d' → Fine E cfg b m' d' → Lives E cfg R b d' (f ()) m') :
    Lives E cfg R b d (setField g >>= f) m := by
  refine Lives.write_bind ?_ ?_
  · intro m' d' _ hc
    refine ⟨hc.whole, ?_, ?_⟩
    · show 8 - (d' : Int) ≤ (g m'.world.client).pinRetries
      rw [hr]
      exact hc.low
    · show (g m'.world.client).pinRetries ≤ 8
      rw [hr]
      exact hc.high
  · intro m' d' h1 h2 h3 h4 _
    exact h _ d' (h1.trans h4) h2 h3

/-! ### Saving -/

theorem marshal_ok (L : Laws E) {k : PrivKey} (h1 : Only k) (h2 : KeyValid E k) :
    ∃ key, Cose.marshalPrivate k = .ok key := by
  obtain ⟨b, k', h, -⟩ := Vault.private_round_trip L k h1 h2
  exact ⟨b, h⟩

theorem exportSources_lives (L : Laws E) :
    ∀ (slots : List Nat) (m : Mem) (d : Nat), (∀ p ∈ slots, p < m.heap.length) → Fine E cfg b m d →
    Lives E cfg (fun b' _ saved _ => b' = b ∧ ∃ v, Vault.exportSources v = .ok saved ∧
      ∀ s ∈ v, Complete E s) b d (exportSources slots) m
  | [], m, d, hp, hg => ⟨rfl, [], rfl, fun s hs => by cases hs⟩
  | p :: rest, m, d, hp, hg => by
    refine Lives.deref_bind (hp p (List.mem_cons_self ..)) ?_
    intro m1 d1 s r1 e1 g1 hs
    have hmem := List.mem_of_getElem? hs
    obtain ⟨w1, w2⟩ := g1.calm.whole s hmem
    obtain ⟨hm1, hm2⟩ := g1.good.made s hmem
    have hc := made_complete L hm1 hm2 w1 w2
    obtain ⟨key, hkey⟩ := marshal_ok L hc.1 hc.2.1
    refine Lives.lift_bind hkey ?_
    obtain ⟨rp, hrp⟩ := Option.ne_none_iff_exists'.1 w1
    obtain ⟨user, hu⟩ := Option.ne_none_iff_exists'.1 w2
    rw [hrp, hu]
    dsimp only
    have hl := r1.length
    refine Lives.bind g1 (exportSources_lives L rest m1 d1 (fun x hx => by
      have := hp x (List.mem_cons_of_mem _ hx)
      omega) g1) ?_
    rintro b' d2 tail m2 r2 e2 g2 ⟨rfl, v, hv, hvc⟩
    refine ⟨rfl, s :: v, ?_, ?_⟩
    · simp only [Vault.exportSources, hkey, Res.bind_ok, hrp, hu, hv]
    · intro t ht
      rcases List.mem_cons.1 ht with rfl | ht
      · exact hc
      · exact hvc t ht

theorem saveData_lives (L : Laws E) {f : Unit → Prog β}
    (h : ∀ m' d', Rel false m m' → d ≤ d' → Fine E cfg b m' d' → Lives E cfg R b d' (f ()) m') :
    Lives E cfg R b d (saveData E >>= f) m := by
  unfold saveData exportState
  simp only [Prog.bind_assoc, Prog.pure_bind]
  refine Lives.field_bind ?_
  intro m1 d1 r1 e1 g1
  obtain ⟨key, hkey⟩ := marshal_ok L g1.good.only g1.good.valid
  refine Lives.lift_bind hkey ?_
  refine Lives.look_bind ?_
  intro m2 d2 r2 e2 g2
  refine Lives.bind g2 (exportSources_lives L _ m2 d2 g2.good.slots g2) ?_
  rintro b' d3 saved m3 r3 e3 g3 ⟨rfl, v, hv, hc⟩
  refine Lives.field_bind ?_
  intro m4 d4 r4 e4 g4
  refine Lives.field_bind ?_
  intro m5 d5 r5 e5 g5
  refine Lives.field_bind ?_
  intro m6 d6 r6 e6 g6
  refine Lives.field_bind ?_
  intro m7 d7 r7 e7 g7
  refine Lives.field_bind ?_
  intro m8 d8 r8 e8 g8
  have r18 := r2.trans (r3.trans (r4.trans (r5.trans (r6.trans (r7.trans r8)))))
  let c : Client := { m8.world.client with
    deviceKey := m4.world.client.deviceKey, cert := m5.world.client.cert,
    certKey := m1.world.client.certKey, authCounter := m6.world.client.authCounter,
    pinEnabled := m7.world.client.pinEnabled, vault := v }
  have hh : Healthy E c := ⟨g5.good.cert, g1.good.only, g1.good.valid, g8.good.hash, hc⟩
  intro m9 d9 r9 e9 g9
  obtain ⟨blob, st, hst, he⟩ := healthy_saves L hh m9.world.rnd
  have hst' : Client.exportState c = .ok
      { encryptionKey := m4.world.client.deviceKey, cert := m5.world.client.cert, certKey := key,
        authCounter := m6.world.client.authCounter, pinEnabled := m7.world.client.pinEnabled,
        pinHash := m8.world.client.pinHash, sources := saved } := by
    simp only [Client.exportState, c, hkey, hv, Res.bind_ok]
  rw [hst'] at hst
  obtain rfl := Res.ok.inj hst
  refine ⟨b', Nat.le_refl _, ?_, ?_⟩
  · dsimp only
    rw [he]
    simpa using ⟨g9.calm.whole, g9.calm.low, g9.calm.high⟩
  · dsimp only [Prog.bind]
    rw [he]
    intro k1 k2
    refine Lives.write_bind (g := fun m => { m with world := { m.world with store := some blob } }) ?_ ?_
    · intro m' d' _ hcalm
      exact ⟨hcalm.whole, hcalm.low, hcalm.high⟩
    · intro m10 d10 r10 e10 g10 r11 _
      exact h _ d10 (r1.trans (r18.trans (r9.trans (k1.trans (r10.trans r11))))) (by omega) g10

/-! ### Credentials -/

theorem alloc_lives {s : Source} {f : Nat → Prog β} (h1 : s.rp ≠ none) (h2 : s.user ≠ none)
    (h : ∀ p m' d', Rel false m m' → d ≤ d' → Fine E cfg b m' d' → m'.heap[p]? = some s →
      Lives E cfg R b d' (f p) m') :
    Lives E cfg R b d (alloc s >>= f) m := by
  intro m' d' r1 e1 g1
  refine ⟨b, Nat.le_refl _, ?_, ?_⟩
  · simp only [Nat.sub_self, Nat.add_zero]
    refine ⟨?_, g1.calm.low, g1.calm.high⟩
    intro t ht
    rcases List.mem_append.1 ht with ht | ht
    · exact g1.calm.whole t ht
    · rw [List.mem_singleton.1 ht]
      exact ⟨h1, h2⟩
  · intro k1 k2
    simp only [Nat.sub_self, Nat.add_zero] at k2 ⊢
    refine h _ _ d' (r1.trans k1) e1 k2 ?_
    show (m'.heap ++ [s])[m'.heap.length]? = some s
    simp

theorem addIdentity_lives {p : Nat} {f : Unit → Prog β}
    (h : ∀ m' d', Rel false m m' → d ≤ d' → Fine E cfg b m' d' → Lives E cfg R b d' (f ()) m') :
    Lives E cfg R b d (addIdentity p >>= f) m := by
  unfold addIdentity
  rw [Prog.bind_assoc]
  refine Lives.look_bind ?_
  intro m1 d1 r1 e1 g1
  refine Lives.write_bind ?_ ?_
  · intro m' d' _ hc
    exact ⟨hc.whole, hc.low, hc.high⟩
  · intro m2 d2 r2 e2 g2 r3 _
    exact h _ d2 (r1.trans (r2.trans r3)) (by omega) g2

theorem newCredentialSource_lives (L : Laws E) {args : MakeCredArgs} (h1 : args.rp ≠ none)
    (h2 : args.user ≠ none) {f : Option Nat → Prog β} (h0 : Lives E cfg R b d (f none) m)
    (h : ∀ p m' d', Rel false m m' → d ≤ d' → Fine E cfg b m' d' → p < m'.heap.length →
      Lives E cfg R b d' (f (some p)) m') :
    Lives E cfg R b d (newCredentialSource E args.params args.excludeList args.rp args.user >>= f) m := by
  unfold newCredentialSource
  split
  · exact h0
  · simp only [Prog.bind_assoc, Prog.pure_bind]
    refine draw_lives ?_
    intro i m1 d1 r1 e1 g1 hi
    refine draw_lives ?_
    intro j m2 d2 r2 e2 g2 hj
    refine alloc_lives h1 h2 ?_
    intro p m3 d3 r3 e3 g3 hp
    refine addIdentity_lives ?_
    intro m4 d4 r4 e4 g4
    refine saveData_lives L ?_
    intro m5 d5 r5 e5 g5
    have l1 := (List.getElem?_eq_some_iff.1 hp).1
    have l2 := (r4.trans r5).length
    exact h p m5 d5 (r1.trans (r2.trans (r3.trans (r4.trans r5)))) (by omega) g5 (by omega)

theorem getMatching_lives (rpId : Bytes) (allowList : Option (List Descriptor)) :
    ∀ (slots : List Nat) (m : Mem) (d : Nat), (∀ p ∈ slots, p < m.heap.length) → Fine E cfg b m d →
    Lives E cfg (fun b' _ ps m' => b' = b ∧ ∀ p ∈ ps, p < m'.heap.length) b d
      (getMatching rpId allowList slots) m
  | [], m, d, hp, hg => ⟨rfl, fun p hp => by cases hp⟩
  | p :: rest, m, d, hp, hg => by
    refine Lives.deref_bind (hp p (List.mem_cons_self ..)) ?_
    intro m1 d1 s r1 e1 g1 hs
    obtain ⟨w1, -⟩ := g1.calm.whole s (List.mem_of_getElem? hs)
    obtain ⟨rp, hrp⟩ := Option.ne_none_iff_exists'.1 w1
    rw [hrp]
    dsimp only
    have hl := r1.length
    refine Lives.bind g1 (getMatching_lives rpId allowList rest m1 d1 (fun x hx => by
      have := hp x (List.mem_cons_of_mem _ hx)
      omega) g1) ?_
    rintro b' d2 ps m2 r2 e2 g2 ⟨rfl, hps⟩
    split
    · refine ⟨rfl, ?_⟩
      intro p' hp'
      rcases List.mem_cons.1 hp' with rfl | hp'
      · have l1 := (List.getElem?_eq_some_iff.1 hs).1
        have l2 := r2.length
        omega
      · exact hps p' hp'
    · exact ⟨rfl, hps⟩

theorem bump_lives {p : Nat} {f : Unit → Prog β} (hp : p < m.heap.length)
    (h : ∀ m' d', Rel false m m' → d ≤ d' → Fine E cfg b m' d' → Lives E cfg R b d' (f ()) m') :
    Lives E cfg R b d (bump p >>= f) m := by
  unfold bump
  rw [Prog.bind_assoc]
  refine Lives.deref_bind hp ?_
  intro m1 d1 s r1 e1 g1 hs
  refine Lives.write_bind ?_ ?_
  · intro m' d' _ hc
    refine ⟨?_, hc.low, hc.high⟩
    intro t ht
    obtain ⟨x, hx⟩ := List.mem_iff_getElem?.1 ht
    rw [List.getElem?_modify] at hx
    cases hu : m'.heap[x]? with
    | none => rw [hu] at hx; cases hx
    | some u =>
      rw [hu] at hx
      have hw := hc.whole u (List.mem_of_getElem? hu)
      by_cases hpx : p = x
      · obtain rfl : { u with counter := s.counter + 1 } = t := by simpa [hpx] using hx
        exact hw
      · obtain rfl : u = t := by simpa [hpx] using hx
        exact hw
  · intro m2 d2 r2 e2 g2 r3 _
    exact h _ d2 (r1.trans (r2.trans r3)) (by omega) g2

theorem getAssertionSource_lives (L : Laws E) {rpId : Bytes} {allowList : Option (List Descriptor)}
    {f : Option Nat → Prog β}
    (h0 : ∀ m' d', Rel false m m' → d ≤ d' → Fine E cfg b m' d' → Lives E cfg R b d' (f none) m')
    (h : ∀ p m' d', Rel false m m' → d ≤ d' → Fine E cfg b m' d' → p < m'.heap.length →
      Lives E cfg R b d' (f (some p)) m') :
    Lives E cfg R b d (getAssertionSource E rpId allowList >>= f) m := by
  unfold getAssertionSource
  rw [Prog.bind_assoc]
  refine Lives.look_bind ?_
  intro m1 d1 r1 e1 g1
  rw [Prog.bind_assoc]
  refine Lives.bind g1 (getMatching_lives rpId allowList _ m1 d1 g1.good.slots g1) ?_
  rintro b' d2 ps m2 r2 e2 g2 ⟨rfl, hps⟩
  cases ps with
  | nil => exact h0 m2 d2 (r1.trans r2) (by omega) g2
  | cons p rest =>
    dsimp only
    simp only [Prog.bind_assoc, Prog.pure_bind]
    have hp := hps p (List.mem_cons_self ..)
    refine bump_lives hp ?_
    intro m3 d3 r3 e3 g3
    refine saveData_lives L ?_
    intro m4 d4 r4 e4 g4
    have := (r3.trans r4).length
    exact h p m4 d4 (r1.trans (r2.trans (r3.trans r4))) (by omega) g4 (by omega)

theorem findIdentity_lives (id : Bytes) :
    ∀ (slots : List Nat) (m : Mem) (d : Nat), (∀ p ∈ slots, p < m.heap.length) → Fine E cfg b m d →
    Lives E cfg (fun b' _ _ _ => b' = b) b d (findIdentity id slots) m
  | [], m, d, hp, hg => rfl
  | p :: rest, m, d, hp, hg => by
    refine Lives.deref_bind (hp p (List.mem_cons_self ..)) ?_
    intro m1 d1 s r1 e1 g1 hs
    have hl := r1.length
    split
    · exact Lives.pure rfl
    · refine Lives.bind g1 (findIdentity_lives id rest m1 d1 (fun x hx => by
        have := hp x (List.mem_cons_of_mem _ hx)
        omega) g1) ?_
      rintro b' d2 i m2 r2 e2 g2 rfl
      exact Lives.pure rfl

theorem deleteIdentity_lives (L : Laws E) {id : Bytes} {f : Bool → Prog β}
    (h : ∀ x m' d', Rel false m m' → d ≤ d' → Fine E cfg b m' d' → Lives E cfg R b d' (f x) m') :
    Lives E cfg R b d (deleteIdentity E id >>= f) m := by
  unfold deleteIdentity
  rw [Prog.bind_assoc]
  refine Lives.look_bind ?_
  intro m1 d1 r1 e1 g1
  rw [Prog.bind_assoc]
  refine Lives.bind g1 (findIdentity_lives id _ m1 d1 g1.good.slots g1) ?_
  rintro b' d2 found m2 r2 e2 g2 rfl
  cases found with
  | none => exact h false m2 d2 (r1.trans r2) (by omega) g2
  | some i =>
    cases hl : m1.slots.getLast? with
    | none => exact h false m2 d2 (r1.trans r2) (by omega) g2
    | some last =>
      dsimp only
      simp only [Prog.bind_assoc, Prog.pure_bind]
      refine Lives.write_bind ?_ ?_
      · intro m' d' _ hc
        exact ⟨hc.whole, hc.low, hc.high⟩
      intro m3 d3 r3 e3 g3 r4 _
      refine saveData_lives L ?_
      intro m5 d5 r5 e5 g5
      exact h true m5 d5 (r1.trans (r2.trans (r3.trans (r4.trans r5)))) (by omega) g5

/-! ### Signing -/

theorem createCertificate_lives (L : Laws E) {i : Nat} {f : Bytes → Prog β}
    (h : ∀ cert m' d', Rel false m m' → d ≤ d' → Fine E cfg b m' d' → Lives E cfg R b d' (f cert) m') :
    Lives E cfg R b d (createCertificate E { ecdsa := some (E.genEC i) } >>= f) m := by
  unfold createCertificate
  simp only [Prog.bind_assoc]
  refine draw_lives ?_
  intro n m1 d1 r1 e1 g1 _
  refine Lives.field_bind ?_
  intro m2 d2 r2 e2 g2
  refine Lives.field_bind ?_
  intro m3 d3 r3 e3 g3
  obtain ⟨issuer, hk, hv, hs⟩ := g3.attest
  obtain ⟨cert, hc⟩ := L.createCert_ok m2.world.client.cert (E.genEC i) issuer n g2.good.cert (L.genEC_valid i) hv
    (by rw [← r3.cert]; exact hs)
  have hcert : Cose.createAttestationCert E m2.world.client.cert m3.world.client.certKey
      { ecdsa := some (E.genEC i) } n = .ok (some cert) := by
    have hp := (L.createCert_sound _ _ _ _ _ _ hc).1
    simp only [Cose.createAttestationCert, Cose.publicOf, Cose.extractPublicKey, hk,
      Cose.extractPrivateKey, Res.bind_ok, hc]
    exact if_pos hp
  refine Lives.lift_bind hcert ?_
  exact h cert m3 d3 (r1.trans (r2.trans r3)) (by omega) g3

theorem signWith_lives (L : Laws E) {k : PrivKey} (hk : KeyValid E k) {data : Bytes} {f : Bytes → Prog β}
    (h : ∀ sig m' d', Rel false m m' → d ≤ d' → Fine E cfg b m' d' → Lives E cfg R b d' (f sig) m') :
    Lives E cfg R b d (signWith E k data >>= f) m := by
  unfold signWith
  rw [Prog.bind_assoc]
  refine draw_lives ?_
  intro n m1 d1 r1 e1 g1 _
  obtain ⟨sig, hs⟩ := Ctap.sign_succeeds L hk data n
  refine Lives.lift_bind hs ?_
  exact h sig m1 d1 r1 e1 g1

end

end VF.Fido.Overlap
