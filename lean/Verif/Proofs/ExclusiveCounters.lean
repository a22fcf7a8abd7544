import Verif.Proofs.Exclusive
import Verif.Proofs.CtapSpec

/-!
# Signature counters when GetAssertion requests come one at a time
-/

namespace VF.Fido.Overlap

open Prog VF.Spec.Overlap VF.Spec.History VF.Spec.Ctap VF.Spec.Client

variable {E : Env} {cfg : Client.Config}

/-- The counter of a credential; 0 for one not made yet. -/
def counterAt (m : Mem) (p : Nat) : UInt32 := ((m.heap[p]?).map (·.counter)).getD 0

/-- Counters are as before. -/
structure CountersKept (m m' : Mem) : Prop where
  same : ∀ (p : Nat) s, m.heap[p]? = some s → m'.heap[p]? = some s
  fresh : ∀ (p : Nat) s, m.heap.length ≤ p → m'.heap[p]? = some s → s.counter = 0

/-- Credentials are as before, other than counters. -/
def Ext (m m' : Mem) : Prop := ∀ (p : Nat) s, m.heap[p]? = some s → ∃ n, m'.heap[p]? = some { s with counter := n }

theorem Ext.refl (m : Mem) : Ext m m := fun _ s h => ⟨s.counter, h⟩

theorem Ext.trans {a b c : Mem} (h : Ext a b) (k : Ext b c) : Ext a c := by
  intro p s hs
  obtain ⟨n, hn⟩ := h p s hs
  obtain ⟨n', hn'⟩ := k p _ hn
  exact ⟨n', hn'⟩

theorem CountersKept.ext {m m' : Mem} (h : CountersKept m m') : Ext m m' := fun p s hs => ⟨s.counter, h.same p s hs⟩

theorem CountersKept.refl (m : Mem) : CountersKept m m :=
  ⟨fun _ _ h => h, fun p s h1 h2 => by
    have := (List.getElem?_eq_some_iff.1 h2).1
    omega⟩

theorem CountersKept.trans {a b c : Mem} (h : CountersKept a b) (k : CountersKept b c) : CountersKept a c := by
  refine ⟨fun p s hs => k.same p s (h.same p s hs), fun p s h1 h2 => ?_⟩
  by_cases hp : p < b.heap.length
  · have h3 := k.same p _ (List.getElem?_eq_getElem hp)
    rw [h2] at h3
    obtain rfl := Option.some.inj h3
    exact h.fresh p _ h1 (List.getElem?_eq_getElem hp)
  · exact k.fresh p s (by omega) h2

theorem CountersKept.of_keeps {t : Touches} {m m' : Mem} (ht : t.counters = false) (h : Keeps t m m') :
    CountersKept m m' := ⟨h.counters ht, h.fresh ht⟩

theorem counterAt_kept {m m' : Mem} (h : CountersKept m m') (p : Nat) : counterAt m' p = counterAt m p := by
  unfold counterAt
  cases hp : m.heap[p]? with
  | some s => rw [h.same p s hp]
  | none =>
    cases hp' : m'.heap[p]? with
    | none => rfl
    | some s => simpa using h.fresh p s (List.getElem?_eq_none_iff.1 hp) hp'

theorem counterAt_some {m : Mem} {p : Nat} {s : Source} (h : m.heap[p]? = some s) : counterAt m p = s.counter := by
  unfold counterAt
  rw [h]
  rfl

/-- Nothing has been counted since `m0`. -/
def Before (m0 m : Mem) : Prop := (∀ q, counterAt m q = counterAt m0 q) ∧ Ext m0 m

/-- One has been counted since `m0`, at `p`. -/
def After (m0 : Mem) (p : Nat) (m : Mem) : Prop :=
  (∀ q, counterAt m q = counterAt m0 q + if q = p then 1 else 0) ∧ Ext m0 m ∧ ∃ s, m.heap[p]? = some s

theorem Before.kept {m0 m m' : Mem} (h : Before m0 m) (k : CountersKept m m') : Before m0 m' :=
  ⟨fun q => (counterAt_kept k q).trans (h.1 q), h.2.trans k.ext⟩

theorem After.kept {m0 m m' : Mem} {p : Nat} (h : After m0 p m) (k : CountersKept m m') : After m0 p m' := by
  obtain ⟨h1, h2, s, hs⟩ := h
  exact ⟨fun q => (counterAt_kept k q).trans (h1 q), h2.trans k.ext, s, k.same p s hs⟩

/-- What a GetAssertion request has done when it is answered. -/
def Counted (m0 : Mem) (r : Bytes) (m : Mem) : Prop :=
  (Before m0 m ∧ ∀ body, r ≠ 0 :: body) ∨
  ∃ p, After m0 p m ∧ r ≠ [0x12] ∧ ∀ body id a g ad, r = 0 :: body → IsAssertion r id a g → parseAuthData a = some ad →
    (∃ s, m.heap[p]? = some s ∧ s.id = id) ∧ ad.counter = (counterAt m p).toNat

section
variable {G : Mem → Prop} {m0 m : Mem}

/-- Steps that leave counters alone. -/
theorem before_runs {α : Type} {Q : α → Prop} {t : Touches} (ht : t.counters = false) {p : Prog α}
    (h : Traced (fun _ => True) (fun _ => False) (Keeps t) Q p) (hG : ∀ m, Ext m0 m → G m) (hm : Before m0 m) :
    Runs (Good E cfg) CountersKept G (fun a m => Q a ∧ Before m0 m) p m :=
  Runs.of_traced h (fun _ _ h1 h2 _ => h1.kept h2) (fun _ _ h1 h2 => h1.kept (.of_keeps ht h2))
    (fun m h => hG m h.2) hm

theorem after_runs {α : Type} {Q : α → Prop} {t : Touches} (ht : t.counters = false) {p : Prog α} {c : Nat}
    (h : Traced (fun _ => True) (fun _ => False) (Keeps t) Q p) (hG : ∀ m, Ext m0 m → G m) (hm : After m0 c m) :
    Runs (Good E cfg) CountersKept G (fun a m => Q a ∧ After m0 c m) p m :=
  Runs.of_traced h (fun _ _ h1 h2 _ => h1.kept h2) (fun _ _ h1 h2 => h1.kept (.of_keeps ht h2))
    (fun m h => hG m h.2.1) hm

theorem bump_runs (p : Nat) (hG : ∀ m, Ext m0 m → G m) (hm : Before m0 m) :
    Runs (Good E cfg) CountersKept G (fun _ m => After m0 p m) (bump p) m := by
  intro m1 r1 _ _
  have b1 := hm.kept r1
  refine ⟨hG _ b1.2, ?_⟩
  dsimp only
  cases hs : m1.heap[p]? with
  | none => trivial
  | some s =>
    intro m2 r2 _ _
    have b2 := b1.kept r2
    have hs2 := r2.same p s hs
    have hget : ∀ q : Nat, (m2.heap.modify p (fun t => { t with counter := s.counter + 1 }))[q]? =
        if p = q then (m2.heap[q]?).map (fun t => { t with counter := s.counter + 1 }) else m2.heap[q]? := by
      intro q
      rw [List.getElem?_modify]
      by_cases hq : p = q
      · subst hq
        simp [hs2]
      · cases m2.heap[q]? <;> simp [hq]
    have hext : Ext m2 { m2 with heap := m2.heap.modify p (fun t => { t with counter := s.counter + 1 }) } := by
      intro q t hq
      dsimp only
      rw [hget, hq]
      by_cases hpq : p = q
      · exact ⟨s.counter + 1, by simp [hpq]⟩
      · exact ⟨t.counter, by simp [hpq]⟩
    have ha : After m0 p { m2 with heap := m2.heap.modify p (fun t => { t with counter := s.counter + 1 }) } := by
      refine ⟨?_, b2.2.trans hext, { s with counter := s.counter + 1 }, ?_⟩
      · intro q
        rw [← b2.1 q]
        unfold counterAt
        dsimp only
        rw [hget]
        by_cases hq : p = q
        · subst hq
          simp [hs2]
        · rw [if_neg hq, if_neg (fun h : q = p => hq h.symm), UInt32.add_zero]
      · dsimp only
        rw [hget, hs2]
        simp
    exact ⟨hG _ ha.2.1, ha⟩

theorem finishAssertion_runs (L : Laws E) {p : Nat} (args : GetAssertionArgs) {flags up : UInt8} (hfl : flags = 0 ∨ flags = 4)
    (hup : up = 0 ∨ up = 1) (hG : ∀ m, Ext m0 m → G m) (hm : After m0 p m) :
    Runs (Good E cfg) CountersKept G (Counted m0) (finishAssertion E args p (flags ||| up)) m := by
  intro m1 r1 g1 _
  have b1 := hm.kept r1
  refine ⟨hG _ b1.2.1, ?_⟩
  dsimp only
  cases hs : m1.heap[p]? with
  | none => trivial
  | some s =>
    intro m2 r2 g2 g2'
    have b2 := b1.kept r2
    have b3 : After m0 p { m2 with world := { m2.world with rnd := m2.world.rnd + 1 } } := b2
    refine ⟨hG _ b3.2.1, ?_⟩
    show Runs _ _ _ _ ((lift (Cose.sign E s.key (Util.concat [Ctap.makeAuthData E args.rpId s none (flags ||| up),
      args.clientDataHash]) m2.world.rnd)) >>= fun sig => Prog.ret (Ctap.success :: Cbor.encode (Ctap.getAssertionItem s.id
        (Ctap.makeAuthData E args.rpId s none (flags ||| up)) sig))) _
    cases hsig : Cose.sign E s.key (Util.concat [Ctap.makeAuthData E args.rpId s none (flags ||| up),
      args.clientDataHash]) m2.world.rnd with
    | panic c => trivial
    | ok sig =>
      refine .inr ⟨p, b3, by simp [Ctap.success], ?_⟩
      intro body id a g ad hr hi hp
      have hs2 := r2.same p s hs
      obtain ⟨⟨i, j, -, -, hid, hk⟩, -⟩ := g2.made s (List.mem_of_getElem? hs2)
      rw [show Util.concat [Ctap.makeAuthData E args.rpId s none (flags ||| up), args.clientDataHash] =
        Ctap.makeAuthData E args.rpId s none (flags ||| up) ++ args.clientDataHash by simp [Util.concat_eq]] at hsig
      obtain ⟨authData, ad', e, q1, q2, -, -, -, -, -, q3, -⟩ :=
        Ctap.assertion_answer L (by rw [hk]) (L.genEC_valid j) (by rw [hid]; exact L.rand_length _ _) hfl hup hsig
      subst e
      have hsame : s.id = id ∧ Ctap.makeAuthData E args.rpId s none (flags ||| up) = a := by
        obtain ⟨x1, e1, k1⟩ := hi
        obtain ⟨x2, e2, k2⟩ := q1
        rw [e1] at e2
        obtain rfl := (List.cons.inj e2).2
        rw [k1] at k2
        have := Option.some.inj k2
        simp only [VF.Cbor.map.injEq, List.cons.injEq, Prod.mk.injEq, VF.Cbor.bytes.injEq, true_and,
          and_true] at this
        exact ⟨this.1.symm, this.2.1.symm⟩
      obtain ⟨rfl, rfl⟩ := hsame
      rw [hp] at q2
      obtain rfl := Option.some.inj q2
      refine ⟨⟨s, hs2, rfl⟩, ?_⟩
      rw [q3]
      exact congrArg UInt32.toNat (counterAt_some hs2).symm

/-- What the check of `pinAuth` allows. -/
theorem getAssertionPIN_traced {t : Touches} {A B : Mem → Prop} (args : GetAssertionArgs) :
    Traced A B (Keeps t) (fun x => (∃ e, x = .error e ∧ e ≠ 0) ∨ ∃ f, x = .ok f ∧ (f = 0 ∨ f = 4))
      (getAssertionPIN E args) := by
  unfold getAssertionPIN
  refine (reads _).then fun _ => ?_
  split
  · exact .inr ⟨0, rfl, .inl rfl⟩
  · split
    · exact .inr ⟨0, rfl, .inl rfl⟩
    · split
      · exact .inl ⟨_, rfl, by decide⟩
      · refine (reads _).then fun _ => ?_
        split
        · exact .inr ⟨4, rfl, .inr rfl⟩
        · exact .inl ⟨_, rfl, by decide⟩

theorem getAssertion_runs (L : Laws E) (data : Bytes) (hG : ∀ m, Ext m0 m → G m) (hm : Before m0 m) :
    Runs (Good E cfg) CountersKept G (Counted m0) (handleGetAssertion E data) m := by
  unfold handleGetAssertion
  split
  · exact .inl ⟨hm, by simp [Ctap.errInvalidCBOR]⟩
  · rename_i args _
    refine (before_runs (t := {}) rfl (getAssertionPIN_traced args) hG hm).bind ?_
    rintro x m1 ⟨h1 | h1, b1⟩
    · obtain ⟨e, rfl, he⟩ := h1
      exact .inl ⟨b1, by intro body h; injection h with h; exact he h⟩
    · obtain ⟨f, rfl, hf⟩ := h1
      dsimp only
      unfold getAssertionSource
      refine Runs.bind (Q := fun x m => (x = none ∧ Before m0 m) ∨ ∃ p, x = some p ∧ After m0 p m) ?_ ?_
      · refine (before_runs (t := {}) rfl (looks _) hG b1).bind ?_
        rintro slots m2 ⟨-, b2⟩
        refine (before_runs (t := {}) rfl (getMatching_traced _ _ _) hG b2).bind ?_
        rintro l m3 ⟨-, b3⟩
        split
        · exact .inl ⟨rfl, b3⟩
        · rename_i p _
          refine (bump_runs p hG b3).bind ?_
          intro _ m4 b4
          refine (after_runs (t := { rnd := true, store := true }) rfl (saveData_traced rfl rfl) hG b4).bind ?_
          rintro _ m5 ⟨-, b5⟩
          exact .inr ⟨p, rfl, b5⟩
      · rintro x m2 (⟨rfl, b2⟩ | ⟨p, rfl, b2⟩)
        · exact .inl ⟨b2, by simp [Ctap.errNoCredentials]⟩
        · dsimp only
          split
          · have := finishAssertion_runs (cfg := cfg) L args hf (.inl rfl) hG b2
            rw [show f ||| 0 = f by simp] at this
            exact this
          · refine Runs.bind (Q := fun _ m => After m0 p m) ?_ ?_
            · refine Runs.mono (after_runs (t := { asks := true }) rfl (Q := fun _ => True) ?_ hG b2) (fun _ _ h => h.2)
              unfold approveAccountLogin
              refine (deref_traced _).then fun s => ?_
              split
              · exact approve_traced rfl _ _ _
              · trivial
            · intro a m3 b3
              split
              · refine .inr ⟨p, b3, by simp [Ctap.errOperationDenied], ?_⟩
                intro body id x g ad hr
                simp [Ctap.errOperationDenied] at hr
              · exact finishAssertion_runs (cfg := cfg) L args hf (.inr rfl) hG b3

end

/-- Answers to GetAssertion requests that could be read. -/
def answered : Op × Reply → Bool
  | (.ctap (2 :: _), .answer [0x12]) => false
  | (.ctap (2 :: _), _) => true
  | _ => false

/-- The account of the counters: of `new`, the answers since a moment when they were `base`. -/
def Ledger (base : Nat → UInt32) (m : Mem) (new : List (Op × Reply)) : Prop :=
  ∃ T P τ : Nat → Nat, (∀ q, counterAt m q = base q + UInt32.ofNat (T q)) ∧ (∀ q, T q ≤ new.length) ∧
    (∀ k, k < new.length → τ k ≤ T (P k)) ∧
    ∀ (k : Nat) op body id a g ad, new[k]? = some (op, .answer (0 :: body)) → IsAssertion (0 :: body) id a g →
      parseAuthData a = some ad → (∃ s, m.heap[P k]? = some s ∧ s.id = id) ∧
      ad.counter = (base (P k) + UInt32.ofNat (τ k)).toNat ∧ ∀ k', k' < k → P k' = P k → τ k' < τ k

theorem Ledger.kept {base : Nat → UInt32} {m m' : Mem} {new : List (Op × Reply)} (h : Ledger base m new)
    (hc : ∀ q, counterAt m' q = counterAt m q) (he : Ext m m') : Ledger base m' new := by
  obtain ⟨T, P, τ, h1, h2, h3, h4⟩ := h
  refine ⟨T, P, τ, fun q => (hc q).trans (h1 q), h2, h3, ?_⟩
  intro k op body id a g ad k1 k2 k3
  obtain ⟨⟨s, e1, e2⟩, e3⟩ := h4 k op body id a g ad k1 k2 k3
  obtain ⟨n, hn⟩ := he _ s e1
  exact ⟨⟨_, hn, e2⟩, e3⟩

theorem Ledger.more {base : Nat → UInt32} {m m' : Mem} {new : List (Op × Reply)} (h : Ledger base m new)
    {op : Op} {b : Bytes} (hc : Counted m b m') : Ledger base m' (new ++ [(op, .answer b)]) := by
  rcases hc with ⟨⟨hb, he⟩, hno⟩ | ⟨p, ⟨ha, he, s, hs⟩, -, hans⟩
  · obtain ⟨T, P, τ, h1, h2, h3, h4⟩ := h.kept hb he
    refine ⟨T, P, fun k => if k < new.length then τ k else 0, h1, fun q => ?_, fun k hk => ?_, ?_⟩
    · have := h2 q
      simp
      omega
    · dsimp only
      split
      · exact h3 k ‹_›
      · exact Nat.zero_le _
    · intro k op' body id a g ad k1 k2 k3
      rcases getElem_snoc k1 with ⟨hk, k1⟩ | ⟨-, k1⟩
      · obtain ⟨e1, e2, e3⟩ := h4 k op' body id a g ad k1 k2 k3
        dsimp only
        rw [if_pos hk]
        refine ⟨e1, e2, fun k' hk' hp => ?_⟩
        rw [if_pos (by omega)]
        exact e3 k' hk' hp
      · simp only [Prod.mk.injEq, Reply.answer.injEq] at k1
        exact absurd k1.2.symm (hno body)
  · obtain ⟨T, P, τ, h1, h2, h3, h4⟩ := h
    refine ⟨fun q => T q + if q = p then 1 else 0, fun k => if k < new.length then P k else p,
      fun k => if k < new.length then τ k else T p + 1, fun q => ?_, fun q => ?_, fun k hk => ?_, ?_⟩
    · rw [ha q, h1 q]
      by_cases hq : q = p
      · simp only [hq, if_true, UInt32.ofNat_add]
        rw [UInt32.add_assoc]
        rfl
      · simp [hq]
    · have := h2 q
      simp only [List.length_append, List.length_cons, List.length_nil]
      split <;> omega
    · dsimp only
      by_cases hk' : k < new.length
      · rw [if_pos hk', if_pos hk']
        have := h3 k hk'
        omega
      · rw [if_neg hk', if_neg hk', if_pos rfl]
        exact Nat.le_refl _
    · intro k op' body id a g ad k1 k2 k3
      dsimp only
      rcases getElem_snoc k1 with ⟨hk, k1⟩ | ⟨hk, k1⟩
      · obtain ⟨⟨s, e0, e1⟩, e2, e3⟩ := h4 k op' body id a g ad k1 k2 k3
        rw [if_pos hk, if_pos hk]
        obtain ⟨n, hn⟩ := he _ s e0
        refine ⟨⟨_, hn, e1⟩, e2, fun k' hk' hp => ?_⟩
        rw [if_pos (show k' < new.length by omega)] at hp ⊢
        exact e3 k' hk' hp
      · simp only [Prod.mk.injEq, Reply.answer.injEq] at k1
        obtain ⟨e1, e2⟩ := hans body id a g ad k1.2.symm (by rw [← k1.2]; exact k2) k3
        rw [if_neg (by omega), if_neg (by omega)]
        refine ⟨e1, ?_, fun k' hk' hp => ?_⟩
        · rw [e2, ha p, h1 p, if_pos rfl, UInt32.ofNat_add, UInt32.add_assoc]
          rfl
        · rw [if_pos (by omega)] at hp ⊢
          have := h3 k' (by omega)
          rw [hp] at this
          omega

theorem counters_rule (L : Laws E) (base : Nat → UInt32) (l0 : List (Op × Reply)) :
    Rule E (fun _ => True) isGetAssertion answered (Good E cfg) CountersKept
      (fun m l => ∃ new, l = l0 ++ new ∧ Ledger base m new)
      (fun m l => ∃ new m', l = l0 ++ new ∧ Ledger base m' new ∧ Ext m' m) where
  refl := .refl
  trans := fun _ _ _ h k => h.trans k
  others := by
    intro op m m' _ hk h
    refine .of_keeps (t := touches E op) ?_ h
    unfold touches
    split <;> first | rfl | (simp [isGetAssertion] at hk; done) | skip
    split
    · split
      · rfl
      · split <;> rfl
    · rfl
  kinds := by
    intro op r h
    unfold answered at h
    split at h
    · cases h
    · rename_i e
      injection e with e
      rw [e]
      rfl
    · cases h
  instant := by
    intro op r hp
    match op, hp with
    | .ctap (2 :: data), hp =>
      unfold perform handleCtap at hp
      simp only [show ((2 : UInt8) = 1) = False by decide, show ((2 : UInt8) = 4) = False by decide, if_true, if_false] at hp
      unfold handleGetAssertion at hp
      split at hp
      · injection hp with hp
        rw [← hp]
        rfl
      · cases hp
    | .ctap [], hp => rfl
    | .ctap (c :: data), hp =>
      by_cases hc : c = 2
      · subst hc
        unfold perform handleCtap at hp
        simp only [show ((2 : UInt8) = 1) = False by decide, show ((2 : UInt8) = 4) = False by decide, if_true, if_false] at hp
        unfold handleGetAssertion at hp
        split at hp
        · injection hp with hp
          rw [← hp]
          rfl
        · cases hp
      · unfold answered
        split
        · simp_all
        · simp_all
        · rfl
    | .u2f _, _ => rfl
    | .enablePIN, _ => rfl
    | .disablePIN, _ => rfl
    | .setPIN _, _ => rfl
    | .deleteIdentity _, _ => rfl
    | .restart, _ => rfl
  inner := by
    rintro m m' l ⟨new, rfl, h⟩ hr -
    exact ⟨new, rfl, h.kept (counterAt_kept hr) hr.ext⟩
  outer := by
    rintro m m' l ⟨new, m1, rfl, h, he⟩ hr -
    exact ⟨new, m1, rfl, h, he.trans hr.ext⟩
  weaker := by
    rintro m l ⟨new, rfl, h⟩
    exact ⟨new, m, rfl, h, .refl m⟩
  op := by
    rintro op m l - hk - ⟨new, rfl, h⟩
    obtain ⟨data, rfl⟩ : ∃ data, op = .ctap (2 :: data) := by
      unfold isGetAssertion at hk
      split at hk
      · exact ⟨_, rfl⟩
      · cases hk
    refine Runs.bind (Q := Counted m) ?_ ?_
    · exact getAssertion_runs L data (fun m' h' => ⟨new, m, rfl, h, h'⟩) ⟨fun _ => rfl, .refl m⟩
    · intro b m' hb
      show ∃ new', _
      by_cases hs : answered (.ctap (2 :: data), .answer b) = true
      · rw [if_pos hs]
        exact ⟨new ++ [_], by rw [List.append_assoc], h.more hb⟩
      · rw [if_neg hs, List.append_nil]
        refine ⟨new, rfl, ?_⟩
        have he : b = [0x12] := by
          unfold answered at hs
          split at hs
          · rename_i e
            injection e with _ e
            injection e
          · exact absurd rfl hs
          · rename_i h1 h2
            exact absurd rfl (h2 data _)
        rcases hb with ⟨hb, -⟩ | ⟨p, -, hne, -⟩
        · exact h.kept hb.1 hb.2
        · exact absurd he hne

theorem base_ledger (m : Mem) : Ledger (counterAt m) m [] := by
  refine ⟨fun _ => 0, fun _ => 0, fun _ => 0, fun q => by simp, fun q => Nat.zero_le _, fun k hk => Nat.zero_le _, ?_⟩
  intro k op body id a g ad h
  simp at h

theorem good_always (L : Laws E) (hu : Usable E cfg) (evs : List Event) : Good E cfg ((boot E cfg).run E cfg evs).mem := by
  obtain ⟨bs, h⟩ := inv_overlap (E := E) (cfg := cfg) L hu evs
  exact h.good

/-- Two assertions, by the places in memory of their credentials. -/
theorem two_assertions (L : Laws E) (hu : Usable E cfg) {evs evs' : List Event}
    (hx : Exclusive isGetAssertion E cfg evs evs') {i j : Nat} {data1 data2 b1 b2 id1 id2 a1 a2 g1 g2 : Bytes} {ad1 ad2 : AuthData}
    (hn : ((boot E cfg).run E cfg evs).threads.length ≤ i) (hij : i < j)
    (hi : ((boot E cfg).run E cfg (evs ++ evs')).threads[i]? = some (.ready (.ctap (2 :: data1)) (.answer (0 :: b1))))
    (hj : ((boot E cfg).run E cfg (evs ++ evs')).threads[j]? = some (.ready (.ctap (2 :: data2)) (.answer (0 :: b2))))
    (ha1 : IsAssertion (0 :: b1) id1 a1 g1) (hp1 : parseAuthData a1 = some ad1)
    (ha2 : IsAssertion (0 :: b2) id2 a2 g2) (hp2 : parseAuthData a2 = some ad2) :
    ∃ p q s t, ((boot E cfg).run E cfg (evs ++ evs')).mem.heap[p]? = some s ∧ s.id = id1 ∧
      ((boot E cfg).run E cfg (evs ++ evs')).mem.heap[q]? = some t ∧ t.id = id2 ∧
      ∃ n n', ad1.counter = (counterAt ((boot E cfg).run E cfg evs).mem p + UInt32.ofNat n).toNat ∧
        ad2.counter = (counterAt ((boot E cfg).run E cfg evs).mem q + UInt32.ofNat n').toNat ∧
        n' ≤ ((boot E cfg).run E cfg (evs ++ evs')).threads.countP (fun t => isGetAssertion (opOf t)) ∧ (p = q → n < n') := by
  obtain ⟨new, m', hnew, ⟨T, P, τ, h1, h2, h3, h4⟩, he⟩ := exclusive_run
    (counters_rule (cfg := cfg) L (counterAt ((boot E cfg).run E cfg evs).mem) (selected answered ((boot E cfg).run E cfg evs)))
    (good_always L hu) hx ⟨[], by simp, base_ledger _⟩
  obtain ⟨k, k', hk, e1, e2⟩ := selected_places hx.running hn hij hi hj (by rfl) (by rfl) hnew
  obtain ⟨⟨s, s1, s2⟩, s3, -⟩ := h4 k _ _ _ _ _ _ e1 ha1 hp1
  obtain ⟨⟨t, t1, t2⟩, t3, t4⟩ := h4 k' _ _ _ _ _ _ e2 ha2 hp2
  obtain ⟨c, hc⟩ := he _ s s1
  obtain ⟨d, hd⟩ := he _ t t1
  refine ⟨P k, P k', _, _, hc, s2, hd, t2, τ k, τ k', s3, t3, ?_, fun h => t4 k hk h⟩
  have l1 := selected_length (sel := answered) ((boot E cfg).run E cfg (evs ++ evs')) (counters_rule (cfg := cfg) L (fun _ => 0) []).kinds
  rw [hnew, List.length_append] at l1
  have l2 := h3 k' (List.getElem?_eq_some_iff.1 e2).1
  have l3 := h2 (P k')
  omega

end VF.Fido.Overlap
