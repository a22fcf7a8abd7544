import Verif.Spec.Overlap
import Verif.Proofs.OverlapSafe
import Verif.Proofs.Approval

/-!
# Interleaved handlers keep to the rules and answer faithfully
-/

namespace VF.Fido.Overlap

open VF.Spec.Client VF.Spec.Vault VF.Spec.Cose VF.Spec.Ctap VF.Spec.U2f VF.Spec.Overlap Prog
open Ctap (success errInvalidCommand errInvalidParameter errInvalidCBOR errMissingParam
  errUnsupportedAlgorithm errOperationDenied errNoCredentials errPINInvalid errPINBlocked
  errPINAuthInvalid errPINRequired errPINPolicyViolation flagUP flagUV derivePINAuth)

variable {E : Env} {cfg : Client.Config} {keep own may : Bool} {α β : Type} {q : Option Ask} {m : Mem}
  {R : Option Ask → β → Mem → Prop}

/-! ### Credentials -/

/-- A pointer to a credential with these entities. -/
def Points (E : Env) (m : Mem) (p : Nat) (P : Source → Prop) : Prop :=
  ∃ s k, m.heap[p]? = some s ∧ s.key = { ecdsa := some k } ∧ ECValid E k ∧ s.id.length = 16 ∧ P s

theorem Points.later {m m' : Mem} {p : Nat} {P : Source → Prop} (h : Points E m p P)
    (hr : Rel keep m m') (hP : ∀ s n, P s → P { s with counter := n }) : Points E m' p P := by
  obtain ⟨s, k, h1, h2, h3, h4, h5⟩ := h
  obtain ⟨n, hn⟩ := hr.heap p s h1
  exact ⟨_, k, hn, h2, h3, h4, hP s n h5⟩

theorem Good.points (L : Laws E) (hg : Good E cfg m) {p : Nat} {s : Source} (h : m.heap[p]? = some s)
    {P : Source → Prop} (hP : P s) : Points E m p P := by
  obtain ⟨i, j, -, -, e1, e2⟩ := (hg.made s (List.mem_of_getElem? h)).1
  exact ⟨s, _, h, e2, L.genEC_valid j, by rw [e1]; exact L.rand_length _ _, hP⟩

theorem alloc_safe (L : Laws E) (hko : keep = true → own = true) {s : Source} {f : Nat → Prog β}
    (hmade : Made E m.world.rnd s) (htexts : Texts s)
    (h : ∀ p m', Rel keep m m' → Good E cfg m' → m'.heap[p]? = some s →
      Safe E cfg keep own may R q (f p) m') :
    Safe E cfg keep own may R q (alloc s >>= f) m := by
  intro m' h1 h2
  have hr : ∀ k, Rel k m' { m' with heap := m'.heap ++ [s] } := fun k =>
    { Rel.refl k m' with
      heap := fun p t ht => ⟨t.counter, by
        show (m'.heap ++ [s])[p]? = some t
        rw [List.getElem?_append_left (List.getElem?_eq_some_iff.1 ht).1]
        exact ht⟩ }
  have hg : Good E cfg { m' with heap := m'.heap ++ [s] } :=
    { cert := h2.cert
      only := h2.only
      valid := h2.valid
      hash := h2.hash
      made := by
        intro t ht
        rcases List.mem_append.1 ht with ht | ht
        · exact h2.made t ht
        · rw [List.mem_singleton.1 ht]
          exact ⟨hmade.mono h1.rnd, htexts⟩
      slots := by
        intro p hp
        have := h2.slots p hp
        simp only [List.length_append]
        omega
      saved := by
        obtain ⟨c, q1, q2, q3, q4, q5, q6⟩ := h2.saved
        refine ⟨c, q1, q2, q3, q4, q5, ?_⟩
        intro t ht
        obtain ⟨k1, u, hu, k2⟩ := q6 t ht
        exact ⟨k1, u, List.mem_append_left _ hu, k2⟩ }
  refine ⟨q, hg, hr _, .inl ⟨rfl, rfl⟩, h _ _ (h1.trans (hr _)) hg ?_⟩
  show (m'.heap ++ [s])[m'.heap.length]? = some s
  simp

theorem setSlots_good {l : List Nat} (h : Good E cfg m) (hl : ∀ p ∈ l, p < m.heap.length) :
    Good E cfg { m with slots := l } :=
  ⟨h.cert, h.only, h.valid, h.hash, h.made, hl, h.saved⟩

theorem setSlots_rel (l : List Nat) : Rel keep m { m with slots := l } := { Rel.refl keep m with }

theorem addIdentity_safe (hko : keep = true → own = true) {p : Nat} {f : Unit → Prog β}
    (hp : p < m.heap.length)
    (h : ∀ m', Rel keep m m' → Good E cfg m' → Safe E cfg keep own may R q (f ()) m') :
    Safe E cfg keep own may R q (addIdentity p >>= f) m := by
  unfold addIdentity
  rw [Prog.bind_assoc]
  refine Safe.look_bind ?_
  intro m1 r1 g1
  refine Safe.write_bind (fun _ => rfl) ?_
  intro m2 r2 g2
  have hg := setSlots_good (l := m1.slots ++ [p]) g2 (by
    intro x hx
    have l1 := r1.length
    have l2 := r2.length
    rcases List.mem_append.1 hx with hx | hx
    · have := g1.slots x hx
      omega
    · rw [List.mem_singleton.1 hx]
      omega)
  exact ⟨hg, setSlots_rel _, h _ (r1.trans (r2.trans (setSlots_rel _))) hg⟩

theorem newCredentialSource_safe (L : Laws E) (hko : keep = true → own = true) {data : Bytes}
    {args : MakeCredArgs} (hd : E.decodeMakeCred data = some args) {f : Option Nat → Prog β}
    (h0 : Safe E cfg keep own may R q (f none) m)
    (h : ∀ p m', Rel keep m m' → Good E cfg m' →
      Points E m' p (fun s => s.rp = args.rp ∧ s.user = args.user) →
      Safe E cfg keep own may R q (f (some p)) m') :
    Safe E cfg keep own may R q
      (newCredentialSource E args.params args.excludeList args.rp args.user >>= f) m := by
  unfold newCredentialSource
  split
  · exact h0
  · simp only [Prog.bind_assoc, Prog.pure_bind]
    refine draw_safe ?_ hko
    intro i m1 r1 g1 hi
    refine draw_safe ?_ hko
    intro j m2 r2 g2 hj
    obtain ⟨t1, t2⟩ := L.makeCred_utf8 data args hd
    refine alloc_safe L hko ⟨i, j, Nat.lt_of_lt_of_le hi r2.rnd, hj, rfl, rfl⟩
      ⟨Ctap.utf8_publicKey, fun rp hrp => t1 rp hrp, fun u hu => t2 u hu⟩ ?_
    intro p m3 r3 g3 hp
    have hpt := g3.points L hp (P := fun s => s.rp = args.rp ∧ s.user = args.user) ⟨rfl, rfl⟩
    refine addIdentity_safe hko (List.getElem?_eq_some_iff.1 hp).1 ?_
    intro m4 r4 g4
    refine saveData_safe L hko ?_
    intro m5 r5 g5
    exact h p m5 (r1.trans (r2.trans (r3.trans (r4.trans r5)))) g5
      (hpt.later (r4.trans r5) (fun s n hs => hs))

theorem getMatching_safe (L : Laws E) (hko : keep = true → own = true) (rpId : Bytes)
    (allowList : Option (List Descriptor)) : ∀ (slots : List Nat) (m : Mem), Good E cfg m →
    Safe E cfg keep own may (fun q' ps m' => q' = q ∧
      ∀ p ∈ ps, Points E m' p (Matches rpId allowList)) q (getMatching rpId allowList slots) m
  | [], m, hg => ⟨rfl, fun p hp => by cases hp⟩
  | p :: rest, m, hg => by
    refine Safe.deref_bind ?_
    intro m1 s r1 g1 hs
    cases hrp : s.rp with
    | none => exact Safe.fail
    | some rp =>
      dsimp only
      refine Safe.bind hko g1 (getMatching_safe L hko rpId allowList rest m1 g1) ?_
      rintro q' ps m2 r2 g2 ⟨rfl, hps⟩
      split
      · rename_i hc
        refine ⟨rfl, ?_⟩
        intro p' hp'
        rcases List.mem_cons.1 hp' with rfl | hp'
        · refine (g1.points L hs (P := Matches rpId allowList) ⟨⟨rp, hrp, hc.1⟩, ?_⟩).later r2
            (fun s n h => h)
          intro l hl
          have h2 := hc.2
          rw [hl] at h2
          obtain ⟨d, hd, he⟩ := List.any_eq_true.1 h2
          exact ⟨d, hd, by simpa using he⟩
        · exact hps p' hp'
      · exact ⟨rfl, hps⟩

theorem bump_safe {p : Nat} {f : Unit → Prog β}
    (h : ∀ m', Rel keep m m' → Good E cfg m' → Safe E cfg keep own may R q (f ()) m') :
    Safe E cfg keep own may R q (bump p >>= f) m := by
  unfold bump
  rw [Prog.bind_assoc]
  refine Safe.deref_bind ?_
  intro m1 s r1 g1 hs
  refine Safe.write_bind (fun _ => rfl) ?_
  intro m2 r2 g2
  have hget : ∀ (x : Nat) t, m2.heap[x]? = some t →
      ∃ n, (m2.heap.modify p (fun t => { t with counter := s.counter + 1 }))[x]? =
        some { t with counter := n } := by
    intro x t ht
    rw [List.getElem?_modify, ht]
    by_cases hx : p = x
    · exact ⟨s.counter + 1, by simp [hx]⟩
    · exact ⟨t.counter, by simp [hx]⟩
  have hmem : ∀ t ∈ m2.heap.modify p (fun t => { t with counter := s.counter + 1 }),
      ∃ u ∈ m2.heap, ∃ n, t = { u with counter := n } := by
    intro t ht
    obtain ⟨x, hx⟩ := List.mem_iff_getElem?.1 ht
    rw [List.getElem?_modify] at hx
    cases hu : m2.heap[x]? with
    | none => rw [hu] at hx; cases hx
    | some u =>
      rw [hu] at hx
      refine ⟨u, List.mem_of_getElem? hu, ?_⟩
      by_cases hp : p = x
      · exact ⟨s.counter + 1, by simpa [hp] using hx.symm⟩
      · exact ⟨u.counter, by simpa [hp] using hx.symm⟩
  have hr : ∀ k, Rel k m2 { m2 with
      heap := m2.heap.modify p (fun t => { t with counter := s.counter + 1 }) } :=
    fun k => { Rel.refl k m2 with heap := hget }
  have hg : Good E cfg { m2 with
      heap := m2.heap.modify p (fun t => { t with counter := s.counter + 1 }) } :=
    { cert := g2.cert
      only := g2.only
      valid := g2.valid
      hash := g2.hash
      made := by
        intro t ht
        obtain ⟨u, hu, n, rfl⟩ := hmem t ht
        exact g2.made u hu
      slots := by
        intro x hx
        have := g2.slots x hx
        simpa using this
      saved := by
        obtain ⟨c, q1, q2, q3, q4, q5, q6⟩ := g2.saved
        refine ⟨c, q1, q2, q3, q4, q5, ?_⟩
        intro t ht
        obtain ⟨k1, u, hu, k2, k3⟩ := q6 t ht
        obtain ⟨x, hx⟩ := List.mem_iff_getElem?.1 hu
        obtain ⟨n, hn⟩ := hget x u hx
        exact ⟨k1, _, List.mem_of_getElem? hn, k2, k3⟩ }
  exact ⟨hg, hr _, h _ (r1.trans (r2.trans (hr _))) hg⟩

theorem getAssertionSource_safe (L : Laws E) (hko : keep = true → own = true) {rpId : Bytes}
    {allowList : Option (List Descriptor)} {f : Option Nat → Prog β}
    (h0 : ∀ m', Rel keep m m' → Good E cfg m' → Safe E cfg keep own may R q (f none) m')
    (h : ∀ p m', Rel keep m m' → Good E cfg m' → Points E m' p (Matches rpId allowList) →
      Safe E cfg keep own may R q (f (some p)) m') :
    Safe E cfg keep own may R q (getAssertionSource E rpId allowList >>= f) m := by
  unfold getAssertionSource
  rw [Prog.bind_assoc]
  refine Safe.look_bind ?_
  intro m1 r1 g1
  rw [Prog.bind_assoc]
  refine Safe.bind hko g1 (getMatching_safe (q := q) L hko rpId allowList _ m1 g1) ?_
  rintro q' ps m2 r2 g2 ⟨rfl, hps⟩
  cases ps with
  | nil => exact h0 m2 (r1.trans r2) g2
  | cons p rest =>
    dsimp only
    simp only [Prog.bind_assoc, Prog.pure_bind]
    refine bump_safe ?_
    intro m3 r3 g3
    refine saveData_safe L hko ?_
    intro m4 r4 g4
    exact h p m4 (r1.trans (r2.trans (r3.trans r4))) g4
      ((hps p (List.mem_cons_self ..)).later (r3.trans r4) (fun s n hs => hs))

theorem findIdentity_safe (hko : keep = true → own = true) (id : Bytes) :
    ∀ (slots : List Nat) (m : Mem), Good E cfg m →
    Safe E cfg keep own may (fun q' _ _ => q' = q) q (findIdentity id slots) m
  | [], m, hg => rfl
  | p :: rest, m, hg => by
    refine Safe.deref_bind ?_
    intro m1 s r1 g1 hs
    split
    · exact Safe.pure rfl
    · refine Safe.bind hko g1 (findIdentity_safe hko id rest m1 g1) ?_
      rintro q' i m2 r2 g2 rfl
      exact Safe.pure rfl

theorem deleteIdentity_safe (L : Laws E) (hko : keep = true → own = true) {id : Bytes}
    {f : Bool → Prog β}
    (h : ∀ b m', Rel keep m m' → Good E cfg m' → Safe E cfg keep own may R q (f b) m') :
    Safe E cfg keep own may R q (deleteIdentity E id >>= f) m := by
  unfold deleteIdentity
  rw [Prog.bind_assoc]
  refine Safe.look_bind ?_
  intro m1 r1 g1
  rw [Prog.bind_assoc]
  refine Safe.bind hko g1 (findIdentity_safe (q := q) hko id _ m1 g1) ?_
  rintro q' found m2 r2 g2 rfl
  cases found with
  | none => exact h false m2 (r1.trans r2) g2
  | some i =>
    cases hl : m1.slots.getLast? with
    | none => exact h false m2 (r1.trans r2) g2
    | some last =>
      dsimp only
      simp only [Prog.bind_assoc, Prog.pure_bind]
      refine Safe.write_bind (fun _ => rfl) ?_
      intro m3 r3 g3
      have hg := setSlots_good (l := (m1.slots.set i last).dropLast) g3 (by
        intro x hx
        have hx := List.dropLast_subset _ hx
        have hx' : x ∈ m1.slots := by
          rcases List.mem_or_eq_of_mem_set hx with hx | rfl
          · exact hx
          · exact List.mem_of_getLast? hl
        have := g1.slots x hx'
        have l2 := r2.length
        have l3 := r3.length
        omega)
      refine ⟨hg, setSlots_rel _, ?_⟩
      refine saveData_safe L hko ?_
      intro m4 r4 g4
      exact h true m4 (r1.trans (r2.trans (r3.trans ((setSlots_rel _).trans r4)))) g4

/-! ### PIN -/

theorem pinAuthOk_later {m m' : Mem} (hr : Rel keep m m') {hash : Bytes} {auth : Option Bytes}
    {proto : UInt32} : PinAuthOk E m'.world.client hash auth proto ↔
      PinAuthOk E m.world.client hash auth proto := by
  unfold PinAuthOk
  rw [hr.pinToken]

theorem makeCredentialPIN_safe {args : MakeCredArgs} {f : Except UInt8 UInt8 → Prog β}
    (herr : ∀ e m', Rel keep m m' → Good E cfg m' → e ≠ 0 →
      Safe E cfg keep own may R q (f (.error e)) m')
    (h : ∀ flags m', Rel keep m m' → Good E cfg m' → (flags = 0 ∨ flags = 4) →
      (flags = 4 → PinAuthOk E m.world.client args.clientDataHash args.pinAuth args.pinProtocol) →
      (keep = true → m.world.client.pinEnabled = true → m.world.client.pinHash ≠ none →
        PinAuthOk E m.world.client args.clientDataHash args.pinAuth args.pinProtocol) →
      Safe E cfg keep own may R q (f (.ok flags)) m') :
    Safe E cfg keep own may R q (makeCredentialPIN E args >>= f) m := by
  unfold makeCredentialPIN
  rw [Prog.bind_assoc]
  refine Safe.field_bind ?_
  intro m1 r1 g1
  split
  · rename_i hoff
    refine h 0 m1 r1 g1 (.inl rfl) (fun h => absurd h (by decide)) ?_
    intro hk hon
    rw [r1.pinOn hk hon] at hoff
    cases hoff
  · cases hauth : args.pinAuth with
    | some auth =>
      dsimp only
      split
      · rename_i hproto
        rw [Prog.bind_assoc]
        refine Safe.field_bind ?_
        intro m2 r2 g2
        split
        · rename_i htok
          have hok : PinAuthOk E m.world.client args.clientDataHash args.pinAuth args.pinProtocol := by
            refine ⟨hproto, ?_⟩
            rw [hauth, ← htok, (r1.trans r2).pinToken]
            rfl
          exact h 4 m2 (r1.trans r2) g2 (.inr rfl) (fun _ => hok) (fun _ _ _ => hok)
        · exact herr _ m2 (r1.trans r2) g2 (by decide)
      · exact herr _ m1 r1 g1 (by decide)
    | none =>
      dsimp only
      rw [Prog.bind_assoc]
      refine Safe.field_bind ?_
      intro m2 r2 g2
      split
      · exact herr _ m2 (r1.trans r2) g2 (by decide)
      · rename_i hset
        refine h 0 m2 (r1.trans r2) g2 (.inl rfl) (fun h => absurd h (by decide)) ?_
        intro _ _ hne
        have := (r1.trans r2).pinHash hne
        cases hh : m2.world.client.pinHash with
        | none => exact absurd hh this
        | some x => rw [hh] at hset; exact absurd rfl hset

theorem getAssertionPIN_safe {args : GetAssertionArgs} {f : Except UInt8 UInt8 → Prog β}
    (herr : ∀ e m', Rel keep m m' → Good E cfg m' → e ≠ 0 →
      Safe E cfg keep own may R q (f (.error e)) m')
    (h : ∀ flags m', Rel keep m m' → Good E cfg m' → (flags = 0 ∨ flags = 4) →
      (flags = 4 → PinAuthOk E m.world.client args.clientDataHash args.pinAuth args.pinProtocol) →
      Safe E cfg keep own may R q (f (.ok flags)) m') :
    Safe E cfg keep own may R q (getAssertionPIN E args >>= f) m := by
  unfold getAssertionPIN
  rw [Prog.bind_assoc]
  refine Safe.field_bind ?_
  intro m1 r1 g1
  split
  · exact h 0 m1 r1 g1 (.inl rfl) (fun h => absurd h (by decide))
  · cases hauth : args.pinAuth with
    | none => exact h 0 m1 r1 g1 (.inl rfl) (fun h => absurd h (by decide))
    | some auth =>
      dsimp only
      split
      · exact herr _ m1 r1 g1 (by decide)
      · rename_i hproto
        rw [Prog.bind_assoc]
        refine Safe.field_bind ?_
        intro m2 r2 g2
        split
        · rename_i htok
          refine h 4 m2 (r1.trans r2) g2 (.inr rfl) (fun _ => ⟨by simpa using hproto, ?_⟩)
          rw [hauth, ← htok, (r1.trans r2).pinToken]
          rfl
        · exact herr _ m2 (r1.trans r2) g2 (by decide)

/-! ### Signing -/

theorem createCertificate_safe (hko : keep = true → own = true) {k : PrivKey} {f : Bytes → Prog β}
    (h : ∀ cert ca issuer n m', Rel keep m m' → Good E cfg m' →
      Cose.createAttestationCert E ca issuer k n = .ok (some cert) →
      Safe E cfg keep own may R q (f cert) m') :
    Safe E cfg keep own may R q (createCertificate E k >>= f) m := by
  unfold createCertificate
  simp only [Prog.bind_assoc]
  refine draw_safe ?_ hko
  intro n m1 r1 g1 _
  refine Safe.field_bind ?_
  intro m2 r2 g2
  refine Safe.field_bind ?_
  intro m3 r3 g3
  refine Safe.lift_bind ?_
  intro c hc
  cases c with
  | none => exact Safe.fail
  | some cert => exact h cert _ _ n m3 (r1.trans (r2.trans r3)) g3 hc

theorem signWith_safe (hko : keep = true → own = true) {k : PrivKey} {data : Bytes}
    {f : Bytes → Prog β}
    (h : ∀ sig n m', Rel keep m m' → Good E cfg m' → Cose.sign E k data n = .ok sig →
      Safe E cfg keep own may R q (f sig) m') :
    Safe E cfg keep own may R q (signWith E k data >>= f) m := by
  unfold signWith
  rw [Prog.bind_assoc]
  refine draw_safe ?_ hko
  intro n m1 r1 g1 _
  refine Safe.lift_bind ?_
  intro sig hs
  exact h sig n m1 r1 g1 hs

end VF.Fido.Overlap
