import Verif.Proofs.OverlapLivesPerform
import Verif.Props.Log

/-!
# A host that behaves does not end the process
-/

namespace VF.Fido.Overlap

open VF.Spec.Client VF.Spec.Vault VF.Spec.Cose VF.Spec.Harmless VF.Spec.Overlap VF.Spec.History Prog

variable {E : Env} {cfg : Client.Config}

/-- The PINs tried since the last start. -/
def tried (E : Env) (evs : List Event) : Nat :=
  evs.foldl (fun n e => match e with
    | .restart => 0
    | e => if beginsTry E e then n + 1 else n) 0

theorem tried_snoc (evs : List Event) (e : Event) : tried E (evs ++ [e]) = match e with
    | .restart => 0
    | e => if beginsTry E e then tried E evs + 1 else tried E evs := by
  unfold tried
  rw [List.foldl_append]
  rfl

theorem tried_split (evs : List Event) : ∃ before between, evs = before ++ between ∧ .restart ∉ between ∧
    tried E evs = between.countP (beginsTry E) := by
  induction evs using Props.snoc_induction with
  | h0 => exact ⟨[], [], rfl, by simp, rfl⟩
  | h1 evs e ih =>
    obtain ⟨x, y, h1, h2, h3⟩ := ih
    rw [tried_snoc]
    cases e with
    | restart => exact ⟨evs ++ [.restart], [], by simp, by simp, rfl⟩
    | turn i =>
      refine ⟨x, y ++ [.turn i], by rw [h1, List.append_assoc], by simpa using h2, ?_⟩
      rw [List.countP_append, ← h3]
      rfl
    | begin op =>
      refine ⟨x, y ++ [.begin op], by rw [h1, List.append_assoc], by simpa using h2, ?_⟩
      rw [List.countP_append, ← h3]
      dsimp only
      by_cases hb : beginsTry E (.begin op) = true <;> simp [hb]

theorem tried_few {key : Bytes} {evs : List Event} (h : Behaves E key evs) : tried E evs ≤ 7 := by
  obtain ⟨x, y, h1, h2, h3⟩ := tried_split (E := E) evs
  rw [h3]
  exact h.few x y [] (by simpa using h1) h2

theorem behaves_left {key : Bytes} {evs evs' : List Event} (h : Behaves E key (evs ++ evs')) : Behaves E key evs where
  harmless := fun op ho => h.harmless op (List.mem_append_left _ ho)
  few := fun x y z he hr => h.few x y (z ++ evs') (by rw [he]; simp) hr

theorem start_fields {store : Option Bytes} {rnd : Nat} {c : Client} (h : Client.start E cfg store rnd = .ok c) :
    c.pinRetries = 8 ∧ c.pinToken = E.rand rnd 16 ∧ c.keyAgreement = E.genECDH (rnd + 1) := by
  cases store with
  | none => obtain rfl := Res.ok.inj h; exact ⟨rfl, rfl, rfl⟩
  | some data =>
    simp only [Client.start, Client.importData] at h
    cases h1 : Saved.decryptState E data E.passphrase with
    | panic e => rw [h1] at h; cases h
    | ok st =>
      rw [h1, Res.bind_ok] at h
      cases st with
      | none => cases h
      | some st =>
        dsimp only at h
        split at h
        · cases h
        · cases h2 : Vault.importKey E st.certKey with
          | panic e => rw [h2] at h; cases h
          | ok k =>
            rw [h2, Res.bind_ok] at h
            cases k with
            | none => cases h
            | some k =>
              dsimp only at h
              cases h3 : Vault.importSources E [] st.sources with
              | panic e => rw [h3] at h; cases h
              | ok v =>
                rw [h3, Res.bind_ok] at h
                obtain rfl := Res.ok.inj h
                exact ⟨rfl, rfl, rfl⟩

/-- `bs` has what the goroutines may yet lower the retries by. -/
structure Well (E : Env) (cfg : Client.Config) (s : Process) (bs : List Nat) (d n : Nat) : Prop where
  alive : s.alive = true
  fine : Fine E cfg 0 s.mem d
  length : bs.length = s.threads.length
  sum : d + bs.sum ≤ n
  working : ∀ (i : Nat) op p, s.threads[i]? = some (.working op p) →
    ∃ b upd next, bs[i]? = some b ∧ p = .act upd next ∧ Lives E cfg Ends b d p s.mem

theorem sum_le {bs : List Nat} {i b : Nat} (h : bs[i]? = some b) : b ≤ bs.sum := by
  induction bs generalizing i with
  | nil => cases h
  | cons x bs ih =>
    cases i with
    | zero =>
      obtain rfl := Option.some.inj h
      simp
    | succ i =>
      have := ih (i := i) h
      simp
      omega

theorem sum_set {bs : List Nat} {i b b' : Nat} (h : bs[i]? = some b) (hb : b' ≤ b) :
    (b - b') + (bs.set i b').sum = bs.sum := by
  induction bs generalizing i with
  | nil => cases h
  | cons x bs ih =>
    cases i with
    | zero =>
      obtain rfl := Option.some.inj h
      simp
      omega
    | succ i =>
      have := ih (i := i) h
      simp
      omega

theorem Fine.some_more {m : Mem} {d b : Nat} (h : Fine E cfg 0 m d) (hb : d + b ≤ 7) : Fine E cfg b m d :=
  { h with room := hb }

/-- A goroutine takes a step and does not panic. -/
theorem Well.moved {s : Process} {bs : List Nat} {d d' n i b : Nat} {t : Thread} {op : Op} {mem : Mem}
    {p : Prog Reply} (h : Well E cfg s bs d n) (hi : s.threads[i]? = some t) (hd : d ≤ d')
    (hr : Rel false s.mem mem) (hf : Fine E cfg 0 mem d') (hsum : d' + (bs.set i b).sum ≤ n)
    (hl : Lives E cfg Ends b d' p mem) :
    Well E cfg (s.moved i op mem p) (bs.set i b) d' n := by
  have hil := (List.getElem?_eq_some_iff.1 hi).1
  have hbl : i < bs.length := by rw [h.length]; exact hil
  have key : ∀ t', (∀ op' p', t' = .working op' p' → p' = p ∧ ∃ upd next, p = .act upd next) →
      Well E cfg { s with mem := mem, threads := s.threads.set i t' } (bs.set i b) d' n := by
    intro t' ht'
    refine ⟨h.alive, hf, by simp [h.length], hsum, ?_⟩
    intro j op' p' hj
    dsimp only at hj
    rw [List.getElem?_set] at hj
    by_cases hij : i = j
    · subst hij
      rw [if_pos rfl, if_pos hil] at hj
      obtain ⟨rfl, upd, next, e⟩ := ht' op' p' (Option.some.inj hj)
      exact ⟨b, upd, next, by simp [hbl], e, hl⟩
    · rw [if_neg hij] at hj
      obtain ⟨c, upd, next, k1, rfl, k3⟩ := h.working j op' p' hj
      exact ⟨c, upd, next, by rw [List.getElem?_set, if_neg hij]; exact k1, rfl, k3.later hr hd⟩
  cases p with
  | ret r => exact key (.ready op r) (fun _ _ e => by cases e)
  | act upd next => exact key (.working op (.act upd next)) (fun _ _ e => by cases e; exact ⟨rfl, upd, next, rfl⟩)
  | fail c => exact hl.elim

theorem well_run (L : Laws E) (hu : Usable E cfg) (ha : CanAttest E (Device.boot E cfg).world.client)
    (hk : aesKeyOk cfg.deviceKey = true) (evs : List Event) (hb : Behaves E cfg.deviceKey evs) :
    ∃ bs d, Well E cfg ((boot E cfg).run E cfg evs) bs d (tried E evs) := by
  obtain ⟨issuer, a1, a2, a3⟩ := ha
  have a1 : cfg.certKey = { ecdsa := some issuer } := a1
  have a3 : E.certSubject cfg.cert = some { ecdsa := some issuer.pub } := a3
  -- what does not change
  have fixed : ∀ (evs : List Event), ((boot E cfg).run E cfg evs).mem.world.client.deviceKey = cfg.deviceKey ∧
      CanAttest E ((boot E cfg).run E cfg evs).mem.world.client ∧ Good E cfg ((boot E cfg).run E cfg evs).mem := by
    intro evs
    obtain ⟨bs, inv⟩ := inv_overlap L hu evs
    obtain ⟨k1, k2, k3⟩ := inv.keys
    exact ⟨k1, ⟨issuer, ecdsa_only (SamePrivate.symm k3) a1, a2, by rw [k2]; exact a3⟩, inv.good⟩
  induction evs using Props.snoc_induction with
  | h0 =>
    obtain ⟨f1, f2, f3⟩ := fixed []
    refine ⟨[], 0, rfl, ⟨f3, ⟨?_, ?_, ?_⟩, f2, by rw [f1]; exact hk, f1, ?_, ?_, by omega⟩, rfl, by simp [tried], ?_⟩
    · intro s hs
      cases hs
    · show 8 - ((0 : Nat) : Int) ≤ 8
      omega
    · show (8 : Int) ≤ 8
      omega
    · exact L.genECDH_valid _
    · show (E.rand 0 16).length % 16 = 0
      rw [L.rand_length]
    · intro i op p hi
      cases hi
  | h1 evs e ih =>
    obtain ⟨bs, d, w⟩ := ih (behaves_left hb)
    obtain ⟨bs0, inv⟩ := inv_overlap L hu evs
    obtain ⟨f1, f2, f3⟩ := fixed (evs ++ [e])
    have hfew := tried_few hb
    have hfew0 := tried_few (behaves_left hb)
    rw [run_snoc] at f1 f2 f3 ⊢
    rw [tried_snoc] at hfew ⊢
    generalize (boot E cfg).run E cfg evs = s at *
    cases e with
    | begin op =>
      by_cases hc : s.alive = true ∧ op ≠ .restart
      · have e : s.step E cfg (.begin op) =
            ({ s with threads := s.threads ++ [Thread.gone op] } : Process).moved s.threads.length op s.mem
              (perform E op) := if_pos hc
        rw [e]
        have hn : (if beginsTry E (.begin op) then tried E evs + 1 else tried E evs) =
            tried E evs + allowance E op := by
          show (if tries E op then tried E evs + 1 else tried E evs) = tried E evs + if tries E op then 1 else 0
          split <;> rfl
        dsimp only at hfew ⊢
        rw [hn] at hfew ⊢
        have hsum := w.sum
        have w1 : Well E cfg { s with threads := s.threads ++ [Thread.gone op] } (bs ++ [allowance E op]) d
            (tried E evs + allowance E op) := by
          refine ⟨w.alive, w.fine, by simp [w.length], by simp; omega, ?_⟩
          intro j op' p' hj
          dsimp only at hj
          by_cases hl : j < s.threads.length
          · rw [List.getElem?_append_left hl] at hj
            obtain ⟨c, upd, next, k1, k2, k3⟩ := w.working j op' p' hj
            exact ⟨c, upd, next, by rw [List.getElem?_append_left (by rw [w.length]; exact hl)]; exact k1, k2, k3⟩
          · rw [List.getElem?_append_right (by omega)] at hj
            cases hz : j - s.threads.length with
            | zero => rw [hz] at hj; cases hj
            | succ k => rw [hz] at hj; simp at hj
        have hset : (bs ++ [allowance E op]).set s.threads.length (allowance E op) = bs ++ [allowance E op] := by
          rw [← w.length]
          simp
        have hlive := perform_lives (d := d) L (hb.harmless op (by simp)) (w.fine.some_more (b := allowance E op)
          (by omega))
        have := w1.moved (i := s.threads.length) (t := .gone op) (op := op) (b := allowance E op) (by simp)
          (Nat.le_refl d) (Rel.refl _ _) w.fine (by rw [hset]; simp; omega) hlive
        exact ⟨_, d, this⟩
      · rw [show s.step E cfg (.begin op) = s from if_neg hc]
        refine ⟨bs, d, w.alive, w.fine, w.length, ?_, w.working⟩
        have := w.sum
        dsimp only
        split <;> omega
    | turn i =>
      have same : ∃ bs d, Well E cfg s bs d (tried E evs) := ⟨bs, d, w⟩
      have e : s.step E cfg (.turn i) = match s.threads[i]? with
          | some (.working op (.act upd next)) =>
            if s.alive then s.moved i op (upd s.mem) (next s.mem) else s
          | _ => s := rfl
      cases ht : s.threads[i]? with
      | none =>
        rw [e, ht]
        exact same
      | some t =>
        cases t with
        | ready op r => rw [e, ht]; exact same
        | gone op => rw [e, ht]; exact same
        | working op p =>
          obtain ⟨b, upd, next, q1, rfl, hl⟩ := w.working i op p ht
          obtain ⟨b0, upd0, next0, -, e0, -, hs⟩ := inv.working i op _ ht
          cases e0
          obtain ⟨q', g1, g2, -, -⟩ := hs s.mem (Rel.refl _ _) inv.good
          have g2 := g2.weaken (keep := false) (by simp)
          have hsum := w.sum
          have hbs := sum_le q1
          have hfew1 : tried E evs ≤ 7 := hfew0
          obtain ⟨b', hb', hcalm, hnext⟩ := hl s.mem d (Rel.refl _ _) (Nat.le_refl _) (w.fine.some_more (by omega))
          have hset := sum_set q1 hb'
          rw [e, ht] at f1 f2 ⊢
          dsimp only at f1 f2 ⊢
          rw [if_pos w.alive] at f1 f2 ⊢
          have hmem : (s.moved i op (upd s.mem) (next s.mem)).mem = upd s.mem := by
            generalize next s.mem = p
            cases p <;> rfl
          rw [hmem] at f1 f2
          have hfine : Fine E cfg 0 (upd s.mem) (d + (b - b')) := by
            refine ⟨g1, hcalm, f2, by rw [f1]; exact hk, f1, ?_, ?_, by omega⟩
            · rw [g2.keyAgreement]
              exact w.fine.agreement
            · rw [g2.pinToken]
              exact w.fine.token
          exact ⟨_, _, w.moved ht (by omega) g2 hfine (by omega)
            (hnext g2 (hfine.some_more (by omega)))⟩
    | restart =>
      obtain ⟨c, h1, -, -, -⟩ := good_restart inv.good s.mem.world.rnd
      have e : s.step E cfg .restart =
          { mem := load { s.mem.world with client := c, rnd := s.mem.world.rnd + 2 }
            threads := s.threads.map Thread.ended, alive := true } := by
        show (match Client.start E cfg s.mem.world.store s.mem.world.rnd with
          | .ok c => _
          | .panic _ => _) = _
        rw [h1]
      rw [e] at f1 f2 f3 ⊢
      obtain ⟨p1, p2, p3⟩ := start_fields h1
      have hvault : ∀ s ∈ c.vault, s.rp ≠ none ∧ s.user ≠ none := by
        obtain ⟨c0, -, h2, -⟩ := inv.good.saved
        obtain ⟨c', k1, -, ⟨-, -, -, -, q5⟩, -⟩ := h2 s.mem.world.rnd
        rw [h1] at k1
        obtain rfl := Res.ok.inj k1
        intro t ht
        obtain ⟨-, -, -, ⟨rp, t4, -⟩, ⟨u, t6, -⟩⟩ := q5 t ht
        exact ⟨by simp [t4], by simp [t6]⟩
      refine ⟨List.replicate s.threads.length 0, 0, rfl,
        ⟨f3, ⟨hvault, ?_, ?_⟩, f2, by rw [f1]; exact hk, f1, ?_, ?_, by omega⟩, by simp, by simp, ?_⟩
      · show 8 - ((0 : Nat) : Int) ≤ c.pinRetries
        omega
      · show c.pinRetries ≤ 8
        omega
      · show ECDHValid E c.keyAgreement
        rw [p3]
        exact L.genECDH_valid _
      · show c.pinToken.length % 16 = 0
        rw [p2, L.rand_length]
      · intro j op p hj
        obtain ⟨u, -, -, h3, -⟩ := ended_getElem hj
        exact absurd rfl (h3 op p)

end VF.Fido.Overlap
