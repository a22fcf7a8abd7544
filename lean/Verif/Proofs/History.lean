import Verif.Proofs.Device

/-!
# Invariants of histories
-/

namespace VF.Fido.Device

open VF.Spec.Client VF.Spec.Vault VF.Spec.History VF.Spec.Cose Client Ctap

variable {E : Env} {cfg : Config}

/-- A start from the saved data gives the device `c`. -/
def Restores (E : Env) (cfg : Config) (store : Option Bytes) (c : Client) : Prop :=
  ∀ rnd, ∃ c', start E cfg store rnd = .ok c' ∧ SameDevice c c' ∧ Healthy E c' ∧
    c'.pinRetries = 8 ∧ ∀ last, c.vault.getLast? = some last →
      ∀ s ∈ c'.vault, s.rp = last.rp ∧ s.user = last.user

theorem Restores.holds {store : Option Bytes} {c : Client} (h : Restores E cfg store c) :
    Holds E cfg store c := by
  intro rnd
  obtain ⟨c', h1, h2, -⟩ := h rnd
  exact ⟨c', h1, h2⟩

theorem Restores.same {store : Option Bytes} {c d : Client} (h : Restores E cfg store c)
    (hs : SameDevice c d)
    (hl : ∀ last', d.vault.getLast? = some last' → ∃ last, c.vault.getLast? = some last ∧
      last'.rp = last.rp ∧ last'.user = last.user) : Restores E cfg store d := by
  intro rnd
  obtain ⟨c', h1, h2, h3, h4, h5⟩ := h rnd
  refine ⟨c', h1, SameDevice.trans (SameDevice.symm hs) h2, h3, h4, ?_⟩
  intro last' hl' s hs'
  obtain ⟨last, e1, e2, e3⟩ := hl last' hl'
  rw [e2, e3]
  exact h5 last e1 s hs'

/-- A restart keeps the entities of the last credential. -/
theorem last_of_uniform {v v' : List Source} (hs : SameCredentials v v')
    (h : ∀ last, v.getLast? = some last → ∀ s ∈ v', s.rp = last.rp ∧ s.user = last.user) :
    ∀ last', v'.getLast? = some last' → ∃ last, v.getLast? = some last ∧
      last'.rp = last.rp ∧ last'.user = last.user := by
  intro last' hl
  have hm : last' ∈ v' := List.mem_of_getLast? hl
  cases e : v.getLast? with
  | none =>
    rw [List.getLast?_eq_none_iff] at e
    have := hs.1
    rw [e] at this
    have : v' = [] := List.length_eq_zero_iff.1 this.symm
    rw [this] at hm
    cases hm
  | some last => exact ⟨last, rfl, h last e last' hm⟩

/-- What holds of a device after any history: what is saved restores a healthy device with
credentials of which `P` holds, and that device is the running one, if one is running. -/
def Inv (E : Env) (cfg : Config) (P : Nat → List Source → Prop) (d : Device) : Prop :=
  ∃ c, Healthy E c ∧ Restores E cfg d.world.store c ∧ P d.world.rnd c.vault ∧
    (d.alive = true → c = d.world.client)

theorem step_live {d : Device} {op : Op} (h : isRestart op = false) (ha : d.alive = true) :
    step E cfg d op =
      (match (perform E op d.world).1 with
        | .ok r => (r, ⟨(perform E op d.world).2, true⟩)
        | .panic _ => (.panicked, ⟨(perform E op d.world).2, false⟩)) := by
  cases op with
  | restart => cases h
  | _ =>
    simp only [step, ha, if_true]
    generalize perform E _ d.world = p
    rcases p with ⟨_ | _, _⟩ <;> rfl

theorem step_dead {d : Device} {op : Op} (h : isRestart op = false) (ha : d.alive = false) :
    step E cfg d op = (.nothing, d) := by
  cases op with
  | restart => cases h
  | _ => simp [step, ha]

theorem step_rnd (L : Laws E) (d : Device) (op : Op) :
    d.world.rnd ≤ (step E cfg d op).2.world.rnd := by
  cases hr : isRestart op with
  | true =>
    cases op with
    | restart =>
      simp only [step]
      cases start E cfg d.world.store d.world.rnd <;> (dsimp only; omega)
    | _ => cases hr
  | false =>
    cases ha : d.alive with
    | false => rw [step_dead hr ha]; exact Nat.le_refl _
    | true =>
      rw [step_live hr ha]
      have := (perform_out L op d.world).1
      cases (perform E op d.world).1 <;> exact this

theorem inv_step (L : Laws E) {P Q : Nat → List Source → Prop} {d : Device} {op : Op}
    (hsame : ∀ n v v', SameCredentials v v' → P n v → P n v')
    (hmono : ∀ n n' v, n ≤ n' → n' ≤ (step E cfg d op).2.world.rnd → P n v → Q n' v)
    (hchange : ∀ n v v', d.world.rnd ≤ n → n ≤ (step E cfg d op).2.world.rnd →
      Change E op d.world.rnd n v v' → P d.world.rnd v → Q n v')
    (h : Inv E cfg P d) : Inv E cfg Q (step E cfg d op).2 := by
  obtain ⟨c, h1, h2, h3, h4⟩ := h
  cases hr : isRestart op with
  | true =>
    cases op with
    | restart =>
      obtain ⟨c', s1, s2, s3, -, s5⟩ := h2 d.world.rnd
      have e : step E cfg d .restart =
          (.started, ⟨{ d.world with client := c', rnd := d.world.rnd + 2 }, true⟩) := by
        simp only [step, s1]
      rw [e] at hmono ⊢
      exact ⟨c', s3, h2.same s2 (last_of_uniform s2.2.2.2.2.2 s5),
        hmono _ _ _ (Nat.le_add_right _ 2) (Nat.le_refl _) (hsame _ _ _ s2.2.2.2.2.2 h3),
        fun _ => rfl⟩
    | _ => cases hr
  | false =>
    cases ha : d.alive with
    | false =>
      have e := step_dead (E := E) (cfg := cfg) hr ha
      rw [e] at hmono ⊢
      exact ⟨c, h1, h2, hmono _ _ _ (Nat.le_refl _) (Nat.le_refl _) h3, h4⟩
    | true =>
      obtain rfl := h4 ha
      have e := step_live (E := E) (cfg := cfg) hr ha
      obtain ⟨o1, o2⟩ := perform_out L op d.world
      have ew : (step E cfg d op).2.world = (perform E op d.world).2 := by
        rw [e]
        cases (perform E op d.world).1 <;> rfl
      have ea : (step E cfg d op).2.alive = true → ∃ r, (perform E op d.world).1 = .ok r := by
        rw [e]
        cases (perform E op d.world).1 with
        | ok r => exact fun _ => ⟨r, rfl⟩
        | panic c => intro h; cases h
      unfold Inv
      rw [ew] at hmono hchange ⊢
      cases o2 with
      | kept hs hc =>
        refine ⟨(perform E op d.world).2.client, hc.healthy h1, ?_, ?_, fun _ => rfl⟩
        · rw [hs]
          refine h2.same hc.same ?_
          rw [hc.2.2.2.2.2]
          exact fun last h => ⟨last, h, rfl, rfl⟩
        · rw [← hc.2.2.2.2.2]
          exact hmono _ _ _ o1 (Nat.le_refl _) h3
      | saved blob m n hs hv hh hch =>
        refine ⟨(perform E op d.world).2.client, hh h1, ?_, ?_, fun _ => rfl⟩
        · rw [hs]
          intro rnd
          obtain ⟨-, c', q1, q2, q3, -, q4, -, -, q5⟩ := saves_restore L (hh h1) hv cfg rnd
          exact ⟨c', q1, q2, q3, q4, q5⟩
        · exact hchange _ _ _ o1 (Nat.le_refl _) hch h3
      | lost c hr' hs =>
        refine ⟨d.world.client, h1, by rw [hs]; exact h2, hmono _ _ _ o1 (Nat.le_refl _) h3, ?_⟩
        intro hal
        obtain ⟨r, hok⟩ := ea hal
        rw [hok] at hr'
        cases hr'

theorem run_cons (d : Device) (op : Op) (ops : List Op) :
    run E cfg d (op :: ops) =
      ((step E cfg d op).1 :: (run E cfg (step E cfg d op).2 ops).1,
        (run E cfg (step E cfg d op).2 ops).2) := rfl

theorem after_nil (d : Device) : after E cfg d [] = d := rfl

theorem after_cons (d : Device) (op : Op) (ops : List Op) :
    after E cfg d (op :: ops) = after E cfg (step E cfg d op).2 ops := rfl

theorem after_append (d : Device) (xs ys : List Op) :
    after E cfg d (xs ++ ys) = after E cfg (after E cfg d xs) ys := by
  induction xs generalizing d with
  | nil => rfl
  | cons op xs ih => exact ih _

theorem after_rnd (L : Laws E) (d : Device) (ops : List Op) :
    d.world.rnd ≤ (after E cfg d ops).world.rnd := by
  induction ops generalizing d with
  | nil => exact Nat.le_refl _
  | cons op ops ih => exact Nat.le_trans (step_rnd L d op) (ih _)

/-- An invariant that also counts GetAssertion requests. -/
theorem inv_after (L : Laws E) {P : Nat → Nat → List Source → Prop} {N K : Nat}
    (hsame : ∀ k n v v', SameCredentials v v' → P k n v → P k n v')
    (hmono : ∀ k k' n n' v, k ≤ k' → n ≤ n' → P k n v → P k' n' v)
    (hchange : ∀ op k n n' v v', n ≤ n' → n' ≤ N →
      k + (if isGetAssertion op then 1 else 0) ≤ K →
      Change E op n n' v v' → P k n v → P (k + (if isGetAssertion op then 1 else 0)) n' v') :
    ∀ (ops : List Op) (k : Nat) (d : Device),
      k + ops.countP isGetAssertion ≤ K → (after E cfg d ops).world.rnd ≤ N →
      Inv E cfg (P k) d → Inv E cfg (P (k + ops.countP isGetAssertion)) (after E cfg d ops)
  | [], k, d, _, _, h => h
  | op :: ops, k, d, hk, hn, h => by
    have hr := after_rnd (cfg := cfg) L (step E cfg d op).2 ops
    rw [after_cons] at hn
    rw [List.countP_cons] at hk ⊢
    have h' : Inv E cfg (P (k + (if isGetAssertion op then 1 else 0))) (step E cfg d op).2 := by
      refine inv_step L (fun n v v' => hsame k n v v') ?_ ?_ h
      · intro n n' v h1 h2 h3
        exact hmono _ _ _ _ _ (by omega) h1 h3
      · intro n v v' h1 h2 h3 h4
        exact hchange op k _ n v v' h1 (by omega) (by generalize (if isGetAssertion op = true then 1 else 0) = x at *; omega) h3 h4
    have := inv_after L hsame hmono hchange ops _ _ (by generalize (if isGetAssertion op = true then 1 else 0) = x at *; omega) hn h'
    rw [after_cons]
    rwa [show k + (List.countP isGetAssertion ops + if isGetAssertion op = true then 1 else 0) =
      k + (if isGetAssertion op then 1 else 0) + List.countP isGetAssertion ops by omega]

theorem inv_boot (hu : Usable E cfg) {P : Nat → List Source → Prop} (hP : P 2 []) :
    Inv E cfg P (boot E cfg) := by
  have hh : ∀ rnd, Healthy E (fresh E cfg rnd) := by
    intro rnd
    exact ⟨hu.1, hu.2.1, hu.2.2, by simp [fresh], by simp [fresh]⟩
  refine ⟨fresh E cfg 0, hh 0, ?_, hP, fun _ => rfl⟩
  intro rnd
  exact ⟨fresh E cfg rnd, rfl, ⟨rfl, rfl, SamePrivate.refl _, rfl, rfl, SameCredentials.refl _⟩,
    hh rnd, rfl, by simp [fresh]⟩

/-- Without anything about credentials. -/
theorem inv_reachable (L : Laws E) (hu : Usable E cfg) (ops : List Op) :
    Inv E cfg (fun _ _ => True) (after E cfg (boot E cfg) ops) := by
  have h : ∀ (ops : List Op) (d : Device), Inv E cfg (fun _ _ => True) d →
      Inv E cfg (fun _ _ => True) (after E cfg d ops) := by
    intro ops
    induction ops with
    | nil => exact fun d h => h
    | cons op ops ih =>
      intro d h
      exact ih _ (inv_step L (fun _ _ _ _ _ => trivial) (fun _ _ _ _ _ _ => trivial)
        (fun _ _ _ _ _ _ _ => trivial) h)
  exact h ops _ (inv_boot hu trivial)

/-- The device keeps the sealing key and the attestation it was configured with: the running one, and
the one a start would restore. -/
def Keeps (E : Env) (cfg : Config) (d : Device) : Prop :=
  ∃ c, Healthy E c ∧ Restores E cfg d.world.store c ∧
    (c.deviceKey = cfg.deviceKey ∧ c.cert = cfg.cert ∧ SamePrivate cfg.certKey c.certKey) ∧
    (d.alive = true → c = d.world.client)

theorem keeps_step (L : Laws E) {d : Device} {op : Op} (h : Keeps E cfg d) :
    Keeps E cfg (step E cfg d op).2 := by
  obtain ⟨c, h1, h2, ⟨k1, k2, k3⟩, h4⟩ := h
  cases hr : isRestart op with
  | true =>
    cases op with
    | restart =>
      obtain ⟨c', s1, s2, s3, -, s5⟩ := h2 d.world.rnd
      have e : step E cfg d .restart =
          (.started, ⟨{ d.world with client := c', rnd := d.world.rnd + 2 }, true⟩) := by
        simp only [step, s1]
      rw [e]
      exact ⟨c', s3, h2.same s2 (last_of_uniform s2.2.2.2.2.2 s5),
        ⟨s2.1.symm.trans k1, s2.2.1.symm.trans k2, SamePrivate.trans k3 s2.2.2.1⟩, fun _ => rfl⟩
    | _ => cases hr
  | false =>
    cases ha : d.alive with
    | false =>
      rw [step_dead (E := E) (cfg := cfg) hr ha]
      exact ⟨c, h1, h2, ⟨k1, k2, k3⟩, h4⟩
    | true =>
      obtain rfl := h4 ha
      have e := step_live (E := E) (cfg := cfg) hr ha
      obtain ⟨o1, o2⟩ := perform_out L op d.world
      have ew : (step E cfg d op).2.world = (perform E op d.world).2 := by
        rw [e]
        cases (perform E op d.world).1 <;> rfl
      have ea : (step E cfg d op).2.alive = true → ∃ r, (perform E op d.world).1 = .ok r := by
        rw [e]
        cases (perform E op d.world).1 with
        | ok r => exact fun _ => ⟨r, rfl⟩
        | panic c => intro h; cases h
      unfold Keeps
      rw [ew]
      cases o2 with
      | kept hs hc =>
        refine ⟨(perform E op d.world).2.client, hc.healthy h1, ?_,
          ⟨hc.1.symm.trans k1, hc.2.1.symm.trans k2, by rw [← hc.2.2.1]; exact k3⟩, fun _ => rfl⟩
        rw [hs]
        refine h2.same hc.same ?_
        rw [hc.2.2.2.2.2]
        exact fun last h => ⟨last, h, rfl, rfl⟩
      | saved blob m n hs hv hh hch hk =>
        refine ⟨(perform E op d.world).2.client, hh h1, ?_,
          ⟨hk.1.trans k1, hk.2.1.trans k2, by rw [hk.2.2]; exact k3⟩, fun _ => rfl⟩
        rw [hs]
        intro rnd
        obtain ⟨-, c', q1, q2, q3, -, q4, -, -, q5⟩ := saves_restore L (hh h1) hv cfg rnd
        exact ⟨c', q1, q2, q3, q4, q5⟩
      | lost c hr' hs =>
        refine ⟨d.world.client, h1, by rw [hs]; exact h2, ⟨k1, k2, k3⟩, ?_⟩
        intro hal
        obtain ⟨r, hok⟩ := ea hal
        rw [hok] at hr'
        cases hr'

theorem keeps_reachable (L : Laws E) (hu : Usable E cfg) (ops : List Op) :
    Keeps E cfg (after E cfg (boot E cfg) ops) := by
  have h : ∀ (ops : List Op) (d : Device), Keeps E cfg d → Keeps E cfg (after E cfg d ops) := by
    intro ops
    induction ops with
    | nil => exact fun d h => h
    | cons op ops ih => exact fun d h => ih _ (keeps_step L h)
  obtain ⟨c, h1, h2, -, h4⟩ := inv_boot (E := E) hu (P := fun _ _ => True) trivial
  obtain rfl := h4 rfl
  exact h ops _ ⟨_, h1, h2, ⟨rfl, rfl, SamePrivate.refl _⟩, fun _ => rfl⟩

end VF.Fido.Device
