import Verif.Proofs.OverlapTraced

/-!
# Who may set the PIN and get the PIN token, while requests overlap
-/

namespace VF.Fido

theorem Prog.Traced.mono {α : Type} {R R' K : Mem → Prop} {F F' : Mem → Mem → Prop} {Q Q' : α → Prop} {p : Prog α}
    (h : Prog.Traced R K F Q p) (hR : ∀ m, R' m → R m) (hF : ∀ m m', F m m' → F' m m') (hQ : ∀ a, Q a → Q' a) :
    Prog.Traced R' K F' Q' p := by
  induction p with
  | ret a => exact hQ a h
  | fail c => trivial
  | act upd next ih =>
    intro m hm
    rcases h m (hR m hm) with h | ⟨h1, h2⟩
    · exact .inl h
    · exact .inr ⟨hF _ _ h1, ih m h2⟩

namespace Overlap

open Prog VF.Spec.Overlap VF.Spec.History VF.Spec.Client

variable {E : Env} {cfg : Client.Config} {K : Mem → Prop} {k0 : ECDHKey}

/-- The PIN stays. -/
def SamePIN (m m' : Mem) : Prop := m'.world.client.pinHash = m.world.client.pinHash

/-- The key agreement key of the process. -/
def Key (k0 : ECDHKey) (m : Mem) : Prop := m.world.client.keyAgreement = k0

theorem samePIN_of_keeps {α : Type} {t : Touches} {R : Mem → Prop} {p : Prog α} (ht : t.pinHash = false)
    (h : Traced R K (Keeps t) (fun _ => True) p) : Traced R K SamePIN (fun _ => True) p :=
  h.mono (fun _ => id) (fun _ _ h => h.pinHash ht) (fun _ => id)

theorem retries_samePIN {R : Mem → Prop} : Traced R K SamePIN (fun _ => True) getPINRetries :=
  samePIN_of_keeps (t := {}) rfl getPINRetries_traced

theorem setRetries_samePIN {R : Mem → Prop} (n : Int) :
    Traced R K SamePIN (fun _ => True) (setPINRetries n) :=
  samePIN_of_keeps (t := { pinRetries := true }) rfl (setPINRetries_traced rfl n)

theorem secret_samePIN (key : EC2Key) : Traced (Key k0) K SamePIN
    (fun secret => ∀ m, Key k0 m → Ctap.sharedSecret E m.world.client key = .ok secret) (sharedSecret E key) := by
  unfold sharedSecret
  refine Traced.bind (Q := fun k => k = k0) (traced_field (fun _ => rfl) fun m hm => .inr hm) fun k hk => ?_
  subst hk
  refine Traced.bind (traced_lift (fun a h => h)) fun s hs => ?_
  refine traced_pure fun m hm => ?_
  unfold Ctap.sharedSecret
  rw [show m.world.client.keyAgreement = k from hm, hs]
  rfl

theorem not_granted {data : Bytes} {b : UInt8} (h : b ≠ 0) : ¬ Granted E (.ctap (6 :: data)) (.answer [b]) := by
  intro hg
  unfold Granted at hg
  split at hg
  · rename_i heq
    injection heq with heq
    injection heq with heq
    exact h heq
  · exact hg

variable {data : Bytes} {args : ClientPINArgs}

theorem shows {key : EC2Key} {secret enc hash : Bytes} {m : Mem} (hd : E.decodeClientPIN data = some args)
    (hs : args.subCommand = 4 ∨ args.subCommand = 5) (hk : args.keyAgreement = some key)
    (hss : Ctap.sharedSecret E m.world.client key = .ok secret) (he : args.pinHashEnc.getD [] = enc)
    (hh : decryptAESCBC E secret enc = .ok hash) (h : m.world.client.pinHash.getD [] = hash) :
    Entitled E m.world.client (.ctap (6 :: data)) := by
  refine .inl ⟨args, key, secret, hd, hs, hk, Ctap.sharedSecret_ok hss, ?_⟩
  rw [he, h]
  exact (Ctap.decryptAESCBC_ok hh).1.symm

theorem getPINToken_earned (hd : E.decodeClientPIN data = some args) (hs : args.subCommand = 5) :
    Traced (Key k0) (fun m => Entitled E m.world.client (.ctap (6 :: data))) SamePIN
      (fun b => ¬ Granted E (.ctap (6 :: data)) (.answer b)) (handleGetPINToken E args) := by
  unfold handleGetPINToken
  split
  · exact not_granted (by decide)
  · rename_i enc he
    split
    · trivial
    · rename_i key hk
      split
      · exact not_granted (by decide)
      · refine retries_samePIN.then fun _ => ?_
        split
        · exact not_granted (by decide)
        · refine (secret_samePIN key).bind fun secret hss => retries_samePIN.then fun _ => ?_
          unfold attempt
          refine (setRetries_samePIN _).then fun _ => Traced.bind (traced_lift (fun a h => h)) fun hash hh => ?_
          refine Traced.bind (Q := fun own : Option Bytes => own.getD [] ≠ hash)
            (traced_field (fun _ => rfl) fun m hm => ?_) fun own hown => ?_
          · by_cases h : m.world.client.pinHash.getD [] = hash
            · exact .inl (shows hd (.inr hs) hk (hss m hm) (by rw [he]; rfl) hh h)
            · exact .inr h
          · rw [if_pos (fun h => hown h.symm)]
            exact not_granted (by decide)

theorem changePIN_earned (hd : E.decodeClientPIN data = some args) (hs : args.subCommand = 4) :
    Traced (Key k0) (fun m => Entitled E m.world.client (.ctap (6 :: data))) SamePIN
      (fun b => ¬ Granted E (.ctap (6 :: data)) (.answer b)) (handleChangePIN E args) := by
  unfold handleChangePIN
  split
  · rename_i key auth hk ha
    refine retries_samePIN.then fun _ => ?_
    split
    · exact not_granted (by decide)
    · refine (secret_samePIN key).bind fun secret hss => ?_
      split
      · exact not_granted (by decide)
      · refine retries_samePIN.then fun _ => (setRetries_samePIN _).then fun _ =>
          Traced.bind (traced_lift (fun a h => h)) fun hash hh => ?_
        refine Traced.bind (Q := fun own : Option Bytes => own.getD [] ≠ hash)
          (traced_field (fun _ => rfl) fun m hm => ?_) fun own hown => ?_
        · by_cases h : m.world.client.pinHash.getD [] = hash
          · exact .inl (shows hd (.inl hs) hk (hss m hm) rfl hh h)
          · exact .inr h
        · rw [if_pos hown]
          exact not_granted (by decide)
  · exact not_granted (by decide)

theorem setPIN_earned (hd : E.decodeClientPIN data = some args) (hs : args.subCommand = 3) :
    Traced (Key k0) (fun m => Entitled E m.world.client (.ctap (6 :: data))) SamePIN
      (fun b => ¬ Granted E (.ctap (6 :: data)) (.answer b)) (handleSetPIN E args) := by
  unfold handleSetPIN
  refine Traced.bind (Q := fun h : Option Bytes => h ≠ none) (traced_field (fun _ => rfl) fun m hm => ?_)
    fun own hown => ?_
  · by_cases h : m.world.client.pinHash = none
    · exact .inl (.inr ⟨args, hd, hs, h⟩)
    · exact .inr h
  · rw [if_pos (by cases own <;> simp_all)]
    exact not_granted (by decide)

theorem clientPIN_earned (data : Bytes) :
    Traced (Key k0) (fun m => Entitled E m.world.client (.ctap (6 :: data))) SamePIN
      (fun b => ¬ Granted E (.ctap (6 :: data)) (.answer b)) (handleClientPIN E data) := by
  unfold handleClientPIN
  refine Traced.bind (Q := fun _ => True) (traced_field (fun _ => rfl) fun _ _ => .inr trivial) fun _ _ => ?_
  split
  · exact not_granted (by decide)
  · cases hd : E.decodeClientPIN data with
    | none => exact not_granted (by decide)
    | some args =>
      -- the other subcommands are not about this
      have hother : ∀ p : Prog Bytes, Traced (Key k0) (fun m => Entitled E m.world.client (.ctap (6 :: data))) (Keeps {})
          (fun _ => True) p → ¬ (args.subCommand = 3 ∨ args.subCommand = 4 ∨ args.subCommand = 5) →
          Traced (Key k0) (fun m => Entitled E m.world.client (.ctap (6 :: data))) SamePIN
            (fun b => ¬ Granted E (.ctap (6 :: data)) (.answer b)) p := by
        intro p hp hn
        refine hp.mono (fun _ => id) (fun _ _ h => h.pinHash rfl) fun b _ hg => ?_
        unfold Granted at hg
        split at hg
        · rename_i heq _
          injection heq with heq
          injection heq with _ heq
          subst heq
          obtain ⟨args', h1, h2⟩ := hg
          rw [hd] at h1
          obtain rfl := Option.some.inj h1
          exact hn h2
        · exact hg
      dsimp only
      split
      · exact not_granted (by decide)
      · split
        · rename_i h1
          exact hother _ (getPINRetries_traced.then fun _ => trivial) (by rw [h1]; decide)
        · split
          · rename_i h2
            exact hother _ ((reads _).then fun _ => trivial) (by rw [h2]; decide)
          · split
            · rename_i h3
              exact setPIN_earned hd h3
            · split
              · rename_i h4
                exact changePIN_earned hd h4
              · split
                · rename_i h5
                  exact getPINToken_earned hd h5
                · exact not_granted (by decide)

theorem perform_earned (op : Op) :
    Traced (Key k0) (fun m => Entitled E m.world.client op) SamePIN (fun r => ¬ Granted E op r) (perform E op) := by
  have hother : (touches E op).pinHash = false → (∀ r, ¬ Granted E op r) →
      Traced (Key k0) (fun m => Entitled E m.world.client op) SamePIN (fun r => ¬ Granted E op r) (perform E op) :=
    fun h1 h2 => (perform_traced op).mono (fun _ => id) (fun _ _ h => h.pinHash h1) (fun r _ => h2 r)
  have hnone : ∀ op : Op, (∀ data, op ≠ .ctap (6 :: data)) → ∀ r, ¬ Granted E op r := by
    intro op h r hg
    unfold Granted at hg
    split at hg
    · exact h _ rfl
    · exact hg
  cases op with
  | ctap m =>
    cases m with
    | nil => trivial
    | cons c data =>
      by_cases hc : c = 6
      · subst hc
        exact Traced.bind (clientPIN_earned data) fun b hb => hb
      · refine hother ?_ (hnone _ (fun d h => hc (by injection h with h; injection h)))
        unfold touches
        split <;> simp_all
  | u2f m =>
    refine hother ?_ (hnone _ (by simp))
    unfold touches
    split <;> simp_all
  | enablePIN => exact hother rfl (hnone _ (by simp))
  | disablePIN => exact hother rfl (hnone _ (by simp))
  | setPIN pin =>
    intro m _
    exact .inl trivial
  | deleteIdentity id => exact hother rfl (hnone _ (by simp))
  | restart => exact hnone _ (by simp) _

/-! ### Over histories -/

/-- What is known of a goroutine that was not entitled so far. -/
def Unearned (E : Env) (k0 : ECDHKey) : Thread → Prop
  | .working op p => Traced (Key k0) (fun m => Entitled E m.world.client op) SamePIN (fun r => ¬ Granted E op r) p
  | .ready op r => ¬ Granted E op r
  | .gone _ => True

theorem vouched_mono {evs evs' : List Event} {i : Nat} {op : Op} (h : Vouched E cfg evs i op) :
    Vouched E cfg (evs ++ evs') i op := by
  obtain ⟨j, p, h1, h2, h3⟩ := h
  have hl := (List.getElem?_eq_some_iff.1 h1).1
  have e : (evs ++ evs').take j = evs.take j := by
    rw [List.take_append_of_le_length (Nat.le_of_lt hl)]
  refine ⟨j, p, ?_, ?_, ?_⟩
  · rw [List.getElem?_append_left hl]
    exact h1
  · rw [e]
    exact h2
  · rw [e]
    exact h3

theorem unearned_settle {op : Op} {p : Prog Reply}
    (h : Traced (Key k0) (fun m => Entitled E m.world.client op) SamePIN (fun r => ¬ Granted E op r) p) :
    Unearned E k0 (settle op p) := by
  cases p with
  | ret r => exact h
  | fail c => trivial
  | act u n => exact h

theorem opOf_settle (op : Op) (p : Prog Reply) : opOf (settle op p) = op := by cases p <;> rfl

theorem opOf_ended (t : Thread) : opOf t.ended = opOf t := by cases t <;> rfl

theorem snoc_rec {P : List Event → Prop} (nil : P []) (snoc : ∀ l x, P l → P (l ++ [x])) (l : List Event) : P l := by
  have : ∀ r : List Event, P r.reverse := by
    intro r
    induction r with
    | nil => exact nil
    | cons x r ih =>
      rw [List.reverse_cons]
      exact snoc _ x ih
  rw [← List.reverse_reverse l]
  exact this _

theorem earned_run (L : Laws E) (hu : Usable E cfg) (evs : List Event) :
    ∀ (i : Nat) t, ((boot E cfg).run E cfg evs).threads[i]? = some t → Vouched E cfg evs i (opOf t) ∨
      Unearned E ((boot E cfg).run E cfg evs).mem.world.client.keyAgreement t := by
  induction evs using snoc_rec with
  | nil =>
    intro i t h
    cases h
  | snoc evs e ih =>
    intro i t h
    obtain ⟨bs, hinv⟩ := inv_overlap (E := E) (cfg := cfg) L hu evs
    rw [run_snoc] at h ⊢
    generalize hs : (boot E cfg).run E cfg evs = s at *
    rcases thread_step h with ⟨u, hu', ⟨he, rfl⟩ | ht⟩ | ⟨op, rfl, h1, h2, h3, rfl⟩ | ⟨op, upd, next, rfl, h1, h2, rfl⟩
    · rcases ih i t hu' with h' | h'
      · exact .inl (vouched_mono h')
      · refine .inr ?_
        rw [(rel_step hinv he).keyAgreement]
        exact h'
    · subst ht
      rcases ih i u hu' with h' | h'
      · refine .inl ?_
        rw [opOf_ended]
        exact vouched_mono h'
      · refine .inr ?_
        cases u with
        | working op p => trivial
        | ready op r => exact h'
        | gone op => trivial
    · refine .inr ?_
      exact unearned_settle (perform_earned op)
    · rw [opOf_settle]
      rcases ih i _ h2 with h' | h'
      · exact .inl (vouched_mono h')
      · have hk := (rel_step (E := E) (cfg := cfg) (e := .turn i) hinv (by simp)).keyAgreement
        rcases h' s.mem rfl with h' | ⟨-, h'⟩
        · refine .inl ⟨evs.length, .act upd next, ?_, ?_, ?_⟩
          · rw [List.getElem?_append_right (Nat.le_refl _), Nat.sub_self]
            rfl
          · rw [List.take_left, hs]
            exact h2
          · rw [List.take_left, hs]
            exact h'
        · refine .inr ?_
          rw [hk]
          exact unearned_settle h'

/-- Only an operation that was entitled changes the PIN. -/
theorem pin_changed (L : Laws E) (hu : Usable E cfg) (evs : List Event) (e : Event) (he : e ≠ .restart)
    (h : ((boot E cfg).run E cfg (evs ++ [e])).mem.world.client.pinHash ≠
      ((boot E cfg).run E cfg evs).mem.world.client.pinHash) :
    ∃ (i : Nat) (op : Op) (p : Prog Reply), e = .turn i ∧
      ((boot E cfg).run E cfg evs).threads[i]? = some (.working op p) ∧ Vouched E cfg (evs ++ [e]) i op := by
  have ih := earned_run (E := E) (cfg := cfg) L hu evs
  rw [run_snoc] at h
  generalize hs : (boot E cfg).run E cfg evs = s at *
  cases e with
  | restart => exact absurd rfl he
  | begin op =>
    refine absurd ?_ h
    unfold Process.step
    dsimp only
    split
    · rw [moved_mem]
    · rfl
  | turn i =>
    unfold Process.step at h
    dsimp only at h
    split at h
    · rename_i op upd next hi
      split at h
      · rw [moved_mem] at h
        refine ⟨i, op, .act upd next, rfl, hi, ?_⟩
        rcases ih i _ hi with h' | h'
        · exact vouched_mono h'
        · rcases h' s.mem rfl with h' | ⟨h', -⟩
          · refine ⟨evs.length, .act upd next, ?_, ?_, ?_⟩
            · rw [List.getElem?_append_right (Nat.le_refl _), Nat.sub_self]
              rfl
            · rw [List.take_left, hs]
              exact hi
            · rw [List.take_left, hs]
              exact h'
          · exact absurd h' h
      · exact absurd rfl h
    · exact absurd rfl h

end Overlap
end VF.Fido
