import Verif.Proofs.OverlapDraws
import Verif.Proofs.OverlapIdsPerform
import Verif.Proofs.ExclusiveCounters
import Verif.Proofs.SavedState

/-!
# Saved data is encrypted with random values of its own
-/

namespace VF.Fido

namespace Prog

open VF.Spec.Overlap VF.Spec.History

variable {α β : Type} {E : Env}

/-- What is saved was encrypted just before by the same goroutine.  First argument: what was encrypted and is saved next. -/
def Saver (E : Env) : Option Bytes → Prog α → Prop
  | none, ret _ => True
  | some _, ret _ => False
  | none, fail _ => True
  | some _, fail _ => False
  | none, act upd next => ∀ m,
      ((upd m).world.store = m.world.store ∧ Saver E none (next m)) ∨
      ((upd m).world.store = m.world.store ∧ ∃ state data, Saved.encryptState E state E.passphrase m.world.rnd = some (data, (upd m).world.rnd) ∧
        Saver E (some data) (next m))
  | some d, act upd next => ∀ m, (upd m).world.store = some d ∧ Saver E none (next m)

theorem Saver.bind {d : Option Bytes} {p : Prog α} {f : α → Prog β} (hp : Saver E d p) (hf : ∀ a, Saver E none (f a)) :
    Saver E d (p >>= f) := by
  induction p generalizing d with
  | ret a =>
    cases d with
    | none => exact hf a
    | some d => exact hp.elim
  | fail c =>
    cases d with
    | none => trivial
    | some d => exact hp.elim
  | act upd next ih =>
    cases d with
    | none =>
      intro m
      rcases hp m with ⟨h1, h2⟩ | ⟨h1, state, data, h2, h3⟩
      · exact .inl ⟨h1, ih m h2⟩
      · exact .inr ⟨h1, state, data, h2, ih m h3⟩
    | some d =>
      intro m
      exact ⟨(hp m).1, ih m (hp m).2⟩

/-- Steps that save nothing. -/
theorem saver_of_traced {t : Touches} (ht : t.store = false) {Q : α → Prop} {p : Prog α}
    (h : Traced (fun _ => True) (fun _ => False) (Keeps t) Q p) : Saver E none p := by
  induction p with
  | ret a => trivial
  | fail c => trivial
  | act upd next ih =>
    intro m
    rcases h m trivial with h' | ⟨h1, h2⟩
    · exact h'.elim
    · exact .inl ⟨h1.store ht, ih m h2⟩

end Prog

namespace Overlap

open Prog VF.Spec.Client VF.Spec.Overlap VF.Spec.History VF.Spec.Draws

variable {E : Env} {cfg : Client.Config} {α β : Type}

theorem saver_then {Q : α → Prop} {p : Prog α} {f : α → Prog β}
    (h : Traced (fun _ => True) (fun _ => False) (Keeps besides) Q p) (hf : ∀ a, Saver E none (f a)) : Saver E none (p >>= f) :=
  (saver_of_traced (t := besides) rfl h).bind hf

theorem saver_rest {Q : α → Prop} {p : Prog α} (h : Traced (fun _ => True) (fun _ => False) (Keeps besides) Q p) : Saver E none p :=
  saver_of_traced (t := besides) rfl h

theorem exportSources_saver : ∀ slots, Saver E none (exportSources slots)
  | [] => trivial
  | p :: rest => by
    unfold exportSources
    refine saver_then (deref_traced p) fun s => saver_then (lifts _) fun key => ?_
    split
    · exact (exportSources_saver rest).bind fun _ => trivial
    · trivial

theorem saveData_saver : Saver E none (saveData E) := by
  unfold saveData exportState
  simp only [Prog.bind_assoc, Prog.pure_bind]
  refine saver_then (reads _) fun _ => saver_then (lifts _) fun _ => saver_then (looks _) fun _ => (exportSources_saver _).bind fun _ =>
    saver_then (reads _) fun _ => saver_then (reads _) fun _ => saver_then (reads _) fun _ => saver_then (reads _) fun _ =>
    saver_then (reads _) fun _ => ?_
  intro m
  dsimp only [Prog.bind]
  split
  · exact .inl ⟨rfl, trivial⟩
  · rename_i data n he
    exact .inr ⟨rfl, _, data, he, fun m => ⟨rfl, trivial⟩⟩

theorem setPINHash_saver (h : Option Bytes) : Saver E none (setPINHash E h) := by
  unfold setPINHash
  refine saver_then (Q := fun _ => True) ?_ fun _ => saveData_saver
  exact traced_write fun m => { keeps_refl besides m with pinHash := fun h' => by cases h' }

theorem handleSetPIN_saver (args : ClientPINArgs) : Saver E none (handleSetPIN E args) := by
  unfold handleSetPIN
  refine saver_then (reads _) fun _ => ?_
  split
  · trivial
  · split
    · refine saver_then (sharedSecret_traced _) fun _ => ?_
      split
      · trivial
      · refine saver_then (lifts _) fun _ => ?_
        split
        · trivial
        · exact saver_then (setPINRetries_traced rfl _) fun _ => (setPINHash_saver _).bind fun _ => trivial
    · trivial

theorem handleChangePIN_saver (args : ClientPINArgs) : Saver E none (handleChangePIN E args) := by
  unfold handleChangePIN
  split
  · refine saver_then getPINRetries_traced fun _ => ?_
    split
    · trivial
    · refine saver_then (sharedSecret_traced _) fun _ => ?_
      split
      · trivial
      · refine saver_then getPINRetries_traced fun _ => saver_then (setPINRetries_traced rfl _) fun _ =>
          saver_then (lifts _) fun _ => saver_then (reads _) fun _ => ?_
        split
        · trivial
        · refine saver_then (setPINRetries_traced rfl _) fun _ => saver_then (lifts _) fun _ => ?_
          split
          · trivial
          · exact (setPINHash_saver _).bind fun _ => trivial
  · trivial

theorem handleClientPIN_saver (data : Bytes) : Saver E none (handleClientPIN E data) := by
  unfold handleClientPIN
  refine saver_then (reads _) fun _ => ?_
  split
  · trivial
  · split
    · trivial
    · split
      · trivial
      · split
        · unfold handleGetRetries
          exact saver_then getPINRetries_traced fun _ => trivial
        · split
          · unfold handleGetKeyAgreement
            exact saver_then (reads _) fun _ => trivial
          · split
            · exact handleSetPIN_saver _
            · split
              · exact handleChangePIN_saver _
              · split
                · exact saver_rest (getPINToken_traced rfl _)
                · trivial

theorem handleGetAssertion_saver (data : Bytes) : Saver E none (handleGetAssertion E data) := by
  unfold handleGetAssertion
  split
  · trivial
  · refine saver_then (getAssertionPIN_traced _) fun pin => ?_
    split
    · trivial
    · refine Saver.bind ?_ fun src => ?_
      · unfold getAssertionSource
        refine saver_then (looks _) fun _ => saver_then (getMatching_traced _ _ _) fun l => ?_
        split
        · trivial
        · refine saver_then (Q := fun _ => True) ?_ fun _ => saveData_saver.bind fun _ => trivial
          unfold bump
          exact (deref_traced _).then fun s => traced_write fun m => modify_keeps rfl m _ _
      · split
        · trivial
        · split
          · exact saver_rest (finishAssertion_traced rfl _ _ _)
          · refine saver_then (Q := fun _ => True) ?_ fun _ => ?_
            · unfold approveAccountLogin
              refine (deref_traced _).then fun s => ?_
              split
              · exact approve_traced rfl _ _ _
              · trivial
            · split
              · trivial
              · exact saver_rest (finishAssertion_traced rfl _ _ _)

theorem attest_saver (args : MakeCredArgs) (rp : RPEntity) (flags : UInt8) (p : Nat) : Saver E none (attest E args rp flags p) := by
  unfold attest
  exact saver_then (deref_traced _) fun _ => saver_then (lifts _) fun _ => saver_then (createCertificate_made rfl _) fun _ =>
    saver_then (signWith_made rfl _ _) fun _ => trivial

theorem newCredentialSource_saver (params : List CredParam) (ex : List Descriptor) (rp : Option RPEntity) (user : Option UserEntity) :
    Saver E none (newCredentialSource E params ex rp user) := by
  unfold newCredentialSource
  split
  · trivial
  · refine saver_then (draw_traced rfl) fun n => saver_then (draw_traced rfl) fun k => Saver.bind ?_ fun p => Saver.bind ?_ fun _ =>
      saveData_saver.bind fun _ => trivial
    · exact fun m => .inl ⟨rfl, trivial⟩
    · unfold addIdentity
      exact fun m => .inl ⟨rfl, fun m => .inl ⟨rfl, trivial⟩⟩

theorem handleMakeCredential_saver (data : Bytes) : Saver E none (handleMakeCredential E data) := by
  unfold handleMakeCredential
  split
  · trivial
  · split
    · trivial
    · refine saver_then (makeCredentialPIN_made _) fun pin => ?_
      split
      · trivial
      · split
        · trivial
        · refine saver_then (approve_traced rfl _ _ _) fun ok => ?_
          split
          · trivial
          · refine (newCredentialSource_saver _ _ _ _).bind fun r => ?_
            split
            · trivial
            · exact attest_saver _ _ _ _

theorem deleteIdentity_saver (id : Bytes) : Saver E none (deleteIdentity E id) := by
  unfold deleteIdentity
  refine saver_then (looks _) fun slots => saver_then (findIdentity_lt id slots) fun found => ?_
  split
  · refine Saver.bind (fun m => .inl ⟨rfl, trivial⟩) fun _ => saveData_saver.bind fun _ => trivial
  · trivial

theorem perform_saver (op : Op) : Saver E none (perform E op) := by
  cases op with
  | ctap msg =>
    cases msg with
    | nil => trivial
    | cons x body =>
      show Saver E none (handleCtap E (x :: body) >>= fun b => Pure.pure (Reply.answer b))
      refine Saver.bind ?_ fun _ => trivial
      unfold handleCtap
      dsimp only
      split
      · exact handleMakeCredential_saver body
      · split
        · exact saver_rest getInfo_traced
        · split
          · exact handleGetAssertion_saver body
          · split
            · exact handleClientPIN_saver body
            · trivial
  | u2f msg =>
    have h : ∀ m, (touches E (.u2f m)).store = false := by
      intro m
      unfold touches
      split <;> (first | rfl | (rename_i h; cases h))
    exact (saver_of_traced (h msg) (u2f_traced msg)).bind fun _ => trivial
  | enablePIN =>
    refine Saver.bind ?_ fun _ => trivial
    unfold enablePIN
    refine saver_then (Q := fun _ => True) ?_ fun _ => saveData_saver
    exact traced_write fun m => { keeps_refl besides m with pinEnabled := fun h' => by cases h' }
  | disablePIN =>
    refine Saver.bind ?_ fun _ => trivial
    unfold disablePIN
    refine saver_then (Q := fun _ => True) ?_ fun _ => saveData_saver
    exact traced_write fun m => { keeps_refl besides m with pinEnabled := fun h' => by cases h' }
  | setPIN pin => exact (setPINHash_saver _).bind fun _ => trivial
  | deleteIdentity id => exact (deleteIdentity_saver id).bind fun _ => trivial
  | restart => trivial

/-! ### The process -/

/-- A turn of goroutine `i` at which `d` was encrypted. -/
def Encrypted (E : Env) (cfg : Client.Config) (evs : List Event) (i : Nat) (d : Bytes) : Prop :=
  ∃ pre post state op p, evs = pre ++ .turn i :: post ∧
    Saved.encryptState E state E.passphrase (at_ E cfg pre).mem.world.rnd = some (d, (at_ E cfg (pre ++ [.turn i])).mem.world.rnd) ∧
    (at_ E cfg (pre ++ [.turn i])).threads[i]? = some (.working op p) ∧ Saver E (some d) p

theorem Encrypted.append {evs : List Event} {i : Nat} {d : Bytes} (h : Encrypted E cfg evs i d) (evs' : List Event) :
    Encrypted E cfg (evs ++ evs') i d := by
  obtain ⟨pre, post, state, op, p, rfl, h⟩ := h
  exact ⟨pre, post ++ evs', state, op, p, by simp, h⟩

/-- What is known after events. -/
structure Saving (E : Env) (cfg : Client.Config) (evs : List Event) : Prop where
  work : ∀ i op p, (at_ E cfg evs).threads[i]? = some (.working op p) → ∃ d, Saver E d p ∧ ∀ x ∈ d, Encrypted E cfg evs i x
  store : ∀ d, (at_ E cfg evs).mem.world.store = some d → ∃ i, Encrypted E cfg evs i d

theorem at_snoc (evs : List Event) (e : Event) : at_ E cfg (evs ++ [e]) = (at_ E cfg evs).step E cfg e := run_snoc _ _ _

theorem saving (evs : List Event) : Saving E cfg evs := by
  induction evs using Props.snoc_induction with
  | h0 => exact ⟨fun i op p h => (nomatch h), fun d h => (nomatch h)⟩
  | h1 evs e ih =>
    have hturn : ∀ {i op upd next}, e = .turn i → (at_ E cfg evs).alive = true →
        (at_ E cfg evs).threads[i]? = some (.working op (.act upd next)) →
        (at_ E cfg (evs ++ [e])).mem = upd (at_ E cfg evs).mem ∧
        (at_ E cfg (evs ++ [e])).threads[i]? = some (settle op (next (at_ E cfg evs).mem)) := by
      rintro i op upd next rfl ha hw
      rw [at_snoc]
      have hl := (List.getElem?_eq_some_iff.1 hw).1
      unfold Process.step
      simp only [hw, ha, if_true]
      cases next (at_ E cfg evs).mem with
      | ret a => exact ⟨rfl, by simp [Process.moved, hl, settle]⟩
      | fail c => exact ⟨rfl, by simp [Process.moved, hl, settle, Thread.ended]⟩
      | act u n => exact ⟨rfl, by simp [Process.moved, hl, settle]⟩
    constructor
    · intro i op p h
      have h0 := h
      rw [at_snoc] at h
      rcases thread_step h with ⟨u, hu, ⟨-, rfl⟩ | h⟩ | ⟨op', rfl, -, -, -, h⟩ | ⟨op', upd, next, he, ha, hw, h⟩
      · obtain ⟨d, h1, h2⟩ := ih.work i op p hu
        exact ⟨d, h1, fun x hx => (h2 x hx).append _⟩
      · exact absurd h.symm (ended_not_working u op p)
      · obtain ⟨rfl, rfl⟩ := settle_working h.symm
        exact ⟨none, perform_saver op, fun x h => (nomatch h)⟩
      · obtain ⟨rfl, rfl⟩ := settle_working h.symm
        obtain ⟨d, h1, h2⟩ := ih.work i _ _ hw
        cases d with
        | some d => exact ⟨none, (h1 (at_ E cfg evs).mem).2, fun x h => (nomatch h)⟩
        | none =>
          rcases h1 (at_ E cfg evs).mem with ⟨-, h3⟩ | ⟨-, state, data, h3, h4⟩
          · exact ⟨none, h3, fun x h => (nomatch h)⟩
          · refine ⟨some data, h4, ?_⟩
            intro x hx
            obtain rfl := Option.some.inj hx
            subst he
            exact ⟨evs, [], state, op, _, rfl, by rw [(hturn rfl ha hw).1]; exact h3, h0, h4⟩
    · intro d hd
      by_cases he : e = .restart
      · subst he
        have hs : (at_ E cfg (evs ++ [.restart])).mem.world.store = (at_ E cfg evs).mem.world.store := by
          rw [at_snoc]
          unfold Process.step
          dsimp only
          split <;> rfl
        rw [hs] at hd
        obtain ⟨i, h⟩ := ih.store d hd
        exact ⟨i, h.append _⟩
      · rcases step_mem (E := E) (cfg := cfg) (at_ E cfg evs) e he with h | ⟨i, op, upd, next, rfl, hw, ha, h⟩
        · rw [at_snoc, h] at hd
          obtain ⟨i, h⟩ := ih.store d hd
          exact ⟨i, h.append _⟩
        · rw [at_snoc, h] at hd
          obtain ⟨x, h1, h2⟩ := ih.work i _ _ hw
          cases x with
          | some x =>
            rw [(h1 (at_ E cfg evs).mem).1] at hd
            obtain rfl := Option.some.inj hd
            exact ⟨i, (h2 _ rfl).append _⟩
          | none =>
            have hs : (upd (at_ E cfg evs).mem).world.store = (at_ E cfg evs).mem.world.store := by
              rcases h1 (at_ E cfg evs).mem with ⟨h, -⟩ | ⟨h, -⟩
              · exact h
              · exact h
            rw [hs] at hd
            obtain ⟨i, h⟩ := ih.store d hd
            exact ⟨i, h.append _⟩

/-- The random values of saved data. -/
theorem encrypted_with (L : Laws E) {state : SavedState} {k n : Nat} {d : Bytes}
    (h : Saved.encryptState E state E.passphrase k = some (d, n)) :
    k < n ∧ n = k + 4 ∧ ∃ blob, E.parseBlob d = some blob ∧ blob.salt = E.rand k 16 ∧ dataKey E blob = some (E.rand (k + 1) 32) ∧
      blob.keyNonce = E.rand (k + 2) 12 ∧ blob.dataNonce = E.rand (k + 3) 12 := by
  unfold Saved.encryptState at h
  rw [Saved.encryptWithPassphrase_eq L] at h
  obtain ⟨rfl, rfl⟩ := Prod.mk.inj (Option.some.inj h)
  exact ⟨by omega, rfl, _, L.json_blob _, rfl, L.gcm_open _ _ _ (Saved.aesKeyOk_32 (L.scrypt_length _ _)) (L.rand_length _ _), rfl, rfl⟩

/-- Different saved data have been encrypted with different draws. -/
theorem encrypted_differ (L : Laws E) (hu : Usable E cfg) {evs : List Event} {i j : Nat} {d d' : Bytes} (h : Encrypted E cfg evs i d)
    (h' : Encrypted E cfg evs j d') (hne : d ≠ d') : ∃ k k' st st' n n', Saved.encryptState E st E.passphrase k = some (d, n) ∧
      Saved.encryptState E st' E.passphrase k' = some (d', n') ∧ (n ≤ k' ∨ n' ≤ k) ∧
      n ≤ (at_ E cfg evs).mem.world.rnd ∧ n' ≤ (at_ E cfg evs).mem.world.rnd := by
  obtain ⟨pre, post, st, op, p, rfl, h1, h2, h3⟩ := h
  obtain ⟨pre', post', st', op', p', he, h1', h2', h3'⟩ := h'
  have key : ∀ {p p' q q' : List Event} {a b : Nat}, p ++ .turn a :: q = p' ++ .turn b :: q' → p.length < p'.length →
      (at_ E cfg (p ++ [.turn a])).mem.world.rnd ≤ (at_ E cfg p').mem.world.rnd := by
    intro p p' q q' a b he hl
    obtain ⟨mid, rfl⟩ := prefix_of_lt he hl
    have := rnd_run (E := E) (cfg := cfg) L hu mid (p ++ [.turn a])
    rw [List.append_assoc] at this
    exact this
  have hend : ∀ {p q : List Event} {a : Nat}, (at_ E cfg (p ++ [.turn a])).mem.world.rnd ≤ (at_ E cfg (p ++ .turn a :: q)).mem.world.rnd := by
    intro p q a
    have := rnd_run (E := E) (cfg := cfg) L hu q (p ++ [.turn a])
    rw [List.append_assoc] at this
    exact this
  refine ⟨_, _, st, st', _, _, h1, h1', ?_, hend, by rw [he]; exact hend⟩
  rcases Nat.lt_trichotomy pre.length pre'.length with hl | hl | hl
  · exact .inl (key he hl)
  · exfalso
    obtain ⟨rfl, he2⟩ := List.append_inj he hl
    have he3 := (List.cons.inj he2).1
    injection he3 with he3
    subst he3
    rw [h2] at h2'
    injection h2' with h2'
    injection h2' with _ h2'
    subst h2'
    cases p with
    | ret a => exact h3
    | fail c => exact h3
    | act upd next =>
      have a1 := (h3 (at_ E cfg pre).mem).1
      have a2 := (h3' (at_ E cfg pre).mem).1
      rw [a1] at a2
      exact hne (Option.some.inj a2)
  · exact .inr (key he.symm hl)

end Overlap
end VF.Fido
