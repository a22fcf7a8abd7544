import Verif.Proofs.Exclusive

/-!
# The retry counter when ClientPIN requests come one at a time
-/

namespace VF.Fido.Overlap

open Prog VF.Spec.Overlap VF.Spec.History VF.Spec.Client

variable {E : Env} {cfg : Client.Config}

/-- The retry counter is as before. -/
def SameRetries (m m' : Mem) : Prop := m'.world.client.pinRetries = m.world.client.pinRetries

/-- What a ClientPIN request has done when it is answered. -/
def CountedPin (E : Env) (op : Op) (n : Int) (b : Bytes) (m : Mem) : Prop :=
  (b = [0x31] ∧ 0 < n ∧ n ≤ 8 ∧ m.world.client.pinRetries = n - 1) ∨
  (b ≠ [0x31] ∧ ((m.world.client.pinRetries = n ∧ isRightPIN E (op, .answer b) = false) ∨
    (isRightPIN E (op, .answer b) = true ∧ (0 < n ∨ isSetPIN E op = true) ∧ m.world.client.pinRetries = 8)))

section
variable {N G : Mem → Prop} {n : Int} {m : Mem} {data : Bytes} {args : ClientPINArgs}

theorem same_retries {α : Type} {Q : α → Prop} {t : Touches} (ht : t.pinRetries = false) {p : Prog α}
    (h : Traced (fun _ => True) (fun _ => False) (Keeps t) Q p) (hG : ∀ m, G m) (hm : m.world.client.pinRetries = n) :
    Runs N SameRetries G (fun a m => Q a ∧ m.world.client.pinRetries = n) p m :=
  Runs.of_traced (P := fun m => m.world.client.pinRetries = n) h (fun _ _ h1 h2 _ => h2.trans h1)
    (fun _ _ h1 h2 => (h2.pinRetries ht).trans h1) (fun m _ => hG m) hm

theorem getRetries_runs (hG : ∀ m, G m) (hm : m.world.client.pinRetries = n) :
    Runs N SameRetries G (fun k m => k = n ∧ 0 < n ∧ n ≤ 8 ∧ m.world.client.pinRetries = n) getPINRetries m := by
  unfold getPINRetries
  intro m1 r1 _ _
  have b1 : m1.world.client.pinRetries = n := r1.trans hm
  refine ⟨hG _, ?_⟩
  show Runs N SameRetries G _ (if 0 < m1.world.client.pinRetries then _ else _) m1
  split
  · rename_i h1
    rw [b1] at h1
    intro m2 r2 _ _
    have b2 : m2.world.client.pinRetries = n := r2.trans b1
    refine ⟨hG _, ?_⟩
    show Runs N SameRetries G _ (if m2.world.client.pinRetries ≤ 8 then _ else _) m2
    split
    · rename_i h2
      rw [b2] at h2
      intro m3 r3 _ _
      have b3 : m3.world.client.pinRetries = n := r3.trans b2
      exact ⟨hG _, b3, h1, h2, b3⟩
    · trivial
  · trivial

theorem setRetries_runs (k : Int) (hG : ∀ m, G m) :
    Runs N SameRetries G (fun _ m => m.world.client.pinRetries = k) (setPINRetries k) m :=
  fun _ _ _ _ => ⟨hG _, rfl⟩

theorem kept {op : Op} {b : Bytes} (h : b ≠ [0x31]) (h' : isRightPIN E (op, .answer b) = false) (hm : m.world.client.pinRetries = n) :
    CountedPin E op n b m :=
  .inr ⟨h, .inl ⟨hm, h'⟩⟩

theorem no_attempt (hd : E.decodeClientPIN data = some args) (h4 : args.subCommand ≠ 4) (h5 : args.subCommand ≠ 5) :
    isPINAttempt E (.ctap (6 :: data)) = false := by
  show (match E.decodeClientPIN data with | some args => _ | none => _) = false
  rw [hd]
  simp [h4, h5]

theorem no_set (hd : E.decodeClientPIN data = some args) (h3 : args.subCommand ≠ 3) : isSetPIN E (.ctap (6 :: data)) = false := by
  show (match E.decodeClientPIN data with | some args => _ | none => _) = false
  rw [hd]
  simp [h3]

theorem no_right (hd : E.decodeClientPIN data = some args) (h3 : args.subCommand ≠ 3) (h4 : args.subCommand ≠ 4)
    (h5 : args.subCommand ≠ 5) (b : Bytes) : isRightPIN E (.ctap (6 :: data), .answer (Ctap.success :: b)) = false := by
  show (isPINAttempt E (.ctap (6 :: data)) || isSetPIN E (.ctap (6 :: data))) = false
  rw [no_attempt hd h4 h5, no_set hd h3]
  rfl

theorem right_attempt (hd : E.decodeClientPIN data = some args) (hs : args.subCommand = 4 ∨ args.subCommand = 5) :
    isPINAttempt E (.ctap (6 :: data)) = true := by
  show (match E.decodeClientPIN data with | some args => _ | none => _) = true
  rw [hd]
  rcases hs with hs | hs <;> simp [hs]

theorem setPIN_runs (hd : E.decodeClientPIN data = some args) (hs : args.subCommand = 3) (hG : ∀ m, G m)
    (hm : m.world.client.pinRetries = n) :
    Runs N SameRetries G (CountedPin E (.ctap (6 :: data)) n) (handleSetPIN E args) m := by
  unfold handleSetPIN
  refine (same_retries (t := {}) rfl (reads _) hG hm).bind ?_
  rintro hash m1 ⟨-, b1⟩
  split
  · exact kept (by decide) rfl b1
  · split
    · refine (same_retries (t := {}) rfl (sharedSecret_traced _) hG b1).bind ?_
      rintro secret m2 ⟨-, b2⟩
      split
      · exact kept (by decide) rfl b2
      · refine (same_retries (t := {}) rfl (lifts _) hG b2).bind ?_
        rintro pin m3 ⟨-, b3⟩
        split
        · exact kept (by decide) (no_attempt hd (by rw [hs]; decide) (by rw [hs]; decide)) b3
        · refine (setRetries_runs 8 hG).bind ?_
          rintro _ m4 b4
          refine (same_retries (t := { rnd := true, store := true, pinHash := true }) rfl (setPINHash_traced rfl rfl rfl _) hG b4).bind ?_
          rintro _ m5 ⟨-, b5⟩
          have hset : isSetPIN E (.ctap (6 :: data)) = true := by
            show (match E.decodeClientPIN data with | some args => _ | none => _) = true
            rw [hd]
            simp [hs]
          refine .inr ⟨by decide, .inr ⟨?_, .inr hset, b5⟩⟩
          show (isPINAttempt E (.ctap (6 :: data)) || isSetPIN E (.ctap (6 :: data))) = true
          rw [hset, Bool.or_true]
    · exact kept (by decide) rfl b1

theorem changePIN_runs (hd : E.decodeClientPIN data = some args) (hs : args.subCommand = 4) (hG : ∀ m, G m)
    (hm : m.world.client.pinRetries = n) :
    Runs N SameRetries G (CountedPin E (.ctap (6 :: data)) n) (handleChangePIN E args) m := by
  have hat := right_attempt hd (.inl hs)
  unfold handleChangePIN
  split
  · refine (getRetries_runs hG hm).bind ?_
    rintro k m1 ⟨rfl, -, -, b1⟩
    split
    · exact kept (by decide) rfl b1
    · refine (same_retries (t := {}) rfl (sharedSecret_traced _) hG b1).bind ?_
      rintro secret m2 ⟨-, b2⟩
      split
      · exact kept (by decide) rfl b2
      · refine (getRetries_runs hG b2).bind ?_
        rintro k m3 ⟨rfl, p1, p2, -⟩
        refine (setRetries_runs _ hG).bind ?_
        rintro _ m4 b4
        refine (same_retries (t := {}) rfl (lifts _) hG b4).bind ?_
        rintro hash m5 ⟨-, b5⟩
        refine (same_retries (t := {}) rfl (reads _) hG b5).bind ?_
        rintro own m6 ⟨-, b6⟩
        split
        · exact .inl ⟨rfl, p1, p2, b6⟩
        · refine (setRetries_runs 8 hG).bind ?_
          rintro _ m7 b7
          refine (same_retries (t := {}) rfl (lifts _) hG b7).bind ?_
          rintro pin m8 ⟨-, b8⟩
          split
          · exact .inr ⟨by decide, .inr ⟨hat, .inl p1, b8⟩⟩
          · refine (same_retries (t := { rnd := true, store := true, pinHash := true }) rfl (setPINHash_traced rfl rfl rfl _) hG b8).bind ?_
            rintro _ m9 ⟨-, b9⟩
            refine .inr ⟨by decide, .inr ⟨?_, .inl p1, b9⟩⟩
            show (isPINAttempt E (.ctap (6 :: data)) || isSetPIN E (.ctap (6 :: data))) = true
            rw [hat]
            rfl
  · exact kept (by decide) rfl hm

theorem getPINToken_runs (hd : E.decodeClientPIN data = some args) (hs : args.subCommand = 5) (hG : ∀ m, G m)
    (hm : m.world.client.pinRetries = n) :
    Runs N SameRetries G (CountedPin E (.ctap (6 :: data)) n) (handleGetPINToken E args) m := by
  have hat := right_attempt hd (.inr hs)
  unfold handleGetPINToken
  split
  · exact kept (by decide) rfl hm
  · split
    · trivial
    · split
      · exact kept (by decide) rfl hm
      · refine (getRetries_runs hG hm).bind ?_
        rintro k m1 ⟨rfl, -, -, b1⟩
        split
        · exact kept (by decide) rfl b1
        · refine (same_retries (t := {}) rfl (sharedSecret_traced _) hG b1).bind ?_
          rintro secret m2 ⟨-, b2⟩
          refine (getRetries_runs hG b2).bind ?_
          rintro k m3 ⟨rfl, p1, p2, -⟩
          unfold attempt
          refine (setRetries_runs _ hG).bind ?_
          rintro _ m4 b4
          refine (same_retries (t := {}) rfl (lifts _) hG b4).bind ?_
          rintro hash m5 ⟨-, b5⟩
          refine (same_retries (t := {}) rfl (reads _) hG b5).bind ?_
          rintro own m6 ⟨-, b6⟩
          split
          · exact .inl ⟨rfl, p1, p2, b6⟩
          · refine (setRetries_runs 8 hG).bind ?_
            rintro _ m7 b7
            refine (same_retries (t := {}) rfl (reads _) hG b7).bind ?_
            rintro token m8 ⟨-, b8⟩
            refine (same_retries (t := {}) rfl (lifts _) hG b8).bind ?_
            rintro sent m9 ⟨-, b9⟩
            refine .inr ⟨by simp [Ctap.success], .inr ⟨?_, .inl p1, b9⟩⟩
            show (isPINAttempt E (.ctap (6 :: data)) || isSetPIN E (.ctap (6 :: data))) = true
            rw [hat]
            rfl

theorem clientPIN_runs (data : Bytes) (hG : ∀ m, G m) (hm : m.world.client.pinRetries = n) :
    Runs N SameRetries G (CountedPin E (.ctap (6 :: data)) n) (handleClientPIN E data) m := by
  unfold handleClientPIN
  refine (same_retries (t := {}) rfl (reads _) hG hm).bind ?_
  rintro enabled m1 ⟨-, b1⟩
  split
  · exact kept (by decide) rfl b1
  · split
    · exact kept (by decide) rfl b1
    · rename_i args hd
      split
      · exact kept (by decide) rfl b1
      · split
        · rename_i hs
          unfold handleGetRetries
          refine (getRetries_runs hG b1).bind ?_
          rintro k m2 ⟨rfl, -, -, b2⟩
          exact kept (by simp [Ctap.success]) (no_right hd (by rw [hs]; decide) (by rw [hs]; decide) (by rw [hs]; decide) _) b2
        · split
          · rename_i hs
            unfold handleGetKeyAgreement
            refine (same_retries (t := {}) rfl (reads _) hG b1).bind ?_
            rintro k m2 ⟨-, b2⟩
            exact kept (by simp [Ctap.success]) (no_right hd (by rw [hs]; decide) (by rw [hs]; decide) (by rw [hs]; decide) _) b2
          · split
            · rename_i hs
              exact setPIN_runs hd hs hG b1
            · split
              · rename_i hs
                exact changePIN_runs hd hs hG b1
              · split
                · rename_i hs
                  exact getPINToken_runs hd hs hG b1
                · exact kept (by decide) rfl b1

end

theorem pin_runs {N G : Mem → Prop} {n : Int} {m : Mem} {op : Op} (hk : isClientPIN op = true) (hG : ∀ m, G m)
    (hm : m.world.client.pinRetries = n) :
    Runs N SameRetries G (fun r m => ∃ b, r = .answer b ∧ CountedPin E op n b m) (perform E op) m := by
  unfold isClientPIN at hk
  split at hk
  · rename_i data
    exact (clientPIN_runs data hG hm).bind (fun b m hb => ⟨b, rfl, hb⟩)
  · cases hk

/-- The account of the retry counter: of the answers since any moment, if none was right, none was wrong or the counter has what is left. -/
def Rest (E : Env) (n : Int) (new : List (Op × Reply)) : Prop :=
  ∀ a b, new = a ++ b → (∀ e ∈ b, isRightPIN E e = false) →
    b.countP isWrongPIN = 0 ∨ (0 ≤ n ∧ (b.countP isWrongPIN : Int) + n ≤ 8)

theorem append_snoc {α : Type} {a b l : List α} {x : α} (h : l ++ [x] = a ++ b) :
    (b = [] ∧ a = l ++ [x]) ∨ ∃ b', b = b' ++ [x] ∧ l = a ++ b' := by
  rcases List.eq_nil_or_concat b with rfl | ⟨b', y, rfl⟩
  · exact .inl ⟨rfl, by simpa using h.symm⟩
  · rw [List.concat_eq_append, ← List.append_assoc] at h
    obtain ⟨h1, h2⟩ := List.append_inj' h rfl
    obtain rfl : x = y := by simpa using h2
    exact .inr ⟨b', by simp, h1⟩

/-- One more answer. -/
theorem rest_snoc {n n' : Int} {new : List (Op × Reply)} {e : Op × Reply} (h : Rest E n new) (h' : EightInARow E new)
    (he : (isWrongPIN e = true ∧ 0 < n ∧ n ≤ 8 ∧ n' = n - 1) ∨
      (isWrongPIN e = false ∧ isRightPIN E e = true ∧ (0 < n ∨ isSetPIN E e.1 = true))) :
    Rest E n' (new ++ [e]) ∧ EightInARow E (new ++ [e]) := by
  have hr : Rest E n' (new ++ [e]) := by
    intro a b hab hno
    rcases append_snoc hab with ⟨rfl, -⟩ | ⟨b, rfl, rfl⟩
    · exact .inl rfl
    · have h1 := h a b rfl (fun e he => hno e (by simp [he]))
      rcases he with ⟨hw, h2, h3, rfl⟩ | ⟨-, hright, -⟩
      · rw [List.countP_append, List.countP_singleton, if_pos hw]
        right
        push_cast
        rcases h1 with h1 | h1
        · rw [h1]; omega
        · omega
      · rw [hno e (by simp)] at hright
        cases hright
  refine ⟨hr, ?_⟩
  intro a b c hab hno
  rcases append_snoc hab with ⟨rfl, hb⟩ | ⟨c, rfl, rfl⟩
  · have h1 := hr a b hb.symm hno
    refine ⟨by rcases h1 with h1 | h1 <;> omega, ?_⟩
    intro _ e he
    cases he
  · obtain ⟨h1, h2⟩ := h' a b c rfl hno
    refine ⟨h1, fun h8 x hx => ?_⟩
    cases c with
    | cons y c => exact h2 h8 x hx
    | nil =>
      obtain rfl : e = x := by simpa using hx
      have h3 := h a b (by simp) hno
      rcases he with ⟨-, h4, -, -⟩ | ⟨-, -, h4 | h4⟩
      · exfalso; rcases h3 with h3 | h3 <;> omega
      · exfalso; rcases h3 with h3 | h3 <;> omega
      · exact h4

theorem tried_kind {op : Op} {r : Reply} (h : tried E (op, r) = true) : isClientPIN op = true := by
  unfold tried at h
  rcases Bool.or_eq_true_iff.1 h with h | h
  · unfold isWrongPIN at h
    split at h
    · rename_i e
      injection e with e1 e2
      rw [e1]
      rfl
    · cases h
  · have : isPINAttempt E op = true ∨ isSetPIN E op = true := by
      unfold isRightPIN at h
      split at h
      · rename_i e
        injection e with e1 e2
        rw [e1]
        exact Bool.or_eq_true_iff.1 h
      · rename_i e
        injection e with e1 e2
        rw [e1]
        exact .inl h
      · cases h
    rcases this with h | h
    · unfold isPINAttempt at h
      split at h
      · rfl
      · cases h
    · unfold isSetPIN at h
      split at h
      · rfl
      · cases h

theorem pin_rule (l0 : List (Op × Reply)) :
    Rule E (fun _ => True) isClientPIN (tried E) (fun _ => True) SameRetries
      (fun m l => ∃ new, l = l0 ++ new ∧ Rest E m.world.client.pinRetries new ∧ EightInARow E new)
      (fun _ l => ∃ new, l = l0 ++ new ∧ EightInARow E new) where
  refl := fun _ => rfl
  trans := fun _ _ _ h k => Eq.trans k h
  others := by
    intro op m m' _ hk h
    refine h.pinRetries ?_
    unfold touches
    split <;> first | rfl | (simp [isClientPIN] at hk; done)
  kinds := fun _ _ => tried_kind
  instant := by
    intro op r hp
    cases hs : tried E (op, r) with
    | false => rfl
    | true =>
      have hk := tried_kind hs
      unfold isClientPIN at hk
      split at hk
      · cases hp
      · cases hk
  inner := by
    rintro m m' l ⟨new, rfl, h⟩ hr -
    refine ⟨new, rfl, ?_⟩
    rw [show m'.world.client.pinRetries = _ from hr]
    exact h
  outer := by
    rintro m m' l h - -
    exact h
  weaker := by
    rintro m l ⟨new, rfl, -, h⟩
    exact ⟨new, rfl, h⟩
  op := by
    rintro op m l - hk - ⟨new, rfl, h, h'⟩
    refine Runs.mono (pin_runs hk (fun _ => ⟨new, rfl, h'⟩) rfl) ?_
    rintro r m' ⟨b, rfl, hb⟩
    have hwrong : isWrongPIN (op, .answer b) = true ↔ b = [0x31] := by
      unfold isClientPIN at hk
      split at hk
      · unfold isWrongPIN
        split
        · rename_i e
          simp at e
          simp [e]
        · rename_i data' e
          constructor
          · intro h; cases h
          · rintro rfl
            exact absurd rfl (e _)
      · cases hk
    rcases hb with ⟨rfl, p1, p2, hb⟩ | ⟨hne, hb⟩
    · have e : tried E (op, .answer [0x31]) = true := by
        unfold tried
        rw [hwrong.2 rfl]
        rfl
      rw [e, if_pos rfl]
      exact ⟨new ++ [(op, .answer [0x31])], by rw [List.append_assoc], rest_snoc h h' (.inl ⟨hwrong.2 rfl, p1, p2, hb⟩)⟩
    · have hw : isWrongPIN (op, .answer b) = false := Bool.eq_false_iff.2 (fun h => hne (hwrong.1 h))
      cases hr : isRightPIN E (op, .answer b) with
      | true =>
        have e : tried E (op, .answer b) = true := by
          unfold tried
          rw [hr, Bool.or_true]
        rw [e, if_pos rfl]
        rcases hb with ⟨-, hb⟩ | ⟨-, hb, -⟩
        · rw [hr] at hb
          cases hb
        · exact ⟨new ++ [(op, .answer b)], by rw [List.append_assoc], rest_snoc h h' (.inr ⟨hw, hr, hb⟩)⟩
      | false =>
        have e : tried E (op, .answer b) = false := by
          unfold tried
          rw [hr, hw]
          rfl
        rw [e]
        rcases hb with ⟨hb, -⟩ | ⟨hb, -⟩
        · exact ⟨new, by simp, by rw [hb]; exact h, h'⟩
        · rw [hr] at hb
          cases hb

end VF.Fido.Overlap
