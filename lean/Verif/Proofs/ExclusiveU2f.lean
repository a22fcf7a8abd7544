import Verif.Proofs.Exclusive
import Verif.Proofs.U2fSpec

/-!
# The U2F counter when U2F authentications come one at a time
-/

namespace VF.Fido.Overlap

open Prog VF.Spec.Overlap VF.Spec.History VF.Spec.U2f VF.Spec.Client

variable {E : Env} {cfg : Client.Config}

/-- The U2F counter is as before. -/
def SameCounter (m m' : Mem) : Prop := m'.world.client.authCounter = m.world.client.authCounter

/-- What a U2F authentication has done when it is answered. -/
def CountedU2f (c : UInt32) (b : Bytes) (m : Mem) : Prop :=
  (parseAuthentication b = none ∧ m.world.client.authCounter = c) ∨
  ∃ a, parseAuthentication b = some a ∧ a.counter = c.toNat ∧ m.world.client.authCounter = c + 1

section
variable {N G : Mem → Prop} {c : UInt32} {m : Mem}

theorem same_runs {α : Type} {Q : α → Prop} {t : Touches} (ht : t.authCounter = false) {p : Prog α}
    (h : Traced (fun _ => True) (fun _ => False) (Keeps t) Q p) (hG : ∀ m, G m) (hm : m.world.client.authCounter = c) :
    Runs N SameCounter G (fun a m => Q a ∧ m.world.client.authCounter = c) p m :=
  Runs.of_traced (P := fun m => m.world.client.authCounter = c) h (fun _ _ h1 h2 _ => h2.trans h1)
    (fun _ _ h1 h2 => (h2.authCounter ht).trans h1) (fun m _ => hG m) hm

theorem openKeyHandle_traced {t : Touches} (handle : Bytes) :
    Traced (fun _ => True) (fun _ => False) (Keeps t) (fun _ => True) (openKeyHandle E handle) := by
  unfold openKeyHandle
  split
  · trivial
  · exact (reads _).then fun _ => (lifts _).then fun _ => trivial

theorem finishAuthenticate_runs (key : ECPriv) (application challenge : Bytes) (hG : ∀ m, G m)
    (hm : m.world.client.authCounter = c) :
    Runs N SameCounter G (CountedU2f c) (finishAuthenticate E key application challenge) m := by
  unfold finishAuthenticate
  refine Runs.bind (Q := fun n m => n = c ∧ m.world.client.authCounter = c + 1) ?_ ?_
  · intro m1 r1 _ _
    have b1 : m1.world.client.authCounter = c := r1.trans hm
    refine ⟨hG _, ?_⟩
    intro m2 r2 _ _
    have b2 : m2.world.client.authCounter = c := r2.trans b1
    refine ⟨hG _, ?_⟩
    intro m3 _ _ _
    refine ⟨hG _, b1, ?_⟩
    show m2.world.client.authCounter + 1 = _
    rw [b2]
  · rintro n m1 ⟨rfl, b1⟩
    refine (same_runs (t := { rnd := true }) rfl (signWith_traced rfl _ _) hG b1).bind ?_
    rintro sig m2 ⟨-, b2⟩
    refine .inr ⟨{ userPresence := 1, counter := n.toNat, counterBytes := be32 n, signature := sig }, ?_, rfl, b2⟩
    rw [← U2f.parseAuthentication_answer n sig]
    simp [Util.concat_eq, Util.toBE16_eq]
    rfl

theorem parse_error {b : Bytes} (h : U2f.isError b) : parseAuthentication b = none := by
  simp [parseAuthentication, U2f.succeeded_error h]

theorem handleAuthenticate_runs (control : UInt8) (request : Bytes) (hG : ∀ m, G m)
    (hm : m.world.client.authCounter = c) :
    Runs N SameCounter G (CountedU2f c) (handleAuthenticate E control request) m := by
  unfold handleAuthenticate
  cases hd : U2f.decodeAuthenticate request with
  | panic e => trivial
  | ok x =>
    obtain ⟨challenge, application, handle⟩ := x
    refine Runs.bind (Q := fun x m => x = (challenge, application, handle) ∧ m.world.client.authCounter = c) ⟨rfl, hm⟩ ?_
    rintro _ m0 ⟨rfl, hm⟩
    dsimp only
    refine (same_runs (t := {}) rfl (openKeyHandle_traced handle) hG hm).bind ?_
    rintro opened m1 ⟨-, b1⟩
    split
    · exact .inl ⟨parse_error (.inl rfl), b1⟩
    · split
      · exact .inl ⟨parse_error (.inl rfl), b1⟩
      · split
        · exact .inl ⟨parse_error (.inl rfl), b1⟩
        · split
          · trivial
          · split
            · exact .inl ⟨parse_error (.inr (.inl rfl)), b1⟩
            · split
              · refine (same_runs (t := { asks := true }) rfl (approve_traced rfl _ _ _) hG b1).bind ?_
                rintro a m2 ⟨-, b2⟩
                split
                · exact .inl ⟨parse_error (.inr (.inl rfl)), b2⟩
                · exact finishAuthenticate_runs _ _ _ hG b2
              · split
                · exact finishAuthenticate_runs _ _ _ hG b1
                · exact .inl ⟨parse_error (.inr (.inr rfl)), b1⟩

end

theorem authenticate_runs {N G : Mem → Prop} {c : UInt32} {m : Mem} {op : Op} (hk : isU2fAuthenticate op = true)
    (hG : ∀ m, G m) (hm : m.world.client.authCounter = c) :
    Runs N SameCounter G (fun r m => ∃ b, r = .answer b ∧ CountedU2f c b m) (perform E op) m := by
  obtain ⟨data, rfl⟩ : ∃ data, op = .u2f data := by
    unfold isU2fAuthenticate at hk
    split at hk
    · exact ⟨_, rfl⟩
    · cases hk
  refine Runs.bind (Q := CountedU2f c) ?_ (fun b m hb => ⟨b, rfl, hb⟩)
  unfold handleU2f
  cases hd : U2f.decodeMessage data with
  | panic e => trivial
  | ok x =>
    obtain ⟨header, request, n⟩ := x
    have he : header.command = 2 := by
      match data, hd, hk with
      | [], hd, _ => simp [U2f.decodeMessage] at hd
      | [_], hd, _ => simp [U2f.decodeMessage] at hd
      | [_, _], hd, _ => simp [U2f.decodeMessage] at hd
      | [_, _, _], hd, _ => simp [U2f.decodeMessage] at hd
      | cla :: ins :: p1 :: p2 :: rest, hd, hk =>
        have := U2f.decodeMessage_header hd
        dsimp only at this
        rw [this]
        unfold isU2fAuthenticate at hk
        split at hk
        · rename_i e
          simp only [Op.u2f.injEq, List.cons.injEq] at e
          exact e.2.1
        · cases hk
    show Runs N SameCounter G (CountedU2f c) (if header.command = 0x03 then _ else _) m
    rw [if_neg (by rw [he]; decide), if_neg (by rw [he]; decide), if_pos he]
    exact handleAuthenticate_runs _ _ hG hm

/-- Successful answers to U2F authentications. -/
def authenticated : Op × Reply → Bool
  | (op, .answer b) => isU2fAuthenticate op && (parseAuthentication b).isSome
  | _ => false

/-- The account of the U2F counter. -/
def U2fLedger (base : UInt32) (new : List (Op × Reply)) : Prop :=
  ∀ (k : Nat) op b a, new[k]? = some (op, .answer b) → parseAuthentication b = some a →
    a.counter = (base + UInt32.ofNat k).toNat

theorem u2f_rule (base : UInt32) (l0 : List (Op × Reply)) :
    Rule E (fun _ => True) isU2fAuthenticate authenticated (fun _ => True) SameCounter
      (fun m l => ∃ new, l = l0 ++ new ∧ m.world.client.authCounter = base + UInt32.ofNat new.length ∧ U2fLedger base new)
      (fun _ l => ∃ new, l = l0 ++ new ∧ U2fLedger base new) where
  refl := fun _ => rfl
  trans := fun _ _ _ h k => Eq.trans k h
  others := by
    intro op m m' _ hk h
    refine h.authCounter ?_
    unfold touches
    split <;> first | rfl | (simp [isU2fAuthenticate] at hk; done) | skip
    split
    · split
      · rfl
      · split <;> rfl
    · rfl
  kinds := by
    intro op r h
    unfold authenticated at h
    split at h
    · rename_i e
      injection e with e1 e2
      rw [← e1] at h
      exact (Bool.and_eq_true_iff.1 h).1
    · cases h
  instant := by
    intro op r hp
    cases hs : authenticated (op, r) with
    | false => rfl
    | true =>
      exfalso
      unfold authenticated at hs
      split at hs
      · rename_i e
        injection e with e1 e2
        subst e1 e2
        obtain ⟨h1, h2⟩ := Bool.and_eq_true_iff.1 hs
        have h := authenticate_runs (E := E) (N := fun _ => True) (G := fun _ => True) (m := (boot E ⟨[], {}, [], false⟩).mem) h1
          (fun _ => trivial) rfl
        rw [hp] at h
        obtain ⟨b', e, h⟩ := h
        injection e with e
        subst e
        rcases h with ⟨h, -⟩ | ⟨a, -, -, h⟩
        · rw [h] at h2
          cases h2
        · have h := congrArg UInt32.toBitVec h
          simp at h
      · cases hs
  inner := by
    rintro m m' l ⟨new, rfl, h, h'⟩ hr -
    exact ⟨new, rfl, hr.trans h, h'⟩
  outer := by
    rintro m m' l h - -
    exact h
  weaker := by
    rintro m l ⟨new, rfl, -, h⟩
    exact ⟨new, rfl, h⟩
  op := by
    rintro op m l - hk - ⟨new, rfl, h, h'⟩
    refine Runs.mono (authenticate_runs hk (fun _ => ⟨new, rfl, h'⟩) h) ?_
    rintro r m' ⟨b, rfl, hb | ⟨a, ha, ha', hb⟩⟩
    · obtain ⟨hb1, hb2⟩ := hb
      have e : authenticated (op, .answer b) = false := by
        unfold authenticated
        simp [hb1]
      refine ⟨new, ?_, hb2, h'⟩
      rw [e]
      simp
    · have e : authenticated (op, .answer b) = true := by
        unfold authenticated
        simp [ha, hk]
      refine ⟨new ++ [(op, .answer b)], ?_, ?_, ?_⟩
      · rw [e, if_pos rfl, List.append_assoc]
      · rw [hb, List.length_append, List.length_singleton, UInt32.ofNat_add, UInt32.add_assoc]
        rfl
      · intro k op' b' a' hk' hp
        rcases getElem_snoc hk' with ⟨-, hk'⟩ | ⟨rfl, e'⟩
        · exact h' k op' b' a' hk' hp
        · injection e' with e1 e2
          injection e2 with e2
          rw [e2, ha] at hp
          rw [← Option.some.inj hp]
          exact ha'

/-- Two U2F authentications. -/
theorem two_authentications {evs evs' : List Event} (hx : Exclusive isU2fAuthenticate E cfg evs evs') {i j : Nat}
    {op op' : Op} {b b' : Bytes} {a a' : Authentication} (hk : isU2fAuthenticate op = true) (hk' : isU2fAuthenticate op' = true)
    (hn : ((boot E cfg).run E cfg evs).threads.length ≤ i) (hij : i < j)
    (hi : ((boot E cfg).run E cfg (evs ++ evs')).threads[i]? = some (.ready op (.answer b)))
    (hj : ((boot E cfg).run E cfg (evs ++ evs')).threads[j]? = some (.ready op' (.answer b')))
    (ha : parseAuthentication b = some a) (ha' : parseAuthentication b' = some a') :
    ∃ n n', a.counter = (((boot E cfg).run E cfg evs).mem.world.client.authCounter + UInt32.ofNat n).toNat ∧
      a'.counter = (((boot E cfg).run E cfg evs).mem.world.client.authCounter + UInt32.ofNat n').toNat ∧
      n < n' ∧ n' < ((boot E cfg).run E cfg (evs ++ evs')).threads.countP (fun t => isU2fAuthenticate (opOf t)) := by
  have hrule := u2f_rule (E := E) ((boot E cfg).run E cfg evs).mem.world.client.authCounter
    (selected authenticated ((boot E cfg).run E cfg evs))
  obtain ⟨new, hnew, h⟩ := exclusive_run hrule (fun _ => trivial) hx ⟨[], by simp, by simp, by intro k op b a h; simp at h⟩
  obtain ⟨k, k', hkk, e1, e2⟩ := selected_places hx.running hn hij hi hj (by simp [authenticated, hk, ha])
    (by simp [authenticated, hk', ha']) hnew
  have l1 := selected_length (sel := authenticated) ((boot E cfg).run E cfg (evs ++ evs')) hrule.kinds
  rw [hnew, List.length_append] at l1
  have l2 := (List.getElem?_eq_some_iff.1 e2).1
  exact ⟨k, k', h k _ _ _ e1 ha, h k' _ _ _ e2 ha', hkk, by omega⟩

end VF.Fido.Overlap
