import Verif.Proofs.OverlapIdsRun
import Verif.Proofs.OverlapPin
import Verif.Props.Log
import Verif.Proofs.ExclusiveKept
import Verif.Spec.Draws

/-!
# Results made with a random draw of their own
-/

namespace VF.Fido

namespace Prog

variable {α β : Type}

theorem traced_any (p : Prog α) : Traced (fun _ => True) (fun _ => False) (fun _ _ => True) (fun _ => True) p := by
  induction p with
  | ret a => trivial
  | fail c => trivial
  | act upd next ih => exact fun m _ => .inr ⟨trivial, ih m⟩

/-- A result will be in `Q`, if others leave credentials where they are (with other counters perhaps). -/
def Comes (Q : α → Mem → Prop) : Prog α → Mem → Prop
  | ret a, m => Q a m
  | fail _, _ => True
  | act upd next, m => ∀ m', Overlap.HeapLe m m' → Overlap.HeapLe m' (upd m') → Comes Q (next m') (upd m')

theorem Comes.later {Q : α → Mem → Prop} (hQ : ∀ a m m', Overlap.HeapLe m m' → Q a m → Q a m') {p : Prog α} {m m' : Mem}
    (h : Comes Q p m) (hm : Overlap.HeapLe m m') : Comes Q p m' := by
  cases p with
  | ret a => exact hQ a m m' hm h
  | fail c => trivial
  | act upd next => exact fun m'' h1 h2 => h m'' (hm.trans h1) h2

theorem Comes.of_traced {F : Mem → Mem → Prop} {Q : α → Prop} {p : Prog α} (h : Traced (fun _ => True) (fun _ => False) F Q p) (m : Mem) :
    Comes (fun a m' => Q a ∧ Overlap.HeapLe m m') p m := by
  suffices ∀ m0, Overlap.HeapLe m0 m → Comes (fun a m' => Q a ∧ Overlap.HeapLe m0 m') p m from this m (Overlap.HeapLe.refl m)
  induction p generalizing m with
  | ret a => exact fun m0 h0 => ⟨h, h0⟩
  | fail c => exact fun _ _ => trivial
  | act upd next ih =>
    intro m0 h0 m' h1 h2
    rcases h m' trivial with h' | ⟨-, h'⟩
    · exact h'.elim
    · exact ih m' h' _ m0 (h0.trans (h1.trans h2))

theorem Comes.bind {Q : α → Mem → Prop} {R : β → Mem → Prop} {p : Prog α} {f : α → Prog β} {m : Mem} (h : Comes Q p m)
    (hf : ∀ a m', Q a m' → Comes R (f a) m') : Comes R (p >>= f) m := by
  induction p generalizing m with
  | ret a => exact hf a m h
  | fail c => trivial
  | act upd next ih => exact fun m' h1 h2 => ih m' (h m' h1 h2)

theorem Comes.after {F : Mem → Mem → Prop} {Q : α → Prop} {R : β → Mem → Prop} {p : Prog α} {f : α → Prog β} {m : Mem}
    (h : Traced (fun _ => True) (fun _ => False) F Q p)
    (hf : ∀ a m', Q a → Overlap.HeapLe m m' → Comes R (f a) m') : Comes R (p >>= f) m :=
  (Comes.of_traced h m).bind fun a m' h => hf a m' h.1 h.2

theorem Comes.mono {Q R : α → Mem → Prop} (hQ : ∀ a m, Q a m → R a m) {p : Prog α} {m : Mem} (h : Comes Q p m) : Comes R p m := by
  induction p generalizing m with
  | ret a => exact hQ a m h
  | fail c => trivial
  | act upd next ih => exact fun m' h1 h2 => ih m' (h m' h1 h2)

theorem comes_of_traced {F : Mem → Mem → Prop} {Q : α → Prop} {p : Prog α} (h : Traced (fun _ => True) (fun _ => False) F Q p) (m : Mem) :
    Comes (fun a _ => Q a) p m := (Comes.of_traced h m).mono fun _ _ h => h.1

/-- Results in `P` are made with a draw of their own: the step at which it is taken, with the number `k`, and then `Q k`. -/
def Owing (P : α → Prop) (Q : Nat → α → Prop) : Prog α → Prop
  | ret a => ¬ P a
  | fail _ => True
  | act upd next => ∀ m, Owing P Q (next m) ∨
      (m.world.rnd < (upd m).world.rnd ∧ Comes (fun a _ => Q m.world.rnd a) (next m) (upd m))

variable {P : α → Prop} {Q : Nat → α → Prop}

theorem owing_never (h : ∀ a, ¬ P a) (p : Prog α) : Owing P Q p := by
  induction p with
  | ret a => exact h a
  | fail c => trivial
  | act upd next ih => exact fun m => .inl (ih m)

/-- Something, and then a program that owes. -/
theorem Owing.after {P : β → Prop} {Q : Nat → β → Prop} {Q' : α → Prop} {F : Mem → Mem → Prop} {p : Prog α} {f : α → Prog β}
    (h : Traced (fun _ => True) (fun _ => False) F Q' p) (hf : ∀ a, Q' a → Owing P Q (f a)) : Owing P Q (p >>= f) := by
  induction p with
  | ret a => exact hf a h
  | fail c => trivial
  | act upd next ih =>
    intro m
    rcases h m trivial with h' | ⟨-, h'⟩
    · exact h'.elim
    · exact .inl (ih m h')

/-- The results are passed on. -/
theorem Owing.result {P : α → Prop} {Q : Nat → α → Prop} {P' : β → Prop} {Q' : Nat → β → Prop} {p : Prog α} {f : α → β}
    (h : Owing P Q p) (hP : ∀ a, P' (f a) → P a) (hQ : ∀ k a, Q k a → Q' k (f a)) :
    Owing P' Q' (p >>= fun a => Pure.pure (f a)) := by
  induction p with
  | ret a => exact fun h' => h (hP a h')
  | fail c => trivial
  | act upd next ih =>
    intro m
    rcases h m with h' | ⟨h1, h2⟩
    · exact .inl (ih m h')
    · exact .inr ⟨h1, h2.bind fun a _ ha => hQ _ a ha⟩

theorem Owing.mono {P' : α → Prop} {Q' : Nat → α → Prop} {p : Prog α} (h : Owing P Q p) (hP : ∀ a, P' a → P a)
    (hQ : ∀ k a, Q k a → Q' k a) : Owing P' Q' p := by
  induction p with
  | ret a => exact fun h' => h (hP a h')
  | fail c => trivial
  | act upd next ih =>
    intro m
    rcases h m with h' | ⟨h1, h2⟩
    · exact .inl (ih m h')
    · exact .inr ⟨h1, h2.mono fun a _ ha => hQ _ a ha⟩

theorem Owing.draw {f : Nat → Prog α} (hf : ∀ k m, Comes (fun a _ => Q k a) (f k) m) : Owing P Q (Overlap.draw >>= f) :=
  fun m => .inr ⟨Nat.lt_succ_self _, hf m.world.rnd _⟩

theorem Traced.weaken {F : Mem → Mem → Prop} {P : α → Prop} {p : Prog α}
    (h : Traced (fun _ => True) (fun _ => False) F P p) : Traced (fun _ => True) (fun _ => False) (fun _ _ => True) P p :=
  h.mono (fun _ h => h) (fun _ _ _ => trivial) (fun _ h => h)

end Prog

namespace Overlap

open Prog VF.Spec.Client VF.Spec.Overlap VF.Spec.History VF.Spec.U2f VF.Spec.Draws VF.Spec.Store

variable {E : Env} {cfg : Client.Config}

/-- The state after events. -/
abbrev at_ (E : Env) (cfg : Client.Config) (evs : List Event) : Process := (boot E cfg).run E cfg evs

/-- A turn of the goroutine `i` among the events, at which numbers of draws were taken, the first of them `k`. -/
def Drew (E : Env) (cfg : Client.Config) (evs : List Event) (i k : Nat) : Prop :=
  ∃ pre post, evs = pre ++ .turn i :: post ∧ (at_ E cfg pre).mem.world.rnd = k ∧ k < (at_ E cfg (pre ++ [.turn i])).mem.world.rnd

theorem Drew.snoc {evs : List Event} {i k : Nat} (h : Drew E cfg evs i k) (e : Event) : Drew E cfg (evs ++ [e]) i k := by
  obtain ⟨pre, post, rfl, h1, h2⟩ := h
  exact ⟨pre, post ++ [e], by simp, h1, h2⟩

theorem prefix_of_lt {α : Type} {pre pre' post post' : List α} {a a' : α} (h : pre ++ a :: post = pre' ++ a' :: post')
    (hl : pre.length < pre'.length) : ∃ mid, pre' = pre ++ a :: mid := by
  have h1 := congrArg (List.take pre'.length) h
  rw [List.take_left, List.take_append] at h1
  rw [List.take_of_length_le (by omega)] at h1
  obtain ⟨n, hn⟩ : ∃ n, pre'.length - pre.length = n + 1 := ⟨pre'.length - pre.length - 1, by omega⟩
  rw [hn, List.take_succ_cons] at h1
  exact ⟨_, h1.symm⟩

/-- Two goroutines have different draws. -/
theorem drew_differ (L : Laws E) (hu : Usable E cfg) {evs : List Event} {i j k k' : Nat} (h : Drew E cfg evs i k)
    (h' : Drew E cfg evs j k') (hij : i ≠ j) : k ≠ k' ∧ k < (at_ E cfg evs).mem.world.rnd ∧ k' < (at_ E cfg evs).mem.world.rnd := by
  obtain ⟨pre, post, rfl, h1, h2⟩ := h
  obtain ⟨pre', post', he, h1', h2'⟩ := h'
  have key : ∀ {p p' q q' : List Event} {a b : Nat}, p ++ .turn a :: q = p' ++ .turn b :: q' → p.length < p'.length →
      (at_ E cfg (p ++ [.turn a])).mem.world.rnd ≤ (at_ E cfg p').mem.world.rnd := by
    intro p p' q q' a b he hl
    obtain ⟨mid, rfl⟩ := prefix_of_lt he hl
    have := rnd_run (E := E) (cfg := cfg) L hu mid (p ++ [.turn a])
    rw [List.append_assoc] at this
    exact this
  have hend : ∀ {p q : List Event} {a : Nat}, (at_ E cfg (p ++ [.turn a])).mem.world.rnd ≤ (at_ E cfg (p ++ .turn a :: q)).mem.world.rnd := by
    intro p q a
    have := rnd_run (E := E) (cfg := cfg) L hu q (p ++ [.turn a])
    rw [List.append_assoc] at this
    exact this
  refine ⟨?_, Nat.lt_of_lt_of_le h2 hend, ?_⟩
  · rcases Nat.lt_trichotomy pre.length pre'.length with hl | hl | hl
    · have := key he hl
      omega
    · exfalso
      have := (List.append_inj he hl).2
      have := (List.cons.inj this).1
      injection this with this
      exact hij this
    · have := key he.symm hl
      omega
  · rw [he]
    exact Nat.lt_of_lt_of_le h2' hend

/-- Each thread: what it has got or will get. -/
theorem own_draws (L : Laws E) (hu : Usable E cfg) {P : Op → Reply → Prop} {Q : Op → Nat → Reply → Prop} (hp : ∀ op, Owing (P op) (Q op) (perform E op))
    (evs : List Event) (i : Nat) :
    (∀ op p, (at_ E cfg evs).threads[i]? = some (.working op p) → Owing (P op) (Q op) p ∨
      ∃ k, Drew E cfg evs i k ∧ Comes (fun a _ => Q op k a) p (at_ E cfg evs).mem) ∧
    (∀ op r, (at_ E cfg evs).threads[i]? = some (.ready op r) → P op r → ∃ k, Drew E cfg evs i k ∧ Q op k r) := by
  induction evs using Props.snoc_induction with
  | h0 => exact ⟨fun op p h => (nomatch h), fun op r h => (nomatch h)⟩
  | h1 evs e ih =>
    obtain ⟨ih1, ih2⟩ := ih
    have hheap : e ≠ .restart → HeapLe (at_ E cfg evs).mem (at_ E cfg (evs ++ [e])).mem := fun he =>
      (rel_run (E := E) (cfg := cfg) L hu [e] evs (by simpa using he)).heap
    have hturn : ∀ {op upd next}, e = .turn i → (at_ E cfg evs).alive = true →
        (at_ E cfg evs).threads[i]? = some (.working op (.act upd next)) →
        Owing (P op) (Q op) (next (at_ E cfg evs).mem) ∨ ∃ k, Drew E cfg (evs ++ [e]) i k ∧
          Comes (fun a _ => Q op k a) (next (at_ E cfg evs).mem) (at_ E cfg (evs ++ [e])).mem := by
      rintro op upd next rfl ha hw
      have hm : (at_ E cfg (evs ++ [.turn i])).mem = upd (at_ E cfg evs).mem := by
        show ((boot E cfg).run E cfg (evs ++ [.turn i])).mem = _
        rw [run_snoc]
        unfold Process.step
        simp only [hw, ha, if_true]
        cases next (at_ E cfg evs).mem <;> rfl
      have hh := hheap (by simp)
      rw [hm] at hh ⊢
      rcases ih1 _ _ hw with h | ⟨k, hk, h⟩
      · rcases h (at_ E cfg evs).mem with h | ⟨h1, h2⟩
        · exact .inl h
        · refine .inr ⟨_, ⟨evs, [], rfl, rfl, ?_⟩, h2⟩
          rw [hm]
          exact h1
      · exact .inr ⟨k, hk.snoc _, h (at_ E cfg evs).mem (HeapLe.refl _) hh⟩
    constructor
    · intro op p h
      show _
      have h : ((boot E cfg).run E cfg (evs ++ [e])).threads[i]? = _ := h
      rw [run_snoc] at h
      rcases thread_step h with ⟨u, hu, ⟨he, rfl⟩ | h⟩ | ⟨op', rfl, -, -, -, h⟩ | ⟨op', upd, next, he, ha, hw, h⟩
      · rcases ih1 op p hu with h | ⟨k, hk, h⟩
        · exact .inl h
        · exact .inr ⟨k, hk.snoc _, h.later (fun _ _ _ _ h => h) (hheap he)⟩
      · exact absurd h.symm (ended_not_working u op p)
      · obtain ⟨rfl, rfl⟩ := settle_working h.symm
        exact .inl (hp op)
      · obtain ⟨rfl, rfl⟩ := settle_working h.symm
        exact hturn he ha hw
    · intro op r h hP
      have h : ((boot E cfg).run E cfg (evs ++ [e])).threads[i]? = _ := h
      rw [run_snoc] at h
      have hset : ∀ {op' p'}, Thread.ready op r = settle op' p' → op' = op ∧ p' = .ret r := by
        intro op' p' h
        cases p' with
        | ret a =>
          injection h with h1 h2
          exact ⟨h1.symm, by rw [h2]⟩
        | fail c => cases h
        | act u n => cases h
      have hold : (at_ E cfg evs).threads[i]? = some (.ready op r) → ∃ k, Drew E cfg (evs ++ [e]) i k ∧ Q op k r := by
        intro h
        obtain ⟨k, hk, h⟩ := ih2 op r h hP
        exact ⟨k, hk.snoc _, h⟩
      rcases thread_step h with ⟨u, hu, ⟨-, rfl⟩ | h⟩ | ⟨op', rfl, -, -, -, h⟩ | ⟨op', upd, next, he, ha, hw, h⟩
      · exact hold hu
      · cases u with
        | ready op' r' => exact hold (h ▸ hu)
        | working op' p' => cases h
        | gone op' => cases h
      · obtain ⟨rfl, hr⟩ := hset h
        have := hp op'
        rw [hr] at this
        exact absurd hP this
      · obtain ⟨rfl, hr⟩ := hset h
        rcases hturn he ha hw with h | ⟨k, hk, h⟩
        · rw [hr] at h
          exact absurd hP h
        · rw [hr] at h
          exact ⟨k, hk, h⟩

/-! ### Registrations -/

/-- What is known of an answered registration: the draws of the key and of the nonce. -/
def RegisteredWith (E : Env) (k : Option Nat) (n : Option Nat) (b : Bytes) : Prop :=
  ∀ reg, parseRegistration b = some reg → (∀ j ∈ k, parsePoint reg.publicKey = some ((E.genEC j).pub.x, (E.genEC j).pub.y)) ∧
    ∀ j ∈ n, nonceOf E reg.keyHandle = some (E.rand j 12)

/-- After the draws of key and nonce. -/
theorem sealed_traced (L : Laws E) {request deviceKey : Bytes} (hl : 32 ≤ request.length) (hl2 : (request.drop 32).length = 32) (i j : Nat) :
    Traced (fun _ => True) (fun _ => False) (fun _ _ => True) (RegisteredWith E (some i) (some j)) (do
      let (box, _) ← lift (sealBox E deviceKey (Cbor.encode (U2f.keyHandleItem
        { privateKey := some (ecToDER (E.genEC i)), applicationID := request.drop 32 })) j)
      let approved ← approve E .u2fRegister [] []
      if approved = false then pure (Util.toBE16 U2f.swConditionsNotSatisfied)
      else do
        let cert ← createCertificate E { ecdsa := some (E.genEC i) }
        let sig ← signWith E { ecdsa := some (E.genEC i) }
          (Util.concat [[0], request.drop 32, request.take 32, Cbor.encode (U2f.boxItem box), ellipticMarshal (E.genEC i).pub.x (E.genEC i).pub.y])
        pure (Util.concat [[5], ellipticMarshal (E.genEC i).pub.x (E.genEC i).pub.y, [UInt8.ofNat (Cbor.encode (U2f.boxItem box)).length],
          Cbor.encode (U2f.boxItem box), cert, sig, Util.toBE16 U2f.swNoError])) := by
  refine Traced.bind (Q := fun bx => sealBox E deviceKey _ j = .ok bx) (traced_lift fun _ h => h) fun bx hbx => ?_
  refine Traced.then (traced_any _) fun approved => ?_
  split
  · intro reg h
    rw [show parseRegistration (Util.toBE16 U2f.swConditionsNotSatisfied) = none by decide] at h
    cases h
  · refine (createCertificate_made (tc := besides) rfl _).weaken.bind fun cert hcert => ?_
    obtain ⟨ca, issuer, n, hcert⟩ := hcert
    refine (signWith_made (tc := besides) rfl _ _).weaken.bind fun sig hsig => ?_
    have hv := L.genEC_valid i
    obtain ⟨bp, bx', bY, -⟩ := Vault.ecValid_bounds L hv
    obtain ⟨c1, c2⟩ := U2f.attestation_sound L hcert
    unfold sealBox encrypt at hbx
    by_cases hk : aesKeyOk deviceKey = true
    · rw [if_pos hk] at hbx
      have hbx := (Res.ok.inj hbx).symm
      have hiv := L.rand_length j 12
      have hlen := U2f.handleOf_length L hv hiv hk hl2
      have e : Cbor.encode (U2f.boxItem bx.1) = U2f.handleOf E deviceKey (request.drop 32) (E.genEC i) (E.rand j 12) := by rw [hbx]; rfl
      have hp := U2f.parseRegistration_answer (sig := sig)
        (U2f.ellipticMarshal_length bx' bY) (handle := U2f.handleOf E deviceKey
        (request.drop 32) (E.genEC i) (E.rand j 12)) (by omega) c2
      intro reg h
      have e2 : parseRegistration (Util.concat [[5], ellipticMarshal (E.genEC i).pub.x (E.genEC i).pub.y, [UInt8.ofNat (Cbor.encode (U2f.boxItem bx.1)).length],
          Cbor.encode (U2f.boxItem bx.1), cert, sig, Util.toBE16 U2f.swNoError]) = some reg := h
      rw [e] at e2
      rw [show Util.concat [[5], ellipticMarshal (E.genEC i).pub.x (E.genEC i).pub.y,
          [UInt8.ofNat (U2f.handleOf E deviceKey (request.drop 32) (E.genEC i) (E.rand j 12)).length],
          U2f.handleOf E deviceKey (request.drop 32) (E.genEC i) (E.rand j 12), cert, sig, Util.toBE16 U2f.swNoError] =
          [5] ++ ellipticMarshal (E.genEC i).pub.x (E.genEC i).pub.y ++
          [UInt8.ofNat (U2f.handleOf E deviceKey (request.drop 32) (E.genEC i) (E.rand j 12)).length] ++
          U2f.handleOf E deviceKey (request.drop 32) (E.genEC i) (E.rand j 12) ++ cert ++ sig ++ [0x90, 0x00] by
        simp [Util.concat_eq, Util.toBE16_eq]
        rfl, hp] at e2
      obtain rfl := Option.some.inj e2
      refine ⟨?_, ?_⟩
      · intro j' hj
        obtain rfl := Option.some.inj hj
        exact U2f.parsePoint_marshal bx' bY
      · intro j' hj
        obtain rfl := Option.some.inj hj
        unfold nonceOf U2f.handleOf
        rw [L.decode_box]
        · rfl
        · have h1 := U2f.keyHandle_length (U2f.ecToDER_length L hv) hl2
          have h2 := L.gcm_length deviceKey (E.rand j 12)
            (Cbor.encode (U2f.keyHandleItem { privateKey := some (ecToDER (E.genEC i)), applicationID := request.drop 32 })) hk hiv
          rw [h1] at h2
          unfold Short
          dsimp only
          omega
        · unfold Short
          dsimp only
          rw [hiv]
          omega
    · rw [if_neg hk] at hbx
      cases hbx

theorem register_owes (L : Laws E) (request : Bytes) :
    Owing (fun b => (parseRegistration b).isSome) (fun k b => RegisteredWith E (some k) none b) (handleRegister E request) ∧
    Owing (fun b => (parseRegistration b).isSome) (fun k b => RegisteredWith E none (some k) b) (handleRegister E request) := by
  unfold handleRegister
  split
  · exact ⟨trivial, trivial⟩
  · rename_i hl
    dsimp only
    split
    · exact ⟨trivial, trivial⟩
    · rename_i hl2
      have hl2 : (request.drop 32).length = 32 := by simpa using hl2
      unfold newPrivateKey sealKeyHandle
      simp only [Prog.bind_assoc, Prog.pure_bind]
      constructor
      · refine Owing.draw fun i m => comes_of_traced (F := fun _ _ => True) ?_ m
        refine Traced.then (traced_any _) fun deviceKey => ?_
        refine Traced.then (traced_any _) fun j => ?_
        refine (sealed_traced L (by omega) hl2 i j).mono (fun _ h => h) (fun _ _ h => h) ?_
        intro b h reg hr
        exact ⟨(h reg hr).1, fun _ h => nomatch h⟩
      · refine Owing.after (Q' := fun _ => True) (F := fun _ _ => True) (traced_any _) fun i _ => ?_
        refine Owing.after (Q' := fun _ => True) (F := fun _ _ => True) (traced_any _) fun deviceKey _ => ?_
        refine Owing.draw fun j m => comes_of_traced (F := fun _ _ => True) ?_ m
        refine (sealed_traced L (by omega) hl2 i j).mono (fun _ h => h) (fun _ _ h => h) ?_
        intro b h reg hr
        exact ⟨fun _ h => (nomatch h), (h reg hr).2⟩

theorem perform_owes (L : Laws E) (op : Op) :
    Owing (fun r => ∃ reg, Registered (op, r) reg) (fun k r => ∀ b, r = .answer b → RegisteredWith E (some k) none b) (perform E op) ∧
    Owing (fun r => ∃ reg, Registered (op, r) reg) (fun k r => ∀ b, r = .answer b → RegisteredWith E none (some k) b) (perform E op) := by
  by_cases hop : ∃ cla rest, op = .u2f (cla :: 1 :: rest)
  · obtain ⟨cla, rest, rfl⟩ := hop
    have hP : ∀ b, (∃ reg, Registered (.u2f (cla :: 1 :: rest), Reply.answer b) reg) → (parseRegistration b).isSome = true := by
      rintro b ⟨reg, cla', rest', b', e, h⟩
      injection e with e1 e2
      injection e2 with e2
      rw [e2, h]
      rfl
    have hQ : ∀ {k n b}, RegisteredWith E k n b → ∀ b', Reply.answer b = .answer b' → RegisteredWith E k n b' := by
      intro k n b h b' e
      injection e with e
      exact e ▸ h
    have hU : Owing (fun b => (parseRegistration b).isSome) (fun k b => RegisteredWith E (some k) none b) (handleU2f E (cla :: 1 :: rest)) ∧
        Owing (fun b => (parseRegistration b).isSome) (fun k b => RegisteredWith E none (some k) b) (handleU2f E (cla :: 1 :: rest)) := by
      unfold handleU2f
      cases hd : U2f.decodeMessage (cla :: 1 :: rest) with
      | panic c => exact ⟨trivial, trivial⟩
      | ok x =>
        obtain ⟨header, request, n⟩ := x
        have hc : header.command = 1 := by
          match rest, hd with
          | [], hd => simp [U2f.decodeMessage] at hd
          | [_], hd => simp [U2f.decodeMessage] at hd
          | p1 :: p2 :: rest, hd =>
            have := U2f.decodeMessage_header hd
            exact congrArg U2f.Header.command this
        show Owing _ _ (if header.command = 0x03 then _ else _) ∧ Owing _ _ (if header.command = 0x03 then _ else _)
        rw [hc, if_neg (by decide), if_pos rfl]
        exact register_owes L request
    exact ⟨hU.1.result hP fun _ _ => hQ, hU.2.result hP fun _ _ => hQ⟩
  · have : ∀ r, ¬ ∃ reg, Registered (op, r) reg := by
      rintro r ⟨reg, cla, rest, b, e, -⟩
      injection e with e
      exact hop ⟨cla, rest, e⟩
    exact ⟨owing_never this _, owing_never this _⟩

/-! ### New credentials -/

/-- What is announced has the key of draw `k`. -/
def AnnouncedWith (E : Env) (k : Nat) (b : Bytes) : Prop :=
  ∀ c, announced b = some c → c.x = (E.genEC k).pub.x ∧ c.y = (E.genEC k).pub.y

theorem attest_comes (L : Laws E) {args : MakeCredArgs} {rp : RPEntity} {flags : UInt8} {p n k : Nat} {s : Source} {m : Mem}
    (hp : m.heap[p]? = some s) (hi : s.id = E.rand n 16) (hk : s.key = { ecdsa := some (E.genEC k) }) (hfl : flags = 0 ∨ flags = 4) :
    Comes (fun b _ => AnnouncedWith E k b) (attest E args rp flags p) m := by
  unfold attest
  intro m1 r1 _
  obtain ⟨cnt, hs⟩ := r1 p s hp
  show Comes _ (Prog.bind (match m1.heap[p]? with
    | some s => ret s
    | none => Prog.fail .nilDeref) _) m1
  rw [hs]
  refine Comes.after (Q := fun r => Ctap.makeAttestedCredentialData { s with counter := cnt } = .ok r) (F := fun _ _ => True) (traced_lift fun _ h => h) fun attested m2 ha _ => ?_
  refine Comes.after (createCertificate_made (tc := besides) rfl _) fun cert m3 hcert _ => ?_
  obtain ⟨ca, issuer, j, hcert⟩ := hcert
  refine Comes.after (signWith_made (tc := besides) rfl _ _) fun sig m4 hsig _ => ?_
  obtain ⟨j', hsig⟩ := hsig
  obtain ⟨authData, ad, at', xb, yb, e, q1, q2, q3, q4, q5, -, -, -, q6, -, q7, q8, q9, q10, q11⟩ :=
    Ctap.creation_answer L (s := { s with counter := cnt }) hk (L.genEC_valid _) (by rw [show ({ s with counter := cnt } : Source).id = s.id from rfl, hi]; exact L.rand_length _ _) hfl ha hcert hsig
  subst e
  intro c hc
  obtain ⟨b, e, hd⟩ := q1
  have e := (List.cons.inj e).2
  have f1 : ∀ a b c : Cbor, Spec.Store.field 2 (.map [(.int 1, a), (.int 2, b), (.int 3, c)]) = some b := by
    intros; rfl
  have f2 : ∀ a b c d e : Cbor, Spec.Store.field (-2) (.map [(.int 1, a), (.int 3, b), (.int (-1), c),
      (.int (-2), d), (.int (-3), e)]) = some d := by
    intros; rfl
  have f3 : ∀ a b c d e : Cbor, Spec.Store.field (-3) (.map [(.int 1, a), (.int 3, b), (.int (-1), c),
      (.int (-2), d), (.int (-3), e)]) = some e := by
    intros; rfl
  rw [← e] at hd
  have hc : announced (0 :: Cbor.encode _) = _ := hc
  simp only [announced, hd, Option.bind_eq_bind, Option.bind_some, bytesField, f1, q2, q6, q8, f2, f3] at hc
  obtain rfl := Option.some.inj hc
  exact ⟨q9, q10⟩

theorem handleMakeCredential_owes (L : Laws E) (data : Bytes) :
    Owing (fun b => (announced b).isSome) (AnnouncedWith E) (handleMakeCredential E data) := by
  have herr : ∀ {e : UInt8}, e ≠ 0 → ¬ (announced [e]).isSome := by
    intro e he hc
    unfold announced at hc
    split at hc
    · rename_i h
      exact he (List.cons.inj h).1
    · cases hc
  unfold handleMakeCredential
  split
  · trivial
  · split
    · exact herr (by decide)
    · refine Owing.after (makeCredentialPIN_made (tc := besides) _) fun pin hpin => ?_
      split
      · exact herr hpin
      · split
        · trivial
        · refine Owing.after (approve_traced (R := fun _ => True) (K := fun _ => False) (t := besides) rfl _ _ _) fun ok _ => ?_
          split
          · exact herr (by decide)
          · unfold newCredentialSource
            split
            · exact herr (by decide)
            · simp only [Prog.bind_assoc]
              refine Owing.after (traced_any _) fun n _ => Owing.draw fun k m => ?_
              intro m1 r1 k1
              have hs : ∀ s : Source, ({ m1 with heap := m1.heap ++ [s] } : Mem).heap[m1.heap.length]? = some s := by
                intro s
                simp
              show Comes _ (addIdentity m1.heap.length >>= _) _
              refine Comes.after (traced_any _) fun _ m2 _ r2 => Comes.after (traced_any _) fun _ m3 _ r3 => ?_
              obtain ⟨c2, h2⟩ := r2 _ _ (hs _)
              obtain ⟨c3, h3⟩ := r3 _ _ h2
              exact attest_comes L (n := n) (k := k) h3 rfl rfl hpin

/-- Each new credential has a key of its own. -/
theorem perform_newKey (L : Laws E) (op : Op) :
    Owing (fun r => (newKey (op, r)).isSome) (fun k r => ∀ key, newKey (op, r) = some key → key = ((E.genEC k).pub.x, (E.genEC k).pub.y))
      (perform E op) := by
  have hnever : (∀ b, newKey (op, .answer b) = none) → Owing (fun r => (newKey (op, r)).isSome)
      (fun k r => ∀ key, newKey (op, r) = some key → key = ((E.genEC k).pub.x, (E.genEC k).pub.y)) (perform E op) := by
    intro h
    refine owing_never ?_ _
    intro r hr
    cases r with
    | answer b => rw [h b] at hr; cases hr
    | _ =>
      unfold newKey at hr
      split at hr
      · rename_i h; cases h
      · rename_i h; cases h
      · cases hr
  cases op with
  | ctap msg =>
    match msg with
    | [] => exact hnever fun _ => rfl
    | x :: body =>
      by_cases hx : x = 1
      · subst hx
        show Owing _ _ (handleMakeCredential E body >>= fun b => Pure.pure (Reply.answer b))
        refine (handleMakeCredential_owes L body).result ?_ ?_
        · intro b h
          simpa [newKey] using h
        · intro k b h key hk
          simp only [newKey, Option.map_eq_some_iff] at hk
          obtain ⟨c, hc, rfl⟩ := hk
          exact Prod.ext (h c hc).1 (h c hc).2
      · refine hnever fun b => ?_
        unfold newKey
        split
        · rename_i h
          injection h with h
          injection h with h
          exact absurd (List.cons.inj h).1 hx
        · rename_i h
          injection h with h
          cases h
        · rfl
  | u2f msg =>
    by_cases hop : ∃ cla rest, msg = cla :: 1 :: rest
    · obtain ⟨cla, rest, rfl⟩ := hop
      refine (perform_owes L _).1.mono ?_ ?_
      · intro r hr
        cases r with
        | answer b =>
          simp only [newKey] at hr
          cases hp : parseRegistration b with
          | none => rw [hp] at hr; cases hr
          | some reg => exact ⟨reg, cla, rest, b, rfl, hp⟩
        | _ => cases hr
      · intro k r h key hk
        cases r with
        | answer b =>
          simp only [newKey, Option.bind_eq_some_iff] at hk
          obtain ⟨reg, hreg, hk⟩ := hk
          have := ((h b rfl) reg hreg).1 k rfl
          rw [hk] at this
          exact Option.some.inj this
        | _ => cases hk
    · refine hnever fun b => ?_
      unfold newKey
      split
      · rename_i h
        injection h with h
        cases h
      · rename_i h
        injection h with h
        injection h with h
        exact absurd ⟨_, _, h⟩ hop
      · rfl
  | _ => exact hnever fun _ => rfl

end Overlap
end VF.Fido
