import Verif.Proofs.OverlapInvariant
import Verif.Spec.Footprint
import Verif.Proofs.OverlapFacts
import Verif.Proofs.PinSpec

/-!
# What the steps of a request do to memory
-/

namespace VF.Fido

namespace Prog

variable {α β : Type} {R K : Mem → Prop} {F : Mem → Mem → Prop} {Q : α → Prop} {Q' : β → Prop}

/-- Whatever memory the steps find (within `R`): until `K` holds of it, each step does `F`, and a result is in `Q`. -/
def Traced (R K : Mem → Prop) (F : Mem → Mem → Prop) (Q : α → Prop) : Prog α → Prop
  | ret a => Q a
  | fail _ => True
  | act upd next => ∀ m, R m → K m ∨ (F m (upd m) ∧ Traced R K F Q (next m))

theorem Traced.bind {p : Prog α} {f : α → Prog β} (hp : Traced R K F Q p)
    (hf : ∀ a, Q a → Traced R K F Q' (f a)) : Traced R K F Q' (p >>= f) := by
  induction p with
  | ret a => exact hf a hp
  | fail c => trivial
  | act upd next ih =>
    intro m hm
    rcases hp m hm with h | ⟨h1, h2⟩
    · exact .inl h
    · exact .inr ⟨h1, ih m h2⟩

theorem Traced.then {p : Prog α} {f : α → Prog β} (hp : Traced R K F (fun _ => True) p)
    (hf : ∀ a, Traced R K F Q' (f a)) : Traced R K F Q' (p >>= f) :=
  hp.bind (fun a _ => hf a)

theorem traced_pure {a : α} (h : Q a) : Traced R K F Q (pure a : Prog α) := h

theorem traced_lift {r : Res α} (h : ∀ a, r = .ok a → Q a) : Traced R K F Q (lift r) := by
  cases r with
  | ok a => exact h a rfl
  | panic c => trivial

theorem traced_look {f : Mem → α} (hF : ∀ m, F m m) (h : ∀ m, R m → K m ∨ Q (f m)) :
    Traced R K F Q (look f) := by
  intro m hm
  rcases h m hm with h | h
  · exact .inl h
  · exact .inr ⟨hF m, h⟩

theorem traced_field {f : Client → α} (hF : ∀ m, F m m)
    (h : ∀ m, R m → K m ∨ Q (f m.world.client)) : Traced R K F Q (field f) := traced_look hF h

theorem traced_write {f : Mem → Mem} (h : ∀ m, F m (f m)) : Traced R K F (fun _ => True) (write f) :=
  fun m _ => .inr ⟨h m, trivial⟩

end Prog

namespace Overlap

open Prog VF.Spec.Overlap

variable {E : Env} {cfg : Client.Config} {R K : Mem → Prop} {t : Touches}

theorem keeps_refl (t : Touches) (m : Mem) : Keeps t m m where
  deviceKey := rfl
  cert := rfl
  certKey := rfl
  pinToken := rfl
  keyAgreement := rfl
  vault := rfl
  credentials := fun _ => rfl
  creates := fun _ => rfl
  counters := fun _ _ _ h => h
  fresh := fun _ p s h1 h2 => by
    have := (List.getElem?_eq_some_iff.1 h2).1
    omega
  entries := fun p s h => ⟨s.counter, h⟩
  pinHash := fun _ => rfl
  pinRetries := fun _ => rfl
  pinEnabled := fun _ => rfl
  authCounter := fun _ => rfl
  asks := fun _ => rfl
  rnd := fun _ => rfl
  store := fun _ => rfl

/-- A read. -/
theorem reads {α : Type} (f : Client → α) : Traced R K (Keeps t) (fun _ => True) (field f) :=
  traced_field (keeps_refl t) (fun _ _ => .inr trivial)

theorem looks {α : Type} (f : Mem → α) : Traced R K (Keeps t) (fun _ => True) (look f) :=
  traced_look (keeps_refl t) (fun _ _ => .inr trivial)

theorem lifts {α : Type} (r : Res α) : Traced R K (Keeps t) (fun _ => True) (lift r) :=
  traced_lift (fun _ _ => trivial)

theorem pures {α : Type} (a : α) : Traced R K (Keeps t) (fun _ => True) (pure a : Prog α) := trivial

theorem draw_traced (h : t.rnd = true) : Traced R K (Keeps t) (fun _ => True) draw := by
  intro m _
  refine .inr ⟨{ keeps_refl t m with rnd := fun h' => ?_ }, trivial⟩
  rw [h] at h'
  cases h'

theorem deref_traced (p : Nat) : Traced R K (Keeps t) (fun _ => True) (deref p) := by
  intro m _
  refine .inr ⟨keeps_refl t m, ?_⟩
  dsimp only
  split <;> trivial

theorem approve_traced (h : t.asks = true) (a : Action) (rp user : Bytes) :
    Traced R K (Keeps t) (fun _ => True) (approve E a rp user) := by
  intro m _
  refine .inr ⟨{ keeps_refl t m with asks := fun h' => ?_ }, trivial⟩
  rw [h] at h'
  cases h'

theorem exportSources_traced : ∀ l, Traced R K (Keeps t) (fun _ => True) (exportSources l)
  | [] => trivial
  | p :: rest => by
    unfold exportSources
    refine (deref_traced p).then fun s => (lifts _).then fun key => ?_
    split
    · exact (exportSources_traced rest).then fun _ => trivial
    · trivial

theorem exportState_traced : Traced R K (Keeps t) (fun _ => True) exportState := by
  unfold exportState
  exact (reads _).then fun _ => (lifts _).then fun _ => (looks _).then fun _ =>
    (exportSources_traced _).then fun _ => (reads _).then fun _ => (reads _).then fun _ =>
    (reads _).then fun _ => (reads _).then fun _ => (reads _).then fun _ => trivial

theorem encryptState_traced (h : t.rnd = true) (st : SavedState) :
    Traced R K (Keeps t) (fun _ => True) (encryptState E st) := by
  intro m _
  refine .inr ⟨?_, ?_⟩
  · dsimp only
    split
    · exact keeps_refl t m
    · refine { keeps_refl t m with rnd := fun h' => ?_ }
      rw [h] at h'
      cases h'
  · dsimp only
    split <;> trivial

theorem saveData_traced (hr : t.rnd = true) (hs : t.store = true) :
    Traced R K (Keeps t) (fun _ => True) (saveData E) := by
  unfold saveData putData
  refine exportState_traced.then fun _ => (encryptState_traced hr _).then fun _ => traced_write fun m => ?_
  refine { keeps_refl t m with store := fun h' => ?_ }
  rw [hs] at h'
  cases h'

theorem newCredentialSource_traced (hr : t.rnd = true) (hs : t.store = true) (hc : t.credentials = true)
    (hn : t.creates = true) (params : List CredParam) (ex : List Descriptor) (rp : Option RPEntity)
    (user : Option UserEntity) :
    Traced R K (Keeps t) (fun _ => True) (newCredentialSource E params ex rp user) := by
  unfold newCredentialSource
  split
  · trivial
  · refine (draw_traced hr).then fun n => (draw_traced hr).then fun k => Traced.then ?_ fun p => ?_
    · intro m _
      refine .inr ⟨?_, trivial⟩
      refine { keeps_refl t m with creates := fun h' => ?_, fresh := fun _ p s h1 h2 => ?_, counters := fun _ p s h' => ?_, entries := fun p s h' => ?_ }
      · rw [hn] at h'
        cases h'
      · rw [List.getElem?_append_left (List.getElem?_eq_some_iff.1 h').1]
        exact h'
      · have hl := (List.getElem?_eq_some_iff.1 h2).1
        simp only [List.length_append, List.length_cons, List.length_nil] at hl
        obtain rfl : p = m.heap.length := by omega
        simp only [List.getElem?_concat_length] at h2
        rw [← Option.some.inj h2]
      · refine ⟨s.counter, ?_⟩
        rw [List.getElem?_append_left (List.getElem?_eq_some_iff.1 h').1]
        exact h'
    · refine Traced.then ?_ fun _ => (saveData_traced hr hs).then fun _ => trivial
      unfold addIdentity
      refine (looks _).then fun _ => traced_write fun m => ?_
      refine { keeps_refl t m with credentials := fun h' => ?_ }
      rw [hc] at h'
      cases h'

theorem getMatching_traced (rpId : Bytes) (allow : Option (List Descriptor)) :
    ∀ l, Traced R K (Keeps t) (fun _ => True) (getMatching rpId allow l)
  | [] => trivial
  | p :: rest => by
    unfold getMatching
    refine (deref_traced p).then fun s => ?_
    split
    · trivial
    · refine (getMatching_traced rpId allow rest).then fun _ => ?_
      split <;> trivial

theorem modify_keeps (hc : t.counters = true) (m : Mem) (p : Nat) (c : UInt32) :
    Keeps t m { m with heap := m.heap.modify p (fun s => { s with counter := c }) } := by
  refine { keeps_refl t m with creates := fun _ => by simp, fresh := fun h' => ?_, counters := fun h' => ?_, entries := fun q s h' => ?_ }
  · rw [hc] at h'
    cases h'
  · rw [hc] at h'
    cases h'
  · dsimp only
    rw [List.getElem?_modify, h']
    by_cases hq : p = q
    · exact ⟨c, by simp [hq]⟩
    · exact ⟨s.counter, by simp [hq]⟩

theorem getAssertionSource_traced (hr : t.rnd = true) (hs : t.store = true) (hc : t.counters = true)
    (rpId : Bytes) (allow : Option (List Descriptor)) :
    Traced R K (Keeps t) (fun _ => True) (getAssertionSource E rpId allow) := by
  unfold getAssertionSource
  refine (looks _).then fun _ => (getMatching_traced _ _ _).then fun l => ?_
  split
  · trivial
  · refine Traced.then ?_ fun _ => (saveData_traced hr hs).then fun _ => trivial
    unfold bump
    exact (deref_traced _).then fun s => traced_write fun m => modify_keeps hc m _ _

theorem createCertificate_traced (hr : t.rnd = true) (k : PrivKey) :
    Traced R K (Keeps t) (fun _ => True) (createCertificate E k) := by
  unfold createCertificate
  refine (draw_traced hr).then fun _ => (reads _).then fun _ => (reads _).then fun _ => (lifts _).then fun c => ?_
  split <;> trivial

theorem signWith_traced (hr : t.rnd = true) (k : PrivKey) (b : Bytes) :
    Traced R K (Keeps t) (fun _ => True) (signWith E k b) :=
  (draw_traced hr).then fun _ => lifts _

theorem makeCredential_traced (hr : t.rnd = true) (hs : t.store = true) (hc : t.credentials = true)
    (hn : t.creates = true) (ha : t.asks = true) (data : Bytes) :
    Traced R K (Keeps t) (fun _ => True) (handleMakeCredential E data) := by
  unfold handleMakeCredential
  split
  · trivial
  · split
    · trivial
    · refine Traced.then ?_ fun pin => ?_
      · unfold makeCredentialPIN
        refine (reads _).then fun _ => ?_
        split
        · trivial
        · split
          · split
            · refine (reads _).then fun _ => ?_
              split <;> trivial
            · trivial
          · refine (reads _).then fun _ => ?_
            split <;> trivial
      · split
        · trivial
        · split
          · trivial
          · refine Traced.then (approve_traced ha _ _ _) fun _ => ?_
            split
            · trivial
            · refine (newCredentialSource_traced hr hs hc hn _ _ _ _).then fun src => ?_
              split
              · trivial
              · unfold attest
                exact (deref_traced _).then fun _ => (lifts _).then fun _ =>
                  (createCertificate_traced hr _).then fun _ => (signWith_traced hr _ _).then fun _ => trivial

theorem finishAssertion_traced (hr : t.rnd = true) (args : GetAssertionArgs) (p : Nat) (flags : UInt8) :
    Traced R K (Keeps t) (fun _ => True) (finishAssertion E args p flags) := by
  unfold finishAssertion
  exact (deref_traced _).then fun _ => (signWith_traced hr _ _).then fun _ => trivial

theorem getAssertion_traced (hr : t.rnd = true) (hs : t.store = true) (hc : t.counters = true)
    (ha : t.asks = true) (data : Bytes) :
    Traced R K (Keeps t) (fun _ => True) (handleGetAssertion E data) := by
  unfold handleGetAssertion
  split
  · trivial
  · refine Traced.then ?_ fun pin => ?_
    · unfold getAssertionPIN
      refine (reads _).then fun _ => ?_
      split
      · trivial
      · split
        · trivial
        · split
          · trivial
          · refine (reads _).then fun _ => ?_
            split <;> trivial
    · split
      · trivial
      · refine (getAssertionSource_traced hr hs hc _ _).then fun src => ?_
        split
        · trivial
        · split
          · exact finishAssertion_traced hr _ _ _
          · refine Traced.then ?_ fun _ => ?_
            · unfold approveAccountLogin
              refine (deref_traced _).then fun s => ?_
              split
              · exact approve_traced ha _ _ _
              · trivial
            · split
              · trivial
              · exact finishAssertion_traced hr _ _ _

theorem getInfo_traced : Traced R K (Keeps t) (fun _ => True) handleGetInfo := by
  unfold handleGetInfo
  refine (reads _).then fun _ => ?_
  split
  · exact (reads _).then fun _ => trivial
  · trivial

theorem getPINRetries_traced : Traced R K (Keeps t) (fun _ => True) getPINRetries := by
  unfold getPINRetries
  refine (reads _).then fun _ => ?_
  split
  · refine (reads _).then fun _ => ?_
    split
    · exact reads _
    · trivial
  · trivial

theorem setPINRetries_traced (h : t.pinRetries = true) (n : Int) :
    Traced R K (Keeps t) (fun _ => True) (setPINRetries n) := by
  refine traced_write fun m => { keeps_refl t m with pinRetries := fun h' => ?_ }
  rw [h] at h'
  cases h'

theorem setPINHash_traced (hr : t.rnd = true) (hs : t.store = true) (h : t.pinHash = true) (b : Option Bytes) :
    Traced R K (Keeps t) (fun _ => True) (setPINHash E b) := by
  unfold setPINHash
  refine Traced.then ?_ fun _ => saveData_traced hr hs
  refine traced_write fun m => { keeps_refl t m with pinHash := fun h' => ?_ }
  rw [h] at h'
  cases h'

theorem sharedSecret_traced (k : EC2Key) : Traced R K (Keeps t) (fun _ => True) (sharedSecret E k) := by
  unfold sharedSecret
  exact (reads _).then fun _ => (lifts _).then fun _ => trivial

theorem setPIN_traced (hr : t.rnd = true) (hs : t.store = true) (hh : t.pinHash = true)
    (hn : t.pinRetries = true) (args : ClientPINArgs) :
    Traced R K (Keeps t) (fun _ => True) (handleSetPIN E args) := by
  unfold handleSetPIN
  refine (reads _).then fun _ => ?_
  split
  · trivial
  · split
    · refine (sharedSecret_traced _).then fun _ => ?_
      split
      · trivial
      · refine (lifts _).then fun _ => ?_
        split
        · trivial
        · exact (setPINRetries_traced hn _).then fun _ => (setPINHash_traced hr hs hh _).then fun _ => trivial
    · trivial

theorem changePIN_traced (hr : t.rnd = true) (hs : t.store = true) (hh : t.pinHash = true)
    (hn : t.pinRetries = true) (args : ClientPINArgs) :
    Traced R K (Keeps t) (fun _ => True) (handleChangePIN E args) := by
  unfold handleChangePIN
  split
  · refine getPINRetries_traced.then fun _ => ?_
    split
    · trivial
    · refine (sharedSecret_traced _).then fun _ => ?_
      split
      · trivial
      · refine getPINRetries_traced.then fun _ => (setPINRetries_traced hn _).then fun _ => (lifts _).then fun _ =>
          (reads _).then fun _ => ?_
        split
        · trivial
        · refine (setPINRetries_traced hn _).then fun _ => (lifts _).then fun _ => ?_
          split
          · trivial
          · exact (setPINHash_traced hr hs hh _).then fun _ => trivial
  · trivial

theorem getPINToken_traced (hn : t.pinRetries = true) (args : ClientPINArgs) :
    Traced R K (Keeps t) (fun _ => True) (handleGetPINToken E args) := by
  unfold handleGetPINToken
  split
  · trivial
  · split
    · trivial
    · split
      · trivial
      · refine getPINRetries_traced.then fun _ => ?_
        split
        · trivial
        · refine (sharedSecret_traced _).then fun _ => getPINRetries_traced.then fun _ => ?_
          unfold attempt
          refine (setPINRetries_traced hn _).then fun _ => (lifts _).then fun _ => (reads _).then fun _ => ?_
          split
          · trivial
          · exact (setPINRetries_traced hn _).then fun _ => (reads _).then fun _ => (lifts _).then fun _ => trivial

theorem clientPIN_traced (data : Bytes) :
    Traced R K (Keeps (touches E (.ctap (6 :: data)))) (fun _ => True) (handleClientPIN E data) := by
  unfold handleClientPIN
  refine (reads _).then fun _ => ?_
  split
  · trivial
  · cases hd : E.decodeClientPIN data with
    | none => trivial
    | some args =>
      have ht : touches E (.ctap (6 :: data)) = (if args.subCommand = 3 ∨ args.subCommand = 4 then
        { pinHash := true, pinRetries := true, rnd := true, store := true }
        else if args.subCommand = 5 then { pinRetries := true } else {}) := by
        unfold touches
        simp only [hd]
      dsimp only
      split
      · trivial
      · split
        · unfold handleGetRetries
          exact getPINRetries_traced.then fun _ => trivial
        · split
          · unfold handleGetKeyAgreement
            exact (reads _).then fun _ => trivial
          · split
            · rename_i h3
              rw [ht, if_pos (.inl h3)]
              exact setPIN_traced rfl rfl rfl rfl args
            · rename_i h3
              split
              · rename_i h4
                rw [ht, if_pos (.inr h4)]
                exact changePIN_traced rfl rfl rfl rfl args
              · rename_i h4
                split
                · rename_i h5
                  rw [ht, if_neg (by simp [h3, h4]), if_pos h5]
                  exact getPINToken_traced rfl args
                · trivial

theorem register_traced (hr : t.rnd = true) (ha : t.asks = true) (request : Bytes) :
    Traced R K (Keeps t) (fun _ => True) (handleRegister E request) := by
  unfold handleRegister
  split
  · trivial
  · dsimp only
    split
    · trivial
    · refine Traced.then ((draw_traced hr).then fun _ => pures _) fun key => Traced.then ?_ fun handle =>
        Traced.then (approve_traced ha _ _ _) fun _ => ?_
      · unfold sealKeyHandle
        exact (reads _).then fun _ => (draw_traced hr).then fun _ => (lifts _).then fun _ => trivial
      · split
        · trivial
        · exact (createCertificate_traced hr _).then fun _ => (signWith_traced hr _ _).then fun _ => trivial

theorem finishAuthenticate_traced (hr : t.rnd = true) (hc : t.authCounter = true) (key : ECPriv)
    (application challenge : Bytes) :
    Traced R K (Keeps t) (fun _ => True) (finishAuthenticate E key application challenge) := by
  unfold finishAuthenticate newAuthCounter
  refine Traced.then ((reads _).then fun _ => (reads _).then fun _ => Traced.then ?_ fun _ => trivial)
    fun _ => (signWith_traced hr _ _).then fun _ => trivial
  refine traced_write fun m => { keeps_refl t m with authCounter := fun h' => ?_ }
  rw [hc] at h'
  cases h'

theorem authenticate_traced (hr : t.rnd = true) (ha : t.asks = true) (hc : t.authCounter = true)
    (control : UInt8) (request : Bytes) :
    Traced R K (Keeps t) (fun _ => True) (handleAuthenticate E control request) := by
  unfold handleAuthenticate
  refine (lifts _).then fun x => ?_
  obtain ⟨challenge, application, handle⟩ := x
  dsimp only
  refine Traced.then ?_ fun opened => ?_
  · unfold openKeyHandle
    split
    · trivial
    · exact (reads _).then fun _ => (lifts _).then fun _ => trivial
  · split
    · trivial
    · split
      · trivial
      · split
        · trivial
        · split
          · trivial
          · split
            · trivial
            · split
              · refine (approve_traced ha _ _ _).then fun _ => ?_
                split
                · trivial
                · exact finishAuthenticate_traced hr hc _ _ _
              · split
                · exact finishAuthenticate_traced hr hc _ _ _
                · trivial

theorem u2f_traced (m : Bytes) :
    Traced R K (Keeps (touches E (.u2f m))) (fun _ => True) (handleU2f E m) := by
  unfold handleU2f
  refine Traced.bind (Q := fun x => U2f.decodeMessage m = .ok x) (traced_lift fun _ h => h) fun x hx => ?_
  obtain ⟨header, request, le⟩ := x
  have hm : ∃ cla p1 p2 rest, m = cla :: header.command :: p1 :: p2 :: rest := by
    match m with
    | [] => simp [U2f.decodeMessage] at hx
    | [_] => simp [U2f.decodeMessage] at hx
    | [_, _] => simp [U2f.decodeMessage] at hx
    | [_, _, _] => simp [U2f.decodeMessage] at hx
    | cla :: ins :: p1 :: p2 :: rest =>
      have := U2f.decodeMessage_header hx
      dsimp only at this
      rw [this]
      exact ⟨_, _, _, _, rfl⟩
  obtain ⟨cla, p1, p2, rest, rfl⟩ := hm
  dsimp only
  split
  · trivial
  · split
    · rename_i h1
      rw [h1]
      exact register_traced rfl rfl _
    · split
      · rename_i h2
        rw [h2]
        exact authenticate_traced rfl rfl rfl _ _
      · trivial

theorem findIdentity_traced (id : Bytes) : ∀ l, Traced R K (Keeps t) (fun _ => True) (findIdentity id l)
  | [] => trivial
  | p :: rest => by
    unfold findIdentity
    refine (deref_traced p).then fun s => ?_
    split
    · trivial
    · exact (findIdentity_traced id rest).then fun _ => trivial

/-- Every operation changes only what it may. -/
theorem perform_traced (op : Op) : Traced R K (Keeps (touches E op)) (fun _ => True) (perform E op) := by
  cases op with
  | ctap m =>
    refine Traced.then ?_ fun _ => trivial
    unfold handleCtap
    split
    · trivial
    · rename_i c body
      split
      · rename_i h
        subst h
        exact makeCredential_traced rfl rfl rfl rfl rfl body
      · split
        · exact getInfo_traced
        · split
          · rename_i h
            subst h
            exact getAssertion_traced rfl rfl rfl rfl body
          · split
            · rename_i h
              subst h
              exact clientPIN_traced body
            · trivial
  | u2f m => exact (u2f_traced m).then fun _ => trivial
  | enablePIN =>
    refine Traced.then ?_ fun _ => trivial
    refine Traced.then ?_ fun _ => saveData_traced rfl rfl
    exact traced_write fun m => { keeps_refl _ m with pinEnabled := fun h' => by cases h' }
  | disablePIN =>
    refine Traced.then ?_ fun _ => trivial
    refine Traced.then ?_ fun _ => saveData_traced rfl rfl
    exact traced_write fun m => { keeps_refl _ m with pinEnabled := fun h' => by cases h' }
  | setPIN pin => exact Traced.then (setPINHash_traced rfl rfl rfl _) fun _ => trivial
  | deleteIdentity id =>
    refine Traced.then ?_ fun _ => trivial
    unfold deleteIdentity
    refine (looks _).then fun slots => Traced.then ?_ fun found => ?_
    · exact findIdentity_traced id slots
    · split
      · refine Traced.then ?_ fun _ => (saveData_traced rfl rfl).then fun _ => trivial
        exact traced_write fun m => { keeps_refl _ m with credentials := fun h' => by cases h' }
      · trivial
  | restart => trivial

/-! ### Goroutines -/

theorem thread_step {s : Process} {e : Event} {i : Nat} {t : Thread}
    (h : (s.step E cfg e).threads[i]? = some t) :
    (∃ u, s.threads[i]? = some u ∧ ((e ≠ .restart ∧ t = u) ∨ t = u.ended)) ∨
    (∃ op, e = .begin op ∧ op ≠ .restart ∧ s.alive = true ∧ i = s.threads.length ∧ t = settle op (perform E op)) ∨
    (∃ op upd next, e = .turn i ∧ s.alive = true ∧ s.threads[i]? = some (.working op (.act upd next)) ∧
      t = settle op (next s.mem)) := by
  -- one goroutine has moved
  have hmoved : ∀ {s : Process} {j : Nat} {op : Op} {m : Mem} {p : Prog Reply} {i : Nat} {t : Thread},
      (s.moved j op m p).threads[i]? = some t → j < s.threads.length →
      (i = j ∧ t = settle op p) ∨ (i ≠ j ∧ ∃ u, s.threads[i]? = some u ∧ (t = u ∨ t = u.ended)) := by
    intro s j op m p i t h hj
    by_cases hi : i = j
    · subst hi
      refine .inl ⟨rfl, ?_⟩
      cases p with
      | fail c =>
        simp only [Process.moved, List.getElem?_map, List.getElem?_set, if_pos, hj, Option.map_some] at h
        exact (Option.some.inj h).symm
      | ret r =>
        simp only [Process.moved, List.getElem?_set, if_pos, hj] at h
        exact (Option.some.inj h).symm
      | act u n =>
        simp only [Process.moved, List.getElem?_set, if_pos, hj] at h
        exact (Option.some.inj h).symm
    · refine .inr ⟨hi, ?_⟩
      have hi' : ¬ j = i := fun h => hi h.symm
      cases p with
      | fail c =>
        simp only [Process.moved, List.getElem?_map, List.getElem?_set, if_neg hi'] at h
        cases hu : s.threads[i]? with
        | none => rw [hu] at h; cases h
        | some u =>
          rw [hu] at h
          exact ⟨u, rfl, .inr (Option.some.inj h).symm⟩
      | ret r =>
        simp only [Process.moved, List.getElem?_set, if_neg hi'] at h
        exact ⟨t, h, .inl rfl⟩
      | act u n =>
        simp only [Process.moved, List.getElem?_set, if_neg hi'] at h
        exact ⟨t, h, .inl rfl⟩
  cases e with
  | begin op =>
    unfold Process.step at h
    dsimp only at h
    split at h
    · rename_i hc
      rcases hmoved h (by simp) with ⟨rfl, rfl⟩ | ⟨hi, u, hu, ht⟩
      · exact .inr (.inl ⟨op, rfl, hc.2, hc.1, rfl, rfl⟩)
      · have hl := (List.getElem?_eq_some_iff.1 hu).1
        simp only [List.length_append, List.length_cons, List.length_nil] at hl
        rw [List.getElem?_append_left (by omega)] at hu
        exact .inl ⟨u, hu, ht.imp (fun h => ⟨by simp, h⟩) id⟩
    · exact .inl ⟨t, h, .inl ⟨by simp, rfl⟩⟩
  | turn j =>
    unfold Process.step at h
    dsimp only at h
    split at h
    · rename_i op upd next hj
      split at h
      · rename_i ha
        rcases hmoved h (List.getElem?_eq_some_iff.1 hj).1 with ⟨rfl, rfl⟩ | ⟨hi, u, hu, ht⟩
        · exact .inr (.inr ⟨op, upd, next, rfl, ha, hj, rfl⟩)
        · exact .inl ⟨u, hu, ht.imp (fun h => ⟨by simp, h⟩) id⟩
      · exact .inl ⟨t, h, .inl ⟨by simp, rfl⟩⟩
    · exact .inl ⟨t, h, .inl ⟨by simp, rfl⟩⟩
  | restart =>
    unfold Process.step at h
    dsimp only at h
    have h : (s.threads.map Thread.ended)[i]? = some t := by
      split at h <;> exact h
    rw [List.getElem?_map] at h
    cases hu : s.threads[i]? with
    | none => rw [hu] at h; cases h
    | some u =>
      rw [hu] at h
      exact .inl ⟨u, rfl, .inr (Option.some.inj h).symm⟩

theorem ended_not_working (u : Thread) (op : Op) (p : Prog Reply) : u.ended ≠ .working op p := by
  cases u <;> simp [Thread.ended]

theorem settle_working {op op' : Op} {p q : Prog Reply} (h : settle op p = .working op' q) :
    op' = op ∧ q = p := by
  cases p with
  | ret r => cases h
  | fail c => cases h
  | act u n =>
    injection h with h1 h2
    exact ⟨h1.symm, h2.symm⟩

/-- Goroutines at work change only what they may. -/
theorem working_traced (s : Process)
    (hs : ∀ (i : Nat) op p, s.threads[i]? = some (.working op p) →
      Traced (fun _ => True) (fun _ => False) (Keeps (touches E op)) (fun _ => True) p) :
    ∀ (evs : List Event) (i : Nat) op p, (s.run E cfg evs).threads[i]? = some (.working op p) →
      Traced (fun _ => True) (fun _ => False) (Keeps (touches E op)) (fun _ => True) p := by
  intro evs
  induction evs generalizing s with
  | nil => exact hs
  | cons e evs ih =>
    refine ih (s.step E cfg e) ?_
    intro i op p hi
    rcases thread_step hi with ⟨u, hu, ⟨-, rfl⟩ | h⟩ | ⟨op', -, -, -, -, h⟩ | ⟨op', upd, next, -, -, hw, h⟩
    · exact hs i op p hu
    · exact absurd h.symm (ended_not_working u op p)
    · obtain ⟨rfl, rfl⟩ := settle_working h.symm
      exact perform_traced op
    · obtain ⟨rfl, rfl⟩ := settle_working h.symm
      rcases hs i op _ hw s.mem trivial with h | h
      · exact absurd h id
      · exact h.2

end Overlap
end VF.Fido
