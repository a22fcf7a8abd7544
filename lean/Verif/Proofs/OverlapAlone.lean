import Verif.Model.Overlap
import Verif.Proofs.Vault

/-!
# A handler that is not interrupted does what the sequential model says
-/

namespace VF.Fido

namespace Prog

variable {α β γ : Type}

theorem run_bind (p : Prog α) (f : α → Prog β) (m : Mem) :
    (p >>= f).run m = match p.run m with
      | (.ok a, m') => (f a).run m'
      | (.panic c, m') => (.panic c, m') := by
  show (p.bind f).run m = _
  induction p generalizing m with
  | ret a => rfl
  | fail c => rfl
  | act upd next ih => exact ih m (upd m)

@[simp] theorem run_pure (a : α) (m : Mem) : (pure a : Prog α).run m = (.ok a, m) := rfl
@[simp] theorem run_fail (c : Cause) (m : Mem) : (fail c : Prog α).run m = (.panic c, m) := rfl
@[simp] theorem run_lift (r : Res α) (m : Mem) : (lift r).run m = (r, m) := by cases r <;> rfl
@[simp] theorem run_look (f : Mem → α) (m : Mem) : (look f).run m = (.ok (f m), m) := rfl
@[simp] theorem run_write (f : Mem → Mem) (m : Mem) : (write f).run m = (.ok (), f m) := rfl

theorem bind_assoc (p : Prog α) (f : α → Prog β) (g : β → Prog γ) :
    (p >>= f) >>= g = p >>= fun a => f a >>= g := by
  show (p.bind f).bind g = p.bind (fun a => (f a).bind g)
  induction p with
  | ret a => rfl
  | fail c => rfl
  | act upd next ih =>
    show Prog.act upd _ = Prog.act upd _
    congr 1
    funext m
    exact ih m

@[simp] theorem pure_bind (a : α) (f : α → Prog β) : ((pure a : Prog α) >>= f) = f a := rfl
@[simp] theorem ret_bind (a : α) (f : α → Prog β) : (ret a >>= f) = f a := rfl
@[simp] theorem fail_bind (c : Cause) (f : α → Prog β) : ((fail c : Prog α) >>= f) = fail c := rfl
theorem act_bind (upd : Mem → Mem) (next : Mem → Prog α) (f : α → Prog β) :
    (act upd next >>= f) = act upd (fun m => next m >>= f) := rfl

theorem run_bind_ok {p : Prog α} {f : α → Prog β} {m m' : Mem} {a : α} (h : p.run m = (.ok a, m')) :
    (p >>= f).run m = (f a).run m' := by
  rw [run_bind, h]

end Prog

namespace Overlap

open Prog

/-- The credentials the slots point to. -/
def contents (heap : List Source) (slots : List Nat) : List Source := slots.filterMap (heap[·]?)

/-- The memory as the sequential model sees it. -/
def view (m : Mem) : World :=
  { m.world with client := { m.world.client with vault := contents m.heap m.slots } }

/-- Pointers point to credentials, no two slots to the same one. -/
def Sound (m : Mem) : Prop := m.slots.Nodup ∧ ∀ p ∈ m.slots, p < m.heap.length

/-- Running `p` alone does what `g` does. -/
def Sim {α β : Type} (p : Prog α) (g : Go World β) (m : Mem) (Q : α → β → Mem → Prop) : Prop :=
  (∃ a b m', p.run m = (.ok a, m') ∧ g (view m) = (.ok b, view m') ∧ Sound m' ∧ Q a b m') ∨
  (∃ c m', p.run m = (.panic c, m') ∧ g (view m) = (.panic c, view m'))

variable {α β γ δ : Type} {m : Mem}

/-- The results are equal. -/
def Same (a b : α) (_ : Mem) : Prop := a = b

theorem Sim.bind {p : Prog α} {g : Go World β} {f : α → Prog γ} {k : β → Go World δ}
    {Q : α → β → Mem → Prop} {R : γ → δ → Mem → Prop} (h : Sim p g m Q)
    (hf : ∀ a b m', Sound m' → Q a b m' → Sim (f a) (k b) m' R) : Sim (p >>= f) (g >>= k) m R := by
  rcases h with ⟨a, b, m', h1, h2, h3, h4⟩ | ⟨c, m', h1, h2⟩
  · have := hf a b m' h3 h4
    unfold Sim at this ⊢
    rw [Prog.run_bind, h1, Go.run_bind, h2]
    exact this
  · exact .inr ⟨c, m', by rw [Prog.run_bind, h1], by rw [Go.run_bind, h2]⟩

theorem Sim.pure {a : α} {b : β} {Q : α → β → Mem → Prop} (hm : Sound m) (h : Q a b m) :
    Sim (Pure.pure a) (Pure.pure b) m Q := .inl ⟨a, b, m, rfl, rfl, hm, h⟩

theorem Sim.fail {c : Cause} {Q : α → β → Mem → Prop} : Sim (Prog.fail c) (Go.throw c) m Q :=
  .inr ⟨c, m, rfl, rfl⟩

theorem Sim.lift {r : Res α} {Q : α → α → Mem → Prop} (hm : Sound m) (h : ∀ a, r = .ok a → Q a a m) :
    Sim (Prog.lift r) (Go.lift r) m Q := by
  cases r with
  | ok a => exact .inl ⟨a, a, m, rfl, rfl, hm, h a rfl⟩
  | panic c => exact .inr ⟨c, m, rfl, rfl⟩

theorem Sim.mono {p : Prog α} {g : Go World β} {Q R : α → β → Mem → Prop} (h : Sim p g m Q)
    (hqr : ∀ a b m', Q a b m' → R a b m') : Sim p g m R := by
  rcases h with ⟨a, b, m', h1, h2, h3, h4⟩ | h
  · exact .inl ⟨a, b, m', h1, h2, h3, hqr _ _ _ h4⟩
  · exact .inr h

/-- Reading changes nothing. -/
theorem Sim.look_iff {f : Mem → α} {k : α → Prog β} {g : Go World γ} {Q : β → γ → Mem → Prop} :
    Sim (look f >>= k) g m Q ↔ Sim (k (f m)) g m Q := Iff.rfl

theorem Sim.field_iff {f : Client → α} {k : α → Prog β} {g : Go World γ} {Q : β → γ → Mem → Prop} :
    Sim (field f >>= k) g m Q ↔ Sim (k (f m.world.client)) g m Q := Iff.rfl

theorem Sim.get_iff {k : World → Go World γ} {p : Prog β} {Q : β → γ → Mem → Prop} :
    Sim p (Go.get >>= k) m Q ↔ Sim p (k (view m)) m Q := Iff.rfl

/-! ### Primitives -/

theorem draw_sim (hm : Sound m) :
    Sim draw Client.draw m (fun a b m' => a = b ∧ a = m.world.rnd ∧ m'.world.rnd = m.world.rnd + 1 ∧
      m'.heap = m.heap ∧ m'.slots = m.slots) :=
  .inl ⟨_, _, _, rfl, rfl, hm, rfl, rfl, rfl, rfl, rfl⟩

theorem approve_sim (E : Env) (a : Action) (rp user : Bytes) (hm : Sound m) :
    Sim (approve E a rp user) (Client.approve E a rp user) m
      (fun a b m' => a = b ∧ m'.heap = m.heap ∧ m'.slots = m.slots) :=
  .inl ⟨_, _, _, rfl, rfl, hm, rfl, rfl, rfl⟩

theorem setField_sim (f : Client → Client)
    (hf : ∀ (c : Client) v, f { c with vault := v } = { f c with vault := v }) (hm : Sound m) :
    Sim (setField f) (Client.update f) m (fun _ _ _ => True) := by
  refine .inl ⟨(), (), _, rfl, ?_, hm, trivial⟩
  have e : f (view m).client = { f m.world.client with vault := contents m.heap m.slots } := hf _ _
  show (Res.ok (), ({ view m with client := f (view m).client } : World)) = _
  rw [e]
  rfl

theorem deref_run {p : Nat} {s : Source} (h : m.heap[p]? = some s) : (deref p).run m = (.ok s, m) := by
  show (match m.heap[p]? with
    | some s => ret s
    | none => Prog.fail .nilDeref : Prog Source).run m = _
  rw [h]
  rfl

theorem deref_iff {p : Nat} {s : Source} (h : m.heap[p]? = some s) {k : Source → Prog β}
    {g : Go World γ} {Q : β → γ → Mem → Prop} :
    Sim (deref p >>= k) g m Q ↔ Sim (k s) g m Q := by
  unfold Sim
  rw [Prog.run_bind_ok (deref_run h)]

/-! ### The slots -/

theorem contents_cons {heap : List Source} {p : Nat} {slots : List Nat} {s : Source}
    (h : heap[p]? = some s) : contents heap (p :: slots) = s :: contents heap slots := by
  simp [contents, h]

/-- Some credential, to have a total function. -/
def blank : Source := { type := [], id := [], key := {}, rp := none, user := none, counter := 0 }

theorem contents_map {heap : List Source} : ∀ {slots : List Nat}, (∀ p ∈ slots, p < heap.length) →
    contents heap slots = slots.map (fun p => heap[p]?.getD blank)
  | [], _ => rfl
  | p :: slots, h => by
    have hl : p < heap.length := h p (by simp)
    have hp : heap[p]? = some heap[p] := List.getElem?_eq_getElem hl
    rw [contents_cons hp, contents_map (fun q hq => h q (by simp [hq])), List.map_cons, hp]
    rfl

theorem contents_append {heap : List Source} {slots : List Nat} (h : ∀ p ∈ slots, p < heap.length)
    (s : Source) :
    contents (heap ++ [s]) (slots ++ [heap.length]) = contents heap slots ++ [s] := by
  have e : contents (heap ++ [s]) slots = contents heap slots := by
    rw [contents_map h, contents_map fun p hp => by have := h p hp; simp; omega]
    refine List.map_congr_left fun p hp => ?_
    rw [List.getElem?_append_left (h p hp)]
  unfold contents at e ⊢
  rw [List.filterMap_append, e]
  simp

theorem exportSources_run : ∀ {slots : List Nat}, (∀ p ∈ slots, p < m.heap.length) →
    (exportSources slots).run m = (Vault.exportSources (contents m.heap slots), m)
  | [], _ => rfl
  | p :: slots, h => by
    have hl : p < m.heap.length := h p (by simp)
    have hp : m.heap[p]? = some m.heap[p] := List.getElem?_eq_getElem hl
    have ih := exportSources_run (slots := slots) (fun q hq => h q (by simp [hq]))
    rw [contents_cons hp]
    unfold exportSources Vault.exportSources
    rw [Prog.run_bind_ok (deref_run hp), Prog.run_bind, Prog.run_lift]
    cases Cose.marshalPrivate m.heap[p].key with
    | panic c => rfl
    | ok key =>
      dsimp only
      simp only [Res.bind_ok]
      cases m.heap[p].rp with
      | none => rfl
      | some rp =>
        cases m.heap[p].user with
        | none => rfl
        | some user =>
          dsimp only
          rw [Prog.run_bind, ih]
          cases Vault.exportSources (contents m.heap slots) with
          | panic c => rfl
          | ok tail => rfl

theorem exportState_run (hm : Sound m) :
    exportState.run m = (Client.exportState (view m).client, m) := by
  unfold exportState Client.exportState
  show ((lift (Cose.marshalPrivate m.world.client.certKey)) >>= _).run m = _
  rw [Prog.run_bind, Prog.run_lift]
  show _ = ((Cose.marshalPrivate m.world.client.certKey >>= _ : Res SavedState), m)
  cases Cose.marshalPrivate m.world.client.certKey with
  | panic c => rfl
  | ok key =>
    dsimp only
    rw [Res.bind_ok]
    show ((exportSources m.slots) >>= _).run m = _
    rw [Prog.run_bind, exportSources_run hm.2]
    show _ = ((Vault.exportSources (contents m.heap m.slots) >>= _ : Res SavedState), m)
    cases Vault.exportSources (contents m.heap m.slots) with
    | panic c => rfl
    | ok sources => rfl

theorem encryptState_run (E : Env) (state : SavedState) (m : Mem) :
    (encryptState E state).run m =
      match Saved.encryptState E state E.passphrase m.world.rnd with
      | none => (.panic .checkErr, m)
      | some (data, rnd) => (.ok data, { m with world := { m.world with rnd := rnd } }) := by
  unfold encryptState Prog.run
  dsimp only
  cases Saved.encryptState E state E.passphrase m.world.rnd <;> rfl

theorem saveData_sim (E : Env) (hm : Sound m) :
    Sim (saveData E) (Client.saveData E) m
      (fun _ _ m' => m'.heap = m.heap ∧ m'.slots = m.slots ∧ m'.world.client = m.world.client) := by
  unfold Sim saveData
  rw [Prog.run_bind, exportState_run hm]
  unfold Client.saveData
  cases Client.exportState (view m).client with
  | panic c => exact .inr ⟨c, m, rfl, rfl⟩
  | ok state =>
    dsimp only
    rw [show (view m).rnd = m.world.rnd from rfl]
    cases he : Saved.encryptState E state E.passphrase m.world.rnd with
    | none =>
      refine .inr ⟨.checkErr, m, ?_, rfl⟩
      rw [Prog.run_bind, encryptState_run, he]
    | some r =>
      obtain ⟨data, rnd⟩ := r
      refine .inl ⟨(), (), { m with world := { m.world with store := some data, rnd := rnd } }, ?_,
        rfl, hm, rfl, rfl, rfl⟩
      rw [Prog.run_bind, encryptState_run, he]
      rfl

theorem newCredentialSource_sim (E : Env) (params : List CredParam) (excl : List Descriptor)
    (rp : Option RPEntity) (user : Option UserEntity) (hm : Sound m) :
    Sim (newCredentialSource E params excl rp user)
      (Client.newCredentialSource E params excl rp user) m
      (fun a b m' => (a = none ∧ b = none) ∨
        ∃ p s, a = some p ∧ b = some s ∧ m'.heap[p]? = some s) := by
  unfold newCredentialSource Client.newCredentialSource
  split
  · exact .pure hm (.inl ⟨rfl, rfl⟩)
  · let s := Vault.newIdentity E rp user m.world.rnd
    let m1 : Mem := { world := { m.world with rnd := m.world.rnd + 2 }, heap := m.heap ++ [s],
                      slots := m.slots ++ [m.heap.length] }
    have hv : view m1 = { view m with
        client := { (view m).client with vault := Vault.addIdentity (view m).client.vault s }
        rnd := m.world.rnd + 2 } := by
      simp only [view, m1, contents_append hm.2, Vault.addIdentity]
    have hm1 : Sound m1 := by
      constructor
      · show (m.slots ++ [m.heap.length]).Nodup
        rw [List.nodup_append]
        refine ⟨hm.1, by simp, ?_⟩
        intro a ha b hb e
        have := hm.2 a ha
        simp only [List.mem_singleton] at hb
        omega
      · intro p hp
        have hl : m1.heap.length = m.heap.length + 1 := by simp [m1]
        rcases List.mem_append.1 hp with hp | hp
        · have := hm.2 p hp; omega
        · have := List.mem_singleton.1 hp; omega
    have hsim : Sim (saveData E >>= fun _ => (Pure.pure (some m.heap.length) : Prog (Option Nat)))
        (Client.saveData E >>= fun _ => (Pure.pure (some s) : Go World (Option Source))) m1
        (fun a b m' => (a = none ∧ b = none) ∨
          ∃ p s, a = some p ∧ b = some s ∧ m'.heap[p]? = some s) := by
      refine (saveData_sim E hm1).bind ?_
      rintro _ _ m' hm' ⟨h1, -, -⟩
      refine .pure hm' (.inr ⟨_, _, rfl, rfl, ?_⟩)
      rw [h1]
      simp [m1]
    unfold Sim at hsim ⊢
    rw [hv] at hsim
    exact hsim

theorem getMatching_run (rpId : Bytes) (allow : Option (List Descriptor)) :
    ∀ {slots : List Nat} (i : Nat), (∀ p ∈ slots, p < m.heap.length) →
    (∃ (ps js : List Nat), (getMatching rpId allow slots).run m = (.ok ps, m) ∧
      Vault.getMatching rpId allow i (contents m.heap slots) = .ok (js.map (· + i)) ∧
      js.map (slots[·]?) = ps.map some) ∨
    (∃ c, (getMatching rpId allow slots).run m = (.panic c, m) ∧
      Vault.getMatching rpId allow i (contents m.heap slots) = .panic c)
  | [], i, _ => .inl ⟨[], [], rfl, rfl, rfl⟩
  | p :: slots, i, h => by
    have hl : p < m.heap.length := h p (by simp)
    have hp : m.heap[p]? = some m.heap[p] := List.getElem?_eq_getElem hl
    have ih := getMatching_run rpId allow (slots := slots) (i + 1) (fun q hq => h q (by simp [hq]))
    rw [contents_cons hp]
    unfold getMatching Vault.getMatching
    rw [Prog.run_bind_ok (deref_run hp)]
    cases m.heap[p].rp with
    | none => exact .inr ⟨_, rfl, rfl⟩
    | some rp =>
      dsimp only
      rw [Prog.run_bind]
      rcases ih with ⟨ps, js, h1, h2, h3⟩ | ⟨c, h1, h2⟩
      · rw [h1, h2]
        left
        simp only [Res.bind_ok]
        have e : (js.map (· + 1)).map ((p :: slots)[·]?) = ps.map some := by
          rw [List.map_map, ← h3]
          rfl
        have e' : (js.map (· + 1)).map (· + i) = js.map (· + (i + 1)) := by
          rw [List.map_map]
          refine List.map_congr_left fun j _ => ?_
          show j + 1 + i = j + (i + 1)
          omega
        split
        · refine ⟨p :: ps, 0 :: js.map (· + 1), rfl, ?_, ?_⟩
          · rw [List.map_cons, e', Nat.zero_add]
          · rw [List.map_cons, e]; rfl
        · exact ⟨ps, js.map (· + 1), rfl, by rw [e'], e⟩
      · rw [h1, h2]
        exact .inr ⟨c, rfl, rfl⟩

theorem contents_modify {heap : List Source} {slots : List Nat} {i p : Nat} (f : Source → Source)
    (hn : slots.Nodup) (hv : ∀ p ∈ slots, p < heap.length) (hp : slots[i]? = some p) :
    contents (heap.modify p f) slots = (contents heap slots).modify i f := by
  have hv' : ∀ q ∈ slots, q < (heap.modify p f).length := by simpa using hv
  rw [contents_map hv, contents_map hv']
  apply List.ext_getElem?
  intro j
  rw [List.getElem?_modify, List.getElem?_map, List.getElem?_map]
  cases hj : slots[j]? with
  | none => simp
  | some q =>
    have hq : q < heap.length := hv q (List.mem_of_getElem? hj)
    simp only [Option.map_some, List.getElem?_modify, List.getElem?_eq_getElem hq, Option.getD_some]
    by_cases e : p = q
    · subst e
      have : i = j := by
        obtain ⟨hi, e1⟩ := List.getElem?_eq_some_iff.1 hp
        obtain ⟨hj', e2⟩ := List.getElem?_eq_some_iff.1 hj
        have hpw := List.pairwise_iff_getElem.1 hn
        rcases Nat.lt_trichotomy i j with h | h | h
        · exact absurd (e1.trans e2.symm) (hpw i j hi hj' h)
        · exact h
        · exact absurd (e2.trans e1.symm) (hpw j i hj' hi h)
      subst this
      simp
    · have : i ≠ j := by
        rintro rfl
        rw [hp] at hj
        exact e (Option.some.inj hj)
      simp [e, this]

theorem contents_get {heap : List Source} {slots : List Nat} {i p : Nat}
    (hv : ∀ p ∈ slots, p < heap.length) (hp : slots[i]? = some p) :
    ∃ s, heap[p]? = some s ∧ (contents heap slots)[i]? = some s := by
  have hq : p < heap.length := hv p (List.mem_of_getElem? hp)
  refine ⟨heap[p], List.getElem?_eq_getElem hq, ?_⟩
  rw [contents_map hv, List.getElem?_map, hp, Option.map_some, List.getElem?_eq_getElem hq]
  rfl

theorem getAssertionSource_sim (E : Env) (rpId : Bytes) (allow : Option (List Descriptor))
    (hm : Sound m) :
    Sim (getAssertionSource E rpId allow) (Client.getAssertionSource E rpId allow) m
      (fun a b m' => (a = none ∧ b = none) ∨
        ∃ p s, a = some p ∧ b = some s ∧ m'.heap[p]? = some s) := by
  unfold getAssertionSource Client.getAssertionSource
  rw [Sim.look_iff, Sim.get_iff]
  have hv : (view m).client.vault = contents m.heap m.slots := rfl
  rw [hv]
  rcases getMatching_run rpId allow 0 hm.2 with ⟨ps, js, h1, h2, h3⟩ | ⟨c, h1, h2⟩
  · rw [h2]
    unfold Sim
    rw [Prog.run_bind_ok h1]
    simp only [Nat.add_zero, List.map_id', Go.lift_ok_bind]
    cases ps with
    | nil =>
      have : js = [] := by simpa using h3
      subst this
      exact .inl ⟨none, none, m, rfl, rfl, hm, .inl ⟨rfl, rfl⟩⟩
    | cons p ps =>
      cases js with
      | nil => simp at h3
      | cons i js =>
        rw [List.map_cons, List.map_cons] at h3
        obtain ⟨hip, -⟩ := List.cons.inj h3
        obtain ⟨s, hs, hci⟩ := contents_get hm.2 hip
        dsimp only
        let m1 : Mem := { m with
          heap := m.heap.modify p (fun t => { t with counter := s.counter + 1 }) }
        have hc : contents m1.heap m1.slots = Client.bump (contents m.heap m.slots) i := by
          show contents (m.heap.modify p _) m.slots = _
          rw [contents_modify _ hm.1 hm.2 hip]
          unfold Client.bump
          apply List.ext_getElem?
          intro j
          rw [List.getElem?_modify, List.getElem?_modify]
          by_cases e : i = j
          · subst e
            simp [hci]
          · simp [e]
        have hm1 : Sound m1 := ⟨hm.1, by simpa [m1] using hm.2⟩
        have hw : view m1 = { view m with
            client := { (view m).client with vault := Client.bump (view m).client.vault i } } := by
          show { m1.world with client := { m1.world.client with vault := contents m1.heap m1.slots } } = _
          rw [hc]
          rfl
        have hsim : Sim (saveData E >>= fun _ => (Pure.pure (some p) : Prog (Option Nat)))
            (Client.saveData E >>= fun _ => (Go.get >>= fun w =>
              (Pure.pure w.client.vault[i]? : Go World (Option Source)))) m1
            (fun a b m' => (a = none ∧ b = none) ∨
              ∃ p s, a = some p ∧ b = some s ∧ m'.heap[p]? = some s) := by
          refine (saveData_sim E hm1).bind ?_
          rintro _ _ m' hm' ⟨e1, e2, -⟩
          rw [Sim.get_iff]
          refine .pure hm' (.inr ?_)
          have hip' : m'.slots[i]? = some p := by rw [e2]; exact hip
          obtain ⟨s', q1, q2⟩ := contents_get hm'.2 hip'
          exact ⟨p, s', rfl, q2, q1⟩
        unfold Sim at hsim
        rw [hw] at hsim
        have hr : (bump p >>= fun _ => (saveData E >>= fun _ => (Pure.pure (some p) :
            Prog (Option Nat)))).run m = (saveData E >>= fun _ => (Pure.pure (some p) :
            Prog (Option Nat))).run m1 := by
          refine Prog.run_bind_ok (a := ()) ?_
          unfold bump
          rw [Prog.run_bind_ok (deref_run hs)]
          rfl
        rw [hr]
        exact hsim
  · rw [h2]
    exact .inr ⟨c, m, by rw [Prog.run_bind, h1], rfl⟩

theorem approveAccountLogin_sim (E : Env) {p : Nat} {s : Source} (hp : m.heap[p]? = some s)
    (hm : Sound m) :
    Sim (approveAccountLogin E p) (Client.approveAccountLogin E s) m
      (fun a b m' => a = b ∧ m'.heap = m.heap) := by
  unfold approveAccountLogin Client.approveAccountLogin
  rw [deref_iff hp]
  cases s.rp with
  | none => exact .fail
  | some rp =>
    cases s.user with
    | none => exact .fail
    | some user => exact (approve_sim E _ _ _ hm).mono fun _ _ _ h => ⟨h.1, h.2.1⟩

theorem getPINRetries_sim (hm : Sound m) :
    Sim getPINRetries Client.getPINRetries m (fun a b m' => a = b ∧ m' = m) := by
  unfold getPINRetries Client.getPINRetries
  rw [Sim.field_iff, Sim.get_iff]
  have e : (view m).client.pinRetries = m.world.client.pinRetries := rfl
  rw [e]
  by_cases h1 : 0 < m.world.client.pinRetries
  · rw [if_pos h1, Sim.field_iff]
    by_cases h2 : m.world.client.pinRetries ≤ 8
    · rw [if_pos h2, if_pos ⟨h1, h2⟩]
      exact .inl ⟨_, _, m, rfl, rfl, hm, rfl, rfl⟩
    · rw [if_neg h2, if_neg fun h => h2 h.2]
      exact .fail
  · rw [if_neg h1, if_neg fun h => h1 h.1]
    exact .fail

theorem setPINRetries_sim (n : Int) (hm : Sound m) :
    Sim (setPINRetries n) (Client.setPINRetries n) m (fun _ _ _ => True) :=
  setField_sim _ (fun _ _ => rfl) hm

theorem setPINHash_sim (E : Env) (h : Option Bytes) (hm : Sound m) :
    Sim (setPINHash E h) (Client.setPINHash E h) m (fun _ _ _ => True) :=
  (setField_sim (fun c => { c with pinHash := h }) (fun _ _ => rfl) hm).bind fun _ _ _ hm' _ =>
    (saveData_sim E hm').mono fun _ _ _ _ => trivial

theorem newAuthCounter_sim (hm : Sound m) :
    Sim newAuthCounter Client.newAuthCounter m (fun a b _ => a = b) :=
  .inl ⟨_, _, _, rfl, rfl, hm, rfl⟩

theorem createCertificate_sim (E : Env) (k : PrivKey) (hm : Sound m) :
    Sim (createCertificate E k) (Client.createCertificate E k) m (fun a b _ => a = b) := by
  refine (draw_sim hm).bind ?_
  rintro n _ m' hm' ⟨rfl, -, -, -, -⟩
  rw [Sim.field_iff, Sim.field_iff, Sim.get_iff]
  refine (Sim.lift (Q := fun a b _ => a = b) hm' fun _ _ => rfl).bind ?_
  rintro cert _ m2 hm2 rfl
  cases cert with
  | none => exact .fail
  | some c => exact .pure hm2 rfl

theorem signWith_sim (E : Env) (k : PrivKey) (data : Bytes) (hm : Sound m) :
    Sim (signWith E k data) (Client.signWith E k data) m (fun a b _ => a = b) := by
  refine (draw_sim hm).bind ?_
  rintro n _ m' hm' ⟨rfl, -, -, -, -⟩
  exact .lift hm' fun _ _ => rfl

theorem findIdentity_run (id : Bytes) : ∀ {slots : List Nat}, (∀ p ∈ slots, p < m.heap.length) →
    (findIdentity id slots).run m =
      (.ok ((contents m.heap slots).findIdx? (fun s => s.id == id)), m)
  | [], _ => rfl
  | p :: slots, h => by
    have hl : p < m.heap.length := h p (by simp)
    have hp : m.heap[p]? = some m.heap[p] := List.getElem?_eq_getElem hl
    have ih := findIdentity_run id (slots := slots) (fun q hq => h q (by simp [hq]))
    rw [contents_cons hp]
    unfold findIdentity
    rw [Prog.run_bind_ok (deref_run hp), List.findIdx?_cons]
    by_cases e : m.heap[p].id = id
    · simp [e]
    · rw [if_neg e, Prog.run_bind_ok ih]
      simp [e]

theorem deleteIdentity_sim (E : Env) (id : Bytes) (hm : Sound m) :
    Sim (deleteIdentity E id) (Client.deleteIdentity E id) m (fun a b _ => a = b) := by
  unfold deleteIdentity Client.deleteIdentity
  rw [Sim.look_iff, Sim.get_iff]
  have hv : (view m).client.vault = contents m.heap m.slots := rfl
  have hcm := contents_map (heap := m.heap) hm.2
  have hl : (contents m.heap m.slots).getLast? =
      m.slots.getLast?.map (fun p => m.heap[p]?.getD blank) := by rw [hcm, List.getLast?_map]
  have hnone :
      Vault.deleteIdentity (contents m.heap m.slots) id = (contents m.heap m.slots, false) →
      Sim (Pure.pure false : Prog Bool) (let r := Vault.deleteIdentity (view m).client.vault id
        (do
          Client.update (fun c => { c with vault := r.1 })
          if r.2 then do
            Client.saveData E
            Pure.pure true
          else Pure.pure false : Go World Bool)) m (fun a b _ => a = b) := by
    intro e
    rw [hv, e]
    exact .inl ⟨false, false, m, rfl, rfl, hm, rfl⟩
  unfold Sim
  rw [Prog.run_bind_ok (findIdentity_run id hm.2)]
  cases hf : (contents m.heap m.slots).findIdx? (fun s => s.id == id) with
  | none =>
    exact hnone (by unfold Vault.deleteIdentity; rw [hf])
  | some i =>
    cases hg : m.slots.getLast? with
    | none =>
      exact hnone (by unfold Vault.deleteIdentity; rw [hf, hl, hg]; rfl)
    | some last =>
      have hd : Vault.deleteIdentity (contents m.heap m.slots) id =
          (contents m.heap (m.slots.set i last).dropLast, true) := by
        unfold Vault.deleteIdentity
        rw [hf, hl, hg, Option.map_some]
        have : ∀ p ∈ (m.slots.set i last).dropLast, p < m.heap.length := by
          intro p hp
          rcases List.mem_or_eq_of_mem_set (List.dropLast_subset _ hp) with hp | rfl
          · exact hm.2 p hp
          · exact hm.2 _ (List.mem_of_getLast? hg)
        rw [contents_map this, hcm, List.map_dropLast, List.map_set]
      have hmem : ∀ p ∈ (m.slots.set i last).dropLast, p < m.heap.length := by
        intro p hp
        rcases List.mem_or_eq_of_mem_set (List.dropLast_subset _ hp) with hp | rfl
        · exact hm.2 p hp
        · exact hm.2 _ (List.mem_of_getLast? hg)
      let m1 : Mem := { m with slots := (m.slots.set i last).dropLast }
      have hm1 : Sound m1 := by
        refine ⟨?_, hmem⟩
        have hi : i < m.slots.length := by
          have := (List.findIdx?_eq_some_iff_getElem.1 hf).1
          rw [hcm, List.length_map] at this
          exact this
        have hsplit : m.slots = m.slots.take i ++ m.slots[i] :: m.slots.drop (i + 1) := by
          rw [List.getElem_cons_drop, List.take_append_drop]
        have hlen : (m.slots.take i).length = i := by
          rw [List.length_take]; omega
        have hp := Vault.perm_remove (m.slots.take i) (m.slots.drop (i + 1)) m.slots[i] last
          (by rw [← hsplit]; exact hg)
        rw [← hsplit, hlen] at hp
        exact (List.nodup_cons.1 (hp.nodup_iff.1 hm.1)).2
      have hw : view m1 = { view m with client := { (view m).client with
          vault := (Vault.deleteIdentity (view m).client.vault id).1 } } := by
        rw [hv, hd]
        rfl
      have hsim : Sim (saveData E >>= fun _ => (Pure.pure true : Prog Bool))
          (Client.saveData E >>= fun _ => (Pure.pure true : Go World Bool)) m1
          (fun a b _ => a = b) :=
        (saveData_sim E hm1).bind fun _ _ _ hm' _ => .pure hm' rfl
      unfold Sim at hsim
      rw [hw] at hsim
      have hb : (Vault.deleteIdentity (view m).client.vault id).2 = true := by rw [hv, hd]
      have hr : (do
          Client.update (fun c => { c with vault := (Vault.deleteIdentity (view m).client.vault id).1 })
          if (Vault.deleteIdentity (view m).client.vault id).2 then do
            Client.saveData E
            Pure.pure true
          else Pure.pure false : Go World Bool) (view m) =
          (Client.saveData E >>= fun _ => (Pure.pure true : Go World Bool))
            { view m with client := { (view m).client with
              vault := (Vault.deleteIdentity (view m).client.vault id).1 } } := by
        rw [hb]
        rfl
      rw [hr]
      exact hsim

end Overlap
end VF.Fido
