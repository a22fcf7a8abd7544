import Verif.Proofs.Exclusive
import Verif.Proofs.OverlapIdsPerform

/-!
# Announced credentials are kept when creations and deletions come one at a time

With `b`, also in the saved data, when all that saves comes one at a time.
-/

namespace VF.Fido.Overlap

open Prog VF.Spec.Client VF.Spec.Vault VF.Spec.Cose VF.Spec.Overlap VF.Spec.History VF.Spec.Ctap VF.Spec.Store

variable {E : Env} {cfg : Client.Config}

/-- Credentials stay where they are, with other counters perhaps. -/
def HeapLe (m m' : Mem) : Prop := ∀ (p : Nat) s, m.heap[p]? = some s → ∃ n, m'.heap[p]? = some { s with counter := n }

theorem HeapLe.refl (m : Mem) : HeapLe m m := fun _ s h => ⟨s.counter, h⟩

theorem HeapLe.trans {m m' m'' : Mem} (h : HeapLe m m') (h' : HeapLe m' m'') : HeapLe m m'' := by
  intro p s hs
  obtain ⟨n, hn⟩ := h p s hs
  obtain ⟨k, hk⟩ := h' p _ hn
  exact ⟨k, hk⟩

/-- What others do. -/
structure Quiet (b : Bool) (m m' : Mem) : Prop where
  slots : m'.slots = m.slots
  heap : HeapLe m m'
  store : b = true → m'.world.store = m.world.store

theorem Quiet.refl (b : Bool) (m : Mem) : Quiet b m m := ⟨rfl, HeapLe.refl m, fun _ => rfl⟩

theorem Quiet.trans {b : Bool} {m m' m'' : Mem} (h : Quiet b m m') (h' : Quiet b m' m'') : Quiet b m m'' :=
  ⟨h'.slots.trans h.slots, h.heap.trans h'.heap, fun hb => (h'.store hb).trans (h.store hb)⟩

theorem keeps_quiet {b : Bool} {t : Touches} (hc : t.credentials = false) (hs : b = true → t.store = false) {m m' : Mem} (h : Keeps t m m') :
    Quiet b m m' := ⟨h.credentials hc, h.entries, fun hb => h.store (hs hb)⟩

/-- `c` is on the list. -/
def InMemory (c : Cred) (m : Mem) : Prop := ∃ p ∈ m.slots, ∃ s, m.heap[p]? = some s ∧ Is c s

/-- `c` is there after a start. -/
def InStore (E : Env) (cfg : Client.Config) (c : Cred) (store : Option Bytes) : Prop :=
  ∀ n cl, Client.start E cfg store n = .ok cl → ∃ s ∈ cl.vault, Is c s

def Kept (b : Bool) (E : Env) (cfg : Client.Config) (c : Cred) (m : Mem) : Prop :=
  InMemory c m ∧ (b = true → InStore E cfg c m.world.store)

section
variable {b : Bool} {c : Cred} {m m' : Mem}

theorem InMemory.later (h : InMemory c m) (hs : m'.slots = m.slots) (hh : HeapLe m m') : InMemory c m' := by
  obtain ⟨p, hp, s, h1, h2⟩ := h
  obtain ⟨n, hn⟩ := hh p s h1
  exact ⟨p, by rw [hs]; exact hp, _, hn, h2⟩

theorem InMemory.quiet (h : InMemory c m) (hq : Quiet b m m') : InMemory c m' := h.later hq.slots hq.heap

theorem Kept.quiet (h : Kept b E cfg c m) (hq : Quiet b m m') : Kept b E cfg c m' :=
  ⟨h.1.quiet hq, fun hb => by rw [hq.store hb]; exact h.2 hb⟩

theorem saves_inStore (L : Laws E) {cl : Client} (h : Healthy E cl) {rnd n : Nat} {blob : Bytes}
    (hs : Ctap.Saves E cl rnd blob n) {s : Source} (hm : s ∈ cl.vault) (hi : Is c s) (hk : ∃ k, s.key = { ecdsa := some k }) :
    InStore E cfg c (some blob) := by
  intro k c' hk'
  obtain ⟨-, c'', k1, ⟨-, -, -, -, -, e6, e7⟩, -⟩ := saves_restore L h hs cfg k
  rw [hk'] at k1
  obtain rfl := Res.ok.inj k1
  obtain ⟨i, hi'⟩ := List.mem_iff_getElem?.1 hm
  have hl : i < c'.vault.length := by rw [← e6]; exact (List.getElem?_eq_some_iff.1 hi').1
  have hsame := e7 i s _ hi' (List.getElem?_eq_getElem hl)
  obtain ⟨key, hkey⟩ := hk
  have ht : c'.vault[i].key = { ecdsa := some key } := ecdsa_only hsame.2.2.2 hkey
  refine ⟨c'.vault[i], List.getElem_mem hl, hsame.1.symm.trans hi.1, ?_⟩
  rw [ht, ← hkey]
  exact hi.2

end

section
variable {b : Bool} {c : Cred} {m : Mem} {K X : Prop} {α β : Type}

/-- What holds all the time: with `K`, `c` is kept. -/
abbrev J (K : Prop) (b : Bool) (E : Env) (cfg : Client.Config) (c : Cred) (m : Mem) : Prop := K → Kept b E cfg c m

/-- Goroutines while `c` is kept. -/
abbrev Keep (K : Prop) (b : Bool) (E : Env) (cfg : Client.Config) (c : Cred) (Q : α → Mem → Prop) : Prog α → Mem → Prop :=
  Runs (Good E cfg) (Quiet b) (J K b E cfg c) Q

/-- Steps that leave credentials and saved data alone. -/
theorem Keep.other {Q : α → Prop} {p : Prog α} (h : Traced (fun _ => True) (fun _ => False) (Keeps besides) Q p)
    (hm : J K b E cfg c m) : Keep K b E cfg c (fun a m' => Q a ∧ Quiet b m m') p m := by
  refine (Runs.of_traced (P := fun m' => Quiet b m m') h (fun _ _ h1 h2 _ => h1.trans h2)
    (fun _ _ h1 h2 => h1.trans (keeps_quiet rfl (fun _ => rfl) h2)) (fun m' h hk => (hm hk).quiet h) (Quiet.refl b m))

theorem Keep.others {Q : α → Prop} {R : β → Mem → Prop} {p : Prog α} {f : α → Prog β}
    (h : Traced (fun _ => True) (fun _ => False) (Keeps besides) Q p) (hm : J K b E cfg c m)
    (hf : ∀ a m', Quiet b m m' → J K b E cfg c m' → Q a → Keep K b E cfg c R (f a) m') : Keep K b E cfg c R (p >>= f) m := by
  refine (Keep.other h hm).bind ?_
  rintro a m' ⟨h1, h2⟩
  exact hf a m' h2 (fun hk => (hm hk).quiet h2) h1

theorem Keep.rest {p : Prog α} (h : Traced (fun _ => True) (fun _ => False) (Keeps besides) (fun _ => True) p) (hm : J K b E cfg c m) :
    Keep K b E cfg c (fun _ m' => J K b E cfg c m') p m :=
  (Keep.other h hm).mono fun _ _ h hk => (hm hk).quiet h.2

/-- A read: the memory then. -/
theorem Keep.look_bind {R : β → Mem → Prop} {g : Mem → α} {f : α → Prog β} (hm : J K b E cfg c m)
    (h : ∀ m', Quiet b m m' → Good E cfg m' → Keep K b E cfg c R (f (g m')) m') : Keep K b E cfg c R (Prog.look g >>= f) m :=
  fun m' h1 h2 _ => ⟨fun hk => (hm hk).quiet h1, h m' h1 h2⟩

theorem Keep.field_bind {R : β → Mem → Prop} {g : Client → α} {f : α → Prog β} (hm : J K b E cfg c m)
    (h : ∀ m', Quiet b m m' → Good E cfg m' → Keep K b E cfg c R (f (g m'.world.client)) m') :
    Keep K b E cfg c R (field g >>= f) m := Keep.look_bind hm h

theorem Keep.lift_bind {R : β → Mem → Prop} {r : Res α} {f : α → Prog β} (h : ∀ a, r = .ok a → Keep K b E cfg c R (f a) m) :
    Keep K b E cfg c R (Prog.lift r >>= f) m := by
  cases r with
  | ok a => exact h a rfl
  | panic c => trivial

/-! ### Saving -/

/-- A list of places has `c`. -/
def Lists (c : Cred) (m : Mem) (slots : List Nat) : Prop := ∃ p ∈ slots, ∃ s, m.heap[p]? = some s ∧ Is c s

theorem Lists.later {m' : Mem} {slots : List Nat} (h : Lists c m slots) (hh : HeapLe m m') : Lists c m' slots := by
  obtain ⟨p, hp, s, h1, h2⟩ := h
  obtain ⟨n, hn⟩ := hh p s h1
  exact ⟨p, hp, _, hn, h2⟩

theorem exportSources_keep (L : Laws E) : ∀ (X : Prop) (slots : List Nat) (m : Mem), J K b E cfg c m → (X → Lists c m slots) →
    Keep K b E cfg c (fun saved m' => Quiet b m m' ∧ ∃ v, Vault.exportSources v = .ok saved ∧ (∀ s ∈ v, Complete E s) ∧
      (X → ∃ s ∈ v, Is c s ∧ ∃ k, s.key = { ecdsa := some k })) (exportSources slots) m
  | X, [], m, _, hX => ⟨Quiet.refl b m, [], rfl, fun s hs => (by cases hs), fun hx => by obtain ⟨p, hp, -⟩ := hX hx; cases hp⟩
  | X, p :: rest, m, hm, hX => by
    intro m1 r1 b1 _
    have hm1 : J K b E cfg c m1 := fun hk => (hm hk).quiet r1
    refine ⟨hm1, ?_⟩
    show Keep K b E cfg c _ (Prog.bind (match m1.heap[p]? with
      | some s => ret s
      | none => Prog.fail .nilDeref) _) m1
    cases hs : m1.heap[p]? with
    | none => trivial
    | some s =>
      show Keep K b E cfg c _ (Prog.lift (Cose.marshalPrivate s.key) >>= _) m1
      cases hk : Cose.marshalPrivate s.key with
      | panic c => trivial
      | ok key =>
        show Keep K b E cfg c _ (match s.rp, s.user with
          | some rp, some user => _
          | _, _ => _) m1
        cases hrp : s.rp with
        | none => trivial
        | some rp =>
          cases hu : s.user with
          | none => trivial
          | some user =>
            dsimp only
            have hg := b1.made s (List.mem_of_getElem? hs)
            refine (exportSources_keep L (X ∧ ¬ Is c s) rest m1 hm1 ?_).bind ?_
            · rintro ⟨hx, hne⟩
              obtain ⟨q, hq, t, h1, h2⟩ := (hX hx).later r1.heap
              rcases List.mem_cons.1 hq with rfl | hq
              · rw [hs] at h1
                obtain rfl := Option.some.inj h1
                exact absurd h2 hne
              · exact ⟨q, hq, t, h1, h2⟩
            · rintro tail m2 ⟨r2, v, hv, hc, hXv⟩
              refine ⟨r1.trans r2, s :: v, ?_, ?_, ?_⟩
              · simp only [Vault.exportSources, hk, Res.bind_ok, hrp, hu, hv]
              · intro u hu'
                rcases List.mem_cons.1 hu' with rfl | hu'
                · exact made_complete L hg.1 hg.2 (by simp [hrp]) (by simp [hu])
                · exact hc u hu'
              · intro hx
                by_cases hi : Is c s
                · obtain ⟨i, j, -, -, -, hkey⟩ := hg.1
                  exact ⟨s, by simp, hi, _, hkey⟩
                · obtain ⟨t, h1, h2⟩ := hXv ⟨hx, hi⟩
                  exact ⟨t, by simp [h1], h2⟩

theorem saveData_keep (L : Laws E) (hKX : K → X) (hm : J K b E cfg c m) (hX : X → InMemory c m) :
    Keep K b E cfg c (fun _ m' => J K b E cfg c m' ∧ m'.slots = m.slots ∧ HeapLe m m' ∧ (X → Kept b E cfg c m')) (saveData E) m := by
  have hlater : ∀ {m m' : Mem}, J K b E cfg c m → Quiet b m m' → J K b E cfg c m' := fun h hq hk => (h hk).quiet hq
  unfold saveData exportState
  simp only [Prog.bind_assoc, Prog.pure_bind]
  refine Keep.field_bind hm ?_
  intro m1 r1 b1
  have j1 := hlater hm r1
  refine Keep.lift_bind ?_
  intro key hk
  refine Keep.look_bind j1 ?_
  intro m2 r2 b2
  have j2 := hlater j1 r2
  have q2 := r1.trans r2
  refine (exportSources_keep L X m2.slots m2 j2 (fun hx => (hX hx).quiet q2)).bind ?_
  rintro saved m3 ⟨r3, v, hv, hc, hXv⟩
  have j3 := hlater j2 r3
  refine Keep.field_bind j3 ?_
  intro m4 r4 b4
  have j4 := hlater j3 r4
  refine Keep.field_bind j4 ?_
  intro m5 r5 b5
  have j5 := hlater j4 r5
  refine Keep.field_bind j5 ?_
  intro m6 r6 b6
  have j6 := hlater j5 r6
  refine Keep.field_bind j6 ?_
  intro m7 r7 b7
  have j7 := hlater j6 r7
  refine Keep.field_bind j7 ?_
  intro m8 r8 b8
  have j8 := hlater j7 r8
  have q8 := q2.trans (r3.trans (r4.trans (r5.trans (r6.trans (r7.trans r8)))))
  let cl : Client := { m8.world.client with
    deviceKey := m4.world.client.deviceKey, cert := m5.world.client.cert,
    certKey := m1.world.client.certKey, authCounter := m6.world.client.authCounter,
    pinEnabled := m7.world.client.pinEnabled, vault := v }
  have hst : Client.exportState cl = .ok {
      encryptionKey := m4.world.client.deviceKey, cert := m5.world.client.cert, certKey := key,
      authCounter := m6.world.client.authCounter, pinEnabled := m7.world.client.pinEnabled,
      pinHash := m8.world.client.pinHash, sources := saved } := by
    simp only [Client.exportState, cl, hk, hv, Res.bind_ok]
  have hh : Healthy E cl := ⟨b5.cert, b1.only, b1.valid, b8.hash, hc⟩
  intro m9 r9 b9 _
  dsimp only [Prog.bind]
  split
  · exact ⟨hlater j8 r9, trivial⟩
  · rename_i data n he
    have r9' : Quiet b m9 { m9 with world := { m9.world with rnd := n } } := ⟨rfl, HeapLe.refl _, fun _ => rfl⟩
    refine ⟨hlater j8 (r9.trans r9'), ?_⟩
    intro m10 r10 b10 _
    have q10 := (q8.trans (r9.trans r9')).trans r10
    have hput : X → Kept b E cfg c { m10 with world := { m10.world with store := some data } } := by
      intro hx
      refine ⟨((hX hx).quiet q10).later rfl (HeapLe.refl _), fun _ => ?_⟩
      obtain ⟨s, h1, h2, h3⟩ := hXv hx
      exact saves_inStore L hh ⟨_, hst, he⟩ h1 h2 h3
    exact ⟨fun hk => hput (hKX hk), fun hk => hput (hKX hk), q10.slots, q10.heap, hput⟩

/-- Saving, then something else. -/
theorem Keep.saved (L : Laws E) {R : β → Mem → Prop} {f : Unit → Prog β} (hm : J K b E cfg c m)
    (hf : ∀ m', J K b E cfg c m' → Keep K b E cfg c R (f ()) m') : Keep K b E cfg c R (saveData E >>= f) m := by
  refine (saveData_keep (X := K) L id hm (fun hk => (hm hk).1)).bind ?_
  rintro _ m' ⟨h1, -⟩
  exact hf m' h1

theorem saveData_rest (L : Laws E) (hm : J K b E cfg c m) : Keep K b E cfg c (fun _ m' => J K b E cfg c m') (saveData E) m :=
  (saveData_keep (X := K) L id hm (fun hk => (hm hk).1)).mono fun _ _ h => h.1

end
end VF.Fido.Overlap
