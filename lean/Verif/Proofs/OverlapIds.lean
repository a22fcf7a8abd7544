import Verif.Proofs.OverlapFootprint
import Verif.Proofs.ExclusiveCounters
import Verif.Proofs.Store

/-!
# Ids of credentials do not repeat, however requests overlap: one goroutine

Each goroutine has a ticket: the id it drew for a new credential, where it put the credential, the list of credentials it read
and has still to write back.
-/

namespace VF.Fido.Overlap

open Prog VF.Spec.Client VF.Spec.Vault VF.Spec.Cose VF.Spec.Overlap VF.Spec.History VF.Spec.Ctap VF.Spec.Store

inductive Ticket where
  | blank
  /-- an id was drawn -/
  | drawn (a : Bytes)
  /-- the credential is in memory, at a place -/
  | made (a : Bytes) (p : Nat)
  /-- the list was read, to be written back with the place added -/
  | adding (a : Bytes) (p : Nat) (l : List Nat)
  | done (a : Bytes)
  /-- the list was read, to be written back with one place less -/
  | deleting (l : List Nat)

namespace Ticket

def idOf : Ticket → Option Bytes
  | drawn a => some a
  | made a _ => some a
  | adding a _ _ => some a
  | done a => some a
  | _ => none

def placeOf : Ticket → Option Nat
  | made _ p => some p
  | adding _ p _ => some p
  | _ => none

def listOf : Ticket → Option (List Nat)
  | adding _ _ l => some l
  | deleting l => some l
  | _ => none

end Ticket

/-- The ids in memory, by place. -/
def ids (m : Mem) : List Bytes := m.heap.map (·.id)

/-- A start from this saved data gives credentials with different ids. -/
def StoreOk (E : Env) (cfg : Client.Config) (store : Option Bytes) : Prop :=
  ∀ n c, Client.start E cfg store n = .ok c → (c.vault.map (·.id)).Nodup

variable {E : Env} {cfg : Client.Config}

/-- What one step of a goroutine may do with its ticket. -/
inductive Move (E : Env) (cfg : Client.Config) : Ticket → Mem → Ticket → Mem → Prop
  | quiet {t : Ticket} {m m' : Mem} (hi : ids m' = ids m) (hs : m'.slots = m.slots)
    (hst : m'.world.store = m.world.store ∨ StoreOk E cfg m'.world.store) : Move E cfg t m t m'
  | draw {m m' : Mem} (hi : ids m' = ids m) (hs : m'.slots = m.slots) (hst : m'.world.store = m.world.store)
    (hr : m'.world.rnd = m.world.rnd + 1) : Move E cfg .blank m (.drawn (E.rand m.world.rnd 16)) m'
  | alloc {a : Bytes} {m m' : Mem} (hi : ids m' = ids m ++ [a]) (hs : m'.slots = m.slots)
    (hst : m'.world.store = m.world.store) : Move E cfg (.drawn a) m (.made a m.heap.length) m'
  | look {a : Bytes} {p : Nat} {m : Mem} : Move E cfg (.made a p) m (.adding a p m.slots) m
  | add {a : Bytes} {p : Nat} {l : List Nat} {m m' : Mem} (hi : ids m' = ids m) (hs : m'.slots = l ++ [p])
    (hst : m'.world.store = m.world.store) : Move E cfg (.adding a p l) m (.done a) m'
  | lookDel {m : Mem} : Move E cfg .blank m (.deleting m.slots) m
  | del {l : List Nat} {m m' : Mem} (hi : ids m' = ids m) (hn : l.Nodup → m'.slots.Nodup) (hs : ∀ p ∈ m'.slots, p ∈ l)
    (hst : m'.world.store = m.world.store) : Move E cfg (.deleting l) m .blank m'

/-- Memory while nothing repeats. -/
structure Base (E : Env) (cfg : Client.Config) (m : Mem) : Prop where
  good : Good E cfg m
  ids : (ids m).Nodup
  slots : m.slots.Nodup

variable {α β : Type}

/-- A goroutine with ticket `t`, which last left memory `m`: each of its steps is a move. -/
def Owns (E : Env) (cfg : Client.Config) (Q : Ticket → α → Mem → Prop) : Ticket → Prog α → Mem → Prop
  | t, .ret a, m => Q t a m
  | _, .fail _, _ => True
  | t, .act upd next, m => ∀ m', Rel false m m' → Base E cfg m' → Good E cfg (upd m') → Rel false m' (upd m') →
      ∃ t', Move E cfg t m' t' (upd m') ∧ Owns E cfg Q t' (next m') (upd m')

theorem Owns.mono {Q R : Ticket → α → Mem → Prop} (h : ∀ t a m, Q t a m → R t a m) :
    ∀ {t : Ticket} {p : Prog α} {m : Mem}, Owns E cfg Q t p m → Owns E cfg R t p m
  | t, .ret a, m, hs => h t a m hs
  | _, .fail _, _, _ => trivial
  | t, .act upd next, m, hs => by
    intro m' h1 h2 h3 h4
    obtain ⟨t', h5, h6⟩ := hs m' h1 h2 h3 h4
    exact ⟨t', h5, Owns.mono h h6⟩

theorem Owns.bind {Q : Ticket → α → Mem → Prop} {R : Ticket → β → Mem → Prop} {f : α → Prog β} :
    ∀ {p : Prog α} {t : Ticket} {m : Mem}, Owns E cfg Q t p m →
      (∀ t' a m', Rel false m m' → Q t' a m' → Owns E cfg R t' (f a) m') → Owns E cfg R t (p >>= f) m
  | .ret a, t, m, hs, hf => hf t a m (Rel.refl _ _) hs
  | .fail _, _, _, _, _ => trivial
  | .act upd next, t, m, hs, hf => by
    intro m' h1 h2 h3 h4
    obtain ⟨t', h5, h6⟩ := hs m' h1 h2 h3 h4
    exact ⟨t', h5, Owns.bind h6 (fun t'' a m'' k1 k2 => hf t'' a m'' (h1.trans (h4.trans k1)) k2)⟩

theorem Owns.later {Q : Ticket → α → Mem → Prop} {t : Ticket} {upd : Mem → Mem} {next : Mem → Prog α} {m m' : Mem}
    (hs : Owns E cfg Q t (.act upd next) m) (h : Rel false m m') : Owns E cfg Q t (.act upd next) m' :=
  fun m'' h1 => hs m'' (h.trans h1)

theorem keeps_ids {t : Touches} {m m' : Mem} (hc : t.creates = false) (h : Keeps t m m') : ids m' = ids m := by
  unfold ids
  apply List.ext_getElem?
  intro p
  rw [List.getElem?_map, List.getElem?_map]
  cases hp : m.heap[p]? with
  | none =>
    rw [List.getElem?_eq_none_iff] at hp
    rw [List.getElem?_eq_none (by rw [h.creates hc]; exact hp)]
  | some s =>
    obtain ⟨n, hn⟩ := h.entries p s hp
    rw [hn]
    rfl

/-- Steps that leave the credentials and the saved data. -/
theorem Owns.of_traced {tc : Touches} {Q : α → Prop} (hc : tc.creates = false) (hl : tc.credentials = false)
    (hs : tc.store = false) {t : Ticket} : ∀ {p : Prog α} {m : Mem},
      Traced (fun _ => True) (fun _ => False) (Keeps tc) Q p → Owns E cfg (fun t' a _ => t' = t ∧ Q a) t p m
  | .ret a, _, h => ⟨rfl, h⟩
  | .fail _, _, _ => trivial
  | .act upd next, m, h => by
    intro m' h1 h2 h3 h4
    rcases h m' trivial with h | ⟨k1, k2⟩
    · exact h.elim
    · exact ⟨t, .quiet (keeps_ids hc k1) (k1.credentials hl) (.inl (k1.store hs)), Owns.of_traced hc hl hs k2⟩

/-- The same, then something else. -/
theorem Owns.after {tc : Touches} {Q : α → Prop} (hc : tc.creates = false) (hl : tc.credentials = false)
    (hs : tc.store = false) {t : Ticket} {R : Ticket → β → Mem → Prop} {p : Prog α} {f : α → Prog β} {m : Mem}
    (h : Traced (fun _ => True) (fun _ => False) (Keeps tc) Q p)
    (hf : ∀ a m', Rel false m m' → Q a → Owns E cfg R t (f a) m') : Owns E cfg R t (p >>= f) m := by
  refine (Owns.of_traced hc hl hs h).bind ?_
  rintro t' a m' h1 ⟨rfl, h2⟩
  exact hf a m' h1 h2

/-! ### Saving -/

def idAt (m : Mem) (p : Nat) : Option Bytes := (ids m)[p]?

theorem idAt_later {m m' : Mem} {p : Nat} {a : Bytes} (h : idAt m p = some a) (hr : Rel false m m') : idAt m' p = some a := by
  unfold idAt ids at h ⊢
  rw [List.getElem?_map] at h ⊢
  cases hp : m.heap[p]? with
  | none => rw [hp] at h; cases h
  | some s =>
    obtain ⟨n, hn⟩ := hr.heap p s hp
    rw [hp] at h
    rw [hn]
    exact h

theorem exportSources_owns (L : Laws E) {t : Ticket} : ∀ (slots : List Nat) (m : Mem),
    Owns E cfg (fun t' saved m' => t' = t ∧ ∃ v, Vault.exportSources v = .ok saved ∧ (∀ s ∈ v, Complete E s) ∧
      v.map (fun s => some s.id) = slots.map (idAt m')) t (exportSources slots) m
  | [], m => ⟨rfl, [], rfl, fun s hs => (by cases hs), rfl⟩
  | p :: rest, m => by
    intro m1 r1 b1 _ _
    refine ⟨t, .quiet rfl rfl (.inl rfl), ?_⟩
    show Owns E cfg _ t (Prog.bind (match m1.heap[p]? with
      | some s => ret s
      | none => Prog.fail .nilDeref) _) m1
    cases hs : m1.heap[p]? with
    | none => trivial
    | some s =>
      show Owns E cfg _ t (Prog.lift (Cose.marshalPrivate s.key) >>= _) m1
      cases hk : Cose.marshalPrivate s.key with
      | panic c => trivial
      | ok key =>
        show Owns E cfg _ t (match s.rp, s.user with
          | some rp, some user => _
          | _, _ => _) m1
        cases hrp : s.rp with
        | none => trivial
        | some rp =>
          cases hu : s.user with
          | none => trivial
          | some user =>
            dsimp only
            refine (exportSources_owns L rest m1).bind ?_
            rintro t' tail m2 r2 ⟨rfl, v, hv, hc, hm⟩
            refine ⟨rfl, s :: v, ?_, ?_, ?_⟩
            · simp only [Vault.exportSources, hk, Res.bind_ok, hrp, hu, hv]
            · intro u hu'
              rcases List.mem_cons.1 hu' with rfl | hu'
              · have hg := b1.good.made u (List.mem_of_getElem? hs)
                exact made_complete L hg.1 hg.2 (by simp [hrp]) (by simp [hu])
              · exact hc u hu'
            · rw [List.map_cons, List.map_cons, hm]
              congr 1
              refine (idAt_later (m := m1) ?_ r2).symm
              unfold idAt ids
              rw [List.getElem?_map, hs]
              rfl

theorem nodup_saved {m : Mem} {l : List Nat} {v : List Source} (hl : l.Nodup) (hi : (ids m).Nodup)
    (h : v.map (fun s => some s.id) = l.map (idAt m)) : (v.map (·.id)).Nodup := by
  have hlen : v.length = l.length := by
    have := congrArg List.length h
    simpa using this
  have key : ∀ (i : Nat) s, v[i]? = some s → ∃ p, l[i]? = some p ∧ (ids m)[p]? = some s.id := by
    intro i s hs
    have := congrArg (fun l => l[i]?) h
    simp only [List.getElem?_map, hs, Option.map_some] at this
    cases hp : l[i]? with
    | none => rw [hp] at this; cases this
    | some p =>
      rw [hp] at this
      exact ⟨p, rfl, (Option.some.inj this).symm⟩
  unfold List.Nodup
  rw [List.pairwise_iff_getElem]
  intro i j hi' hj' hij he
  rw [List.length_map] at hi' hj'
  rw [List.getElem_map, List.getElem_map] at he
  obtain ⟨p, p1, p2⟩ := key i _ (List.getElem?_eq_getElem hi')
  obtain ⟨q, q1, q2⟩ := key j _ (List.getElem?_eq_getElem hj')
  rw [he, ← q2] at p2
  have hp : p = q := (List.getElem?_inj (by
    cases hx : (ids m)[q]? with
    | none => rw [hx] at q2; cases q2
    | some x => rw [hx] at p2; exact (List.getElem?_eq_some_iff.1 p2).1) hi).1 p2
  subst hp
  rw [← q1] at p1
  have : i = j := (List.getElem?_inj (by rw [← hlen]; exact hi') hl).1 p1
  omega

theorem saves_storeOk (L : Laws E) {c : Client} (h : Healthy E c) {rnd n : Nat} {blob : Bytes}
    (hs : Ctap.Saves E c rnd blob n) (hv : (c.vault.map (·.id)).Nodup) : StoreOk E cfg (some blob) := by
  intro k c' hk
  obtain ⟨-, c'', k1, ⟨-, -, -, -, -, e6, e7⟩, -⟩ := saves_restore L h hs cfg k
  rw [hk] at k1
  obtain rfl := Res.ok.inj k1
  have he : c'.vault.map (·.id) = c.vault.map (·.id) := by
    apply List.ext_getElem
    · simp [e6]
    · intro i h1 h2
      rw [List.length_map] at h1 h2
      rw [List.getElem_map, List.getElem_map]
      exact (e7 i _ _ (List.getElem?_eq_getElem h2) (List.getElem?_eq_getElem h1)).1.symm
  rw [he]
  exact hv

/-- A read: the memory then. -/
theorem Owns.look_bind {R : Ticket → β → Mem → Prop} {t : Ticket} {g : Mem → α} {f : α → Prog β} {m : Mem}
    (h : ∀ m', Rel false m m' → Base E cfg m' → Owns E cfg R t (f (g m')) m') :
    Owns E cfg R t (Prog.look g >>= f) m :=
  fun m' h1 h2 _ _ => ⟨t, .quiet rfl rfl (.inl rfl), h m' h1 h2⟩

theorem Owns.field_bind {R : Ticket → β → Mem → Prop} {t : Ticket} {g : Client → α} {f : α → Prog β} {m : Mem}
    (h : ∀ m', Rel false m m' → Base E cfg m' → Owns E cfg R t (f (g m'.world.client)) m') :
    Owns E cfg R t (field g >>= f) m := Owns.look_bind h

theorem Owns.lift_bind {R : Ticket → β → Mem → Prop} {t : Ticket} {r : Res α} {f : α → Prog β} {m : Mem}
    (h : ∀ a, r = .ok a → Owns E cfg R t (f a) m) : Owns E cfg R t (Prog.lift r >>= f) m := by
  cases r with
  | ok a => exact h a rfl
  | panic c => trivial

theorem saveData_owns (L : Laws E) {t : Ticket} (m : Mem) : Owns E cfg (fun t' _ _ => t' = t) t (saveData E) m := by
  unfold saveData exportState
  simp only [Prog.bind_assoc, Prog.pure_bind]
  refine Owns.field_bind ?_
  intro m1 r1 b1
  refine Owns.lift_bind ?_
  intro key hk
  refine Owns.look_bind ?_
  intro m2 r2 b2
  refine (exportSources_owns L m2.slots m2).bind ?_
  rintro t' saved m3 r3 ⟨rfl, v, hv, hc, hm⟩
  refine Owns.field_bind ?_
  intro m4 r4 b4
  have hnd : (v.map (·.id)).Nodup := by
    refine nodup_saved b2.slots b4.ids (hm.trans ?_)
    refine List.map_congr_left ?_
    intro p hp
    have : some ((ids m2)[p]?) ≠ some none := by
      have := b2.good.slots p hp
      rw [List.getElem?_eq_getElem (by unfold ids; simpa using this)]
      simp
    cases h2 : idAt m2 p with
    | none =>
      unfold idAt at h2
      rw [h2] at this
      exact absurd rfl this
    | some a =>
      have h3 := idAt_later h2 r3
      rw [h3, idAt_later h3 r4]
  refine Owns.field_bind ?_
  intro m5 r5 b5
  refine Owns.field_bind ?_
  intro m6 r6 b6
  refine Owns.field_bind ?_
  intro m7 r7 b7
  refine Owns.field_bind ?_
  intro m8 r8 b8
  let c : Client := { m8.world.client with
    deviceKey := m4.world.client.deviceKey, cert := m5.world.client.cert,
    certKey := m1.world.client.certKey, authCounter := m6.world.client.authCounter,
    pinEnabled := m7.world.client.pinEnabled, vault := v }
  have hst : Client.exportState c = .ok {
      encryptionKey := m4.world.client.deviceKey, cert := m5.world.client.cert, certKey := key,
      authCounter := m6.world.client.authCounter, pinEnabled := m7.world.client.pinEnabled,
      pinHash := m8.world.client.pinHash, sources := saved } := by
    simp only [Client.exportState, c, hk, hv, Res.bind_ok]
  have hh : Healthy E c := ⟨b5.good.cert, b1.good.only, b1.good.valid, b8.good.hash, hc⟩
  intro m9 r9 b9 _ _
  refine ⟨_, .quiet ?_ ?_ (.inl ?_), ?_⟩
  · dsimp only
    split <;> rfl
  · dsimp only
    split <;> rfl
  · dsimp only
    split <;> rfl
  · dsimp only [Prog.bind]
    split
    · trivial
    · rename_i data n he
      intro m10 r10 b10 _ _
      refine ⟨_, .quiet rfl rfl (.inr ?_), rfl⟩
      exact saves_storeOk L hh ⟨_, hst, he⟩ hnd

end VF.Fido.Overlap
