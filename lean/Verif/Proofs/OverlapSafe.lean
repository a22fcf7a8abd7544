import Verif.Proofs.OverlapAlone
import Verif.Proofs.History

/-!
# Rely-guarantee reasoning about interleaved handlers

`Safe` says that a handler, interrupted anywhere by steps that respect `Rel` and keep `Good`, itself
respects and keeps them, asks at most one question, and ends in the given condition.
-/

namespace VF.Fido.Overlap

open VF.Spec.Client VF.Spec.Vault VF.Spec.Cose Prog

/-- Id and key were drawn by the device. -/
def Made (E : Env) (n : Nat) (s : Source) : Prop :=
  ∃ i j, i < n ∧ j < n ∧ s.id = E.rand i 16 ∧ s.key = { ecdsa := some (E.genEC j) }

/-- Type and entities are texts. -/
def Texts (s : Source) : Prop :=
  utf8 s.type ∧ (∀ rp, s.rp = some rp → utf8 rp.id ∧ utf8 rp.name) ∧
    (∀ u, s.user = some u → utf8 u.displayName ∧ utf8 u.name)

/-- What is saved can be started from, and has nothing that is not known to the process. -/
def SavedOk (E : Env) (cfg : Client.Config) (m : Mem) : Prop :=
  ∃ c, Healthy E c ∧ Device.Restores E cfg m.world.store c ∧
    c.deviceKey = m.world.client.deviceKey ∧ c.cert = m.world.client.cert ∧
    SamePrivate c.certKey m.world.client.certKey ∧
    ∀ s ∈ c.vault, Made E m.world.rnd s ∧ ∃ t ∈ m.heap, s.id = t.id ∧ s.key = t.key

/-- What holds of the memory at all times. -/
structure Good (E : Env) (cfg : Client.Config) (m : Mem) : Prop where
  cert : E.parseCert m.world.client.cert = true
  only : Only m.world.client.certKey
  valid : KeyValid E m.world.client.certKey
  hash : m.world.client.pinHash ≠ some []
  made : ∀ s ∈ m.heap, Made E m.world.rnd s ∧ Texts s
  slots : ∀ p ∈ m.slots, p < m.heap.length
  saved : SavedOk E cfg m

/-- What steps of other goroutines can do; with `keep`, none of them is to turn the PIN off. -/
structure Rel (keep : Bool) (m m' : Mem) : Prop where
  cert : m'.world.client.cert = m.world.client.cert
  certKey : m'.world.client.certKey = m.world.client.certKey
  deviceKey : m'.world.client.deviceKey = m.world.client.deviceKey
  pinToken : m'.world.client.pinToken = m.world.client.pinToken
  keyAgreement : m'.world.client.keyAgreement = m.world.client.keyAgreement
  rnd : m.world.rnd ≤ m'.world.rnd
  asks : ∃ new, m'.world.asks = m.world.asks ++ new
  heap : ∀ (p : Nat) s, m.heap[p]? = some s → ∃ n, m'.heap[p]? = some { s with counter := n }
  pinHash : m.world.client.pinHash ≠ none → m'.world.client.pinHash ≠ none
  pinOn : keep = true → m.world.client.pinEnabled = true → m'.world.client.pinEnabled = true

theorem Rel.refl (keep : Bool) (m : Mem) : Rel keep m m where
  cert := rfl
  certKey := rfl
  deviceKey := rfl
  pinToken := rfl
  keyAgreement := rfl
  rnd := Nat.le_refl _
  asks := ⟨[], by simp⟩
  heap := fun p s h => ⟨s.counter, h⟩
  pinHash := id
  pinOn := fun _ => id

theorem Rel.trans {keep : Bool} {a b c : Mem} (h : Rel keep a b) (k : Rel keep b c) : Rel keep a c where
  cert := k.cert.trans h.cert
  certKey := k.certKey.trans h.certKey
  deviceKey := k.deviceKey.trans h.deviceKey
  pinToken := k.pinToken.trans h.pinToken
  keyAgreement := k.keyAgreement.trans h.keyAgreement
  rnd := Nat.le_trans h.rnd k.rnd
  asks := by
    obtain ⟨x, hx⟩ := h.asks
    obtain ⟨y, hy⟩ := k.asks
    exact ⟨x ++ y, by rw [hy, hx, List.append_assoc]⟩
  heap := fun p s hs => by
    obtain ⟨n, hn⟩ := h.heap p s hs
    obtain ⟨n', hn'⟩ := k.heap p _ hn
    exact ⟨n', hn'⟩
  pinHash := fun x => k.pinHash (h.pinHash x)
  pinOn := fun x y => k.pinOn x (h.pinOn x y)

theorem Rel.weaken {own keep : Bool} {a b : Mem} (h : Rel own a b) (hk : keep = true → own = true) :
    Rel keep a b := { h with pinOn := fun x => h.pinOn (hk x) }

theorem Rel.length {keep : Bool} {a b : Mem} (h : Rel keep a b) : a.heap.length ≤ b.heap.length := by
  cases hl : a.heap.length with
  | zero => exact Nat.zero_le _
  | succ n =>
    obtain ⟨k, hk⟩ := h.heap n _ (List.getElem?_eq_getElem (show n < a.heap.length by omega))
    have := (List.getElem?_eq_some_iff.1 hk).1
    omega

/-- A handler with the question it has asked, if any, takes a step. -/
def Asked (may : Bool) (q : Option Ask) (m m' : Mem) (q' : Option Ask) : Prop :=
  (m'.world.asks = m.world.asks ∧ q' = q) ∨
    (may = true ∧ q = none ∧ ∃ a, m'.world.asks = m.world.asks ++ [a] ∧ q' = some a)

variable {E : Env} {cfg : Client.Config} {keep own may : Bool} {α β : Type}

/-- See the head of the file.  `own` is what the handler guarantees of the PIN switch, `may` whether
it may ask, `q` is the question it has asked. -/
def Safe (E : Env) (cfg : Client.Config) (keep own may : Bool) (Q : Option Ask → α → Mem → Prop) :
    Option Ask → Prog α → Mem → Prop
  | q, .ret a, m => Q q a m
  | _, .fail _, _ => True
  | q, .act upd next, m => ∀ m', Rel keep m m' → Good E cfg m' →
      ∃ q', Good E cfg (upd m') ∧ Rel own m' (upd m') ∧ Asked may q m' (upd m') q' ∧
        Safe E cfg keep own may Q q' (next m') (upd m')

theorem Safe.mono {Q R : Option Ask → α → Mem → Prop} (h : ∀ q a m, Q q a m → R q a m) :
    ∀ {q : Option Ask} {p : Prog α} {m : Mem}, Safe E cfg keep own may Q q p m →
      Safe E cfg keep own may R q p m
  | q, .ret a, m, hs => h q a m hs
  | _, .fail _, _, _ => trivial
  | q, .act upd next, m, hs => by
    intro m' h1 h2
    obtain ⟨q', h3, h4, h5, h6⟩ := hs m' h1 h2
    exact ⟨q', h3, h4, h5, Safe.mono h h6⟩

/-- With more restricted surroundings. -/
theorem Safe.narrow {Q : Option Ask → α → Mem → Prop} : ∀ {q : Option Ask} {p : Prog α} {m : Mem},
    Safe E cfg false own may Q q p m → Safe E cfg keep own may Q q p m
  | q, .ret a, m, hs => hs
  | _, .fail _, _, _ => trivial
  | q, .act upd next, m, hs => by
    intro m' h1 h2
    obtain ⟨q', h3, h4, h5, h6⟩ := hs m' (h1.weaken (by simp)) h2
    exact ⟨q', h3, h4, h5, Safe.narrow h6⟩

/-- Others do steps. -/
theorem Safe.later {Q : Option Ask → α → Mem → Prop} {q : Option Ask} {upd : Mem → Mem}
    {next : Mem → Prog α} {m m' : Mem} (hs : Safe E cfg keep own may Q q (.act upd next) m)
    (h : Rel keep m m') : Safe E cfg keep own may Q q (.act upd next) m' :=
  fun m'' h1 h2 => hs m'' (h.trans h1) h2

theorem Safe.bind (hko : keep = true → own = true) {Q : Option Ask → α → Mem → Prop}
    {R : Option Ask → β → Mem → Prop} {f : α → Prog β} :
    ∀ {p : Prog α} {q : Option Ask} {m : Mem}, Good E cfg m → Safe E cfg keep own may Q q p m →
      (∀ q' a m', Rel keep m m' → Good E cfg m' → Q q' a m' →
        Safe E cfg keep own may R q' (f a) m') →
      Safe E cfg keep own may R q (p >>= f) m
  | .ret a, q, m, hg, hs, hf => hf q a m (Rel.refl _ _) hg hs
  | .fail _, _, _, _, _, _ => trivial
  | .act upd next, q, m, hg, hs, hf => by
    intro m' h1 h2
    obtain ⟨q', h3, h4, h5, h6⟩ := hs m' h1 h2
    refine ⟨q', h3, h4, h5, ?_⟩
    exact Safe.bind hko h3 h6 (fun q'' a m'' k1 k2 k3 =>
      hf q'' a m'' (h1.trans ((h4.weaken hko).trans k1)) k2 k3)

theorem Safe.pure {Q : Option Ask → α → Mem → Prop} {q : Option Ask} {a : α} {m : Mem} (h : Q q a m) :
    Safe E cfg keep own may Q q (Pure.pure a) m := h

theorem Safe.fail {Q : Option Ask → α → Mem → Prop} {q : Option Ask} {c : Cause} {m : Mem} :
    Safe E cfg keep own may Q q (Prog.fail c) m := trivial

theorem Safe.lift {Q : Option Ask → α → Mem → Prop} {q : Option Ask} {r : Res α} {m : Mem}
    (h : ∀ a, r = .ok a → Q q a m) : Safe E cfg keep own may Q q (Prog.lift r) m := by
  cases r with
  | ok a => exact h a rfl
  | panic c => trivial

/-- A local computation first. -/
theorem Safe.lift_bind {R : Option Ask → β → Mem → Prop} {q : Option Ask} {r : Res α}
    {f : α → Prog β} {m : Mem} (h : ∀ a, r = .ok a → Safe E cfg keep own may R q (f a) m) :
    Safe E cfg keep own may R q (Prog.lift r >>= f) m := by
  cases r with
  | ok a => exact h a rfl
  | panic c => trivial

/-- A read first. -/
theorem Safe.look_bind {R : Option Ask → β → Mem → Prop} {q : Option Ask} {g : Mem → α}
    {f : α → Prog β} {m : Mem}
    (h : ∀ m', Rel keep m m' → Good E cfg m' → Safe E cfg keep own may R q (f (g m')) m') :
    Safe E cfg keep own may R q (look g >>= f) m :=
  fun m' h1 h2 => ⟨q, h2, Rel.refl _ _, .inl ⟨rfl, rfl⟩, h m' h1 h2⟩

theorem Safe.field_bind {R : Option Ask → β → Mem → Prop} {q : Option Ask} {g : Client → α}
    {f : α → Prog β} {m : Mem}
    (h : ∀ m', Rel keep m m' → Good E cfg m' →
      Safe E cfg keep own may R q (f (g m'.world.client)) m') :
    Safe E cfg keep own may R q (field g >>= f) m := Safe.look_bind h

theorem Safe.deref_bind {R : Option Ask → β → Mem → Prop} {q : Option Ask} {p : Nat}
    {f : Source → Prog β} {m : Mem}
    (h : ∀ m' s, Rel keep m m' → Good E cfg m' → m'.heap[p]? = some s →
      Safe E cfg keep own may R q (f s) m') :
    Safe E cfg keep own may R q (deref p >>= f) m := by
  intro m' h1 h2
  refine ⟨q, h2, Rel.refl _ _, .inl ⟨rfl, rfl⟩, ?_⟩
  show Safe E cfg keep own may R q (Prog.bind (match m'.heap[p]? with
    | some s => ret s
    | none => Prog.fail .nilDeref) f) m'
  cases hs : m'.heap[p]? with
  | none => trivial
  | some s => exact h m' s h1 h2 hs

/-- A write first. -/
theorem Safe.write_bind {R : Option Ask → β → Mem → Prop} {q : Option Ask} {g : Mem → Mem}
    {f : Unit → Prog β} {m : Mem} (ha : ∀ m', (g m').world.asks = m'.world.asks)
    (h : ∀ m', Rel keep m m' → Good E cfg m' → Good E cfg (g m') ∧ Rel own m' (g m') ∧
      Safe E cfg keep own may R q (f ()) (g m')) :
    Safe E cfg keep own may R q (write g >>= f) m := by
  intro m' h1 h2
  obtain ⟨h3, h4, h5⟩ := h m' h1 h2
  exact ⟨q, h3, h4, .inl ⟨ha m', rfl⟩, h5⟩

/-! ### Keeping `Good` -/

theorem Made.mono {n n' : Nat} {s : Source} (h : Made E n s) (hn : n ≤ n') : Made E n' s := by
  obtain ⟨i, j, h1, h2, h3, h4⟩ := h
  exact ⟨i, j, by omega, by omega, h3, h4⟩

/-- Changes of the client that do not matter. -/
theorem Good.client {m : Mem} (h : Good E cfg m) (f : Client → Client)
    (h1 : (f m.world.client).cert = m.world.client.cert)
    (h2 : (f m.world.client).certKey = m.world.client.certKey)
    (h3 : (f m.world.client).deviceKey = m.world.client.deviceKey)
    (h4 : (f m.world.client).pinHash ≠ some []) :
    Good E cfg { m with world := { m.world with client := f m.world.client } } where
  cert := by show E.parseCert (f m.world.client).cert = true; rw [h1]; exact h.cert
  only := by show Only (f m.world.client).certKey; rw [h2]; exact h.only
  valid := by show KeyValid E (f m.world.client).certKey; rw [h2]; exact h.valid
  hash := h4
  made := h.made
  slots := h.slots
  saved := by
    obtain ⟨c, q1, q2, q3, q4, q5, q6⟩ := h.saved
    refine ⟨c, q1, q2, q3.trans h3.symm, q4.trans h1.symm, ?_, q6⟩
    show SamePrivate c.certKey (f m.world.client).certKey
    rw [h2]
    exact q5

theorem Good.rnd {m : Mem} (h : Good E cfg m) {n : Nat} (hn : m.world.rnd ≤ n) :
    Good E cfg { m with world := { m.world with rnd := n } } where
  cert := h.cert
  only := h.only
  valid := h.valid
  hash := h.hash
  made := fun s hs => ⟨(h.made s hs).1.mono hn, (h.made s hs).2⟩
  slots := h.slots
  saved := by
    obtain ⟨c, q1, q2, q3, q4, q5, q6⟩ := h.saved
    exact ⟨c, q1, q2, q3, q4, q5, fun s hs => ⟨(q6 s hs).1.mono hn, (q6 s hs).2⟩⟩

theorem Rel.rnd_le {m : Mem} {n : Nat} (hn : m.world.rnd ≤ n) :
    Rel keep m { m with world := { m.world with rnd := n } } :=
  { Rel.refl keep m with rnd := hn }

/-! ### Primitives -/

variable {q : Option Ask} {m : Mem} {R : Option Ask → β → Mem → Prop}

theorem draw_safe {f : Nat → Prog β}
    (h : ∀ n m', Rel keep m m' → Good E cfg m' → n < m'.world.rnd → Safe E cfg keep own may R q (f n) m')
    (hko : keep = true → own = true) :
    Safe E cfg keep own may R q (draw >>= f) m := by
  intro m' h1 h2
  have hr : Rel own m' { m' with world := { m'.world with rnd := m'.world.rnd + 1 } } :=
    Rel.rnd_le (Nat.le_succ _)
  exact ⟨q, h2.rnd (Nat.le_succ _), hr, .inl ⟨rfl, rfl⟩,
    h _ _ (h1.trans (hr.weaken hko)) (h2.rnd (Nat.le_succ _)) (Nat.lt_succ_self _)⟩

theorem approve_safe {a : Action} {rp user : Bytes} {f : Bool → Prog β} (hmay : may = true)
    (h : ∀ b m', Rel keep m m' → Good E cfg m' →
      Safe E cfg keep own may R (some ⟨a, rp, user, b⟩) (f b) m')
    (hko : keep = true → own = true) :
    Safe E cfg keep own may R none (approve E a rp user >>= f) m := by
  intro m' h1 h2
  have hr : ∀ k, Rel k m' { m' with world := { m'.world with
      asks := m'.world.asks ++ [⟨a, rp, user, E.approve m'.world.asks a rp user⟩] } } :=
    fun k => { Rel.refl k m' with asks := ⟨_, rfl⟩ }
  have hg : Good E cfg { m' with world := { m'.world with
      asks := m'.world.asks ++ [⟨a, rp, user, E.approve m'.world.asks a rp user⟩] } } :=
    ⟨h2.cert, h2.only, h2.valid, h2.hash, h2.made, h2.slots, h2.saved⟩
  exact ⟨some _, hg, hr _, .inr ⟨hmay, rfl, _, rfl, rfl⟩, h _ _ (h1.trans (hr _)) hg⟩

theorem setField_safe {g : Client → Client} {f : Unit → Prog β}
    (h1 : ∀ c, (g c).cert = c.cert) (h2 : ∀ c, (g c).certKey = c.certKey)
    (h3 : ∀ c, (g c).deviceKey = c.deviceKey) (h4 : ∀ c, c.pinHash ≠ some [] → (g c).pinHash ≠ some [])
    (h5 : ∀ c, (g c).pinToken = c.pinToken) (h6 : ∀ c, (g c).keyAgreement = c.keyAgreement)
    (h7 : ∀ c, c.pinHash ≠ none → (g c).pinHash ≠ none)
    (h8 : own = true → ∀ c, c.pinEnabled = true → (g c).pinEnabled = true)
    (hko : keep = true → own = true)
    (h : ∀ m', Rel keep m m' → Good E cfg m' → Safe E cfg keep own may R q (f ()) m') :
    Safe E cfg keep own may R q (setField g >>= f) m := by
  refine Safe.write_bind (fun _ => rfl) ?_
  intro m' k1 k2
  have hr : Rel own m' { m' with world := { m'.world with client := g m'.world.client } } :=
    { Rel.refl own m' with
      cert := h1 _, certKey := h2 _, deviceKey := h3 _, pinToken := h5 _, keyAgreement := h6 _
      pinHash := h7 _, pinOn := fun x => h8 x _ }
  have hg := k2.client g (h1 _) (h2 _) (h3 _) (h4 _ k2.hash)
  exact ⟨hg, hr, h _ (k1.trans (hr.weaken hko)) hg⟩

/-! ### Saving -/

/-- A credential of the heap, complete. -/
def Stored (E : Env) (m : Mem) (s : Source) : Prop :=
  Made E m.world.rnd s ∧ Texts s ∧ ∃ t ∈ m.heap, s.id = t.id ∧ s.key = t.key

theorem Stored.later {m' : Mem} {s : Source} (h : Stored E m s) (hr : Rel keep m m') : Stored E m' s := by
  obtain ⟨h1, h2, t, ht, e1, e2⟩ := h
  refine ⟨h1.mono hr.rnd, h2, ?_⟩
  obtain ⟨p, hp⟩ := List.mem_iff_getElem?.1 ht
  obtain ⟨n, hn⟩ := hr.heap p t hp
  exact ⟨_, List.mem_of_getElem? hn, e1, e2⟩

theorem made_complete (L : Laws E) {n : Nat} {s : Source} (h1 : Made E n s) (h2 : Texts s)
    (h3 : s.rp ≠ none) (h4 : s.user ≠ none) : Complete E s := by
  obtain ⟨i, j, -, -, -, e⟩ := h1
  obtain ⟨t1, t2, t3⟩ := h2
  obtain ⟨rp, hrp⟩ := Option.ne_none_iff_exists'.1 h3
  obtain ⟨u, hu⟩ := Option.ne_none_iff_exists'.1 h4
  refine ⟨by rw [e]; exact Only.ecdsa _, by rw [e]; exact L.genEC_valid j, t1,
    ⟨rp, hrp, t2 rp hrp⟩, ⟨u, hu, t3 u hu⟩⟩

theorem exportSources_safe (L : Laws E) (hko : keep = true → own = true) :
    ∀ (slots : List Nat) (m : Mem), Good E cfg m →
    Safe E cfg keep own may (fun q' saved m' => q' = q ∧ ∃ v, Vault.exportSources v = .ok saved ∧
      ∀ s ∈ v, Complete E s ∧ Stored E m' s) q (exportSources slots) m
  | [], m, hg => ⟨rfl, [], rfl, fun s hs => by cases hs⟩
  | p :: rest, m, hg => by
    refine Safe.deref_bind ?_
    intro m1 s r1 g1 hs
    refine Safe.lift_bind ?_
    intro key hk
    cases hrp : s.rp with
    | none => exact Safe.fail
    | some rp =>
      cases hu : s.user with
      | none => exact Safe.fail
      | some user =>
        dsimp only
        refine Safe.bind hko g1 (exportSources_safe L hko rest m1 g1) ?_
        rintro q' tail m2 r2 g2 ⟨rfl, v, hv, hc⟩
        refine ⟨rfl, s :: v, ?_, ?_⟩
        · simp only [Vault.exportSources, hk, Res.bind_ok, hrp, hu, hv]
        · intro t ht
          rcases List.mem_cons.1 ht with rfl | ht
          · have hm := g1.made t (List.mem_of_getElem? hs)
            exact ⟨made_complete L hm.1 hm.2 (by simp [hrp]) (by simp [hu]),
              Stored.later ⟨hm.1, hm.2, t, List.mem_of_getElem? hs, rfl, rfl⟩ r2⟩
          · exact hc t ht

/-- Encrypting and handing over a collected state. -/
theorem store_safe (L : Laws E) (hko : keep = true → own = true) {f : Unit → Prog β} {st : SavedState}
    {c : Client} (hc : Healthy E c) (hst : Client.exportState c = .ok st)
    (hdk : c.deviceKey = m.world.client.deviceKey) (hcert : c.cert = m.world.client.cert)
    (hkey : c.certKey = m.world.client.certKey) (hv : ∀ s ∈ c.vault, Stored E m s)
    (h : ∀ m', Rel keep m m' → Good E cfg m' → Safe E cfg keep own may R q (f ()) m') :
    Safe E cfg keep own may R q (encryptState E st >>= fun data => putData data >>= f) m := by
  intro m1 r1 g1
  cases he : Saved.encryptState E st E.passphrase m1.world.rnd with
  | none =>
    refine ⟨q, ?_, ?_, .inl ⟨?_, rfl⟩, ?_⟩
    · dsimp only; rw [he]; exact g1
    · dsimp only; rw [he]; exact Rel.refl _ _
    · dsimp only; rw [he]
    · dsimp only [Prog.bind]; rw [he]; exact Safe.fail
  | some p =>
    obtain ⟨data, n⟩ := p
    have hs : Ctap.Saves E c m1.world.rnd data n := ⟨_, hst, he⟩
    have hn := (saves_restore L hc hs cfg 0).1
    have hres : Device.Restores E cfg (some data) c := by
      intro rnd'
      obtain ⟨-, c', k1, k2, k3, -, k5, -, -, k8⟩ := saves_restore L hc hs cfg rnd'
      exact ⟨c', k1, k2, k3, k5, k8⟩
    have hle : m1.world.rnd ≤ n := by omega
    have hgn := g1.rnd hle
    have hrn : ∀ k, Rel k m1 { m1 with world := { m1.world with rnd := n } } := fun k => Rel.rnd_le hle
    refine ⟨q, ?_, ?_, .inl ⟨?_, rfl⟩, ?_⟩
    · dsimp only; rw [he]; exact hgn
    · dsimp only; rw [he]; exact hrn _
    · dsimp only; rw [he]
    · dsimp only [Prog.bind]
      rw [he]
      refine Safe.write_bind (g := fun m => { m with world := { m.world with store := some data } })
        (fun _ => rfl) ?_
      intro m2 r2 g2
      have r := r1.trans ((hrn _).trans r2)
      have hg' : Good E cfg { m2 with world := { m2.world with store := some data } } :=
        { g2 with
          saved := by
            refine ⟨c, hc, hres, hdk.trans r.deviceKey.symm, hcert.trans r.cert.symm, ?_, ?_⟩
            · show SamePrivate c.certKey m2.world.client.certKey
              rw [r.certKey, hkey]
              exact SamePrivate.refl _
            · intro s hs
              obtain ⟨k1, -, k3⟩ := (hv s hs).later r
              exact ⟨k1, k3⟩ }
      have hr' : ∀ k, Rel k m2 { m2 with world := { m2.world with store := some data } } :=
        fun k => { Rel.refl k m2 with }
      exact ⟨hg', hr' _, h _ (r.trans (hr' _)) hg'⟩

theorem saveData_safe (L : Laws E) (hko : keep = true → own = true) {f : Unit → Prog β}
    (h : ∀ m', Rel keep m m' → Good E cfg m' → Safe E cfg keep own may R q (f ()) m') :
    Safe E cfg keep own may R q (saveData E >>= f) m := by
  unfold saveData exportState
  simp only [Prog.bind_assoc, Prog.pure_bind]
  refine Safe.field_bind ?_
  intro m1 r1 g1
  refine Safe.lift_bind ?_
  intro key hk
  refine Safe.look_bind ?_
  intro m2 r2 g2
  refine Safe.bind hko g2 (exportSources_safe (q := q) L hko _ m2 g2) ?_
  rintro q' saved m3 r3 g3 ⟨rfl, v, hv, hc⟩
  refine Safe.field_bind ?_
  intro m4 r4 g4
  refine Safe.field_bind ?_
  intro m5 r5 g5
  refine Safe.field_bind ?_
  intro m6 r6 g6
  refine Safe.field_bind ?_
  intro m7 r7 g7
  refine Safe.field_bind ?_
  intro m8 r8 g8
  have r58 := r6.trans (r7.trans r8)
  have r48 := r5.trans r58
  have r38 := r4.trans r48
  have r18 := r2.trans (r3.trans r38)
  -- the client that is saved
  let c : Client := { m8.world.client with
    deviceKey := m4.world.client.deviceKey, cert := m5.world.client.cert,
    certKey := m1.world.client.certKey, authCounter := m6.world.client.authCounter,
    pinEnabled := m7.world.client.pinEnabled, vault := v }
  refine store_safe L hko (c := c)
    ⟨g5.cert, g1.only, g1.valid, g8.hash, fun s hs => (hc s hs).1⟩ ?_ r48.deviceKey.symm r58.cert.symm
    r18.certKey.symm (fun s hs => (hc s hs).2.later r38) (fun m' k1 => h m' (r1.trans (r18.trans k1)))
  simp only [Client.exportState, c, hk, hv, Res.bind_ok]

end VF.Fido.Overlap
