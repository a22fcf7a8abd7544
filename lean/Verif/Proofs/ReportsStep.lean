import Verif.Proofs.ReportsHandle

/-! # Reports handled at the same time: the invariant is kept -/

namespace VF.Reports

open Util Hid Spec.Ctaphid Spec.Service Spec.Calls

/-! ## What a channel has collected -/

theorem Opened.fits {cid : UInt32} {hs : List Bytes} {ks : List Call} {tx : Option Transaction}
    (h : Opened cid hs ks tx) : ∃ window, Fits cid tx window := by
  obtain ⟨all, window, -, -, h3⟩ := h
  exact ⟨window, h3⟩

theorem useless_beginning {cid : UInt32} {window : List Bytes} {m : Bytes} (h : Useless cid window m) :
    ¬ IsBeginning cid (window ++ [m]) := by
  rintro ⟨cmd, len, d0, ds, ⟨h1, h2⟩, h3, h4, h5, -⟩
  exact h cmd len d0 ds h3 h1 h2 h4 h5

theorem useless_fragmentation {cid : UInt32} {window : List Bytes} {m : Bytes} (h : Useless cid window m)
    (cmd : UInt8) (payload : Bytes) (hc : Begins cmd) : ¬ IsFragmentation cid cmd payload (window ++ [m]) := by
  rintro ⟨d0, ds, h1, h2, h3, -⟩
  exact h cmd payload.length d0 ds h2 hc.1 hc.2 h3 h1

theorem isOpen_beginning {cid : UInt32} {window : List Bytes} {t : Transaction} (h : IsOpen cid window t) :
    IsBeginning cid window := by
  obtain ⟨cmd, len, d0, ds, spare, ho, rfl⟩ := h
  exact ⟨cmd, len, d0, ds, ⟨ho.cmd_ge, ho.cmd_ne⟩, ho.len_lt, ho.ds_le, rfl, ho.short⟩

theorem Opened.skip {cid : UInt32} {hs : List Bytes} {ks : List Call} {tx : Option Transaction}
    (h : Opened cid hs ks tx) (m : Bytes) (hno : ∀ window, Fits cid tx window → Useless cid window m) :
    Opened cid (hs ++ [m]) ks none := by
  obtain ⟨all, window, h1, h2, h3⟩ := h
  have := hno window h3
  exact ⟨all, [], .nothing m h1 (useless_beginning this) (useless_fragmentation this), h2, .inl ⟨rfl, rfl⟩⟩

theorem Opened.more {cid : UInt32} {hs : List Bytes} {ks : List Call} {tx : Option Transaction}
    (h : Opened cid hs ks tx) {m : Bytes} {t : Transaction}
    (hopen : ∀ window, Fits cid tx window → IsOpen cid (window ++ [m]) t) :
    Opened cid (hs ++ [m]) ks (some t) := by
  obtain ⟨all, window, h1, h2, h3⟩ := h
  have := hopen window h3
  exact ⟨all, window ++ [m], .begun m h1 (isOpen_beginning this), h2, .inr ⟨t, rfl, this⟩⟩

/-- A request is complete. -/
theorem Opened.request {cid : UInt32} {hs : List Bytes} {ks : List Call} {tx : Option Transaction}
    (h : Opened cid hs ks tx) {m : Bytes} {cmd : UInt8} {payload : Bytes} (hc : Begins cmd)
    (hfrag : ∀ window, Fits cid tx window → IsFragmentation cid cmd payload (window ++ [m])) {ks' : List Call}
    (hks : asked ks' = asked ks ++ if cid ≠ broadcastChannel ∧ forAuthenticator cmd = true then [(cmd, payload)] else []) :
    Opened cid (hs ++ [m]) ks' none := by
  obtain ⟨all, window, h1, h2, h3⟩ := h
  refine ⟨all ++ [(cmd, payload)], [], .request m cmd payload h1 hc (hfrag window h3), ?_, .inl ⟨rfl, rfl⟩⟩
  rw [hks, h2]
  by_cases hb : cid = broadcastChannel
  · simp [hb]
  · by_cases hf : forAuthenticator cmd = true <;> simp [hb, hf]

theorem Heard.window_mem {cid : UInt32} {hs : List Bytes} {all : List (UInt8 × Bytes)} {window : List Bytes}
    (h : Heard cid hs all window) : ∀ p ∈ window, p ∈ hs := by
  induction h with
  | nil => intro p hp; cases hp
  | begun p h hb ih =>
    intro q hq
    rw [List.mem_append] at hq ⊢
    exact hq.imp (ih q) id
  | request p cmd payload h hc hw ih => intro p hp; cases hp
  | nothing p h hb hw ih => intro p hp; cases hp

theorem Opened.length {cid : UInt32} {hs : List Bytes} {ks : List Call} {tx : Option Transaction}
    (h : Opened cid hs ks tx) (h64 : ∀ p ∈ hs, p.length ≤ 64) {m : Bytes} (hm : m.length ≤ 64) {cmd : UInt8}
    {payload : Bytes} (hfrag : ∀ window, Fits cid tx window → IsFragmentation cid cmd payload (window ++ [m])) :
    payload.length ≤ 7609 := by
  obtain ⟨all, window, h1, h2, h3⟩ := h
  refine fragmentation_length (hfrag window h3) (fun p hp => ?_)
  rw [List.mem_append, List.mem_singleton] at hp
  rcases hp with hp | rfl
  · exact h64 p (Heard.window_mem h1 p hp)
  · exact hm

/-! ## `responsesLock` -/

theorem resp_keep {s : State} (hresp : ∀ (i : Nat), s.responses = some i ↔
      ∃ (r : Routine) (q : Option Nat) (xs : List Bytes), s.routines[i]? = some r ∧ r.phase = .writing q xs)
    {i : Nat} {r r' : Routine} (hr : s.routines[i]? = some r) (h0 : ∀ q xs, r.phase ≠ .writing q xs)
    (h1 : ∀ q xs, r'.phase ≠ .writing q xs) (j : Nat) : s.responses = some j ↔
      ∃ (r : Routine) (q : Option Nat) (xs : List Bytes), (s.routines.set i r')[j]? = some r ∧
        r.phase = .writing q xs := by
  rw [hresp]
  by_cases hij : i = j
  · subst hij
    rw [get_set_self hr]
    constructor
    · rintro ⟨x, q, xs, hx, hp⟩
      rw [hr] at hx; cases hx
      exact absurd hp (h0 q xs)
    · rintro ⟨x, q, xs, hx, hp⟩
      cases hx
      exact absurd hp (h1 q xs)
  · rw [get_set_ne hij]

theorem rest_keep {s s' : State} {handled refused : List Bytes} {calls : List Call} {sent : List Msg}
    (inv : Inv s handled refused calls sent) {i : Nat} {r r' : Routine} (hr : s.routines[i]? = some r)
    (h0 : ∀ q xs, r.phase ≠ .writing q xs) (e1 : s'.routines = s.routines.set i r')
    (e2 : s'.responses = s.responses) : s'.rest = s.rest := by
  unfold State.rest
  rw [e2]
  rcases hs : s.responses with _ | j
  · rfl
  · have hij : i ≠ j := by
      rintro rfl
      obtain ⟨x, q, xs, hx, hp⟩ := (inv.resp i).mp hs
      rw [hr] at hx; cases hx
      exact h0 q xs hp
    dsimp only
    rw [e1, get_set_ne hij]

theorem outs_keep {s s' : State} {handled refused : List Bytes} {calls : List Call} {sent : List Msg}
    (inv : Inv s handled refused calls sent) {i : Nat} {r r' : Routine} (hr : s.routines[i]? = some r)
    (h0 : ∀ q xs, r.phase ≠ .writing q xs) (e1 : s'.routines = s.routines.set i r')
    (e2 : s'.responses = s.responses) (e3 : s'.out = s.out) : s'.out ++ s'.rest = (sent.map Msg.packets).flatten := by
  rw [rest_keep inv hr h0 e1 e2, e3]
  exact inv.outs

theorem taken_keep {s : State} {handled refused : List Bytes} {calls : List Call} {sent : List Msg}
    (inv : Inv s handled refused calls sent) {i : Nat} {r r' : Routine} (hr : s.routines[i]? = some r)
    (hrep : r'.report = r.report) (ht : r'.phase.taken = r.phase.taken) :
    (handled ++ refused).Perm (((s.routines.set i r').filter fun r => r.phase.taken).map (·.report)) := by
  rw [taken_set_same hr hrep ht]
  exact inv.taken

theorem rest_none {s : State} (h : s.responses = none) : s.rest = [] := by
  unfold State.rest; rw [h]

theorem rest_writing {s : State} {i : Nat} {r : Routine} {q : Option Nat} {xs : List Bytes} (h : s.responses = some i)
    (hr : s.routines[i]? = some r) (hp : r.phase = .writing q xs) : s.rest = xs := by
  unfold State.rest; rw [h]
  obtain ⟨rep, ph, ka⟩ := r
  dsimp only at hp
  subst hp
  dsimp only
  rw [hr]

theorem handled_small {s : State} {handled refused : List Bytes} {calls : List Call} {sent : List Msg}
    (inv : Inv s handled refused calls sent) : ∀ m ∈ handled, m.length ≤ 64 := by
  intro m hm
  have := inv.taken.mem_iff.mp (List.mem_append_left _ hm)
  obtain ⟨r, hr, rfl⟩ := List.mem_map.mp this
  exact inv.small r (List.mem_filter.mp hr).1

/-- How the calls change. -/
inductive Next (s s' : State) (calls : List Call) : Event → List Call → Prop
  | same {e} : Next s s' calls e calls
  | call {i ticket p cid cmd payload r r'} (h0 : s.routines[i]? = some r) (ht : r.phase.taken = false)
      (h1 : s'.routines[i]? = some r') (hp : r'.phase = .calling p ticket cid cmd payload) :
      Next s s' calls (.turn i ticket) (calls ++ [⟨i, ticket, cid, cmd, payload, none⟩])
  | answer {i a} (cid : UInt32) {r : Routine} {p ticket cmd payload} (h0 : s.routines[i]? = some r)
      (hp : r.phase = .calling p ticket cid cmd payload)
      (hone : ∀ k ∈ calls, k.channel = cid → k.answer = none → k = ⟨i, ticket, cid, cmd, payload, none⟩)
      (hex : (⟨i, ticket, cid, cmd, payload, none⟩ : Call) ∈ calls) :
      Next s s' calls (.answer i (some a))
        (calls.map fun k => if k.channel = cid ∧ k.answer = none then { k with answer := some a } else k)

theorem asked_map_answer (ks : List Call) (f : Call → Call) (h : ∀ k, (f k).command = k.command ∧ (f k).payload = k.payload) :
    asked (ks.map f) = asked ks := by
  simp only [asked, List.map_map]
  apply List.map_congr_left
  intro k _
  simp [h k]

theorem results_append (a b : List Call) : results (a ++ b) = results a ++ results b := by
  simp [results]

theorem Inv.holds_holder {s : State} {handled refused : List Bytes} {calls : List Call} {sent : List Msg}
    (inv : Inv s handled refused calls sent) {i p : Nat} {r : Routine} (hr : s.routines[i]? = some r)
    (hp : r.phase.holds = some p) : ∃ c, s.chans[p]? = some c ∧ channelOf r.report = some c.channelId ∧
      c.holder = some i ∧ s.holderAt c.holder = some (i, r.phase) := by
  have ha : r.phase.about = some p := by
    cases h : r.phase <;> rw [h] at hp <;> first | exact hp | cases hp
  obtain ⟨c, h1, h2⟩ := inv.about i r p hr ha
  have h3 := (inv.hold p c i h1).mpr ⟨r, hr, hp⟩
  exact ⟨c, h1, h2, h3, by rw [h3]; simp [State.holderAt, hr]⟩

end VF.Reports
