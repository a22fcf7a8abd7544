import Verif.Model.Reports
import Verif.Spec.Calls
import Verif.Proofs.ServiceRun

/-! # Reports handled at the same time: the invariant -/

namespace VF.Reports

open Util Hid Spec.Ctaphid Spec.Service Spec.Calls

/-- The channel whose lock the goroutine has. -/
def Phase.holds : Phase → Option Nat
  | .inside p => some p
  | .calling p _ _ _ _ => some p
  | .sending p _ => p
  | .writing p _ => p
  | _ => none

/-- The channel the goroutine is concerned with. -/
def Phase.about : Phase → Option Nat
  | .waiting p => some p
  | ph => ph.holds

/-- The report has been dealt with or is lost. -/
def Phase.taken : Phase → Bool
  | .arrived => false
  | .waiting _ => false
  | .inside _ => false
  | _ => true

/-- The answers of the authenticator among the messages sent on a channel. -/
def sentOn (cid : UInt32) (sent : List Msg) : List (UInt8 × Bytes) :=
  (sent.filter fun m => decide (m.1 = cid) && forAuthenticator m.2.1).map (·.2)

/-- Windows compatible with what a channel has collected. -/
def Fits (cid : UInt32) (tx : Option Transaction) (window : List Bytes) : Prop :=
  tx = none ∧ window = [] ∨ ∃ t0, tx = some t0 ∧ IsOpen cid window t0

/-- The reports dealt with are those of the requests handed on, and those collected for an open request. -/
def Opened (cid : UInt32) (hs : List Bytes) (ks : List Call) (tx : Option Transaction) : Prop :=
  ∃ all window, Heard cid hs all window ∧
    asked ks = (if cid = broadcastChannel then [] else all.filter fun m => forAuthenticator m.1) ∧ Fits cid tx window

def Answered (ks : List Call) : Prop := ∀ k ∈ ks, k.answer.isSome = true

/-- The state of a channel, by what the goroutine that has its lock is doing. -/
inductive Conv (cid : UInt32) (hs : List Bytes) (ks : List Call) (ss : List (UInt8 × Bytes))
    (tx : Option Transaction) : Option (Nat × Phase) → Prop
  | idle (ho : Opened cid hs ks tx) (ha : Answered ks) (hss : ss = results ks) : Conv cid hs ks ss tx none
  | inside {i p} (ho : Opened cid hs ks tx) (ha : Answered ks) (hss : ss = results ks) :
      Conv cid hs ks ss tx (some (i, .inside p))
  | calling {i p ticket cmd payload} (ks0 : List Call)
      (hk : ks = ks0 ++ [⟨i, ticket, cid, cmd, payload, none⟩]) (hcmd : cmd = cmdMsg ∨ cmd = cmdCBOR)
      (ho : Opened cid hs ks none) (ha : Answered ks0) (hss : ss = results ks) :
      Conv cid hs ks ss tx (some (i, .calling p ticket cid cmd payload))
  | sending {i p packets} (ms : List Msg) (hp : packets = (ms.map Msg.packets).flatten)
      (hid : ∀ m ∈ ms, m.1 = cid) (hok : ∀ m ∈ ms, forAuthenticator m.2.1 = false → Msg.Ok m)
      (ho : Opened cid hs ks none) (ha : Answered ks) (hss : ss ++ sentOn cid ms = results ks) :
      Conv cid hs ks ss tx (some (i, .sending (some p) packets))
  | writing {i p xs} (ho : Opened cid hs ks none) (ha : Answered ks) (hss : ss = results ks) :
      Conv cid hs ks ss tx (some (i, .writing (some p) xs))

/-- The goroutine that has the lock, and where it is. -/
def State.holderAt (s : State) (h : Option Nat) : Option (Nat × Phase) :=
  h.bind fun i => (s.routines[i]?).map fun r => (i, r.phase)

/-- What the goroutine with `responsesLock` has still to send. -/
def State.rest (s : State) : List Bytes :=
  match s.responses with
  | none => []
  | some i =>
    match s.routines[i]? with
    | some ⟨_, .writing _ xs, _⟩ => xs
    | _ => []

structure Inv (s : State) (handled refused : List Bytes) (calls : List Call) (sent : List Msg) : Prop where
  table_iff : ∀ (id : UInt32) (p : Nat), s.table id = some p ↔ ∃ c : Chan, s.chans[p]? = some c ∧ c.channelId = id
  count : s.chans.length = s.maxChannelID.toNat + 1
  range : ∀ (id : UInt32) (p : Nat), s.table id = some p → id = broadcastChannel ∨ id.toNat ≤ s.maxChannelID.toNat
  taken : (handled ++ refused).Perm ((s.routines.filter fun r => r.phase.taken).map (·.report))
  grows : s.chans.length ≤ handled.length + 1
  small : ∀ r ∈ s.routines, r.report.length ≤ 64
  about : ∀ (i : Nat) (r : Routine) (p : Nat), s.routines[i]? = some r → r.phase.about = some p →
    ∃ c : Chan, s.chans[p]? = some c ∧ channelOf r.report = some c.channelId
  hold : ∀ (p : Nat) (c : Chan) (i : Nat), s.chans[p]? = some c → (c.holder = some i ↔
    ∃ r : Routine, s.routines[i]? = some r ∧ r.phase.holds = some p)
  resp : ∀ (i : Nat), s.responses = some i ↔ ∃ (r : Routine) (q : Option Nat) (xs : List Bytes), s.routines[i]? = some r ∧ r.phase = .writing q xs
  outs : s.out ++ s.rest = (sent.map Msg.packets).flatten
  good : ∀ m ∈ sent, forAuthenticator m.2.1 = false → Msg.Ok m
  lone : ∀ (i : Nat) (r : Routine) (xs : List Bytes), s.routines[i]? = some r → r.phase = .sending none xs →
    ∃ m : Msg, xs = Msg.packets m ∧ forAuthenticator m.2.1 = false ∧ Msg.Ok m
  closed : ∀ cid : UInt32, s.table cid = none →
    Conv cid (proj cid handled) (callsOn cid calls) (sentOn cid sent) none none
  conv : ∀ (p : Nat) (c : Chan), s.chans[p]? = some c → Conv c.channelId (proj c.channelId handled)
    (callsOn c.channelId calls) (sentOn c.channelId sent) c.transaction (s.holderAt c.holder)

/-! ## Small lemmas -/

theorem goes_eq {s : State} {i : Nat} {r : Routine} (h : s.routines[i]? = some r) (ph : Phase) :
    s.goes i ph = { s with routines := s.routines.set i { r with phase := ph } } := by
  have : s.routines.modify i (fun r => { r with phase := ph }) = s.routines.set i { r with phase := ph } := by
    apply List.ext_getElem?
    intro j
    rw [List.getElem?_modify, List.getElem?_set]
    by_cases hj : i = j
    · subst hj
      obtain ⟨hl, rfl⟩ := List.getElem?_eq_some_iff.mp h
      simp [hl]
    · simp [hj]
  unfold State.goes
  rw [this]

theorem modify_chan {s : State} {p : Nat} {c : Chan} (h : s.chans[p]? = some c) (f : Chan → Chan) :
    s.chans.modify p f = s.chans.set p (f c) := by
  apply List.ext_getElem?
  intro j
  rw [List.getElem?_modify, List.getElem?_set]
  by_cases hj : p = j
  · subst hj
    obtain ⟨hl, rfl⟩ := List.getElem?_eq_some_iff.mp h
    simp [hl]
  · simp [hj]

theorem get_set_self {α : Type} {l : List α} {i : Nat} {a b : α} (h : l[i]? = some a) : (l.set i b)[i]? = some b := by
  have hl : i < l.length := (List.getElem?_eq_some_iff.mp h).1
  simp [hl]

theorem get_set_ne {α : Type} {l : List α} {i j : Nat} {b : α} (h : i ≠ j) : (l.set i b)[j]? = l[j]? := by
  rw [List.getElem?_set]; simp [h]

/-- Replacing an element. -/
theorem split_at {α : Type} {l : List α} {i : Nat} {a : α} (h : l[i]? = some a) :
    ∃ x y, l = x ++ a :: y ∧ ∀ b, l.set i b = x ++ b :: y := by
  obtain ⟨hl, rfl⟩ := List.getElem?_eq_some_iff.mp h
  refine ⟨l.take i, l.drop (i + 1), ?_, ?_⟩
  · simp
  · intro b
    rw [List.set_eq_take_append_cons_drop]
    simp [hl]

theorem taken_set_same {l : List Routine} {i : Nat} {r r' : Routine} (h : l[i]? = some r)
    (hr : r'.report = r.report) (ht : r'.phase.taken = r.phase.taken) :
    ((l.set i r').filter fun r => r.phase.taken).map (·.report) =
      (l.filter fun r => r.phase.taken).map (·.report) := by
  obtain ⟨x, y, rfl, hb⟩ := split_at h
  rw [hb]
  simp only [List.filter_append, List.filter_cons, ht, List.map_append]
  split <;> simp [hr]

theorem taken_set_new {l : List Routine} {i : Nat} {r r' : Routine} (h : l[i]? = some r)
    (hr : r'.report = r.report) (h0 : r.phase.taken = false) (h1 : r'.phase.taken = true) {handled : List Bytes}
    (hp : handled.Perm ((l.filter fun r => r.phase.taken).map (·.report))) :
    (handled ++ [r.report]).Perm (((l.set i r').filter fun r => r.phase.taken).map (·.report)) := by
  obtain ⟨x, y, rfl, hb⟩ := split_at h
  rw [hb]
  simp only [List.filter_append, List.filter_cons, h0, h1, List.map_append, if_true, List.map_cons, hr] at hp ⊢
  refine (List.Perm.append_right _ hp).trans ?_
  simp only [Bool.false_eq_true, if_false, List.append_assoc]
  refine List.Perm.append_left _ ?_
  exact List.perm_append_comm

theorem callsOn_append (cid : UInt32) (a b : List Call) : callsOn cid (a ++ b) = callsOn cid a ++ callsOn cid b := by
  simp [callsOn]

theorem sentOn_append (cid : UInt32) (a b : List Msg) : sentOn cid (a ++ b) = sentOn cid a ++ sentOn cid b := by
  simp [sentOn]

theorem sentOn_other {cid : UInt32} {ms : List Msg} (h : ∀ m ∈ ms, m.1 ≠ cid ∨ forAuthenticator m.2.1 = false) :
    sentOn cid ms = [] := by
  unfold sentOn
  rw [List.map_eq_nil_iff, List.filter_eq_nil_iff]
  intro m hm
  rcases h m hm with h | h <;> simp [h]

theorem proj_append (cid : UInt32) (a b : List Bytes) : proj cid (a ++ b) = proj cid a ++ proj cid b := by
  simp [proj]

theorem proj_one {cid : UInt32} {m : Bytes} (h : channelOf m = some cid) : proj cid [m] = [m] := by
  simp [proj, h]

theorem proj_one_ne {cid : UInt32} {m : Bytes} (h : channelOf m ≠ some cid) : proj cid [m] = [] := by
  simp [proj, h]

/-! ## A goroutine with a channel takes a step -/

/-- Goroutine `i`, which has the lock of channel `p` or finds it free, takes a step that concerns the
channel and the logs of its id only. -/
theorem Inv.update {s s' : State} {handled handled' refused : List Bytes} {calls calls' : List Call}
    {sent sent' : List Msg} (inv : Inv s handled refused calls sent) {i p : Nat} {r r' : Routine} {c c' : Chan}
    (hr : s.routines[i]? = some r) (hc : s.chans[p]? = some c)
    (e1 : s'.routines = s.routines.set i r') (e2 : s'.chans = s.chans.set p c')
    (e3 : s'.table = s.table) (e4 : s'.maxChannelID = s.maxChannelID)
    (hrep : r'.report = r.report) (hid : c'.channelId = c.channelId)
    (hown : r.phase.about = some p) (hfree : r.phase.holds = some p ∨ r.phase.holds = none ∧ c.holder = none)
    (hnew : (r'.phase.holds = some p ∧ c'.holder = some i) ∨ (r'.phase.holds = none ∧ c'.holder = none))
    (habout : r'.phase.about = r'.phase.holds)
    (hlone : ∀ xs, r'.phase ≠ .sending none xs)
    (htaken : (handled' ++ refused).Perm (((s.routines.set i r').filter fun r => r.phase.taken).map (·.report)))
    (hgrow : s.chans.length ≤ handled'.length + 1)
    (hother : ∀ cid, cid ≠ c.channelId → proj cid handled' = proj cid handled ∧
      callsOn cid calls' = callsOn cid calls ∧ sentOn cid sent' = sentOn cid sent)
    (hresp : ∀ j, s'.responses = some j ↔ ∃ (r : Routine) (q : Option Nat) (xs : List Bytes), (s.routines.set i r')[j]? = some r ∧ r.phase = .writing q xs)
    (houts : s'.out ++ s'.rest = (sent'.map Msg.packets).flatten)
    (hgood : ∀ m ∈ sent', forAuthenticator m.2.1 = false → Msg.Ok m)
    (hconv : Conv c.channelId (proj c.channelId handled') (callsOn c.channelId calls') (sentOn c.channelId sent')
      c'.transaction (c'.holder.bind fun j => if j = i then some (i, r'.phase) else none)) :
    Inv s' handled' refused calls' sent' := by
  have hget : ∀ (q : Nat) (cq : Chan), s'.chans[q]? = some cq → (q = p ∧ cq = c') ∨ (q ≠ p ∧ s.chans[q]? = some cq) := by
    intro q cq h
    rw [e2] at h
    by_cases hq : p = q
    · subst hq
      rw [get_set_self hc] at h
      exact .inl ⟨rfl, (Option.some.inj h).symm⟩
    · rw [get_set_ne hq] at h
      exact .inr ⟨fun h => hq h.symm, h⟩
  have hput : ∀ (q : Nat) (cq : Chan), s.chans[q]? = some cq → ∃ cq' : Chan, s'.chans[q]? = some cq' ∧ cq'.channelId = cq.channelId := by
    intro q cq h
    rw [e2]
    by_cases hq : p = q
    · subst hq
      rw [hc] at h
      cases h
      exact ⟨c', get_set_self hc, hid⟩
    · exact ⟨cq, by rw [get_set_ne hq]; exact h, rfl⟩
  have hholdi : ∀ (q : Nat) (cq : Chan), q ≠ p → s.chans[q]? = some cq → cq.holder ≠ some i := by
    intro q cq hq hcq hh
    obtain ⟨r0, h0, h1⟩ := (inv.hold q cq i hcq).mp hh
    rw [hr] at h0
    cases h0
    rcases hfree with h | ⟨h, -⟩
    · rw [h] at h1; exact hq (Option.some.inj h1).symm
    · rw [h] at h1; cases h1
  have hne : ∀ (q : Nat) (cq : Chan), q ≠ p → s.chans[q]? = some cq → cq.channelId ≠ c.channelId := by
    intro q cq hq hcq he
    have h1 := (inv.table_iff cq.channelId q).mpr ⟨cq, hcq, rfl⟩
    have h2 := (inv.table_iff cq.channelId p).mpr ⟨c, hc, he.symm⟩
    rw [h1] at h2
    exact hq (Option.some.inj h2)
  refine ⟨?_, ?_, ?_, ?_, ?_, ?_, ?_, ?_, ?_, houts, hgood, ?_, ?_, ?_⟩
  · intro id q
    rw [e3, inv.table_iff]
    constructor
    · rintro ⟨cq, h1, h2⟩
      obtain ⟨cq', h3, h4⟩ := hput q cq h1
      exact ⟨cq', h3, h4.trans h2⟩
    · rintro ⟨cq, h1, h2⟩
      rcases hget q cq h1 with ⟨rfl, rfl⟩ | ⟨-, h3⟩
      · exact ⟨c, hc, hid ▸ h2⟩
      · exact ⟨cq, h3, h2⟩
  · rw [e2, e4, List.length_set]; exact inv.count
  · intro id q h
    rw [e3] at h
    rw [e4]
    exact inv.range id q h
  · rw [e1]; exact htaken
  · rw [e2, List.length_set]; exact hgrow
  · intro x hx
    rw [e1] at hx
    rcases List.mem_or_eq_of_mem_set hx with h | rfl
    · exact inv.small x h
    · rw [hrep]; exact inv.small r (List.mem_of_getElem? hr)
  · intro j x q hj hq
    rw [e1] at hj
    by_cases hij : i = j
    · subst hij
      rw [get_set_self hr] at hj
      cases hj
      rw [habout] at hq
      have hqp : q = p := by
        rcases hnew with ⟨h, -⟩ | ⟨h, -⟩
        · rw [h] at hq; exact (Option.some.inj hq).symm
        · rw [h] at hq; cases hq
      subst hqp
      obtain ⟨c0, h1, h2⟩ := inv.about i r q hr hown
      rw [hc] at h1
      cases h1
      exact ⟨c', by rw [e2]; exact get_set_self hc, by rw [hrep, hid]; exact h2⟩
    · rw [get_set_ne hij] at hj
      obtain ⟨c0, h1, h2⟩ := inv.about j x q hj hq
      obtain ⟨cq', h3, h4⟩ := hput q c0 h1
      exact ⟨cq', h3, by rw [h4]; exact h2⟩
  · intro q cq j hq
    rw [e1]
    rcases hget q cq hq with ⟨rfl, rfl⟩ | ⟨hqp, hq0⟩
    · constructor
      · intro hh
        rcases hnew with ⟨h1, h2⟩ | ⟨h1, h2⟩
        · rw [h2] at hh
          cases hh
          exact ⟨r', get_set_self hr, h1⟩
        · rw [h2] at hh; cases hh
      · rintro ⟨x, hx, hxq⟩
        by_cases hij : i = j
        · subst hij
          rw [get_set_self hr] at hx
          cases hx
          rcases hnew with ⟨h1, h2⟩ | ⟨h1, h2⟩
          · exact h2
          · rw [h1] at hxq; cases hxq
        · rw [get_set_ne hij] at hx
          exfalso
          have hj := (inv.hold q c j hc).mpr ⟨x, hx, hxq⟩
          rcases hfree with h | ⟨-, h⟩
          · have hi := (inv.hold q c i hc).mpr ⟨r, hr, h⟩
            rw [hi] at hj
            exact hij (Option.some.inj hj)
          · rw [h] at hj; cases hj
    · rw [inv.hold q cq j hq0]
      constructor
      · rintro ⟨x, hx, hxq⟩
        by_cases hij : i = j
        · subst hij
          exact absurd ((inv.hold q cq i hq0).mpr ⟨x, hx, hxq⟩) (hholdi q cq hqp hq0)
        · exact ⟨x, by rw [get_set_ne hij]; exact hx, hxq⟩
      · rintro ⟨x, hx, hxq⟩
        by_cases hij : i = j
        · subst hij
          rw [get_set_self hr] at hx
          cases hx
          rcases hnew with ⟨h1, -⟩ | ⟨h1, -⟩
          · rw [h1] at hxq; exact absurd (Option.some.inj hxq).symm hqp
          · rw [h1] at hxq; cases hxq
        · rw [get_set_ne hij] at hx
          exact ⟨x, hx, hxq⟩
  · intro j
    rw [e1]; exact hresp j
  · intro j x xs hj hx
    rw [e1] at hj
    by_cases hij : i = j
    · subst hij
      rw [get_set_self hr] at hj
      cases hj
      exact absurd hx (hlone xs)
    · rw [get_set_ne hij] at hj
      exact inv.lone j x xs hj hx
  · intro cid hcid
    rw [e3] at hcid
    have hn : cid ≠ c.channelId := by
      rintro rfl
      rw [(inv.table_iff c.channelId p).mpr ⟨c, hc, rfl⟩] at hcid
      cases hcid
    obtain ⟨h1, h2, h3⟩ := hother cid hn
    rw [h1, h2, h3]
    exact inv.closed cid hcid
  · intro q cq hq
    rcases hget q cq hq with ⟨rfl, rfl⟩ | ⟨hqp, hq0⟩
    · rw [hid]
      have : s'.holderAt cq.holder = cq.holder.bind fun j => if j = i then some (i, r'.phase) else none := by
        unfold State.holderAt
        rcases hnew with ⟨-, h2⟩ | ⟨-, h2⟩
        · rw [h2, e1]
          simp [get_set_self hr]
        · rw [h2]; rfl
      rw [this]
      exact hconv
    · obtain ⟨h1, h2, h3⟩ := hother cq.channelId (hne q cq hqp hq0)
      rw [h1, h2, h3]
      have : s'.holderAt cq.holder = s.holderAt cq.holder := by
        unfold State.holderAt
        rcases hh : cq.holder with _ | j
        · rfl
        · have hij : i ≠ j := by
            rintro rfl
            exact hholdi q cq hqp hq0 hh
          simp only [Option.bind_some, e1, get_set_ne hij]
      rw [this]
      exact inv.conv q cq hq0

/-- A goroutine that has no channel takes a step. -/
theorem Inv.updateLone {s s' : State} {handled refused refused' : List Bytes} {calls : List Call}
    {sent sent' : List Msg} (inv : Inv s handled refused calls sent) {i : Nat} {r r' : Routine}
    (hr : s.routines[i]? = some r) (e1 : s'.routines = s.routines.set i r') (e2 : s'.chans = s.chans)
    (e3 : s'.table = s.table) (e4 : s'.maxChannelID = s.maxChannelID)
    (hrep : r'.report = r.report) (hfree : r.phase.holds = none) (hnew : r'.phase.holds = none)
    (habout : ∀ p, r'.phase.about = some p → ∃ c : Chan, s.chans[p]? = some c ∧ channelOf r.report = some c.channelId)
    (hlone : ∀ xs, r'.phase = .sending none xs →
      ∃ m : Msg, xs = Msg.packets m ∧ forAuthenticator m.2.1 = false ∧ Msg.Ok m)
    (htaken : (handled ++ refused').Perm (((s.routines.set i r').filter fun r => r.phase.taken).map (·.report)))
    (hsent : ∀ cid, sentOn cid sent' = sentOn cid sent)
    (hresp : ∀ j, s'.responses = some j ↔ ∃ (r : Routine) (q : Option Nat) (xs : List Bytes), (s.routines.set i r')[j]? = some r ∧ r.phase = .writing q xs)
    (houts : s'.out ++ s'.rest = (sent'.map Msg.packets).flatten)
    (hgood : ∀ m ∈ sent', forAuthenticator m.2.1 = false → Msg.Ok m) :
    Inv s' handled refused' calls sent' := by
  have hholdi : ∀ (q : Nat) (cq : Chan), s.chans[q]? = some cq → cq.holder ≠ some i := by
    intro q cq hcq hh
    obtain ⟨r0, h0, h1⟩ := (inv.hold q cq i hcq).mp hh
    rw [hr] at h0
    cases h0
    rw [hfree] at h1; cases h1
  refine ⟨?_, ?_, ?_, ?_, ?_, ?_, ?_, ?_, ?_, houts, hgood, ?_, ?_, ?_⟩
  · intro id q
    rw [e3, e2]; exact inv.table_iff id q
  · rw [e2, e4]; exact inv.count
  · intro id q h
    rw [e3] at h
    rw [e4]
    exact inv.range id q h
  · rw [e1]; exact htaken
  · rw [e2]; exact inv.grows
  · intro x hx
    rw [e1] at hx
    rcases List.mem_or_eq_of_mem_set hx with h | rfl
    · exact inv.small x h
    · rw [hrep]; exact inv.small r (List.mem_of_getElem? hr)
  · intro j x q hj hq
    rw [e1] at hj
    rw [e2]
    by_cases hij : i = j
    · subst hij
      rw [get_set_self hr] at hj
      cases hj
      rw [hrep]
      exact habout q hq
    · rw [get_set_ne hij] at hj
      exact inv.about j x q hj hq
  · intro q cq j hq
    rw [e2] at hq
    rw [e1, inv.hold q cq j hq]
    constructor
    · rintro ⟨x, hx, hxq⟩
      by_cases hij : i = j
      · subst hij
        exact absurd ((inv.hold q cq i hq).mpr ⟨x, hx, hxq⟩) (hholdi q cq hq)
      · exact ⟨x, by rw [get_set_ne hij]; exact hx, hxq⟩
    · rintro ⟨x, hx, hxq⟩
      by_cases hij : i = j
      · subst hij
        rw [get_set_self hr] at hx
        cases hx
        rw [hnew] at hxq; cases hxq
      · rw [get_set_ne hij] at hx
        exact ⟨x, hx, hxq⟩
  · intro j
    rw [e1]; exact hresp j
  · intro j x xs hj hx
    rw [e1] at hj
    by_cases hij : i = j
    · subst hij
      rw [get_set_self hr] at hj
      cases hj
      exact hlone xs hx
    · rw [get_set_ne hij] at hj
      exact inv.lone j x xs hj hx
  · intro cid hcid
    rw [e3] at hcid
    rw [hsent]
    exact inv.closed cid hcid
  · intro q cq hq
    rw [e2] at hq
    rw [hsent]
    have : s'.holderAt cq.holder = s.holderAt cq.holder := by
      unfold State.holderAt
      rcases hh : cq.holder with _ | j
      · rfl
      · have hij : i ≠ j := by
          rintro rfl
          exact hholdi q cq hq hh
        simp only [Option.bind_some, e1, get_set_ne hij]
    rw [this]
    exact inv.conv q cq hq

/-- A new channel. -/
theorem Inv.alloc {s : State} {handled refused : List Bytes} {calls : List Call} {sent : List Msg}
    (inv : Inv s handled refused calls sent) (hg : s.chans.length ≤ handled.length)
    (hb : s.routines.length < 4294967295) : Inv s.alloc handled refused calls sent := by
  have hlen : handled.length ≤ s.routines.length := by
    have h1 := inv.taken.length_eq
    rw [List.length_append, List.length_map] at h1
    have h2 := List.length_filter_le (fun r : Routine => r.phase.taken) s.routines
    omega
  have hcount := inv.count
  have hmax : (s.maxChannelID + 1).toNat = s.maxChannelID.toNat + 1 := by
    rw [UInt32.toNat_add]
    have : (1 : UInt32).toNat = 1 := rfl
    rw [this]
    omega
  have hnb : s.maxChannelID + 1 ≠ broadcastChannel := by
    intro h
    have : broadcastChannel.toNat = 4294967295 := rfl
    rw [← h, hmax] at this
    omega
  have hfresh : s.table (s.maxChannelID + 1) = none := by
    rcases h : s.table (s.maxChannelID + 1) with _ | q
    · rfl
    · rcases inv.range _ _ h with h1 | h1
      · exact absurd h1 hnb
      · rw [hmax] at h1; omega
  have hold : ∀ (q : Nat) (cq : Chan), s.chans[q]? = some cq → s.alloc.chans[q]? = some cq := by
    intro q cq h
    show (s.chans ++ _)[q]? = _
    rw [List.getElem?_append_left (List.getElem?_eq_some_iff.mp h).1, h]
  have hget : ∀ (q : Nat) (cq : Chan), s.alloc.chans[q]? = some cq → s.chans[q]? = some cq ∨
      q = s.chans.length ∧ cq = ⟨s.maxChannelID + 1, none, none⟩ := by
    intro q cq h
    change (s.chans ++ _)[q]? = _ at h
    by_cases hq : q < s.chans.length
    · rw [List.getElem?_append_left hq] at h
      exact .inl h
    · right
      rw [List.getElem?_append_right (by omega)] at h
      have hq0 : q - s.chans.length = 0 := by
        rcases Nat.eq_zero_or_pos (q - s.chans.length) with h0 | h0
        · exact h0
        · rw [List.getElem?_eq_none (by simp; omega)] at h; cases h
      rw [hq0] at h
      exact ⟨by omega, by simpa using h.symm⟩
  have hnh : ∀ (i : Nat) (r : Routine), s.routines[i]? = some r → r.phase.holds ≠ some s.chans.length := by
    intro i r hr h
    have : r.phase.about = some s.chans.length := by
      cases hp : r.phase <;> rw [hp] at h <;> first | exact h | cases h
    obtain ⟨c, h1, -⟩ := inv.about i r _ hr this
    have := (List.getElem?_eq_some_iff.mp h1).1
    omega
  refine ⟨?_, ?_, ?_, inv.taken, ?_, inv.small, ?_, ?_, inv.resp, inv.outs, inv.good, inv.lone, ?_, ?_⟩
  · intro id q
    show (if id = s.maxChannelID + 1 then some s.chans.length else s.table id) = some q ↔ _
    split
    · rename_i hid
      constructor
      · intro h
        cases h
        exact ⟨⟨s.maxChannelID + 1, none, none⟩, by simp [State.alloc], hid.symm⟩
      · rintro ⟨cq, h1, h2⟩
        rcases hget q cq h1 with h3 | ⟨rfl, -⟩
        · have := (inv.table_iff id q).mpr ⟨cq, h3, h2⟩
          rw [hid, hfresh] at this; cases this
        · rfl
    · rename_i hid
      rw [inv.table_iff]
      constructor
      · rintro ⟨cq, h1, h2⟩
        exact ⟨cq, hold q cq h1, h2⟩
      · rintro ⟨cq, h1, h2⟩
        rcases hget q cq h1 with h3 | ⟨-, rfl⟩
        · exact ⟨cq, h3, h2⟩
        · exact absurd h2.symm hid
  · show (s.chans ++ _).length = (s.maxChannelID + 1).toNat + 1
    rw [hmax]
    simp; omega
  · intro id q h
    show _ ∨ id.toNat ≤ (s.maxChannelID + 1).toNat
    change (if id = s.maxChannelID + 1 then some s.chans.length else s.table id) = some q at h
    split at h
    · rename_i hid; rw [hid]; exact .inr (Nat.le_refl _)
    · rw [hmax]
      rcases inv.range id q h with h1 | h1
      · exact .inl h1
      · exact .inr (by omega)
  · show (s.chans ++ _).length ≤ _
    simp; omega
  · intro i r q hr hq
    obtain ⟨c, h1, h2⟩ := inv.about i r q hr hq
    exact ⟨c, hold q c h1, h2⟩
  · intro q cq i hq
    rcases hget q cq hq with h | ⟨rfl, rfl⟩
    · exact inv.hold q cq i h
    · constructor
      · intro h; cases h
      · rintro ⟨r, hr, hh⟩
        exact absurd hh (hnh i r hr)
  · intro cid hcid
    change (if cid = s.maxChannelID + 1 then some s.chans.length else s.table cid) = none at hcid
    split at hcid
    · cases hcid
    · exact inv.closed cid hcid
  · intro q cq hq
    rcases hget q cq hq with h | ⟨rfl, rfl⟩
    · exact inv.conv q cq h
    · exact inv.closed _ hfresh

theorem inv_new : Inv State.new [] [] [] [] := by
  have hget : ∀ (q : Nat) cq, State.new.chans[q]? = some cq → q = 0 ∧ cq = ⟨broadcastChannel, none, none⟩ := by
    intro q cq h
    cases q with
    | zero => exact ⟨rfl, by simpa [State.new] using h.symm⟩
    | succ n => simp [State.new] at h
  have hconv : ∀ cid, Conv cid [] [] [] none none := by
    intro cid
    refine .idle ⟨[], [], .nil, ?_, .inl ⟨rfl, rfl⟩⟩ (fun k hk => by simp at hk) rfl
    split <;> rfl
  refine ⟨?_, ?_, ?_, ?_, ?_, ?_, ?_, ?_, ?_, ?_, ?_, ?_, ?_, ?_⟩
  · intro id p
    show (if id = broadcastChannel then some 0 else none) = some p ↔ _
    constructor
    · intro h
      split at h
      · cases h
        rename_i hid
        exact ⟨⟨broadcastChannel, none, none⟩, rfl, hid.symm⟩
      · cases h
    · rintro ⟨c, h1, h2⟩
      obtain ⟨rfl, rfl⟩ := hget p c h1
      rw [if_pos h2.symm]
  · rfl
  · intro id p h
    change (if id = broadcastChannel then some 0 else none) = some p at h
    split at h
    · rename_i hid; exact .inl hid
    · cases h
  · exact .nil
  · decide
  · intro r hr; simp [State.new] at hr
  · intro i r p hr; simp [State.new] at hr
  · intro p c i hc
    obtain ⟨rfl, rfl⟩ := hget p c hc
    constructor
    · intro h; cases h
    · rintro ⟨r, hr, -⟩; simp [State.new] at hr
  · intro i
    constructor
    · intro h; cases h
    · rintro ⟨r, q, xs, hr, -⟩; simp [State.new] at hr
  · rfl
  · intro m hm; simp at hm
  · intro i r xs hr; simp [State.new] at hr
  · intro cid _
    exact hconv cid
  · intro p c hc
    obtain ⟨rfl, rfl⟩ := hget p c hc
    exact hconv _

end VF.Reports
