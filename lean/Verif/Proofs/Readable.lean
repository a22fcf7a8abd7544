import Verif.Spec.Readable
import Verif.Proofs.Kept
import Verif.Proofs.HidPanic

/-! # Reports the device understands do not make it panic -/

namespace VF.Reports

open Util Hid Spec.Ctaphid Spec.Readable

/-- A transaction whose end is not a panic. -/
structure Sane (cid : UInt32) (t : Transaction) : Prop where
  some : ∀ r, t.result = some r → Known cid r.header.command ∧ 8 ≤ r.payload.data.length + r.payload.spare.length
  none : t.result = none → t.done = true ∧ (t.errorCode ≠ 0 ∨ t.cancelled = true)

theorem sane_error (cid : UInt32) (t : Transaction) {code : UInt8} (h : code ≠ 0) : Sane cid (t.error code) :=
  ⟨fun r hr => (by cases hr), fun _ => ⟨rfl, .inl h⟩⟩

theorem sane_cancel (cid : UInt32) (t : Transaction) : Sane cid t.cancel :=
  ⟨fun r hr => (by cases hr), fun _ => ⟨rfl, .inr rfl⟩⟩

theorem upTo_ok {s : Slice} {n : Nat} (h : n ≤ s.data.length) :
    ∃ s', s.upTo n = .ok s' ∧ s'.data.length + s'.spare.length = s.data.length + s.spare.length := by
  unfold Slice.upTo
  rw [if_pos (by omega)]
  refine ⟨_, rfl, ?_⟩
  dsimp only
  rw [← List.length_append, List.take_append_drop, List.length_append]

theorem sane_collect (grow : Nat → Nat → Nat) {cid : UInt32} {tx : Option Transaction} {m : Bytes} (hm : Readable m)
    (hc : channelOf m = some cid) (ht : ∀ t, tx = some t → Sane cid t) :
    ∃ t, collect grow tx m = .ok t ∧ Sane cid t := by
  obtain ⟨h64, hcmd⟩ := hm
  rcases m with _ | ⟨a, _ | ⟨b, _ | ⟨c, _ | ⟨d, _ | ⟨e, _ | ⟨f, _ | ⟨g, m⟩⟩⟩⟩⟩⟩⟩ <;> try (simp at h64; done)
  have hl : m.length = 57 := by simpa using h64
  have hk := hcmd cid e hc rfl
  cases tx with
  | none =>
    unfold collect newTransaction
    simp only [readLE32, readLE8, readBE16, Res.bind_ok]
    by_cases h80 : e &&& 0x80 = 0
    · rw [if_pos h80]
      exact ⟨_, rfl, sane_error _ _ (by decide)⟩
    · rw [if_neg h80]
      have h128 : 128 ≤ e.toNat := by
        have : ¬ e.toNat < 128 := fun h => h80 ((and80_eq_zero e).mpr h)
        omega
      by_cases hca : e = cmdCancel
      · rw [if_pos hca]
        exact ⟨_, rfl, sane_cancel _ _⟩
      · rw [if_neg hca]
        have hkn : Known cid e := (hk h128).resolve_left hca
        split
        · rename_i hge
          obtain ⟨s', h1, h2⟩ := upTo_ok (s := ⟨m, []⟩) hge
          rw [h1, Res.bind_ok]
          refine ⟨_, rfl, ⟨?_, fun h => by cases h⟩⟩
          intro r hr
          cases hr
          refine ⟨hkn, ?_⟩
          dsimp only at h2 ⊢
          rw [h2]
          simp
          omega
        · refine ⟨_, rfl, ⟨?_, fun h => by cases h⟩⟩
          intro r hr
          cases hr
          exact ⟨hkn, by dsimp only; omega⟩
  | some t =>
    have hs := ht t rfl
    unfold collect
    dsimp only
    unfold Transaction.addMessage
    by_cases hd : t.done = true
    · rw [if_pos hd]
      exact ⟨_, rfl, sane_error _ _ (by decide)⟩
    · rw [if_neg hd]
      simp only [readLE32, readLE8, Res.bind_ok]
      cases hr : t.result with
      | none => exact absurd (hs.none hr).1 hd
      | some r =>
        obtain ⟨g1, g2⟩ := hs.some r hr
        dsimp only
        split
        · exact ⟨_, rfl, sane_error _ _ (by decide)⟩
        · split
          · exact ⟨_, rfl, sane_cancel _ _⟩
          · split
            · exact ⟨_, rfl, sane_error _ _ (by decide)⟩
            · split
              · exact ⟨_, rfl, sane_error _ _ (by decide)⟩
              · have hcap : 8 ≤ (r.payload.append grow (f :: g :: m)).data.length := by
                  rw [append_data, List.length_append]
                  simp only [List.length_cons]
                  omega
                split
                · rename_i hge
                  obtain ⟨s', h1, h2⟩ := upTo_ok hge
                  rw [h1, Res.bind_ok]
                  refine ⟨_, rfl, ⟨?_, fun h => by cases h⟩⟩
                  intro r' hr'
                  cases hr'
                  exact ⟨g1, by dsimp only; omega⟩
                · refine ⟨_, rfl, ⟨?_, fun h => by cases h⟩⟩
                  intro r' hr'
                  cases hr'
                  exact ⟨g1, by dsimp only; omega⟩

/-- Every channel's transaction is of that kind. -/
def AllSane (s : State) : Prop := ∀ (p : Nat) (c : Chan), s.chans[p]? = some c → ∀ t, c.transaction = some t → Sane c.channelId t

theorem allSane_setTx {s : State} (h : AllSane s) {p : Nat} {tx : Option Transaction}
    (ht : ∀ c, s.chans[p]? = some c → ∀ t, tx = some t → Sane c.channelId t) : AllSane (s.setTx p tx) := by
  intro q c hq t hc
  unfold State.setTx at hq
  dsimp only at hq
  rw [List.getElem?_modify] at hq
  obtain ⟨c0, h0, h1⟩ := Option.map_eq_some_iff.1 hq
  by_cases e : p = q
  · subst e
    rw [if_pos rfl] at h1
    subst h1
    exact ht c0 h0 t hc
  · rw [if_neg e] at h1
    subst h1
    exact h q _ h0 t hc

theorem allSane_setHolder {s : State} (h : AllSane s) (p : Nat) (o : Option Nat) : AllSane (s.setHolder p o) := by
  intro q c hq t hc
  unfold State.setHolder at hq
  dsimp only at hq
  rw [List.getElem?_modify] at hq
  obtain ⟨c0, h0, h1⟩ := Option.map_eq_some_iff.1 hq
  by_cases e : p = q
  · rw [if_pos e] at h1
    subst h1
    exact h q c0 h0 t hc
  · rw [if_neg e] at h1
    subst h1
    exact h q _ h0 t hc

theorem allSane_leave {s : State} (h : AllSane s) (i : Nat) (q : Option Nat) : AllSane (s.leave i q) := by
  cases q with
  | none => exact h
  | some p => exact allSane_setHolder (allSane_setTx h (p := p) (tx := none) (fun _ _ _ h => by cases h)) p none

theorem allSane_alloc {s : State} (h : AllSane s) : AllSane s.alloc := by
  intro q c hq t hc
  unfold State.alloc at hq
  dsimp only at hq
  by_cases hl : q < s.chans.length
  · rw [List.getElem?_append_left hl] at hq
    exact h q c hq t hc
  · rw [List.getElem?_append_right (by omega)] at hq
    obtain rfl := List.mem_singleton.1 (List.mem_of_getElem? hq)
    cases hc

/-- Transactions stay that way and nothing crashed. -/
def Fine (s : State) : Prop := AllSane s ∧ s.crashed = false

theorem fine_broadcast {s : State} (h : Fine s) (i p : Nat) {header : Header} {payload : Slice}
    (hk : Known broadcastChannel header.command) (h8 : 8 ≤ payload.data.length + payload.spare.length) :
    Fine (s.broadcast i p header payload) := by
  unfold State.broadcast
  replace hk : header.command = cmdInit ∨ header.command = cmdPing := hk
  split
  · unfold Slice.upTo
    rw [if_pos h8]
    exact ⟨allSane_alloc h.1, h.2⟩
  · rename_i h1
    rw [if_pos (hk.resolve_left h1)]
    exact h

theorem fine_data {s : State} (h : Fine s) (i p ticket : Nat) {cid : UInt32} (hb : cid ≠ broadcastChannel) {header : Header}
    {payload : Slice} (hk : Known cid header.command) : Fine (s.data i p ticket cid header payload) := by
  unfold State.data
  unfold Known at hk
  rw [if_neg (show ¬ cid = 0xFFFFFFFF from hb)] at hk
  replace hk : header.command = cmdMsg ∨ header.command = cmdCBOR ∨ header.command = cmdPing := hk
  split
  · exact h
  · rename_i h1
    split
    · exact h
    · rename_i h2
      rw [if_pos ((hk.resolve_left h1).resolve_left h2)]
      exact h

theorem fine_handle (grow : Nat → Nat → Nat) {s : State} (h : Fine s) (i p ticket : Nat) {c : Chan} {m : Bytes}
    (hp : s.chans[p]? = some c) (hm : Readable m) (hc : channelOf m = some c.channelId) :
    Fine (s.handle grow i p ticket c m) := by
  obtain ⟨t, h1, h2⟩ := sane_collect grow hm hc (h.1 p c hp)
  unfold State.handle
  rw [h1]
  dsimp only
  have hs : Fine (s.setTx p (some t)) := by
    refine ⟨allSane_setTx h.1 ?_, h.2⟩
    intro c' hc' t' ht'
    cases ht'
    rw [hp] at hc'
    cases hc'
    exact h2
  split
  · split
    · exact hs
    · rename_i he
      split
      · exact ⟨allSane_leave hs.1 _ _, h.2⟩
      · rename_i hca
        cases hr : t.result with
        | none =>
          rcases (h2.none hr).2 with h | h
          · exact absurd h he
          · exact absurd h hca
        | some r =>
          obtain ⟨g1, g2⟩ := h2.some r hr
          dsimp only
          split
          · rename_i hb
            exact fine_broadcast hs _ _ (hb ▸ g1) g2
          · rename_i hb
            exact fine_data hs _ _ _ hb g1
  · exact ⟨allSane_setHolder hs.1 p none, h.2⟩

/-- No step is a panic, but the authenticator's. -/
theorem fine_step (grow : Nat → Nat → Nat) {s s' : State} (h : Fine s) {e : Event} (hs : s.step grow e = some s')
    (ha : ∀ i, e ≠ .answer i none) (hread : ∀ r ∈ s.routines, Readable r.report)
    (habout : ∀ (i : Nat) (r : Routine) (p : Nat), s.routines[i]? = some r → r.phase.about = some p →
      ∃ c : Chan, s.chans[p]? = some c ∧ channelOf r.report = some c.channelId) : Fine s' := by
  unfold State.step at hs
  rw [h.2] at hs
  cases e with
  | arrive m => cases hs; exact h
  | turn i ticket =>
    dsimp only at hs
    cases hr : s.routines[i]? with
    | none => rw [hr] at hs; cases hs
    | some r =>
      rw [hr] at hs
      have hrd := hread r (List.mem_of_getElem? hr)
      replace hs : s.turn grow i ticket r = some s' := hs
      unfold State.turn at hs
      split at hs
      · split at hs
        · rename_i c hpan
          exfalso
          have h64 := hrd.1
          rcases hm : r.report with _ | ⟨a, _ | ⟨b, _ | ⟨c, _ | ⟨d, m⟩⟩⟩⟩ <;> rw [hm] at h64 hpan <;>
            first | (simp at h64; done) | (cases hpan; done)
        · split at hs <;> cases hs <;> exact h
      · split at hs
        · cases hs
        · split at hs
          · cases hs; exact ⟨allSane_setHolder h.1 _ _, h.2⟩
          · cases hs
      · rename_i p hp
        obtain ⟨c, h1, h2⟩ := habout i r p hr (by rw [hp]; rfl)
        rw [h1] at hs
        cases hs
        exact fine_handle grow h i p ticket h1 hrd h2
      · cases hs
      · split at hs
        · cases hs; exact h
        · cases hs
      · cases hs; exact h
      · cases hs; exact ⟨allSane_leave (s := { s with responses := none }) h.1 _ _, by
          rename_i q hq
          cases q <;> exact h.2⟩
      · cases hs
  | answer i a =>
    cases a with
    | none => exact absurd rfl (ha i)
    | some bytes =>
      dsimp only at hs
      split at hs
      · cases hs
      · split at hs
        · cases hs; exact h
        · cases hs
  | keepalive i =>
    dsimp only at hs
    split at hs
    · cases hs
    · split at hs
      · split at hs
        · cases hs; exact ⟨h.1, rfl⟩
        · cases hs
      · cases hs

end VF.Reports
