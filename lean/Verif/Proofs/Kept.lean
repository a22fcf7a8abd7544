import Verif.Spec.Kept
import Verif.Proofs.ReportsMono
import Verif.Proofs.Util

/-! # What channels keep -/

namespace VF.Reports

open Util Hid Spec.Kept

/-- What a transaction collected: of an unfinished one as much as its reports can hold. -/
def Within (t : Transaction) : Prop :=
  ∀ r, t.result = some r → r.payload.data.length ≤ 7609 ∧
    (t.done = false → r.sequenceNumber.toNat ≤ 128 ∧ r.payload.data.length ≤ 57 + 59 * r.sequenceNumber.toNat)

theorem within_error (t : Transaction) (code : UInt8) : Within (t.error code) := by
  intro r h
  cases h

theorem within_cancel (t : Transaction) : Within t.cancel := by
  intro r h
  cases h

theorem upTo_length {s s' : Slice} {n : Nat} (h : s.upTo n = .ok s') (hn : n ≤ s.data.length) :
    s'.data.length ≤ s.data.length := by
  unfold Slice.upTo at h
  split at h
  · cases h
    simp
    omega
  · cases h

theorem within_new {m : Bytes} (h64 : m.length ≤ 64) {t : Transaction} (h : newTransaction m = .ok t) : Within t := by
  unfold newTransaction at h
  rcases h1 : readLE32 m with ⟨cid, b1⟩ | c
  · rw [h1, Res.bind_ok] at h
    dsimp only at h
    rcases h2 : readLE8 b1 with ⟨cmd, b2⟩ | c
    · rw [h2, Res.bind_ok] at h
      dsimp only at h
      split at h
      · cases h; exact within_error _ _
      · split at h
        · cases h; exact within_cancel _
        · rcases h3 : readBE16 b2 with ⟨len, b3⟩ | c
          · rw [h3, Res.bind_ok] at h
            dsimp only at h
            have hl : b3.length ≤ 57 := by
              have := readLE32_ok h1
              have h2' := readLE8_ok h2
              have h3' := readBE16_ok h3
              subst h3'
              subst h2'
              rw [this] at h64
              simp [le32, be16] at h64
              omega
            split at h
            · rename_i hge
              rcases h4 : Slice.upTo ⟨b3, []⟩ len.toNat with p | c
              · rw [h4, Res.bind_ok] at h
                cases h
                intro r hr
                cases hr
                have := upTo_length h4 hge
                exact ⟨by dsimp only at this ⊢; omega, fun h => by cases h⟩
              · rw [h4] at h; cases h
            · cases h
              intro r hr
              cases hr
              exact ⟨by dsimp only; omega, fun _ => ⟨by dsimp only; decide, by dsimp only; omega⟩⟩
          · rw [h3] at h; cases h
    · rw [h2] at h; cases h
  · rw [h1] at h; cases h

theorem append_data (grow : Nat → Nat → Nat) (s : Slice) (b : Bytes) : (s.append grow b).data = s.data ++ b := by
  unfold Slice.append
  split <;> rfl

theorem within_add (grow : Nat → Nat → Nat) {m : Bytes} (h64 : m.length ≤ 64) {t t' : Transaction} (ht : Within t)
    (h : t.addMessage grow m = .ok t') : Within t' := by
  unfold Transaction.addMessage at h
  split at h
  · cases h; exact within_error _ _
  · rename_i hd
    rcases h1 : readLE32 m with ⟨cid, b1⟩ | c
    · rw [h1, Res.bind_ok] at h
      dsimp only at h
      split at h
      · cases h
      · rename_i r hr
        split at h
        · cases h; exact within_error _ _
        · rcases h2 : readLE8 b1 with ⟨seq, b2⟩ | c
          · rw [h2, Res.bind_ok] at h
            dsimp only at h
            split at h
            · cases h; exact within_cancel _
            · split at h
              · cases h; exact within_error _ _
              · rename_i hseq
                split at h
                · cases h; exact within_error _ _
                · rename_i heq
                  have hl : b2.length ≤ 59 := by
                    have := readLE32_ok h1
                    have h2' := readLE8_ok h2
                    subst h2'
                    rw [this] at h64
                    simp [le32] at h64
                    omega
                  have hs : r.sequenceNumber.toNat < 128 := by
                    rw [← Decidable.not_not.1 heq]
                    have hz := Decidable.not_not.1 hseq
                    exact (and80_eq_zero _).1 hz
                  obtain ⟨w1, w2⟩ := ht r hr
                  obtain ⟨w2, w3⟩ := w2 (by simpa using hd)
                  have hp : (r.payload.append grow b2).data.length ≤ 57 + 59 * (r.sequenceNumber.toNat + 1) := by
                    rw [append_data, List.length_append]
                    omega
                  split at h
                  · rename_i hge
                    rcases h4 : (r.payload.append grow b2).upTo r.header.payloadLength.toNat with p | c
                    · rw [h4, Res.bind_ok] at h
                      cases h
                      intro r' hr'
                      cases hr'
                      have := upTo_length h4 hge
                      exact ⟨by dsimp only; omega, fun h => by cases h⟩
                    · rw [h4] at h; cases h
                  · cases h
                    intro r' hr'
                    cases hr'
                    have e : (r.sequenceNumber + 1).toNat = r.sequenceNumber.toNat + 1 := by
                      rw [UInt8.toNat_add]
                      have : (1 : UInt8).toNat = 1 := rfl
                      omega
                    refine ⟨by dsimp only; omega, fun _ => ⟨by dsimp only; omega, by dsimp only; omega⟩⟩
          · rw [h2] at h; cases h
    · rw [h1] at h; cases h

/-- The number of goroutines whose report was dealt with. -/
def State.count (s : State) : Nat := (s.routines.filter fun r => r.phase.taken).length

/-- What is kept. -/
structure Keeps (s : State) : Prop where
  within : ∀ c ∈ s.chans, ∀ t, c.transaction = some t → Within t
  short : ∀ r ∈ s.routines, r.report.length ≤ 64
  chans : s.chans.length ≤ 1 + s.routines.length
  counted : s.crashed = false → s.chans.length ≤ 1 + s.count

theorem count_modify {l : List Routine} {i : Nat} {f : Routine → Routine}
    (h : ∀ r, l[i]? = some r → r.phase.taken = true → (f r).phase.taken = true) :
    (l.filter fun r => r.phase.taken).length ≤ ((l.modify i f).filter fun r => r.phase.taken).length := by
  induction l generalizing i with
  | nil => simp
  | cons a l ih =>
    cases i with
    | zero =>
      have := h a rfl
      simp only [List.modify_zero_cons, List.filter_cons]
      split
      · rename_i ht
        rw [this ht]
        simp
      · split <;> simp
    | succ i =>
      have := ih (i := i) (fun r hr => h r (by simpa using hr))
      simp only [List.modify_succ_cons, List.filter_cons]
      split <;> simp <;> omega

theorem count_modify_new {l : List Routine} {i : Nat} {f : Routine → Routine} {r : Routine} (hr : l[i]? = some r)
    (h0 : r.phase.taken = false) (h1 : (f r).phase.taken = true) :
    (l.filter fun r => r.phase.taken).length + 1 ≤ ((l.modify i f).filter fun r => r.phase.taken).length := by
  induction l generalizing i with
  | nil => cases hr
  | cons a l ih =>
    cases i with
    | zero =>
      cases hr
      simp [List.modify_zero_cons, List.filter_cons, h0, h1]
    | succ i =>
      have := ih (i := i) (by simpa using hr)
      simp only [List.modify_succ_cons, List.filter_cons]
      split <;> simp <;> omega

theorem count_goes {s s0 : State} (e : s0.routines = s.routines) {i : Nat} {ph : Phase}
    (h : ph.taken = true ∨ ∀ r, s.routines[i]? = some r → r.phase.taken = false) : s.count ≤ (s0.goes i ph).count := by
  unfold State.count State.goes
  dsimp only
  rw [e]
  refine count_modify fun r hr ht => ?_
  rcases h with h | h
  · exact h
  · rw [h r hr] at ht
    cases ht

/-- Channels are as before, but for one transaction. -/
def Touches (s s' : State) : Prop :=
  s'.chans.length = s.chans.length ∧
    ∀ c' ∈ s'.chans, ∀ t, c'.transaction = some t → Within t ∨ ∃ c ∈ s.chans, c.transaction = some t

theorem touches_refl {s s' : State} (h : s'.chans = s.chans) : Touches s s' := by
  refine ⟨by rw [h], fun c hc t ht => .inr ⟨c, by rw [← h]; exact hc, ht⟩⟩

theorem touches_trans {a b c : State} (h1 : Touches a b) (h2 : Touches b c) : Touches a c := by
  refine ⟨h2.1.trans h1.1, fun x hx t ht => ?_⟩
  rcases h2.2 x hx t ht with h | ⟨y, hy, e⟩
  · exact .inl h
  · exact h1.2 y hy t e

theorem mem_modify' {α : Type} {l : List α} {i : Nat} {f : α → α} {x : α} (h : x ∈ l.modify i f) :
    x ∈ l ∨ ∃ y ∈ l, x = f y := by
  obtain ⟨j, hj⟩ := List.getElem?_of_mem h
  rw [List.getElem?_modify] at hj
  cases hl : l[j]? with
  | none => rw [hl] at hj; simp at hj
  | some y =>
    rw [hl] at hj
    have hm := List.mem_of_getElem? hl
    by_cases e : i = j
    · simp [e] at hj
      exact .inr ⟨y, hm, hj.symm⟩
    · simp [e] at hj
      exact .inl (hj ▸ hm)

theorem touches_setTx (s : State) (p : Nat) {t : Option Transaction} (h : ∀ x, t = some x → Within x) : Touches s (s.setTx p t) := by
  refine ⟨by simp [State.setTx], fun c hc x hx => ?_⟩
  rcases mem_modify' hc with h1 | ⟨y, h1, rfl⟩
  · exact .inr ⟨c, h1, hx⟩
  · exact .inl (h x hx)

theorem touches_setHolder (s : State) (p : Nat) (o : Option Nat) : Touches s (s.setHolder p o) := by
  refine ⟨by simp [State.setHolder], fun c hc x hx => ?_⟩
  rcases mem_modify' hc with h1 | ⟨y, h1, rfl⟩
  · exact .inr ⟨c, h1, hx⟩
  · exact .inr ⟨y, h1, hx⟩

theorem touches_leave (s : State) (i : Nat) (q : Option Nat) : Touches s (s.leave i q) := by
  cases q with
  | none => exact touches_refl rfl
  | some p => exact touches_trans (touches_setTx s p (by simp)) (touches_trans (touches_setHolder _ p none) (touches_refl rfl))

theorem count_leave {s s0 : State} (e : s0.routines = s.routines) (i : Nat) (q : Option Nat) : s.count ≤ (s0.leave i q).count := by
  cases q with
  | none => exact count_goes e (.inl rfl)
  | some p => exact count_goes (s0 := (s0.setTx p none).setHolder p none) e (.inl rfl)

/-- The channels that are added are counted. -/
structure Adds (s s' : State) : Prop where
  within : ∀ c' ∈ s'.chans, ∀ t, c'.transaction = some t → Within t ∨ ∃ c ∈ s.chans, c.transaction = some t
  length : s'.chans.length ≤ s.chans.length ∨
    (s'.chans.length = s.chans.length + 1 ∧ s.count + 1 ≤ s.routines.length)
  counted : s'.crashed = false → s'.chans.length + s.count ≤ s.chans.length + s'.count

theorem adds_touches {s s' : State} (h : Touches s s') (hc : s'.crashed = false → s.count ≤ s'.count) : Adds s s' := by
  refine ⟨h.2, .inl (by rw [h.1]; exact Nat.le_refl _), fun hx => ?_⟩
  have := hc hx
  rw [h.1]
  omega

theorem adds_broadcast {s s0 : State} (ht : Touches s s0) (e : s0.routines = s.routines) {i : Nat} {r : Routine}
    (hr : s.routines[i]? = some r) (h0 : r.phase.taken = false) (p : Nat) (header : Header) (payload : Slice) :
    Adds s (s0.broadcast i p header payload) := by
  have hal : ∀ c' ∈ s0.alloc.chans, ∀ t, c'.transaction = some t → Within t ∨ ∃ c ∈ s.chans, c.transaction = some t := by
    intro c' hc t h
    rcases List.mem_append.1 hc with hc | hc
    · exact ht.2 c' hc t h
    · obtain rfl := List.mem_singleton.1 hc
      cases h
  have hlen : s0.alloc.chans.length = s.chans.length + 1 := by
    rw [← ht.1]
    simp [State.alloc]
  have hroom : s.count + 1 ≤ s.routines.length := by
    refine Nat.le_trans (count_modify_new (f := fun x => { x with phase := .done }) hr h0 rfl) ?_
    refine Nat.le_trans (List.length_filter_le _ _) ?_
    rw [List.length_modify]
    exact Nat.le_refl _
  have hgo : ∀ q out, s.count + 1 ≤ (s0.alloc.goes i (.sending q out)).count := by
    intro q out
    unfold State.count State.goes
    dsimp only [State.alloc]
    rw [e]
    exact count_modify_new hr h0 rfl
  unfold State.broadcast
  split
  · split
    · exact ⟨hal, .inr ⟨hlen, hroom⟩, fun h => by cases h⟩
    · refine ⟨hal, .inr ⟨hlen, hroom⟩, fun _ => ?_⟩
      refine Nat.le_trans (Nat.le_of_eq (congrArg (· + s.count) hlen)) ?_
      rw [Nat.add_assoc, Nat.add_comm 1]
      exact Nat.add_le_add_left (hgo _ _) _
  · split
    · exact adds_touches (touches_trans ht (touches_refl rfl)) fun _ => count_goes e (.inl rfl)
    · exact adds_touches (touches_trans ht (touches_refl rfl)) (fun h => by cases h)

theorem adds_data {s s0 : State} (ht : Touches s s0) (e : s0.routines = s.routines) (i p ticket : Nat) (cid : UInt32)
    (header : Header) (payload : Slice) : Adds s (s0.data i p ticket cid header payload) := by
  unfold State.data
  split
  · exact adds_touches (touches_trans ht (touches_refl rfl)) fun _ => count_goes e (.inl rfl)
  · split
    · refine adds_touches (touches_trans ht (touches_refl rfl)) fun _ => ?_
      refine Nat.le_trans ?_ (count_goes (s := s0.keeping i cid) rfl (.inl rfl))
      unfold State.count State.keeping
      dsimp only
      rw [e]
      exact count_modify fun r _ h => h
    · split
      · exact adds_touches (touches_trans ht (touches_refl rfl)) fun _ => count_goes e (.inl rfl)
      · exact adds_touches (touches_trans ht (touches_refl rfl)) (fun h => by cases h)

theorem adds_handle (grow : Nat → Nat → Nat) {s : State} (k : Keeps s) {i : Nat} {r : Routine} (hr : s.routines[i]? = some r)
    (h0 : r.phase.taken = false) (p ticket : Nat) {c : Chan} (hc : c ∈ s.chans) :
    Adds s (s.handle grow i p ticket c r.report) := by
  have h64 := k.short r (List.mem_of_getElem? hr)
  unfold State.handle
  split
  · exact adds_touches (touches_refl rfl) (fun h => by cases h)
  · rename_i t hcol
    have hw : Within t := by
      unfold collect at hcol
      split at hcol
      · exact within_new h64 hcol
      · rename_i t0 h0
        exact within_add grow h64 (k.within c hc t0 h0) hcol
    have htx : Touches s (s.setTx p (some t)) := touches_setTx s p (fun x hx => by cases hx; exact hw)
    split
    · split
      · exact adds_touches (touches_trans htx (touches_refl rfl)) fun _ => count_goes (s0 := s.setTx p (some t)) rfl (.inl rfl)
      · split
        · exact adds_touches (touches_trans htx (touches_leave _ _ _)) fun _ => count_leave (s0 := s.setTx p (some t)) rfl _ _
        · split
          · exact adds_touches (touches_refl rfl) (fun h => by cases h)
          · split
            · exact adds_broadcast htx rfl hr h0 _ _ _
            · exact adds_data htx rfl _ _ _ _ _ _
    · exact adds_touches (touches_trans htx (touches_trans (touches_setHolder _ p none) (touches_refl rfl))) fun _ =>
        count_goes (s0 := (s.setTx p (some t)).setHolder p none) rfl (.inl rfl)

theorem adds_turn (grow : Nat → Nat → Nat) {s s' : State} (k : Keeps s) {i ticket : Nat} {r : Routine}
    (hr : s.routines[i]? = some r) (h : s.turn grow i ticket r = some s') : Adds s s' := by
  have hold : r.phase.taken = false → ∀ x, s.routines[i]? = some x → x.phase.taken = false := by
    intro ht x hx
    rw [hr] at hx; cases hx; exact ht
  unfold State.turn at h
  split at h
  · rename_i hp
    split at h
    · cases h; exact adds_touches (touches_refl rfl) (fun h => by cases h)
    · split at h
      · cases h; exact adds_touches (touches_refl rfl) fun _ => count_goes rfl (.inl rfl)
      · cases h; exact adds_touches (touches_refl rfl) fun _ => count_goes rfl (.inr (hold (by rw [hp]; rfl)))
  · rename_i p hp
    split at h
    · cases h
    · split at h
      · cases h
        exact adds_touches (touches_trans (touches_setHolder s p (some i)) (touches_refl rfl)) fun _ =>
          count_goes (s0 := s.setHolder p (some i)) rfl (.inr (hold (by rw [hp]; rfl)))
      · cases h
  · rename_i p hp
    split at h
    · cases h
    · rename_i c hc
      cases h
      exact adds_handle grow k hr (by rw [hp]; rfl) _ ticket (List.mem_of_getElem? hc)
  · cases h
  · split at h
    · cases h; exact adds_touches (touches_refl rfl) fun _ => count_goes (s0 := { s with responses := some i }) rfl (.inl rfl)
    · cases h
  · rename_i q x xs hp
    cases h; exact adds_touches (touches_refl rfl) fun _ => count_goes (s0 := { s with out := s.out ++ [x] }) rfl (.inl rfl)
  · rename_i q hp
    cases h
    exact adds_touches (touches_trans (touches_refl rfl) (touches_leave { s with responses := none } _ _)) fun _ =>
      count_leave (s0 := { s with responses := none }) rfl _ _
  · cases h

theorem adds_step (grow : Nat → Nat → Nat) {s s' : State} (k : Keeps s) {e : Event} (h : s.step grow e = some s') : Adds s s' := by
  unfold State.step at h
  split at h
  · cases h
  cases e with
  | arrive m =>
    cases h
    refine adds_touches (touches_refl rfl) fun _ => ?_
    simp [State.count, State.arrive, List.filter_append]
  | turn i ticket =>
    dsimp only at h
    split at h
    · cases h
    · rename_i r hr
      exact adds_turn grow k hr h
  | answer i a =>
    dsimp only at h
    split at h
    · split at h
      · cases h; exact adds_touches (touches_refl rfl) (fun h => by cases h)
      · cases h; exact adds_touches (touches_refl rfl) fun _ => count_goes rfl (.inl rfl)
    · cases h
  | keepalive i =>
    dsimp only at h
    split at h
    · split at h
      · cases h; exact adds_touches (touches_refl rfl) fun _ => Nat.le_refl _
      · cases h
    · cases h

theorem keeps_step (grow : Nat → Nat → Nat) {s s' : State} (k : Keeps s) {e : Event} (h : s.step grow e = some s')
    (h64 : ∀ m, e = .arrive m → m.length ≤ 64) : Keeps s' := by
  have a := adds_step grow k h
  obtain ⟨m1, -⟩ := step_mono grow h
  have hcr : s.crashed = false := by
    unfold State.step at h
    split at h
    · cases h
    · rename_i hc; simpa using hc
  have hlen := congrArg List.length m1
  simp only [List.length_map, List.length_append] at hlen
  have hk := k.counted hcr
  refine ⟨?_, ?_, ?_, ?_⟩
  · intro c hc t ht
    rcases a.within c hc t ht with h | ⟨c0, h0, e0⟩
    · exact h
    · exact k.within c0 h0 t e0
  · intro r hr
    have : r.report ∈ s'.routines.map (·.report) := List.mem_map.2 ⟨r, hr, rfl⟩
    rw [m1] at this
    rcases List.mem_append.1 this with hm | hm
    · obtain ⟨r0, h0, e0⟩ := List.mem_map.1 hm
      rw [← e0]
      exact k.short r0 h0
    · cases e <;> simp [arrival] at hm
      rw [hm]
      exact h64 _ rfl
  · rcases a.length with h | ⟨h, h'⟩
    · have := k.chans
      omega
    · omega
  · intro hx
    have := a.counted hx
    omega

theorem keeps_new : Keeps State.new := by
  refine ⟨?_, ?_, ?_, ?_⟩
  · intro c hc t ht
    obtain rfl := List.mem_singleton.1 hc
    cases ht
  · intro r hr
    cases hr
  · exact Nat.le_refl _
  · intro _
    exact Nat.le_refl _

theorem keeps_run (grow : Nat → Nat → Nat) {es : List Event} : ∀ {s s' : State}, Keeps s → s.run grow es = some s' →
    (∀ m ∈ Spec.Kept.arrivals es, m.length ≤ 64) →
    Keeps s' ∧ s'.routines.length = s.routines.length + (Spec.Kept.arrivals es).length := by
  induction es with
  | nil =>
    intro s s' k h _
    cases h
    exact ⟨k, rfl⟩
  | cons e es ih =>
    intro s s' k h h64
    unfold State.run at h
    obtain ⟨s1, h1, h2⟩ := Option.bind_eq_some_iff.1 h
    have k1 := keeps_step grow k h1 (by
      rintro m rfl
      exact h64 m (by simp [Spec.Kept.arrivals]))
    obtain ⟨k2, l2⟩ := ih k1 h2 (fun m hm => h64 m (by
      unfold Spec.Kept.arrivals at hm ⊢
      rw [List.filterMap_cons]
      split
      · exact hm
      · exact List.mem_cons_of_mem _ hm))
    obtain ⟨m1, -⟩ := step_mono grow h1
    have hlen := congrArg List.length m1
    simp only [List.length_map, List.length_append] at hlen
    refine ⟨k2, ?_⟩
    rw [l2, hlen]
    cases e <;> simp [arrival, Spec.Kept.arrivals] <;> omega

/-- Only `newChannel` changes the table. -/
theorem table_handle (grow : Nat → Nat → Nat) (s : State) (i p ticket : Nat) (c : Chan) (m : Bytes) {id : UInt32}
    (h : s.table id ≠ none) : (s.handle grow i p ticket c m).table id ≠ none := by
  have hal : ∀ s0 : State, s0.table = s.table → s0.alloc.table id ≠ none := by
    intro s0 e
    unfold State.alloc
    dsimp only
    split
    · simp
    · rw [e]; exact h
  unfold State.handle
  split
  · exact h
  · split
    · split
      · exact h
      · split
        · exact h
        · split
          · exact h
          · split
            · unfold State.broadcast
              split
              · split
                · exact hal _ rfl
                · exact hal (s.setTx p _) rfl
              · split
                · exact h
                · exact h
            · unfold State.data
              split
              · exact h
              · split
                · exact h
                · split <;> exact h
    · exact h

theorem table_step (grow : Nat → Nat → Nat) {s s' : State} {e : Event} (h : s.step grow e = some s') {id : UInt32}
    (hi : s.table id ≠ none) : s'.table id ≠ none := by
  unfold State.step at h
  split at h
  · cases h
  cases e with
  | arrive m => cases h; exact hi
  | turn i ticket =>
    dsimp only at h
    split at h
    · cases h
    · unfold State.turn at h
      split at h
      · split at h
        · cases h; exact hi
        · split at h
          · cases h; exact hi
          · cases h; exact hi
      · split at h
        · cases h
        · split at h
          · cases h; exact hi
          · cases h
      · split at h
        · cases h
        · cases h; exact table_handle grow s _ _ _ _ _ hi
      · cases h
      · split at h
        · cases h; exact hi
        · cases h
      · cases h; exact hi
      · rename_i q hp
        cases h
        cases q <;> exact hi
      · cases h
  | answer i a =>
    dsimp only at h
    split at h
    · split at h
      · cases h; exact hi
      · cases h; exact hi
    · cases h
  | keepalive i =>
    dsimp only at h
    split at h
    · split at h
      · cases h; exact hi
      · cases h
    · cases h

theorem table_run (grow : Nat → Nat → Nat) {es : List Event} : ∀ {s s' : State}, s.run grow es = some s' → ∀ {id : UInt32},
    s.table id ≠ none → s'.table id ≠ none := by
  induction es with
  | nil =>
    intro s s' h id hi
    cases h
    exact hi
  | cons e es ih =>
    intro s s' h id hi
    unfold State.run at h
    obtain ⟨s1, h1, h2⟩ := Option.bind_eq_some_iff.1 h
    exact ih h2 (table_step grow h1 hi)

theorem run_append (grow : Nat → Nat → Nat) (s : State) (a b : List Event) :
    s.run grow (a ++ b) = (s.run grow a).bind fun s' => s'.run grow b := by
  induction a generalizing s with
  | nil => rfl
  | cons e a ih =>
    show (s.step grow e).bind (fun s' => s'.run grow (a ++ b)) = ((s.step grow e).bind fun s' => s'.run grow a).bind _
    cases s.step grow e with
    | none => rfl
    | some s1 => exact ih s1

/-- Nobody holds the broadcast channel or the responses. -/
structure Idle (s : State) : Prop where
  free : ∃ p, s.table broadcastChannel = some p ∧ s.chans[p]? = some ⟨broadcastChannel, none, none⟩
  responses : s.responses = none
  live : s.crashed = false

/-- INIT, with a nonce. -/
def initReport : Bytes := [0xff, 0xff, 0xff, 0xff, 0x86, 0, 8, 1, 2, 3, 4, 5, 6, 7, 8]

def initRound (n : Nat) : List Event :=
  [.arrive initReport, .turn n 0, .turn n 0, .turn n 0, .turn n 0, .turn n 0, .turn n 0]

theorem modify_last {α : Type} (l : List α) (a : α) (f : α → α) : (l ++ [a]).modify l.length f = l ++ [f a] := by
  induction l with
  | nil => rfl
  | cons b l ih =>
    rw [List.cons_append, List.length_cons, List.modify_succ_cons, ih]
    rfl

theorem step_turn (grow : Nat → Nat → Nat) {s : State} {i k : Nat} {r : Routine} (h : s.crashed = false)
    (hr : s.routines[i]? = some r) : s.step grow (.turn i k) = s.turn grow i k r := by
  simp [State.step, h, hr]

theorem init_round (grow : Nat → Nat → Nat) {s : State} (h : Idle s) :
    ∃ s', s.run grow (initRound s.routines.length) = some s' ∧ Idle s' ∧ s'.maxChannelID = s.maxChannelID + 1 ∧
      s'.routines.length = s.routines.length + 1 ∧ s'.table (s.maxChannelID + 1) ≠ none ∧
      ∀ r ∈ s'.routines, r ∈ s.routines ∨ r.phase = .done := by
  obtain ⟨⟨p, hp, hc⟩, hres, hl⟩ := h
  obtain ⟨t, ht, hd, he, hcan, hr⟩ : ∃ t : Transaction, newTransaction initReport = .ok t ∧ t.done = true ∧ t.errorCode = 0 ∧
      t.cancelled = false ∧ t.result = some ⟨⟨broadcastChannel, cmdInit, 8⟩, 0, ⟨[1, 2, 3, 4, 5, 6, 7, 8], []⟩⟩ :=
    ⟨_, rfl, rfl, rfl, rfl, rfl⟩
  obtain ⟨rest, hrd⟩ : ∃ b, readLE32 initReport = .ok (broadcastChannel, b) := ⟨_, rfl⟩
  unfold initRound
  generalize initReport = m at *
  obtain ⟨mx, tb, ch, rsp, out, rs, cr⟩ := s
  dsimp only at hp hc hres hl ⊢
  subst hres hl
  have c2 : ∀ f : Chan → Chan, (ch.modify p f)[p]? = some (f ⟨broadcastChannel, none, none⟩) := by simp [hc]
  have up : (⟨[1, 2, 3, 4, 5, 6, 7, 8], []⟩ : Slice).upTo 8 = .ok ⟨[1, 2, 3, 4, 5, 6, 7, 8], []⟩ := rfl
  obtain ⟨pk, hpk⟩ : ∃ pk, createResponsePackets broadcastChannel cmdInit
      (pad [1, 2, 3, 4, 5, 6, 7, 8] 8 ++ toLE32 (mx + 1) ++ [2, 0, 0, 1, capabilityCBOR]) = [pk] := ⟨_, rfl⟩
  have hb : State.run grow ⟨mx, tb, ch, none, out, rs, false⟩ [.arrive m, .turn rs.length 0, .turn rs.length 0, .turn rs.length 0] =
      some ⟨mx + 1, fun c => if c = mx + 1 then some ch.length else tb c,
        (ch.modify p fun c => { c with transaction := some t, holder := some rs.length }) ++ [⟨mx + 1, none, none⟩],
        none, out, rs ++ [⟨m, .sending (some p) [pk], none⟩], false⟩ := by
    simp [State.run, State.step, State.arrive, State.turn, hrd, hp, hc, State.goes, modify_last, State.setHolder, c2,
      State.handle, collect, ht, hd, he, hcan, hr, State.setTx, State.broadcast, up, State.alloc, hpk, List.modify_modify_eq,
      Function.comp_def]
    rw [← List.append_assoc, hpk]
  have hc3 : ∀ f : Chan → Chan, ((ch.modify p f) ++ [(⟨mx + 1, none, none⟩ : Chan)])[p]? =
      some (f ⟨broadcastChannel, none, none⟩) := by
    intro f
    have hlt := (List.getElem?_eq_some_iff.1 hc).1
    rw [List.getElem?_append_left (by simpa using hlt)]
    exact c2 f
  have hb2 : State.run grow ⟨mx + 1, fun c => if c = mx + 1 then some ch.length else tb c,
        (ch.modify p fun c => { c with transaction := some t, holder := some rs.length }) ++ [⟨mx + 1, none, none⟩],
        none, out, rs ++ [⟨m, .sending (some p) [pk], none⟩], false⟩ [.turn rs.length 0, .turn rs.length 0, .turn rs.length 0] =
      some ⟨mx + 1, fun c => if c = mx + 1 then some ch.length else tb c,
        (ch.modify p fun c => { c with transaction := none, holder := none }) ++ [⟨mx + 1, none, none⟩],
        none, out ++ [pk], rs ++ [⟨m, .done, none⟩], false⟩ := by
    have hlt := (List.getElem?_eq_some_iff.1 hc).1
    have ha : ∀ (f f' : Chan → Chan), ((ch.modify p f) ++ [(⟨mx + 1, none, none⟩ : Chan)]).modify p f' =
        (ch.modify p (f' ∘ f)) ++ [⟨mx + 1, none, none⟩] := by
      intro f f'
      apply List.ext_getElem?
      intro j
      rw [List.getElem?_modify]
      by_cases hj : j < ch.length
      · rw [List.getElem?_append_left (by simpa using hj), List.getElem?_append_left (by simpa using hj)]
        rw [List.getElem?_modify, List.getElem?_modify]
        by_cases e : p = j <;> cases ch[j]? <;> simp [e]
      · have : p ≠ j := by omega
        rw [List.getElem?_append_right (by simpa using hj), List.getElem?_append_right (by simpa using hj)]
        simp [this]
    simp [State.run, State.step, State.turn, State.goes, modify_last, State.leave, State.setTx, State.setHolder, ha,
      Function.comp_def]
  have hrun := run_append grow ⟨mx, tb, ch, none, out, rs, false⟩
    [.arrive m, .turn rs.length 0, .turn rs.length 0, .turn rs.length 0] [.turn rs.length 0, .turn rs.length 0, .turn rs.length 0]
  rw [hb, Option.bind_some, hb2] at hrun
  refine ⟨_, hrun, ?_, rfl, by simp, by simp, ?_⟩
  rotate_left
  · intro r hr
    rcases List.mem_append.1 hr with h | h
    · exact .inl h
    · obtain rfl := List.mem_singleton.1 h
      exact .inr rfl
  · refine ⟨?_, rfl, rfl⟩
    by_cases e : broadcastChannel = mx + 1
    · refine ⟨ch.length, by simp [e], ?_⟩
      dsimp only
      rw [List.getElem?_append_right (by simp)]
      simp [e]
    · refine ⟨p, by simp [e, hp], ?_⟩
      dsimp only
      rw [hc3]

end VF.Reports
