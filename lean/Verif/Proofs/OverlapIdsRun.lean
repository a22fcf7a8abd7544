import Verif.Proofs.OverlapIdsPerform

/-!
# Ids of credentials do not repeat: the process
-/

namespace VF.Fido.Overlap

open Prog VF.Spec.Client VF.Spec.Vault VF.Spec.Cose VF.Spec.Overlap VF.Spec.History VF.Spec.Ctap VF.Spec.Store Ticket

variable {E : Env} {cfg : Client.Config} {m m' : Mem} {f : Nat → Ticket} {i : Nat} {t t' : Ticket}

/-- Memory, with the tickets of all goroutines. -/
structure Dealt (E : Env) (cfg : Client.Config) (f : Nat → Ticket) (m : Mem) : Prop where
  ids : (ids m).Nodup
  slots : m.slots.Nodup
  known : ∀ i a, idOf (f i) = some a → ∃ n, n < m.world.rnd ∧ a = E.rand n 16
  apart : ∀ i j a b, i ≠ j → idOf (f i) = some a → idOf (f j) = some b → a ≠ b
  drawn : ∀ i a, f i = .drawn a → a ∉ Overlap.ids m
  placed : ∀ i p, placeOf (f i) = some p → p < m.heap.length ∧ p ∉ m.slots
  unlisted : ∀ i j p l, placeOf (f i) = some p → listOf (f j) = some l → p ∉ l
  single : ∀ i j p, i ≠ j → placeOf (f i) = some p → placeOf (f j) ≠ some p
  lists : ∀ i l, listOf (f i) = some l → l.Nodup ∧ ∀ p ∈ l, p < m.heap.length
  store : StoreOk E cfg m.world.store

/-- One ticket changes. -/
def deal (f : Nat → Ticket) (i : Nat) (t : Ticket) : Nat → Ticket := fun j => if j = i then t else f j

theorem deal_same : deal f i (f i) = f := by
  funext j
  unfold deal
  split
  · rename_i h
    rw [h]
  · rfl

theorem deal_at : deal f i t i = t := if_pos rfl

theorem deal_other {j : Nat} (h : j ≠ i) : deal f i t j = f j := if_neg h

theorem ids_length : (Overlap.ids m).length = m.heap.length := by simp [Overlap.ids]

/-- Memory changes, tickets do not. -/
theorem Dealt.quiet (h : Dealt E cfg f m) (hi : Overlap.ids m' = Overlap.ids m) (hs : m'.slots = m.slots)
    (hst : m'.world.store = m.world.store ∨ StoreOk E cfg m'.world.store) (hr : m.world.rnd ≤ m'.world.rnd) :
    Dealt E cfg f m' := by
  have hl : m'.heap.length = m.heap.length := by rw [← ids_length, ← ids_length, hi]
  refine ⟨by rw [hi]; exact h.ids, by rw [hs]; exact h.slots, ?_, h.apart, ?_, ?_, h.unlisted, h.single, ?_, ?_⟩
  · intro i a ha
    obtain ⟨n, hn, e⟩ := h.known i a ha
    exact ⟨n, by omega, e⟩
  · intro i a ha
    rw [hi]
    exact h.drawn i a ha
  · intro i p hp
    rw [hl, hs]
    exact h.placed i p hp
  · intro i l hl'
    rw [hl]
    exact h.lists i l hl'
  · rcases hst with hst | hst
    · rw [hst]
      exact h.store
    · exact hst

/-- A ticket is given up, or reduced to its id. -/
theorem Dealt.reduce (h : Dealt E cfg f m) (i : Nat) (ht : t = .blank ∨ ∃ a, idOf (f i) = some a ∧ t = .done a) :
    Dealt E cfg (deal f i t) m := by
  have hp : placeOf t = none := by rcases ht with rfl | ⟨a, -, rfl⟩ <;> rfl
  have hl : listOf t = none := by rcases ht with rfl | ⟨a, -, rfl⟩ <;> rfl
  have hid : ∀ a, idOf t = some a → idOf (f i) = some a := by
    intro a ha
    rcases ht with rfl | ⟨b, hb, rfl⟩
    · cases ha
    · rw [hb]
      exact ha
  have hnd : ∀ a, t ≠ .drawn a := by
    intro a e
    rcases ht with rfl | ⟨b, hb, rfl⟩ <;> cases e
  have id' : ∀ j a, idOf (deal f i t j) = some a → idOf (f j) = some a := by
    intro j a ha
    by_cases hj : j = i
    · subst hj
      rw [deal_at] at ha
      exact hid a ha
    · rwa [deal_other hj] at ha
  have place' : ∀ j p, placeOf (deal f i t j) = some p → placeOf (f j) = some p := by
    intro j a ha
    by_cases hj : j = i
    · subst hj
      rw [deal_at, hp] at ha
      cases ha
    · rwa [deal_other hj] at ha
  have list' : ∀ j l, listOf (deal f i t j) = some l → listOf (f j) = some l := by
    intro j a ha
    by_cases hj : j = i
    · subst hj
      rw [deal_at, hl] at ha
      cases ha
    · rwa [deal_other hj] at ha
  refine ⟨h.ids, h.slots, fun j a ha => h.known j a (id' j a ha),
    fun j k a b hjk ha hb => h.apart j k a b hjk (id' j a ha) (id' k b hb), ?_,
    fun j p hp => h.placed j p (place' j p hp), fun j k p l hp hl => h.unlisted j k p l (place' j p hp) (list' k l hl),
    fun j k p hjk hp hp' => h.single j k p hjk (place' j p hp) (place' k p hp'),
    fun j l hl => h.lists j l (list' j l hl), h.store⟩
  intro j a ha
  by_cases hj : j = i
  · subst hj
    rw [deal_at] at ha
    exact absurd ha (hnd a)
  · rw [deal_other hj] at ha
    exact h.drawn j a ha

/-- One step of a goroutine. -/
theorem Dealt.moved (h : Dealt E cfg f m) (hg : Good E cfg m) (hg' : Good E cfg m') (hr : Rel false m m')
    (hd : DistinctDraws E m'.world.rnd) (hm : Move E cfg (f i) m t' m') : Dealt E cfg (deal f i t') m' := by
  generalize hfi : f i = t at hm
  cases hm with
  | quiet hi hs hst =>
    rw [← hfi, deal_same]
    exact h.quiet hi hs hst hr.rnd
  | draw hi hs hst hrn =>
    have h1 := h.quiet hi hs (.inl hst) hr.rnd
    have hnew : ∀ n, n < m.world.rnd → E.rand n 16 ≠ E.rand m.world.rnd 16 := by
      intro n hn e
      have := hd n m.world.rnd (by omega) (by omega) e
      omega
    refine ⟨h1.ids, h1.slots, ?_, ?_, ?_, ?_, ?_, ?_, ?_, h1.store⟩
    · intro j a ha
      by_cases hj : j = i
      · subst hj
        rw [deal_at] at ha
        exact ⟨_, by omega, (Option.some.inj ha).symm⟩
      · rw [deal_other hj] at ha
        exact h1.known j a ha
    · intro j k a b hjk ha hb
      by_cases hj : j = i
      · subst hj
        rw [deal_at] at ha
        rw [deal_other (fun e => hjk e.symm)] at hb
        obtain ⟨n, hn, e⟩ := h.known k b hb
        rw [e, ← Option.some.inj ha]
        exact (hnew n hn).symm
      · rw [deal_other hj] at ha
        by_cases hk : k = i
        · subst hk
          rw [deal_at] at hb
          obtain ⟨n, hn, e⟩ := h.known j a ha
          rw [e, ← Option.some.inj hb]
          exact hnew n hn
        · rw [deal_other hk] at hb
          exact h.apart j k a b hjk ha hb
    · intro j a ha
      by_cases hj : j = i
      · subst hj
        rw [deal_at] at ha
        injection ha with ha
        rw [hi]
        intro hmem
        obtain ⟨s, hs', e⟩ := List.mem_map.1 hmem
        obtain ⟨⟨n, k, hn, -, e', -⟩, -⟩ := hg.made s hs'
        rw [← ha, e'] at e
        exact hnew n hn e
      · rw [deal_other hj] at ha
        exact h1.drawn j a ha
    · intro j p hp
      by_cases hj : j = i
      · subst hj
        rw [deal_at] at hp
        cases hp
      · rw [deal_other hj] at hp
        exact h1.placed j p hp
    · intro j k p l hp hl
      by_cases hj : j = i
      · subst hj
        rw [deal_at] at hp
        cases hp
      · rw [deal_other hj] at hp
        by_cases hk : k = i
        · subst hk
          rw [deal_at] at hl
          cases hl
        · rw [deal_other hk] at hl
          exact h.unlisted j k p l hp hl
    · intro j k p hjk hp hp'
      by_cases hj : j = i
      · subst hj
        rw [deal_at] at hp
        cases hp
      · rw [deal_other hj] at hp
        by_cases hk : k = i
        · subst hk
          rw [deal_at] at hp'
          cases hp'
        · rw [deal_other hk] at hp'
          exact h.single j k p hjk hp hp'
    · intro j l hl
      by_cases hj : j = i
      · subst hj
        rw [deal_at] at hl
        cases hl
      · rw [deal_other hj] at hl
        exact h1.lists j l hl
  | @alloc a _ _ hi hs hst =>
    have hlen : m'.heap.length = m.heap.length + 1 := by rw [← ids_length, ← ids_length, hi]; simp
    have hmine : idOf (f i) = some a := by rw [hfi]; rfl
    have hfresh := h.drawn i a hfi
    refine ⟨?_, by rw [hs]; exact h.slots, ?_, ?_, ?_, ?_, ?_, ?_, ?_, by rw [hst]; exact h.store⟩
    · rw [hi, List.nodup_append]
      refine ⟨h.ids, by simp, ?_⟩
      intro x hx y hy e
      rw [List.mem_singleton.1 hy] at e
      exact hfresh (e ▸ hx)
    · intro j b hb
      have hb' : idOf (f j) = some b := by
        by_cases hj : j = i
        · subst hj
          rw [deal_at] at hb
          rw [hmine]
          exact hb
        · rwa [deal_other hj] at hb
      obtain ⟨n, hn, e⟩ := h.known j b hb'
      have := hr.rnd
      exact ⟨n, by omega, e⟩
    · intro j k b c hjk hb hc
      have up : ∀ j b, idOf (deal f i (.made a m.heap.length) j) = some b → idOf (f j) = some b := by
        intro j b hb
        by_cases hj : j = i
        · subst hj
          rw [deal_at] at hb
          rw [hmine]
          exact hb
        · rwa [deal_other hj] at hb
      exact h.apart j k b c hjk (up j b hb) (up k c hc)
    · intro j b hb
      by_cases hj : j = i
      · subst hj
        rw [deal_at] at hb
        cases hb
      · rw [deal_other hj] at hb
        rw [hi]
        intro hmem
        rcases List.mem_append.1 hmem with hmem | hmem
        · exact h.drawn j b hb hmem
        · rw [List.mem_singleton] at hmem
          exact h.apart j i b a hj (by rw [hb]; rfl) hmine hmem
    · intro j p hp
      rw [hs, hlen]
      by_cases hj : j = i
      · subst hj
        rw [deal_at] at hp
        obtain rfl := Option.some.inj hp
        refine ⟨by omega, fun hm => ?_⟩
        have := hg.slots _ hm
        omega
      · rw [deal_other hj] at hp
        obtain ⟨h1, h2⟩ := h.placed j p hp
        exact ⟨by omega, h2⟩
    · intro j k p l hp hl
      have hl' : listOf (f k) = some l := by
        by_cases hk : k = i
        · subst hk
          rw [deal_at] at hl
          cases hl
        · rwa [deal_other hk] at hl
      by_cases hj : j = i
      · subst hj
        rw [deal_at] at hp
        obtain rfl := Option.some.inj hp
        intro hm
        have := (h.lists k l hl').2 _ hm
        omega
      · rw [deal_other hj] at hp
        exact h.unlisted j k p l hp hl'
    · intro j k p hjk hp hp'
      by_cases hj : j = i
      · subst hj
        rw [deal_at] at hp
        obtain rfl := Option.some.inj hp
        rw [deal_other (fun e => hjk e.symm)] at hp'
        have := (h.placed k _ hp').1
        omega
      · rw [deal_other hj] at hp
        by_cases hk : k = i
        · subst hk
          rw [deal_at] at hp'
          obtain rfl := Option.some.inj hp'
          have := (h.placed j _ hp).1
          omega
        · rw [deal_other hk] at hp'
          exact h.single j k p hjk hp hp'
    · intro j l hl
      by_cases hj : j = i
      · subst hj
        rw [deal_at] at hl
        cases hl
      · rw [deal_other hj] at hl
        obtain ⟨h1, h2⟩ := h.lists j l hl
        exact ⟨h1, fun p hp => by rw [hlen]; exact Nat.lt_succ_of_lt (h2 p hp)⟩
  | @look a p _ =>
    have hid : ∀ j, idOf (deal f i (.adding a p m.slots) j) = idOf (f j) := by
      intro j
      by_cases hj : j = i
      · subst hj
        rw [deal_at, hfi]
        rfl
      · rw [deal_other hj]
    have hpl : ∀ j, placeOf (deal f i (.adding a p m.slots) j) = placeOf (f j) := by
      intro j
      by_cases hj : j = i
      · subst hj
        rw [deal_at, hfi]
        rfl
      · rw [deal_other hj]
    refine ⟨h.ids, h.slots, ?_, ?_, ?_, ?_, ?_, ?_, ?_, h.store⟩
    · intro j b hb
      rw [hid] at hb
      exact h.known j b hb
    · intro j k b c hjk hb hc
      rw [hid] at hb hc
      exact h.apart j k b c hjk hb hc
    · intro j b hb
      by_cases hj : j = i
      · subst hj
        rw [deal_at] at hb
        cases hb
      · rw [deal_other hj] at hb
        exact h.drawn j b hb
    · intro j q hq
      rw [hpl] at hq
      exact h.placed j q hq
    · intro j k q l hq hl
      rw [hpl] at hq
      by_cases hk : k = i
      · subst hk
        rw [deal_at] at hl
        obtain rfl := Option.some.inj hl
        exact (h.placed j q hq).2
      · rw [deal_other hk] at hl
        exact h.unlisted j k q l hq hl
    · intro j k q hjk hq hq'
      rw [hpl] at hq hq'
      exact h.single j k q hjk hq hq'
    · intro j l hl
      by_cases hj : j = i
      · subst hj
        rw [deal_at] at hl
        obtain rfl := Option.some.inj hl
        exact ⟨h.slots, hg.slots⟩
      · rw [deal_other hj] at hl
        exact h.lists j l hl
  | lookDel =>
    have hid : ∀ j, idOf (deal f i (.deleting m.slots) j) = idOf (f j) := by
      intro j
      by_cases hj : j = i
      · subst hj
        rw [deal_at, hfi]
        rfl
      · rw [deal_other hj]
    have hpl : ∀ j, placeOf (deal f i (.deleting m.slots) j) = placeOf (f j) := by
      intro j
      by_cases hj : j = i
      · subst hj
        rw [deal_at, hfi]
        rfl
      · rw [deal_other hj]
    refine ⟨h.ids, h.slots, ?_, ?_, ?_, ?_, ?_, ?_, ?_, h.store⟩
    · intro j b hb
      rw [hid] at hb
      exact h.known j b hb
    · intro j k b c hjk hb hc
      rw [hid] at hb hc
      exact h.apart j k b c hjk hb hc
    · intro j b hb
      by_cases hj : j = i
      · subst hj
        rw [deal_at] at hb
        cases hb
      · rw [deal_other hj] at hb
        exact h.drawn j b hb
    · intro j q hq
      rw [hpl] at hq
      exact h.placed j q hq
    · intro j k q l hq hl
      rw [hpl] at hq
      by_cases hk : k = i
      · subst hk
        rw [deal_at] at hl
        obtain rfl := Option.some.inj hl
        exact (h.placed j q hq).2
      · rw [deal_other hk] at hl
        exact h.unlisted j k q l hq hl
    · intro j k q hjk hq hq'
      rw [hpl] at hq hq'
      exact h.single j k q hjk hq hq'
    · intro j l hl
      by_cases hj : j = i
      · subst hj
        rw [deal_at] at hl
        obtain rfl := Option.some.inj hl
        exact ⟨h.slots, hg.slots⟩
      · rw [deal_other hj] at hl
        exact h.lists j l hl
  | @add a p l _ _ hi hs hst =>
    have hlen : m'.heap.length = m.heap.length := by rw [← ids_length, ← ids_length, hi]
    have hp : placeOf (f i) = some p := by rw [hfi]; rfl
    have hl : listOf (f i) = some l := by rw [hfi]; rfl
    have h1 := h.reduce i (t := .done a) (.inr ⟨a, by rw [hfi]; rfl, rfl⟩)
    refine ⟨by rw [hi]; exact h.ids, ?_, ?_, h1.apart, ?_, ?_, h1.unlisted, h1.single, ?_, by rw [hst]; exact h.store⟩
    · rw [hs, List.nodup_append]
      refine ⟨(h.lists i l hl).1, by simp, ?_⟩
      intro x hx y hy e
      rw [List.mem_singleton.1 hy] at e
      exact h.unlisted i i p l hp hl (e ▸ hx)
    · intro j b hb
      obtain ⟨n, hn, e⟩ := h1.known j b hb
      have := hr.rnd
      exact ⟨n, by omega, e⟩
    · intro j b hb
      rw [hi]
      exact h1.drawn j b hb
    · intro j q hq
      refine ⟨by rw [hlen]; exact (h1.placed j q hq).1, ?_⟩
      rw [hs]
      have hj : j ≠ i := by
        rintro rfl
        rw [deal_at] at hq
        cases hq
      rw [deal_other hj] at hq
      intro hm
      rcases List.mem_append.1 hm with hm | hm
      · exact h.unlisted j i q l hq hl hm
      · rw [List.mem_singleton] at hm
        exact h.single j i q hj hq (by rw [hp, hm])
    · intro j l' hl'
      rw [hlen]
      exact h1.lists j l' hl'
  | @del l _ _ hi hn hs hst =>
    have hlen : m'.heap.length = m.heap.length := by rw [← ids_length, ← ids_length, hi]
    have hl : listOf (f i) = some l := by rw [hfi]; rfl
    have h1 := h.reduce i (t := .blank) (.inl rfl)
    refine ⟨by rw [hi]; exact h.ids, hn (h.lists i l hl).1, ?_, h1.apart, ?_, ?_, h1.unlisted, h1.single, ?_, by rw [hst]; exact h.store⟩
    · intro j b hb
      obtain ⟨n, hn, e⟩ := h1.known j b hb
      have := hr.rnd
      exact ⟨n, by omega, e⟩
    · intro j b hb
      rw [hi]
      exact h1.drawn j b hb
    · intro j q hq
      refine ⟨by rw [hlen]; exact (h1.placed j q hq).1, ?_⟩
      have hj : j ≠ i := by
        rintro rfl
        rw [deal_at] at hq
        cases hq
      rw [deal_other hj] at hq
      intro hm
      exact h.unlisted j i q l hq hl (hs q hm)
    · intro j l' hl'
      rw [hlen]
      exact h1.lists j l' hl'

/-- The process, with the tickets of all goroutines. -/
structure Tickets (E : Env) (cfg : Client.Config) (f : Nat → Ticket) (s : Process) : Prop where
  dealt : Dealt E cfg f s.mem
  working : ∀ (i : Nat) op p, s.threads[i]? = some (.working op p) → ∃ upd next, p = .act upd next ∧
    Owns E cfg (fun t r _ => Announces op t r) (f i) p s.mem
  ready : ∀ (i : Nat) op r, s.threads[i]? = some (.ready op r) → Announces op (f i) r
  later : ∀ i, s.threads.length ≤ i → f i = .blank

/-- Goroutine `i` has taken its step. -/
theorem Tickets.moved {s : Process} (h : Tickets E cfg f s) {i : Nat} {op : Op} {mem : Mem} {p : Prog Reply} {t : Ticket}
    (hi : i < s.threads.length) (hr : Rel false s.mem mem) (hd : Dealt E cfg (deal f i t) mem)
    (hp : Owns E cfg (fun t r _ => Announces op t r) t p mem) : Tickets E cfg (deal f i t) (s.moved i op mem p) := by
  have hlater : ∀ j, s.threads.length ≤ j → deal f i t j = .blank := by
    intro j hj
    rw [deal_other (by omega)]
    exact h.later j hj
  have key : ∀ u, (∀ op' p', u = .working op' p' → op' = op ∧ p' = p ∧ ∃ upd next, p = .act upd next) →
      (∀ op' r, u = .ready op' r → op' = op ∧ p = .ret r) →
      Tickets E cfg (deal f i t) { s with mem := mem, threads := s.threads.set i u } := by
    intro u hw hrd
    refine ⟨hd, ?_, ?_, fun j hj => hlater j (by simpa using hj)⟩
    · intro j op' p' hj
      have hj : (s.threads.set i u)[j]? = _ := hj
      rw [List.getElem?_set] at hj
      by_cases hij : i = j
      · subst hij
        rw [if_pos rfl, if_pos hi] at hj
        obtain ⟨rfl, rfl, upd, next, e⟩ := hw op' p' (Option.some.inj hj)
        rw [deal_at]
        exact ⟨upd, next, e, hp⟩
      · rw [if_neg hij] at hj
        obtain ⟨upd, next, rfl, k⟩ := h.working j op' p' hj
        rw [deal_other (fun e => hij e.symm)]
        exact ⟨upd, next, rfl, k.later hr⟩
    · intro j op' r hj
      have hj : (s.threads.set i u)[j]? = _ := hj
      rw [List.getElem?_set] at hj
      by_cases hij : i = j
      · subst hij
        rw [if_pos rfl, if_pos hi] at hj
        obtain ⟨rfl, rfl⟩ := hrd op' r (Option.some.inj hj)
        rw [deal_at]
        exact hp
      · rw [if_neg hij] at hj
        rw [deal_other (fun e => hij e.symm)]
        exact h.ready j op' r hj
  cases p with
  | ret r => exact key (.ready op r) (fun _ _ e => by cases e) (fun _ _ e => by cases e; exact ⟨rfl, rfl⟩)
  | act upd next =>
    exact key (.working op (.act upd next)) (fun _ _ e => by cases e; exact ⟨rfl, rfl, upd, next, rfl⟩) (fun _ _ e => by cases e)
  | fail c =>
    have h1 := key (.gone op) (fun _ _ e => by cases e) (fun _ _ e => by cases e)
    refine ⟨hd, ?_, ?_, fun j hj => hlater j (by simpa [Process.moved] using hj)⟩
    · intro j op' p' hj
      obtain ⟨u, -, -, h3, -⟩ := ended_getElem hj
      exact absurd rfl (h3 op' p')
    · intro j op' r hj
      obtain ⟨u, h2, -, -, h4⟩ := ended_getElem hj
      exact h1.ready j op' r (by rw [← h4 op' r rfl]; exact h2)

/-- What remains of a ticket when the process ends. -/
def reduced (t : Ticket) : Ticket :=
  match idOf t with
  | some a => .done a
  | none => .blank

theorem reduced_id (t : Ticket) : idOf (reduced t) = idOf t := by cases t <;> rfl
theorem reduced_place (t : Ticket) : placeOf (reduced t) = none := by cases t <;> rfl
theorem reduced_list (t : Ticket) : listOf (reduced t) = none := by cases t <;> rfl
theorem reduced_drawn (t : Ticket) (a : Bytes) : reduced t ≠ .drawn a := by cases t <;> simp [reduced, idOf]

theorem tickets_begin (L : Laws E) {s : Process} (h : Tickets E cfg f s) (op : Op) : Tickets E cfg f (s.step E cfg (.begin op)) := by
  have e : s.step E cfg (.begin op) = if s.alive ∧ op ≠ .restart then
      ({ s with threads := s.threads ++ [Thread.gone op] } : Process).moved s.threads.length op s.mem
        (perform E op) else s := rfl
  rw [e]
  split
  · have h1 : Tickets E cfg f { s with threads := s.threads ++ [Thread.gone op] } := by
      refine ⟨h.dealt, ?_, ?_, ?_⟩
      · intro j op' p' hj
        rcases getElem_snoc hj with ⟨-, hj⟩ | ⟨-, hj⟩
        · exact h.working j op' p' hj
        · cases hj
      · intro j op' r hj
        rcases getElem_snoc hj with ⟨-, hj⟩ | ⟨-, hj⟩
        · exact h.ready j op' r hj
        · cases hj
      · intro j hj
        simp only [List.length_append, List.length_cons, List.length_nil] at hj
        exact h.later j (by omega)
    have hb := h.later s.threads.length (Nat.le_refl _)
    have hd : Dealt E cfg (deal f s.threads.length .blank) s.mem := by
      rw [← hb, deal_same]
      exact h.dealt
    have := h1.moved (i := s.threads.length) (op := op) (mem := s.mem) (p := perform E op) (t := .blank) (by simp) (Rel.refl _ _) hd
      (perform_owns L op)
    rwa [← hb, deal_same] at this
  · exact h

theorem tickets_turn {s : Process} (h : Tickets E cfg f s) (i : Nat) (hg : Good E cfg s.mem)
    (hg' : Good E cfg (s.step E cfg (.turn i)).mem) (hr : Rel false s.mem (s.step E cfg (.turn i)).mem)
    (hd : DistinctDraws E (s.step E cfg (.turn i)).mem.world.rnd) : ∃ f', Tickets E cfg f' (s.step E cfg (.turn i)) := by
  cases ht : s.threads[i]? with
  | none =>
    rw [show s.step E cfg (.turn i) = s by unfold Process.step; simp only [ht]]
    exact ⟨f, h⟩
  | some u =>
    by_cases hw : ∃ op upd next, u = .working op (.act upd next) ∧ s.alive = true
    · obtain ⟨op, upd, next, rfl, ha⟩ := hw
      have e0 : s.step E cfg (.turn i) = s.moved i op (upd s.mem) (next s.mem) := by
        unfold Process.step
        simp only [ht, ha, if_true]
      have hmem : ∀ p, (s.moved i op (upd s.mem) p).mem = upd s.mem := by
        intro p
        cases p <;> rfl
      rw [e0, hmem] at hg' hr hd
      rw [e0]
      obtain ⟨upd', next', e, hown⟩ := h.working i op _ ht
      obtain ⟨rfl, rfl⟩ : upd = upd' ∧ next = next' := by simpa using e
      obtain ⟨t', k1, k2⟩ := hown s.mem (Rel.refl _ _) ⟨hg, h.dealt.ids, h.dealt.slots⟩ hg' hr
      exact ⟨_, h.moved (List.getElem?_eq_some_iff.1 ht).1 hr (h.dealt.moved hg hg' hr hd k1) k2⟩
    · have e0 : s.step E cfg (.turn i) = s := by
        show (match s.threads[i]? with
          | some (.working op (.act upd next)) =>
            if s.alive then s.moved i op (upd s.mem) (next s.mem) else s
          | _ => s) = s
        rw [ht]
        cases u with
        | ready op r => rfl
        | gone op => rfl
        | working op p =>
          cases p with
          | ret r => rfl
          | fail c => rfl
          | act upd next =>
            dsimp only
            rw [if_neg (fun ha => hw ⟨op, upd, next, rfl, ha⟩)]
      rw [e0]
      exact ⟨f, h⟩

theorem tickets_restart {s : Process} (h : Tickets E cfg f s) (hg : Good E cfg s.mem) :
    Tickets E cfg (fun i => reduced (f i)) (s.step E cfg .restart) := by
  obtain ⟨c, h1, -⟩ := good_restart hg s.mem.world.rnd
  have e : s.step E cfg .restart =
      { mem := load { s.mem.world with client := c, rnd := s.mem.world.rnd + 2 }
        threads := s.threads.map Thread.ended, alive := true } := by
    show (match Client.start E cfg s.mem.world.store s.mem.world.rnd with
      | .ok c => _
      | .panic _ => _) = _
    rw [h1]
  rw [e]
  refine ⟨⟨h.dealt.store _ _ h1, List.nodup_range, ?_, ?_, ?_, ?_, ?_, ?_, ?_, h.dealt.store⟩, ?_, ?_, ?_⟩
  · intro i a ha
    rw [reduced_id] at ha
    obtain ⟨n, hn, e⟩ := h.dealt.known i a ha
    exact ⟨n, Nat.lt_of_lt_of_le hn (Nat.le_add_right _ _), e⟩
  · intro i j a b hij ha hb
    rw [reduced_id] at ha hb
    exact h.dealt.apart i j a b hij ha hb
  · intro i a ha
    exact absurd ha (reduced_drawn _ _)
  · intro i p hp
    rw [reduced_place] at hp
    cases hp
  · intro i j p l hp
    rw [reduced_place] at hp
    cases hp
  · intro i j p _ hp
    rw [reduced_place] at hp
    cases hp
  · intro i l hl
    rw [reduced_list] at hl
    cases hl
  · intro j op' p' hj
    obtain ⟨u, -, -, h3, -⟩ := ended_getElem hj
    exact absurd rfl (h3 op' p')
  · intro j op' r hj
    obtain ⟨u, h2, -, -, h4⟩ := ended_getElem hj
    have h5 := h.ready j op' r (by rw [← h4 op' r rfl]; exact h2)
    intro data b c' e1 e2 e3
    rw [h5 data b c' e1 e2 e3]
    rfl
  · intro j hj
    rw [h.later j (by simpa using hj)]
    rfl

theorem draws_mono {n n' : Nat} (h : DistinctDraws E n') (hn : n ≤ n') : DistinctDraws E n :=
  fun i j hi hj e => h i j (by omega) (by omega) e

theorem rnd_step (L : Laws E) (hu : Usable E cfg) (evs : List Event) (e : Event) :
    ((boot E cfg).run E cfg evs).mem.world.rnd ≤ (((boot E cfg).run E cfg evs).step E cfg e).mem.world.rnd := by
  by_cases he : e = .restart
  · subst he
    unfold Process.step
    dsimp only
    split
    · exact Nat.le_add_right _ 2
    · exact Nat.le_add_right _ 2
  · have hr := rel_run (E := E) (cfg := cfg) L hu [e] evs (by simpa using he)
    rw [run_snoc] at hr
    exact hr.rnd

theorem rnd_run (L : Laws E) (hu : Usable E cfg) : ∀ (evs' evs : List Event),
    ((boot E cfg).run E cfg evs).mem.world.rnd ≤ ((boot E cfg).run E cfg (evs ++ evs')).mem.world.rnd
  | [], evs => by rw [List.append_nil]; exact Nat.le_refl _
  | e :: evs', evs => by
    have h1 := rnd_step (E := E) (cfg := cfg) L hu evs e
    have h2 := rnd_run L hu evs' (evs ++ [e])
    rw [run_snoc, List.append_assoc] at h2
    exact Nat.le_trans h1 h2

theorem tickets_from (L : Laws E) (hu : Usable E cfg) : ∀ (evs' evs : List Event) (f : Nat → Ticket),
    Tickets E cfg f ((boot E cfg).run E cfg evs) → DistinctDraws E ((boot E cfg).run E cfg (evs ++ evs')).mem.world.rnd →
    ∃ f', Tickets E cfg f' ((boot E cfg).run E cfg (evs ++ evs'))
  | [], evs, f, h, _ => ⟨f, by rw [List.append_nil]; exact h⟩
  | e :: evs', evs, f, h, hd => by
    have hg := good_always (E := E) (cfg := cfg) L hu evs
    have hg' := good_always (E := E) (cfg := cfg) L hu (evs ++ [e])
    have hle := rnd_run (E := E) (cfg := cfg) L hu evs' (evs ++ [e])
    rw [List.append_assoc] at hle
    have hd' := draws_mono hd hle
    have hnext : ∃ f', Tickets E cfg f' ((boot E cfg).run E cfg (evs ++ [e])) := by
      cases e with
      | restart =>
        rw [run_snoc]
        exact ⟨_, tickets_restart h hg⟩
      | begin op =>
        rw [run_snoc]
        exact ⟨_, tickets_begin L h op⟩
      | turn i =>
        have hr := rel_run (E := E) (cfg := cfg) L hu [.turn i] evs (by simp)
        rw [run_snoc] at hr hg' hd' ⊢
        exact tickets_turn h i hg hg' hr hd'
    obtain ⟨f', h'⟩ := hnext
    have := tickets_from L hu evs' (evs ++ [e]) f' h'
    rw [List.append_assoc] at this
    exact this hd

theorem tickets_run (L : Laws E) (hu : Usable E cfg) (evs : List Event)
    (hd : DistinctDraws E ((boot E cfg).run E cfg evs).mem.world.rnd) :
    ∃ f, Tickets E cfg f ((boot E cfg).run E cfg evs) := by
  refine tickets_from L hu evs [] (fun _ => .blank) ?_ hd
  refine ⟨⟨by unfold ids; exact List.nodup_nil, List.nodup_nil, ?_, ?_, ?_, ?_, ?_, ?_, ?_, ?_⟩, ?_, ?_, ?_⟩
  · intro i a h; cases h
  · intro i j a b _ h; cases h
  · intro i a h; cases h
  · intro i a h; cases h
  · intro i j p l h; cases h
  · intro i j p _ h; cases h
  · intro i a h; cases h
  · intro n c hc
    have hc : Res.ok (Client.fresh E cfg n) = .ok c := hc
    rw [← Res.ok.inj hc]
    exact List.nodup_nil
  · intro i op p h
    simp [Process.run, Overlap.boot] at h
  · intro i op p h
    simp [Process.run, Overlap.boot] at h
  · intro i _
    rfl

end VF.Fido.Overlap
