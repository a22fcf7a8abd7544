import Verif.Proofs.Live
import Verif.Proofs.ReportsOrder
import Verif.Spec.Stack

/-! # The device at work: whole histories -/

namespace VF.Hid

open Util Spec.Ctaphid Spec.Service

theorem readConts_length {cid : UInt32} {need : Nat} : ∀ {ps : List Bytes} {seq : Nat} {acc x : Bytes},
    readConts cid need seq acc ps = some x → ps.length = (need - acc.length + 58) / 59
  | [], seq, acc, x, h => by
    rw [readConts] at h
    split at h
    · simp; omega
    · cases h
  | p :: ps, seq, acc, x, h => by
    rw [readConts] at h
    split at h
    · rename_i hc
      have := readConts_length h
      rw [List.length_cons, this]
      simp only [List.length_append, List.length_drop, hc.2.2.1]
      omega
    · cases h

theorem hostRead_length {p : Bytes} {ps : List Bytes} {x : UInt32 × UInt8 × Bytes} (h : hostRead (p :: ps) = some x) :
    ps.length = further p := by
  unfold hostRead at h
  dsimp only at h
  split at h
  · split at h
    · rename_i hc
      obtain ⟨y, hy, -⟩ := Option.map_eq_some_iff.mp h
      rw [readConts_length hy]
      simp only [further]
      have := hc.1
      simp at this
      omega
    · cases h
  · cases h

theorem readMessages_more (k n : Nat) : ∀ (ps : List Bytes), ps.length ≤ n → readMessages (n + k) ps = readMessages n ps := by
  induction n with
  | zero =>
    intro ps h
    have : ps = [] := List.length_eq_zero_iff.mp (by omega)
    subst this
    cases k <;> simp [readMessages]
  | succ n ih =>
    intro ps h
    cases ps with
    | nil => rw [show n + 1 + k = (n + k) + 1 by omega]; simp [readMessages]
    | cons p ps =>
      rw [show n + 1 + k = (n + k) + 1 by omega, readMessages, readMessages]
      split
      · rfl
      · rw [ih]
        simp at h ⊢
        omega

theorem readMessages_prefix (ys : List Bytes) (n : Nat) : ∀ (xs : List Bytes),
    readMessages n xs <+: readMessages n (xs ++ ys) := by
  induction n with
  | zero => intro xs; simp [readMessages]
  | succ n ih =>
    intro xs
    cases xs with
    | nil => simp [readMessages]
    | cons p xs =>
      rw [List.cons_append, readMessages, readMessages]
      rcases h : hostRead (p :: xs.take (further p)) with _ | ⟨c, cmd, payload⟩
      · simp
      · have hl := hostRead_length h
        rw [List.length_take] at hl
        have hle : further p ≤ xs.length := by omega
        rw [List.take_append_of_le_length hle, h, List.drop_append_of_le_length hle]
        dsimp only
        rw [List.cons_prefix_cons]
        exact ⟨rfl, ih _⟩

/-- What a host has read stays. -/
theorem messages_prefix (xs ys : List Bytes) : messages xs <+: messages (xs ++ ys) := by
  unfold messages
  rw [List.length_append, ← readMessages_more ys.length xs.length xs (Nat.le_refl _)]
  exact readMessages_prefix ys _ xs

theorem answers_prefix (xs ys : List Bytes) : answers xs <+: answers (xs ++ ys) := by
  obtain ⟨t, h⟩ := messages_prefix xs ys
  unfold answers
  rw [← h, List.filter_append]
  exact List.prefix_append _ _

end VF.Hid

namespace VF.Reports

open Util Hid Spec.Ctaphid Spec.Service Spec.Calls Spec.Stack

variable {s : State} {handled refused : List Bytes} {calls : List Call} {sent : List Msg}

/-- What the invariant says of a channel. -/
theorem Inv.channel (inv : Inv s handled refused calls sent) (cid : UInt32) :
    (∃ all window, Heard cid (proj cid handled) all window ∧ asked (callsOn cid calls) =
      (if cid = broadcastChannel then [] else all.filter fun m => forAuthenticator m.1)) ∧
    (∀ k ∈ (callsOn cid calls).dropLast, k.answer.isSome = true) ∧
    sentOn cid sent <+: results (callsOn cid calls) ∧
    ((∀ r ∈ s.routines, r.phase = .done) →
      sentOn cid sent = results (callsOn cid calls) ∧ Answered (callsOn cid calls)) := by
  have key : ∀ {tx : Option Transaction} {h : Option (Nat × Phase)},
      Conv cid (proj cid handled) (callsOn cid calls) (sentOn cid sent) tx h →
      ((∀ r ∈ s.routines, r.phase = .done) → ∀ x, h = some x → x.2 = .done) →
      (∃ all window, Heard cid (proj cid handled) all window ∧ asked (callsOn cid calls) =
        (if cid = broadcastChannel then [] else all.filter fun m => forAuthenticator m.1)) ∧
      (∀ k ∈ (callsOn cid calls).dropLast, k.answer.isSome = true) ∧
      sentOn cid sent <+: results (callsOn cid calls) ∧
        ((∀ r ∈ s.routines, r.phase = .done) →
        sentOn cid sent = results (callsOn cid calls) ∧ Answered (callsOn cid calls)) := by
    intro tx h hc hd
    have drop : Answered (callsOn cid calls) → ∀ k ∈ (callsOn cid calls).dropLast, k.answer.isSome = true :=
      fun ha k hk => ha k ((List.dropLast_sublist _).subset hk)
    have op : ∀ {t}, Opened cid (proj cid handled) (callsOn cid calls) t →
        ∃ all window, Heard cid (proj cid handled) all window ∧ asked (callsOn cid calls) =
        (if cid = broadcastChannel then [] else all.filter fun m => forAuthenticator m.1) := by
      rintro t ⟨all, window, h1, h2, -⟩
      exact ⟨all, window, h1, h2⟩
    cases hc with
    | idle ho ha hss => exact ⟨op ho, drop ha, by rw [hss]; exact List.prefix_rfl, fun _ => ⟨hss, ha⟩⟩
    | inside ho ha hss =>
      exact ⟨op ho, drop ha, by rw [hss]; exact List.prefix_rfl, fun _ => ⟨hss, ha⟩⟩
    | calling ks0 hk hcmd ho ha hss =>
      refine ⟨op ho, ?_, by rw [hss]; exact List.prefix_rfl, ?_⟩
      · rw [hk, List.dropLast_concat]; exact ha
      · intro hdone
        have := hd hdone _ rfl
        cases this
    | sending ms hp hid hok ho ha hss =>
      refine ⟨op ho, drop ha, ⟨_, hss⟩, ?_⟩
      intro hdone
      have := hd hdone _ rfl
      cases this
    | writing ho ha hss =>
      exact ⟨op ho, drop ha, by rw [hss]; exact List.prefix_rfl, fun _ => ⟨hss, ha⟩⟩
  rcases ht : s.table cid with _ | p
  · exact key (inv.closed cid ht) (fun _ x hx => by cases hx)
  · obtain ⟨c, hc, hid⟩ := (inv.table_iff cid p).mp ht
    have hconv := inv.conv p c hc
    rw [hid] at hconv
    refine key hconv ?_
    intro hdone x hx
    unfold State.holderAt at hx
    rcases hh : c.holder with _ | i
    · rw [hh] at hx; cases hx
    · rw [hh] at hx
      obtain ⟨r, hr, rfl⟩ := Option.map_eq_some_iff.mp hx
      exact hdone r (List.mem_of_getElem? hr)

/-- The answers a host can have read. -/
theorem Inv.visible (inv : Inv s handled refused calls sent)
    (hok : ∀ k ∈ calls, ∀ a, k.answer = some a → a ≠ [] ∧ a.length ≤ 7609) (cid : UInt32) :
    answers (onChannel cid s.out) <+: sentOn cid sent ∧
    (s.responses = none → answers (onChannel cid s.out) = sentOn cid sent) := by
  have hmsgs : ∀ m ∈ sent, Msg.Ok m := by
    intro m hm
    rcases hf : forAuthenticator m.2.1 with _ | _
    · exact inv.good m hm hf
    · have hmem : m.2 ∈ sentOn m.1 sent := by
        unfold sentOn
        exact List.mem_map.mpr ⟨m, List.mem_filter.mpr ⟨hm, by simp [hf]⟩, rfl⟩
      have hres := (inv.channel m.1).2.2.1.subset hmem
      obtain ⟨k, hk, hka⟩ := List.mem_filterMap.mp hres
      obtain ⟨a, ha, he⟩ := Option.map_eq_some_iff.mp hka
      have h1 := hok k (List.mem_filter.mp hk).1 a ha
      have e2 : m.2.2 = a := by rw [← he]
      refine ⟨?_, by rw [e2]; exact h1.1, by rw [e2]; exact h1.2⟩
      rcases Bool.or_eq_true _ _ ▸ hf with h | h
      · rw [beq_iff_eq.mp h]; decide
      · rw [beq_iff_eq.mp h]; decide
  have hall : answers (onChannel cid (s.out ++ s.rest)) = sentOn cid sent := by
    rw [inv.outs]
    unfold answers onChannel
    rw [messages_on cid sent hmsgs]
    unfold sentOn
    rw [List.filter_map, List.filter_filter]
    congr 1
    apply List.filter_congr
    intro m _
    simp [Function.comp, Bool.and_comm]
  refine ⟨?_, ?_⟩
  · rw [← hall]
    unfold onChannel
    rw [List.filter_append]
    exact answers_prefix _ _
  · intro hr
    rw [← hall]
    have : s.rest = [] := by unfold State.rest; rw [hr]
    rw [this, List.append_nil]

end VF.Reports

namespace VF.Live

open Fido Spec.Overlap Spec.Calls Hid Spec.Service

theorem run_snoc (E : Env) (cfg : Client.Config) (grow : Nat → Nat → Nat) (evs : List Event) (e : Event) :
    ∀ s : State, s.run E cfg grow (evs ++ [e]) = (s.run E cfg grow evs).bind fun s' => s'.step E cfg grow e := by
  induction evs with
  | nil =>
    intro s
    simp only [List.nil_append, State.run, Option.bind_some]
    cases s.step E cfg grow e <;> rfl
  | cons x evs ih =>
    intro s
    rw [List.cons_append, State.run, State.run]
    rcases s.step E cfg grow x with _ | s'
    · rfl
    · exact ih s'

/-- After a panic in the HID server nothing happens. -/
theorem step_crashed {E : Env} {cfg : Client.Config} {grow : Nat → Nat → Nat} {s s' : State} {e : Event}
    (h : s.step E cfg grow e = some s') : s.hid.crashed = false ∧ s.proc.alive = true := by
  unfold State.step at h
  split at h
  · rename_i ha
    refine ⟨?_, ha⟩
    rcases hc : s.hid.crashed with _ | _
    · rfl
    · have hn : ∀ ev, s.hid.step grow ev = none := fun ev => by unfold Reports.State.step; rw [hc]; rfl
      cases e <;> dsimp only at h
      · rw [hn] at h; cases h
      · rw [hn] at h; cases h
      · split at h
        · rw [hc] at h; cases h
        · cases h
      · split at h
        · split at h
          · rw [hn] at h; cases h
          · cases h
        · cases h
      · rw [hn] at h; cases h
      · rw [hc] at h; simp at h
  · cases h

theorem goes_other {s : Reports.State} {i j : Nat} (h : i ≠ j) (ph : Reports.Phase) :
    (s.goes j ph).routines[i]? = s.routines[i]? := by
  show (s.routines.modify j _)[i]? = _
  rw [List.getElem?_modify]
  simp [Ne.symm h]

theorem keeping_other {s : Reports.State} {i j : Nat} (h : i ≠ j) (c : UInt32) :
    (s.keeping j c).routines[i]? = s.routines[i]? := by
  show (s.routines.modify j _)[i]? = _
  rw [List.getElem?_modify]
  simp [Ne.symm h]

theorem leave_other {s : Reports.State} {i j : Nat} (h : i ≠ j) (q : Option Nat) :
    (s.leave j q).routines[i]? = s.routines[i]? := by
  cases q <;> exact goes_other h _

theorem broadcast_other {s : Reports.State} {i j : Nat} (h : i ≠ j) (p : Nat) (header : Header) (payload : Slice) :
    (s.broadcast j p header payload).routines[i]? = s.routines[i]? := by
  unfold Reports.State.broadcast
  split
  · split
    · rfl
    · exact goes_other (s := s.alloc) h _
  · split
    · exact goes_other h _
    · rfl

theorem data_other {s : Reports.State} {i j : Nat} (h : i ≠ j) (p ticket : Nat) (cid : UInt32) (header : Header)
    (payload : Slice) : (s.data j p ticket cid header payload).routines[i]? = s.routines[i]? := by
  unfold Reports.State.data
  split
  · exact goes_other h _
  · split
    · exact (goes_other (s := s.keeping j cid) h _).trans (keeping_other h _)
    · split
      · exact goes_other h _
      · rfl

theorem handle_other {s : Reports.State} {i j : Nat} (h : i ≠ j) (grow : Nat → Nat → Nat) (p ticket : Nat)
    (c : Reports.Chan) (report : Bytes) : (s.handle grow j p ticket c report).routines[i]? = s.routines[i]? := by
  unfold Reports.State.handle
  split
  · rfl
  · rename_i t _
    split
    · split
      · exact goes_other (s := s.setTx p (some t)) h _
      · split
        · exact leave_other (s := s.setTx p (some t)) h _
        · split
          · rfl
          · split
            · exact broadcast_other (s := s.setTx p (some t)) h _ _ _
            · exact data_other (s := s.setTx p (some t)) h _ _ _ _ _
    · exact goes_other (s := (s.setTx p (some t)).setHolder p none) h _

/-- A goroutine changes no other. -/
theorem turn_other {grow : Nat → Nat → Nat} {s s' : Reports.State} {i j ticket : Nat} {r : Reports.Routine}
    (hij : i ≠ j) (h : s.turn grow j ticket r = some s') : s'.routines[i]? = s.routines[i]? := by
  unfold Reports.State.turn at h
  split at h
  · split at h
    · cases h; rfl
    · split at h <;> cases h <;> exact goes_other hij _
  · rename_i p _
    split at h
    · cases h
    · split at h
      · cases h; exact goes_other (s := s.setHolder p (some j)) hij _
      · cases h
  · split at h
    · cases h
    · cases h; exact handle_other hij grow _ _ _ _
  · cases h
  · split at h
    · cases h; exact goes_other (s := { s with responses := some j }) hij _
    · cases h
  · rename_i p x xs hp
    cases h; exact goes_other (s := { s with out := s.out ++ [x] }) hij _
  · cases h; exact leave_other (s := { s with responses := none }) hij _
  · cases h

/-- A goroutine waits for the authenticator until it has its answer. -/
theorem calling_stays {E : Env} {cfg : Client.Config} {grow : Nat → Nat → Nat} {s s' : State} {e : Event}
    (h : s.step E cfg grow e = some s') {i p k : Nat} {cid : UInt32} {cmd : UInt8} {payload : Bytes}
    {r : Reports.Routine} (hi : s.hid.routines[i]? = some r) (hp : r.phase = .calling p k cid cmd payload)
    (he : e ≠ .return i) : s'.hid.routines[i]? = some r := by
  obtain ⟨hc0, ha0⟩ := step_crashed h
  have hl := (List.getElem?_eq_some_iff.mp hi).1
  unfold State.step at h
  rw [if_pos ha0] at h
  cases e with
  | report m =>
    obtain ⟨h', hst, rfl⟩ := Option.map_eq_some_iff.mp h
    unfold Reports.State.step at hst
    rw [if_neg (by rw [hc0]; decide)] at hst
    cases hst
    show (s.hid.routines ++ _)[i]? = _
    rw [List.getElem?_append_left hl, hi]
  | step j =>
    obtain ⟨h', hst, rfl⟩ := Option.map_eq_some_iff.mp h
    have hhid : (({ s with hid := h' } : State).enter E cfg j).hid = h' := by
      unfold State.enter; split <;> rfl
    rw [hhid]
    unfold Reports.State.step at hst
    rw [if_neg (by rw [hc0]; decide)] at hst
    dsimp only at hst
    rcases hr : s.hid.routines[j]? with _ | r'
    · rw [hr] at hst; cases hst
    · rw [hr] at hst
      dsimp only at hst
      by_cases hij : i = j
      · subst hij
        rw [hi] at hr
        cases hr
        unfold Reports.State.turn at hst
        rw [hp] at hst
        cases hst
      · rw [turn_other hij hst, hi]
  | work k =>
    dsimp only at h
    split at h
    · split at h
      · cases h
      · cases h; exact hi
    · cases h
  | «return» j =>
    have hij : i ≠ j := fun e => he (by rw [e])
    dsimp only at h
    split at h
    · split at h
      · obtain ⟨h', hst, rfl⟩ := Option.map_eq_some_iff.mp h
        unfold Reports.State.step at hst
        rw [if_neg (by rw [hc0]; decide)] at hst
        dsimp only at hst
        split at hst
        · cases hst; exact (goes_other hij _).trans hi
        · cases hst
      · cases h
    · cases h
  | keepalive j =>
    obtain ⟨h', hst, rfl⟩ := Option.map_eq_some_iff.mp h
    unfold Reports.State.step at hst
    rw [if_neg (by rw [hc0]; decide)] at hst
    dsimp only at hst
    split at hst
    · split at hst
      · cases hst; exact hi
      · cases hst
    · cases hst
  | api op =>
    dsimp only at h
    split at h
    · cases h; exact hi
    · cases h

theorem leave_out (s : Reports.State) (i : Nat) (q : Option Nat) : (s.leave i q).out = s.out := by
  cases q <;> rfl

theorem broadcast_out (s : Reports.State) (i p : Nat) (header : Header) (payload : Slice) :
    (s.broadcast i p header payload).out = s.out := by
  unfold Reports.State.broadcast
  split
  · split <;> rfl
  · split <;> rfl

theorem data_out (s : Reports.State) (i p ticket : Nat) (cid : UInt32) (header : Header) (payload : Slice) :
    (s.data i p ticket cid header payload).out = s.out := by
  unfold Reports.State.data
  split
  · rfl
  · split
    · rfl
    · split <;> rfl

theorem handle_out (grow : Nat → Nat → Nat) (s : Reports.State) (i p ticket : Nat) (c : Reports.Chan) (report : Bytes) :
    (s.handle grow i p ticket c report).out = s.out := by
  unfold Reports.State.handle
  split
  · rfl
  · split
    · split
      · rfl
      · split
        · rw [leave_out]; rfl
        · split
          · rfl
          · split
            · rw [broadcast_out]; rfl
            · rw [data_out]; rfl
    · rfl

/-- Only a goroutine that is sending changes what was sent. -/
theorem turn_out {grow : Nat → Nat → Nat} {s s' : Reports.State} {i ticket : Nat} {r : Reports.Routine}
    (hr : s.routines[i]? = some r) (h : s.turn grow i ticket r = some s') :
    s'.out = s.out ∨ (s'.crashed = s.crashed ∧ ∃ r' p xs, s'.routines[i]? = some r' ∧ r'.phase = .writing p xs) := by
  unfold Reports.State.turn at h
  split at h
  · split at h
    · cases h; exact .inl rfl
    · split at h
      · cases h; exact .inl rfl
      · cases h; exact .inl rfl
  · split at h
    · cases h
    · split at h
      · cases h; exact .inl rfl
      · cases h
  · split at h
    · cases h
    · cases h; exact .inl (handle_out ..)
  · cases h
  · split at h
    · cases h; exact .inl rfl
    · cases h
  · rename_i p x xs hp
    cases h
    refine .inr ⟨rfl, { r with phase := .writing p xs }, p, xs, ?_, rfl⟩
    show (s.routines.modify i _)[i]? = _
    rw [List.getElem?_modify, hr]
    simp
  · cases h; exact .inl (leave_out ..)
  · cases h

/-- A panic sends nothing. -/
theorem panic_out {E : Env} {cfg : Client.Config} {grow : Nat → Nat → Nat} {s s' : State} {e : Event}
    (h : s.step E cfg grow e = some s') (hp : s'.hid.crashed = true ∨ s'.proc.alive = false) :
    s'.hid.out = s.hid.out := by
  obtain ⟨hc0, ha0⟩ := step_crashed h
  unfold State.step at h
  rw [if_pos ha0] at h
  cases e with
  | report m =>
    obtain ⟨h', hst, rfl⟩ := Option.map_eq_some_iff.mp h
    unfold Reports.State.step at hst
    rw [if_neg (by rw [hc0]; decide)] at hst
    cases hst
    rfl
  | step i =>
    obtain ⟨h', hst, rfl⟩ := Option.map_eq_some_iff.mp h
    have hhid : (({ s with hid := h' } : State).enter E cfg i).hid = h' := by
      unfold State.enter; split <;> rfl
    rw [hhid] at hp ⊢
    unfold Reports.State.step at hst
    rw [if_neg (by rw [hc0]; decide)] at hst
    dsimp only at hst
    rcases hr : s.hid.routines[i]? with _ | r
    · rw [hr] at hst; cases hst
    · rw [hr] at hst
      rcases turn_out hr hst with h1 | ⟨h1, r', p, xs, h2, h3⟩
      · exact h1
      · exfalso
        rcases hp with hp | hp
        · rw [h1, hc0] at hp; cases hp
        · have : ({ s with hid := h' } : State).enter E cfg i = { s with hid := h' } := by
            obtain ⟨rep, ph, kal⟩ := r'
            dsimp only at h3
            subst h3
            unfold State.enter
            dsimp only
            rw [h2]
          rw [this] at hp
          dsimp only at hp
          rw [ha0] at hp; cases hp
  | work k =>
    dsimp only at h
    split at h
    · split at h
      · cases h
      · cases h; rfl
    · cases h
  | «return» i =>
    dsimp only at h
    split at h
    · split at h
      · obtain ⟨h', hst, rfl⟩ := Option.map_eq_some_iff.mp h
        unfold Reports.State.step at hst
        rw [if_neg (by rw [hc0]; decide)] at hst
        dsimp only at hst
        split at hst
        · cases hst; rfl
        · cases hst
      · cases h
    · cases h
  | keepalive i =>
    obtain ⟨h', hst, rfl⟩ := Option.map_eq_some_iff.mp h
    exfalso
    unfold Reports.State.step at hst
    rw [if_neg (by rw [hc0]; decide)] at hst
    dsimp only at hst hp
    rcases hp with hp | hp
    · split at hst
      · split at hst
        · cases hst
          dsimp only at hp
          rw [hc0] at hp; cases hp
        · cases hst
      · cases hst
    · rw [ha0] at hp; cases hp
  | api op =>
    dsimp only at h
    split at h
    · cases h; rfl
    · cases h

theorem tied_start (E : Env) (cfg : Client.Config) (p0 : Overlap.Process) : Tied E cfg p0 (State.start p0) [] [] [] where
  run := rfl
  noRestart := by simp
  thread := by simp
  more := Nat.le_refl _
  numbers := by simp
  reportsNodup := by simp
  taken := by simp
  arrived := rfl
  origin := by simp

theorem table_stays {grow : Nat → Nat → Nat} {s s' : Reports.State} {e : Reports.Event} (h : s.step grow e = some s')
    {cid : UInt32} (ht : s.table cid ≠ none) : s'.table cid ≠ none := by
  have hal : ∀ s : Reports.State, s.table cid ≠ none → s.alloc.table cid ≠ none := by
    intro s ht
    show (if cid = s.maxChannelID + 1 then some s.chans.length else s.table cid) ≠ none
    split
    · simp
    · exact ht
  unfold Reports.State.step at h
  split at h
  · cases h
  cases e with
  | arrive m => cases h; exact ht
  | keepalive i =>
    dsimp only at h
    split at h
    · split at h
      · cases h; exact ht
      · cases h
    · cases h
  | answer i a =>
    dsimp only at h
    split at h
    · split at h <;> (cases h; exact ht)
    · cases h
  | turn i ticket =>
    dsimp only at h
    split at h
    · cases h
    · unfold Reports.State.turn at h
      split at h
      · split at h
        · cases h; exact ht
        · split at h <;> (cases h; exact ht)
      · split at h
        · cases h
        · split at h
          · cases h; exact ht
          · cases h
      · split at h
        · cases h
        · cases h
          unfold Reports.State.handle
          split
          · exact ht
          · split
            · split
              · exact ht
              · split
                · exact ht
                · split
                  · exact ht
                  · split
                    · unfold Reports.State.broadcast
                      split
                      · split
                        · exact hal _ ht
                        · exact hal _ ht
                      · split <;> exact ht
                    · unfold Reports.State.data
                      split
                      · exact ht
                      · split
                        · exact ht
                        · split <;> exact ht
            · exact ht
      · cases h
      · split at h
        · cases h; exact ht
        · cases h
      · cases h; exact ht
      · cases h
        rename_i q _
        cases q <;> exact ht
      · cases h

theorem table_keeps {E : Env} {cfg : Client.Config} {grow : Nat → Nat → Nat} {s s' : State} {e : Event}
    (h : s.step E cfg grow e = some s') {cid : UInt32} (ht : s.hid.table cid ≠ none) : s'.hid.table cid ≠ none := by
  unfold State.step at h
  split at h
  · cases e <;> dsimp only at h
    · obtain ⟨h1, hst, rfl⟩ := Option.map_eq_some_iff.mp h
      exact table_stays hst ht
    · obtain ⟨h1, hst, rfl⟩ := Option.map_eq_some_iff.mp h
      have : ∀ i, (({ s with hid := h1 } : State).enter E cfg i).hid = h1 := by
        intro i; unfold State.enter; split <;> rfl
      rw [this]
      exact table_stays hst ht
    · split at h
      · split at h
        · cases h
        · cases h; exact ht
      · cases h
    · split at h
      · split at h
        · obtain ⟨h1, hst, rfl⟩ := Option.map_eq_some_iff.mp h
          exact table_stays hst ht
        · cases h
      · cases h
    · obtain ⟨h1, hst, rfl⟩ := Option.map_eq_some_iff.mp h
      exact table_stays hst ht
    · split at h
      · cases h; exact ht
      · cases h
  · cases h

theorem run_append (E : Env) (cfg : Client.Config) (grow : Nat → Nat → Nat) (a b : List Event) :
    ∀ s : State, s.run E cfg grow (a ++ b) = (s.run E cfg grow a).bind fun s' => s'.run E cfg grow b := by
  induction a with
  | nil => intro s; rfl
  | cons x a ih =>
    intro s
    rw [List.cons_append, State.run, State.run]
    rcases s.step E cfg grow x with _ | s'
    · rfl
    · exact ih s'

theorem table_run {E : Env} {cfg : Client.Config} {grow : Nat → Nat → Nat} (evs : List Event) {cid : UInt32} :
    ∀ {s s' : State}, s.run E cfg grow evs = some s' → s.hid.table cid ≠ none → s'.hid.table cid ≠ none := by
  induction evs with
  | nil => intro s s' h ht; cases h; exact ht
  | cons e evs ih =>
    intro s s' h ht
    obtain ⟨s1, h1, h2⟩ := Option.bind_eq_some_iff.mp h
    exact ih h2 (table_keeps h1 ht)

/-- A channel that was open before any report came in on it refuses none. -/
def Welcome (E : Env) (cfg : Client.Config) (grow : Nat → Nat → Nat) (p0 : Overlap.Process) (evs : List Event)
    (refused : List Bytes) : Prop :=
  ∀ evs1 evs2 s1 cid, evs = evs1 ++ evs2 → (State.start p0).run E cfg grow evs1 = some s1 → s1.hid.table cid ≠ none →
    (∀ m ∈ evs1.filterMap reportOf, Spec.Ctaphid.channelOf m ≠ some cid) →
    ∀ m ∈ refused, Spec.Ctaphid.channelOf m ≠ some cid

/-- Goroutines go on, whatever happens. -/
theorem grown_step {E : Env} {cfg : Client.Config} {grow : Nat → Nat → Nat} {s s' : State} {e : Event}
    (h : s.step E cfg grow e = some s') :
    Reports.Grown s.hid.routines s'.hid.routines (reportOf e).toList := by
  have same : Reports.Grown s.hid.routines s.hid.routines [] := ⟨by simp, fun j r h1 h2 => ⟨r, h1, h2⟩⟩
  have key : ∀ {ev : Reports.Event} {h : Reports.State}, s.hid.step grow ev = some h →
      Reports.Grown s.hid.routines h.routines (Reports.arrival ev).toList := fun hst =>
    ⟨(Reports.step_mono grow hst).1, (Reports.step_mono grow hst).2⟩
  unfold State.step at h
  split at h
  · cases e <;> dsimp only at h
    · obtain ⟨h1, hst, rfl⟩ := Option.map_eq_some_iff.mp h
      exact key hst
    · obtain ⟨h1, hst, rfl⟩ := Option.map_eq_some_iff.mp h
      have : ∀ i, (({ s with hid := h1 } : State).enter E cfg i).hid = h1 := by
        intro i; unfold State.enter; split <;> rfl
      rw [this]
      exact key hst
    · split at h
      · split at h
        · cases h
        · cases h; exact same
      · cases h
    · split at h
      · split at h
        · obtain ⟨h1, hst, rfl⟩ := Option.map_eq_some_iff.mp h
          exact key hst
        · cases h
      · cases h
    · obtain ⟨h1, hst, rfl⟩ := Option.map_eq_some_iff.mp h
      exact key hst
    · split at h
      · cases h; exact same
      · cases h
  · cases h

/-- Every report on the channel came in when those before it on the channel had been dealt with. -/
def InTurn (E : Env) (cfg : Client.Config) (grow : Nat → Nat → Nat) (p0 : Overlap.Process) (evs : List Event)
    (cid : UInt32) : Prop :=
  ∀ evs1 evs2 s1 m, evs = evs1 ++ .report m :: evs2 → (State.start p0).run E cfg grow evs1 = some s1 →
    Spec.Ctaphid.channelOf m = some cid →
    ∀ r ∈ s1.hid.routines, Spec.Ctaphid.channelOf r.report = some cid → r.phase.taken = true

/-- Then they were dealt with in this order. -/
def InOrder (E : Env) (cfg : Client.Config) (grow : Nat → Nat → Nat) (p0 : Overlap.Process) (evs : List Event)
    (handled refused : List Bytes) : Prop :=
  ∀ cid, InTurn E cfg grow p0 evs cid → (Hid.proj cid handled).Sublist (Hid.proj cid (evs.filterMap reportOf)) ∧
    (Hid.proj cid refused).Sublist (Hid.proj cid (evs.filterMap reportOf))

/-- Every report came in when all those before it had been dealt with. -/
def AllInTurn (E : Env) (cfg : Client.Config) (grow : Nat → Nat → Nat) (p0 : Overlap.Process) (evs : List Event) : Prop :=
  ∀ evs1 evs2 s1 m, evs = evs1 ++ .report m :: evs2 → (State.start p0).run E cfg grow evs1 = some s1 →
    ∀ r ∈ s1.hid.routines, r.phase.taken = true

/-- Then the requests were given in this order. -/
def Ranked (E : Env) (cfg : Client.Config) (grow : Nat → Nat → Nat) (p0 : Overlap.Process) (evs : List Event)
    (calls : List Call) : Prop :=
  AllInTurn E cfg grow p0 evs → (calls.map (·.report)).Pairwise (· < ·)

/-- Only the last report may still have to be dealt with. -/
def LastOnly (l : List Reports.Routine) : Prop :=
  ∀ (i : Nat) (r : Reports.Routine), l[i]? = some r → r.phase.taken = false → i + 1 = l.length

theorem lastOnly_step {l l' : List Reports.Routine} {more : List Bytes} (g : Reports.Grown l l' more) (h : LastOnly l)
    (h1 : more.length ≤ 1) (h2 : more ≠ [] → ∀ r ∈ l, r.phase.taken = true) : LastOnly l' := by
  intro i r hi ht
  have hl : l'.length = l.length + more.length := by
    have := congrArg List.length g.reports
    simpa using this
  have hi' := (List.getElem?_eq_some_iff.mp hi).1
  by_cases hk : i < l.length
  · have hr := List.getElem?_eq_getElem hk
    rcases htk : l[i].phase.taken with _ | _
    · have := h i _ hr htk
      rcases more with _ | ⟨m, ms⟩
      · simp at hl; omega
      · have := h2 (by simp) _ (List.mem_of_getElem? hr)
        rw [htk] at this; cases this
    · obtain ⟨r', h3, h4⟩ := g.taken i _ hr htk
      rw [hi] at h3
      cases h3
      rw [ht] at h4; cases h4
  · omega

theorem ranked_step {s : Reports.State} {calls calls' : List Call} (hl : LastOnly s.routines)
    (hr : (calls.map (·.report)).Pairwise (· < ·)) (ht : ∀ k ∈ calls, ∃ r, s.routines[k.report]? = some r ∧ r.phase.taken = true)
    (ha : Added s calls calls') : (calls'.map (·.report)).Pairwise (· < ·) := by
  rcases ha with ha | ⟨i, r, h1, h2, ha⟩ <;> rw [ha]
  · exact hr
  · rw [List.pairwise_append]
    refine ⟨hr, by simp, ?_⟩
    intro a ham b hb
    simp at hb
    subst hb
    obtain ⟨k, hk, rfl⟩ := List.mem_map.mp ham
    obtain ⟨r2, h3, h4⟩ := ht k hk
    have h5 := (List.getElem?_eq_some_iff.mp h3).1
    have h6 := hl _ r h1 h2
    have : k.report ≠ b := by
      intro heq
      rw [heq, h1] at h3
      cases h3
      rw [h2] at h4; cases h4
    omega

/-- Whatever happened, all this holds. -/
theorem live_run {E : Env} {cfg : Client.Config} {grow : Nat → Nat → Nat} {p0 : Overlap.Process} (evs : List Event) :
    ∀ {s : State}, (State.start p0).run E cfg grow evs = some s → s.hid.crashed = false →
    (∀ m ∈ evs.filterMap reportOf, m.length ≤ 64) → (evs.filterMap reportOf).length < 4294967295 →
    ∃ handled refused calls sent oevs, Reports.Inv s.hid handled refused calls sent ∧
      Tied E cfg p0 s calls (evs.filterMap reportOf) oevs ∧ Welcome E cfg grow p0 evs refused ∧
      InOrder E cfg grow p0 evs handled refused ∧ Only p0 s.proc calls ∧ Ranked E cfg grow p0 evs calls := by
  suffices key : ∀ {s : State}, (State.start p0).run E cfg grow evs = some s → s.hid.crashed = false →
      (∀ m ∈ evs.filterMap reportOf, m.length ≤ 64) → (evs.filterMap reportOf).length < 4294967295 →
      ∃ handled refused calls sent oevs, Reports.Inv s.hid handled refused calls sent ∧
        Tied E cfg p0 s calls (evs.filterMap reportOf) oevs ∧ Welcome E cfg grow p0 evs refused ∧
        (∀ cid, InTurn E cfg grow p0 evs cid → Reports.Sorted cid s.hid.routines ∧
          (Hid.proj cid handled).Sublist (Reports.past cid s.hid.routines) ∧
          (Hid.proj cid refused).Sublist (Reports.past cid s.hid.routines)) ∧ Only p0 s.proc calls ∧
        (AllInTurn E cfg grow p0 evs → LastOnly s.hid.routines ∧ (calls.map (·.report)).Pairwise (· < ·)) by
    intro s hs hc h64 hcount
    obtain ⟨handled, refused, calls, sent, oevs, inv, tied, wel, ord, only, rank⟩ := key hs hc h64 hcount
    refine ⟨handled, refused, calls, sent, oevs, inv, tied, wel, ?_, only, fun h => (rank h).2⟩
    intro cid hcid
    obtain ⟨-, h1, h2⟩ := ord cid hcid
    have := Reports.past_proj cid s.hid.routines
    rw [tied.arrived] at this
    exact ⟨h1.trans this, h2.trans this⟩
  induction evs using Props.snoc_induction with
  | h0 =>
    intro s hs _ _ _
    cases hs
    exact ⟨[], [], [], [], [], Reports.inv_new, tied_start E cfg p0, fun _ _ _ _ _ _ _ _ m hm => (by cases hm),
      fun cid _ => ⟨fun i j r r2 _ hi => (by cases hi), List.nil_sublist _, List.nil_sublist _⟩,
      (fun k t h1 h2 => by
        have h2 : p0.threads[k]? = some t := h2
        rw [List.getElem?_eq_none h1] at h2; cases h2),
      fun _ => ⟨fun i r hi => (by cases hi), .nil⟩⟩
  | h1 evs e ih =>
    intro s hs hc h64 hcount
    rw [run_snoc] at hs
    obtain ⟨s1, h1, h2⟩ := Option.bind_eq_some_iff.mp hs
    rw [List.filterMap_append, List.length_append] at hcount
    rw [List.filterMap_append] at h64
    obtain ⟨handled, refused, calls, sent, oevs, inv, tied, wel, ord, only, rank⟩ := ih h1 (step_crashed h2).1
      (fun m hm => h64 m (by simp [hm])) (by omega)
    rw [List.filterMap_append]
    have he : List.filterMap reportOf [e] = (reportOf e).toList := by
      rcases h : reportOf e with _ | m <;> simp [h]
    rw [he] at hcount h64 ⊢
    obtain ⟨handled', refused', calls', sent', oevs', inv', hre, tied', honly, hadd⟩ := live_step inv tied h2 hc
      (fun m hm => h64 m (by rw [hm]; simp [reportOf])) (by omega)
    have hgrown := grown_step h2
    refine ⟨handled', refused', calls', sent', oevs', inv', tied', ?_, ?_, honly only, ?_⟩
    rotate_left
    rotate_left
    · intro hall
      obtain ⟨o1, o2⟩ := rank (fun evs1 evs2 s1 m heq => hall evs1 (evs2 ++ [e]) s1 m (by rw [heq]; simp))
      refine ⟨lastOnly_step hgrown o1 ?_ ?_, ranked_step o1 o2 tied.taken hadd⟩
      · rcases reportOf e <;> simp
      · intro hm
        rcases he' : e with m | _ | _ | _ | _ | _ <;> rw [he'] at hm <;> try (exact absurd rfl hm)
        exact hall evs [] s1 m (by rw [he']) h1
    rotate_left
    · intro cid hcid
      obtain ⟨o1, o2, o3⟩ := ord cid (fun evs1 evs2 s1 m heq => hcid evs1 (evs2 ++ [e]) s1 m (by rw [heq]; simp))
      refine ⟨Reports.sorted_step hgrown o1 ?_ ?_, Reports.order_step hgrown o1 hre o2 o3⟩
      · rcases reportOf e <;> simp
      · intro m hm
        have he' : e = .report m := by
          cases e with
          | report m' => simp [reportOf] at hm; rw [hm]
          | _ => simp [reportOf] at hm
        exact hcid evs [] s1 m (by rw [he']) h1
    intro evs1 evs2 s1' cid heq hs1 ht hno m hm
    rcases List.eq_nil_or_concat evs2 with rfl | ⟨evs2', e', h⟩
    · rw [List.append_nil] at heq
      have hmem := inv'.taken.mem_iff.mp (List.mem_append_right _ hm)
      obtain ⟨r, hr, rfl⟩ := List.mem_map.mp hmem
      have := tied'.arrived
      refine hno _ ?_
      rw [← heq, List.filterMap_append, he, ← this]
      exact List.mem_map.mpr ⟨r, (List.mem_filter.mp hr).1, rfl⟩
    · rw [List.concat_eq_append] at h
      subst h
      rw [← List.append_assoc] at heq
      obtain ⟨heq1, -⟩ := List.append_inj' heq rfl
      rcases hre.refusal with rfl | ⟨m', cid', rfl, hm', ht'⟩
      · exact wel evs1 evs2' s1' cid heq1 hs1 ht hno m hm
      · rw [List.mem_append, List.mem_singleton] at hm
        rcases hm with hm | rfl
        · exact wel evs1 evs2' s1' cid heq1 hs1 ht hno m hm
        · rw [hm']
          intro hc'
          cases hc'
          have := h1
          rw [heq1, run_append, hs1] at this
          exact table_run evs2' this ht ht'

end VF.Live
