import Verif.Spec.Server
import Verif.Proofs.StackFifo
import Verif.Proofs.Mac
import Verif.Proofs.LiveEnds
import Verif.Props.Log

/-! # Lemmas about the device over USB/IP -/

namespace VF.Live

open Fido

theorem hid_step_out {grow : Nat → Nat → Nat} {s s' : Reports.State} {e : Reports.Event} (h : s.step grow e = some s') :
    ∃ ps, s'.out = s.out ++ ps := by
  unfold Reports.State.step at h
  split at h
  · cases h
  cases e with
  | arrive m => cases h; exact ⟨[], (List.append_nil _).symm⟩
  | turn i ticket =>
    dsimp only at h
    split at h
    · cases h
    · unfold Reports.State.turn at h
      split at h
      · split at h
        · cases h; exact ⟨[], (List.append_nil _).symm⟩
        · split at h
          · cases h; exact ⟨[], (List.append_nil _).symm⟩
          · cases h; exact ⟨[], (List.append_nil _).symm⟩
      · split at h
        · cases h
        · split at h
          · cases h; exact ⟨[], (List.append_nil _).symm⟩
          · cases h
      · split at h
        · cases h
        · cases h; exact ⟨[], by rw [handle_out, List.append_nil]⟩
      · cases h
      · split at h
        · cases h; exact ⟨[], (List.append_nil _).symm⟩
        · cases h
      · rename_i p x xs hp
        cases h
        exact ⟨[x], rfl⟩
      · cases h; exact ⟨[], by rw [leave_out, List.append_nil]⟩
      · cases h
  | answer i a =>
    dsimp only at h
    split at h
    · split at h
      · cases h; exact ⟨[], (List.append_nil _).symm⟩
      · cases h; exact ⟨[], (List.append_nil _).symm⟩
    · cases h
  | keepalive i =>
    dsimp only at h
    split at h
    · split at h
      · cases h; exact ⟨_, rfl⟩
      · cases h
    · cases h

/-- What was sent stays sent. -/
theorem step_out {E : Env} {cfg : Client.Config} {grow : Nat → Nat → Nat} {s s' : State} {e : Event}
    (h : s.step E cfg grow e = some s') : ∃ ps, s'.hid.out = s.hid.out ++ ps := by
  obtain ⟨hc0, ha0⟩ := step_crashed h
  unfold State.step at h
  rw [if_pos ha0] at h
  cases e with
  | report m =>
    obtain ⟨h', hst, rfl⟩ := Option.map_eq_some_iff.mp h
    exact hid_step_out hst
  | step i =>
    obtain ⟨h', hst, rfl⟩ := Option.map_eq_some_iff.mp h
    have hhid : (({ s with hid := h' } : State).enter E cfg i).hid = h' := by
      unfold State.enter; split <;> rfl
    rw [hhid]
    exact hid_step_out hst
  | work k =>
    dsimp only at h
    split at h
    · split at h
      · cases h
      · cases h; exact ⟨[], (List.append_nil _).symm⟩
    · cases h
  | «return» i =>
    dsimp only at h
    split at h
    · split at h
      · obtain ⟨h', hst, rfl⟩ := Option.map_eq_some_iff.mp h
        exact hid_step_out hst
      · cases h
    · cases h
  | keepalive i =>
    obtain ⟨h', hst, rfl⟩ := Option.map_eq_some_iff.mp h
    exact hid_step_out hst
  | api op =>
    dsimp only at h
    split at h
    · cases h; exact ⟨[], (List.append_nil _).symm⟩
    · cases h

end VF.Live

namespace VF.Server

open Fido Spec.Server Spec.UsbIp
open Spec.Stack hiding reportOf
open Stack hiding start step exec command Act
open Live (reportOf)

variable {net : UsbIp.Net} {E : Env} {cfg : Client.Config} {grow : Nat → Nat → Nat} {p0 : Overlap.Process}
  {cmds : List Cmd}

/-- The process behind a connection, and what the client sees of it. -/
structure Inner (net : UsbIp.Net) (E : Env) (cfg : Client.Config) (grow : Nat → Nat → Nat) (p0 : Overlap.Process)
    (cmds : List Cmd) (acts : List Act) (c : Conn) (levs : List Live.Event) : Prop where
  exec : exec net E cfg grow acts (start cmds p0) = some c
  run : (Live.State.start p0).run E cfg grow levs = some c.dev.hid
  wire : ∃ done todo rs, InvOf cmds c c.dev.hid.hid.out done todo rs ∧
    levs.filterMap reportOf = done.filterMap Spec.Stack.reportOf
  delivered : c.dev.usb.delivered = []
  ended : c.dev.crashed = ended c.dev.hid
  origin : ∀ a b l m, levs = a ++ .report m :: b → (Live.State.start p0).run E cfg grow a = some l →
    ∃ acts1 acts2 c1 c2, acts = acts1 ++ .command :: acts2 ∧ Server.exec net E cfg grow acts1 (start cmds p0) = some c1 ∧
      step net E cfg grow .command c1 = some c2 ∧ given c2 = given c1 ++ [m] ∧ c1.dev.hid = l
  api : ∀ op, Live.Event.api op ∈ levs → Act.inside (.api op) ∈ acts

theorem inner_start : Inner net E cfg grow p0 cmds [] (start cmds p0) [] where
  exec := rfl
  run := rfl
  wire := ⟨[], cmds, [], ⟨rfl, rfl, rfl, by simp, Buf.Inv_make,
    (by simp [start, Usb.State.init, Buf.Buffer.make]), (by simp [start, Usb.State.init]), (by simp), (by simp), (by simp),
    (by intro p hp; cases hp), ⟨[], .nil, rfl⟩⟩, rfl⟩
  delivered := rfl
  ended := rfl
  origin := fun a b l m h => by cases a <;> cases h
  api := fun op h => by cases h

theorem exec_append (a b : List Act) : ∀ c : Conn, exec net E cfg grow (a ++ b) c =
    (exec net E cfg grow a c).bind fun c' => exec net E cfg grow b c' := by
  induction a with
  | nil => intro c; rfl
  | cons x a ih =>
    intro c
    show (step net E cfg grow x c).bind (exec net E cfg grow (a ++ b)) = _
    rw [exec]
    rcases step net E cfg grow x c with _ | c'
    · rfl
    · exact ih c'

theorem exec_snoc {acts : List Act} {a : Act} {c0 c c' : Conn} (h : exec net E cfg grow acts c0 = some c)
    (h' : step net E cfg grow a c = some c') : exec net E cfg grow (acts ++ [a]) c0 = some c' := by
  rw [exec_append, h]
  show (step net E cfg grow a c).bind (exec net E cfg grow []) = _
  rw [h']
  rfl

theorem run_started (ms : List Bytes) : ∀ {l : Live.State}, l.hid.crashed = false → l.proc.alive = true →
    l.run E cfg grow (ms.map .report) = some (started l ms) := by
  induction ms with
  | nil => intro l _ _; rfl
  | cons m ms ih =>
    intro l hc ha
    rw [List.map_cons, Live.State.run]
    have : l.step E cfg grow (.report m) = some { l with hid := l.hid.arrive m } := by
      unfold Live.State.step
      rw [if_pos ha]
      dsimp only
      unfold Reports.State.step
      rw [if_neg (by rw [hc]; decide)]
      rfl
    rw [this]
    exact ih (l := { l with hid := l.hid.arrive m }) hc ha

theorem started_out (ms : List Bytes) : ∀ {l : Live.State}, (started l ms).hid.out = l.hid.out := by
  induction ms with
  | nil => intro l; rfl
  | cons m ms ih => intro l; exact ih (l := { l with hid := l.hid.arrive m })

theorem started_ended (ms : List Bytes) : ∀ {l : Live.State}, ended (started l ms) = ended l := by
  induction ms with
  | nil => intro l; rfl
  | cons m ms ih => intro l; exact ih (l := { l with hid := l.hid.arrive m })

theorem filterMap_reports (ms : List Bytes) : (ms.map Live.Event.report).filterMap reportOf = ms := by
  induction ms with
  | nil => rfl
  | cons m ms ih => rw [List.map_cons, List.filterMap_cons, ih]; rfl

/-- An event at the end or one of those before. -/
theorem split_snoc {α : Type} {xs a b : List α} {x y : α} (h : xs ++ [x] = a ++ y :: b) :
    (b = [] ∧ a = xs ∧ y = x) ∨ ∃ b', b = b' ++ [x] ∧ xs = a ++ y :: b' := by
  rcases List.eq_nil_or_concat b with rfl | ⟨b', z, rfl⟩
  · obtain ⟨h1, h2⟩ := List.append_inj' h rfl
    exact .inl ⟨rfl, h1.symm, (List.cons.inj h2).1.symm⟩
  · rw [List.concat_eq_append, ← List.cons_append, ← List.append_assoc] at h
    obtain ⟨h1, h2⟩ := List.append_inj' h rfl
    refine .inr ⟨b', ?_, h1⟩
    rw [List.concat_eq_append, (List.cons.inj h2).1]

theorem origin_old {acts : List Act} {c : Conn} {levs : List Live.Event} (i : Inner net E cfg grow p0 cmds acts c levs)
    (x : Act) {a b : List Live.Event} {l : Live.State} {m : Bytes} (h : levs = a ++ .report m :: b)
    (hr : (Live.State.start p0).run E cfg grow a = some l) :
    ∃ acts1 acts2 c1 c2, acts ++ [x] = acts1 ++ .command :: acts2 ∧
      Server.exec net E cfg grow acts1 (start cmds p0) = some c1 ∧
      step net E cfg grow .command c1 = some c2 ∧ given c2 = given c1 ++ [m] ∧ c1.dev.hid = l := by
  obtain ⟨acts1, acts2, c1, c2, h1, h2⟩ := i.origin a b l m h hr
  exact ⟨acts1, acts2 ++ [x], c1, c2, by rw [h1]; simp, h2⟩

theorem inner_command (hsess : Session cmds) (hf : UsbIp.FullReads net) {acts : List Act} {c c' : Conn}
    {levs : List Live.Event} (i : Inner net E cfg grow p0 cmds acts c levs)
    (h : step net E cfg grow .command c = some c') :
    ∃ more, Inner net E cfg grow p0 cmds (acts ++ [.command]) c' (levs ++ more) := by
  have hstep := h
  unfold step at h
  split at h
  · cases h
  rename_i hcr
  have hend : ended c.dev.hid = false := by rw [← i.ended]; simpa using hcr
  have hce : c.dev.hid.hid.crashed = false ∧ c.dev.hid.proc.alive = true := by
    unfold ended at hend
    simpa using hend
  obtain ⟨done, todo, rs, hinv, hrep⟩ := i.wire
  obtain ⟨done', todo', rs', hinv', -, more, usb, hd, hdev, hdel, hlen⟩ := inv_commandLoop hsess hf hinv
  rw [i.delivered, List.nil_append] at hdel
  have hc' : c' = spawn (UsbIp.try' (Stack.command net) c) := (Option.some.inj h).symm
  have e1 : c'.dev = { c.dev with
      hid := started c.dev.hid (more.filterMap Spec.Stack.reportOf), usb := { usb with delivered := [] } } := by
    rw [hc']
    unfold spawn
    dsimp only
    rw [hdev]
    dsimp only
    rw [hdel]
  have hout : c'.dev.hid.hid.out = c.dev.hid.hid.out := by rw [e1]; exact started_out _
  refine ⟨(more.filterMap Spec.Stack.reportOf).map .report, exec_snoc i.exec hstep, ?_, ?_, ?_, ?_, ?_, ?_⟩
  · rw [Live.run_append, i.run]
    show c.dev.hid.run E cfg grow _ = _
    rw [run_started _ hce.1 hce.2, e1]
  · refine ⟨done', todo', rs', ?_, ?_⟩
    · rw [hout, hc']
      exact ⟨hinv'.split, hinv'.stream, hinv'.out, hinv'.replied, hinv'.buf, hinv'.waiting, hinv'.timers, hinv'.wd,
        hinv'.fate, hinv'.other, hinv'.len, hinv'.data⟩
    · rw [List.filterMap_append, filterMap_reports, hrep, hd, List.filterMap_append]
  · rw [e1]
  · rw [e1]
    show c.dev.crashed = _
    rw [started_ended, i.ended]
  · intro a b l m heq hr
    rcases more with _ | ⟨cmd, more⟩
    · exact origin_old i _ (by simpa using heq) hr
    · obtain rfl : more = [] := by
        cases more with
        | nil => rfl
        | cons => simp at hlen
      rcases hcm : Spec.Stack.reportOf cmd with _ | m'
      · rw [List.filterMap_cons, hcm] at heq
        exact origin_old i _ (by simpa using heq) hr
      · have e2 : [cmd].filterMap Spec.Stack.reportOf = [m'] := by rw [List.filterMap_cons, hcm]; rfl
        rw [e2] at heq e1
        rcases split_snoc heq with ⟨-, rfl, h3⟩ | ⟨b', -, h3⟩
        · cases h3
          rw [i.run] at hr
          refine ⟨acts, [], c, c', rfl, i.exec, hstep, ?_, Option.some.inj hr⟩
          unfold given
          rw [e1]
          show (c.dev.hid.hid.routines ++ [_]).map _ = _
          rw [List.map_append]
          rfl
        · exact origin_old i _ h3 hr
  · intro op hm
    rcases List.mem_append.1 hm with hm | hm
    · exact List.mem_append_left _ (i.api op hm)
    · obtain ⟨_, -, h⟩ := List.mem_map.1 hm
      cases h

theorem reportOf_inside {e : Live.Event} {c c' : Conn} (h : inside E cfg grow e c = some c') : reportOf e = none := by
  cases e <;> first | rfl | cases h

theorem inside_eq {e : Live.Event} {c c' : Conn} (h : inside E cfg grow e c = some c') :
    ∃ l ps, c.dev.hid.step E cfg grow e = some l ∧ l.hid.out = c.dev.hid.hid.out ++ ps ∧
      c' = { c with dev := { c.dev with hid := l, outbox := c.dev.outbox ++ ps, crashed := ended l } } ∧
      (c.dev.outbox ≠ [] → ps = [] ∧ l.hid.responses = c.dev.hid.hid.responses) := by
  unfold inside at h
  split at h
  · cases h
  · split at h
    · cases h
    · rename_i l hl
      obtain ⟨ps, hps⟩ := Live.step_out hl
      split at h
      · cases h
      · rename_i hp
        refine ⟨l, ps, hl, hps, ?_, ?_⟩
        · rw [← Option.some.inj h, hps, List.drop_left]
        · intro hne
          unfold passing at hp
          rw [hps] at hp
          simp at hp
          obtain ⟨h1, h2⟩ := hp hne
          exact ⟨h1, h2⟩

theorem inner_step (hsess : Session cmds) (hf : UsbIp.FullReads net)
    (h64 : ∀ m ∈ cmds.filterMap Spec.Stack.reportOf, m.length ≤ 64)
    (hcount : (cmds.filterMap Spec.Stack.reportOf).length < 4294967295)
    {acts : List Act} {a : Act} {c c' : Conn} {levs : List Live.Event} (i : Inner net E cfg grow p0 cmds acts c levs)
    (h : step net E cfg grow a c = some c') :
    ∃ more, Inner net E cfg grow p0 cmds (acts ++ [a]) c' (levs ++ more) := by
  cases a with
  | command => exact inner_command hsess hf i h
  | inside e =>
    have hstep := h
    unfold step at h
    split at h
    · cases h
    dsimp only at h
    have hno := reportOf_inside h
    obtain ⟨l, ps, hl, hps, rfl, -⟩ := inside_eq h
    obtain ⟨done, todo, rs, hinv, hrep⟩ := i.wire
    have hrun : (Live.State.start p0).run E cfg grow (levs ++ [e]) = some l := by
      rw [Live.run_append, i.run]
      show (c.dev.hid.step E cfg grow e).bind _ = _
      rw [hl]
      rfl
    have hrep' : (levs ++ [e]).filterMap reportOf = done.filterMap Spec.Stack.reportOf := by
      rw [List.filterMap_append, hrep]
      simp [hno]
    refine ⟨[e], exec_snoc i.exec hstep, hrun, ?_, i.delivered, rfl, ?_, ?_⟩
    · obtain ⟨sent, hpad, hsent⟩ := hinv.data
      refine ⟨done, todo, rs, ⟨hinv.split, hinv.stream, hinv.out, hinv.replied, hinv.buf, hinv.waiting, hinv.timers,
        hinv.wd, hinv.fate, hinv.other, ?_, sent, hpad, ?_⟩, hrep'⟩
      · show ∀ p ∈ l.hid.out, p.length = 64
        by_cases hp : l.hid.crashed = true ∨ l.proc.alive = false
        · rw [Live.panic_out hl hp]
          exact hinv.len
        · have hsub : ∀ m ∈ (levs ++ [e]).filterMap reportOf, m ∈ cmds.filterMap Spec.Stack.reportOf := by
            intro m hm
            rw [hrep'] at hm
            rw [hinv.split, List.filterMap_append]
            exact List.mem_append_left _ hm
          obtain ⟨_, _, _, _, _, inv, -⟩ := Live.live_run (levs ++ [e]) hrun (by
              rcases hq : l.hid.crashed with _ | _
              · rfl
              · exact absurd (.inl hq) hp)
            (fun m hm => h64 m (hsub m hm)) (by
              rw [hrep']
              rw [hinv.split, List.filterMap_append, List.length_append] at hcount
              omega)
          exact Mac.packet_length inv
      · show l.hid.out = sent ++ c.dev.usb.buf.responses ++ (c.dev.outbox ++ ps)
        rw [hps, hsent]
        simp
    · intro a b l' m heq hr
      rcases split_snoc heq with ⟨-, -, rfl⟩ | ⟨b', -, h3⟩
      · cases hno
      · exact origin_old i _ h3 hr
    · intro op hm
      rcases List.mem_append.1 hm with hm | hm
      · exact List.mem_append_left _ (i.api op hm)
      · rw [List.mem_singleton.1 hm]
        exact List.mem_append_right _ (List.mem_singleton.2 rfl)
  | send choice =>
    have hstep := h
    unfold step at h
    split at h
    · cases h
    dsimp only at h
    obtain ⟨done, todo, rs, hinv, hrep⟩ := i.wire
    obtain ⟨rs', hinv', -⟩ := inv_send hsess hinv h
    have hh := send_hid h
    refine ⟨[], exec_snoc i.exec hstep, by rw [hh, List.append_nil]; exact i.run,
      ⟨done, todo, rs', by rw [hh]; exact hinv', by rw [List.append_nil]; exact hrep⟩, ?_, ?_, ?_,
      fun op hm => List.mem_append_left _ (i.api op (by simpa using hm))⟩
    · unfold Stack.send at h
      split at h
      · cases h
      · cases h; exact i.delivered
    · rw [hh, ← i.ended]
      unfold Stack.send at h
      split at h
      · cases h
      · cases h; rfl
    · intro a b l' m heq hr
      exact origin_old i _ (by simpa using heq) hr
  | timeout k =>
    have hstep := h
    unfold step at h
    split at h
    · cases h
    dsimp only at h
    obtain ⟨done, todo, rs, hinv, hrep⟩ := i.wire
    obtain ⟨rs', hinv', -⟩ := inv_timeout hsess hinv h
    have hh := timeout_hid h
    refine ⟨[], exec_snoc i.exec hstep, by rw [hh, List.append_nil]; exact i.run,
      ⟨done, todo, rs', by rw [hh]; exact hinv', by rw [List.append_nil]; exact hrep⟩, ?_, ?_, ?_,
      fun op hm => List.mem_append_left _ (i.api op (by simpa using hm))⟩
    · unfold Stack.timeout at h
      split at h
      · cases h
      · rename_i usb k' hu
        cases h
        show usb.delivered = []
        unfold Usb.timeout at hu
        split at hu
        · cases hu
        · cases hu; exact i.delivered
    · rw [hh, ← i.ended]
      unfold Stack.timeout at h
      split at h
      · cases h
      · cases h; rfl
    · intro a b l' m heq hr
      exact origin_old i _ (by simpa using heq) hr

/-- After a first part of the schedule, the process had done a first part of its steps. -/
def Prefixes (net : UsbIp.Net) (E : Env) (cfg : Client.Config) (grow : Nat → Nat → Nat) (p0 : Overlap.Process)
    (cmds : List Cmd) (acts : List Act) (levs : List Live.Event) : Prop :=
  ∀ acts1 acts2 c1, acts = acts1 ++ acts2 → exec net E cfg grow acts1 (start cmds p0) = some c1 →
    ∃ levs1 levs2, levs = levs1 ++ levs2 ∧ (Live.State.start p0).run E cfg grow levs1 = some c1.dev.hid

theorem inner (hsess : Session cmds) (hf : UsbIp.FullReads net)
    (h64 : ∀ m ∈ cmds.filterMap Spec.Stack.reportOf, m.length ≤ 64)
    (hcount : (cmds.filterMap Spec.Stack.reportOf).length < 4294967295)
    (acts : List Act) : ∀ {c : Conn}, exec net E cfg grow acts (start cmds p0) = some c →
    ∃ levs, Inner net E cfg grow p0 cmds acts c levs ∧ Prefixes net E cfg grow p0 cmds acts levs := by
  induction acts using Props.snoc_induction with
  | h0 =>
    intro c h
    cases h
    refine ⟨[], inner_start, ?_⟩
    intro acts1 acts2 c1 heq h1
    obtain ⟨rfl, rfl⟩ := List.append_eq_nil_iff.mp heq.symm
    cases h1
    exact ⟨[], [], rfl, rfl⟩
  | h1 acts a ih =>
    intro c h
    have hex := h
    rw [exec_append] at h
    obtain ⟨c1, h1, h2⟩ := Option.bind_eq_some_iff.mp h
    obtain ⟨c2, h3, h4⟩ := Option.bind_eq_some_iff.mp h2
    cases h4
    obtain ⟨levs, i, hp⟩ := ih h1
    obtain ⟨more, i'⟩ := inner_step hsess hf h64 hcount i h3
    refine ⟨_, i', ?_⟩
    intro acts1 acts2 c1' heq h1'
    rcases List.eq_nil_or_concat acts2 with rfl | ⟨acts2', z, rfl⟩
    · rw [List.append_nil] at heq
      subst heq
      rw [hex] at h1'
      cases h1'
      exact ⟨_, [], (List.append_nil _).symm, i'.run⟩
    · rw [List.concat_eq_append, ← List.append_assoc] at heq
      obtain ⟨h5, -⟩ := List.append_inj' heq rfl
      obtain ⟨levs1, levs2, rfl, h6⟩ := hp acts1 acts2' c1' h5 h1'
      exact ⟨levs1, levs2 ++ more, List.append_assoc _ _ _, h6⟩

end VF.Server
