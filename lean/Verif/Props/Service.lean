import Verif.Model.Whole
import Verif.Props.Stack
import Verif.Proofs.ServiceRun
import Verif.Props.History

/-!
# Property C86: the authenticator as seen over USB/IP

The whole program: a USB/IP client on one side, the authenticator with its saved data on the other.
-/

namespace VF

open Stack Spec.UsbIp Spec.Stack Spec.Ctaphid Spec.Service Fido

/-- A request to the authenticator: channel, command (CTAP2 or U2F), message. -/
abbrev Request := UInt32 × UInt8 × Bytes

/-- The operation it is. -/
def Request.op (r : Request) : Op := if r.2.1 = 0x90 then .ctap r.2.2 else .u2f r.2.2

/-- Requests with their answers, as messages: same channel, same command, the bytes answered. -/
def answered (rs : List Request) (replies : List Fido.Reply) : List Request :=
  (rs.zip replies).filterMap fun x =>
    match x.2 with
    | .answer b => some (x.1.1, x.1.2.1, b)
    | _ => none

theorem run_dead (E : Env) (cfg : Client.Config) (w : World) (rs : List Request) :
    answered rs (Device.run E cfg ⟨w, false⟩ (rs.map Request.op)).1 = [] ∧
      (Device.run E cfg ⟨w, false⟩ (rs.map Request.op)).2 = ⟨w, false⟩ := by
  have hop : ∀ r : Request, Device.step E cfg ⟨w, false⟩ r.op = (.nothing, ⟨w, false⟩) := by
    intro r
    unfold Request.op
    split <;> rfl
  induction rs with
  | nil => exact ⟨rfl, rfl⟩
  | cons r rs ih =>
    simp only [List.map_cons, Device.run, hop]
    obtain ⟨h1, h2⟩ := ih
    refine ⟨?_, h2⟩
    simpa [answered] using h1

theorem run_serve (E : Env) (cfg : Client.Config) (rs : List Request) (w : World) :
    answered rs (Device.run E cfg ⟨w, true⟩ (rs.map Request.op)).1 =
        (Hid.serve (Whole.authenticator E) rs w).1 ∧
      (Device.run E cfg ⟨w, true⟩ (rs.map Request.op)).2 =
        ⟨(Hid.serve (Whole.authenticator E) rs w).2.1, (Hid.serve (Whole.authenticator E) rs w).2.2⟩ := by
  induction rs generalizing w with
  | nil => exact ⟨rfl, rfl⟩
  | cons r rs ih =>
    obtain ⟨cid, cmd, p⟩ := r
    have hstep : Device.step E cfg ⟨w, true⟩ (Request.op (cid, cmd, p)) =
        match (Whole.authenticator E).ask cmd p w with
        | (.ok b, w') => (.answer b, ⟨w', true⟩)
        | (.panic _, w') => (.panicked, ⟨w', false⟩) := by
      unfold Request.op Hid.Upper.ask
      dsimp only
      by_cases hc : cmd = 0x90
      · rw [if_pos hc, if_pos hc]
        simp only [Device.step, Device.perform, if_true, Whole.authenticator, Go.run_bind]
        rcases Ctap.handleMessage E p w with ⟨x | x, w'⟩ <;> rfl
      · rw [if_neg hc, if_neg hc]
        simp only [Device.step, Device.perform, if_true, Whole.authenticator, Go.run_bind]
        rcases U2f.handleMessage E p w with ⟨x | x, w'⟩ <;> rfl
    simp only [List.map_cons, Device.run, hstep, Hid.serve]
    rcases (Whole.authenticator E).ask cmd p w with ⟨x | x, w'⟩
    · obtain ⟨h1, h2⟩ := ih w'
      refine ⟨?_, h2⟩
      simp only [answered, List.zip_cons_cons, List.filterMap_cons]
      congr 1
    · obtain ⟨h1, h2⟩ := run_dead E cfg w' rs
      refine ⟨?_, h2⟩
      simp only [answered, List.zip_cons_cons, List.filterMap_cons]
      exact h1

/-- In every session and schedule, with reports of at most 64 bytes: there is an order in which the
reports handed over were handled (the order they came in, if goroutines run in the order they were
started; all of them, if no command is unread and no goroutine left), and a history of requests to the authenticator such that
* the authenticator's state is the one after this history (and if the process did not crash, none of the
  requests panicked);
* each request is in the reports of its channel, each report in at most one request;
* on every channel but 0, the client has received, or will from what is queued in the device, exactly the
  answers to this channel's requests, in order and unchanged (while none is empty or longer than the 7609
  bytes CTAPHID can carry). -/
theorem C86_authenticator_over_usbip (E : Env) (cfg : Client.Config) {net : UsbIp.Net} (hf : UsbIp.FullReads net)
    (rt : Hid.Runtime) {cmds : List Cmd} (hsess : Session cmds)
    (h64 : ∀ p ∈ cmds.filterMap reportOf, p.length ≤ 64) (w : World) (acts : List Act)
    {c : UsbIp.Conn (Dev World)} (hexec : exec net rt (Whole.authenticator E) acts (start cmds w) = some c) :
    ∃ (handled pending : List Bytes) (requests : List Request) (outcomes : List Fido.Reply) (alive : Bool),
      (handled ++ pending).Perm (cmds.filterMap reportOf) ∧
      ((∀ i, Act.run i ∈ acts → i = 0) → handled ++ pending = cmds.filterMap reportOf) ∧
      (c.stream = [] → c.dev.usb.delivered = [] → pending = []) ∧
      Device.run E cfg ⟨w, true⟩ (requests.map Request.op) = (outcomes, ⟨c.dev.hid.up, alive⟩) ∧
      (c.dev.crashed = false → alive = true) ∧
      (∀ cid, ∃ all, Carries cid (onChannel cid handled) all ∧
        ((requests.filter fun r => decide (r.1 = cid)).map (·.2) =
          if cid = 0xFFFFFFFF then [] else all.filter fun m => forAuthenticator m.1)) ∧
      ((∀ a ∈ answered requests outcomes, a.2.2 ≠ [] ∧ a.2.2.length ≤ 7609) → ∀ cid, cid ≠ 0 →
        answers (onChannel cid (reports (replies cmds c.out)) ++
            onChannel cid (c.dev.usb.buf.responses ++ c.dev.outbox)) =
          ((answered requests outcomes).filter fun a => decide (a.1 = cid)).map (·.2)) := by
  obtain ⟨done, todo, handled, h⟩ := handled_exec hsess.1 hf acts (fun ho => ho)
    (handled_start (∀ i, Act.run i ∈ acts → i = 0) rt (Whole.authenticator E) cmds w) hexec
  obtain ⟨r, hrun, hcr⟩ := h.hid
  have hperm : (handled ++ (c.dev.usb.delivered ++ todo.filterMap reportOf)).Perm (cmds.filterMap reportOf) := by
    rw [h.split, List.filterMap_append, ← List.append_assoc]
    exact h.reports.append_right _
  have h64' : ∀ p ∈ handled, p.length ≤ 64 := fun p hp =>
    h64 p (hperm.mem_iff.mp (by simp [hp]))
  obtain ⟨as, alive, hs1, hs2, hs3, hs4⟩ := Hid.serve_run rt (Whole.authenticator E) handled w h64' hrun
  obtain ⟨hd1, hd2⟩ := run_serve E cfg (Hid.requests c.dev.hid.finalized) w
  rw [hs1] at hd1 hd2
  dsimp only at hd1 hd2
  refine ⟨handled, _, Hid.requests c.dev.hid.finalized,
    (Device.run E cfg ⟨w, true⟩ ((Hid.requests c.dev.hid.finalized).map Request.op)).1, alive, hperm, ?_, ?_, ?_, ?_,
    ?_, ?_⟩
  · intro ho
    rw [h.split, List.filterMap_append, h.inOrder ho, List.append_assoc]
  · intro h1 h2
    obtain ⟨-, e⟩ := split_unique (d1 := done) (t1 := todo) (d2 := cmds) (t2 := []) (by rw [← h.split]; simp)
      (by rw [← h.stream, h1]; rfl)
    rw [h2, e]
    rfl
  · exact Prod.ext rfl hd2
  · intro hc
    exact hs2 (hcr.mp hc)
  · intro cid
    refine ⟨_, hs4 cid, ?_⟩
    unfold Hid.requests
    rw [List.filter_filter]
    by_cases hb : cid = 0xFFFFFFFF
    · rw [if_pos hb]
      have : (c.dev.hid.finalized.filter fun a => decide (a.1 = cid) &&
          (decide (a.1 ≠ 0xFFFFFFFF) && forAuthenticator a.2.1)) = [] := by
        rw [List.filter_eq_nil_iff]
        intro x _
        simp only [Bool.and_eq_true, decide_eq_true_eq, not_and]
        intro h1 h2
        exact absurd (h1.trans hb) h2
      rw [this]
      rfl
    · rw [if_neg hb, List.filter_map, List.filter_filter]
      congr 1
      apply List.filter_congr
      intro x _
      simp only [Function.comp]
      by_cases hx : x.1 = cid
      · simp [hx, hb]
      · simp [hx]
  · intro hok cid h0
    rw [hd1] at hok ⊢
    obtain ⟨-, hch⟩ := C84_reports_in_order hf rt (Whole.authenticator E) hsess w acts hexec
    rw [hch cid h0]
    exact hs3 hok cid

namespace Stack.Demo

/-- INIT and a U2F version request on the new channel, and two polls. -/
def versionCmds : List Cmd :=
  [give 1 init[0]!, ask 2, give 3 (hostPackets 1 0x83 [0, 3, 0, 0, 0, 0, 0] (List.replicate 50 0))[0]!, ask 4]
def versionActs : List Act := [.command, .run 0, .send 0, .command, .command, .command, .run 0, .send 0]

theorem version_session : Session versionCmds := by
  refine ⟨?_, by decide⟩
  intro cmd h
  simp only [versionCmds, List.mem_cons, List.not_mem_nil, or_false] at h
  rcases h with rfl | rfl | rfl | rfl
  · exact give_usual _ _ (by decide)
  · exact ask_usual _
  · exact give_usual _ _ (by decide)
  · exact ask_usual _

/-- C86 on it, with the toy authenticator: the client reads "U2F_V2" and status 0x9000. -/
example : ∃ c, exec net demoRt (Whole.authenticator (Toy.toy fun _ _ _ _ => true)) versionActs
      (start versionCmds (Toy.world false none 8)) = some c ∧
    (∀ p ∈ versionCmds.filterMap reportOf, p.length ≤ 64) ∧
    answers (onChannel 1 (reports (replies versionCmds c.out))) = [(0x83, ascii "U2F_V2" ++ [0x90, 0])] := by
  have h : (exec net demoRt (Whole.authenticator (Toy.toy fun _ _ _ _ => true)) versionActs
      (start versionCmds (Toy.world false none 8))).map
        (fun c => answers (onChannel 1 (reports (replies versionCmds c.out)))) =
      some [(0x83, ascii "U2F_V2" ++ [0x90, 0])] := by decide +kernel
  obtain ⟨c, hc, ha⟩ := Option.map_eq_some_iff.1 h
  exact ⟨c, hc, by decide, ha⟩

end Stack.Demo

end VF
