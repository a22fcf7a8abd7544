import Verif.Proofs.StackInv
import Verif.Proofs.HidResponse

/-! # Schedules of the whole transport -/

namespace VF.Hid

variable {W : Type}

/-- What was sent stays sent, and more reports of 64 bytes may have been. -/
def Grows {α : Type} (x : Go (World W) α) : Prop :=
  ∀ w, ∃ ps, (x w).2.out = w.out ++ ps ∧ ∀ p ∈ ps, p.length = 64

theorem Grows.bind {α β : Type} {x : Go (World W) α} {f : α → Go (World W) β} (hx : Grows x)
    (hf : ∀ a, Grows (f a)) : Grows (x >>= f) := by
  intro w
  obtain ⟨ps, h1, h2⟩ := hx w
  rcases hr : x w with ⟨r, w1⟩
  rw [hr] at h1
  cases r with
  | panic c => rw [Go.run_bind_panic hr]; exact ⟨ps, h1, h2⟩
  | ok a =>
    rw [Go.run_bind_ok hr]
    obtain ⟨qs, h3, h4⟩ := hf a w1
    refine ⟨ps ++ qs, by rw [h3, h1, List.append_assoc], ?_⟩
    intro p hp
    rw [List.mem_append] at hp
    exact hp.elim (h2 p) (h4 p)

theorem Grows.same {α : Type} {x : Go (World W) α} (h : ∀ w, (x w).2.out = w.out) : Grows x :=
  fun w => ⟨[], by rw [h]; simp, by simp⟩

theorem Grows.pure {α : Type} (a : α) : Grows (pure a : Go (World W) α) := .same fun _ => rfl
theorem Grows.get : Grows (Go.get : Go (World W) (World W)) := .same fun _ => rfl
theorem Grows.throw {α : Type} (c : Cause) : Grows (Go.throw c : Go (World W) α) := .same fun _ => rfl
theorem Grows.lift {α : Type} (r : Res α) : Grows (Go.lift r : Go (World W) α) := .same fun w => by
  cases r <;> rfl
theorem Grows.modify {f : World W → World W} (h : ∀ w, (f w).out = w.out) : Grows (Go.modify f) := .same h

theorem grows_sendResponse (cid : UInt32) (cmd : UInt8) (p : Bytes) :
    Grows (sendResponse cid cmd p : Go (World W) Unit) := by
  intro w
  unfold sendResponse sendResponsePackets
  by_cases h : w.handlerSet
  · refine ⟨createResponsePackets cid cmd p, by simp [Go.modify, h], ?_⟩
    exact responseLoop_length cid cmd p.length (-1) p
  · exact ⟨[], by simp [Go.modify, h], by simp⟩

theorem grows_sendError (cid : UInt32) (e : UInt8) : Grows (sendError cid e : Go (World W) Unit) :=
  grows_sendResponse cid cmdError [e]

theorem grows_keepalives (cid : UInt32) (n : Nat) : Grows (sendKeepalives cid n : Go (World W) Unit) := by
  induction n with
  | zero => exact .pure ()
  | succ n ih => exact .bind (grows_sendResponse _ _ _) fun _ => ih

theorem grows_callUpper (f : Go W Bytes) : Grows (callUpper f) := .same fun _ => rfl

theorem grows_finalized (rt : Runtime) (up : Upper W) (cid : UInt32) (header : Header) (payload : Slice) :
    Grows (handleFinalizedMessage rt up cid header payload) := by
  unfold handleFinalizedMessage
  refine .bind (.modify fun _ => rfl) fun _ => ?_
  split
  · unfold handleBroadcastMessage
    split
    · refine .bind ?_ fun _ => .bind (.lift _) fun _ => grows_sendResponse _ _ _
      unfold newChannel
      exact .bind .get fun _ => .bind (.modify fun _ => rfl) fun _ => .pure _
    · split
      · exact grows_sendResponse _ _ _
      · exact .throw _
  · unfold handleDataMessage
    split
    · exact .bind (grows_callUpper _) fun _ => grows_sendResponse _ _ _
    · split
      · exact .bind .get fun _ => .bind (.modify fun _ => rfl) fun _ => .bind (grows_keepalives _ _) fun _ =>
          .bind (grows_callUpper _) fun _ => grows_sendResponse _ _ _
      · split
        · exact grows_sendResponse _ _ _
        · exact .throw _

theorem grows_handleMessage (rt : Runtime) (up : Upper W) (m : Bytes) : Grows (handleMessage rt up m) := by
  unfold handleMessage
  refine .bind (.lift _) fun p => ?_
  refine .bind .get fun w => ?_
  split
  · exact grows_sendError _ _
  · unfold Channel.handleMessage
    refine .bind (.lift _) fun t => .bind (.modify fun _ => rfl) fun _ => ?_
    split
    · split
      · exact .bind (grows_sendError _ _) fun _ => .modify fun _ => rfl
      · split
        · split
          · exact .throw _
          · exact .bind (grows_finalized _ _ _ _ _) fun _ => .modify fun _ => rfl
        · exact .same fun _ => rfl
    · exact .pure _

end VF.Hid

namespace VF.Stack

open Util Spec.UsbIp Spec.Stack

variable {W : Type}

theorem command_eof {H : Type} (net : UsbIp.Net) (c : UsbIp.Conn (DevOf H)) (h : c.stream = []) :
    UsbIp.try' (command net) c = c := by
  unfold UsbIp.try' command UsbIp.readMsgHeader
  rw [Go.run_bind_panic (Go.run_bind_panic (UsbIp.readFull_short 20 c (by simp [h])))]
  cases c; simp at h; subst h; rfl

/-- The reply a poll's closure writes. -/
theorem pollCallback_reply {cmd : Cmd} (hp : isPoll cmd = true) (r : Option Bytes) :
    (pollCallback cmd).reply r = retSubmit (seqOf cmd) 64 (pad (r.getD []) 64) := by
  obtain ⟨seq, devid, flags, length, f, p, i, setup, rfl⟩ := isPoll_cases hp
  exact reply_in ⟨1, seq, devid, 1, 1⟩ rfl rfl 64 r

theorem react_delivered {cmd : Cmd} {u u' : Usb.State Callback} {rs : List Reply} (h : React cmd u rs u') :
    u'.delivered = u.delivered ++ (reportOf cmd).toList := by
  have hp : isPoll cmd = true → reportOf cmd = none := by
    intro h
    obtain ⟨seq, devid, flags, length, f, p, i, setup, rfl⟩ := isPoll_cases h
    rfl
  cases h with
  | lost h1 h2 h3 => simp [h2]
  | control h1 h2 h3 => simp [h2]
  | served h1 hd => simp [hp h1]
  | waits h1 hd => simp [hp h1]
  | report h1 => simp [h1]
  | unlinked h1 => simp [victim_report h1]

section
variable {H : Type} {total : List Bytes}

theorem inv_commandLoop {cmds : List Cmd} (hsess : Session cmds) {net : UsbIp.Net} (hf : UsbIp.FullReads net)
    {c : UsbIp.Conn (DevOf H)} {done todo : List Cmd} {rs : List Reply} (h : InvOf cmds c total done todo rs) :
    ∃ done' todo' rs', InvOf cmds (UsbIp.try' (command net) c) total done' todo' rs' ∧
      (∃ more, rs' = rs ++ more) ∧
      ∃ more usb, done' = done ++ more ∧ (UsbIp.try' (command net) c).dev = { c.dev with usb := usb } ∧
        usb.delivered = c.dev.usb.delivered ++ more.filterMap reportOf ∧ more.length ≤ 1 := by
  obtain ⟨husual, hn⟩ := hsess
  cases todo with
  | nil =>
    rw [command_eof net c (by simpa using h.stream)]
    exact ⟨done, [], rs, h, ⟨[], by simp⟩, [], c.dev.usb, by simp, rfl, by simp, by simp⟩
  | cons cmd todo =>
    have hu := husual cmd (by rw [h.split]; simp)
    obtain ⟨rs', usb', hr, he⟩ := effect_react cmd hu c.dev
    have hs : c.stream = cmd.wire ++ (todo.map Cmd.wire).flatten := by rw [h.stream]; simp
    rw [command_step net hf cmd (usual_wf hu) _ c hs, he]
    refine ⟨_, _, _, inv_command ⟨husual, hn⟩ h hr _ _, ⟨_, rfl⟩, [cmd], usb', rfl, rfl, ?_, Nat.le_refl _⟩
    rw [react_delivered hr]
    rw [List.filterMap_cons]
    cases hc : reportOf cmd <;> simp

theorem inv_send {cmds : List Cmd} (hsess : Session cmds) {choice : Nat} {c c' : UsbIp.Conn (DevOf H)}
    {done todo : List Cmd} {rs : List Reply} (h : InvOf cmds c total done todo rs) (hstep : send choice c = some c') :
    ∃ rs', InvOf cmds c' total done todo rs' ∧ (∃ more, rs' = rs ++ more) := by
  obtain ⟨husual, hn⟩ := hsess
  unfold send at hstep
  split at hstep
  · simp at hstep
  · rename_i p ps hob
    simp only [Option.some.injEq] at hstep
    obtain ⟨sent, hpad, hsent⟩ := h.data
    rw [hob] at hsent
    have hp64 : p.length = 64 := h.len p (by rw [hsent]; simp)
    unfold Usb.handleResponse at hstep
    dsimp only at hstep
    rcases hq : (Buf.respondLocked p choice c.dev.usb.buf).2 with _ | e
    · obtain ⟨h1, h2, h3⟩ := Buf.respond_none' hq
      rw [hq] at hstep
      simp only [Option.map_none, List.append_nil] at hstep
      subst hstep
      refine ⟨rs, ⟨h.split, h.stream, h.out, h.replied, Buf.Inv_respond h.buf, ?_, h.timers, h.wd, ?_,
        h.other, h.len, sent, hpad, ?_⟩, ⟨[], by simp⟩⟩
      · intro e he; dsimp only at he; rw [h2] at he; simp at he
      · intro x hx hp
        have := h.fate x hx hp
        rw [h1] at this
        dsimp only
        rw [h2]; exact this
      · dsimp only; rw [h3, hsent]; simp
    · obtain ⟨h1, h2, h3⟩ := Buf.respond_some hq
      obtain ⟨cmd, hcmd, hp, hse, hk⟩ := h.waiting e h1
      have hb : (Buf.respondLocked p choice c.dev.usb.buf).1 =
          ⟨Buf.remove (seqOf cmd) c.dev.usb.buf.waiting, c.dev.usb.buf.responses⟩ := by
        rw [hse, ← h2, ← h3]
      rw [hq, hb] at hstep
      simp only [Option.map_some, hk, pollCallback_reply hp, Option.getD_some] at hstep
      rw [show pad p 64 = p from by rw [← hp64]; exact pad_self p] at hstep
      have hr0 : c.dev.usb.buf.responses = [] := by
        rcases h.buf.excl with e' | e'
        · exact e'
        · rw [e'] at h1; simp at h1
      have := inv_answer ⟨husual, hn⟩ h hcmd hp e.2 (by rw [hse]; exact h1) p hp64 ps c.dev.usb.timers
        (fun _ h => h) ⟨sent ++ [p], .same p hpad, by rw [hsent, hr0]; simp⟩
      subst hstep
      exact ⟨_, this, ⟨_, rfl⟩⟩
theorem inv_timeout {cmds : List Cmd} (hsess : Session cmds) {i : Nat} {c c' : UsbIp.Conn (DevOf H)}
    {done todo : List Cmd} {rs : List Reply} (h : InvOf cmds c total done todo rs) (hstep : timeout i c = some c') :
    ∃ rs', InvOf cmds c' total done todo rs' ∧ (∃ more, rs' = rs ++ more) := by
  obtain ⟨husual, hn⟩ := hsess
  unfold timeout at hstep
  unfold Usb.timeout at hstep
  rcases ht : c.dev.usb.timers[i]? with _ | ⟨id, k⟩
  · rw [ht] at hstep; simp at hstep
  · rw [ht] at hstep
    dsimp only at hstep
    obtain ⟨cmd, hcmd, hp, hse, hk⟩ := h.timers _ (List.mem_of_getElem? ht)
    dsimp only at hse hk
    obtain ⟨hc1, hc2, hc3⟩ := Buf.cancel_spec (id := id) h.buf
    have htim : ∀ e ∈ c.dev.usb.timers.eraseIdx i, e ∈ c.dev.usb.timers :=
      fun e he => (List.eraseIdx_sublist _ _).mem he
    rcases hq : (Buf.cancelRequest id c.dev.usb.buf).2 with _ | k'
    · rw [hq] at hstep
      simp only [Option.isSome_none, Bool.false_eq_true, if_false, Option.some.injEq, List.append_nil] at hstep
      subst hstep
      have hno := (Buf.cancel_none h.buf).mp hq
      have hwait : (Buf.cancelRequest id c.dev.usb.buf).1.waiting = c.dev.usb.buf.waiting := by
        rw [hc2, Buf.remove_of_not_mem hno]
      obtain ⟨sent, hpad, hsent⟩ := h.data
      refine ⟨rs, ⟨h.split, h.stream, h.out, h.replied, Buf.Inv_cancel h.buf, ?_,
        fun e he => h.timers e (htim e he), h.wd, ?_,
        h.other, h.len, sent, hpad, ?_⟩, ⟨[], by simp⟩⟩
      · intro e he; dsimp only at he; rw [hwait] at he; exact h.waiting e he
      · dsimp only; rw [hwait]; exact h.fate
      · dsimp only; rw [hc3, hsent]
    · rw [hq] at hstep
      have hm := (hc1 k').mp hq
      have hb : (Buf.cancelRequest id c.dev.usb.buf).1 =
          ⟨Buf.remove (seqOf cmd) c.dev.usb.buf.waiting, c.dev.usb.buf.responses⟩ := by
        rw [hse, ← hc2, ← hc3]
      rw [hb, hk] at hstep
      simp only [Option.isSome_some, if_true, Option.some.injEq, pollCallback_reply hp, Option.getD_none] at hstep
      obtain ⟨sent, hpad, hsent⟩ := h.data
      have hz : pad ([] : Bytes) 64 = List.replicate 64 0 := by decide
      rw [hz] at hstep
      have := inv_answer ⟨husual, hn⟩ h hcmd hp k' (by rw [hse]; exact hm) (List.replicate 64 0) (by simp)
        c.dev.outbox (c.dev.usb.timers.eraseIdx i) htim ⟨sent, .zeros hpad, hsent⟩
      subst hstep
      exact ⟨_, this, ⟨_, rfl⟩⟩

theorem send_hid {choice : Nat} {c c' : UsbIp.Conn (DevOf H)} (h : send choice c = some c') : c'.dev.hid = c.dev.hid := by
  unfold send at h
  split at h
  · cases h
  · cases h
    rfl

theorem timeout_hid {i : Nat} {c c' : UsbIp.Conn (DevOf H)} (h : timeout i c = some c') : c'.dev.hid = c.dev.hid := by
  unfold timeout at h
  split at h
  · cases h
  · cases h
    rfl

end

theorem inv_step {cmds : List Cmd} (hsess : Session cmds) {net : UsbIp.Net} (hf : UsbIp.FullReads net)
    {rt : Hid.Runtime} {up : Hid.Upper W} {a : Act} {c c' : UsbIp.Conn (Dev W)} {done todo : List Cmd}
    {rs : List Reply} (h : Inv cmds c done todo rs) (hstep : step net rt up a c = some c') :
    ∃ done' todo' rs', Inv cmds c' done' todo' rs' ∧
      (∃ more, rs' = rs ++ more) ∧ (∃ more, done' = done ++ more) := by
  obtain ⟨husual, hn⟩ := hsess
  unfold step at hstep
  split at hstep
  · simp at hstep
  cases a with
  | command =>
    simp only [Option.some.injEq] at hstep
    subst hstep
    obtain ⟨d, t, r, h1, h2, more, usb, h3, h4, -, -⟩ := inv_commandLoop ⟨husual, hn⟩ hf h
    refine ⟨d, t, r, ?_, h2, ⟨more, h3⟩⟩
    rw [Inv, h4]
    exact h1
  | run i =>
    dsimp only at hstep
    split at hstep
    · simp at hstep
    · rename_i report hrep
      simp only [Option.some.injEq] at hstep
      subst hstep
      obtain ⟨ps, h1, h2⟩ := Hid.grows_handleMessage rt up report c.dev.hid
      obtain ⟨sent, hpad, hsent⟩ := h.data
      refine ⟨done, todo, rs, ⟨h.split, h.stream, h.out, h.replied, h.buf, h.waiting, h.timers, h.wd, h.fate,
        h.other, ?_, sent, hpad, ?_⟩, ⟨[], by simp⟩, ⟨[], by simp⟩⟩
      · intro p hp
        simp only [runReport] at hp
        rw [h1, List.mem_append] at hp
        exact hp.elim (h.len p) (h2 p)
      · simp only [runReport, h1, hsent]
        simp [List.append_assoc]
  | send choice =>
    obtain ⟨rs', h1, h2⟩ := inv_send ⟨husual, hn⟩ h hstep
    refine ⟨done, todo, rs', ?_, h2, ⟨[], by simp⟩⟩
    rw [Inv, send_hid hstep]
    exact h1
  | timeout i =>
    obtain ⟨rs', h1, h2⟩ := inv_timeout ⟨husual, hn⟩ h hstep
    refine ⟨done, todo, rs', ?_, h2, ⟨[], by simp⟩⟩
    rw [Inv, timeout_hid hstep]
    exact h1

theorem inv_exec {cmds : List Cmd} (hsess : Session cmds) {net : UsbIp.Net} (hf : UsbIp.FullReads net)
    {rt : Hid.Runtime} {up : Hid.Upper W} (acts : List Act) {c c' : UsbIp.Conn (Dev W)} {done todo : List Cmd}
    {rs : List Reply} (h : Inv cmds c done todo rs) (hexec : exec net rt up acts c = some c') :
    ∃ done' todo' rs', Inv cmds c' done' todo' rs' ∧
      (∃ more, rs' = rs ++ more) ∧ (∃ more, done' = done ++ more) := by
  induction acts generalizing c done todo rs with
  | nil =>
    simp only [exec, Option.some.injEq] at hexec
    subst hexec
    exact ⟨done, todo, rs, h, ⟨[], by simp⟩, ⟨[], by simp⟩⟩
  | cons a as ih =>
    rw [exec, Option.bind_eq_some_iff] at hexec
    obtain ⟨c1, h1, h2⟩ := hexec
    obtain ⟨d1, t1, r1, hi, ⟨m1, e1⟩, ⟨m2, e2⟩⟩ := inv_step hsess hf h h1
    obtain ⟨d2, t2, r2, hi2, ⟨m3, e3⟩, ⟨m4, e4⟩⟩ := ih hi h2
    exact ⟨d2, t2, r2, hi2, ⟨m1 ++ m3, by rw [e3, e1, List.append_assoc]⟩,
      ⟨m2 ++ m4, by rw [e4, e2, List.append_assoc]⟩⟩

/-- A connection whose client sends these commands. -/
def start (cmds : List Cmd) (u : W) : UsbIp.Conn (Dev W) :=
  { stream := (cmds.map Cmd.wire).flatten, pos := 0, out := [], dev := Dev.init u, calls := [] }

theorem inv_start (cmds : List Cmd) (u : W) : Inv cmds (start cmds u) [] cmds [] where
  split := rfl
  stream := rfl
  out := rfl
  replied := by simp
  buf := Buf.Inv_make
  waiting := by simp [start, Dev.init, Usb.State.init, Buf.Buffer.make]
  timers := by simp [start, Dev.init, Usb.State.init]
  wd := by simp
  fate := by simp
  other := by simp
  len := by simp [start, Dev.init, Hid.World.new]
  data := ⟨[], .nil, rfl⟩

end VF.Stack
