import Verif.Proofs.StackRun
import Verif.Proofs.HidInv
import Verif.Proofs.HidAct

/-! # The order in which reports are handled -/

namespace VF.Hid

variable {W : Type}

theorem handlerSet_run (rt : Runtime) (up : Upper W) (hist : List Bytes) {w w' : World W} (hwf : WF w)
    (h : handleAll rt up hist w = (.ok (), w')) : w'.handlerSet = w.handlerSet := by
  induction hist generalizing w with
  | nil =>
    simp only [handleAll, Go.run_pure, Prod.mk.injEq, true_and] at h
    rw [h]
  | cons m ms ih =>
    rcases hm : handleMessage rt up m w with ⟨r, w1⟩
    simp only [handleAll] at h
    cases r with
    | panic c => rw [Go.run_bind_panic hm] at h; simp at h
    | ok a =>
      rw [Go.run_bind_ok hm] at h
      have hf := step_frame rt up m hwf
      rw [hm] at hf
      rw [ih (WF_step rt up m hwf hm) h, hf.handlerSet]

end VF.Hid

namespace VF.Stack

open Util Spec.UsbIp Spec.Stack

variable {W : Type}

/-- Reports are handled one after the other in some order, in the order they came if `ordered`. -/
structure Handled (ordered : Prop) (rt : Hid.Runtime) (up : Hid.Upper W) (hid : Hid.World W) (cmds : List Cmd)
    (c : UsbIp.Conn (Dev W)) (done todo : List Cmd) (handled : List Bytes) : Prop where
  split : cmds = done ++ todo
  stream : c.stream = (todo.map Cmd.wire).flatten
  reports : (handled ++ c.dev.usb.delivered).Perm (done.filterMap reportOf)
  inOrder : ordered → done.filterMap reportOf = handled ++ c.dev.usb.delivered
  hid : ∃ r, Hid.handleAll rt up handled hid = (r, c.dev.hid) ∧ (c.dev.crashed = false ↔ r = .ok ())

theorem perm_eraseIdx {α : Type} {l : List α} {i : Nat} {x : α} (h : l[i]? = some x) :
    (x :: l.eraseIdx i).Perm l := by
  induction l generalizing i with
  | nil => simp at h
  | cons a l ih =>
    cases i with
    | zero => simp only [List.getElem?_cons_zero, Option.some.injEq] at h; subst h; simp
    | succ i =>
      simp only [List.getElem?_cons_succ] at h
      rw [List.eraseIdx_cons_succ]
      exact (List.Perm.swap a x _).trans ((ih h).cons a)

theorem handled_step {cmds : List Cmd} (husual : ∀ cmd ∈ cmds, Usual cmd) {net : UsbIp.Net}
    (hf : UsbIp.FullReads net) {rt : Hid.Runtime} {up : Hid.Upper W} {hid : Hid.World W} {a : Act}
    {ordered : Prop} (ha : ordered → ∀ i, a = .run i → i = 0) {c c' : UsbIp.Conn (Dev W)} {done todo : List Cmd} {handled : List Bytes}
    (h : Handled ordered rt up hid cmds c done todo handled) (hstep : step net rt up a c = some c') :
    ∃ done' todo' handled', Handled ordered rt up hid cmds c' done' todo' handled' := by
  unfold step at hstep
  split at hstep
  · simp at hstep
  rename_i hcr
  cases a with
  | command =>
    simp only [Option.some.injEq] at hstep
    subst hstep
    cases todo with
    | nil =>
      rw [command_eof net c (by simpa using h.stream)]
      exact ⟨done, [], handled, h⟩
    | cons cmd todo =>
      have hu := husual cmd (by rw [h.split]; simp)
      obtain ⟨rs', usb', hr, he⟩ := effect_react cmd hu c.dev
      have hs : c.stream = cmd.wire ++ (todo.map Cmd.wire).flatten := by rw [h.stream]; simp
      rw [command_step net hf cmd (usual_wf hu) _ c hs, he]
      have hdel := react_delivered hr
      have e : [cmd].filterMap reportOf = (reportOf cmd).toList := by
        cases hrc : reportOf cmd <;> simp [hrc]
      refine ⟨done ++ [cmd], todo, handled, by rw [h.split]; simp, rfl, ?_, fun ho => ?_, h.hid⟩
      · dsimp only
        rw [hdel, List.filterMap_append, ← List.append_assoc, e]
        exact h.reports.append_right _
      · dsimp only
        rw [hdel, List.filterMap_append, h.inOrder ho, List.append_assoc, e]
  | run i =>
    dsimp only at hstep
    rcases hd : c.dev.usb.delivered[i]? with _ | report
    · rw [hd] at hstep; simp at hstep
    · rw [hd] at hstep
      simp only [Option.some.injEq] at hstep
      subst hstep
      obtain ⟨r, h1, h2⟩ := h.hid
      have hr := h2.mp (by simpa using hcr)
      subst hr
      refine ⟨done, todo, handled ++ [report], h.split, h.stream, ?_, fun ho => ?_, (Hid.handleMessage rt up report c.dev.hid).1,
        ?_, ?_⟩
      · refine List.Perm.trans ?_ h.reports
        simp only [runReport, List.append_assoc, List.singleton_append]
        exact (perm_eraseIdx hd).append_left _
      · have hi := ha ho i rfl
        subst hi
        rw [h.inOrder ho]
        simp only [runReport]
        revert hd
        cases c.dev.usb.delivered with
        | nil => simp
        | cons x xs =>
          intro hd
          simp only [List.getElem?_cons_zero, Option.some.injEq] at hd
          subst hd
          simp
      · rw [Hid.handleAll_append, h1]
        dsimp only
        rw [Hid.handleAll_single]
        rfl
      · simp only [runReport]
        rcases (Hid.handleMessage rt up report c.dev.hid).1 with x | x <;> simp
  | send choice =>
    dsimp only at hstep
    unfold send at hstep
    split at hstep
    · simp at hstep
    · simp only [Option.some.injEq] at hstep
      subst hstep
      exact ⟨done, todo, handled, h.split, h.stream, h.reports, h.inOrder, h.hid⟩
  | timeout i =>
    dsimp only at hstep
    unfold timeout Usb.timeout at hstep
    rcases ht : c.dev.usb.timers[i]? with _ | ⟨id, k⟩
    · rw [ht] at hstep; simp at hstep
    · rw [ht] at hstep
      dsimp only at hstep
      simp only [Option.some.injEq] at hstep
      subst hstep
      exact ⟨done, todo, handled, h.split, h.stream, h.reports, h.inOrder, h.hid⟩

theorem handled_exec {cmds : List Cmd} (husual : ∀ cmd ∈ cmds, Usual cmd) {net : UsbIp.Net}
    (hf : UsbIp.FullReads net) {rt : Hid.Runtime} {up : Hid.Upper W} {hid : Hid.World W} (acts : List Act)
    {ordered : Prop} (ha : ordered → ∀ i, Act.run i ∈ acts → i = 0) {c c' : UsbIp.Conn (Dev W)} {done todo : List Cmd} {handled : List Bytes}
    (h : Handled ordered rt up hid cmds c done todo handled) (hexec : exec net rt up acts c = some c') :
    ∃ done' todo' handled', Handled ordered rt up hid cmds c' done' todo' handled' := by
  induction acts generalizing c done todo handled with
  | nil =>
    simp only [exec, Option.some.injEq] at hexec
    subst hexec
    exact ⟨done, todo, handled, h⟩
  | cons a as ih =>
    rw [exec, Option.bind_eq_some_iff] at hexec
    obtain ⟨c1, h1, h2⟩ := hexec
    obtain ⟨d1, t1, r1, hi⟩ := handled_step husual hf (fun ho i hi => ha ho i (by simp [hi])) h h1
    exact ih (fun ho i hi => ha ho i (by simp [hi])) hi h2

theorem handled_start (ordered : Prop) (rt : Hid.Runtime) (up : Hid.Upper W) (cmds : List Cmd) (u : W) :
    Handled ordered rt up (Hid.World.new true u) cmds (start cmds u) [] cmds [] where
  split := rfl
  stream := rfl
  reports := List.Perm.refl _
  inOrder := fun _ => rfl
  hid := ⟨.ok (), rfl, by simp [start, Dev.init]⟩

theorem wire_pos (cmd : Cmd) : cmd.wire.length ≠ 0 := by
  cases cmd <;> simp [Cmd.wire]

/-- Two ways of cutting a list of commands with the same bytes left are the same. -/
theorem split_unique {d1 t1 d2 t2 : List Cmd} (h : d1 ++ t1 = d2 ++ t2)
    (hw : (t1.map Cmd.wire).flatten = (t2.map Cmd.wire).flatten) : d1 = d2 ∧ t1 = t2 := by
  have key : ∀ x (t : List Cmd), ((x ++ t).map Cmd.wire).flatten = (t.map Cmd.wire).flatten → x = [] := by
    intro x t h
    cases x with
    | nil => rfl
    | cons a x =>
      have hl := congrArg List.length h
      have hp := wire_pos a
      simp only [List.cons_append, List.map_cons, List.flatten_cons, List.map_append, List.flatten_append,
        List.length_append] at hl
      omega
  rw [List.append_eq_append_iff] at h
  rcases h with ⟨x, h1, h2⟩ | ⟨x, h1, h2⟩
  · have := key x t2 (by rw [← h2]; exact hw)
    subst this
    simp at h1 h2
    exact ⟨h1.symm, h2⟩
  · have := key x t1 (by rw [← h2]; exact hw.symm)
    subst this
    simp at h1 h2
    exact ⟨h1, h2.symm⟩

theorem padded_filter {got sent : List Bytes} (h : Padded got sent) (cid : UInt32) (hc : cid ≠ 0) :
    onChannel cid got = onChannel cid sent := by
  induction h with
  | nil => rfl
  | same p h ih => simp only [onChannel, List.filter_append] at ih ⊢; rw [ih]
  | zeros h ih =>
    have : Spec.Ctaphid.channelOf (List.replicate 64 0) = some 0 := by decide
    simp only [onChannel, List.filter_append] at ih ⊢
    rw [ih]
    simp only [List.filter_cons, this]
    simp [Ne.symm hc]

end VF.Stack
