import Verif.Model.Listener
import Verif.Spec.Attach
import Verif.Props.UsbIp

/-!
# Lemmas on the listening server
-/

namespace VF.UsbIp.Listener

open VF VF.Util VF.Spec.UsbIp VF.Spec.Attach

variable {D : Type}

/-- The failures written to a client that asked `n` times for what is not there. -/
def failures (n : Nat) : Bytes := (List.replicate n (importFailed 1)).flatten

theorem failures_succ (n : Nat) : failures (n + 1) = importFailed 1 ++ failures n := by
  simp [failures, List.replicate_succ]

theorem importError_eq : importError 1 = importFailed 1 := by
  simp [importError, importFailed, ControlHeader.toBE, toBE16_eq, toBE32_eq, usbipVersion, opRepImport]

theorem importReply_eq (device : Device D) : importReply device = importOk (infoOf device.summary) := by
  simp [importReply, importOk, infoOf, SummaryHeader.toBE, ControlHeader.toBE, toBE16_eq, toBE32_eq, usbipVersion,
    opRepImport]

theorem readFull_cases (n : Nat) (c : Conn D) :
    (∃ x, readFull n c = (.ok x, { c with stream := c.stream.drop n, pos := c.pos + n }) ∧ n ≤ c.stream.length ∧
      x.length = n) ∨
    (∃ c', readFull n c = (.panic .checkErr, c') ∧ c'.out = c.out) := by
  unfold readFull
  by_cases h : n ≤ c.stream.length
  · rw [if_pos h]; exact .inl ⟨_, rfl, h, by simp; omega⟩
  · rw [if_neg h]; exact .inr ⟨_, rfl, rfl⟩

theorem readControlHeader_cases (c : Conn D) :
    (∃ h, readControlHeader c = (.ok h, { c with stream := c.stream.drop 8, pos := c.pos + 8 }) ∧
      8 ≤ c.stream.length) ∨
    (∃ c', readControlHeader c = (.panic .checkErr, c') ∧ c'.out = c.out) := by
  unfold readControlHeader
  rcases readFull_cases 8 c with ⟨x, h, hl, h8⟩ | ⟨c', h, ho⟩
  · refine .inl ?_
    rw [Go.run_bind_ok h]
    match x, h8 with
    | [_, _, _, _, _, _, _, _], _ => exact ⟨_, rfl, hl⟩
  · exact .inr ⟨c', Go.run_bind_panic h, ho⟩

/-- What one iteration of `handle` can do. -/
theorem control_cases (net : Net) (devices : List (Device D)) (c : Conn D) :
    (∃ cause c', control net devices c = (.panic cause, c') ∧ c'.out = c.out) ∨
    (∃ c' k, control net devices c = (.ok none, c') ∧ c'.out = c.out ++ failures k ∧
      c'.stream.length + 8 ≤ c.stream.length) ∨
    (∃ device c', control net devices c = (.ok (some device), c') ∧ device ∈ devices ∧
      c'.out = c.out ++ importOk (infoOf device.summary)) := by
  rcases readControlHeader_cases c with ⟨h, e, hl⟩ | ⟨c', e, ho⟩
  · unfold control
    rw [Go.run_bind_ok e]
    split
    · refine .inr (.inl ⟨_, 0, rfl, ?_, ?_⟩)
      · simp [failures, devlistReply, toBENotFixedSize, writeResponse, Go.modify]
      · simp only [List.length_drop]; omega
    · split
      · generalize hc1 : ({ c with stream := c.stream.drop 8, pos := c.pos + 8 } : Conn D) = c1
        have ho1 : c1.out = c.out := by rw [← hc1]
        have hl1 : c1.stream.length + 8 ≤ c.stream.length := by rw [← hc1]; simp; omega
        by_cases hs : c1.stream.isEmpty = true
        · left
          refine ⟨.checkErr, c1, ?_, ho1⟩
          exact Go.run_bind_panic (by unfold readOnce; rw [if_pos hs])
        · have hr : ∃ x c2, readOnce net 32 c1 = (.ok x, c2) ∧ c2.out = c1.out ∧ c2.stream.length ≤ c1.stream.length := by
            unfold readOnce
            rw [if_neg hs]
            exact ⟨_, _, rfl, rfl, by simp⟩
          obtain ⟨x, c2, hx, ho2, hl2⟩ := hr
          rw [Go.run_bind_ok hx]
          cases hcs : cStringToString x with
          | panic cause => exact .inl ⟨cause, c2, rfl, by rw [ho2, ho1]⟩
          | ok b =>
            right
            cases hg : getDevice devices b with
            | none =>
              refine .inl ⟨{ c2 with out := c2.out ++ importError 1 }, 1, ?_, ?_, ?_⟩
              · show (match getDevice devices b with
                  | none => do writeResponse (importError 1); pure none
                  | some device => do writeResponse (importReply device); pure (some device) :
                    Go (Conn D) (Option (Device D))) c2 = _
                rw [hg]; rfl
              · simp [failures, importError_eq, ho2, ho1]
              · simp only; omega
            | some device =>
              refine .inr ⟨device, { c2 with out := c2.out ++ importReply device }, ?_, ?_, ?_⟩
              · show (match getDevice devices b with
                  | none => do writeResponse (importError 1); pure none
                  | some device => do writeResponse (importReply device); pure (some device) :
                    Go (Conn D) (Option (Device D))) c2 = _
                rw [hg]; rfl
              · exact List.mem_of_find?_eq_some hg
              · simp [importReply_eq, ho2, ho1]
      · refine .inr (.inl ⟨_, 0, rfl, by simp [failures], ?_⟩)
        simp only [List.length_drop]; omega
  · left
    refine ⟨.checkErr, c', ?_, ho⟩
    unfold control
    exact Go.run_bind_panic e

theorem failures_add (m n : Nat) : failures m ++ failures n = failures (m + n) := by
  simp [failures, ← List.flatten_append, List.replicate_append_replicate]

/-- Everything written to a connection before an import says that there is no such device. -/
theorem handleOpen_out (net : Net) (devices : List (Device D)) (closes : Bool) (n : Nat) (c : Conn D) :
    (∃ k, handleOpen net devices closes n c = .over (c.out ++ failures k)) ∨
    (∃ k, handleOpen net devices closes n c = .idle (c.out ++ failures k)) ∨
    (∃ k device, device ∈ devices ∧
      handleOpen net devices closes n c = .given (c.out ++ failures k ++ importOk (infoOf device.summary))) := by
  induction n generalizing c with
  | zero => exact .inr (.inl ⟨0, by simp [handleOpen, failures]⟩)
  | succ n ih =>
    rcases control_cases net devices c with ⟨cause, c', e, ho⟩ | ⟨c', k, e, ho, -⟩ | ⟨device, c', e, hd, ho⟩
    · rw [handleOpen, e]
      cases cause <;> simp only
      case checkErr =>
        cases closes
        · exact .inr (.inl ⟨0, by simp [ho, failures]⟩)
        · exact .inl ⟨0, by simp [ho, failures]⟩
      all_goals exact .inl ⟨0, by simp [ho, failures]⟩
    · rw [handleOpen, e]
      simp only
      rcases ih c' with ⟨m, h⟩ | ⟨m, h⟩ | ⟨m, device, hd, h⟩
      · exact .inl ⟨k + m, by rw [h, ho, List.append_assoc, failures_add]⟩
      · exact .inr (.inl ⟨k + m, by rw [h, ho, List.append_assoc, failures_add]⟩)
      · exact .inr (.inr ⟨k + m, device, hd, by rw [h, ho, List.append_assoc c.out, failures_add]⟩)
    · rw [handleOpen, e]
      exact .inr (.inr ⟨0, device, hd, by simp [ho, failures]⟩)

/-- More iterations than there are bytes change nothing. -/
theorem handleOpen_enough (net : Net) (devices : List (Device D)) (closes : Bool) (n m : Nat) (c : Conn D)
    (hn : c.stream.length < n) : handleOpen net devices closes (n + m) c = handleOpen net devices closes n c := by
  induction n generalizing c with
  | zero => omega
  | succ n ih =>
    rw [show n + 1 + m = (n + m) + 1 by omega, handleOpen, handleOpen]
    rcases control_cases net devices c with ⟨cause, c', e, ho⟩ | ⟨c', k, e, ho, hl⟩ | ⟨device, c', e, hd, ho⟩
    · rw [e]; cases cause <;> rfl
    · rw [e]
      exact ih c' (by omega)
    · rw [e]

/-- With a client that closes its end, this is `handle`. -/
theorem handleOpen_handle (net : Net) (devices : List (Device D)) (n : Nat) (c : Conn D)
    (hn : c.stream.length < n) :
    ((∃ o, handleOpen net devices true n c = .over o) ↔ (handle net devices n c).1 = .ended) ∧
    ((∃ o, handleOpen net devices true n c = .given o) ↔ (handle net devices n c).1 = .commands) := by
  induction n generalizing c with
  | zero => omega
  | succ n ih =>
    rw [handleOpen, handle]
    rcases control_cases net devices c with ⟨cause, c', e, ho⟩ | ⟨c', k, e, ho, hl⟩ | ⟨device, c', e, hd, ho⟩
    · rw [e]; cases cause <;> simp
    · rw [e]
      exact ih c' (by omega)
    · rw [e]; simp

/-! ## Requests -/

/-- One request that does not ask for an exported device. -/
theorem control_ask (net : Net) (hf : FullReads net) (devices : List (Device D)) (a : Ask) (ha : a.Good)
    (hno : ∀ d ∈ devices, ¬ a.Wants d.busID) (rest : Bytes) (c : Conn D) (hs : c.stream = a.wire ++ rest) :
    ∃ c' k, control net devices c = (.ok none, c') ∧ c'.stream = rest ∧ c'.out = c.out ++ failures k ∧
      c'.stream.length + 8 ≤ c.stream.length := by
  cases a with
  | devlist v s =>
    have e := (C22_devlist_refuted net devices v s rest c hs).1
    exact ⟨_, 0, e, rfl, by simp [failures], by rw [hs]; simp [Ask.wire, reqDevlist]; omega⟩
  | «import» v s b j =>
    have e := (C23_import net hf devices v s b j rest ha.1 ha.2 c hs).2 (fun d hd h => hno d hd h.symm)
    exact ⟨_, 1, e, rfl, by simp [failures], by rw [hs]; simp [Ask.wire, reqImport]; omega⟩
  | other v code s =>
    refine ⟨{ c with stream := rest, pos := c.pos + 8 }, 0, ?_, rfl, by simp [failures],
      by rw [hs]; simp [Ask.wire]; omega⟩
    unfold control
    rw [Go.run_bind_ok (readControlHeader_ok v code s rest c (by rw [hs]; simp [Ask.wire]))]
    dsimp only
    rw [if_neg (show ¬ code = opReqDevlist from ha.1), if_neg (show ¬ code = opReqImport from ha.2)]
    rfl

/-- Requests that do not ask for an exported device, and then part of a header. -/
theorem handleOpen_asks (net : Net) (hf : FullReads net) (devices : List (Device D)) (closes : Bool) (asks : List Ask)
    (hg : ∀ a ∈ asks, a.Good) (hno : ∀ a ∈ asks, ∀ d ∈ devices, ¬ a.Wants d.busID) (cut : Bytes)
    (hcut : cut.length < 8) (n : Nat) (c : Conn D) (hs : c.stream = (asks.map Ask.wire).flatten ++ cut)
    (hn : c.stream.length < n) :
    ∃ k, handleOpen net devices closes n c =
      if closes then .over (c.out ++ failures k) else .idle (c.out ++ failures k) := by
  induction asks generalizing c n with
  | nil =>
    cases n with
    | zero => omega
    | succ n =>
      have : control net devices c = (.panic .checkErr, { c with stream := [], pos := c.pos + c.stream.length }) := by
        unfold control readControlHeader
        exact Go.run_bind_panic (Go.run_bind_panic (readFull_short 8 c (by rw [hs]; simpa using hcut)))
      refine ⟨0, ?_⟩
      rw [handleOpen, this]
      simp [failures]
  | cons a asks ih =>
    cases n with
    | zero => omega
    | succ n =>
      obtain ⟨c', k, e, hs', ho, hl⟩ := control_ask net hf devices a (hg a (by simp)) (hno a (by simp))
        ((asks.map Ask.wire).flatten ++ cut) c (by rw [hs]; simp)
      obtain ⟨m, hm⟩ := ih (fun a h => hg a (by simp [h])) (fun a h => hno a (by simp [h])) n c' hs' (by omega)
      refine ⟨k + m, ?_⟩
      rw [handleOpen, e]
      simp only
      rw [hm, ho, List.append_assoc, failures_add]

/-- Requests that do not ask for an exported device, then one that does. -/
theorem handleOpen_import (net : Net) (hf : FullReads net) (device : Device D) (closes : Bool)
    (asks : List Ask) (hg : ∀ a ∈ asks, a.Good) (hno : ∀ a ∈ asks, ¬ a.Wants device.busID)
    (last : Ask) (hl : last.Good) (hw : last.Wants device.busID) (rest : Bytes) (n : Nat) (c : Conn D)
    (hs : c.stream = (asks.map Ask.wire).flatten ++ last.wire ++ rest) (hn : c.stream.length < n) :
    ∃ k, k ≤ asks.length ∧ handleOpen net [device] closes n c =
      .given (c.out ++ failures k ++ importOk (infoOf device.summary)) := by
  induction asks generalizing c n with
  | nil =>
    cases n with
    | zero => omega
    | succ n =>
      cases last with
      | devlist v s => exact absurd hw (by simp [Ask.Wants])
      | other v k s => exact absurd hw (by simp [Ask.Wants])
      | «import» v s b j =>
        have e := (C23_import net hf [device] v s b j rest hl.1 hl.2 c (by rw [hs]; simp [Ask.wire])).1 [] device []
          rfl hw.symm (by simp)
        refine ⟨0, Nat.le_refl _, ?_⟩
        rw [handleOpen, e]
        simp [failures]
  | cons a asks ih =>
    cases n with
    | zero => omega
    | succ n =>
      cases hka : a with
      | devlist v s =>
        have e := (C22_devlist_refuted net [device] v s ((asks.map Ask.wire).flatten ++ last.wire ++ rest) c
          (by rw [hs, hka]; simp [Ask.wire])).1
        obtain ⟨m, hml, hm⟩ := ih (fun a h => hg a (by simp [h])) (fun a h => hno a (by simp [h])) n
          { c with stream := ((asks.map Ask.wire).flatten ++ last.wire ++ rest), pos := c.pos + 8 } rfl
          (by rw [hs, hka] at hn; simp [Ask.wire, reqDevlist] at hn ⊢; omega)
        refine ⟨m, by simp; omega, ?_⟩
        rw [handleOpen, e]
        exact hm
      | «import» v s b j =>
        have ga := hg a (by simp)
        rw [hka] at ga
        have na := hno a (by simp)
        rw [hka] at na
        have e := (C23_import net hf [device] v s b j ((asks.map Ask.wire).flatten ++ last.wire ++ rest) ga.1 ga.2 c
          (by rw [hs, hka]; simp [Ask.wire])).2 (by simpa [Ask.Wants, eq_comm] using na)
        obtain ⟨m, hml, hm⟩ := ih (fun a h => hg a (by simp [h])) (fun a h => hno a (by simp [h])) n
          { c with stream := ((asks.map Ask.wire).flatten ++ last.wire ++ rest), pos := c.pos + 40, out := c.out ++ importFailed 1 } rfl
          (by rw [hs, hka] at hn; simp [Ask.wire, reqImport] at hn ⊢; omega)
        refine ⟨m + 1, by simp; omega, ?_⟩
        rw [handleOpen, e]
        simp only
        rw [hm, failures_succ]
        simp
      | other v code s =>
        obtain ⟨c', k, e, hs', ho, hl'⟩ := control_ask net hf [device] a (hg a (by simp))
          (by simpa using hno a (by simp)) ((asks.map Ask.wire).flatten ++ last.wire ++ rest) c (by rw [hs]; simp)
        have hk0 : c'.out = c.out := by
          have ga := hg a (by simp)
          rw [hka] at ga
          have : control net [device] c =
              (.ok none, { c with stream := (asks.map Ask.wire).flatten ++ last.wire ++ rest, pos := c.pos + 8 }) := by
            unfold control
            rw [Go.run_bind_ok (readControlHeader_ok v code s ((asks.map Ask.wire).flatten ++ last.wire ++ rest) c
              (by rw [hs, hka]; simp [Ask.wire]))]
            dsimp only
            rw [if_neg (show ¬ code = opReqDevlist from ga.1), if_neg (show ¬ code = opReqImport from ga.2)]
            rfl
          rw [this] at e
          cases e
          rfl
        obtain ⟨m, hml, hm⟩ := ih (fun a h => hg a (by simp [h])) (fun a h => hno a (by simp [h])) n c' hs' (by omega)
        refine ⟨m, by simp; omega, ?_⟩
        rw [handleOpen, e]
        simp only
        rw [hm, hk0]

/-! ## The loop of `Start` -/

theorem loop_length (devices : List (Device D)) (d : D) (net : Nat → Net) (l : List Incoming) :
    (loop devices d net l).length = l.length := by
  induction l generalizing net with
  | nil => rfl
  | cons i l ih =>
    rw [loop]
    cases (serve (net 0) devices d i).stays <;> simp [ih]

/-- The server stays with one of the first `k` connections. -/
def Stuck (devices : List (Device D)) (d : D) (net : Nat → Net) (l : List Incoming) (k : Nat) : Prop :=
  ∃ j e, j < k ∧ l[j]? = some e ∧ (serve (net j) devices d e).stays = true

/-- What becomes of a connection: never accepted when the server stays with an earlier one, and otherwise what is done
with it. -/
theorem loop_get (devices : List (Device D)) (d : D) (net : Nat → Net) (l : List Incoming) (k : Nat) (i : Incoming)
    (hk : l[k]? = some i) :
    (Stuck devices d net l k → (loop devices d net l)[k]? = some .queued) ∧
    (¬ Stuck devices d net l k → (loop devices d net l)[k]? = some (serve (net k) devices d i)) := by
  induction l generalizing net k with
  | nil => simp at hk
  | cons a l ih =>
    rw [loop]
    cases k with
    | zero =>
      simp only [List.getElem?_cons_zero, Option.some.injEq] at hk
      subst hk
      refine ⟨fun ⟨j, _, h, _⟩ => by omega, fun _ => ?_⟩
      cases (serve (net 0) devices d a).stays <;> simp
    | succ k =>
      have hk' : l[k]? = some i := by simpa using hk
      cases hst : (serve (net 0) devices d a).stays with
      | true =>
        refine ⟨fun _ => by simp [hst, hk'], fun h => absurd ⟨0, a, by omega, by simp, hst⟩ h⟩
      | false =>
        have : Stuck devices d (fun k => net (k + 1)) l k ↔ Stuck devices d net (a :: l) (k + 1) := by
          constructor
          · rintro ⟨j, e, h1, h2, h3⟩
            exact ⟨j + 1, e, by omega, by simpa using h2, h3⟩
          · rintro ⟨j, e, h1, h2, h3⟩
            cases j with
            | zero =>
              simp only [List.getElem?_cons_zero, Option.some.injEq] at h2
              subst h2
              rw [hst] at h3
              cases h3
            | succ j => exact ⟨j, e, by omega, by simpa using h2, h3⟩
        have q := ih (fun k => net (k + 1)) k hk'
        rw [this] at q
        simpa [hst] using q

end VF.UsbIp.Listener
