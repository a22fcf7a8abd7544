import Verif.Proofs.Memory
import Verif.Spec.Memory
import Verif.Spec.Server

/-!
# C138: what a connection makes the server hold
-/

namespace VF.Props

open VF.Stack VF.Spec.Memory VF.Fido

variable {E : Env} {cfg : Client.Config} {grow : Nat → Nat → Nat} {net : UsbIp.Net}

/-- Whatever a client sends, in pieces of whatever length, and whatever happens in whichever order: no poll waits whose timer has
fired, and what the timers hold is at most 4294967295 bytes for every 48 bytes received. -/
theorem C138_bound {c c' : Server.Conn} {acts : List Server.Act} (hw : waiting c = []) (ht : timed c = [])
    (h : Server.exec net E cfg grow acts c = some c') :
    (∀ e ∈ waiting c', e ∈ timed c') ∧ 48 * held c' ≤ longest * c'.pos := by
  have hb : Bounded c := by
    constructor
    · intro e he
      rw [show c.dev.usb.buf.waiting = [] from hw] at he
      cases he
    · unfold held
      rw [show c.dev.usb.timers = [] from ht]
      simp
  have := Server.bounded_exec acts h hb
  exact ⟨this.kept, this.bound⟩

theorem timer_fires {c : Server.Conn} (hc : c.dev.crashed = false) {i : Nat} (hi : i < (timed c).length) :
    ∃ c', Server.step net E cfg grow (.timeout i) c = some c' ∧ c'.dev.crashed = false ∧ (timed c').length + 1 = (timed c).length := by
  have hg : c.dev.usb.timers[i]? = some (timed c)[i] := List.getElem?_eq_getElem hi
  have hstep : Server.step net E cfg grow (.timeout i) c = Stack.timeout i c := by
    unfold Server.step
    rw [hc]
    rfl
  obtain ⟨c', hst⟩ : ∃ c', Stack.timeout i c = some c' := by
    unfold Stack.timeout Usb.timeout
    rw [hg]
    exact ⟨_, rfl⟩
  refine ⟨c', hstep.trans hst, ?_, ?_⟩ <;> (unfold Stack.timeout Usb.timeout at hst; rw [hg] at hst; cases hst)
  · exact hc
  · show (c.dev.usb.timers.eraseIdx i).length + 1 = _
    have hi' : i < c.dev.usb.timers.length := hi
    rw [List.length_eraseIdx_of_lt hi', show (timed c).length = c.dev.usb.timers.length from rfl]
    omega

/-- Every timer can fire, whatever the client does not do any more. -/
theorem fire_all : ∀ (n : Nat) {c : Server.Conn}, c.dev.crashed = false → (timed c).length = n →
    ∃ c', Server.exec net E cfg grow (List.replicate n (.timeout 0)) c = some c' ∧ timed c' = []
  | 0, c, _, hn => ⟨c, rfl, List.length_eq_zero_iff.1 hn⟩
  | n + 1, c, hc, hn => by
    obtain ⟨c1, h1, h2, h3⟩ := timer_fires (net := net) (E := E) (cfg := cfg) (grow := grow) hc (i := 0) (by omega)
    obtain ⟨c2, g1, g2⟩ := fire_all n (c := c1) h2 (by omega)
    exact ⟨c2, by rw [List.replicate_succ]; simp only [Server.exec, h1, Option.bind_some]; exact g1, g2⟩

/-- Nothing is held for good: whatever was sent, once the timers have fired — which needs nothing of the client — nothing is held
and nobody waits. -/
theorem C138_released {c c' : Server.Conn} {acts : List Server.Act} (hw : waiting c = []) (ht : timed c = [])
    (h : Server.exec net E cfg grow acts c = some c') (hup : c'.dev.crashed = false) :
    ∃ fires c'', OnlyTimers fires ∧ fires.length = (timed c').length ∧
      Server.exec net E cfg grow fires c' = some c'' ∧ held c'' = 0 ∧ waiting c'' = [] := by
  obtain ⟨c'', h1, h2⟩ := fire_all (net := net) (E := E) (cfg := cfg) (grow := grow) _ hup rfl
  have hall : Server.exec net E cfg grow (acts ++ List.replicate (timed c').length (.timeout 0)) c = some c'' := by
    have app : ∀ (l r : List Server.Act) (x : Server.Conn), Server.exec net E cfg grow (l ++ r) x =
        (Server.exec net E cfg grow l x).bind (Server.exec net E cfg grow r) := by
      intro l r
      induction l with
      | nil => intro x; rfl
      | cons a l ih =>
        intro x
        simp only [List.cons_append, Server.exec]
        cases Server.step net E cfg grow a x with
        | none => rfl
        | some y => exact ih y
    rw [app, h]
    exact h1
  obtain ⟨k, -⟩ := C138_bound hw ht hall
  refine ⟨_, c'', fun a ha => ⟨0, List.eq_of_mem_replicate ha⟩, List.length_replicate, h1, ?_, ?_⟩
  · unfold held
    rw [show c''.dev.usb.timers = [] from h2]
    rfl
  · rw [h2] at k
    exact List.eq_nil_iff_forall_not_mem.2 fun e he => nomatch k e he

/-- Answering a poll or withdrawing it releases nothing: only the firing of timers does. -/
theorem C138_kept {c c' : Server.Conn} {acts : List Server.Act} (h : Server.exec net E cfg grow acts c = some c')
    (hno : ∀ a ∈ acts, ∀ i, a ≠ .timeout i) : (∃ new, timed c' = timed c ++ new) ∧ held c ≤ held c' := by
  obtain ⟨new, hn⟩ := Server.timers_exec acts h hno
  refine ⟨⟨new, hn⟩, ?_⟩
  unfold held
  rw [hn, List.map_append, List.sum_append]
  exact Nat.le_add_right ..

theorem poll_timer {H : Type} (length seq : UInt32) (setup : Bytes) {s : Usb.Setup} (hset : Usb.readSetup setup = .ok s)
    (d : Stack.DevOf H) (header : UsbIp.MsgHeader) :
    (UsbIp.effect (device header) (.inp seq 0 1 0 length 0 0 0 setup) d).2.usb.timers =
      d.usb.timers ++ [(seq, ⟨header, List.replicate length.toNat 0⟩)] ∧
    (UsbIp.effect (device header) (.inp seq 0 1 0 length 0 0 0 setup) d).2.crashed = d.crashed := by
  rcases hr : d.usb.buf.responses with _ | ⟨x, xs⟩ <;>
    simp [UsbIp.effect, device, onUsb, Usb.device, Usb.handleMessage, hset, Go.lift_ok_bind, Go.run_bind, Buf.request, hr]

theorem poll_held (hf : UsbIp.FullReads net) {length seq : UInt32} {rest : Bytes} {c : Server.Conn} (hc : c.dev.crashed = false)
    (hs : c.stream = (poll length seq).wire ++ rest) :
    ∃ c', Server.step net E cfg grow .command c = some c' ∧ c'.dev.crashed = false ∧ c'.stream = rest ∧ c'.pos = c.pos + 48 ∧
      held c' = held c + length.toNat := by
  have hcmd := Stack.command_step net hf (poll length seq) (show (List.replicate 8 (0 : UInt8)).length = 8 from rfl) rest c hs
  have hl : (poll length seq).wire.length = 48 := rfl
  obtain ⟨s, hset⟩ := readSetup_ok (List.replicate 8 0) rfl
  have hdev : ∀ d : Stack.DevOf Live.State,
      (UsbIp.effect (device (headerOf (poll length seq))) (poll length seq) d).2.usb.timers =
        d.usb.timers ++ [(seq, ⟨headerOf (poll length seq), List.replicate length.toNat 0⟩)] ∧
      (UsbIp.effect (device (headerOf (poll length seq))) (poll length seq) d).2.crashed = d.crashed := by
    exact fun d => poll_timer length seq _ hset d _
  refine ⟨_, by unfold Server.step; rw [hc]; simp only [Bool.false_eq_true, if_false]; rfl, ?_, ?_, ?_, ?_⟩
  · unfold Server.spawn
    rw [hcmd]
    exact (hdev c.dev).2.trans hc
  · unfold Server.spawn
    rw [hcmd]
  · unfold Server.spawn
    rw [hcmd, hl]
  · unfold Server.spawn held
    rw [hcmd]
    show (List.map _ (UsbIp.effect (device (headerOf (poll length seq))) (poll length seq) c.dev).2.usb.timers).sum = _
    rw [(hdev c.dev).1, List.map_append, List.sum_append]
    simp

/-- The bound is reached, for any number of commands: every 48 bytes make the server hold as much as they declare, until the timers
fire. -/
theorem C138_reached (hf : UsbIp.FullReads net) (length : UInt32) : ∀ (seqs : List UInt32) {rest : Bytes} {c : Server.Conn},
    c.dev.crashed = false → c.stream = (seqs.map fun seq => (poll length seq).wire).flatten ++ rest →
    ∃ c', Server.exec net E cfg grow (List.replicate seqs.length .command) c = some c' ∧ c'.dev.crashed = false ∧
      c'.stream = rest ∧ c'.pos = c.pos + 48 * seqs.length ∧ held c' = held c + length.toNat * seqs.length
  | [], rest, c, hc, hs => ⟨c, rfl, hc, by simpa using hs, by simp, by simp⟩
  | seq :: seqs, rest, c, hc, hs => by
    obtain ⟨c1, h1, h2, h3, h4, h5⟩ := poll_held (E := E) (cfg := cfg) (grow := grow) hf (length := length) (seq := seq)
      (rest := (seqs.map fun seq => (poll length seq).wire).flatten ++ rest) hc (by rw [hs]; simp)
    obtain ⟨c2, g1, g2, g3, g4, g5⟩ := C138_reached hf length seqs h2 h3
    refine ⟨c2, ?_, g2, g3, ?_, ?_⟩
    · rw [List.length_cons, List.replicate_succ]
      simp only [Server.exec, h1, Option.bind_some]
      exact g1
    · rw [g4, h4, List.length_cons]; omega
    · rw [g5, h5, List.length_cons, Nat.mul_add]; omega

/-- For every `n`, a client that has just attached and sends 48·`n` bytes makes the server hold 4294967295·`n`: `C138_bound` holds with
equality. -/
theorem C138_case (p : Overlap.Process) (hp : p.alive = true) (n : Nat) :
    let c := Spec.Server.start ((List.replicate n 0).map (poll 4294967295)) p
    waiting c = [] ∧ timed c = [] ∧ c.dev.crashed = false ∧ c.stream.length = 48 * n ∧
      ∃ acts c', Server.exec (fun _ n => n) E cfg grow acts c = some c' ∧ c'.dev.crashed = false ∧
        held c' = longest * n ∧ 48 * held c' = longest * c'.pos := by
  intro c
  have hs : c.stream = ((List.replicate n (0 : UInt32)).map fun seq => (poll 4294967295 seq).wire).flatten ++ [] := by
    show (((List.replicate n 0).map (poll 4294967295)).map Spec.UsbIp.Cmd.wire).flatten = _
    rw [List.map_map, List.append_nil]
    rfl
  have hc : c.dev.crashed = false := by
    show (!p.alive) = false
    rw [hp]
    rfl
  obtain ⟨c', h1, h2, -, h4, h5⟩ := C138_reached (E := E) (cfg := cfg) (grow := grow) (net := fun _ n => n)
    (fun _ n => Nat.le_refl n) 4294967295 (List.replicate n 0) hc hs
  have h4 : c'.pos = 48 * n := by rw [h4, List.length_replicate]; exact Nat.zero_add _
  have h5 : held c' = longest * n := by rw [h5, List.length_replicate]; exact Nat.zero_add _
  refine ⟨rfl, rfl, hc, ?_, _, c', h1, h2, h5, ?_⟩
  · rw [hs]
    have hl : (poll 4294967295 0).wire.length = 48 := rfl
    simp [hl, Nat.mul_comm]
  · rw [h4, h5, Nat.mul_left_comm]

end VF.Props
