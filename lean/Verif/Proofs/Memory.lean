import Verif.Proofs.Stack
import Verif.Model.Server
import Verif.Spec.Memory

/-!
# What a connection makes the server hold
-/

namespace VF.UsbIp

open VF.Util

variable {D : Type}

/-- Reading: the device is left alone; at least `n` bytes were taken if it succeeds. -/
def Reads (n : Nat) {α : Type} (x : Go (Conn D) α) : Prop :=
  ∀ c, (x c).2.dev = c.dev ∧ c.pos ≤ (x c).2.pos ∧ ∀ a, (x c).1 = .ok a → c.pos + n ≤ (x c).2.pos

theorem Reads.bind {α β : Type} {n m : Nat} {x : Go (Conn D) α} {f : α → Go (Conn D) β} (hx : Reads n x)
    (hf : ∀ a, Reads m (f a)) : Reads (n + m) (x >>= f) := by
  intro c
  obtain ⟨h1, h2, h3⟩ := hx c
  rw [Go.run_bind]
  rcases hr : x c with ⟨r, c'⟩
  rw [hr] at h1 h2 h3
  cases r with
  | ok a =>
    obtain ⟨g1, g2, g3⟩ := hf a c'
    have := h3 a rfl
    dsimp only at h1 h2 h3 this ⊢
    refine ⟨g1.trans h1, by omega, fun b hb => ?_⟩
    have := g3 b hb
    omega
  | panic e => exact ⟨h1, h2, fun b hb => nomatch hb⟩

theorem Reads.pure {α : Type} (a : α) : Reads 0 (pure a : Go (Conn D) α) := fun _ => ⟨rfl, Nat.le_refl _, fun _ _ => Nat.le_refl _⟩

theorem Reads.lift {α : Type} (r : Res α) : Reads 0 (Go.lift r : Go (Conn D) α) := by
  intro c
  cases r <;> exact ⟨rfl, Nat.le_refl _, fun _ _ => Nat.le_refl _⟩

theorem Reads.readFull (n : Nat) : Reads n (readFull n : Go (Conn D) Bytes) := by
  intro c
  unfold UsbIp.readFull
  split
  · exact ⟨rfl, Nat.le_add_right .., fun _ _ => Nat.le_refl _⟩
  · exact ⟨rfl, Nat.le_add_right .., fun _ h => nomatch h⟩

theorem Reads.header : Reads 20 (readMsgHeader : Go (Conn D) MsgHeader) :=
  .bind (n := 20) (m := 0) (.readFull 20) fun _ => .bind (n := 0) (m := 0) (.lift _) fun _ => .bind (n := 0) (m := 0) (.lift _) fun _ =>
    .bind (n := 0) (m := 0) (.lift _) fun _ => .bind (n := 0) (m := 0) (.lift _) fun _ => .bind (n := 0) (m := 0) (.lift _) fun _ =>
      .pure _

theorem Reads.body : Reads 28 (readSubmitBody : Go (Conn D) SubmitBody) :=
  .bind (n := 28) (m := 0) (.readFull 28) fun _ => .bind (n := 0) (m := 0) (.lift _) fun _ => .bind (n := 0) (m := 0) (.lift _) fun _ =>
    .bind (n := 0) (m := 0) (.lift _) fun _ => .bind (n := 0) (m := 0) (.lift _) fun _ => .bind (n := 0) (m := 0) (.lift _) fun _ =>
      .pure _

theorem Reads.unlinkBody : Reads 28 (readUnlinkBody : Go (Conn D) UInt32) :=
  .bind (n := 28) (m := 0) (.readFull 28) fun _ => .bind (n := 0) (m := 0) (.lift _) fun _ => .pure _

theorem readOnce_dev (net : Net) (n : Nat) (c : Conn D) :
    (readOnce net n c).2.dev = c.dev ∧ c.pos ≤ (readOnce net n c).2.pos ∧ ∀ b, (readOnce net n c).1 = .ok b → b.length = n := by
  unfold readOnce
  split
  · exact ⟨rfl, Nat.le_refl _, fun b h => nomatch h⟩
  · refine ⟨rfl, Nat.le_add_right .., fun b h => ?_⟩
    cases h
    simp only [pad_length]

end VF.UsbIp

namespace VF.Stack

open VF.Spec.Memory

variable {H : Type}

/-- Whoever waits has a timer. -/
def Kept (u : Usb.State Callback) : Prop := ∀ e ∈ u.buf.waiting, e ∈ u.timers

theorem cancel_waiting {K : Type} (id : UInt32) (b : Buf.Buffer K) :
    ∀ e ∈ (Buf.cancelRequest id b).1.waiting, e ∈ b.waiting ∧ e.1 ≠ id := by
  intro e he
  unfold Buf.cancelRequest at he
  split at he
  · simpa [Buf.remove] using he
  · next h =>
    refine ⟨he, fun hid => ?_⟩
    have := List.find?_eq_none.1 h e he
    simp [hid] at this

theorem kept_submit {k : Callback} {id ep : UInt32} {setup data : Bytes} {u : Usb.State Callback} (h : Kept u) :
    Kept (Usb.handleMessage k id ep setup data u).2 ∧
    ((Usb.handleMessage k id ep setup data u).2.timers = u.timers ∨
      (Usb.handleMessage k id ep setup data u).2.timers = u.timers ++ [(id, k)]) := by
  unfold Usb.handleMessage
  rw [Go.run_bind]
  cases hs : Usb.readSetup setup with
  | panic e => exact ⟨h, .inl rfl⟩
  | ok s =>
    simp only [Go.lift]
    by_cases h0 : ep = 0
    · simp only [if_pos h0]
      rw [Go.run_bind]
      cases Usb.handleControlMessage s <;> exact ⟨h, .inl rfl⟩
    · simp only [if_neg h0]
      by_cases h1 : ep = 1
      · simp only [if_pos h1]
        rw [Go.get_bind_run, Go.modify_bind_run]
        have hk : ∀ e ∈ (Buf.request id k u.buf).1.waiting, e ∈ u.timers ++ [(id, k)] := by
          intro e he
          unfold Buf.request at he
          split at he
          · exact List.mem_append_left _ (h e he)
          · simp only [Buf.setWaiting, Buf.remove, List.mem_cons, List.mem_filter] at he
            rcases he with rfl | ⟨he, -⟩
            · exact List.mem_append_right _ (List.mem_singleton.2 rfl)
            · exact List.mem_append_left _ (h e he)
        cases (Buf.request id k u.buf).2 <;> exact ⟨hk, .inr rfl⟩
      · simp only [if_neg h1]
        by_cases h2 : ep = 2
        · simp only [if_pos h2]
          exact ⟨h, .inl rfl⟩
        · simp only [if_neg h2]
          exact ⟨h, .inl rfl⟩

theorem timers_submit (k : Callback) (id ep : UInt32) (setup data : Bytes) (u : Usb.State Callback) :
    ∃ new, (Usb.handleMessage k id ep setup data u).2.timers = u.timers ++ new := by
  unfold Usb.handleMessage
  rw [Go.run_bind]
  cases hs : Usb.readSetup setup with
  | panic e => exact ⟨[], (List.append_nil _).symm⟩
  | ok s =>
    simp only [Go.lift]
    by_cases h0 : ep = 0
    · simp only [if_pos h0]
      rw [Go.run_bind]
      cases Usb.handleControlMessage s <;> exact ⟨[], (List.append_nil _).symm⟩
    · simp only [if_neg h0]
      by_cases h1 : ep = 1
      · simp only [if_pos h1]
        rw [Go.get_bind_run, Go.modify_bind_run]
        cases (Buf.request id k u.buf).2 <;> exact ⟨[(id, k)], rfl⟩
      · simp only [if_neg h1]
        by_cases h2 : ep = 2
        · simp only [if_pos h2]
          exact ⟨[], (List.append_nil _).symm⟩
        · simp only [if_neg h2]
          exact ⟨[], (List.append_nil _).symm⟩

/-- What holds of every connection, whatever is sent. -/
structure Bounded (c : UsbIp.Conn (DevOf H)) : Prop where
  kept : Kept c.dev.usb
  bound : 48 * held c ≤ longest * c.pos

theorem Bounded.of {c c' : UsbIp.Conn (DevOf H)} (h : Bounded c) (hd : c'.dev = c.dev) (hp : c.pos ≤ c'.pos) : Bounded c' where
  kept := by rw [hd]; exact h.kept
  bound := by
    have := h.bound
    unfold held at this ⊢
    rw [hd]
    exact Nat.le_trans this (Nat.mul_le_mul_left _ hp)

theorem bounded_command (net : UsbIp.Net) {c : UsbIp.Conn (DevOf H)} (h : Bounded c) :
    Bounded (UsbIp.try' (command net) c) := by
  unfold UsbIp.try' command
  rw [Go.run_bind]
  obtain ⟨a1, a2, a3⟩ := UsbIp.Reads.header c
  rcases hr : (UsbIp.readMsgHeader : Go (UsbIp.Conn (DevOf H)) _) c with ⟨r, c1⟩
  rw [hr] at a1 a2 a3
  cases r with
  | panic e => exact h.of a1 a2
  | ok header =>
    have a3 := a3 _ rfl
    dsimp only at a1 a2 a3 ⊢
    split
    · unfold UsbIp.handleCommandSubmit
      rw [Go.run_bind]
      obtain ⟨b1, b2, b3⟩ := UsbIp.Reads.body c1
      rcases hr2 : (UsbIp.readSubmitBody : Go (UsbIp.Conn (DevOf H)) _) c1 with ⟨r2, c2⟩
      rw [hr2] at b1 b2 b3
      cases r2 with
      | panic e => exact h.of (b1.trans a1) (Nat.le_trans a2 b2)
      | ok body =>
        have b3 := b3 _ rfl
        dsimp only at b1 b2 b3 ⊢
        have after : ∀ (buf : Bytes) (c3 : UsbIp.Conn (DevOf H)), c3.dev = c2.dev → c2.pos ≤ c3.pos →
            buf.length = body.bufferLength.toNat →
            Bounded ((UsbIp.callDevice (.submit header.seq header.endpoint body.setup buf)
              ((device header).submit header.seq header.endpoint body.setup buf) >>= fun responses =>
                UsbIp.writeResponse (UsbIp.returnSubmits header buf responses)) c3).2 := by
          intro buf c3 d1 d2 hlen
          have hlt : buf.length ≤ longest := by
            have := body.bufferLength.toNat_lt
            unfold longest
            omega
          obtain ⟨k1, k2⟩ := kept_submit (k := ⟨header, buf⟩) (id := header.seq) (ep := header.endpoint) (setup := body.setup)
            (data := buf) (u := c3.dev.usb) (by rw [d1, b1, a1]; exact h.kept)
          have hb := h.bound
          have hdev : c3.dev = c.dev := d1.trans (b1.trans a1)
          have main : ∀ c4 : UsbIp.Conn (DevOf H),
              c4.dev.usb = (Usb.handleMessage ⟨header, buf⟩ header.seq header.endpoint body.setup buf c3.dev.usb).2 →
              c4.pos = c3.pos → Bounded c4 := by
            intro c4 e1 e2
            refine ⟨by rw [e1]; exact k1, ?_⟩
            rw [e2]
            have hp : longest * (c.pos + 48) ≤ longest * c3.pos := Nat.mul_le_mul_left _ (by omega)
            unfold held at hb ⊢
            rw [e1]
            rw [hdev] at k2 ⊢
            rw [Nat.mul_add] at hp
            rcases k2 with k2 | k2 <;> rw [k2]
            · omega
            · rw [List.map_append, List.sum_append]
              simp only [List.map_cons, List.map_nil, List.sum_cons, List.sum_nil]
              have : 48 * buf.length ≤ longest * 48 := by rw [Nat.mul_comm longest]; exact Nat.mul_le_mul_left _ hlt
              omega
          rw [Go.run_bind]
          rcases hr4 : UsbIp.callDevice (.submit header.seq header.endpoint body.setup buf)
            ((device header).submit header.seq header.endpoint body.setup buf) c3 with ⟨r4, c4⟩
          have e4 : c4.dev.usb = (Usb.handleMessage ⟨header, buf⟩ header.seq header.endpoint body.setup buf c3.dev.usb).2 ∧
              c4.pos = c3.pos := by
            have := congrArg Prod.snd hr4
            dsimp only at this
            rw [← this]
            exact ⟨rfl, rfl⟩
          cases r4 with
          | panic e => exact main c4 e4.1 e4.2
          | ok rs => exact main _ e4.1 e4.2
        split
        · rw [Go.run_bind]
          obtain ⟨d1, d2, d3⟩ := UsbIp.readOnce_dev net body.bufferLength.toNat c2
          rcases hr3 : UsbIp.readOnce net body.bufferLength.toNat c2 with ⟨r3, c3⟩
          rw [hr3] at d1 d2 d3
          cases r3 with
          | panic e => exact h.of (d1.trans (b1.trans a1)) (Nat.le_trans a2 (Nat.le_trans b2 d2))
          | ok buf => exact after buf c3 d1 d2 (d3 _ rfl)
        · exact after _ c2 rfl (Nat.le_refl _) List.length_replicate
    · split
      · unfold UsbIp.handleCommandUnlink
        rw [Go.run_bind]
        obtain ⟨b1, b2, -⟩ := UsbIp.Reads.unlinkBody c1
        rcases hr2 : (UsbIp.readUnlinkBody : Go (UsbIp.Conn (DevOf H)) _) c1 with ⟨r2, c2⟩
        rw [hr2] at b1 b2
        cases r2 with
        | panic e => exact h.of (b1.trans a1) (Nat.le_trans a2 b2)
        | ok victim =>
          dsimp only at b1 b2 ⊢
          have h2 : Bounded c2 := h.of (b1.trans a1) (Nat.le_trans a2 b2)
          refine ⟨fun e he => ?_, h2.bound⟩
          exact h2.kept e (cancel_waiting victim c2.dev.usb.buf e he).1
      · exact h.of a1 a2

/-- No command takes a timer away. -/
theorem timers_command (net : UsbIp.Net) (c : UsbIp.Conn (DevOf H)) :
    ∃ new, (UsbIp.try' (command net) c).dev.usb.timers = c.dev.usb.timers ++ new := by
  have same : ∀ c' : UsbIp.Conn (DevOf H), c'.dev = c.dev → ∃ new, c'.dev.usb.timers = c.dev.usb.timers ++ new :=
    fun c' h => ⟨[], by rw [h, List.append_nil]⟩
  unfold UsbIp.try' command
  rw [Go.run_bind]
  obtain ⟨a1, -⟩ := UsbIp.Reads.header c
  rcases hr : (UsbIp.readMsgHeader : Go (UsbIp.Conn (DevOf H)) _) c with ⟨r, c1⟩
  rw [hr] at a1
  cases r with
  | panic e => exact same _ a1
  | ok header =>
    dsimp only at a1 ⊢
    split
    · unfold UsbIp.handleCommandSubmit
      rw [Go.run_bind]
      obtain ⟨b1, -⟩ := UsbIp.Reads.body c1
      rcases hr2 : (UsbIp.readSubmitBody : Go (UsbIp.Conn (DevOf H)) _) c1 with ⟨r2, c2⟩
      rw [hr2] at b1
      cases r2 with
      | panic e => exact same _ (b1.trans a1)
      | ok body =>
        dsimp only at b1 ⊢
        have after : ∀ (buf : Bytes) (c3 : UsbIp.Conn (DevOf H)), c3.dev = c2.dev →
            ∃ new, ((UsbIp.callDevice (.submit header.seq header.endpoint body.setup buf)
              ((device header).submit header.seq header.endpoint body.setup buf) >>= fun responses =>
                UsbIp.writeResponse (UsbIp.returnSubmits header buf responses)) c3).2.dev.usb.timers = c.dev.usb.timers ++ new := by
          intro buf c3 d1
          obtain ⟨new, hn⟩ := timers_submit ⟨header, buf⟩ header.seq header.endpoint body.setup buf c3.dev.usb
          refine ⟨new, ?_⟩
          rw [← show c3.dev = c.dev from d1.trans (b1.trans a1), ← hn, Go.run_bind]
          rcases hr4 : UsbIp.callDevice (.submit header.seq header.endpoint body.setup buf)
            ((device header).submit header.seq header.endpoint body.setup buf) c3 with ⟨r4, c4⟩
          have e4 : c4.dev.usb = (Usb.handleMessage ⟨header, buf⟩ header.seq header.endpoint body.setup buf c3.dev.usb).2 := by
            have := congrArg Prod.snd hr4
            dsimp only at this
            rw [← this]
            rfl
          cases r4 <;> exact congrArg _ e4
        split
        · rw [Go.run_bind]
          obtain ⟨d1, -⟩ := UsbIp.readOnce_dev net body.bufferLength.toNat c2
          rcases hr3 : UsbIp.readOnce net body.bufferLength.toNat c2 with ⟨r3, c3⟩
          rw [hr3] at d1
          cases r3 with
          | panic e => exact same _ (d1.trans (b1.trans a1))
          | ok buf => exact after buf c3 d1
        · exact after _ c2 rfl
    · split
      · unfold UsbIp.handleCommandUnlink
        rw [Go.run_bind]
        obtain ⟨b1, -⟩ := UsbIp.Reads.unlinkBody c1
        rcases hr2 : (UsbIp.readUnlinkBody : Go (UsbIp.Conn (DevOf H)) _) c1 with ⟨r2, c2⟩
        rw [hr2] at b1
        cases r2 with
        | panic e => exact same _ (b1.trans a1)
        | ok victim =>
          dsimp only at b1 ⊢
          refine ⟨[], ?_⟩
          rw [← show c2.dev = c.dev from b1.trans a1, List.append_nil]
          rfl
      · exact same _ a1

theorem mem_erased {α : Type} {l : List α} {i : Nat} {x y : α} (hx : l[i]? = some x) (hy : y ∈ l) (hne : y ≠ x) :
    y ∈ l.eraseIdx i := by
  rw [List.mem_eraseIdx_iff_getElem?]
  obtain ⟨j, hj⟩ := List.mem_iff_getElem?.1 hy
  refine ⟨j, fun h => hne ?_, hj⟩
  subst h
  rw [hx] at hj
  exact (Option.some.inj hj).symm

theorem sum_erase {α : Type} (f : α → Nat) (l : List α) : ∀ i, ((l.eraseIdx i).map f).sum ≤ (l.map f).sum := by
  induction l with
  | nil => intro i; simp
  | cons x l ih =>
    intro i
    cases i with
    | zero => simp
    | succ i =>
      have := ih i
      simp only [List.eraseIdx_cons_succ, List.map_cons, List.sum_cons]
      omega

theorem bounded_timeout {i : Nat} {c c' : UsbIp.Conn (DevOf H)} (hs : timeout i c = some c') (h : Bounded c) : Bounded c' := by
  unfold timeout Usb.timeout at hs
  cases ht : c.dev.usb.timers[i]? with
  | none => rw [ht] at hs; cases hs
  | some t =>
    rw [ht] at hs
    obtain ⟨id, k⟩ := t
    cases hs
    constructor
    · intro e he
      obtain ⟨h1, h2⟩ := cancel_waiting id c.dev.usb.buf e he
      exact mem_erased ht (h.kept e h1) (fun h => h2 (by rw [h]))
    · refine Nat.le_trans (Nat.mul_le_mul_left 48 ?_) h.bound
      unfold held
      exact sum_erase (fun t : UInt32 × Callback => t.2.buffer.length) c.dev.usb.timers i

theorem bounded_send {i : Nat} {c c' : UsbIp.Conn (DevOf H)} (hs : send i c = some c') (h : Bounded c) : Bounded c' := by
  unfold send at hs
  split at hs
  · cases hs
  · cases hs
    refine ⟨fun e he => ?_, h.bound⟩
    refine h.kept e ?_
    change e ∈ (Buf.respondLocked _ _ _).1.waiting at he
    unfold Buf.respondLocked at he
    split at he
    · exact (List.mem_filter.1 he).1
    · exact he

end VF.Stack

namespace VF.Server

open VF.Stack VF.Spec.Memory

variable {E : Fido.Env} {cfg : Fido.Client.Config} {grow : Nat → Nat → Nat}

theorem bounded_step {net : UsbIp.Net} {a : Act} {c c' : Conn} (hs : step net E cfg grow a c = some c') (h : Bounded c) :
    Bounded c' := by
  unfold step at hs
  split at hs
  · cases hs
  · cases a with
    | command =>
      cases hs
      have := bounded_command net h
      exact ⟨this.kept, this.bound⟩
    | inside e =>
      dsimp only at hs
      unfold inside at hs
      split at hs
      · cases hs
      · split at hs
        · cases hs
        · split at hs
          · cases hs
          · cases hs
            exact ⟨h.kept, h.bound⟩
    | send i => exact bounded_send hs h
    | timeout i => exact bounded_timeout hs h

theorem timers_step {net : UsbIp.Net} {a : Act} {c c' : Conn} (hs : step net E cfg grow a c = some c') (ha : ∀ i, a ≠ .timeout i) :
    ∃ new, c'.dev.usb.timers = c.dev.usb.timers ++ new := by
  unfold step at hs
  split at hs
  · cases hs
  · cases a with
    | command =>
      cases hs
      exact timers_command net c
    | inside e =>
      dsimp only at hs
      unfold inside at hs
      split at hs
      · cases hs
      · split at hs
        · cases hs
        · split at hs
          · cases hs
          · cases hs
            exact ⟨[], (List.append_nil _).symm⟩
    | send i =>
      dsimp only at hs
      unfold Stack.send at hs
      split at hs
      · cases hs
      · cases hs
        exact ⟨[], (List.append_nil _).symm⟩
    | timeout i => exact absurd rfl (ha i)

theorem timers_exec {net : UsbIp.Net} : ∀ (acts : List Act) {c c' : Conn}, exec net E cfg grow acts c = some c' →
    (∀ a ∈ acts, ∀ i, a ≠ .timeout i) → ∃ new, c'.dev.usb.timers = c.dev.usb.timers ++ new
  | [], _, _, hs, _ => by cases hs; exact ⟨[], (List.append_nil _).symm⟩
  | a :: acts, c, c', hs, h => by
    obtain ⟨c1, h1, h2⟩ := Option.bind_eq_some_iff.1 hs
    obtain ⟨n1, g1⟩ := timers_step h1 (h a (by simp))
    obtain ⟨n2, g2⟩ := timers_exec acts h2 fun b hb => h b (by simp [hb])
    exact ⟨n1 ++ n2, by rw [g2, g1, List.append_assoc]⟩

theorem bounded_exec {net : UsbIp.Net} : ∀ (acts : List Act) {c c' : Conn}, exec net E cfg grow acts c = some c' → Bounded c →
    Bounded c'
  | [], _, _, hs, h => by cases hs; exact h
  | a :: acts, c, c', hs, h => by
    obtain ⟨c1, h1, h2⟩ := Option.bind_eq_some_iff.1 hs
    exact bounded_exec acts h2 (bounded_step h1 h)

end VF.Server
