import Verif.Proofs.Listener

/-!
# C133: the demo attaches the device it serves, and nobody else gets it

`Listener.loop` is the server's loop over the connections that come in: it gives what becomes of each.  `Demo.Run.run`
is the demo program: the server and the command that attaches to it.
-/

namespace VF.Props

open VF.UsbIp VF.UsbIp.Listener VF.Demo.Run VF.Spec.UsbIp VF.Spec.Attach

variable {K : Type}

/-- The exported devices: client_usbip.go:18. -/
def exported (k : K) : List (UsbIp.Device (Usb.State K)) := [Usb.device k]

/-- What becomes of the connections. -/
def fates (k : K) (net : Nat → Net) (l : List Incoming) : List Fate := loop (exported k) Usb.State.init net l

/-- **One client for life.**  Whatever connections come in, and whatever is sent over them: at most one is ever given
the device.  Everything written to any other says there is no such device, and none that comes after it is accepted. -/
theorem C133_one_client (k : K) (net : Nat → Net) (l : List Incoming) {i : Nat} {out : Bytes}
    (h : (fates k net l)[i]? = some (.given out)) :
    (∃ n, out = (List.replicate n (importFailed 1)).flatten ++ importOk (infoOf Usb.summary)) ∧
    (∀ j f, j < i → (fates k net l)[j]? = some f → f.stays = false ∧
      ∃ n, f.written = (List.replicate n (importFailed 1)).flatten) ∧
    (∀ j f, i < j → (fates k net l)[j]? = some f → f = .queued) := by
  have len : ∀ {j : Nat} {f : Fate}, (fates k net l)[j]? = some f → ∃ x, l[j]? = some x := by
    intro j f hj
    have := (List.getElem?_eq_some_iff.mp hj).1
    rw [fates, loop_length] at this
    exact ⟨_, List.getElem?_eq_getElem this⟩
  obtain ⟨x, hx⟩ := len h
  have q := loop_get (exported k) Usb.State.init net l i x hx
  have hns : ¬ Stuck (exported k) Usb.State.init net l i := fun hs => by
    have := (q.1 hs).symm.trans h
    cases this
  have hx2 : serve (net i) (exported k) Usb.State.init x = .given out := by
    have := (q.2 hns).symm.trans h
    exact Option.some.inj this
  refine ⟨?_, ?_, ?_⟩
  · cases x with
    | error => simp [serve] at hx2
    | client peer bytes closes =>
      rw [serve] at hx2
      split at hx2
      · rcases handleOpen_out (net i) (exported k) closes (bytes.length + 1) ⟨bytes, 0, [], Usb.State.init, []⟩ with
          ⟨n, e⟩ | ⟨n, e⟩ | ⟨n, device, hd, e⟩
        · rw [e] at hx2; cases hx2
        · rw [e] at hx2; cases hx2
        · rw [e] at hx2
          cases hx2
          have : device = Usb.device k := by simpa [exported] using hd
          subst this
          exact ⟨n, by simp [failures, Usb.device]⟩
      · cases hx2
  · intro j f hj hf
    obtain ⟨y, hy⟩ := len hf
    have hnj : ¬ Stuck (exported k) Usb.State.init net l j := fun ⟨a, e, h1, h2, h3⟩ => hns ⟨a, e, by omega, h2, h3⟩
    have hfy : serve (net j) (exported k) Usb.State.init y = f :=
      Option.some.inj (((loop_get (exported k) Usb.State.init net l j y hy).2 hnj).symm.trans hf)
    have hst : f.stays = false := by
      cases hb : f.stays with
      | false => rfl
      | true => exact absurd ⟨j, y, hj, hy, by rw [hfy]; exact hb⟩ hns
    refine ⟨hst, ?_⟩
    cases y with
    | error => rw [← hfy]; exact ⟨0, rfl⟩
    | client peer bytes closes =>
      rw [serve] at hfy
      split at hfy
      · rcases handleOpen_out (net j) (exported k) closes (bytes.length + 1) ⟨bytes, 0, [], Usb.State.init, []⟩ with
          ⟨n, e⟩ | ⟨n, e⟩ | ⟨n, device, hd, e⟩
        · rw [e] at hfy; rw [← hfy]; exact ⟨n, by simp [Fate.written, failures]⟩
        · rw [e] at hfy; rw [← hfy] at hst; cases hst
        · rw [e] at hfy; rw [← hfy] at hst; cases hst
      · rw [← hfy]; exact ⟨0, rfl⟩
  · intro j f hj hf
    obtain ⟨y, hy⟩ := len hf
    exact (Option.some.inj (((loop_get (exported k) Usb.State.init net l j y hy).1
      ⟨i, x, hj, hx, by rw [hx2]; rfl⟩).symm.trans hf)).symm

/-- **Who stays.**  Which connections the server goes on from: those from elsewhere, and those that asked for nothing
or for other devices and then closed, even in the middle of a request.  It never goes on from one that did not close,
nor from one that asked for the device, even when it closes then. -/
theorem C133_who_stays (k : K) (net : Net) (hf : FullReads net) (peer : Peer) (closes : Bool) (asks : List Ask)
    (hg : ∀ a ∈ asks, a.Good) :
    (accepted peer = false → ∀ bytes,
      serve net (exported k) Usb.State.init (.client peer bytes closes) = .refused) ∧
    (accepted peer = true → (∀ a ∈ asks, ¬ a.Wants (ascii "2-2")) → ∀ cut : Bytes, cut.length < 8 →
      (serve net (exported k) Usb.State.init
        (.client peer ((asks.map Ask.wire).flatten ++ cut) closes)).stays = !closes) ∧
    (accepted peer = true → (∃ a ∈ asks, a.Wants (ascii "2-2")) → ∀ rest : Bytes,
      ∃ n, n ≤ asks.length ∧ serve net (exported k) Usb.State.init
        (.client peer ((asks.map Ask.wire).flatten ++ rest) closes) =
          .given ((List.replicate n (importFailed 1)).flatten ++ importOk (infoOf Usb.summary))) := by
  refine ⟨fun h bytes => by simp [serve, h], fun h hno cut hcut => ?_, fun h hw rest => ?_⟩
  · obtain ⟨n, e⟩ := handleOpen_asks net hf (exported k) closes asks hg
      (by simpa [exported, Usb.device] using hno) cut hcut
      (((asks.map Ask.wire).flatten ++ cut).length + 1)
      ⟨(asks.map Ask.wire).flatten ++ cut, 0, [], Usb.State.init, []⟩ rfl (by simp)
    simp only [serve, h, if_true]
    rw [e]
    cases closes <;> rfl
  · -- the first request for the device
    obtain ⟨pre, last, post, hsplit, hpre, hlast⟩ : ∃ pre last post, asks = pre ++ last :: post ∧
        (∀ a ∈ pre, ¬ a.Wants (ascii "2-2")) ∧ last.Wants (ascii "2-2") := by
      clear hg
      induction asks with
      | nil => obtain ⟨a, h, -⟩ := hw; cases h
      | cons a asks ih =>
        by_cases ha : a.Wants (ascii "2-2")
        · exact ⟨[], a, asks, rfl, by simp, ha⟩
        · obtain ⟨b, hb, hbw⟩ := hw
          rcases List.mem_cons.mp hb with rfl | hb
          · exact absurd hbw ha
          · obtain ⟨pre, last, post, h1, h2, h3⟩ := ih ⟨b, hb, hbw⟩
            exact ⟨a :: pre, last, post, by rw [h1]; rfl, by
              intro c hc
              rcases List.mem_cons.mp hc with rfl | hc
              · exact ha
              · exact h2 c hc, h3⟩
    subst hsplit
    obtain ⟨n, hn, e⟩ := handleOpen_import net hf (Usb.device k) closes pre (fun a h => hg a (by simp [h])) hpre last
      (hg last (by simp)) hlast ((post.map Ask.wire).flatten ++ rest)
      ((((pre ++ last :: post).map Ask.wire).flatten ++ rest).length + 1)
      ⟨((pre ++ last :: post).map Ask.wire).flatten ++ rest, 0, [], Usb.State.init, []⟩ (by simp) (by simp)
    refine ⟨n, by simp; omega, ?_⟩
    simp only [serve, h, if_true]
    exact e.trans (by simp [failures, Usb.device])

/-! ## The demo -/

/-- What the command started by the demo does: it connects from this machine and asks for the bus id it was given. -/
def Attaches (busid : String) (i : Incoming) : Prop :=
  ∃ port closes, i = .client (.v4 127 0 0 1 port) (request (ascii busid)) closes

theorem demo_run_snoc (sys : System) (s : State) (evs : List Event) (e : Event) :
    run sys s (evs ++ [e]) = step sys (run sys s evs) e := by
  simp [run]

/-- What holds of every run. -/
theorem demo_run_inv (sys : System) (P : Incoming → Prop) (evs : List Event) (hl : ∀ i, .launch i ∈ evs → P i) :
    let s := run sys {} evs
    (∀ n, s.own = some n → ∃ i, s.incoming[n]? = some i ∧ P i) ∧
    (s.own ≠ none → s.launched = true) ∧
    (sys = .mac → s.own = none ∧ s.incoming = [] ∧ s.listening = false ∧ s.dead = false) ∧
    (sys ≠ .mac → s.returned = false) := by
  intro s
  suffices h : ∀ (evs : List Event) (s0 : State), (∀ i, .launch i ∈ evs → P i) →
      ((∀ n, s0.own = some n → ∃ i, s0.incoming[n]? = some i ∧ P i) ∧
        (s0.own ≠ none → s0.launched = true) ∧
        (sys = .mac → s0.own = none ∧ s0.incoming = [] ∧ s0.listening = false ∧ s0.dead = false) ∧
        (sys ≠ .mac → s0.returned = false)) →
      ((∀ n, (run sys s0 evs).own = some n → ∃ i, (run sys s0 evs).incoming[n]? = some i ∧ P i) ∧
        ((run sys s0 evs).own ≠ none → (run sys s0 evs).launched = true) ∧
        (sys = .mac → (run sys s0 evs).own = none ∧ (run sys s0 evs).incoming = [] ∧
          (run sys s0 evs).listening = false ∧ (run sys s0 evs).dead = false) ∧
        (sys ≠ .mac → (run sys s0 evs).returned = false)) by
    exact h evs {} hl ⟨by simp, by simp, fun _ => ⟨rfl, rfl, rfl, rfl⟩, fun _ => rfl⟩
  intro evs
  induction evs with
  | nil => intro s0 _ h; exact h
  | cons e evs ih =>
    intro s0 hP h
    refine ih (step sys s0 e) (fun i hi => hP i (by simp [hi])) ?_
    obtain ⟨h1, h2, h3, h4⟩ := h
    have grow : ∀ (x : Incoming) n, s0.own = some n → ∃ i, (s0.incoming ++ [x])[n]? = some i ∧ P i := by
      intro x n hn
      obtain ⟨i, hi, hp⟩ := h1 n hn
      exact ⟨i, by rw [List.getElem?_append_left (List.getElem?_eq_some_iff.mp hi).1]; exact hi, hp⟩
    unfold step
    split
    · exact ⟨h1, h2, h3, h4⟩
    · cases e with
      | listen ok =>
        simp only
        split
        · exact ⟨h1, h2, h3, h4⟩
        · rename_i hc
          simp only [Bool.or_eq_true, decide_eq_true_eq, not_or] at hc
          split
          · exact ⟨h1, h2, fun hm => absurd hm hc.2, h4⟩
          · exact ⟨h1, h2, fun hm => absurd hm hc.2, h4⟩
      | arrive i =>
        simp only
        split
        · rename_i hli
          exact ⟨grow i, h2, fun hm => absurd hli (by rw [(h3 hm).2.2.1]; simp), h4⟩
        · exact ⟨h1, h2, h3, h4⟩
      | launch i =>
        simp only
        split
        · exact ⟨h1, h2, h3, h4⟩
        · rename_i hla
          have hnone : s0.own = none := by
            cases ho : s0.own with
            | none => rfl
            | some n => exact absurd (h2 (by simp [ho])) hla
          split
          · exact ⟨h1, fun _ => rfl, h3, h4⟩
          · split
            · rename_i hli
              refine ⟨fun n hn => ⟨i, ?_, hP i (by simp)⟩, fun _ => rfl,
                fun hm => absurd hli (by rw [(h3 hm).2.2.1]; simp), h4⟩
              simp only [Option.some.injEq] at hn
              subst hn
              simp
            · exact ⟨h1, fun _ => rfl, h3, h4⟩
      | exit ok =>
        simp only
        split
        · exact ⟨h1, h2, h3, h4⟩
        · exact ⟨h1, h2, h3, h4⟩
      | stop =>
        simp only
        split
        · rename_i hm
          exact ⟨h1, h2, h3, fun h => absurd hm h⟩
        · exact ⟨h1, h2, h3, h4⟩

theorem request_wire : request (ascii "2-2") = (Ask.import 0x0111 0 (ascii "2-2") (List.replicate 28 0)).wire := by
  decide

theorem summary_content : Content (ascii "2-2") (importOk (infoOf Usb.summary)) := by
  refine ⟨?_, ?_, ?_⟩ <;> decide +kernel

/-- **The demo attaches the device it serves.**  On Linux and on Windows, in whatever order the two goroutines go on and
whoever else connects: the command goes to this machine, and when its connection got in, it is given the device, with an
answer the command is content with, unless the server stays with somebody who connected before; it then waits for
ever.  If it is given the device nobody else ever is. -/
theorem C133_attach (sys : System) {args : List String} {host busid : String}
    (hx : platformUSBIPExec sys = some args) (ht : target args = some (host, busid)) :
    host = "127.0.0.1" ∧
    ∀ (k : K) (net : Nat → Net), (∀ n, FullReads (net n)) → ∀ evs : List Event,
      (∀ i, .launch i ∈ evs → Attaches busid i) → ∀ n, (run sys {} evs).own = some n →
        ((∀ j i, j < n → (run sys {} evs).incoming[j]? = some i →
            (serve (net j) (exported k) Usb.State.init i).stays = false) →
          ∃ reply, (fates k net (run sys {} evs).incoming)[n]? = some (.given reply) ∧ Content (ascii busid) reply ∧
            ∀ j f, j ≠ n → (fates k net (run sys {} evs).incoming)[j]? = some f → ∀ out, f ≠ .given out) ∧
        ((∃ j i, j < n ∧ (run sys {} evs).incoming[j]? = some i ∧
            (serve (net j) (exported k) Usb.State.init i).stays = true) →
          (fates k net (run sys {} evs).incoming)[n]? = some .queued) := by
  have hb : host = "127.0.0.1" ∧ busid = "2-2" := by
    cases sys <;> simp [platformUSBIPExec] at hx <;> subst hx <;> simp [target] at ht <;> exact ⟨ht.1.symm, ht.2.symm⟩
  obtain ⟨rfl, rfl⟩ := hb
  refine ⟨rfl, fun k net hf evs hl n hn => ?_⟩
  obtain ⟨i, hi, port, closes, rfl⟩ := (demo_run_inv sys (Attaches "2-2") evs hl).1 n hn
  have q := loop_get (exported k) Usb.State.init net _ n _ hi
  refine ⟨fun hno => ?_, fun hs => q.1 hs⟩
  have hns : ¬ Stuck (exported k) Usb.State.init net (run sys {} evs).incoming n := fun ⟨j, e, h1, h2, h3⟩ => by
    rw [hno j e h1 h2] at h3; cases h3
  have hacc : accepted (.v4 127 0 0 1 port) = true := (C25_loopback_only.1 127 0 0 1 port).mpr
    ⟨⟨rfl, rfl, rfl⟩, .inl rfl⟩
  obtain ⟨m, hm, e⟩ := handleOpen_import (net n) (hf n) (Usb.device k) closes [] (by simp) (by simp)
    (.import 0x0111 0 (ascii "2-2") (List.replicate 28 0)) ⟨by decide, by decide⟩ rfl []
    ((request (ascii "2-2")).length + 1) ⟨request (ascii "2-2"), 0, [], Usb.State.init, []⟩
    (by rw [request_wire]; simp) (by simp)
  have m0 : m = 0 := by simpa using hm
  subst m0
  have hg : (fates k net (run sys {} evs).incoming)[n]? = some (.given (importOk (infoOf Usb.summary))) := by
    rw [fates, q.2 hns]
    simp only [serve, hacc, if_true]
    exact congrArg some (e.trans (by simp [failures, Usb.device]))
  refine ⟨_, hg, summary_content, fun j f hj hf out ho => ?_⟩
  have := C133_one_client k net _ hg
  rcases Nat.lt_or_gt_of_ne hj with h | h
  · have := (this.2.1 j f h hf).1
    rw [ho] at this
    cases this
  · rw [this.2.2 j f h hf] at ho
    cases ho

/-- **On macOS** the demo listens to nobody and starts no command: nothing goes wrong with one, and nothing ends it. -/
theorem C133_mac (evs : List Event) :
    (run .mac {} evs).own = none ∧ (run .mac {} evs).errors = 0 ∧ (run .mac {} evs).incoming = [] ∧ (run .mac {} evs).dead = false := by
  let ok (s : State) : Prop := s.own = none ∧ s.errors = 0 ∧ s.incoming = [] ∧ s.dead = false ∧ s.listening = false ∧
    (s.launched = true → s.finished = true)
  have one : ∀ (s : State) (e : Event), ok s → ok (step .mac s e) := by
    intro s e h
    obtain ⟨h1, h2, h3, h4, h5, h6⟩ := h
    have h : ok s := ⟨h1, h2, h3, h4, h5, h6⟩
    unfold step
    rw [if_neg (by rw [h4]; decide)]
    cases e with
    | listen _ => simp only [decide_true, Bool.or_true, if_true]; exact h
    | arrive i => simp only [h5]; exact h
    | launch i =>
      simp only [platformUSBIPExec]
      split
      · exact h
      · exact ⟨h1, h2, h3, h4, h5, fun _ => rfl⟩
    | exit _ =>
      simp only
      split
      · rename_i h
        simp only [Bool.and_eq_true, Bool.not_eq_true'] at h
        rw [h6 h.1] at h
        exact absurd h.2 (by decide)
      · exact h
    | stop => exact h
  have all : ∀ (evs : List Event) (s : State), ok s → ok (run .mac s evs) := by
    intro evs
    induction evs with
    | nil => exact fun _ h => h
    | cons e evs ih => exact fun s h => ih _ (one s e h)
  obtain ⟨h1, h2, h3, h4, -⟩ := all evs {} ⟨rfl, rfl, rfl, rfl, rfl, fun h => nomatch h⟩
  exact ⟨h1, h2, h3, h4⟩

/-- **It is tried once.**  The command is started once; if nobody was listening then, it is not started again, so the
device is attached only by hand. -/
theorem C133_tried_once (sys : System) (s : State) (evs : List Event) :
    (s.launched = true → (run sys s evs).own = s.own) ∧
    (s.listening = false → s.launched = false → ∀ i, (run sys (step sys s (.launch i)) evs).own = s.own) := by
  have keep : ∀ evs (s : State), s.launched = true → (run sys s evs).own = s.own := by
    intro evs
    induction evs with
    | nil => intro s _; rfl
    | cons e evs ih =>
      intro s h
      have : (step sys s e).own = s.own ∧ (step sys s e).launched = true := by
        unfold step
        split
        · exact ⟨rfl, h⟩
        · cases e with
          | listen ok => simp only; split <;> (try exact ⟨rfl, h⟩); split <;> exact ⟨rfl, h⟩
          | arrive i => simp only; split <;> exact ⟨rfl, h⟩
          | launch i => simp [h]
          | exit ok => simp only; split <;> exact ⟨rfl, h⟩
          | stop => simp only; split <;> exact ⟨rfl, h⟩
      show (run sys (step sys s e) evs).own = s.own
      rw [ih _ this.2, this.1]
  refine ⟨keep evs s, fun h1 h2 i => ?_⟩
  by_cases hd : s.dead = true
  · have dead : ∀ evs (s : State), s.dead = true → (run sys s evs).own = s.own := by
      intro evs
      induction evs with
      | nil => intro s _; rfl
      | cons e evs ih =>
        intro s h
        have : step sys s e = s := by simp [step, h]
        show (run sys (step sys s e) evs).own = s.own
        rw [this, ih s h]
    have : step sys s (.launch i) = s := by simp [step, hd]
    rw [this, dead evs s hd]
  · have : (step sys s (.launch i)).launched = true ∧ (step sys s (.launch i)).own = s.own := by
      cases sys <;> simp [step, hd, h1, h2, platformUSBIPExec]
    rw [keep evs _ this.1, this.2]

/-- **The server goes on.**  On Linux and Windows the demo never comes to its end by itself, however the command ends;
it dies only when it could not listen (the port is taken), and then nobody was ever given the device by it.  On macOS no
command is started and nobody is listening. -/
theorem C133_goes_on (sys : System) (evs : List Event) :
    (sys ≠ .mac → (run sys {} evs).done = false) ∧
    ((run sys {} evs).dead = true → .listen false ∈ evs ∧ (run sys {} evs).incoming = []) ∧
    (∀ ok, (run sys {} (evs ++ [.exit ok])).incoming = (run sys {} evs).incoming ∧
      (run sys {} (evs ++ [.exit ok])).listening = (run sys {} evs).listening ∧
      (run sys {} (evs ++ [.exit ok])).dead = (run sys {} evs).dead) ∧
    (sys = .mac → (run sys {} evs).own = none ∧ (run sys {} evs).listening = false) := by
  have inv := demo_run_inv sys (fun _ => True) evs (fun _ _ => trivial)
  refine ⟨fun h => by simp [State.done, inv.2.2.2 h], ?_, fun ok => ?_, fun h => ⟨(inv.2.2.1 h).1, (inv.2.2.1 h).2.2.1⟩⟩
  · clear inv
    suffices h : ∀ (evs : List Event) (s : State),
        (s.listening = true → s.dead = false) → (s.listening = false → s.incoming = []) →
        (run sys s evs).dead = true → s.dead = false →
        .listen false ∈ evs ∧ (run sys s evs).incoming = [] from
      fun hd => h evs {} (fun h => by cases h) (fun _ => rfl) hd rfl
    intro evs
    induction evs with
    | nil => intro s _ _ h1 h2; rw [show run sys s [] = s from rfl, h2] at h1; cases h1
    | cons e evs ih =>
      intro s g1 g2 h1 h2
      have hrun : run sys s (e :: evs) = run sys (step sys s e) evs := rfl
      rw [hrun] at h1 ⊢
      by_cases hdead : (step sys s e).dead = true
      · have : e = .listen false ∧ s.listening = false := by
          unfold step at hdead
          rw [if_neg (by simp [h2])] at hdead
          cases e with
          | listen ok =>
            simp only at hdead
            split at hdead
            · rw [h2] at hdead; cases hdead
            · rename_i hc
              cases ok with
              | true => simp [h2] at hdead
              | false =>
                refine ⟨rfl, ?_⟩
                cases hl : s.listening with
                | false => rfl
                | true => simp [hl] at hc
          | arrive i => simp only at hdead; split at hdead <;> simp [h2] at hdead
          | launch i =>
            simp only at hdead
            split at hdead
            · simp [h2] at hdead
            · split at hdead
              · simp [h2] at hdead
              · split at hdead <;> simp [h2] at hdead
          | exit ok => simp only at hdead; split at hdead <;> simp [h2] at hdead
          | stop => simp only at hdead; split at hdead <;> simp [h2] at hdead
        refine ⟨by simp [this.1], ?_⟩
        have stop : ∀ evs (s : State), s.dead = true → run sys s evs = s := by
          intro evs
          induction evs with
          | nil => intro s _; rfl
          | cons e evs ih =>
            intro s h
            have : step sys s e = s := by simp [step, h]
            show run sys (step sys s e) evs = s
            rw [this, ih s h]
        rw [stop evs _ hdead]
        have hi : (step sys s e).incoming = s.incoming := by
          rw [this.1]
          unfold step
          rw [if_neg (by simp [h2])]
          simp only
          split
          · rfl
          · rfl
        rw [hi, g2 this.2]
      · have hdead : (step sys s e).dead = false := by simpa using hdead
        have k2 : (step sys s e).listening = false → (step sys s e).incoming = [] := by
          unfold step
          rw [if_neg (by simp [h2])]
          cases e with
          | listen ok => simp only; split <;> (try exact g2); split <;> (try exact g2); intro h; cases h
          | arrive i => simp only; split <;> (try exact g2); rename_i hl; intro h; rw [hl] at h; cases h
          | launch i =>
            simp only
            split
            · exact g2
            · split
              · exact g2
              · split
                · rename_i hl; intro h; rw [hl] at h; cases h
                · exact g2
          | exit ok => simp only; split <;> exact g2
          | stop => simp only; split <;> exact g2
        obtain ⟨r1, r2⟩ := ih _ (fun _ => hdead) k2 h1 hdead
        exact ⟨by simp [r1], r2⟩
  · rw [demo_run_snoc]
    generalize run sys {} evs = s
    unfold step
    split
    · exact ⟨rfl, rfl, rfl⟩
    · simp only
      split <;> exact ⟨rfl, rfl, rfl⟩

/-- The hypotheses are met: the server listens, a client from elsewhere, one that asks for another device and closes
in the middle of a request, and then the demo's command, and another client later; the third connection gets the
device.  With a client that connects first and says nothing, it never does. -/
theorem C133_case :
    let other : Incoming := .client (.v4 127 0 0 1 (ascii "5")) ((Ask.import 0x0111 0 (ascii "1-1") (List.replicate 28 0)).wire ++ [1, 17]) true
    let own : Incoming := .client (.v4 127 0 0 1 (ascii "9")) (request (ascii "2-2")) true
    let silent : Incoming := .client (.v4 127 0 0 1 (ascii "7")) [] false
    let far : Incoming := .client (.v4 10 0 0 1 (ascii "5")) (request (ascii "2-2")) true
    let s := run .linux {} [.listen true, .arrive far, .arrive other, .launch own, .arrive own, .exit true]
    let s' := run .linux {} [.listen true, .arrive silent, .launch own]
    platformUSBIPExec .linux = some ["sudo", "usbip", "attach", "-r", "127.0.0.1", "-b", "2-2"] ∧
    target ["sudo", "usbip", "attach", "-r", "127.0.0.1", "-b", "2-2"] = some ("127.0.0.1", "2-2") ∧
    s.own = some 2 ∧
    fates () (fun _ _ n => n) s.incoming =
      [.refused, .over (importFailed 1), .given (importOk (infoOf Usb.summary)), .queued] ∧
    s'.own = some 1 ∧ fates () (fun _ _ n => n) s'.incoming = [.idle [], .queued] := by
  decide +kernel

end VF.Props
