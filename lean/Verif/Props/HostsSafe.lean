import Verif.Props.HostsLogin
import Verif.Props.Store
import Verif.Props.Approval

/-!
# C139: several programs together get no more than one alone
-/

namespace VF.Props

open VF.Fido VF.Hid VF.Spec.History VF.Spec.Ctaphid VF.Spec.Live VF.Spec.Service VF.Spec.Conversation VF.Spec.Hosts
open VF.Spec.Client VF.Spec.U2f VF.Spec.UsbIp VF.Spec.Ctap VF.Spec.Store VF.Spec.Approval
open VF.Spec.Overlap (busy OneAtATime operations sequential isResult)
open VF.Fido.Device (after step boot)

variable {E : Env} {cfg : Client.Config} {grow : Nat → Nat → Nat}

/-- **Wrong PINs**: in a stretch of the order without a right PIN there are at most 8, whichever programs gave them; after 8,
another attempt, by whichever program, gets neither a token nor to know whether the PIN was right. -/
def FewGuesses (E : Env) (order : List Served) : Prop :=
  ∀ o1 o2 o3, order = o1 ++ (o2 ++ o3) → (∀ x ∈ o2, isRightPIN E x.event = false) →
    (o2.map (·.event)).countP isWrongPIN ≤ 8 ∧
    ((o2.map (·.event)).countP isWrongPIN = 8 → ∀ x o4, o3 = x :: o4 → isPINAttempt E x.op = true →
      ∃ b, x.reply = .answer b ∧ (∀ body, b ≠ 0 :: body) ∧ b ≠ [0x31])

/-- **Assertions**: one given to any program is signed with the key of a credential that was announced before, to whichever
program, and was not deleted since. -/
def OnlyAnnounced (E : Env) (res : List (Op × Reply)) (order : List Served) : Prop :=
  ∀ o1 x o2, order = o1 ++ x :: o2 → ∀ data body, x.op = .ctap (2 :: data) → x.reply = .answer (0 :: body) →
    ∃ args c authData sig before request answer since,
      E.decodeGetAssertion data = some args ∧ IsAssertion (0 :: body) c.id authData sig ∧
      res ++ o1.map (·.event) = before ++ (.ctap (1 :: request), .answer answer) :: since ∧
      announced answer = some c ∧ (.deleteIdentity c.id, .deleted true) ∉ since ∧
      E.verifyEC c.key (E.sha256 (authData ++ args.clientDataHash)) sig = true

/-- **Counters**: of two assertions with the same credential, given to whichever programs, the later has the higher one. -/
def CountersGrow (order : List Served) : Prop :=
  ∀ o1 x o2 y o3, order = o1 ++ x :: (o2 ++ y :: o3) → ∀ data1 data2 body1 body2 id authData1 authData2 sig1 sig2 ad1 ad2,
    x.op = .ctap (2 :: data1) → x.reply = .answer (0 :: body1) → y.op = .ctap (2 :: data2) → y.reply = .answer (0 :: body2) →
    IsAssertion (0 :: body1) id authData1 sig1 → parseAuthData authData1 = some ad1 →
    IsAssertion (0 :: body2) id authData2 sig2 → parseAuthData authData2 = some ad2 → ad1.counter < ad2.counter

/-- ... and of two U2F authentications. -/
def U2fCountersGrow (order : List Served) : Prop :=
  ∀ o1 x o2 y o3, order = o1 ++ x :: (o2 ++ y :: o3) → ∀ cla1 cla2 rest1 rest2 b1 b2 auth1 auth2,
    x.op = .u2f (cla1 :: 2 :: rest1) → x.reply = .answer b1 → y.op = .u2f (cla2 :: 2 :: rest2) → y.reply = .answer b2 →
    parseAuthentication b1 = some auth1 → parseAuthentication b2 = some auth2 → auth1.counter < auth2.counter

/-- **Approvals**: an answer that claims the user's consent was given to a request during which the user was asked one
question, of this kind, and agreed.  What the user agreed to for one program is not used for another. -/
def Approved (E : Env) (cfg : Client.Config) (before : List Op) (order : List Served) : Prop :=
  ∀ o1 x o2, order = o1 ++ x :: o2 → ∀ a, claims x.event = some a →
    ∃ q, (after E cfg (boot E cfg) (before ++ (o1 ++ [x]).map (·.op))).world.asks =
      (after E cfg (boot E cfg) (before ++ o1.map (·.op))).world.asks ++ [q] ∧ q.action = a ∧ q.answer = true

/-- **With a PIN**, a credential is only made for a program that proves with the device's token, for this very request, that
it knows the PIN. -/
def CreationsProven (E : Env) (cfg : Client.Config) (before : List Op) (order : List Served) : Prop :=
  ∀ o1 x o2, order = o1 ++ x :: o2 → ∀ data body, x.op = .ctap (1 :: data) → x.reply = .answer (0 :: body) →
    (after E cfg (boot E cfg) (before ++ o1.map (·.op))).world.client.pinEnabled = true →
    (after E cfg (boot E cfg) (before ++ o1.map (·.op))).world.client.pinHash ≠ none →
    ∃ args, E.decodeMakeCred data = some args ∧ args.pinProtocol = 1 ∧ args.pinAuth =
      some ((E.hmac (after E cfg (boot E cfg) (before ++ o1.map (·.op))).world.client.pinToken args.clientDataHash).take 16)

theorem draws_le {m n : Nat} (h : m ≤ n) (hd : DistinctDraws E n) : DistinctDraws E m :=
  fun i j hi hj => hd i j (Nat.lt_of_lt_of_le hi h) (Nat.lt_of_lt_of_le hj h)

section

variable {pre : List Op} {res : List (Op × Reply)} {order : List Served}
  (hres : res = (events E cfg (boot E cfg) pre).filter isResult)
  (ha : order.map (·.event) = events E cfg (after E cfg (boot E cfg) pre) (order.map (·.op)))
  (hq : ∀ x ∈ order, IsRequest x)

include ha hq

theorem few_guesses : FewGuesses E order := by
  intro o1 o2 o3 he hright
  have hev : (o2 ++ o3).map (·.event) = events E cfg (after E cfg (boot E cfg) (pre ++ o1.map (·.op))) ((o2 ++ o3).map (·.op)) := by
    rw [he, List.map_append, List.map_append (l₁ := o1), events_two] at ha
    have := (List.append_inj ha (by rw [events_count, List.length_map, List.length_map])).2
    rw [Device.after_append]
    exact this
  have h2 : o2.map (·.event) = events E cfg (after E cfg (boot E cfg) (pre ++ o1.map (·.op))) (o2.map (·.op)) := by
    rw [List.map_append, List.map_append, events_two] at hev
    exact (List.append_inj hev (by rw [events_count, List.length_map, List.length_map])).1
  have hreq : ∀ x ∈ o2 ++ o3, IsRequest x := fun x hx => hq x (by rw [he]; exact List.mem_append_right _ hx)
  have hone : ∀ op ∈ o2.map (·.op), isRestart op = false := by
    intro op ho
    obtain ⟨x, hx, rfl⟩ := List.mem_map.1 ho
    rcases (hreq x (List.mem_append_left _ hx)).1 with ⟨m, h⟩ | ⟨m, h⟩ <;> rw [h] <;> rfl
  have hr : ∀ e ∈ events E cfg (after E cfg (boot E cfg) (pre ++ o1.map (·.op))) (o2.map (·.op)), isRightPIN E e = false := by
    rw [← h2]
    intro e hm
    obtain ⟨x, hx, rfl⟩ := List.mem_map.1 hm
    exact hright x hx
  refine ⟨?_, fun h8 x o4 h3 hat => ?_⟩
  · rw [h2]
    exact C56_at_most_eight _ _ hone hr
  · subst h3
    rw [h2] at h8
    have hb := (C56_then_blocked _ _ x.op hone hr h8 hat).2
    obtain ⟨b, hx⟩ := (hreq x (by simp)).2
    rw [List.map_append, List.map_append, events_two] at hev
    have h5 := (List.append_inj hev (by rw [events_count, List.length_map, List.length_map])).2
    rw [List.map_cons, List.map_cons, Device.events_cons] at h5
    have h6 : x.reply = _ := congrArg Prod.snd (List.cons.inj h5).1
    rw [hx] at h6
    exact ⟨b, hx, hb b h6.symm⟩

include hres

theorem only_announced (L : Laws E) (hu : Usable E cfg) (hat : CanAttest E (boot E cfg).world.client)
    (hd : DistinctDraws E (after E cfg (boot E cfg) (pre ++ order.map (·.op))).world.rnd) : OnlyAnnounced E res order := by
  intro o1 x o2 he data body hx hr
  obtain ⟨a, d', h1, h2, -, h4⟩ := order_told hres ha hq he
  rw [hr] at h2
  cases h2
  rw [hx] at h1
  have hle : (after E cfg (boot E cfg) (pre ++ o1.map (·.op))).world.rnd ≤
      (after E cfg (boot E cfg) (pre ++ order.map (·.op))).world.rnd := by
    rw [he, List.map_append, ← List.append_assoc, Device.after_append (boot E cfg) (pre ++ _)]
    exact Device.after_rnd L _ _
  obtain ⟨args, c, authData, sig, p1, request, answer, post, g1, g2, g3, g4, g5, g6⟩ :=
    C90_assertion_provenance L hu hat _ h1 (draws_le hle hd)
  refine ⟨args, c, authData, sig, p1.filter isResult, request, answer, post.filter isResult, g1, g2, ?_, g4,
    fun hm => g5 (List.mem_of_mem_filter hm), g6⟩
  rw [h4, g3, List.filter_append, List.filter_cons]
  rfl

theorem counters_grow (L : Laws E) (hu : Usable E cfg)
    (hd : DistinctDraws E (after E cfg (boot E cfg) (pre ++ order.map (·.op))).world.rnd)
    (hfew : (pre ++ order.map (·.op)).countP isGetAssertion < 2 ^ 32) : CountersGrow order := by
  intro o1 x o2 y o3 he data1 data2 body1 body2 id authData1 authData2 sig1 sig2 ad1 ad2 hx hxr hy hyr a1 p1 a2 p2
  obtain ⟨a, d2, h1, h2, -, -⟩ := order_told hres ha hq he
  obtain ⟨b, d4, h3, h4, -, -⟩ := order_told hres ha hq (show order = (o1 ++ x :: o2) ++ y :: o3 by rw [he]; simp)
  rw [hxr] at h2
  rw [hyr] at h4
  cases h2
  cases h4
  rw [hx] at h1
  rw [hy] at h3
  have hmid : after E cfg (boot E cfg) (pre ++ (o1 ++ x :: o2).map (·.op)) = after E cfg d2 (o2.map (·.op)) := by
    rw [List.map_append, List.map_cons, ← List.append_assoc, Device.after_append (boot E cfg) (pre ++ _), Device.after_cons, hx, h1]
  rw [hmid] at h3
  have hall : after E cfg (boot E cfg) (pre ++ order.map (·.op)) = after E cfg d4 (o3.map (·.op)) := by
    rw [he, List.map_append, List.map_cons, List.map_append, List.map_cons, ← List.append_assoc,
      Device.after_append (boot E cfg) (pre ++ _), Device.after_cons, hx, h1, Device.after_append, Device.after_cons, hy, h3]
  refine C50_counters_increase L hu rfl h1 rfl h3 a1 p1 a2 p2 (draws_le ?_ hd) ?_
  · rw [hall]
    exact Device.after_rnd L _ _
  · have hc : (pre ++ order.map (·.op)).countP isGetAssertion = (pre ++ o1.map (·.op)).countP isGetAssertion +
        (o2.map (·.op)).countP isGetAssertion + 2 + (o3.map (·.op)).countP isGetAssertion := by
      rw [he]
      simp only [List.map_append, List.map_cons, List.countP_append, List.countP_cons, hx, hy,
        show ∀ d, isGetAssertion (.ctap (2 :: d)) = true from fun _ => rfl, if_true]
      omega
    omega

theorem u2f_counters_grow (L : Laws E) (hu : Usable E cfg)
    (hfew : (pre ++ order.map (·.op)).countP isU2fAuthenticate < 2 ^ 32) : U2fCountersGrow order := by
  intro o1 x o2 y o3 he cla1 cla2 rest1 rest2 b1 b2 auth1 auth2 hx hxr hy hyr p1 p2
  obtain ⟨a, d2, h1, h2, -, -⟩ := order_told hres ha hq he
  obtain ⟨b, d4, h3, h4, -, -⟩ := order_told hres ha hq (show order = (o1 ++ x :: o2) ++ y :: o3 by rw [he]; simp)
  rw [hxr] at h2
  rw [hyr] at h4
  cases h2
  cases h4
  rw [hx] at h1
  rw [hy] at h3
  have hmid : after E cfg (boot E cfg) (pre ++ (o1 ++ x :: o2).map (·.op)) = after E cfg d2 (o2.map (·.op)) := by
    rw [List.map_append, List.map_cons, ← List.append_assoc, Device.after_append (boot E cfg) (pre ++ _), Device.after_cons, hx, h1]
  rw [hmid] at h3
  refine C67_counters_increase L hu rfl h1 rfl h3 p1 p2 ?_ ?_
  · intro op ho
    obtain ⟨z, hz, rfl⟩ := List.mem_map.1 ho
    rcases (hq z (by rw [he]; simp [hz])).1 with ⟨m, h⟩ | ⟨m, h⟩ <;> rw [h] <;> rfl
  · have hc : (pre ++ order.map (·.op)).countP isU2fAuthenticate = (pre ++ o1.map (·.op)).countP isU2fAuthenticate +
        (o2.map (·.op)).countP isU2fAuthenticate + 2 + (o3.map (·.op)).countP isU2fAuthenticate := by
      rw [he]
      simp only [List.map_append, List.map_cons, List.countP_append, List.countP_cons, hx, hy,
        show ∀ c d, isU2fAuthenticate (.u2f (c :: 2 :: d)) = true from fun _ _ => rfl, if_true]
      omega
    omega

theorem approved (L : Laws E) (hu : Usable E cfg) : Approved E cfg pre order := by
  intro o1 x o2 he a hc
  obtain ⟨b, d', h1, h2, -, -⟩ := order_told hres ha hq he
  have hev : x.event = (x.op, (step E cfg (after E cfg (boot E cfg) (pre ++ o1.map (·.op))) x.op).1) := by
    rw [h1]
    exact Prod.ext rfl h2
  rw [hev] at hc
  obtain ⟨q, g1, g2, g3⟩ := C92_asked_during_the_request L hu _ _ hc
  refine ⟨q, ?_, g2, g3⟩
  rw [List.map_append, ← List.append_assoc, Device.after_append (boot E cfg) (pre ++ _)]
  exact g1

theorem creations_proven (L : Laws E) : CreationsProven E cfg pre order := by
  intro o1 x o2 he data body hx hr hon hset
  obtain ⟨a, d', h1, h2, -, -⟩ := order_told hres ha hq he
  rw [hr] at h2
  cases h2
  rw [hx] at h1
  obtain ⟨-, -, hm⟩ := Device.ctap_answered h1
  exact C44_creation_needs_pin L hm hon hset

end

/-- All of it. -/
structure Safe (E : Env) (cfg : Client.Config) (before : List Op) (res : List (Op × Reply)) (order : List Served) : Prop where
  guesses : FewGuesses E order
  announced : OnlyAnnounced E res order
  counters : CountersGrow order
  u2fCounters : U2fCountersGrow order
  approved : Approved E cfg before order
  proven : CreationsProven E cfg before order

theorem safe {pre : List Op} {res : List (Op × Reply)} {order : List Served} {now : World} {sent : List Bytes}
    (L : Laws E) (hu : Usable E cfg) (hat : CanAttest E (boot E cfg).world.client)
    (hres : res = (events E cfg (boot E cfg) pre).filter isResult) (h : OneOrder E cfg pre now sent order)
    (hq : ∀ x ∈ order, IsRequest x) (hd : DistinctDraws E now.rnd) (hfew : pre.length + sent.length < 2 ^ 32) :
    Safe E cfg pre res order := by
  have ha := h.answered
  rw [h.left] at hd
  have hlen := order_length h
  have hc : ∀ f : Op → Bool, (pre ++ order.map (·.op)).countP f < 2 ^ 32 := fun f => by
    have := List.countP_le_length (p := f) (l := pre ++ order.map (·.op))
    rw [List.length_append, List.length_map] at this
    omega
  exact ⟨few_guesses ha hq, only_announced hres ha hq L hu hat hd, counters_grow hres ha hq L hu hd (hc _),
    u2f_counters_grow hres ha hq L hu (hc _), approved hres ha hq L hu, creations_proven hres ha hq L⟩

/-- **On macOS**, with any number of programs using the device at once, each doing what it likes on its channel or on those
of others (C136). -/
theorem C139_mac (L : Laws E) (hu : Usable E cfg) (hat : CanAttest E (boot E cfg).world.client)
    {pre : List Overlap.Event} (hpre : OneAtATime E cfg (Overlap.boot E cfg) pre)
    (hfree : ∀ t ∈ ((Overlap.boot E cfg).run E cfg pre).threads, busy t = false) {evs : List Mac.Event} {s : Mac.State}
    (h : UsedOnMac E cfg grow pre evs s) (hd : DistinctDraws E (sequential s.live.proc.mem).rnd)
    (hfew : (operations pre).length + (Spec.Mac.sent evs).length < 2 ^ 32) :
    ∃ order : List Served,
      OneOrder E cfg (operations pre) (sequential s.live.proc.mem) (Spec.Mac.sent evs) order ∧
      Spec.Overlap.results s.live.proc = Spec.Overlap.results ((Overlap.boot E cfg).run E cfg pre) ++ order.map (·.event) ∧
      (∀ cid qs, HostOnMac E cfg grow pre evs cid qs →
        talk qs cid s.input = (of cid order).map (·.event) ∧ requested qs = (of cid order).map (·.op)) ∧
      Safe E cfg (operations pre) (Spec.Overlap.results ((Overlap.boot E cfg).run E cfg pre)) order := by
  obtain ⟨order, h1, h0, -, h3, h4⟩ := mac_hosts hpre hfree h
  exact ⟨order, h1, h0, h4, safe L hu hat (C93_sequential pre hpre hfree).2.2 h1 h3 hd hfew⟩

/-- **Over USB/IP** likewise. -/
theorem C139_usbip (L : Laws E) (hu : Usable E cfg) (hat : CanAttest E (boot E cfg).world.client)
    {pre : List Overlap.Event} (hpre : OneAtATime E cfg (Overlap.boot E cfg) pre)
    (hfree : ∀ t ∈ ((Overlap.boot E cfg).run E cfg pre).threads, busy t = false) {net : UsbIp.Net} {cmds : List Cmd}
    {acts : List Server.Act} {c : Server.Conn} (h : UsedOverUsbIp E cfg grow pre net cmds acts c)
    (hd : DistinctDraws E (sequential c.dev.hid.proc.mem).rnd)
    (hfew : (operations pre).length + (Spec.Server.given c).length < 2 ^ 32) :
    ∃ order : List Served,
      OneOrder E cfg (operations pre) (sequential c.dev.hid.proc.mem) (Spec.Server.given c) order ∧
      Spec.Overlap.results c.dev.hid.proc = Spec.Overlap.results ((Overlap.boot E cfg).run E cfg pre) ++ order.map (·.event) ∧
      (∀ cid qs, HostOverUsbIp E cfg grow pre net cmds acts c cid qs →
        talk qs cid (Spec.Server.seen cmds c) = (of cid order).map (·.event) ∧ requested qs = (of cid order).map (·.op)) ∧
      Safe E cfg (operations pre) (Spec.Overlap.results ((Overlap.boot E cfg).run E cfg pre)) order := by
  obtain ⟨⟨order, h1, h0, -, h3, h4⟩, -⟩ := usbip_hosts hpre hfree h
  exact ⟨order, h1, h0, h4, safe L hu hat (C93_sequential pre hpre hfree).2.2 h1 h3 hd hfew⟩

end VF.Props
