import Verif.Proofs.ReportsStep

/-! # Reports handled at the same time: every event keeps the invariant -/

namespace VF.Reports

open Util Hid Spec.Ctaphid Spec.Service Spec.Calls

variable {s : State} {handled refused : List Bytes} {calls : List Call} {sent : List Msg}

theorem inv_arrive (inv : Inv s handled refused calls sent) {m : Bytes} (hm : m.length ≤ 64) :
    Inv (s.arrive m) handled refused calls sent := by
  have hlt : ∀ (i : Nat) (r : Routine), s.routines[i]? = some r → (s.arrive m).routines[i]? = some r := by
    intro i r h
    show (s.routines ++ _)[i]? = _
    rw [List.getElem?_append_left (List.getElem?_eq_some_iff.mp h).1, h]
  have hget : ∀ (i : Nat) (r : Routine), (s.arrive m).routines[i]? = some r → s.routines[i]? = some r ∨
      r.phase = .arrived := by
    intro i r h
    change (s.routines ++ _)[i]? = _ at h
    by_cases hi : i < s.routines.length
    · rw [List.getElem?_append_left hi] at h; exact .inl h
    · rw [List.getElem?_append_right (by omega)] at h
      have := List.mem_of_getElem? h
      rw [List.mem_singleton] at this
      rw [this]
      exact .inr rfl
  have hH : ∀ (p : Nat) (c : Chan), s.chans[p]? = some c → (s.arrive m).holderAt c.holder = s.holderAt c.holder := by
    intro p c hc
    unfold State.holderAt
    rcases hh : c.holder with _ | i
    · rfl
    · obtain ⟨r, hr, -⟩ := (inv.hold p c i hc).mp hh
      simp only [Option.bind_some, hr, hlt i r hr]
  have hrest : (s.arrive m).rest = s.rest := by
    unfold State.rest
    show (match s.responses with | none => _ | some i => _) = _
    rcases hs : s.responses with _ | i
    · rfl
    · obtain ⟨r, q, xs, hr, hp⟩ := (inv.resp i).mp hs
      dsimp only
      rw [hlt i r hr, hr]
  refine ⟨inv.table_iff, inv.count, inv.range, ?_, inv.grows, ?_, ?_, ?_, ?_, ?_, inv.good, ?_, inv.closed, ?_⟩
  · show (handled ++ refused).Perm (((s.routines ++ [(⟨m, .arrived, none⟩ : Routine)]).filter fun r => r.phase.taken).map (·.report))
    simpa [List.filter_append, Phase.taken] using inv.taken
  · intro r hr
    change r ∈ s.routines ++ [⟨m, .arrived, none⟩] at hr
    rw [List.mem_append, List.mem_singleton] at hr
    rcases hr with hr | rfl
    · exact inv.small r hr
    · exact hm
  · intro i r p hr hp
    rcases hget i r hr with h | h
    · exact inv.about i r p h hp
    · rw [h] at hp; cases hp
  · intro p c i hc
    rw [inv.hold p c i hc]
    constructor
    · rintro ⟨r, hr, hp⟩; exact ⟨r, hlt i r hr, hp⟩
    · rintro ⟨r, hr, hp⟩
      rcases hget i r hr with h | h
      · exact ⟨r, h, hp⟩
      · rw [h] at hp; cases hp
  · intro i
    show s.responses = some i ↔ _
    rw [inv.resp i]
    constructor
    · rintro ⟨r, q, xs, hr, hp⟩; exact ⟨r, q, xs, hlt i r hr, hp⟩
    · rintro ⟨r, q, xs, hr, hp⟩
      rcases hget i r hr with h | h
      · exact ⟨r, q, xs, h, hp⟩
      · rw [h] at hp; cases hp
  · rw [hrest]; exact inv.outs
  · intro i r xs hr hp
    rcases hget i r hr with h | h
    · exact inv.lone i r xs h hp
    · rw [h] at hp; cases hp
  · intro p c hc
    rw [hH p c hc]
    exact inv.conv p c hc

/-- The response handler gets messages that are none of the authenticator's. -/
theorem inv_keepalive (inv : Inv s handled refused calls sent) (m : Msg) (hs : s.responses = none)
    (hf : forAuthenticator m.2.1 = false) (hok : Msg.Ok m) :
    Inv { s with out := s.out ++ Msg.packets m } handled refused calls (sent ++ [m]) := by
  have hsent : ∀ cid, sentOn cid (sent ++ [m]) = sentOn cid sent := by
    intro cid
    rw [sentOn_append, sentOn_other (ms := [m]) (fun x hx => by rw [List.mem_singleton] at hx; rw [hx]; exact .inr hf)]
    simp
  have hrest : s.rest = [] := rest_none hs
  have hrest' : ({ s with out := s.out ++ Msg.packets m } : State).rest = [] := rest_none hs
  refine ⟨inv.table_iff, inv.count, inv.range, inv.taken, inv.grows, inv.small, inv.about, inv.hold, inv.resp, ?_, ?_,
    inv.lone, ?_, ?_⟩
  · rw [hrest']
    have := inv.outs
    rw [hrest, List.append_nil] at this
    simp [this]
  · intro x hx h
    rw [List.mem_append, List.mem_singleton] at hx
    rcases hx with hx | rfl
    · exact inv.good x hx h
    · exact hok
  · intro cid h
    rw [hsent]; exact inv.closed cid h
  · intro p c h
    rw [hsent]; exact inv.conv p c h

/-! ## Steps of one goroutine -/

/-- Looking up the channel: there is none. -/
theorem inv_unknown (inv : Inv s handled refused calls sent) {i : Nat} {r : Routine} (hr : s.routines[i]? = some r)
    (hp : r.phase = .arrived) {cid : UInt32} (hm : channelOf r.report = some cid) (ht : s.table cid = none) :
    Inv (s.goes i (.sending none (createResponsePackets cid cmdError [errInvalidChannel])))
      handled (refused ++ [r.report]) calls sent := by
  rw [goes_eq hr]
  refine inv.updateLone hr rfl rfl rfl rfl rfl (by rw [hp]; rfl) rfl ?_ ?_ ?_ (fun _ => rfl) ?_ ?_ inv.good
  · intro p h; cases h
  · intro xs h
    cases h
    exact ⟨(cid, cmdError, [errInvalidChannel]), rfl, rfl, Nat.le_of_ble_eq_true rfl, by simp, by simp⟩
  · rw [← List.append_assoc]
    exact taken_set_new hr (by rfl) (by rw [hp]; rfl) (by rfl) inv.taken
  · exact resp_keep inv.resp hr (by rw [hp]; intro q xs h; cases h) (by intro q xs h; cases h)
  · exact outs_keep inv hr (by rw [hp]; intro q xs h; cases h) (by rfl) (by rfl) (by rfl)

/-- Looking up the channel. -/
theorem inv_found (inv : Inv s handled refused calls sent) {i p : Nat} {r : Routine} (hr : s.routines[i]? = some r)
    (hp : r.phase = .arrived) {cid : UInt32} (hm : channelOf r.report = some cid) (ht : s.table cid = some p) :
    Inv (s.goes i (.waiting p)) handled refused calls sent := by
  rw [goes_eq hr]
  refine inv.updateLone hr rfl rfl rfl rfl rfl (by rw [hp]; rfl) rfl ?_ ?_ ?_
    (fun _ => rfl) ?_ ?_ inv.good
  · intro q h
    cases h
    obtain ⟨c, h1, h2⟩ := (inv.table_iff cid p).mp ht
    exact ⟨c, h1, by rw [h2]; exact hm⟩
  · intro xs h; cases h
  · exact taken_keep inv hr (by rfl) (by rw [hp]; rfl)
  · exact resp_keep inv.resp hr (by rw [hp]; intro q xs h; cases h) (by intro q xs h; cases h)
  · exact outs_keep inv hr (by rw [hp]; intro q xs h; cases h) (by rfl) (by rfl) (by rfl)

/-- Locking the channel. -/
theorem inv_lock (inv : Inv s handled refused calls sent) {i p : Nat} {r : Routine} {c : Chan}
    (hr : s.routines[i]? = some r) (hp : r.phase = .waiting p) (hc : s.chans[p]? = some c) (hf : c.holder = none) :
    Inv ((s.setHolder p (some i)).goes i (.inside p)) handled refused calls sent := by
  have e : (s.setHolder p (some i)).goes i (.inside p) =
      { s with
        chans := s.chans.set p { c with holder := some i }
        routines := s.routines.set i { r with phase := .inside p } } := by
    have hr' : (s.setHolder p (some i)).routines[i]? = some r := hr
    rw [goes_eq hr']
    simp only [State.setHolder, modify_chan hc]
  rw [e]
  have hconv := inv.conv p c hc
  rw [hf] at hconv
  refine inv.update hr hc rfl rfl rfl rfl rfl rfl (by rw [hp]; rfl) (.inr ⟨by rw [hp]; rfl, hf⟩) (.inl ⟨rfl, rfl⟩) rfl
    (fun xs h => by cases h) ?_ inv.grows (fun _ _ => ⟨rfl, rfl, rfl⟩) ?_ ?_ inv.good ?_
  · exact taken_keep inv hr (by rfl) (by rw [hp]; rfl)
  · exact resp_keep inv.resp hr (by rw [hp]; intro q xs h; cases h) (by intro q xs h; cases h)
  · exact outs_keep inv hr (by rw [hp]; intro q xs h; cases h) (by rfl) (by rfl) (by rfl)
  · simp only [Option.bind_some, if_true]
    change Conv _ _ _ _ _ none at hconv
    cases hconv with
    | idle ho ha hs => exact .inside ho ha hs

/-- Locking `responsesLock`. -/
theorem inv_send (inv : Inv s handled refused calls sent) {i : Nat} {r : Routine} {q : Option Nat} {packets : List Bytes}
    (hr : s.routines[i]? = some r) (hp : r.phase = .sending q packets) (hs : s.responses = none) :
    ∃ ms : List Msg, Inv ({ s with responses := some i }.goes i (.writing q packets)) handled refused calls (sent ++ ms) := by
  have hr' : ({ s with responses := some i } : State).routines[i]? = some r := hr
  rw [goes_eq hr']
  have hresp : ∀ j : Nat, (some i : Option Nat) = some j ↔
      ∃ (x : Routine) (q' : Option Nat) (xs : List Bytes),
        (s.routines.set i { r with phase := .writing q packets })[j]? = some x ∧ x.phase = .writing q' xs := by
    intro j
    constructor
    · intro h
      cases h
      exact ⟨_, q, packets, get_set_self hr, rfl⟩
    · rintro ⟨x, q', xs, hx, hxp⟩
      by_cases hij : i = j
      · rw [hij]
      · rw [get_set_ne hij] at hx
        have := (inv.resp j).mpr ⟨x, q', xs, hx, hxp⟩
        rw [hs] at this; cases this
  have houts : ∀ ms : List Msg, packets = (ms.map Msg.packets).flatten →
      s.out ++ ({ s with
        responses := some i
        routines := s.routines.set i { r with phase := .writing q packets } } : State).rest =
      ((sent ++ ms).map Msg.packets).flatten := by
    intro ms hms
    rw [rest_writing (i := i) (q := q) (xs := packets) rfl (get_set_self hr) rfl]
    have := inv.outs
    rw [rest_none hs, List.append_nil] at this
    rw [this, hms]
    simp
  cases q with
  | none =>
    obtain ⟨m, hm, hf, hok⟩ := inv.lone i r packets hr hp
    refine ⟨[m], ?_⟩
    refine inv.updateLone hr rfl rfl rfl rfl rfl (by rw [hp]; rfl) rfl ?_ ?_ ?_
      ?_ hresp (houts [m] (by simp [hm])) ?_
    · intro p h; cases h
    · intro xs h; cases h
    · exact taken_keep inv hr (by rfl) (by rw [hp]; rfl)
    · intro cid
      rw [sentOn_append, sentOn_other (ms := [m]) (fun x hx => by rw [List.mem_singleton] at hx; rw [hx]; exact .inr hf)]
      simp
    · intro x hx h
      rw [List.mem_append, List.mem_singleton] at hx
      rcases hx with hx | rfl
      · exact inv.good x hx h
      · exact hok
  | some p =>
    obtain ⟨c, hc, hch, hh, hat⟩ := inv.holds_holder hr (p := p) (by rw [hp]; rfl)
    have hconv := inv.conv p c hc
    rw [hat, hp] at hconv
    cases hconv with
    | sending ms hpk hid hok ho ha hss =>
      refine ⟨ms, ?_⟩
      refine inv.update (c' := c) hr hc rfl ?_ rfl rfl rfl rfl (by rw [hp]; rfl) (.inl (by rw [hp]; rfl))
        (.inl ⟨rfl, hh⟩) rfl (fun xs h => by cases h) ?_ inv.grows ?_ hresp (houts ms hpk) ?_ ?_
      · apply List.ext_getElem?
        intro j
        rw [List.getElem?_set]
        split
        · rename_i hj
          subst hj
          rw [hc]
          simp [(List.getElem?_eq_some_iff.mp hc).1]
        · rfl
      · exact taken_keep inv hr (by rfl) (by rw [hp]; rfl)
      · intro cid hcid
        refine ⟨rfl, rfl, ?_⟩
        rw [sentOn_append, sentOn_other (ms := ms) (fun m hm => .inl (by rw [hid m hm]; exact fun h => hcid h.symm))]
        simp
      · intro x hx h
        rw [List.mem_append] at hx
        rcases hx with hx | hx
        · exact inv.good x hx h
        · exact hok x hx h
      · rw [hh]
        simp only [Option.bind_some, if_true]
        rw [sentOn_append, hss]
        exact .writing ho ha rfl

/-- Sending a packet. -/
theorem inv_packet (inv : Inv s handled refused calls sent) {i : Nat} {r : Routine} {q : Option Nat} {x : Bytes}
    {xs : List Bytes} (hr : s.routines[i]? = some r) (hp : r.phase = .writing q (x :: xs)) :
    Inv ({ s with out := s.out ++ [x] }.goes i (.writing q xs)) handled refused calls sent := by
  have hr' : ({ s with out := s.out ++ [x] } : State).routines[i]? = some r := hr
  rw [goes_eq hr']
  have hs : s.responses = some i := (inv.resp i).mpr ⟨r, q, _, hr, hp⟩
  have hresp : ∀ j : Nat, s.responses = some j ↔
      ∃ (y : Routine) (q' : Option Nat) (ys : List Bytes),
        (s.routines.set i { r with phase := .writing q xs })[j]? = some y ∧ y.phase = .writing q' ys := by
    intro j
    by_cases hij : i = j
    · subst hij
      rw [get_set_self hr]
      exact ⟨fun _ => ⟨_, q, xs, rfl, rfl⟩, fun _ => hs⟩
    · rw [get_set_ne hij]
      exact inv.resp j
  have houts : (s.out ++ [x]) ++ ({ s with
        out := s.out ++ [x]
        routines := s.routines.set i { r with phase := .writing q xs } } : State).rest =
      (sent.map Msg.packets).flatten := by
    have hrest : ({ s with
        out := s.out ++ [x]
        routines := s.routines.set i { r with phase := .writing q xs } } : State).rest = xs :=
      rest_writing (i := i) (q := q) (by exact hs) (by exact get_set_self hr) (by rfl)
    rw [hrest]
    have := inv.outs
    rw [rest_writing hs hr hp] at this
    rw [← this]
    simp
  cases q with
  | none =>
    refine inv.updateLone hr rfl rfl rfl rfl rfl (by rw [hp]; rfl) rfl ?_ ?_ ?_
      (fun _ => rfl) hresp houts inv.good
    · intro p h; cases h
    · intro xs h; cases h
    · exact taken_keep inv hr (by rfl) (by rw [hp]; rfl)
  | some p =>
    obtain ⟨c, hc, hch, hh, hat⟩ := inv.holds_holder hr (p := p) (by rw [hp]; rfl)
    have hconv := inv.conv p c hc
    rw [hat, hp] at hconv
    cases hconv with
    | writing ho ha hss =>
      refine inv.update (c' := c) hr hc rfl ?_ rfl rfl rfl rfl (by rw [hp]; rfl) (.inl (by rw [hp]; rfl))
        (.inl ⟨rfl, hh⟩) rfl (fun xs h => by cases h) ?_ inv.grows (fun _ _ => ⟨rfl, rfl, rfl⟩) hresp houts inv.good ?_
      · apply List.ext_getElem?
        intro j
        rw [List.getElem?_set]
        split
        · rename_i hj
          subst hj
          rw [hc]
          simp [(List.getElem?_eq_some_iff.mp hc).1]
        · rfl
      · exact taken_keep inv hr (by rfl) (by rw [hp]; rfl)
      · rw [hh]
        simp only [Option.bind_some, if_true]
        exact .writing ho ha hss

theorem leave_eq {i p : Nat} {r : Routine} {c : Chan} (hr : s.routines[i]? = some r) (hc : s.chans[p]? = some c) :
    s.leave i (some p) =
      { s with
        chans := s.chans.set p { c with transaction := none, holder := none }
        routines := s.routines.set i { r with phase := .done } } := by
  unfold State.leave
  dsimp only
  have hr' : ((s.setTx p none).setHolder p none).routines[i]? = some r := hr
  rw [goes_eq hr']
  have h1 : (s.setTx p none).chans[p]? = some { c with transaction := none } := by
    simp only [State.setTx, modify_chan hc]
    exact get_set_self hc
  have h2 : ((s.setTx p none).chans.modify p fun c => { c with holder := none }) =
      s.chans.set p { c with transaction := none, holder := none } := by
    rw [modify_chan h1]
    simp only [State.setTx, modify_chan hc, List.set_set]
  simp only [State.setHolder, h2]
  rfl

/-- All packets are sent. -/
theorem inv_sent (inv : Inv s handled refused calls sent) {i : Nat} {r : Routine} {q : Option Nat}
    (hr : s.routines[i]? = some r) (hp : r.phase = .writing q []) :
    Inv ({ s with responses := none }.leave i q) handled refused calls sent := by
  have hs : s.responses = some i := (inv.resp i).mpr ⟨r, q, _, hr, hp⟩
  have hresp : ∀ j : Nat, (none : Option Nat) = some j ↔
      ∃ (y : Routine) (q' : Option Nat) (ys : List Bytes),
        (s.routines.set i { r with phase := .done })[j]? = some y ∧ y.phase = .writing q' ys := by
    intro j
    constructor
    · intro h; cases h
    · rintro ⟨y, q', ys, hy, hyp⟩
      by_cases hij : i = j
      · subst hij
        rw [get_set_self hr] at hy
        cases hy; cases hyp
      · rw [get_set_ne hij] at hy
        have := (inv.resp j).mpr ⟨y, q', ys, hy, hyp⟩
        rw [hs] at this
        exact absurd (Option.some.inj this) hij
  have houts : s.out = (sent.map Msg.packets).flatten := by
    have := inv.outs
    rw [rest_writing hs hr hp] at this
    simpa using this
  have hr' : ({ s with responses := none } : State).routines[i]? = some r := hr
  cases q with
  | none =>
    unfold State.leave
    dsimp only
    rw [goes_eq hr']
    refine inv.updateLone hr rfl rfl rfl rfl rfl (by rw [hp]; rfl) rfl ?_ ?_ ?_
      (fun _ => rfl) hresp ?_ inv.good
    · intro p h; cases h
    · intro xs h; cases h
    · exact taken_keep inv hr (by rfl) (by rw [hp]; rfl)
    · rw [rest_none rfl, List.append_nil]; exact houts
  | some p =>
    obtain ⟨c, hc, hch, hh, hat⟩ := inv.holds_holder hr (p := p) (by rw [hp]; rfl)
    have hconv := inv.conv p c hc
    rw [hat, hp] at hconv
    have hc' : ({ s with responses := none } : State).chans[p]? = some c := hc
    rw [leave_eq hr' hc']
    cases hconv with
    | writing ho ha hss =>
      refine inv.update hr hc rfl rfl rfl rfl rfl rfl (by rw [hp]; rfl) (.inl (by rw [hp]; rfl))
        (.inr ⟨rfl, rfl⟩) rfl (fun xs h => by cases h) ?_ inv.grows (fun _ _ => ⟨rfl, rfl, rfl⟩) hresp ?_ inv.good ?_
      · exact taken_keep inv hr (by rfl) (by rw [hp]; rfl)
      · rw [rest_none rfl, List.append_nil]; exact houts
      · exact .idle ho ha hss

/-- The authenticator answers. -/
theorem inv_answer (inv : Inv s handled refused calls sent) {i p ticket : Nat} {cid : UInt32} {cmd : UInt8}
    {payload a : Bytes} {r : Routine} (hr : s.routines[i]? = some r)
    (hp : r.phase = .calling p ticket cid cmd payload) :
    ∃ calls', Inv (s.goes i (.sending (some p) (createResponsePackets cid cmd a))) handled refused calls' sent ∧
      Next s (s.goes i (.sending (some p) (createResponsePackets cid cmd a))) calls (.answer i (some a)) calls' := by
  obtain ⟨c, hc, hch, hh, hat⟩ := inv.holds_holder hr (p := p) (by rw [hp]; rfl)
  have hconv := inv.conv p c hc
  rw [hat, hp] at hconv
  generalize hcid : c.channelId = id at hconv
  cases hconv with
  | calling ks0 hk hcmd ho ha hss =>
    refine ⟨_, ?_, .answer cid hr hp ?_ ?_⟩
    · rw [goes_eq hr]
      have hon : callsOn cid (calls.map fun k => if k.channel = cid ∧ k.answer = none then { k with answer := some a } else k) =
          ks0 ++ [⟨i, ticket, cid, cmd, payload, some a⟩] := by
        have h1 : callsOn cid (calls.map fun k => if k.channel = cid ∧ k.answer = none then { k with answer := some a } else k) =
            (callsOn cid calls).map fun k => if k.channel = cid ∧ k.answer = none then { k with answer := some a } else k := by
          unfold callsOn
          rw [List.filter_map]
          congr 1
          apply List.filter_congr
          intro k _
          simp only [Function.comp]
          split <;> rfl
        rw [h1, hk, List.map_append]
        congr 1
        · rw [List.map_congr_left (g := id), List.map_id]
          intro k hk
          have := ha k hk
          cases hka : k.answer with
          | none => rw [hka] at this; cases this
          | some b => simp
        · simp
      refine inv.update (c' := c) hr hc rfl ?_ rfl rfl rfl rfl (by rw [hp]; rfl) (.inl (by rw [hp]; rfl))
        (.inl ⟨rfl, hh⟩) rfl (fun xs h => by cases h) ?_ inv.grows ?_ ?_ ?_ inv.good ?_
      · apply List.ext_getElem?
        intro j
        rw [List.getElem?_set]
        split
        · rename_i hj
          subst hj
          rw [hc]
          simp [(List.getElem?_eq_some_iff.mp hc).1]
        · rfl
      · exact taken_keep inv hr (by rfl) (by rw [hp]; rfl)
      · intro cid' hcid'
        refine ⟨rfl, ?_, rfl⟩
        rw [hcid] at hcid'
        unfold callsOn
        rw [List.filter_map]
        have : ((fun k : Call => k.channel == cid') ∘ fun k : Call =>
            if k.channel = cid ∧ k.answer = none then { k with answer := some a } else k) =
            fun k => k.channel == cid' := by
          funext k
          simp only [Function.comp]
          split <;> rfl
        rw [this, List.map_congr_left (g := id), List.map_id]
        intro k hk
        have h1 := (List.mem_filter.mp hk).2
        have h2 : k.channel ≠ cid := by
          intro h
          rw [h] at h1
          exact hcid' (by simpa using h1 : cid = cid').symm
        simp [h2]
      · exact resp_keep inv.resp hr (by rw [hp]; intro q xs h; cases h) (by intro q xs h; cases h)
      · exact outs_keep inv hr (by rw [hp]; intro q xs h; cases h) (by rfl) (by rfl) (by rfl)
      · rw [hh, hcid, hon]
        simp only [Option.bind_some, if_true]
        have hf : forAuthenticator cmd = true := by rcases hcmd with rfl | rfl <;> rfl
        refine .sending [(cid, cmd, a)] (by simp [Msg.packets]) (by simp) ?_ ?_ ?_ ?_
        · intro m hm h
          rw [List.mem_singleton] at hm
          subst hm
          rw [hf] at h; cases h
        · obtain ⟨all, window, h1, h2, h3⟩ := ho
          refine ⟨all, window, h1, ?_, h3⟩
          rw [← h2, hk]
          simp [asked]
        · intro k hkk
          rw [List.mem_append, List.mem_singleton] at hkk
          rcases hkk with h | rfl
          · exact ha k h
          · rfl
        · rw [hss, hk, results_append, results_append]
          simp [results, sentOn, hf]
    · intro k hkc hch2 hnone
      have : k ∈ callsOn cid calls := List.mem_filter.mpr ⟨hkc, by simp [hch2]⟩
      rw [hk, List.mem_append, List.mem_singleton] at this
      rcases this with h | h
      · have := ha k h
        rw [hnone] at this; cases this
      · exact h
    · have : (⟨i, ticket, cid, cmd, payload, none⟩ : Call) ∈ callsOn cid calls := by rw [hk]; simp
      exact (List.mem_filter.mp this).1

end VF.Reports
