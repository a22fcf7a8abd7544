import Verif.Proofs.MacDriver

/-!
# C121: the memory of the macOS driver
-/

namespace VF.Props

open VF.MacMemory VF.Spec.MacMemory

theorem references_lost : ∀ (cs : List Call) (d : Driver) (o : Nat),
    d.references (o + (if d.device then 1 else 0) + (if d.notified then 1 else 0)) cs =
      o + lostAll d cs + (if (d.run cs).2.device then 1 else 0) + (if (d.run cs).2.notified then 1 else 0)
  | [], d, o => rfl
  | c :: cs, d, o => by
    have ih := references_lost cs (d.step c).2 (o + lostObjects d c)
    rw [show o + lostAll d (c :: cs) = o + lostObjects d c + lostAll (d.step c).2 cs from
      (Nat.add_assoc ..).symm]
    show _ = _ + lostAll (d.step c).2 cs + (if ((d.step c).2.run cs).2.device then 1 else 0) +
      (if ((d.step c).2.run cs).2.notified then 1 else 0)
    rw [← ih]
    refine congrArg (fun n => (d.step c).2.references n cs) ?_
    cases c with
    | setReport r =>
      show _ = o + 0 + _ + _
      simp only [Driver.step]
      by_cases h : d.notified = true
      · simp [h]
      · simp [h]
    | stop =>
      show (if d.device then _ else _) = o + 0 + _ + _
      simp only [Driver.step]
      by_cases h : d.device = true <;> by_cases h' : d.notified = true <;> simp [h, h']
    | method n a =>
      obtain ⟨input, completion, created⟩ := a
      match n with
      | 0 =>
        cases input with
        | nil => cases completion <;> rfl
        | cons x data =>
          cases completion with
          | true => rfl
          | false =>
            have h2 : (d.step (.method 0 ⟨x :: data, false, created⟩)).2.device = d.device ∧
                (d.step (.method 0 ⟨x :: data, false, created⟩)).2.notified = d.notified := by
              simp only [Driver.step]
              by_cases h : data.length ≠ 64 ∨ x.toNat = 0 ∨ 64 < x.toNat
              · rw [if_pos h]
                exact ⟨rfl, rfl⟩
              · rw [if_neg h]
                by_cases h' : d.device = true <;> simp [h']
            rw [h2.1, h2.2]
            rfl
      | 1 =>
        cases input with
        | cons x data => cases completion <;> rfl
        | nil =>
          cases completion with
          | false => rfl
          | true =>
            simp only [Driver.step, lostObjects]
            by_cases h : d.notified = true <;> by_cases h' : d.device = true <;> simp [h, h']
      | 2 =>
        cases input with
        | cons x data => cases completion <;> rfl
        | nil =>
          cases completion with
          | true => rfl
          | false =>
            have h2 : (d.step (.method 2 ⟨[], false, created⟩)).2.device = d.device ∧
                (d.step (.method 2 ⟨[], false, created⟩)).2.notified = d.notified := by
              simp only [Driver.step]
              cases d.waiting <;> exact ⟨rfl, rfl⟩
            rw [h2.1, h2.2]
            rfl
      | 3 =>
        cases input with
        | cons x data => cases completion <;> rfl
        | nil =>
          cases completion with
          | true => rfl
          | false =>
            cases created <;> simp only [Driver.step, lostObjects] <;>
            by_cases h : d.notified = true <;> by_cases h' : d.device = true <;> simp [h, h'] <;> omega
      | k + 4 => rfl

theorem get_iff_mem {H : Heap} (h : (H.map (·.1)).Nodup) (a : Addr) (c : Cell) :
    H.get a = some c ↔ (a, c) ∈ H := by
  constructor
  · intro hg
    unfold Heap.get at hg
    cases hf : H.find? (fun x => x.1 == a) with
    | none => rw [hf] at hg; exact nomatch hg
    | some x =>
      rw [hf] at hg
      have h1 := List.mem_of_find?_eq_some hf
      have h2 := List.find?_some hf
      have h2 : x.1 = a := by simpa using h2
      have h3 : x.2 = c := Option.some.inj hg
      rw [← h2, ← h3]
      exact h1
  · exact get_mem h

theorem undisturbed_of {m m' : Mem} (hm : Sane m) {K : Heap} (h : Has m' (K ++ m.heap)) : Undisturbed m m' := by
  intro a c hg
  rw [get_iff_mem hm.1] at hg
  refine get_mem h.2.1 (h.1.mem_iff.mpr (List.mem_append_right _ hg))

/-- **C121 (no access is wrong, and nothing is lost on the way).** Whatever memory the system hands out, and whatever
calls the driver gets, with reports of at most 64 bytes and no call of StopDevice: it reads, writes and frees only what is
allocated, the answers and what hosts are sent are those of a driver with a plain queue, and what others have in memory is
as it was; and the driver can be closed at any time. -/
theorem C121_no_fault {pick : Nat → Heap → Addr} (hp : Provides pick) {m : Mem} (hm : Sane m) (calls : List Call)
    (hc : ∀ c ∈ calls, Fine c) :
    ∃ this m0 m1 m2, init pick m = .ok (this, m0) ∧ this ≠ 0 ∧
      run pick this calls m0 = .ok ((Driver.run { sent := m.sent } calls).1, m1) ∧
      m1.sent = (Driver.run { sent := m.sent } calls).2.sent ∧ destroy this m1 = .ok ((), m2) ∧
      Undisturbed m m1 ∧ Undisturbed m m2 := by
  obtain ⟨this, m0, e0, h0⟩ := init_run hp hm
  obtain ⟨m1, e1, h1⟩ := run_run hp calls h0 hc
  obtain ⟨m2, K, e2, h2, _⟩ := destroy_run h1
  have hs : m1.sent = (Driver.run { sent := m.sent } calls).2.sent := by
    obtain ⟨_, _, _, _, _, _, _, _, _, _, _, hs, _⟩ := h1
    exact hs
  have ht : this ≠ 0 := by
    obtain ⟨_, _, _, _, _, hh, _⟩ := h1
    exact hh.ne
  obtain ⟨i, l, N, K', hp', _⟩ := h1.parts
  refine ⟨this, m0, m1, m2, e0, ht, e1, hs, e2, undisturbed_of hm (K := i :: l :: (N ++ K')) ?_, undisturbed_of hm h2⟩
  simpa using hp'

theorem count_parts {p : Addr × Cell → Bool} {K : Heap} (h : ∀ x ∈ K, p x = false) : K.countP p = 0 :=
  List.countP_eq_zero.mpr fun x hx hpx => by rw [h x hx] at hpx; exact nomatch hpx

theorem frame_not_other {x : Addr × Cell} (h : isFrame x = true ∨ isObject x = true) :
    isNode x = false ∧ isList x = false ∧ isIvars x = false := by
  obtain ⟨a, c⟩ := x
  cases c <;> simp_all [isFrame, isObject, isNode, isList, isIvars]

theorem node_not_other {x : Addr × Cell} (h : isNode x = true) :
    isFrame x = false ∧ isObject x = false ∧ isList x = false ∧ isIvars x = false := by
  obtain ⟨a, c⟩ := x
  cases c <;> simp_all [isFrame, isObject, isNode, isList, isIvars]

theorem list_not_other {x : Addr × Cell} (h : isList x = true) :
    isFrame x = false ∧ isObject x = false ∧ isNode x = false ∧ isIvars x = false := by
  obtain ⟨a, c⟩ := x
  cases c <;> simp_all [isFrame, isObject, isNode, isList, isIvars]

theorem ivars_not_other {x : Addr × Cell} (h : isIvars x = true) :
    isFrame x = false ∧ isObject x = false ∧ isNode x = false ∧ isList x = false := by
  obtain ⟨a, c⟩ := x
  cases c <;> simp_all [isFrame, isObject, isNode, isList, isIvars]

/-- **C121 (how much memory).** While it runs, the driver has allocated: its own object and its list, a node for each report
waiting, a frame for each report waiting and for each ever forgotten, and the references to completions and devices. -/
theorem C121_memory_in_use {pick : Nat → Heap → Addr} (hp : Provides pick) {m : Mem} (hm : Sane m) (calls : List Call)
    (hc : ∀ c ∈ calls, Fine c) {this : Addr} {m0 m1 : Mem} {rs : List Ret} (hi : init pick m = .ok (this, m0))
    (hr : run pick this calls m0 = .ok (rs, m1)) :
    let d := (Driver.run { sent := m.sent } calls).2
    ivarses m1 = ivarses m + 1 ∧ lists m1 = lists m + 1 ∧ nodes m1 = nodes m + d.waiting.length ∧
      d.waiting.length ≤ 17 ∧
      frames m1 = frames m + d.waiting.length + Driver.forgotten { sent := m.sent } calls ∧
      objects m1 = objects m + Driver.references { sent := m.sent } 0 calls := by
  obtain ⟨this', m0', e0, h0⟩ := init_run hp hm
  rw [hi] at e0
  cases e0
  obtain ⟨m1', e1, h1⟩ := run_run hp calls h0 hc
  rw [hr] at e1
  cases e1
  have hrf := references_lost calls { sent := m.sent } 0
  have h17 : (Driver.run { sent := m.sent } calls).2.waiting.length ≤ 17 := by
    obtain ⟨_, _, _, _, _, _, hw, _, h17, _⟩ := h1
    rw [hw, List.length_map]
    exact h17
  obtain ⟨i, l, N, K, hh, hi', hl', hN, hN', k1, k2, k3⟩ := h1.parts
  have c := fun p : Addr × Cell → Bool => hh.1.countP_eq p
  simp only [List.countP_cons, List.countP_append] at c
  have nN : N.countP isNode = N.length := List.countP_eq_length.mpr hN'
  have zN1 := count_parts (p := isFrame) fun x hx => (node_not_other (hN' x hx)).1
  have zN2 := count_parts (p := isObject) fun x hx => (node_not_other (hN' x hx)).2.1
  have zN3 := count_parts (p := isList) fun x hx => (node_not_other (hN' x hx)).2.2.1
  have zN4 := count_parts (p := isIvars) fun x hx => (node_not_other (hN' x hx)).2.2.2
  have zK1 := count_parts (p := isNode) fun x hx => (frame_not_other (k3 x hx)).1
  have zK2 := count_parts (p := isList) fun x hx => (frame_not_other (k3 x hx)).2.1
  have zK3 := count_parts (p := isIvars) fun x hx => (frame_not_other (k3 x hx)).2.2
  obtain ⟨l1, l2, l3, l4⟩ := list_not_other hl'
  obtain ⟨i1, i2, i3, i4⟩ := ivars_not_other hi'
  dsimp only
  refine ⟨?_, ?_, ?_, h17, ?_, ?_⟩
  · show m1.heap.countP isIvars = m.heap.countP isIvars + 1
    rw [c, zN4, zK3, hi', l4]
    simp
  · show m1.heap.countP isList = m.heap.countP isList + 1
    rw [c, zN3, zK2, hl', i4]
    simp
  · show m1.heap.countP isNode = m.heap.countP isNode + _
    rw [c, nN, zK1, hN, l3, i3]
    simp
    omega
  · show m1.heap.countP isFrame = m.heap.countP isFrame + _ + _
    rw [c, zN1, k1, l1, i1]
    simp
    omega
  · show m1.heap.countP isObject = m.heap.countP isObject + _
    rw [c, zN2, k2, l2, i2]
    simp at hrf ⊢
    omega

/-- **C121 (what is left).** When the driver is closed its object, its list and all nodes are freed.  The frames of the reports
still waiting and of those it ever forgot are not, and the references to completions and devices are not given back. -/
theorem C121_left_after_close {pick : Nat → Heap → Addr} (hp : Provides pick) {m : Mem} (hm : Sane m)
    (calls : List Call) (hc : ∀ c ∈ calls, Fine c) {this : Addr} {m0 m1 m2 : Mem} {rs : List Ret}
    (hi : init pick m = .ok (this, m0)) (hr : run pick this calls m0 = .ok (rs, m1))
    (hd : destroy this m1 = .ok ((), m2)) :
    ivarses m2 = ivarses m ∧ lists m2 = lists m ∧ nodes m2 = nodes m ∧
      frames m2 = frames m + (Driver.run { sent := m.sent } calls).2.waiting.length +
        Driver.forgotten { sent := m.sent } calls ∧
      objects m2 = objects m + Driver.references { sent := m.sent } 0 calls := by
  obtain ⟨this', m0', e0, h0⟩ := init_run hp hm
  rw [hi] at e0
  cases e0
  obtain ⟨m1', e1, h1⟩ := run_run hp calls h0 hc
  rw [hr] at e1
  cases e1
  have hrf := references_lost calls { sent := m.sent } 0
  obtain ⟨m2', K, e2, hh, k1, k2, k3⟩ := destroy_run h1
  rw [hd] at e2
  cases e2
  have c := fun p : Addr × Cell → Bool => hh.1.countP_eq p
  simp only [List.countP_append] at c
  have zK1 := count_parts (p := isNode) fun x hx => (frame_not_other (k3 x hx)).1
  have zK2 := count_parts (p := isList) fun x hx => (frame_not_other (k3 x hx)).2.1
  have zK3 := count_parts (p := isIvars) fun x hx => (frame_not_other (k3 x hx)).2.2
  refine ⟨?_, ?_, ?_, ?_, ?_⟩
  · show m2.heap.countP isIvars = m.heap.countP isIvars
    rw [c, zK3, Nat.zero_add]
  · show m2.heap.countP isList = m.heap.countP isList
    rw [c, zK2, Nat.zero_add]
  · show m2.heap.countP isNode = m.heap.countP isNode
    rw [c, zK1, Nat.zero_add]
  · show m2.heap.countP isFrame = m.heap.countP isFrame + _ + _
    rw [c, k1]
    omega
  · show m2.heap.countP isObject = m.heap.countP isObject + _
    rw [c, k2]
    simp at hrf ⊢
    omega

/-- Somebody asks to be notified, and so many reports come that nobody fetches. -/
def flood (n : Nat) : List Call := .method 1 ⟨[], true, false⟩ :: List.replicate n (.setReport [1])

theorem flood_fine (n : Nat) : ∀ c ∈ flood n, Fine c := by
  intro c hc
  rcases List.mem_cons.mp hc with rfl | hc
  · exact trivial
  · rw [(List.mem_replicate.mp hc).2]
    show ([1] : Bytes).length ≤ 64
    decide

theorem reports_frames : ∀ (n : Nat) (d : Driver), d.notified = true →
    (d.run (List.replicate n (.setReport [1]))).2.waiting.length + d.forgotten (List.replicate n (.setReport [1])) =
      d.waiting.length + n
  | 0, _, _ => rfl
  | n + 1, d, h => by
    have hst : (d.step (.setReport [1])).2 = { d with
        waiting := (if 16 < d.waiting.length then d.waiting.tail else d.waiting) ++ [[1]] } := by
      show (if d.notified then _ else d) = _
      rw [h]
      rfl
    have ih := reports_frames n (d.step (.setReport [1])).2 (by rw [hst]; exact h)
    rw [List.replicate_succ]
    show ((d.step (.setReport [1])).2.run (List.replicate n (.setReport [1]))).2.waiting.length +
      ((if forgets d (.setReport [1]) then 1 else 0) +
        (d.step (.setReport [1])).2.forgotten (List.replicate n (.setReport [1]))) = _
    have hl : (d.step (.setReport [1])).2.waiting.length + (if forgets d (.setReport [1]) then 1 else 0) =
        d.waiting.length + 1 := by
      rw [hst]
      by_cases h16 : 16 < d.waiting.length
      · simp [forgets, h, h16]
        omega
      · simp [forgets, h, h16]
    omega

/-- **C121 (memory is not bounded).** Seventeen reports wait at most, but for every `n` a host can make the driver lose
memory for `n` reports, which it does not give back when it is closed. -/
theorem C121_bounded_refuted {pick : Nat → Heap → Addr} (hp : Provides pick) (n : Nat) :
    ∃ calls, (∀ c ∈ calls, Fine c) ∧ ∃ this m0 rs m1 m2, init pick Mem.empty = .ok (this, m0) ∧
      run pick this calls m0 = .ok (rs, m1) ∧ destroy this m1 = .ok ((), m2) ∧ frames m2 = n := by
  have hs : Sane Mem.empty := ⟨List.nodup_nil, fun _ h => nomatch h⟩
  obtain ⟨this, m0, m1, m2, e0, _, e1, _, e2, _⟩ := C121_no_fault hp hs (flood n) (flood_fine n)
  refine ⟨flood n, flood_fine n, this, m0, _, m1, m2, e0, e1, e2, ?_⟩
  obtain ⟨_, _, _, hf, _⟩ := C121_left_after_close hp hs (flood n) (flood_fine n) e0 e1 e2
  rw [hf]
  have := reports_frames n { notified := true } rfl
  show 0 + _ + _ = n
  have h2 : Driver.forgotten {} (flood n) =
      Driver.forgotten { notified := true } (List.replicate n (.setReport [1])) := Nat.zero_add _
  show 0 + (Driver.run { notified := true } (List.replicate n (.setReport [1]))).2.waiting.length +
    Driver.forgotten {} (flood n) = n
  rw [h2]
  simp at this
  omega

/-- **C121 (StopDevice).** At any time, a call of the method StopDevice that the checks let through follows a NULL
pointer. -/
theorem C121_stop_device_refuted (pick : Nat → Heap → Addr) (this : Addr) (m : Mem) (b : Bool) :
    perform pick this (.method 4 ⟨[], false, b⟩) m = .error .null := rfl

/-- **C121 (long reports).** After any calls, if somebody is to be notified, a report of more than 64 bytes is copied over the
end of a frame. -/
theorem C121_long_report_refuted {pick : Nat → Heap → Addr} (hp : Provides pick) {m : Mem} (hm : Sane m)
    (calls : List Call) (hc : ∀ c ∈ calls, Fine c) {this : Addr} {m0 m1 : Mem} {rs : List Ret}
    (hi : init pick m = .ok (this, m0)) (hr : run pick this calls m0 = .ok (rs, m1))
    (hn : (Driver.run { sent := m.sent } calls).2.notified = true) (r : Bytes) (hl : 64 < r.length) :
    perform pick this (.setReport r) m1 = .error .overflow := by
  obtain ⟨this', m0', e0, h0⟩ := init_run hp hm
  rw [hi] at e0
  cases e0
  obtain ⟨m1', e1, h1⟩ := run_run hp calls h0 hc
  rw [hr] at e1
  cases e1
  obtain ⟨dev, notify, l, es, J, hh, hw, h64, h17, hd, hnn, hs, hJ⟩ := h1
  rw [hn] at hnn
  have h0 : notify ≠ 0 := by simpa using hnn.symm
  have hl' := loadList_run hh.toList.load
  have rest : ∀ {m' : Mem} {H : Heap}, Has m' H → (do
        let f ← malloc pick (.frame 0 (List.replicate 64 0))
        let old ← loadFrame f
        if r.length > 64 then fault .overflow
        else do
          store f (.frame (UInt8.ofNat r.length) (r ++ old.2.drop r.length))
          listPush pick l f
          let _ ← loadObject notify : C Unit) m' = .error .overflow := by
    intro m' H h'
    obtain ⟨f, m1, e1, hf, h1, s1⟩ := h'.malloc hp (.frame 0 (List.replicate 64 0))
    rw [bind_run e1, bind_run (loadFrame_run h1.load), if_pos hl]
    rfl
  have key : newHIDFrame pick this r m1 = .error .overflow := by
    unfold newHIDFrame
    rw [bind_run hh.ivars]
    dsimp only
    rw [if_neg h0, bind_run hl']
    dsimp only
    rw [count_small h17]
    by_cases hc : es.length > Mac.maxSavedFrames
    · rw [if_pos hc]
      cases es with
      | nil => exact absurd hc (by decide)
      | cons e es' =>
        obtain ⟨m2, e2, h2, _⟩ := listPop_run hh.toList
        rw [bind_run e2]
        exact rest h2
    · rw [if_neg hc]
      exact rest hh
  exact bind_fault key

/-- **C121 (the queue of C108).** What the reports do to the queue of this driver is what they do to that of `Mac.State`:
somebody being notified, a report goes to the end and the oldest is dropped when more than sixteen wait; and what is
fetched is the oldest. -/
theorem C121_same_queue (d : Driver) (s : Mac.State) (h : d.waiting = s.saved) (hn : d.notified = true) (r : Bytes) :
    (d.step (.setReport r)).2.waiting = (s.setReport r).saved ∧
    ∀ b, (d.step (.method 2 ⟨[], false, b⟩)).2.waiting = s.saved.tail ∧
      (d.step (.method 2 ⟨[], false, b⟩)).1 =
        (match s.saved with | [] => .noFrames | r :: _ => .success (frameOf r)) := by
  refine ⟨?_, fun b => ?_⟩
  · show (if d.notified then _ else d).waiting = _
    rw [hn, if_pos rfl]
    show (if 16 < d.waiting.length then d.waiting.tail else d.waiting) ++ [r] = _
    rw [h]
    rfl
  · simp only [Driver.step, h]
    cases hs : s.saved with
    | nil => exact ⟨by rw [h, hs]; rfl, rfl⟩
    | cons r rest => exact ⟨rfl, rfl⟩

/-- **C121 (packets of the device).** Whatever was on the stack, a packet of at most 64 bytes reaches the host as it is if
there is a device, and of an empty one there is no call; it is what `Mac.sendFrame` has.  The copy made for each packet is never
freed. -/
theorem C121_packet {pick : Nat → Heap → Addr} (hp : Provides pick) {m : Mem} (hm : Sane m) (garbage packet : Bytes)
    (hg : garbage.length = 64) (hl : packet.length ≤ 64) (d : Driver) (hd : d.device = true) (b : Bool) :
    ∃ frame m', handleResponse pick garbage packet m = .ok (frame, m') ∧
      (match frame with
        | none => packet = [] ∧ m' = m ∧ Mac.sendFrame packet = none
        | some f => Mac.sendFrame packet = some packet ∧
          d.step (.method 0 ⟨f, false, b⟩) = (.success [], { d with sent := d.sent ++ [packet] }) ∧
          m'.heap.length = m.heap.length + 1 ∧ Undisturbed m m') := by
  by_cases h0 : packet.length > 0
  · have hn : (UInt8.ofNat packet.length).toNat = packet.length := by
      rw [UInt8.toNat_ofNat']
      exact Nat.mod_eq_of_lt (by omega)
    have h : Has m m.heap := ⟨List.Perm.refl _, hm⟩
    obtain ⟨p, m1, e1, hp1, h1, s1⟩ := h.malloc hp (.bytes packet)
    refine ⟨some (UInt8.ofNat packet.length :: (packet ++ garbage.drop packet.length)), m1, ?_, ?_, ?_, ?_, ?_⟩
    · unfold handleResponse
      rw [if_pos h0, bind_run e1, bind_run h1.load, if_neg (by omega)]
      rfl
    · unfold Mac.sendFrame
      rw [if_pos h0, hn, if_neg (by omega), List.take_length]
    · simp only [Driver.step]
      rw [hn, if_neg, hd, if_pos rfl, List.take_left]
      rw [List.length_append, List.length_drop, hg]
      omega
    · rw [h1.1.length_eq]
      rfl
    · exact undisturbed_of hm (K := [_]) h1
  · have h0' : packet = [] := List.length_eq_zero_iff.mp (by omega)
    subst h0'
    exact ⟨none, m, rfl, rfl, rfl, rfl⟩

/-- **C121 (the packets of the device leak).** After `n` packets, `n` copies are in memory. -/
theorem C121_packet_copies_refuted {pick : Nat → Heap → Addr} (hp : Provides pick) (garbage : Nat → Bytes)
    (packet : Bytes) (h0 : 0 < packet.length) (hl : packet.length ≤ 64) (n : Nat) :
    ∃ m, (List.range n).foldlM (fun m i => (handleResponse pick (garbage i) packet m).map (·.2)) Mem.empty = .ok m ∧
      m.heap.countP (fun x => decide (x.2 = .bytes packet)) = n := by
  suffices h : ∃ m, (List.range n).foldlM (fun m i => (handleResponse pick (garbage i) packet m).map (·.2)) Mem.empty =
      .ok m ∧ Sane m ∧ m.heap.countP (fun x => decide (x.2 = .bytes packet)) = n from by
    obtain ⟨m, a, _, b⟩ := h
    exact ⟨m, a, b⟩
  induction n with
  | zero => exact ⟨_, rfl, ⟨List.nodup_nil, fun _ h => nomatch h⟩, rfl⟩
  | succ n ih =>
    obtain ⟨m, e, hs, hn⟩ := ih
    have h : Has m m.heap := ⟨List.Perm.refl _, hs⟩
    obtain ⟨p, m1, e1, hp1, h1, s1⟩ := h.malloc hp (.bytes packet)
    refine ⟨m1, ?_, h1.2, ?_⟩
    · rw [List.range_succ, List.foldlM_append, e]
      show (((handleResponse pick (garbage n) packet m).map (·.2)) >>= fun m => pure m) = _
      have : handleResponse pick (garbage n) packet m =
          .ok (some (UInt8.ofNat packet.length :: (packet ++ (garbage n).drop packet.length)), m1) := by
        unfold handleResponse
        rw [if_pos h0, bind_run e1, bind_run h1.load, if_neg (by omega)]
        rfl
      rw [this]
      rfl
    · rw [h1.1.countP_eq, List.countP_cons, hn]
      simp

/-- A packet of more than 64 bytes is copied over the end of the frame in `send_data`. -/
theorem C121_long_packet_refuted {pick : Nat → Heap → Addr} (hp : Provides pick) {m : Mem} (hm : Sane m)
    (garbage packet : Bytes) (hl : 64 < packet.length) :
    handleResponse pick garbage packet m = .error .overflow := by
  have h : Has m m.heap := ⟨List.Perm.refl _, hm⟩
  obtain ⟨p, m1, e1, hp1, h1, s1⟩ := h.malloc hp (.bytes packet)
  unfold handleResponse
  rw [if_pos (by omega), bind_run e1, bind_run h1.load, if_pos hl]
  rfl

/-- Memory the system could hand out: an address above all in use. -/
def above (_ : Nat) (h : Heap) : Addr := h.foldr (fun x n => x.1 + n) 1

theorem above_provides : Provides above := by
  have key : ∀ h : Heap, (0 : Nat) < h.foldr (fun x n => x.1 + n) 1 ∧
      ∀ x ∈ h, x.1 < h.foldr (fun x n => x.1 + n) 1 := by
    intro h
    induction h with
    | nil => exact ⟨Nat.one_pos, fun _ h => nomatch h⟩
    | cons y h ih =>
      rw [List.foldr_cons]
      refine ⟨Nat.lt_of_lt_of_le ih.1 (Nat.le_add_left ..), fun x hx => ?_⟩
      rcases List.mem_cons.mp hx with rfl | hx
      · exact Nat.lt_add_of_pos_right ih.1
      · exact Nat.lt_of_lt_of_le (ih.2 x hx) (Nat.le_add_left ..)
  exact fun _ h => ⟨Nat.pos_iff_ne_zero.mp (key h).1, fun x hx => Nat.ne_of_lt ((key h).2 x hx)⟩

/-- Memory for three objects. -/
def three (n : Nat) (_ : Heap) : Addr := if n < 3 then n + 1 else 0

/-- **C121 (no memory).** If there is none, a report makes the driver write through NULL. -/
theorem C121_no_memory_refuted :
    (do let this ← init three
        let _ ← run three this [.method 1 ⟨[], true, false⟩]
        perform three this (.setReport [1]) : C Ret) Mem.empty = .error .null := by
  rfl

theorem sane_empty : Sane Mem.empty := ⟨List.nodup_nil, fun _ h => nomatch h⟩

/-- The calls of the case: a completion is registered, a device started, two reports come, one is fetched, a frame is sent. -/
def caseCalls : List Call :=
  [.method 1 ⟨[], true, false⟩, .method 3 ⟨[], false, true⟩, .setReport [1, 2], .setReport [3],
    .method 2 ⟨[], false, false⟩, .method 0 ⟨2 :: List.replicate 64 7, false, false⟩]

theorem caseCalls_fine : ∀ c ∈ caseCalls, Fine c := by
  intro c hc
  simp only [caseCalls, List.mem_cons, List.not_mem_nil, or_false] at hc
  rcases hc with rfl | rfl | rfl | rfl | rfl | rfl
  · exact trivial
  · exact trivial
  · show [1, 2].length ≤ 64
    decide
  · show [3].length ≤ 64
    decide
  · exact trivial
  · exact trivial

/-- A case: a completion is registered, a device started, two reports come, one is fetched, a frame is sent; one report is left
in memory when the driver is closed, and the references to the completion and the device. -/
theorem C121_case :
    ∃ this m0 m1 m2, init above Mem.empty = .ok (this, m0) ∧
      run above this caseCalls m0 = .ok ([.success [], .success [], .success [], .success [],
          .success ([2, 1, 2] ++ List.replicate 62 0), .success []], m1) ∧
      m1.sent = [[7, 7]] ∧ nodes m1 = 1 ∧ frames m1 = 1 ∧ objects m1 = 2 ∧ destroy this m1 = .ok ((), m2) ∧
      nodes m2 = 0 ∧ frames m2 = 1 ∧ objects m2 = 2 := by
  obtain ⟨this, m0, m1, m2, e0, _, e1, hs, e2, _⟩ := C121_no_fault above_provides sane_empty caseCalls caseCalls_fine
  obtain ⟨_, _, hn, _, hf, ho⟩ := C121_memory_in_use above_provides sane_empty caseCalls caseCalls_fine e0 e1
  obtain ⟨_, _, hn', hf', ho'⟩ := C121_left_after_close above_provides sane_empty caseCalls caseCalls_fine e0 e1 e2
  have hr : (Driver.run { sent := [] } caseCalls).1 = [.success [], .success [], .success [], .success [],
      .success ([2, 1, 2] ++ List.replicate 62 0), .success []] := by decide +kernel
  have hw : (Driver.run { sent := [] } caseCalls).2.waiting.length = 1 := by decide +kernel
  have hg : Driver.forgotten { sent := [] } caseCalls = 0 := by decide +kernel
  have hc : Driver.references { sent := [] } 0 caseCalls = 2 := by decide +kernel
  have hv : (Driver.run { sent := [] } caseCalls).2.sent = [[7, 7]] := by decide +kernel
  rw [show Mem.empty.sent = [] from rfl] at *
  rw [hr] at e1
  rw [hv] at hs
  rw [hw] at hn
  rw [hw, hg] at hf hf'
  rw [hc] at ho ho'
  exact ⟨this, m0, m1, m2, e0, e1, hs, hn, hf, ho, e2, hn', hf', ho'⟩

end VF.Props
