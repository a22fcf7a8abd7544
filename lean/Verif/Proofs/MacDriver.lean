import Verif.Proofs.MacMemory

/-! # The calls of the macOS driver, one at a time -/

namespace VF.MacMemory

open VF.Spec.MacMemory

/-- Two lists with the same parts in another order. -/
macro "perm_parts" : tactic => `(tactic| (
  rw [List.perm_iff_count]
  intro x
  simp only [List.count_append, List.count_cons, List.count_nil, List.cons_append, List.nil_append, List.append_assoc,
    listCells, frameCells, List.map_cons, List.map_append, List.map_nil, nodeCells]
  omega))

/-- The reference the driver has. -/
def objs (a : Addr) : Heap := if a = 0 then [] else [(a, .object 1)]

def isFrame : Addr × Cell → Bool := fun x => match x.2 with | .frame .. => true | _ => false
def isNode : Addr × Cell → Bool := fun x => match x.2 with | .node .. => true | _ => false
def isList : Addr × Cell → Bool := fun x => match x.2 with | .list .. => true | _ => false
def isIvars : Addr × Cell → Bool := fun x => match x.2 with | .ivars .. => true | _ => false
def isObject : Addr × Cell → Bool := fun x => match x.2 with | .object .. => true | _ => false

/-- Memory the driver has no pointer to: what was there before it, and of its own so many frames, so many objects, and
nothing else. -/
def Lost (B J : Heap) (frames objects : Nat) : Prop :=
  ∃ K, J = K ++ B ∧ K.countP isFrame = frames ∧ K.countP isObject = objects ∧
    ∀ x ∈ K, isFrame x = true ∨ isObject x = true

theorem Lost.frame {B J : Heap} {f o : Nat} (h : Lost B J f o) (a : Addr) (r : Bytes) :
    Lost B ((a, frameCell r) :: J) (f + 1) o := by
  obtain ⟨K, rfl, h1, h2, h3⟩ := h
  exact ⟨(a, frameCell r) :: K, rfl, by rw [List.countP_cons, h1]; rfl, by rw [List.countP_cons, h2]; rfl,
   fun x hx => (List.mem_cons.mp hx).elim (fun e => Or.inl (by rw [e]; rfl)) (h3 x)⟩

theorem Lost.objs {B J : Heap} {f o : Nat} (h : Lost B J f o) (a : Addr) :
    Lost B (objs a ++ J) f (o + (if a = 0 then 0 else 1)) := by
  unfold MacMemory.objs
  by_cases ha : a = 0
  · rw [if_pos ha, if_pos ha]
    exact h
  · rw [if_neg ha, if_neg ha]
    obtain ⟨K, rfl, h1, h2, h3⟩ := h
    exact ⟨(a, .object 1) :: K, rfl, by rw [List.countP_cons, h1]; rfl, by rw [List.countP_cons, h2]; rfl,
      fun x hx => (List.mem_cons.mp hx).elim (fun e => Or.inr (by rw [e]; rfl)) (h3 x)⟩

/-- All the memory of the driver. -/
def cells (this dev notify l : Addr) (es : List Entry) (J : Heap) : Heap :=
  (this, .ivars dev notify l) :: (listCells l es ++ (frameCells es ++ (objs dev ++ (objs notify ++ J))))

/-- The memory has what the driver knows, and so many frames and objects are lost. -/
def Holds (B : Heap) (this : Addr) (d : Driver) (f o : Nat) (m : Mem) : Prop :=
  ∃ dev notify l es J, Has m (cells this dev notify l es J) ∧ d.waiting = es.map (·.2.2) ∧
    (∀ e ∈ es, e.2.2.length ≤ 64) ∧ es.length ≤ 17 ∧ d.device = decide (dev ≠ 0) ∧
    d.notified = decide (notify ≠ 0) ∧ m.sent = d.sent ∧ Lost B J f o

theorem Has.ivars {m : Mem} {this dev notify l : Addr} {es : List Entry} {J : Heap}
    (h : Has m (cells this dev notify l es J)) : loadIvars this m = .ok ((dev, notify, l), m) :=
  loadIvars_run h.load

theorem Has.toList {m : Mem} {this dev notify l : Addr} {es : List Entry} {J : Heap}
    (h : Has m (cells this dev notify l es J)) :
    Has m (listCells l es ++ ((this, .ivars dev notify l) ::
      (frameCells es ++ (MacMemory.objs dev ++ (MacMemory.objs notify ++ J))))) :=
  h.perm List.perm_middle.symm

theorem count_small {es : List Entry} (h : es.length ≤ 17) : (UInt32.ofNat es.length).toNat = es.length := by
  rw [UInt32.toNat_ofNat']
  exact Nat.mod_eq_of_lt (by omega)

variable {B : Heap} {pick : Nat → Heap → Addr} (hp : Provides pick)
include hp

/-- From the allocation of the frame on. -/
theorem saveFrame_run {m : Mem} {this dev notify l : Addr} {es : List Entry} {J : Heap}
    (h : Has m (cells this dev notify l es J)) (hn : notify ≠ 0) (r : Bytes) (hr : r.length ≤ 64) :
    ∃ n f m', (do
        let f ← malloc pick (.frame 0 (List.replicate 64 0))
        let old ← loadFrame f
        if r.length > 64 then fault .overflow
        else do
          store f (.frame (UInt8.ofNat r.length) (r ++ old.2.drop r.length))
          listPush pick l f
          let _ ← loadObject notify : C Unit) m = .ok ((), m') ∧
      Has m' (cells this dev notify l (es ++ [(n, f, r)]) J) ∧ m'.sent = m.sent := by
  obtain ⟨f, m1, e1, hf, h1, s1⟩ := h.malloc hp (.frame 0 (List.replicate 64 0))
  obtain ⟨m2, e2, h2, s2⟩ := h1.store (.frame (UInt8.ofNat r.length) (r ++ (List.replicate 64 0).drop r.length))
  have h2' : Has m2 (listCells l es ++ ((this, .ivars dev notify l) :: (f, frameCell r) ::
      (frameCells es ++ (objs dev ++ (objs notify ++ J))))) := by
    rw [List.drop_replicate] at h2
    refine h2.perm ?_
    unfold cells
    show ((f, frameCell r) :: _).Perm _
    perm_parts
  obtain ⟨n, m3, e3, h3, s3⟩ := listPush_run hp h2' f r
  have h3' : Has m3 (cells this dev notify l (es ++ [(n, f, r)]) J) := by
    refine h3.perm ?_
    unfold cells
    generalize listCells l (es ++ [(n, f, r)]) = L
    perm_parts
  refine ⟨n, f, m3, ?_, h3', by rw [s3, s2, s1]⟩
  have ho : loadObject notify m3 = .ok (1, m3) := by
    refine loadObject_run (Has.load (R := (this, .ivars dev notify l) :: (listCells l (es ++ [(n, f, r)]) ++
      (frameCells (es ++ [(n, f, r)]) ++ (objs dev ++ J)))) (h3'.perm ?_))
    unfold cells
    rw [show objs notify = [(notify, .object 1)] from if_neg hn]
    generalize listCells l (es ++ [(n, f, r)]) = L
    generalize frameCells (es ++ [(n, f, r)]) = F
    perm_parts
  rw [bind_run e1, bind_run (loadFrame_run h1.load), if_neg (by omega), bind_run e2, bind_run e3, bind_run ho]
  rfl

theorem newHIDFrame_run {m : Mem} {this : Addr} {d : Driver} {f o : Nat} (h : Holds B this d f o m) (r : Bytes)
    (hr : r.length ≤ 64) :
    ∃ m', newHIDFrame pick this r m = .ok ((), m') ∧
      Holds B this (d.step (.setReport r)).2 (f + if forgets d (.setReport r) then 1 else 0) o m' := by
  obtain ⟨dev, notify, l, es, J, hh, hw, h64, h17, hd, hn, hs, hJ⟩ := h
  by_cases h0 : notify = 0
  · have hnf : d.notified = false := by rw [hn]; simpa using h0
    refine ⟨m, ?_, ?_⟩
    · unfold newHIDFrame
      rw [bind_run hh.ivars]
      dsimp only
      rw [if_pos h0]
      rfl
    · have hst : (d.step (.setReport r)).2 = d := by
        show (if d.notified then _ else d) = d
        rw [hnf]
        rfl
      rw [hst, show forgets d (.setReport r) = false by simp [forgets, hnf]]
      exact ⟨dev, notify, l, es, J, hh, hw, h64, h17, hd, hn, hs, hJ⟩
  · have hnt : d.notified = true := by rw [hn]; simpa using h0
    have hlen : d.waiting.length = es.length := by rw [hw, List.length_map]
    have hl := loadList_run hh.toList.load
    by_cases hc : 16 < es.length
    · obtain ⟨e, es', rfl⟩ : ∃ e es', es = e :: es' := by
        cases es with
        | nil => simp at hc
        | cons e es' => exact ⟨e, es', rfl⟩
      obtain ⟨m1, e1, h1, s1⟩ := listPop_run hh.toList
      have h1' : Has m1 (cells this dev notify l es' ((e.2.1, frameCell e.2.2) :: J)) := by
        refine h1.perm ?_
        unfold cells
        generalize listCells l es' = L
        perm_parts
      obtain ⟨n, a, m2, e2, h2, s2⟩ := saveFrame_run hp h1' h0 r hr
      refine ⟨m2, ?_, ?_⟩
      · unfold newHIDFrame
        rw [bind_run hh.ivars]
        dsimp only
        rw [if_neg h0, bind_run hl]
        dsimp only
        rw [count_small h17, if_pos (show (e :: es').length > Mac.maxSavedFrames from hc), bind_run e1]
        exact e2
      · have hc' : 16 < d.waiting.length := by omega
        have hfo : forgets d (.setReport r) = true := by simp [forgets, hnt, hc']
        have hst : (d.step (.setReport r)).2 = { d with waiting := d.waiting.tail ++ [r] } := by
          show (if d.notified then _ else d) = _
          rw [hnt, if_pos rfl, if_pos hc']
        rw [hfo, if_pos rfl, hst]
        refine ⟨dev, notify, l, _, _, h2, ?_, ?_, ?_, hd, hn, ?_, hJ.frame _ _⟩
        · show d.waiting.tail ++ [r] = _
          rw [hw, List.map_append]
          rfl
        · intro x hx
          rcases List.mem_append.mp hx with hx | hx
          · exact h64 x (List.mem_cons_of_mem _ hx)
          · rw [List.mem_singleton.mp hx]
            exact hr
        · simp only [List.length_append, List.length_cons, List.length_nil] at h17 ⊢
          omega
        · rw [s2, s1, hs]
    · obtain ⟨n, a, m2, e2, h2, s2⟩ := saveFrame_run hp hh h0 r hr
      refine ⟨m2, ?_, ?_⟩
      · unfold newHIDFrame
        rw [bind_run hh.ivars]
        dsimp only
        rw [if_neg h0, bind_run hl]
        dsimp only
        rw [count_small h17, if_neg (show ¬ es.length > Mac.maxSavedFrames from hc)]
        exact e2
      · have hc' : ¬ 16 < d.waiting.length := by omega
        have hfo : forgets d (.setReport r) = false := by simp [forgets, hc']
        have hst : (d.step (.setReport r)).2 = { d with waiting := d.waiting ++ [r] } := by
          show (if d.notified then _ else d) = _
          rw [hnt, if_pos rfl, if_neg hc']
        rw [hfo, hst]
        refine ⟨dev, notify, l, _, _, h2, ?_, ?_, ?_, hd, hn, ?_, hJ⟩
        · show d.waiting ++ [r] = _
          rw [hw, List.map_append]
          rfl
        · intro x hx
          rcases List.mem_append.mp hx with hx | hx
          · exact h64 x hx
          · rw [List.mem_singleton.mp hx]
            exact hr
        · simp only [List.length_append, List.length_cons, List.length_nil]
          omega
        · rw [s2, hs]

omit hp in
theorem handleGetFrame_run {m : Mem} {this : Addr} {d : Driver} {f o : Nat} (h : Holds B this d f o m) (b : Bool) :
    ∃ m', handleGetFrame this m = .ok ((d.step (.method 2 ⟨[], false, b⟩)).1, m') ∧
      Holds B this (d.step (.method 2 ⟨[], false, b⟩)).2 f o m' := by
  obtain ⟨dev, notify, l, es, J, hh, hw, h64, h17, hd, hn, hs, hJ⟩ := h
  cases es with
  | nil =>
    have hw' : d.waiting = [] := hw
    refine ⟨m, ?_, ?_⟩
    · unfold handleGetFrame
      rw [bind_run hh.ivars]
      dsimp only
      rw [bind_run (listPop_empty hh.toList)]
      simp only [Driver.step, hw']
      rfl
    · simp only [Driver.step, hw']
      exact ⟨dev, notify, l, [], J, hh, hw, h64, h17, hd, hn, hs, hJ⟩
  | cons e es' =>
    have hw' : d.waiting = e.2.2 :: es'.map (·.2.2) := hw
    obtain ⟨m1, e1, h1, s1⟩ := listPop_run hh.toList
    have h1' : Has m1 ((e.2.1, frameCell e.2.2) :: cells this dev notify l es' J) := by
      refine h1.perm ?_
      unfold cells
      generalize listCells l es' = L
      perm_parts
    obtain ⟨m2, e2, h2, s2⟩ := h1'.free
    refine ⟨m2, ?_, ?_⟩
    · unfold handleGetFrame
      rw [bind_run hh.ivars]
      dsimp only
      rw [bind_run e1, if_neg h1'.ne, bind_run (loadFrame_run h1'.load), bind_run e2]
      simp only [Driver.step, hw']
      rfl
    · simp only [Driver.step, hw']
      refine ⟨dev, notify, l, es', J, h2, rfl, fun x hx => h64 x (List.mem_cons_of_mem _ hx), ?_, hd, hn,
        by rw [s2, s1, hs], hJ⟩
      simp only [List.length_cons] at h17
      omega

/-- What a call does to the number of lost objects. -/
def lostObjects (d : Driver) : Call → Nat
  | .method 1 ⟨[], true, _⟩ => if d.notified then 1 else 0
  | .method 3 ⟨[], false, _⟩ => if d.device then 1 else 0
  | _ => 0

theorem startDevice_run {m : Mem} {this : Addr} {d : Driver} {f o : Nat} (h : Holds B this d f o m) (b : Bool) :
    ∃ m', startDevice pick this b m = .ok ((d.step (.method 3 ⟨[], false, b⟩)).1, m') ∧
      Holds B this (d.step (.method 3 ⟨[], false, b⟩)).2 f (o + lostObjects d (.method 3 ⟨[], false, b⟩)) m' := by
  obtain ⟨dev, notify, l, es, J, hh, hw, h64, h17, hd, hn, hs, hJ⟩ := h
  have ho : lostObjects d (.method 3 ⟨[], false, b⟩) = if dev = 0 then 0 else 1 := by
    show (if d.device then 1 else 0) = _
    rw [hd]
    by_cases h0 : dev = 0 <;> simp [h0]
  rw [ho]
  cases b with
  | true =>
    obtain ⟨a, m1, e1, ha, h1, s1⟩ := hh.malloc hp (.object 1)
    have h1' : Has m1 ((this, .ivars dev notify l) :: (listCells l es ++ (frameCells es ++
        (objs a ++ (objs notify ++ (objs dev ++ J)))))) := by
      refine h1.perm ?_
      rw [show objs a = [(a, .object 1)] from if_neg ha]
      unfold cells
      generalize listCells l es = L
      perm_parts
    obtain ⟨m2, e2, h2, s2⟩ := h1'.store (.ivars a notify l)
    refine ⟨m2, ?_, ?_⟩
    · unfold startDevice
      rw [bind_run hh.ivars]
      dsimp only
      rw [if_pos rfl, bind_run e1, bind_run e2, if_neg ha]
      rfl
    · exact ⟨a, notify, l, es, objs dev ++ J, h2, hw, h64, h17, by simp [Driver.step, ha], hn,
        by rw [s2, s1, hs]; rfl, hJ.objs dev⟩
  | false =>
    obtain ⟨m2, e2, h2, s2⟩ := hh.store (.ivars 0 notify l)
    refine ⟨m2, ?_, ?_⟩
    · unfold startDevice
      rw [bind_run hh.ivars]
      dsimp only
      rw [if_neg (by simp), bind_run e2]
      rfl
    · refine ⟨0, notify, l, es, objs dev ++ J, h2.perm ?_, hw, h64, h17, by simp [Driver.step], hn,
        by rw [s2, hs]; rfl, hJ.objs dev⟩
      unfold cells
      rw [show objs 0 = [] from if_pos rfl]
      generalize listCells l es = L
      perm_parts

omit hp in
theorem clearDevice_run {m : Mem} {this : Addr} {d : Driver} {f o : Nat} (h : Holds B this d f o m) :
    ∃ m', clearDevice this m = .ok ((), m') ∧ Holds B this (d.step .stop).2 f o m' := by
  obtain ⟨dev, notify, l, es, J, hh, hw, h64, h17, hd, hn, hs, hJ⟩ := h
  by_cases h0 : dev = 0
  · refine ⟨m, ?_, ?_⟩
    · unfold clearDevice
      rw [bind_run hh.ivars]
      dsimp only
      rw [if_pos h0]
      rfl
    · exact ⟨dev, notify, l, es, J, hh, hw, h64, h17, by simp [Driver.step, h0], hn, hs, hJ⟩
  · have h1 : Has m ((dev, .object 1) :: (this, .ivars dev notify l) :: (listCells l es ++ (frameCells es ++
        (objs notify ++ J)))) := by
      refine hh.perm ?_
      unfold cells
      rw [show objs dev = [(dev, .object 1)] from if_neg h0]
      generalize listCells l es = L
      perm_parts
    obtain ⟨m1, e1, h1', s1⟩ := h1.free
    have er : release dev m = .ok ((), m1) := by
      unfold release
      rw [bind_run (loadObject_run h1.load), if_pos (Nat.le_refl _)]
      exact e1
    obtain ⟨m2, e2, h2, s2⟩ := h1'.store (.ivars 0 notify l)
    refine ⟨m2, ?_, ?_⟩
    · unfold clearDevice
      rw [bind_run hh.ivars]
      dsimp only
      rw [if_neg h0, bind_run er]
      exact e2
    · exact ⟨0, notify, l, es, J, h2, hw, h64, h17, by simp [Driver.step], hn, by rw [s2, s1, hs]; rfl, hJ⟩

/-- NotifyFrame, with the completion the system makes for the call. -/
theorem notify_run {m : Mem} {this : Addr} {d : Driver} {f o : Nat} (h : Holds B this d f o m) (b : Bool) :
    ∃ m', external pick this 1 ⟨[], true, b⟩ m = .ok ((d.step (.method 1 ⟨[], true, b⟩)).1, m') ∧
      Holds B this (d.step (.method 1 ⟨[], true, b⟩)).2 f (o + lostObjects d (.method 1 ⟨[], true, b⟩)) m' := by
  obtain ⟨dev, notify, l, es, J, hh, hw, h64, h17, hd, hn, hs, hJ⟩ := h
  have ho : lostObjects d (.method 1 ⟨[], true, b⟩) = if notify = 0 then 0 else 1 := by
    show (if d.notified then 1 else 0) = _
    rw [hn]
    by_cases h0 : notify = 0 <;> simp [h0]
  rw [ho]
  obtain ⟨k, m1, e1, hk, h1, s1⟩ := hh.malloc hp (.object 1)
  have h1' : Has m1 ((this, .ivars dev notify l) :: (k, .object 1) :: (listCells l es ++ (frameCells es ++
      (objs dev ++ (objs notify ++ J))))) := h1.perm (List.Perm.swap ..)
  obtain ⟨m2, e2, h2, s2⟩ := h1'.store (.ivars dev k l)
  have h2' := h2.perm (List.Perm.swap ..)
  obtain ⟨m3, e3, h3, s3⟩ := h2'.store (.object 2)
  obtain ⟨m4, e4, h4, s4⟩ := h3.store (.object 1)
  have er : retain k m2 = .ok ((), m3) := by
    unfold retain
    rw [bind_run (loadObject_run h2'.load)]
    exact e3
  have el : release k m3 = .ok ((), m4) := by
    unfold release
    rw [bind_run (loadObject_run h3.load), if_neg (by omega)]
    exact e4
  have ehn : handleNotifyFrame this k m1 = .ok (.success [], m3) := by
    unfold handleNotifyFrame
    rw [if_neg hk, bind_run (loadIvars_run h1'.load)]
    dsimp only
    rw [bind_run e2, bind_run er]
    rfl
  refine ⟨m4, ?_, ?_⟩
  · show (do
        let k ← malloc pick (.object 1)
        let r ← handleNotifyFrame this k
        if k = 0 then pure r
        else do
          release k
          pure r : C Ret) m = _
    rw [bind_run e1, bind_run ehn, if_neg hk, bind_run el]
    rfl
  · refine ⟨dev, k, l, es, objs notify ++ J, h4.perm ?_, hw, h64, h17, hd, by simp [Driver.step, hk],
      by rw [s4, s3, s2, s1, hs]; rfl, hJ.objs notify⟩
    unfold cells
    rw [show objs k = [(k, .object 1)] from if_neg hk]
    generalize listCells l es = L
    perm_parts

theorem sendReport_run {m : Mem} {H : Heap} (h : Has m H) (r : Bytes) :
    ∃ m', sendReport pick r m = .ok ((), m') ∧ Has m' H ∧ m'.sent = m.sent ++ [r] := by
  obtain ⟨a, m1, e1, ha, h1, s1⟩ := h.malloc hp (.object 1)
  have h1' : Has { m1 with sent := m1.sent ++ [r] } ((a, .object 1) :: H) := h1
  obtain ⟨m2, e2, h2, s2⟩ := h1'.free
  refine ⟨m2, ?_, h2, by rw [s2]; show m1.sent ++ [r] = _; rw [s1]⟩
  have er : release a { m1 with sent := m1.sent ++ [r] } = .ok ((), m2) := by
    unfold release
    rw [bind_run (loadObject_run h1'.load), if_pos (Nat.le_refl _)]
    exact e2
  unfold sendReport
  rw [bind_run e1, bind_run (loadObject_run h1.load)]
  exact er

theorem handleSendFrame_run {m : Mem} {this : Addr} {d : Driver} {f o : Nat} (h : Holds B this d f o m)
    (x : UInt8) (data : Bytes) (b : Bool) (hl : data.length = 64) :
    ∃ m', handleSendFrame pick this (x :: data) m = .ok ((d.step (.method 0 ⟨x :: data, false, b⟩)).1, m') ∧
      Holds B this (d.step (.method 0 ⟨x :: data, false, b⟩)).2 f o m' := by
  by_cases hx : x.toNat = 0 ∨ 64 < x.toNat
  · have hs : d.step (.method 0 ⟨x :: data, false, b⟩) = (.badArgument, d) := by
      simp only [Driver.step]
      rw [if_pos (Or.inr hx)]
    rw [hs]
    refine ⟨m, ?_, h⟩
    unfold handleSendFrame
    dsimp only
    rw [if_pos (show x.toNat ≤ 0 ∨ x.toNat > 64 by omega)]
    rfl
  · have hx' : ¬ (x.toNat ≤ 0 ∨ x.toNat > 64) := by omega
    have hx'' : ¬ (data.length ≠ 64 ∨ x.toNat = 0 ∨ 64 < x.toNat) := by omega
    obtain ⟨dev, notify, l, es, J, hh, hw, h64, h17, hd, hn, hs, hJ⟩ := h
    by_cases h0 : dev = 0
    · have hdf : d.device = false := by rw [hd]; simpa using h0
      have hst : d.step (.method 0 ⟨x :: data, false, b⟩) = (.success [], d) := by
        simp only [Driver.step, hdf]
        rw [if_neg hx'']
        rfl
      rw [hst]
      refine ⟨m, ?_, ⟨dev, notify, l, es, J, hh, hw, h64, h17, hd, hn, hs, hJ⟩⟩
      unfold handleSendFrame
      dsimp only
      rw [if_neg hx', bind_run hh.ivars]
      dsimp only
      rw [if_pos h0]
      rfl
    · have hdf : d.device = true := by rw [hd]; simpa using h0
      have hst : d.step (.method 0 ⟨x :: data, false, b⟩) =
          (.success [], { d with sent := d.sent ++ [data.take x.toNat] }) := by
        simp only [Driver.step, hdf]
        rw [if_neg hx'']
        rfl
      rw [hst]
      obtain ⟨m1, e1, h1, s1⟩ := sendReport_run hp hh (data.take x.toNat)
      refine ⟨m1, ?_, ⟨dev, notify, l, es, J, h1, hw, h64, h17, hd, hn, by rw [s1, hs], hJ⟩⟩
      unfold handleSendFrame
      dsimp only
      rw [if_neg hx', bind_run hh.ivars]
      dsimp only
      rw [if_neg h0, bind_run e1]
      rfl

/-- Any call but the two that are wrong. -/
theorem perform_run {m : Mem} {this : Addr} {d : Driver} {f o : Nat} (h : Holds B this d f o m) (c : Call)
    (hc : Fine c) :
    ∃ m', perform pick this c m = .ok ((d.step c).1, m') ∧
      Holds B this (d.step c).2 (f + if forgets d c then 1 else 0) (o + lostObjects d c) m' := by
  cases c with
  | setReport r =>
    obtain ⟨m1, e1, h1⟩ := newHIDFrame_run hp h r hc
    refine ⟨m1, ?_, h1⟩
    unfold perform
    dsimp only
    rw [bind_run e1]
    rfl
  | stop =>
    obtain ⟨m1, e1, h1⟩ := clearDevice_run h
    refine ⟨m1, ?_, h1⟩
    unfold perform
    dsimp only
    rw [bind_run e1]
    rfl
  | method n a =>
    obtain ⟨input, completion, created⟩ := a
    show ∃ m', external pick this n ⟨input, completion, created⟩ m = _ ∧ _
    have refused : ∀ {x : Nat × Bool}, checks n = some x → ¬ (input.length = x.1 ∧ completion = x.2) →
        external pick this n ⟨input, completion, created⟩ m = .ok (.badArgument, m) := by
      intro x hx hn
      unfold external
      rw [hx]
      dsimp only
      rw [if_neg hn]
      rfl
    match n, hc with
    | 0, _ =>
      by_cases hn : input.length = 65 ∧ completion = false
      · obtain ⟨hl, rfl⟩ := hn
        match input, hl with
        | x :: data, hl =>
          obtain ⟨m1, e1, h1⟩ := handleSendFrame_run hp h x data created (by simpa using hl)
          refine ⟨m1, ?_, h1⟩
          rw [← e1]
          unfold external
          show (if _ then _ else _ : C Ret) m = _
          rw [if_pos ⟨hl, rfl⟩]
          rfl
      · have hst : d.step (.method 0 ⟨input, completion, created⟩) = (.badArgument, d) := by
          cases input with
          | nil => rfl
          | cons x data =>
            cases completion with
            | true => rfl
            | false =>
              simp only [Driver.step]
              refine if_pos (Or.inl fun he => hn ⟨?_, rfl⟩)
              rw [List.length_cons, he]
        rw [hst]
        exact ⟨m, refused (x := (65, false)) rfl hn, h⟩
    | 1, _ =>
      by_cases hn : input.length = 0 ∧ completion = true
      · obtain ⟨hl, rfl⟩ := hn
        obtain rfl := List.length_eq_zero_iff.mp hl
        exact notify_run hp h created
      · have hst : d.step (.method 1 ⟨input, completion, created⟩) = (.badArgument, d) ∧
            lostObjects d (.method 1 ⟨input, completion, created⟩) = 0 := by
          cases input with
          | cons x data => exact ⟨rfl, rfl⟩
          | nil =>
            cases completion with
            | false => exact ⟨rfl, rfl⟩
            | true => exact absurd ⟨rfl, rfl⟩ hn
        rw [hst.1, hst.2]
        exact ⟨m, refused (x := (0, true)) rfl hn, h⟩
    | 2, _ =>
      by_cases hn : input.length = 0 ∧ completion = false
      · obtain ⟨hl, rfl⟩ := hn
        obtain rfl := List.length_eq_zero_iff.mp hl
        exact handleGetFrame_run h created
      · have hst : d.step (.method 2 ⟨input, completion, created⟩) = (.badArgument, d) := by
          cases input with
          | cons x data => rfl
          | nil =>
            cases completion with
            | true => rfl
            | false => exact absurd ⟨rfl, rfl⟩ hn
        rw [hst]
        exact ⟨m, refused (x := (0, false)) rfl hn, h⟩
    | 3, _ =>
      by_cases hn : input.length = 0 ∧ completion = false
      · obtain ⟨hl, rfl⟩ := hn
        obtain rfl := List.length_eq_zero_iff.mp hl
        exact startDevice_run hp h created
      · have hst : d.step (.method 3 ⟨input, completion, created⟩) = (.badArgument, d) ∧
            lostObjects d (.method 3 ⟨input, completion, created⟩) = 0 := by
          cases input with
          | cons x data => exact ⟨rfl, rfl⟩
          | nil =>
            cases completion with
            | true => exact ⟨rfl, rfl⟩
            | false => exact absurd ⟨rfl, rfl⟩ hn
        rw [hst.1, hst.2]
        exact ⟨m, refused (x := (0, false)) rfl hn, h⟩
    | 4, hc =>
      refine ⟨m, refused (x := (0, false)) rfl fun hn => hc ⟨List.length_eq_zero_iff.mp hn.1, hn.2⟩, h⟩
    | k + 5, _ => exact ⟨m, rfl, h⟩

/-- Lost objects after some calls. -/
def lostAll (d : Driver) : List Call → Nat
  | [] => 0
  | c :: cs => lostObjects d c + lostAll (d.step c).2 cs

theorem run_run {this : Addr} : ∀ (cs : List Call) {m : Mem} {d : Driver} {f o : Nat}, Holds B this d f o m →
    (∀ c ∈ cs, Fine c) → ∃ m', run pick this cs m = .ok ((d.run cs).1, m') ∧
      Holds B this (d.run cs).2 (f + d.forgotten cs) (o + lostAll d cs) m'
  | [], m, _, _, _, h, _ => ⟨m, rfl, h⟩
  | c :: cs, m, d, f, o, h, hc => by
    obtain ⟨m1, e1, h1⟩ := perform_run hp h c (hc c (List.mem_cons_self ..))
    obtain ⟨m2, e2, h2⟩ := run_run cs h1 fun x hx => hc x (List.mem_cons_of_mem _ hx)
    refine ⟨m2, ?_, ?_⟩
    · unfold run
      rw [bind_run e1, bind_run e2]
      rfl
    · rw [Nat.add_assoc, Nat.add_assoc] at h2
      exact h2

theorem init_run {m : Mem} (hm : Good m.heap) :
    ∃ this m', init pick m = .ok (this, m') ∧ Holds m.heap this { sent := m.sent } 0 0 m' := by
  have h0 : Has m m.heap := ⟨List.Perm.refl _, hm⟩
  obtain ⟨this, m1, e1, ht, h1, s1⟩ := h0.malloc hp (.ivars 0 0 0)
  obtain ⟨l, m2, e2, hl, h2, s2⟩ := h1.malloc hp (.list 0 0 0)
  obtain ⟨m3, e3, h3, s3⟩ := h2.store (.list 0 0 0)
  have ela : listAlloc pick m1 = .ok (l, m3) := by
    unfold listAlloc
    rw [bind_run e2, bind_run e3]
    rfl
  obtain ⟨m4, e4, h4, s4⟩ := (h3.perm (List.Perm.swap ..)).store (.ivars 0 0 l)
  refine ⟨this, m4, ?_, 0, 0, l, [], m.heap, h4, rfl, (fun _ h => nomatch h), (by decide), rfl, rfl,
    (by rw [s4, s3, s2, s1]), [], rfl, rfl, rfl, fun _ h => nomatch h⟩
  unfold init
  rw [bind_run e1, if_neg ht, bind_run ela, bind_run e4]
  rfl

omit hp in
theorem destroy_run {m : Mem} {this : Addr} {d : Driver} {f o : Nat} (h : Holds B this d f o m) :
    ∃ m' K, destroy this m = .ok ((), m') ∧ Has m' (K ++ B) ∧ K.countP isFrame = f + d.waiting.length ∧
      K.countP isObject = o + (if d.device then 1 else 0) + (if d.notified then 1 else 0) ∧
      ∀ x ∈ K, isFrame x = true ∨ isObject x = true := by
  obtain ⟨dev, notify, l, es, J, hh, hw, h64, h17, hd, hn, hs, hJ⟩ := h
  have hfo := (hJ.objs notify).objs dev
  obtain ⟨K, hK, k1, k2, k3⟩ := hfo
  obtain ⟨m1, e1, h1, s1⟩ := listFree_run hh.toList
  obtain ⟨m2, e2, h2, s2⟩ := h1.free
  refine ⟨m2, frameCells es ++ K, ?_, ?_, ?_, ?_, ?_⟩
  · unfold destroy
    rw [bind_run hh.ivars]
    dsimp only
    rw [bind_run e1]
    exact e2
  · rw [hK] at h2
    rw [List.append_assoc]
    exact h2
  · rw [List.countP_append, k1, hw, List.length_map]
    have : (frameCells es).countP isFrame = es.length := by
      rw [frameCells, List.countP_map]
      exact List.countP_eq_length.mpr fun _ _ => rfl
    omega
  · have hz : (frameCells es).countP isObject = 0 := by
      rw [frameCells, List.countP_map]
      exact List.countP_eq_zero.mpr fun _ _ h => nomatch h
    rw [List.countP_append, k2, hz, hd, hn]
    by_cases a : dev = 0 <;> by_cases b : notify = 0 <;> simp [a, b]
  · intro x hx
    rcases List.mem_append.mp hx with hx | hx
    · obtain ⟨e, _, rfl⟩ := List.mem_map.mp hx
      exact Or.inl rfl
    · exact k3 x hx

omit hp in
theorem nodeCells_node : ∀ (es : List Entry), ∀ x ∈ nodeCells es, isNode x = true
  | [], _, h => nomatch h
  | e :: es, x, h => by
    rcases List.mem_cons.mp h with rfl | h
    · rfl
    · exact nodeCells_node es x h

omit hp in
/-- What is in memory while the driver runs. -/
theorem Holds.parts {m : Mem} {this : Addr} {d : Driver} {f o : Nat} (h : Holds B this d f o m) :
    ∃ i l N K, Has m (i :: l :: (N ++ (K ++ B))) ∧ isIvars i = true ∧ isList l = true ∧
      N.length = d.waiting.length ∧ (∀ x ∈ N, isNode x = true) ∧ K.countP isFrame = f + d.waiting.length ∧
      K.countP isObject = o + (if d.device then 1 else 0) + (if d.notified then 1 else 0) ∧
      ∀ x ∈ K, isFrame x = true ∨ isObject x = true := by
  obtain ⟨dev, notify, l, es, J, hh, hw, h64, h17, hd, hn, hs, hJ⟩ := h
  obtain ⟨K, hK, k1, k2, k3⟩ := (hJ.objs notify).objs dev
  refine ⟨(this, .ivars dev notify l), (l, .list (headOf es) (lastOf es) (UInt32.ofNat es.length)), nodeCells es,
    frameCells es ++ K, hh.perm ?_, rfl, rfl, ?_, nodeCells_node es, ?_, ?_, ?_⟩
  · unfold cells
    rw [hK, List.append_assoc]
    exact List.Perm.refl _
  · rw [nodeCells_length, hw, List.length_map]
  · rw [List.countP_append, k1, hw, List.length_map]
    have : (frameCells es).countP isFrame = es.length := by
      rw [frameCells, List.countP_map]
      exact List.countP_eq_length.mpr fun _ _ => rfl
    omega
  · have hz : (frameCells es).countP isObject = 0 := by
      rw [frameCells, List.countP_map]
      exact List.countP_eq_zero.mpr fun _ _ h => nomatch h
    rw [List.countP_append, k2, hz, hd, hn]
    by_cases a : dev = 0 <;> by_cases b : notify = 0 <;> simp [a, b]
  · intro x hx
    rcases List.mem_append.mp hx with hx | hx
    · obtain ⟨e, _, rfl⟩ := List.mem_map.mp hx
      exact Or.inl rfl
    · exact k3 x hx

end VF.MacMemory
