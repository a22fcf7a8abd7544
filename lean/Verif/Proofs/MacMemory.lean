import Verif.Spec.MacMemory

/-! # Lemmas about the memory of the macOS driver -/

namespace VF.MacMemory

open VF.Spec.MacMemory

theorem bind_run {α β : Type} {x : C α} {f : α → C β} {m m' : Mem} {a : α} (h : x m = .ok (a, m')) :
    (x >>= f) m = f a m' := by
  show (match x m with | .ok (a, m') => f a m' | .error e => .error e) = _
  rw [h]

theorem bind_fault {α β : Type} {x : C α} {f : α → C β} {m : Mem} {e : Fault} (h : x m = .error e) :
    (x >>= f) m = .error e := by
  show (match x m with | .ok (a, m') => f a m' | .error e => .error e) = _
  rw [h]

theorem pure_run {α : Type} (a : α) (m : Mem) : (pure a : C α) m = .ok (a, m) := rfl

/-- Each address once, and none is NULL. -/
def Good (H : Heap) : Prop := (H.map (·.1)).Nodup ∧ ∀ x ∈ H, x.1 ≠ 0

theorem Good.perm {H H' : Heap} (h : Good H) (p : H.Perm H') : Good H' :=
  ⟨(p.map _).nodup_iff.mp h.1, fun x hx => h.2 x (p.mem_iff.mpr hx)⟩

/-- The memory is this, in some order. -/
def Has (m : Mem) (H : Heap) : Prop := m.heap.Perm H ∧ Good m.heap

theorem Has.perm {m : Mem} {H H' : Heap} (h : Has m H) (p : H.Perm H') : Has m H' := ⟨h.1.trans p, h.2⟩

theorem Has.good {m : Mem} {H : Heap} (h : Has m H) : Good H := h.2.perm h.1

theorem get_mem : ∀ {H : Heap}, (H.map (·.1)).Nodup → ∀ {a c}, (a, c) ∈ H → Heap.get H a = some c
  | [], _, _, _, h => nomatch h
  | (b, d) :: H, hn, a, c, h => by
    rw [List.map_cons, List.nodup_cons] at hn
    rcases List.mem_cons.mp h with h | h
    · cases h
      simp [Heap.get]
    · have hne : b ≠ a := by
        intro hb
        subst hb
        exact hn.1 (List.mem_map.mpr ⟨_, h, rfl⟩)
      have := get_mem hn.2 h
      simp only [Heap.get, List.find?_cons] at this ⊢
      rw [show ((b, d).1 == a) = false from by simpa using hne]
      exact this

theorem Has.get {m : Mem} {a : Addr} {c : Cell} {R : Heap} (h : Has m ((a, c) :: R)) : m.heap.get a = some c :=
  get_mem h.2.1 (h.1.mem_iff.mpr (List.mem_cons_self ..))

theorem Has.ne {m : Mem} {a : Addr} {c : Cell} {R : Heap} (h : Has m ((a, c) :: R)) : a ≠ 0 :=
  h.good.2 (a, c) (List.mem_cons_self ..)

theorem Has.load {m : Mem} {a : Addr} {c : Cell} {R : Heap} (h : Has m ((a, c) :: R)) :
    MacMemory.load a m = .ok (c, m) := by
  unfold MacMemory.load
  rw [if_neg h.ne, h.get]

theorem map_key (H : Heap) (a : Addr) (c : Cell) :
    (H.map (fun x => if x.1 = a then (a, c) else x)).map (·.1) = H.map (·.1) := by
  rw [List.map_map]
  refine List.map_congr_left fun x _ => ?_
  by_cases hx : x.1 = a
  · simp [hx]
  · simp [hx]

theorem map_other {R : Heap} {a : Addr} (c : Cell) (h : a ∉ R.map (·.1)) :
    R.map (fun x => if x.1 = a then (a, c) else x) = R := by
  refine (List.map_congr_left fun x hx => ?_).trans (List.map_id R)
  rw [if_neg]
  · rfl
  · intro e
    exact h (List.mem_map.mpr ⟨x, hx, e⟩)

theorem Has.store {m : Mem} {a : Addr} {c : Cell} {R : Heap} (h : Has m ((a, c) :: R)) (c' : Cell) :
    ∃ m', MacMemory.store a c' m = .ok ((), m') ∧ Has m' ((a, c') :: R) ∧ m'.sent = m.sent := by
  refine ⟨{ m with heap := m.heap.map (fun x => if x.1 = a then (a, c') else x) }, ?_, ⟨?_, ?_, ?_⟩, rfl⟩
  · unfold MacMemory.store
    rw [if_neg h.ne, h.get]
  · refine (h.1.map _).trans ?_
    rw [List.map_cons, if_pos rfl, map_other]
    have := h.good.1
    rw [List.map_cons, List.nodup_cons] at this
    exact this.1
  · show ((m.heap.map _).map _).Nodup
    rw [map_key]
    exact h.2.1
  · intro x hx
    obtain ⟨y, hy, rfl⟩ := List.mem_map.mp hx
    by_cases e : y.1 = a
    · rw [if_pos e]
      exact h.ne
    · rw [if_neg e]
      exact h.2.2 y hy

theorem Has.free {m : Mem} {a : Addr} {c : Cell} {R : Heap} (h : Has m ((a, c) :: R)) :
    ∃ m', MacMemory.free a m = .ok ((), m') ∧ Has m' R ∧ m'.sent = m.sent := by
  have hR : ((a, c) :: R).filter (fun x => decide (x.1 ≠ a)) = R := by
    have := h.good.1
    rw [List.map_cons, List.nodup_cons] at this
    rw [List.filter_cons_of_neg (by simp)]
    refine List.filter_eq_self.mpr fun x hx => ?_
    have : x.1 ≠ a := fun e => this.1 (List.mem_map.mpr ⟨x, hx, e⟩)
    simpa using this
  have hp : (m.heap.filter (fun x => decide (x.1 ≠ a))).Perm R := by
    have := h.1.filter (fun x => decide (x.1 ≠ a))
    rwa [hR] at this
  have hg : Good R := by
    have := h.good
    rw [Good, List.map_cons, List.nodup_cons] at this
    exact ⟨this.1.2, fun x hx => this.2 x (List.mem_cons_of_mem _ hx)⟩
  refine ⟨{ m with heap := m.heap.filter (fun x => decide (x.1 ≠ a)) }, ?_, ⟨hp, hg.perm hp.symm⟩, rfl⟩
  unfold MacMemory.free
  rw [h.get]

theorem Has.malloc {pick : Nat → Heap → Addr} (hp : Provides pick) {m : Mem} {H : Heap} (h : Has m H) (c : Cell) :
    ∃ a m', MacMemory.malloc pick c m = .ok (a, m') ∧ a ≠ 0 ∧ Has m' ((a, c) :: H) ∧ m'.sent = m.sent := by
  obtain ⟨h0, hf⟩ := hp m.calls m.heap
  refine ⟨pick m.calls m.heap, ⟨(pick m.calls m.heap, c) :: m.heap, m.calls + 1, m.sent⟩, ?_, h0,
    ⟨h.1.cons _, ?_, ?_⟩, rfl⟩
  · unfold MacMemory.malloc
    dsimp only
    rw [if_neg h0]
  · show (((pick m.calls m.heap, c) :: m.heap).map (·.1)).Nodup
    rw [List.map_cons, List.nodup_cons]
    refine ⟨fun e => ?_, h.2.1⟩
    obtain ⟨x, hx, e⟩ := List.mem_map.mp e
    exact hf x hx e
  · intro x hx
    rcases List.mem_cons.mp hx with rfl | hx
    · exact h0
    · exact h.2.2 x hx

theorem loadList_run {m : Mem} {a s e : Addr} {n : UInt32} (h : load a m = .ok (.list s e n, m)) :
    loadList a m = .ok ((s, e, n), m) := by
  unfold loadList
  rw [bind_run h]
  rfl

theorem loadNode_run {m : Mem} {a d n : Addr} (h : load a m = .ok (.node d n, m)) :
    loadNode a m = .ok ((d, n), m) := by
  unfold loadNode
  rw [bind_run h]
  rfl

theorem loadFrame_run {m : Mem} {a : Addr} {l : UInt8} {d : Bytes} (h : load a m = .ok (.frame l d, m)) :
    loadFrame a m = .ok ((l, d), m) := by
  unfold loadFrame
  rw [bind_run h]
  rfl

theorem loadIvars_run {m : Mem} {a d n s : Addr} (h : load a m = .ok (.ivars d n s, m)) :
    loadIvars a m = .ok ((d, n, s), m) := by
  unfold loadIvars
  rw [bind_run h]
  rfl

theorem loadObject_run {m : Mem} {a : Addr} {n : Nat} (h : load a m = .ok (.object n, m)) :
    loadObject a m = .ok (n, m) := by
  unfold loadObject
  rw [bind_run h]
  rfl

/-! ## The linked list -/

/-- A node, the frame it has, and the report in it. -/
abbrev Entry := Addr × Addr × Bytes

def headOf : List Entry → Addr
  | [] => 0
  | e :: _ => e.1

def lastOf : List Entry → Addr
  | [] => 0
  | [e] => e.1
  | _ :: es => lastOf es

def nodeCells : List Entry → Heap
  | [] => []
  | e :: es => (e.1, .node e.2.1 (headOf es)) :: nodeCells es

/-- The frame of a report. -/
def frameCell (r : Bytes) : Cell := .frame (UInt8.ofNat r.length) (r ++ List.replicate (64 - r.length) 0)

def frameCells (es : List Entry) : Heap := es.map fun e => (e.2.1, frameCell e.2.2)

theorem headOf_append (es : List Entry) (e : Entry) :
    headOf (es ++ [e]) = if es = [] then e.1 else headOf es := by
  cases es <;> rfl

theorem lastOf_append : ∀ (es : List Entry) (e : Entry), lastOf (es ++ [e]) = e.1
  | [], _ => rfl
  | [_], _ => rfl
  | _ :: b :: es, e => lastOf_append (b :: es) e

/-- All but the last node, and the last. -/
theorem nodeCells_last : ∀ (es : List Entry) (e : Entry),
    ∃ R, (nodeCells (es ++ [e])).Perm ((e.1, .node e.2.1 0) :: R) ∧
      ∀ n : Entry, (nodeCells (es ++ [e] ++ [n])).Perm
        ((e.1, .node e.2.1 n.1) :: (n.1, .node n.2.1 0) :: R)
  | [], e => ⟨[], List.Perm.refl _, fun _ => List.Perm.refl _⟩
  | b :: es, e => by
    obtain ⟨R, h1, h2⟩ := nodeCells_last es e
    refine ⟨(b.1, .node b.2.1 (headOf (es ++ [e]))) :: R, ?_, fun n => ?_⟩
    · exact (h1.cons _).trans (List.Perm.swap ..)
    · have hh : headOf (es ++ [e] ++ [n]) = headOf (es ++ [e]) := by
        rw [headOf_append, if_neg (by simp)]
      show ((b.1, Cell.node b.2.1 (headOf (es ++ [e] ++ [n]))) :: nodeCells (es ++ [e] ++ [n])).Perm _
      rw [hh]
      refine ((h2 n).cons _).trans ((List.Perm.swap ..).trans ?_)
      exact (List.Perm.swap ..).cons _

theorem lastOf_mem : ∀ (es : List Entry), es ≠ [] → ∃ e ∈ es, lastOf es = e.1
  | [], h => absurd rfl h
  | [e], _ => ⟨e, List.mem_cons_self .., rfl⟩
  | _ :: b :: es, _ => by
    obtain ⟨e, he, h⟩ := lastOf_mem (b :: es) (by simp)
    exact ⟨e, List.mem_cons_of_mem _ he, h⟩

theorem nodeCells_mem : ∀ {es : List Entry} {e : Entry}, e ∈ es → ∃ c, (e.1, c) ∈ nodeCells es
  | [], _, h => nomatch h
  | b :: es, e, h => by
    rcases List.mem_cons.mp h with rfl | h
    · exact ⟨_, List.mem_cons_self ..⟩
    · obtain ⟨c, hc⟩ := nodeCells_mem h
      exact ⟨c, List.mem_cons_of_mem _ hc⟩

/-- The list object and the nodes. -/
def listCells (l : Addr) (es : List Entry) : Heap :=
  (l, .list (headOf es) (lastOf es) (UInt32.ofNat es.length)) :: nodeCells es

theorem listPush_run {pick : Nat → Heap → Addr} (hp : Provides pick) {m : Mem} {l : Addr} {es : List Entry}
    {R : Heap} (h : Has m (listCells l es ++ R)) (data : Addr) (r : Bytes) :
    ∃ n m', listPush pick l data m = .ok ((), m') ∧ Has m' (listCells l (es ++ [(n, data, r)]) ++ R) ∧
      m'.sent = m.sent := by
  obtain ⟨n, m1, e1, hn, h1, s1⟩ := h.malloc hp (.node 0 0)
  obtain ⟨m2, e2, h2, s2⟩ := h1.store (.node data 0)
  have h2' : Has m2 ((l, .list (headOf es) (lastOf es) (UInt32.ofNat es.length)) ::
      (n, .node data 0) :: (nodeCells es ++ R)) := h2.perm (List.Perm.swap ..)
  have hc : UInt32.ofNat es.length + 1 = UInt32.ofNat (es.length + 1) := by
    rw [UInt32.ofNat_add]; rfl
  by_cases hes : es = []
  · subst hes
    obtain ⟨m3, e3, h3, s3⟩ := h2'.store (.list n n (UInt32.ofNat 0 + 1))
    refine ⟨n, m3, ?_, h3, by rw [s3, s2, s1]⟩
    unfold listPush
    rw [bind_run e1, bind_run e2, bind_run (loadList_run h2'.load)]
    exact e3
  · obtain ⟨es', e, rfl⟩ : ∃ es' e, es = es' ++ [e] := by
      exact ⟨es.dropLast, es.getLast hes, (List.dropLast_concat_getLast hes).symm⟩
    obtain ⟨Q, q1, q2⟩ := nodeCells_last es' e
    have h2'' : Has m2 ((e.1, .node e.2.1 0) :: (l, .list (headOf (es' ++ [e])) (lastOf (es' ++ [e]))
        (UInt32.ofNat (es' ++ [e]).length)) :: (n, .node data 0) :: (Q ++ R)) := by
      refine h2'.perm ?_
      refine ((((q1.append_right R)).cons _).cons _).trans ?_
      refine ((List.Perm.swap ..).cons _).trans ?_
      exact List.Perm.swap ..
    obtain ⟨m3, e3, h3, s3⟩ := h2''.store (.node e.2.1 n)
    have h3' := h3.perm (List.Perm.swap ..)
    obtain ⟨m4, e4, h4, s4⟩ := h3'.store
      (.list (headOf (es' ++ [e])) n (UInt32.ofNat (es' ++ [e]).length + 1))
    refine ⟨n, m4, ?_, ?_, by rw [s4, s3, s2, s1]⟩
    · unfold listPush
      rw [bind_run e1, bind_run e2, bind_run (loadList_run h2'.load)]
      dsimp only
      rw [lastOf_append] at *
      rw [if_neg h2''.ne, bind_run (loadNode_run h2''.load), bind_run e3]
      exact e4
    · refine h4.perm ?_
      unfold listCells
      rw [lastOf_append, headOf_append (es' ++ [e]), if_neg (by simp), hc]
      rw [show (es' ++ [e] ++ [((n, data, r) : Entry)]).length = (es' ++ [e]).length + 1 by simp]
      exact ((((q2 (n, data, r)).append_right R)).symm).cons _

theorem listPop_empty {m : Mem} {l : Addr} {R : Heap} (h : Has m (listCells l [] ++ R)) :
    listPop l m = .ok (0, m) := by
  unfold listPop
  rw [bind_run (loadList_run h.load)]
  rfl

theorem listPop_run {m : Mem} {l : Addr} {e : Entry} {es : List Entry} {R : Heap}
    (h : Has m (listCells l (e :: es) ++ R)) :
    ∃ m', listPop l m = .ok (e.2.1, m') ∧ Has m' (listCells l es ++ R) ∧ m'.sent = m.sent := by
  have hne : e.1 ≠ 0 := (h.perm (List.Perm.swap ..)).ne
  have hc : UInt32.ofNat (e :: es).length - 1 = UInt32.ofNat es.length := by
    rw [List.length_cons, UInt32.ofNat_add]
    exact UInt32.add_sub_cancel _ _
  have hl : load l m = .ok (.list e.1 (lastOf (e :: es)) (UInt32.ofNat (e :: es).length), m) := h.load
  have hn : ∀ {m' : Mem} {c : Cell}, Has m' ((l, c) :: (e.1, .node e.2.1 (headOf es)) :: (nodeCells es ++ R)) →
      ∃ m'', (do let n ← loadNode e.1; free e.1; pure n.1 : C Addr) m' = .ok (e.2.1, m'') ∧
        Has m'' ((l, c) :: (nodeCells es ++ R)) ∧ m''.sent = m'.sent := by
    intro m' c h'
    have h'' := h'.perm (List.Perm.swap ..)
    obtain ⟨m'', e1, h1, s1⟩ := h''.free
    refine ⟨m'', ?_, h1, s1⟩
    rw [bind_run (loadNode_run h''.load), bind_run e1]
    rfl
  by_cases hes : es = []
  · subst hes
    obtain ⟨m1, e1, h1, s1⟩ := h.store (.list 0 0 (UInt32.ofNat [e].length - 1))
    obtain ⟨m2, e2, h2, s2⟩ := hn h1
    refine ⟨m2, ?_, ?_, by rw [s2, s1]⟩
    · unfold listPop
      rw [bind_run (loadList_run hl)]
      dsimp only
      rw [if_neg hne, show lastOf [e] = e.1 from rfl, if_pos rfl, bind_run e1]
      exact e2
    · rw [hc] at h2
      exact h2
  · obtain ⟨b, hb, hbl⟩ := lastOf_mem es hes
    have hlast : lastOf (e :: es) = lastOf es := by
      cases es with
      | nil => exact absurd rfl hes
      | cons x xs => rfl
    have hneq : e.1 ≠ lastOf (e :: es) := by
      rw [hlast, hbl]
      intro he
      obtain ⟨c, hc⟩ := nodeCells_mem hb
      have hg := (h.perm (List.Perm.swap ..)).good.1
      rw [List.map_cons, List.nodup_cons] at hg
      refine hg.1 (List.mem_map.mpr ⟨(b.1, c), ?_, he.symm⟩)
      exact List.mem_cons_of_mem _ (List.mem_append_left _ hc)
    obtain ⟨m1, e1, h1, s1⟩ := h.store (.list (headOf es) (lastOf (e :: es)) (UInt32.ofNat (e :: es).length - 1))
    obtain ⟨m2, e2, h2, s2⟩ := hn h1
    have hnode : loadNode e.1 m = .ok ((e.2.1, headOf es), m) :=
      loadNode_run (h.perm (List.Perm.swap ..)).load
    refine ⟨m2, ?_, ?_, by rw [s2, s1]⟩
    · unfold listPop
      rw [bind_run (loadList_run hl)]
      dsimp only
      rw [if_neg hne, if_neg hneq]
      rw [bind_run hnode, bind_run e1]
      exact e2
    · rw [hc, hlast] at h2
      exact h2

theorem freeNodes_run : ∀ (es : List Entry) (fuel : Nat) {m : Mem} {R : Heap}, es.length < fuel →
    Has m (nodeCells es ++ R) → ∃ m', freeNodes fuel (headOf es) m = .ok ((), m') ∧ Has m' R ∧ m'.sent = m.sent
  | [], 0, _, _, h, _ => absurd h (Nat.lt_irrefl _)
  | [], fuel + 1, m, R, _, h => ⟨m, rfl, h, rfl⟩
  | e :: es, 0, _, _, h, _ => absurd h (Nat.not_lt_zero _)
  | e :: es, fuel + 1, m, R, hf, h => by
    obtain ⟨m1, e1, h1, s1⟩ := Has.free h
    obtain ⟨m2, e2, h2, s2⟩ := freeNodes_run es fuel (by simpa using hf) h1
    refine ⟨m2, ?_, h2, by rw [s2, s1]⟩
    have hne : e.1 ≠ 0 := Has.ne h
    unfold freeNodes
    rw [show headOf (e :: es) = e.1 from rfl, if_neg hne, bind_run (loadNode_run (Has.load h)), bind_run e1]
    exact e2

theorem nodeCells_length : ∀ es : List Entry, (nodeCells es).length = es.length
  | [] => rfl
  | _ :: es => congrArg (· + 1) (nodeCells_length es)

theorem listFree_run {m : Mem} {l : Addr} {es : List Entry} {R : Heap} (h : Has m (listCells l es ++ R)) :
    ∃ m', listFree l m = .ok ((), m') ∧ Has m' R ∧ m'.sent = m.sent := by
  have hlen : es.length < m.heap.length + 1 := by
    rw [h.1.length_eq]
    simp [listCells, nodeCells_length]
    omega
  have h' : Has m (nodeCells es ++ ((l, .list (headOf es) (lastOf es) (UInt32.ofNat es.length)) :: R)) :=
    h.perm List.perm_middle.symm
  obtain ⟨m1, e1, h1, s1⟩ := freeNodes_run es _ hlen h'
  obtain ⟨m2, e2, h2, s2⟩ := h1.free
  refine ⟨m2, ?_, h2, by rw [s2, s1]⟩
  have hne : l ≠ 0 := Has.ne h
  unfold listFree
  rw [if_neg hne, bind_run (loadList_run (Has.load h))]
  dsimp only
  rw [bind_run e1]
  exact e2

end VF.MacMemory
