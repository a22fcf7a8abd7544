import Verif.Model.RequestBuffer

/-! Lemmas about the request buffer. -/

namespace VF.Buf

variable {K : Type}

theorem mem_remove {id : UInt32} {m : List (UInt32 × K)} {e : UInt32 × K} :
    e ∈ remove id m ↔ e ∈ m ∧ e.1 ≠ id := by simp [remove]

/-- waiting keys are distinct, and nothing waits while responses are queued -/
structure Inv (b : Buffer K) : Prop where
  keys : (b.waiting.map (·.1)).Nodup
  excl : b.responses = [] ∨ b.waiting = []

theorem remove_sublist (id : UInt32) (m : List (UInt32 × K)) : (remove id m).Sublist m :=
  List.filter_sublist

theorem keys_remove {id : UInt32} {m : List (UInt32 × K)} (h : (m.map (·.1)).Nodup) :
    ((remove id m).map (·.1)).Nodup := h.sublist ((remove_sublist id m).map _)

theorem Inv_make : Inv (Buffer.make K) := ⟨by simp [Buffer.make], .inl rfl⟩

theorem Inv_request {id : UInt32} {k : K} {b : Buffer K} (h : Inv b) : Inv (request id k b).1 := by
  unfold request
  split
  · rename_i r rs hr
    refine ⟨h.keys, .inr ?_⟩
    rcases h.excl with e | e
    · rw [hr] at e; simp at e
    · exact e
  · rename_i hr
    refine ⟨?_, .inl hr⟩
    simp only [setWaiting, List.map_cons, List.nodup_cons]
    refine ⟨?_, keys_remove h.keys⟩
    simp [mem_remove]

theorem Inv_cancel {id : UInt32} {b : Buffer K} (h : Inv b) : Inv (cancelRequest id b).1 := by
  unfold cancelRequest
  split
  · refine ⟨keys_remove h.keys, ?_⟩
    rcases h.excl with e | e
    · exact .inl e
    · right; simp [e, remove]
  · exact h

theorem respond_none {data : Bytes} {choice : Nat} {b : Buffer K} :
    b.waiting[choice % b.waiting.length]? = none ↔ b.waiting = [] := by
  constructor
  · intro h
    rw [List.getElem?_eq_none_iff] at h
    rcases hw : b.waiting with _ | ⟨x, xs⟩
    · rfl
    · rw [hw] at h
      have := Nat.mod_lt choice (show 0 < (x :: xs).length by simp)
      omega
  · intro h; simp [h]

theorem Inv_respond {data : Bytes} {choice : Nat} {b : Buffer K} (h : Inv b) :
    Inv (respondLocked data choice b).1 := by
  unfold respondLocked
  split
  · rename_i e he
    refine ⟨keys_remove h.keys, ?_⟩
    rcases h.excl with h1 | h1
    · exact .inl h1
    · rw [h1] at he; simp at he
  · rename_i he
    exact ⟨h.keys, .inr ((respond_none (data := data)).mp he)⟩

/-- `find?` by key, on distinct keys, is membership. -/
theorem find_iff {m : List (UInt32 × K)} (h : (m.map (·.1)).Nodup) {id : UInt32} {k : K} :
    m.find? (fun e => e.1 == id) = some (id, k) ↔ (id, k) ∈ m := by
  induction m with
  | nil => simp
  | cons x xs ih =>
    simp only [List.map_cons, List.nodup_cons] at h
    by_cases hx : x.1 = id
    · rw [List.find?_cons_of_pos (by simp [hx])]
      constructor
      · intro h1; simp only [Option.some.injEq] at h1; simp [h1]
      · intro h1
        rw [List.mem_cons] at h1
        rcases h1 with h1 | h1
        · rw [h1]
        · exfalso; apply h.1; rw [hx]; exact List.mem_map.mpr ⟨_, h1, rfl⟩
    · rw [List.find?_cons_of_neg (by simp [hx]), ih h.2]
      simp only [List.mem_cons]
      constructor
      · exact .inr
      · rintro (h1 | h1)
        · rw [← h1] at hx; simp at hx
        · exact h1

theorem cancel_spec {id : UInt32} {b : Buffer K} (h : Inv b) :
    (∀ k, (cancelRequest id b).2 = some k ↔ (id, k) ∈ b.waiting) ∧
    (cancelRequest id b).1.waiting = remove id b.waiting ∧
    (cancelRequest id b).1.responses = b.responses := by
  unfold cancelRequest
  split
  · rename_i e he
    have hid : e.1 = id := by simpa using List.find?_some he
    refine ⟨fun k => ?_, rfl, rfl⟩
    constructor
    · intro hk
      simp only [Option.some.injEq] at hk
      rw [← hk, ← hid]; exact List.mem_of_find?_eq_some he
    · intro hk
      rw [(find_iff h.keys).mpr hk] at he
      simp only [Option.some.injEq] at he
      simp [← he]
  · rename_i he
    rw [List.find?_eq_none] at he
    refine ⟨fun k => ?_, ?_, rfl⟩
    · constructor
      · intro hk; simp at hk
      · intro hk; exact absurd (by simp) (he _ hk)
    · symm
      simp only [remove, List.filter_eq_self]
      intro a ha
      have := he a ha
      simpa using this

theorem cancel_none {id : UInt32} {b : Buffer K} (h : Inv b) :
    (cancelRequest id b).2 = none ↔ ∀ k, (id, k) ∉ b.waiting := by
  have := (cancel_spec (id := id) h).1
  constructor
  · intro hn k hk; rw [← this, hn] at hk; simp at hk
  · intro hn
    rcases hc : (cancelRequest id b).2 with _ | k
    · rfl
    · exact absurd ((this k).mp hc) (hn k)

theorem respond_some {data : Bytes} {choice : Nat} {b : Buffer K} {e : UInt32 × K}
    (he : (respondLocked data choice b).2 = some e) :
    e ∈ b.waiting ∧ (respondLocked data choice b).1.waiting = remove e.1 b.waiting ∧
    (respondLocked data choice b).1.responses = b.responses := by
  unfold respondLocked at he ⊢
  split at he
  · rename_i e' he'
    simp only [Option.some.injEq] at he
    subst he
    exact ⟨List.mem_of_getElem? he', rfl, rfl⟩
  · simp at he

theorem respond_none' {data : Bytes} {choice : Nat} {b : Buffer K}
    (he : (respondLocked data choice b).2 = none) :
    b.waiting = [] ∧ (respondLocked data choice b).1.waiting = [] ∧
    (respondLocked data choice b).1.responses = b.responses ++ [data] := by
  unfold respondLocked at he ⊢
  split at he
  · simp at he
  · rename_i h
    have := (respond_none (data := data)).mp h
    refine ⟨this, this, rfl⟩

theorem request_some {id : UInt32} {k : K} {b : Buffer K} {d : Bytes}
    (h : (request id k b).2 = some d) : b.responses = d :: (request id k b).1.responses ∧
    (request id k b).1.waiting = b.waiting := by
  unfold request at h ⊢
  split at h
  · rename_i r rs hr
    simp only [Option.some.injEq] at h
    subst h
    exact ⟨hr, rfl⟩
  · simp at h

theorem request_none {id : UInt32} {k : K} {b : Buffer K}
    (h : (request id k b).2 = none) : b.responses = [] ∧ (request id k b).1.responses = [] ∧
    (request id k b).1.waiting = setWaiting id k b.waiting := by
  unfold request at h ⊢
  split at h
  · simp at h
  · rename_i hr
    exact ⟨hr, hr, rfl⟩

/-- In a list of pairs with distinct keys, removing the key of an element removes one element. -/
theorem countP_remove {m : List (UInt32 × Nat)} (h : (m.map (·.1)).Nodup) {id : UInt32} {k j : Nat}
    (hm : (id, k) ∈ m) : (remove id m).countP (fun e => e.2 == j) + (if k = j then 1 else 0) =
      m.countP (fun e => e.2 == j) := by
  induction m with
  | nil => simp at hm
  | cons x xs ih =>
    simp only [List.map_cons, List.nodup_cons] at h
    rw [List.mem_cons] at hm
    rcases hm with hm | hm
    · subst hm
      have hr : remove id ((id, k) :: xs) = xs := by
        simp only [remove, List.filter_cons, bne_self_eq_false, Bool.false_eq_true, if_false,
          List.filter_eq_self]
        intro a ha
        simp only [bne_iff_ne, ne_eq]
        intro hc
        exact h.1 (List.mem_map.mpr ⟨a, ha, hc⟩)
      rw [hr, List.countP_cons]
      by_cases hk : k = j <;> simp [hk]
    · have hx : x.1 ≠ id := by
        intro hc; exact h.1 (by rw [hc]; exact List.mem_map.mpr ⟨_, hm, rfl⟩)
      have hr : remove id (x :: xs) = x :: remove id xs := by
        simp [remove, List.filter_cons, hx]
      rw [hr, List.countP_cons, List.countP_cons]
      have := ih h.2 hm
      omega

theorem remove_of_not_mem {m : List (UInt32 × K)} {id : UInt32} (h : ∀ k, (id, k) ∉ m) :
    remove id m = m := by
  simp only [remove, List.filter_eq_self]
  intro a ha
  simp only [bne_iff_ne, ne_eq]
  intro hc
  apply h a.2
  rw [← hc]; exact ha

end VF.Buf
