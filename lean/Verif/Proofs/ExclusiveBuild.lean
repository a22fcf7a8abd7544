import Verif.Proofs.Exclusive

/-!
# When operations of a kind are one at a time
-/

namespace VF.Fido.Overlap

open Prog VF.Spec.Overlap

variable {E : Env} {cfg : Client.Config} {kind : Op → Bool}

/-- A goroutine at work on an operation of the kind. -/
def atWork (kind : Op → Bool) : Thread → Bool
  | .working op _ => kind op
  | _ => false

/-- Beginnings of operations of the kind. -/
def isBegin (kind : Op → Bool) : Event → Bool
  | .begin op => kind op
  | _ => false

theorem atWork_ended (ts : List Thread) : (ts.map Thread.ended).countP (atWork kind) = 0 := by
  rw [List.countP_eq_zero]
  intro t ht
  obtain ⟨u, -, rfl⟩ := List.mem_map.1 ht
  cases u <;> simp [Thread.ended, atWork]

theorem countP_set_le {α : Type} {f : α → Bool} : ∀ {l : List α} {i : Nat} {a b : α}, l[i]? = some a →
    (f b = true → f a = true) → (l.set i b).countP f ≤ l.countP f
  | [], _, _, _, h, _ => by simp at h
  | x :: l, 0, a, b, h, e => by
    obtain rfl : x = a := by simpa using h
    simp only [List.set_cons_zero, List.countP_cons]
    by_cases hb : f b = true
    · simp [hb, e hb]
    · simp [hb]
  | x :: l, i + 1, a, b, h, e => by
    have ih := countP_set_le (f := f) (l := l) (i := i) (by simpa using h) e
    simp only [List.set_cons_succ, List.countP_cons]
    omega

theorem settle_atWork {op : Op} {p : Prog Reply} (h : atWork kind (settle op p) = true) : kind op = true := by
  cases p <;> first | exact h | cases h

theorem step_atWork (s : Process) (e : Event) : (s.step E cfg e).threads.countP (atWork kind) ≤
    s.threads.countP (atWork kind) + if isBegin kind e then 1 else 0 := by
  cases e with
  | restart =>
    unfold Process.step
    dsimp only
    split <;> (dsimp only; rw [atWork_ended]; omega)
  | begin op =>
    unfold Process.step
    dsimp only
    split
    · have key : ∀ t, (s.threads ++ [Thread.gone op]).set s.threads.length t = s.threads ++ [t] := by
        intro t
        rw [List.set_append_right _ _ (Nat.le_refl _)]
        simp
      have hs : ∀ p, ((s.threads ++ [Thread.gone op]).set s.threads.length (settle op p)).countP (atWork kind) ≤
          s.threads.countP (atWork kind) + if isBegin kind (.begin op) then 1 else 0 := by
        intro p
        rw [key, List.countP_append, List.countP_singleton]
        by_cases h : atWork kind (settle op p) = true
        · simp [h, isBegin, settle_atWork h]
        · simp [h]
      cases perform E op with
      | fail c =>
        show (((s.threads ++ [Thread.gone op]).set s.threads.length _).map Thread.ended).countP _ ≤ _
        rw [atWork_ended]
        omega
      | ret r => exact hs (.ret r)
      | act upd next => exact hs (.act upd next)
    · omega
  | turn i =>
    unfold Process.step
    dsimp only
    split
    · rename_i op upd next hi
      split
      · have hs : ∀ p, (s.threads.set i (settle op p)).countP (atWork kind) ≤ s.threads.countP (atWork kind) :=
          fun p => countP_set_le hi settle_atWork
        cases next s.mem with
        | fail c =>
          show ((s.threads.set i _).map Thread.ended).countP _ ≤ _
          rw [atWork_ended]
          omega
        | ret r => exact Nat.le_trans (hs (.ret r)) (by omega)
        | act upd next => exact Nat.le_trans (hs (.act upd next)) (by omega)
      · omega
    · omega

theorem run_atWork (evs : List Event) : ∀ s : Process, (s.run E cfg evs).threads.countP (atWork kind) ≤
    s.threads.countP (atWork kind) + evs.countP (isBegin kind) := by
  induction evs with
  | nil => intro s; exact Nat.le_refl _
  | cons e evs ih =>
    intro s
    have h1 := ih (s.step E cfg e)
    have h2 := step_atWork (kind := kind) (E := E) (cfg := cfg) s e
    rw [List.countP_cons]
    exact Nat.le_trans h1 (by omega)

theorem countP_unique {α : Type} {f : α → Bool} : ∀ {l : List α} {i j : Nat} {a b : α}, l.countP f ≤ 1 →
    l[i]? = some a → l[j]? = some b → f a = true → f b = true → i = j
  | [], _, _, _, _, _, h, _, _, _ => by simp at h
  | x :: l, 0, 0, _, _, _, _, _, _, _ => rfl
  | x :: l, 0, j + 1, a, b, h, h1, h2, h3, h4 => by
    obtain rfl : x = a := by simpa using h1
    have := List.countP_pos_iff.2 ⟨b, List.mem_of_getElem? (by simpa using h2), h4⟩
    simp only [List.countP_cons, h3, if_true] at h
    omega
  | x :: l, i + 1, 0, a, b, h, h1, h2, h3, h4 => by
    obtain rfl : x = b := by simpa using h2
    have := List.countP_pos_iff.2 ⟨a, List.mem_of_getElem? (by simpa using h1), h3⟩
    simp only [List.countP_cons, h4, if_true] at h
    omega
  | x :: l, i + 1, j + 1, a, b, h, h1, h2, h3, h4 => by
    have := countP_unique (f := f) (l := l) (i := i) (j := j) (by simp only [List.countP_cons] at h; omega)
      (by simpa using h1) (by simpa using h2) h3 h4
    omega

/-- None is at work, and at most one begins. -/
theorem exclusive_of_one {evs evs' : List Event} (hr : .restart ∉ evs')
    (hq : ∀ op p, Thread.working op p ∈ ((boot E cfg).run E cfg evs).threads → kind op = false)
    (h1 : evs'.countP (isBegin kind) ≤ 1) : Exclusive kind E cfg evs evs' where
  running := hr
  quiet := hq
  one := by
    intro n i j op op' p p' hi hj hk hk'
    have h0 : ((boot E cfg).run E cfg evs).threads.countP (atWork kind) = 0 := by
      rw [List.countP_eq_zero]
      intro t ht
      cases t with
      | working op p => simp [atWork, hq op p ht]
      | ready op r => simp [atWork]
      | gone op => simp [atWork]
    have h2 := run_atWork (kind := kind) (E := E) (cfg := cfg) (evs'.take n) ((boot E cfg).run E cfg evs)
    rw [← run_append, h0] at h2
    have h3 : (evs'.take n).countP (isBegin kind) ≤ evs'.countP (isBegin kind) :=
      (List.take_sublist n evs').countP_le
    exact countP_unique (f := atWork kind) (by omega) hi hj hk hk'

theorem Exclusive.append {evs a b : List Event} (ha : Exclusive kind E cfg evs a)
    (hb : Exclusive kind E cfg (evs ++ a) b) : Exclusive kind E cfg evs (a ++ b) where
  running := fun h => (List.mem_append.1 h).elim ha.running hb.running
  quiet := ha.quiet
  one := by
    intro n i j op op' p p' hi hj hk hk'
    by_cases hn : n ≤ a.length
    · rw [List.take_append_of_le_length hn] at hi hj
      exact ha.one n i j op op' p p' hi hj hk hk'
    · rw [List.take_append, List.take_of_length_le (by omega), ← List.append_assoc] at hi hj
      exact hb.one _ i j op op' p p' hi hj hk hk'

end VF.Fido.Overlap
