import Verif.Spec.Overlap

/-! # Goroutines that are not at work stay as they are -/

namespace VF.Fido.Overlap

open Spec.Overlap

variable {E : Env} {cfg : Client.Config}

theorem ended_same {t : Thread} (h : busy t = false) : t.ended = t := by cases t <;> first | rfl | cases h

/-- A goroutine that is not at work stays as it is. -/
theorem step_fixed (s : Process) {e : Event} (he : e ≠ .restart) {k : Nat} {t : Thread} (h : s.threads[k]? = some t)
    (hb : busy t = false) : (s.step E cfg e).threads[k]? = some t := by
  have key : ∀ (ts : List Thread) (i : Nat) (op : Op) (mem : Mem) (p : Prog Reply), ts[k]? = some t → k ≠ i →
      (({ s with threads := ts } : Process).moved i op mem p).threads[k]? = some t := by
    intro ts i op mem p hk hi
    unfold Process.moved
    split
    · dsimp only
      rw [List.getElem?_map, List.getElem?_set_ne (Ne.symm hi), hk]
      show some t.ended = some t
      rw [ended_same hb]
    · dsimp only
      rw [List.getElem?_set_ne (Ne.symm hi), hk]
  cases e with
  | restart => exact absurd rfl he
  | turn i =>
    unfold Process.step
    dsimp only
    split
    · rename_i op upd next hw
      split
      · refine key s.threads _ _ _ _ h ?_
        rintro rfl
        rw [h] at hw
        cases hw
        cases hb
      · exact h
    · exact h
  | begin op =>
    unfold Process.step
    dsimp only
    have hl := (List.getElem?_eq_some_iff.mp h).1
    split
    · refine key _ _ _ _ _ ?_ (by omega)
      rw [List.getElem?_append_left hl, h]
    · exact h

theorem run_fixed (evs : List Event) : ∀ {s : Process}, (∀ e ∈ evs, e ≠ .restart) → ∀ {k : Nat} {t : Thread},
    s.threads[k]? = some t → busy t = false → (s.run E cfg evs).threads[k]? = some t := by
  induction evs with
  | nil => intro s _ k t h _; exact h
  | cons e evs ih =>
    intro s hne k t h hb
    exact ih (fun e' he' => hne e' (by simp [he'])) (step_fixed s (hne e (by simp)) h hb) hb

end VF.Fido.Overlap
