import Verif.Spec.Live
import Verif.Proofs.LiveRun
import Verif.Props.Overlap
import Mathlib.Data.List.Perm.Subperm
import Mathlib.Data.List.Nodup

/-! # What hosts read and the operations it comes from -/

namespace VF.Live

open Fido Spec.Calls Hid Spec.Service Spec.Live Spec.Ctaphid Spec.Approval
open Spec.Stack (onChannel)
open Spec.Overlap (opOf Finished Faithful result)

theorem nodup_of_lt {l : List Nat} (h : l.Pairwise (· < ·)) : l.Nodup := h.imp fun h => Nat.ne_of_lt h

/-- Answers that were read belong to the first calls. -/
theorem zip_results : ∀ (ks : List Call) (xs : List (UInt8 × Bytes)), xs <+: results ks →
    (∀ k ∈ ks.dropLast, k.answer.isSome = true) →
    (asked ks).zip xs = (ks.take xs.length).map (fun k => ((k.command, k.payload), (k.command, k.answer.getD []))) ∧
    ∀ k ∈ ks.take xs.length, k.answer.isSome = true
  | [], xs, h, _ => by
    have : xs = [] := by simpa [results] using h
    subst this
    simp [asked]
  | k :: ks, [], _, _ => by simp
  | k :: ks, x :: xs, h, hd => by
    rcases ha : k.answer with _ | a
    · cases ks with
      | nil => simp [results, ha] at h
      | cons k' ks =>
        have := hd k (by simp)
        rw [ha] at this; cases this
    · have hr : results (k :: ks) = (k.command, a) :: results ks := by simp [results, ha]
      rw [hr, List.cons_prefix_cons] at h
      obtain ⟨rfl, h⟩ := h
      have hd' : ∀ k ∈ ks.dropLast, k.answer.isSome = true := by
        intro k' hk'
        apply hd
        cases ks with
        | nil => simp at hk'
        | cons k2 ks => rw [List.dropLast_cons_of_ne_nil (by simp)]; exact List.mem_cons_of_mem _ hk'
      obtain ⟨h1, h2⟩ := zip_results ks xs h hd'
      refine ⟨?_, ?_⟩
      · simp only [asked, List.map_cons, List.zip_cons_cons, List.length_cons, List.take_succ_cons, ha, Option.getD_some]
        rw [show (ks.map fun k => (k.command, k.payload)).zip xs = _ from h1]
      · intro k' hk'
        rw [List.length_cons, List.take_succ_cons, List.mem_cons] at hk'
        rcases hk' with rfl | hk'
        · simp [ha]
        · exact h2 k' hk'

theorem countP_range {α : Type} (l : List α) (Q : α → Bool) :
    (List.range l.length).countP (fun i => ((l[i]?).map Q).getD false) = l.countP Q := by
  induction l with
  | nil => rfl
  | cons a l ih =>
    rw [List.length_cons, List.range_succ_eq_map, List.countP_cons, List.countP_map, List.countP_cons]
    rw [← ih]
    rfl

/-- Counting things at different places of a list. -/
theorem countP_places {α β : Type} (l : List α) (Q : α → Bool) (f : β → Nat) (P : β → Bool) (ks : List β)
    (hn : (ks.map f).Nodup) (h : ∀ k ∈ ks, P k = true → ∃ t, l[f k]? = some t ∧ Q t = true) :
    ks.countP P ≤ l.countP Q := by
  have hsub : ((ks.filter P).map f).Subperm
      ((List.range l.length).filter fun i => ((l[i]?).map Q).getD false) := by
    apply List.Nodup.subperm
    · exact (hn.sublist (List.filter_sublist.map f))
    · intro i hi
      obtain ⟨k, hk, rfl⟩ := List.mem_map.mp hi
      obtain ⟨hk1, hk2⟩ := List.mem_filter.mp hk
      obtain ⟨t, h1, h2⟩ := h k hk1 hk2
      refine List.mem_filter.mpr ⟨List.mem_range.mpr (List.getElem?_eq_some_iff.mp h1).1, ?_⟩
      rw [h1]; simpa using h2
  have hlen := hsub.length_le
  rw [List.length_map, ← List.countP_eq_length_filter, ← List.countP_eq_length_filter] at hlen
  refine Nat.le_trans hlen (Nat.le_of_eq ?_)
  exact countP_range l Q

/-- What a host has read on some channels, each named once, claims consent no more often than the user gave it. -/
theorem count_exchanges {reports out : List Bytes} {threads : List Overlap.Thread} {handled refused pending : List Bytes}
    {calls : List Call} (acc : Account reports out threads handled refused pending calls)
    (hok : ∀ k ∈ calls, ∀ a, k.answer = some a → a ≠ [] ∧ a.length ≤ 7609) (cids : List UInt32) (hn : cids.Nodup)
    (P : Op × Reply → Bool) :
    (cids.flatMap (exchanges out calls)).countP P ≤
      (threads.filterMap result).countP P := by
  have hzip := fun cid => zip_results _ _ (acc.received hok cid) (acc.inTurn cid)
  have hex : ∀ cid, exchanges out calls cid =
      ((callsOn cid calls).take (answers (onChannel cid out)).length).map
        (fun k => (opFor k.command k.payload, Reply.answer (k.answer.getD []))) := by
    intro cid
    unfold exchanges
    rw [(hzip cid).1, List.map_map]
    rfl
  have hall : cids.flatMap (exchanges out calls) =
      (cids.flatMap fun cid => (callsOn cid calls).take (answers (onChannel cid out)).length).map
        (fun k => (opFor k.command k.payload, Reply.answer (k.answer.getD []))) := by
    rw [List.map_flatMap]
    congr 1
    funext cid
    exact hex cid
  rw [hall, List.countP_map, List.countP_filterMap]
  apply countP_places threads _ (fun k : Call => k.number)
  · have hmem : ∀ cid k, k ∈ (callsOn cid calls).take (answers (onChannel cid out)).length → k ∈ calls ∧ k.channel = cid := by
      intro cid k hk
      have := List.mem_filter.mp ((List.take_sublist _ _).subset hk)
      exact ⟨this.1, by simpa using this.2⟩
    rw [List.map_flatMap, List.nodup_flatMap]
    refine ⟨?_, ?_⟩
    · intro cid _
      refine (nodup_of_lt acc.ownOperation).sublist (List.Sublist.map _ ?_)
      exact (List.take_sublist _ _).trans List.filter_sublist
    · refine hn.imp ?_
      intro c1 c2 hne
      intro x hx1 hx2
      obtain ⟨k1, hk1, e1⟩ := List.mem_map.mp hx1
      obtain ⟨k2, hk2, e2⟩ := List.mem_map.mp hx2
      obtain ⟨m1, n1⟩ := hmem c1 k1 hk1
      obtain ⟨m2, n2⟩ := hmem c2 k2 hk2
      have := List.inj_on_of_nodup_map (nodup_of_lt acc.ownOperation) m1 m2 (by rw [e1, e2])
      rw [← n1, ← n2, this] at hne
      exact hne rfl
  · intro k hk hP
    obtain ⟨cid, -, hk2⟩ := List.mem_flatMap.mp hk
    have hm : k ∈ calls := (List.mem_filter.mp ((List.take_sublist _ _).subset hk2)).1
    obtain ⟨a, ha⟩ := Option.isSome_iff_exists.mp ((hzip cid).2 k hk2)
    refine ⟨_, acc.ownResult k hm a ha, ?_⟩
    simp only [Function.comp, ha, Option.getD_some] at hP
    simpa [result] using hP

/-- Every exchange is that of an operation. -/
theorem exchange_operation {reports out : List Bytes} {threads : List Overlap.Thread} {handled refused pending : List Bytes}
    {calls : List Call} (acc : Account reports out threads handled refused pending calls)
    (hok : ∀ k ∈ calls, ∀ a, k.answer = some a → a ≠ [] ∧ a.length ≤ 7609) {cid : UInt32} {x : Op × Reply}
    (hx : x ∈ exchanges out calls cid) : ∃ i : Nat, threads[i]? = some (.ready x.1 x.2) := by
  obtain ⟨h1, h2⟩ := zip_results _ _ (acc.received hok cid) (acc.inTurn cid)
  unfold exchanges at hx
  rw [h1, List.map_map] at hx
  obtain ⟨k, hk, rfl⟩ := List.mem_map.mp hx
  have hm : k ∈ calls := (List.mem_filter.mp ((List.take_sublist _ _).subset hk)).1
  obtain ⟨a, ha⟩ := Option.isSome_iff_exists.mp (h2 k hk)
  refine ⟨k.number, ?_⟩
  simp only [Function.comp, ha, Option.getD_some]
  exact acc.ownResult k hm a ha

end VF.Live
