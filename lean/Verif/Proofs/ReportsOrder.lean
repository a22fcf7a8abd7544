import Verif.Proofs.ReportsInside
import Verif.Proofs.ReportsMono

/-! # Reports handled at the same time: the order in which they are dealt with -/

namespace VF.Reports

open Hid Spec.Ctaphid Spec.Calls
open scoped List

/-- The reports on a channel whose goroutines are past them, in the order in which they came in. -/
def past (cid : UInt32) (l : List Routine) : List Bytes :=
  (l.filter fun r => r.phase.taken && decide (channelOf r.report = some cid)).map (·.report)

/-- Only the last report on the channel may still have to be dealt with. -/
def Sorted (cid : UInt32) (l : List Routine) : Prop :=
  ∀ (i j : Nat) (r r2 : Routine), i < j → l[i]? = some r → l[j]? = some r2 → channelOf r.report = some cid →
    channelOf r2.report = some cid → r.phase.taken = true

/-- Goroutines go on. -/
structure Grown (l l' : List Routine) (more : List Bytes) : Prop where
  reports : l'.map (·.report) = l.map (·.report) ++ more
  taken : ∀ (j : Nat) (r : Routine), l[j]? = some r → r.phase.taken = true →
    ∃ r', l'[j]? = some r' ∧ r'.phase.taken = true

theorem Grown.report {l l' : List Routine} {more : List Bytes} (g : Grown l l' more) {j : Nat} {r : Routine}
    (h : l[j]? = some r) : ∃ r', l'[j]? = some r' ∧ r'.report = r.report := by
  have h1 := congrArg (·[j]?) g.reports
  have hl := (List.getElem?_eq_some_iff.mp h).1
  simp only [List.getElem?_map] at h1
  rw [List.getElem?_append_left (by simpa using hl), List.getElem?_map, h] at h1
  obtain ⟨r', h2, h3⟩ := Option.map_eq_some_iff.mp h1
  exact ⟨r', h2, h3⟩

theorem Grown.tail {a b : Routine} {l l' : List Routine} {more : List Bytes} (g : Grown (a :: l) (b :: l') more) :
    b.report = a.report ∧ (a.phase.taken = true → b.phase.taken = true) ∧ Grown l l' more := by
  have h1 := g.reports
  simp only [List.map_cons, List.cons_append, List.cons.injEq] at h1
  refine ⟨h1.1, ?_, h1.2, fun j r hr ht => ?_⟩
  · intro ht
    obtain ⟨r', h2, h3⟩ := g.taken 0 a rfl ht
    cases h2
    exact h3
  · exact g.taken (j + 1) r hr ht

theorem past_sublist (cid : UInt32) {more : List Bytes} : ∀ {l l' : List Routine}, Grown l l' more →
    past cid l <+ past cid l'
  | [], l', _ => List.nil_sublist _
  | a :: l, [], g => by
    have := g.reports
    simp at this
  | a :: l, b :: l', g => by
    obtain ⟨h1, h2, h3⟩ := g.tail
    have ih := past_sublist cid h3
    unfold past at ih ⊢
    rw [List.filter_cons, List.filter_cons]
    by_cases ha : (a.phase.taken && decide (channelOf a.report = some cid)) = true
    · rw [if_pos ha]
      simp only [Bool.and_eq_true, decide_eq_true_eq] at ha
      rw [if_pos (by simp [h2 ha.1, h1, ha.2]), List.map_cons, List.map_cons, h1]
      exact ih.cons_cons _
    · rw [if_neg ha]
      split
      · exact ih.trans (List.sublist_cons_self _ _)
      · exact ih

/-- The last report on the channel is dealt with. -/
theorem past_snoc (cid : UInt32) {more : List Bytes} : ∀ {l l' : List Routine} {i : Nat} {r r' : Routine}, Grown l l' more →
    Sorted cid l → l[i]? = some r → r.phase.taken = false → channelOf r.report = some cid → l'[i]? = some r' →
    r'.phase.taken = true → past cid l ++ [r.report] <+ past cid l'
  | [], l', i, r, r', _, _, h, _, _, _, _ => by simp at h
  | a :: l, [], i, r, r', g, _, _, _, _, _, _ => by
    have := g.reports
    simp at this
  | a :: l, b :: l', 0, r, r', g, hs, h, ht, hc, h', ht' => by
    obtain ⟨h1, h2, h3⟩ := g.tail
    cases h
    cases h'
    have h0 : past cid l = [] := by
      unfold past
      rw [List.map_eq_nil_iff, List.filter_eq_nil_iff]
      intro x hx hp
      simp only [Bool.and_eq_true, decide_eq_true_eq] at hp
      obtain ⟨j, hj⟩ := List.mem_iff_getElem?.mp hx
      have := hs 0 (j + 1) a x (by omega) rfl hj hc hp.2
      rw [ht] at this; cases this
    unfold past at h0 ⊢
    rw [List.filter_cons, if_neg (by simp [ht]), h0, List.filter_cons, if_pos (by simp [ht', h1, hc]), List.map_cons, h1]
    exact (List.nil_sublist _).cons_cons _
  | a :: l, b :: l', i + 1, r, r', g, hs, h, ht, hc, h', ht' => by
    obtain ⟨h1, h2, h3⟩ := g.tail
    have ih := past_snoc cid h3 (fun i j x y hij hi hj => hs (i + 1) (j + 1) x y (by omega) hi hj) (i := i) h ht hc h' ht'
    unfold past at ih ⊢
    rw [List.filter_cons, List.filter_cons]
    by_cases ha : (a.phase.taken && decide (channelOf a.report = some cid)) = true
    · rw [if_pos ha]
      simp only [Bool.and_eq_true, decide_eq_true_eq] at ha
      rw [if_pos (by simp [h2 ha.1, h1, ha.2]), List.map_cons, List.map_cons, h1, List.cons_append]
      exact ih.cons_cons _
    · rw [if_neg ha]
      split
      · exact ih.trans (List.sublist_cons_self _ _)
      · exact ih

theorem proj_one_other {cid : UInt32} {m : Bytes} (h : channelOf m ≠ some cid) : proj cid [m] = [] := by
  simp [proj, h]

/-- Reports on the channel stay in order. -/
theorem order_step {s s' : State} {handled refused handled' refused' more : List Bytes} {cid : UInt32}
    (g : Grown s.routines s'.routines more) (hs : Sorted cid s.routines)
    (ht : Taking s s' handled refused handled' refused')
    (h1 : proj cid handled <+ past cid s.routines) (h2 : proj cid refused <+ past cid s.routines) :
    proj cid handled' <+ past cid s'.routines ∧ proj cid refused' <+ past cid s'.routines := by
  have hg := past_sublist cid g
  rcases ht with ⟨rfl, rfl⟩ | ⟨i, r, r', hr, hu, hr', hu', ht⟩
  · exact ⟨h1.trans hg, h2.trans hg⟩
  · have key : ∀ l : List Bytes, proj cid l <+ past cid s.routines → proj cid (l ++ [r.report]) <+ past cid s'.routines := by
      intro l hl
      rw [proj_append]
      by_cases hc : channelOf r.report = some cid
      · rw [proj_one hc]
        exact (hl.append (List.Sublist.refl _)).trans (past_snoc cid g hs hr hu hc hr' hu')
      · rw [proj_one_other hc, List.append_nil]
        exact hl.trans hg
    rcases ht with ⟨rfl, rfl⟩ | ⟨rfl, rfl, -⟩
    · exact ⟨key _ h1, h2.trans hg⟩
    · exact ⟨h1.trans hg, key _ h2⟩

/-- … if the next report on it comes in when the others were dealt with. -/
theorem sorted_step {s s' : State} {more : List Bytes} {cid : UInt32} (g : Grown s.routines s'.routines more)
    (hs : Sorted cid s.routines) (hm : more.length ≤ 1)
    (hn : ∀ m ∈ more, channelOf m = some cid → ∀ r ∈ s.routines, channelOf r.report = some cid → r.phase.taken = true) :
    Sorted cid s'.routines := by
  intro i j r r2 hij hi hj hc hc2
  have hlen : s'.routines.length = s.routines.length + more.length := by
    have := congrArg List.length g.reports
    simpa using this
  have hjl := (List.getElem?_eq_some_iff.mp hj).1
  have hil : i < s.routines.length := by omega
  have hi0 : s.routines[i]? = some s.routines[i] := List.getElem?_eq_getElem hil
  obtain ⟨r', g1, g2⟩ := g.report hi0
  rw [hi] at g1
  cases g1
  have ht : s.routines[i].phase.taken = true := by
    by_cases hjs : j < s.routines.length
    · have hj0 : s.routines[j]? = some s.routines[j] := List.getElem?_eq_getElem hjs
      obtain ⟨r', g3, g4⟩ := g.report hj0
      rw [hj] at g3
      cases g3
      exact hs i j _ _ hij hi0 hj0 (by rw [← g2]; exact hc) (by rw [← g4]; exact hc2)
    · have h3 := congrArg (·[j]?) g.reports
      simp only [List.getElem?_map, hj] at h3
      rw [List.getElem?_append_right (by simp; omega)] at h3
      have hmem : r2.report ∈ more := List.mem_of_getElem? h3.symm
      exact hn _ hmem hc2 _ (List.mem_of_getElem? hi0) (by rw [← g2]; exact hc)
  obtain ⟨r', g5, g6⟩ := g.taken i _ hi0 ht
  rw [hi] at g5
  cases g5
  exact g6

theorem past_proj (cid : UInt32) (l : List Routine) : past cid l <+ proj cid (l.map (·.report)) := by
  unfold past proj
  rw [List.filter_map]
  apply List.Sublist.map
  have : (l.filter fun r => r.phase.taken && decide (channelOf r.report = some cid)) =
      (l.filter ((fun m => decide (channelOf m = some cid)) ∘ fun r => r.report)).filter fun r => r.phase.taken := by
    rw [List.filter_filter]
    rfl
  rw [this]
  exact List.filter_sublist

end VF.Reports
