import Verif.Proofs.OverlapFootprint
import Verif.Proofs.OverlapFixed
import Verif.Spec.Exclusive

/-!
# A rule for operations of one kind that are done one at a time
-/

namespace VF.Fido

namespace Prog

variable {α β : Type} {N : Mem → Prop} {R : Mem → Mem → Prop} {G : Mem → Prop}

/-- The steps of one goroutine, which last left the memory `m`, while others do `R` between them: each leaves `G`, and the
result with the memory then is in `Q`.  All memories are in `N`. -/
def Runs (N : Mem → Prop) (R : Mem → Mem → Prop) (G : Mem → Prop) (Q : α → Mem → Prop) : Prog α → Mem → Prop
  | ret a, m => Q a m
  | fail _, _ => True
  | act upd next, m => ∀ m', R m m' → N m' → N (upd m') → G (upd m') ∧ Runs N R G Q (next m') (upd m')

theorem Runs.bind {Q : α → Mem → Prop} {Q' : β → Mem → Prop} {p : Prog α} {f : α → Prog β} {m : Mem}
    (hp : Runs N R G Q p m) (hf : ∀ a m, Q a m → Runs N R G Q' (f a) m) : Runs N R G Q' (p >>= f) m := by
  induction p generalizing m with
  | ret a => exact hf a m hp
  | fail c => trivial
  | act upd next ih =>
    intro m' h1 h2 h3
    obtain ⟨k1, k2⟩ := hp m' h1 h2 h3
    exact ⟨k1, ih m' k2⟩

theorem Runs.mono {Q Q' : α → Mem → Prop} {p : Prog α} {m : Mem}
    (hp : Runs N R G Q p m) (hf : ∀ a m, Q a m → Q' a m) : Runs N R G Q' p m := by
  induction p generalizing m with
  | ret a => exact hf a m hp
  | fail c => trivial
  | act upd next ih =>
    intro m' h1 h2 h3
    obtain ⟨k1, k2⟩ := hp m' h1 h2 h3
    exact ⟨k1, ih m' k2⟩

/-- Steps that do `F` keep what `R` and `F` keep. -/
theorem Runs.of_traced {F : Mem → Mem → Prop} {Q : α → Prop} {P : Mem → Prop} {p : Prog α}
    (h : Traced (fun _ => True) (fun _ => False) F Q p) (hR : ∀ m m', P m → R m m' → N m' → P m')
    (hF : ∀ m m', P m → F m m' → P m') (hG : ∀ m, P m → G m) {m : Mem} (hm : P m) :
    Runs N R G (fun a m => Q a ∧ P m) p m := by
  induction p generalizing m with
  | ret a => exact ⟨h, hm⟩
  | fail c => trivial
  | act upd next ih =>
    intro m' h1 h2 h3
    rcases h m' trivial with h' | ⟨k1, k2⟩
    · exact absurd h' id
    · have hp := hF _ _ (hR _ _ hm h1 h2) k1
      exact ⟨hG _ hp, ih m' k2 hp⟩

end Prog

namespace Overlap

open Prog VF.Spec.Overlap

variable {E : Env} {cfg : Client.Config} {ok : Op → Prop} {kind : Op → Bool} {sel : Op × Reply → Bool} {N : Mem → Prop}
  {R : Mem → Mem → Prop} {I W : Mem → List (Op × Reply) → Prop}

/-- What a goroutine contributes to the selected results. -/
def mark (sel : Op × Reply → Bool) (t : Thread) : Option (Op × Reply) := (result t).filter sel

theorem selected_eq (s : Process) : selected sel s = s.threads.filterMap (mark sel) := by
  unfold selected results mark
  rw [List.filter_filterMap]

theorem mark_working (op : Op) (p : Prog Reply) : mark sel (.working op p) = none := rfl

theorem mark_gone (op : Op) : mark sel (.gone op) = none := rfl

theorem mark_ended (t : Thread) : mark sel t.ended = mark sel t := by cases t <;> rfl

theorem mark_other (hsel : ∀ op r, sel (op, r) = true → kind op = true) {t : Thread} (h : kind (opOf t) = false) :
    mark sel t = none := by
  cases t with
  | working op p => rfl
  | gone op => rfl
  | ready op r =>
    unfold mark result
    cases hs : sel (op, r) with
    | false => simp [Option.filter, hs]
    | true => rw [show opOf (.ready op r) = op from rfl, hsel op r hs] at h; cases h

theorem filterMap_set_eq {α β : Type} {f : α → Option β} : ∀ {l : List α} {i : Nat} {a b : α}, l[i]? = some a →
    f b = f a → (l.set i b).filterMap f = l.filterMap f
  | [], _, _, _, h, _ => by simp at h
  | x :: l, 0, a, b, h, e => by
    obtain rfl : x = a := by simpa using h
    simp [List.filterMap_cons, e]
  | x :: l, i + 1, a, b, h, e => by
    have ih := filterMap_set_eq (f := f) (l := l) (i := i) (by simpa using h) e
    simp [List.filterMap_cons, ih]

theorem filterMap_set_last {α β : Type} {f : α → Option β} : ∀ {l : List α} {i : Nat} {a b : α}, l[i]? = some a →
    f a = none → (∀ (k : Nat) (c : α), i < k → l[k]? = some c → f c = none) →
    (l.set i b).filterMap f = l.filterMap f ++ (f b).toList
  | [], _, _, _, h, _, _ => by simp at h
  | x :: l, 0, a, b, h, e, hk => by
    obtain rfl : x = a := by simpa using h
    have hl : l.filterMap f = [] := by
      rw [List.filterMap_eq_nil_iff]
      intro c hc
      obtain ⟨k, hk'⟩ := List.mem_iff_getElem?.1 hc
      exact hk (k + 1) c (by omega) (by simpa using hk')
    cases hb : f b <;> simp [List.filterMap_cons, e, hl, hb]
  | x :: l, i + 1, a, b, h, e, hk => by
    have ih := filterMap_set_last (f := f) (l := l) (i := i) (b := b) (by simpa using h) e
      (fun k c h1 h2 => hk (k + 1) c (by omega) (by simpa using h2))
    cases hx : f x <;> simp [List.filterMap_cons, ih, hx]

/-- The process while operations of one kind are done one at a time. -/
inductive Stage (E : Env) (kind : Op → Bool) (sel : Op × Reply → Bool) (N : Mem → Prop) (R : Mem → Mem → Prop)
    (I W : Mem → List (Op × Reply) → Prop) (s : Process) : Prop
  /-- none is at work -/
  | idle (h : I s.mem (selected sel s)) (hno : ∀ op p, Thread.working op p ∈ s.threads → kind op = false)
  /-- one is -/
  | busy (i : Nat) (op : Op) (upd : Mem → Mem) (next : Mem → Prog Reply)
    (hi : s.threads[i]? = some (.working op (.act upd next))) (hk : kind op = true)
    (hone : ∀ (j : Nat) op p, s.threads[j]? = some (.working op p) → kind op = true → j = i)
    (hlast : ∀ (j : Nat) t, i < j → s.threads[j]? = some t → mark sel t = none)
    (hW : W s.mem (selected sel s))
    (hp : Runs N R (fun m => W m (selected sel s))
      (fun r m => I m (selected sel s ++ if sel (op, r) then [(op, r)] else [])) (.act upd next) s.mem)
  /-- the process has ended -/
  | dead (h : s.alive = false) (hW : W s.mem (selected sel s))

theorem Stage.now (hIW : ∀ m l, I m l → W m l) {s : Process} (h : Stage E kind sel N R I W s) :
    W s.mem (selected sel s) := by
  cases h with
  | idle h _ => exact hIW _ _ h
  | busy i op upd next hi hk hone hlast hW hp => exact hW
  | dead h hW => exact hW

theorem settle_op (op : Op) (p : Prog Reply) : opOf (settle op p) = op := by cases p <;> rfl

theorem selected_ended (ts : List Thread) : (ts.map Thread.ended).filterMap (mark sel) = ts.filterMap (mark sel) := by
  rw [List.filterMap_map]
  congr 1
  funext t
  exact mark_ended t

theorem moved_fail_selected {s : Process} {i : Nat} {op : Op} {m : Mem} {c : Cause} {t : Thread}
    (hi : s.threads[i]? = some t) (ht : mark sel t = none) :
    selected sel (s.moved i op m (.fail c)) = selected sel s := by
  rw [selected_eq, selected_eq]
  show ((s.threads.set i (.gone op)).map Thread.ended).filterMap (mark sel) = _
  rw [selected_ended, filterMap_set_eq hi (by rw [ht]; rfl)]

theorem runs_later {m m' : Mem} {G : Mem → Prop} {Q : Reply → Mem → Prop} {upd : Mem → Mem} {next : Mem → Prog Reply}
    (htrans : ∀ a b c, R a b → R b c → R a c)
    (h : Runs N R G Q (.act upd next) m) (hr : R m m') : Runs N R G Q (.act upd next) m' :=
  fun m'' h1 h2 h3 => h m'' (htrans _ _ _ hr h1) h2 h3

/-- What the rule needs to know of the kind of operations and of the two invariants: `I` holds when none is at work, `W` always.
Only operations in `ok` are done. -/
structure Rule (E : Env) (ok : Op → Prop) (kind : Op → Bool) (sel : Op × Reply → Bool) (N : Mem → Prop) (R : Mem → Mem → Prop)
    (I W : Mem → List (Op × Reply) → Prop) : Prop where
  refl : ∀ m, R m m
  trans : ∀ a b c, R a b → R b c → R a c
  others : ∀ op m m', ok op → kind op = false → Keeps (touches E op) m m' → R m m'
  kinds : ∀ op r, sel (op, r) = true → kind op = true
  instant : ∀ op r, perform E op = .ret r → sel (op, r) = false
  inner : ∀ m m' l, I m l → R m m' → N m' → I m' l
  outer : ∀ m m' l, W m l → R m m' → N m' → W m' l
  weaker : ∀ m l, I m l → W m l
  op : ∀ op m l, ok op → kind op = true → N m → I m l →
    Runs N R (fun m => W m l) (fun r m => I m (l ++ if sel (op, r) then [(op, r)] else [])) (perform E op) m

theorem getElem_snoc {α : Type} {l : List α} {a b : α} {i : Nat} (h : (l ++ [a])[i]? = some b) :
    (i < l.length ∧ l[i]? = some b) ∨ (i = l.length ∧ b = a) := by
  have hl := (List.getElem?_eq_some_iff.1 h).1
  simp only [List.length_append, List.length_cons, List.length_nil] at hl
  by_cases hi : i < l.length
  · rw [List.getElem?_append_left hi] at h
    exact .inl ⟨hi, h⟩
  · obtain rfl : i = l.length := by omega
    simp only [List.getElem?_concat_length] at h
    exact .inr ⟨rfl, (Option.some.inj h).symm⟩

theorem stage_begin (hrule : Rule E ok kind sel N R I W) {s : Process} (hN : N s.mem) (op : Op) (hok : ok op)
    (hone : ∀ (i j : Nat) op₁ op₂ p p', (s.step E cfg (.begin op)).threads[i]? = some (.working op₁ p) →
      (s.step E cfg (.begin op)).threads[j]? = some (.working op₂ p') → kind op₁ = true → kind op₂ = true → i = j)
    (h : Stage E kind sel N R I W s) : Stage E kind sel N R I W (s.step E cfg (.begin op)) := by
  have hstep : s.step E cfg (.begin op) = if s.alive ∧ op ≠ .restart then
      ({ s with threads := s.threads ++ [Thread.gone op] } : Process).moved s.threads.length op s.mem
        (perform E op) else s := rfl
  rw [hstep] at hone ⊢
  by_cases hc : s.alive ∧ op ≠ .restart
  · rw [if_pos hc] at hone ⊢
    have hnow := h.now hrule.weaker
    have hset : ∀ t, (s.threads ++ [Thread.gone op]).set s.threads.length t = s.threads ++ [t] := by
      intro t
      rw [List.set_append_right _ _ (Nat.le_refl _)]
      simp
    cases hp : perform E op with
    | fail c =>
      refine .dead rfl ?_
      rw [moved_fail_selected (t := .gone op) (by simp) rfl]
      have e : selected sel ({ s with threads := s.threads ++ [Thread.gone op] } : Process) = selected sel s := by
        rw [selected_eq, selected_eq]
        simp [mark_gone]
      rw [e]
      exact hnow
    | ret r =>
      have hm : mark sel (.ready op r) = none := by
        unfold mark result
        simp [Option.filter, hrule.instant op r hp]
      have e0 : ({ s with threads := s.threads ++ [Thread.gone op] } : Process).moved s.threads.length op s.mem
          (.ret r) = { s with threads := s.threads ++ [.ready op r] } := by
        show ({ s with mem := s.mem, threads := (s.threads ++ [Thread.gone op]).set s.threads.length (.ready op r) } : Process) = _
        rw [hset]
      rw [e0]
      have e : selected sel ({ s with threads := s.threads ++ [.ready op r] } : Process) = selected sel s := by
        rw [selected_eq, selected_eq]
        simp [hm]
      cases h with
      | idle h hno =>
        refine .idle (by rw [e]; exact h) ?_
        intro op' p' hmem
        rcases List.mem_append.1 hmem with h' | h'
        · exact hno op' p' h'
        · simp at h'
      | busy i op' upd next hi hk hone' hlast hW hp' =>
        refine .busy i op' upd next ?_ hk ?_ ?_ (by rw [e]; exact hW) (by rw [e]; exact hp')
        · rw [List.getElem?_append_left (List.getElem?_eq_some_iff.1 hi).1]
          exact hi
        · intro j op₁ p₁ hj hk₁
          rcases getElem_snoc hj with ⟨-, h'⟩ | ⟨-, h'⟩
          · exact hone' j op₁ p₁ h' hk₁
          · cases h'
        · intro j t hij hj
          rcases getElem_snoc hj with ⟨-, h'⟩ | ⟨-, h'⟩
          · exact hlast j t hij h'
          · rw [h', hm]
      | dead ha hW => exact .dead ha (by rw [e]; exact hW)
    | act upd next =>
      have e0 : ({ s with threads := s.threads ++ [Thread.gone op] } : Process).moved s.threads.length op s.mem
          (.act upd next) = { s with threads := s.threads ++ [.working op (.act upd next)] } := by
        show ({ s with mem := s.mem, threads := (s.threads ++ [Thread.gone op]).set s.threads.length (.working op (.act upd next)) } : Process) = _
        rw [hset]
      rw [hp, e0] at hone
      rw [e0]
      have e : selected sel ({ s with threads := s.threads ++ [.working op (.act upd next)] } : Process) = selected sel s := by
        rw [selected_eq, selected_eq]
        simp [mark_working]
      have hmine : (s.threads ++ [.working op (.act upd next)])[s.threads.length]? = some (.working op (.act upd next)) := by
        simp
      cases h with
      | idle h hno =>
        cases hk : kind op with
        | false =>
          refine .idle (by rw [e]; exact h) ?_
          intro op' p' hmem
          rcases List.mem_append.1 hmem with h' | h'
          · exact hno op' p' h'
          · obtain ⟨rfl, -⟩ : op' = op ∧ p' = .act upd next := by simpa using h'
            exact hk
        | true =>
          refine .busy s.threads.length op upd next hmine hk ?_ ?_ (by rw [e]; exact hnow) ?_
          · intro j op' p' hj hk'
            exact hone j s.threads.length op' op p' _ hj hmine hk' hk
          · intro j t hij hj
            have := (List.getElem?_eq_some_iff.1 hj).1
            simp at this
            omega
          · rw [e]
            have := hrule.op op s.mem _ hok hk hN h
            rw [hp] at this
            exact this
      | busy i op' upd' next' hi hk hone' hlast hW hp' =>
        have hi' : (s.threads ++ [.working op (.act upd next)])[i]? = some (.working op' (.act upd' next')) := by
          rw [List.getElem?_append_left (List.getElem?_eq_some_iff.1 hi).1]
          exact hi
        have hil := (List.getElem?_eq_some_iff.1 hi).1
        refine .busy i op' upd' next' hi' hk ?_ ?_ (by rw [e]; exact hW) (by rw [e]; exact hp')
        · intro j op₁ p₁ hj hk₁
          exact hone j i op₁ op' p₁ _ hj hi' hk₁ hk
        · intro j t hij hj
          rcases getElem_snoc hj with ⟨-, h'⟩ | ⟨-, h'⟩
          · exact hlast j t hij h'
          · rw [h', mark_working]
      | dead ha hW => exact .dead ha (by rw [e]; exact hW)
  · rw [if_neg hc]
    exact h

theorem stage_turn (hrule : Rule E ok kind sel N R I W) (evs : List Event) (hN : ∀ evs, N ((boot E cfg).run E cfg evs).mem)
    (hok : ∀ op p, Thread.working op p ∈ ((boot E cfg).run E cfg evs).threads → ok op)
    (j : Nat) (h : Stage E kind sel N R I W ((boot E cfg).run E cfg evs)) :
    Stage E kind sel N R I W (((boot E cfg).run E cfg evs).step E cfg (.turn j)) := by
  have hkeeps := turn_keeps (E := E) (cfg := cfg) evs j
  have hN1 := hN evs
  have hN2 := hN (evs ++ [.turn j])
  rw [run_snoc] at hN2
  generalize (boot E cfg).run E cfg evs = s at *
  have hnow := h.now hrule.weaker
  cases hj : s.threads[j]? with
  | none =>
    rw [show s.step E cfg (.turn j) = s by unfold Process.step; simp only [hj]]
    exact h
  | some t =>
  by_cases hw : ∃ op upd next, t = .working op (.act upd next) ∧ s.alive = true
  · obtain ⟨op, upd, next, rfl, ha⟩ := hw
    have hk' := hkeeps op _ hj
    have e0 : s.step E cfg (.turn j) = s.moved j op (upd s.mem) (next s.mem) := by
      unfold Process.step
      simp only [hj, ha, if_true]
    have hjl := (List.getElem?_eq_some_iff.1 hj).1
    rw [e0] at hk' hN2 ⊢
    have hmem : ∀ p, (s.moved j op (upd s.mem) p).mem = upd s.mem := by
      intro p
      cases p <;> rfl
    rw [hmem] at hk' hN2
    have hset : ∀ (t : Thread) (i : Nat) (u : Thread), (s.threads.set j t)[i]? = some u →
        (i = j ∧ u = t) ∨ (i ≠ j ∧ s.threads[i]? = some u) := by
      intro t i u h'
      rw [List.getElem?_set] at h'
      by_cases hij : j = i
      · subst hij
        rw [if_pos rfl, if_pos hjl] at h'
        exact .inl ⟨rfl, (Option.some.inj h').symm⟩
      · rw [if_neg hij] at h'
        exact .inr ⟨fun h => hij h.symm, h'⟩
    cases hk : kind op with
    | false =>
      have hR := hrule.others op _ _ (hok op _ (List.mem_of_getElem? hj)) hk hk'
      have hWn := hrule.outer _ _ _ hnow hR hN2
      cases hp : next s.mem with
      | fail c =>
        refine .dead rfl ?_
        rw [moved_fail_selected hj rfl, hmem]
        exact hWn
      | _ =>
        all_goals
          have hsel' : ∀ t', opOf t' = op → selected sel ({ s with mem := upd s.mem, threads := s.threads.set j t' } : Process) = selected sel s := by
            intro t' ht'
            rw [selected_eq, selected_eq]
            exact filterMap_set_eq hj (by rw [mark_other hrule.kinds (by rw [ht']; exact hk)]; rfl)
          have hset' : ∀ t', opOf t' = op → Stage E kind sel N R I W ({ s with mem := upd s.mem, threads := s.threads.set j t' } : Process) := by
            intro t' ht'
            cases h with
            | idle h hno =>
              refine .idle (by rw [hsel' t' ht']; exact hrule.inner _ _ _ h hR hN2) ?_
              intro op' p' hm
              obtain ⟨i, hi⟩ := List.mem_iff_getElem?.1 hm
              rcases hset t' i _ hi with ⟨-, h'⟩ | ⟨-, h'⟩
              · rw [← h'] at ht'
                have ht' : op' = op := ht'
                rw [ht']
                exact hk
              · exact hno op' p' (List.mem_of_getElem? h')
            | busy i op' upd' next' hi hk' hone' hlast hW hp' =>
              have hij : i ≠ j := by
                rintro rfl
                rw [hi] at hj
                injection hj with hj
                injection hj with hj
                rw [hj, hk] at hk'
                cases hk'
              refine .busy i op' upd' next' ?_ hk' ?_ ?_ (by rw [hsel' t' ht']; exact hWn) ?_
              · show (s.threads.set j t')[i]? = _
                rw [List.getElem?_set, if_neg (fun h => hij h.symm)]
                exact hi
              · intro k op₁ p₁ hk₁ hkk
                rcases hset t' k _ hk₁ with ⟨-, h'⟩ | ⟨-, h'⟩
                · rw [← h'] at ht'
                  have ht' : op₁ = op := ht'
                  rw [ht', hk] at hkk
                  cases hkk
                · exact hone' k op₁ p₁ h' hkk
              · intro k t hik hk₁
                rcases hset t' k _ hk₁ with ⟨-, h'⟩ | ⟨-, h'⟩
                · rw [h']
                  exact mark_other hrule.kinds (by rw [ht']; exact hk)
                · exact hlast k t hik h'
              · rw [hsel' t' ht']
                exact runs_later hrule.trans hp' hR
            | dead ha' hW => rw [ha] at ha'; cases ha'
          exact hset' _ rfl
    | true =>
      cases h with
      | idle h hno => rw [hno _ _ (List.mem_of_getElem? hj)] at hk; cases hk
      | dead ha' hW => rw [ha] at ha'; cases ha'
      | busy i op' upd' next' hi hk' hone' hlast hW hp' =>
        obtain rfl := hone' j op _ hj hk
        rw [hi] at hj
        obtain ⟨rfl, rfl, rfl⟩ : op' = op ∧ upd' = upd ∧ next' = next := by simpa using hj
        obtain ⟨g1, g2⟩ := hp' s.mem (hrule.refl _) hN1 hN2
        cases hp : next' s.mem with
        | fail c =>
          refine .dead rfl ?_
          rw [moved_fail_selected hi rfl, hmem]
          exact g1
        | ret r =>
          rw [hp] at g2
          refine .idle ?_ ?_
          · have e : selected sel (s.moved j op' (upd' s.mem) (.ret r)) =
                selected sel s ++ (mark sel (.ready op' r)).toList := by
              rw [selected_eq, selected_eq]
              exact filterMap_set_last hi rfl (fun k c h1 h2 => hlast k c h1 h2)
            rw [e, hmem]
            have g2 : I (upd' s.mem) (selected sel s ++ if sel (op', r) then [(op', r)] else []) := g2
            have e2 : (mark sel (.ready op' r)).toList = if sel (op', r) then [(op', r)] else [] := by
              unfold mark result
              by_cases hs : sel (op', r) <;> simp [Option.filter, hs]
            rw [e2]
            exact g2
          · intro op₁ p₁ hm
            obtain ⟨k, hk₁⟩ := List.mem_iff_getElem?.1 hm
            rcases hset _ k _ hk₁ with ⟨-, h'⟩ | ⟨hne, h'⟩
            · cases h'
            · cases hkk : kind op₁ with
              | false => rfl
              | true => exact absurd (hone' k op₁ p₁ h' hkk) hne
        | act upd₂ next₂ =>
          rw [hp] at g2
          have e : selected sel (s.moved j op' (upd' s.mem) (.act upd₂ next₂)) = selected sel s := by
            rw [selected_eq, selected_eq]
            exact filterMap_set_eq hi rfl
          refine .busy j op' upd₂ next₂ ?_ hk ?_ ?_ (by rw [e]; exact g1) (by rw [e]; exact g2)
          · show (s.threads.set j _)[j]? = _
            rw [List.getElem?_set, if_pos rfl, if_pos hjl]
            rfl
          · intro k op₁ p₁ hk₁ hkk
            rcases hset _ k _ hk₁ with ⟨h', -⟩ | ⟨-, h'⟩
            · exact h'
            · exact hone' k op₁ p₁ h' hkk
          · intro k t hik hk₁
            rcases hset _ k _ hk₁ with ⟨h', -⟩ | ⟨-, h'⟩
            · omega
            · exact hlast k t hik h'
  · have e0 : s.step E cfg (.turn j) = s := by
      unfold Process.step
      simp only [hj]
      split
      · rename_i op upd next h1
        obtain rfl := Option.some.inj h1
        have : s.alive ≠ true := fun ha => hw ⟨op, upd, next, rfl, ha⟩
        rw [if_neg this]
      · rfl
    rw [e0]
    exact h

/-- Where the operations at work come from. -/
theorem working_ok {evs evs' : List Event}
    (hw : ∀ op p, Thread.working op p ∈ ((boot E cfg).run E cfg evs).threads → ok op) (hb : ∀ op, .begin op ∈ evs' → ok op) :
    ∀ op p, Thread.working op p ∈ ((boot E cfg).run E cfg (evs ++ evs')).threads → ok op := by
  induction evs' generalizing evs with
  | nil => rw [List.append_nil]; exact hw
  | cons e evs' ih =>
    have h2 := ih (evs := evs ++ [e]) (by
      intro op p hp
      obtain ⟨i, hi⟩ := List.mem_iff_getElem?.1 hp
      rw [run_snoc] at hi
      rcases thread_step hi with ⟨u, hu, ⟨-, rfl⟩ | h⟩ | ⟨op', rfl, -, -, -, h⟩ |
          ⟨op', upd, next, -, -, hu, h⟩
      · exact hw op p (List.mem_of_getElem? hu)
      · exact absurd h.symm (ended_not_working u op p)
      · obtain ⟨rfl, rfl⟩ := settle_working h.symm
        exact hb _ (.head _)
      · obtain ⟨rfl, rfl⟩ := settle_working h.symm
        exact hw _ _ (List.mem_of_getElem? hu)) (fun op h => hb op (.tail _ h))
    rw [List.append_assoc] at h2
    exact h2

/-- Operations of one kind are done one at a time: what each of them keeps, holds. -/
theorem exclusive_stage (hrule : Rule E ok kind sel N R I W) (hN : ∀ evs, N ((boot E cfg).run E cfg evs).mem)
    {evs evs' : List Event} (hx : Exclusive kind E cfg evs evs')
    (hw : ∀ op p, Thread.working op p ∈ ((boot E cfg).run E cfg evs).threads → ok op) (hb : ∀ op, .begin op ∈ evs' → ok op)
    (h0 : I ((boot E cfg).run E cfg evs).mem (selected sel ((boot E cfg).run E cfg evs))) :
    ∀ n, Stage E kind sel N R I W ((boot E cfg).run E cfg (evs ++ evs'.take n)) := by
  intro n
  induction n with
  | zero =>
    rw [List.take_zero, List.append_nil]
    exact .idle h0 hx.quiet
  | succ n ih =>
    by_cases hn : n < evs'.length
    · have hone := hx.one (n + 1)
      rw [List.take_succ_eq_append_getElem hn, ← List.append_assoc] at hone ⊢
      rw [run_snoc] at hone ⊢
      cases he : evs'[n] with
      | restart => exact absurd (he ▸ List.getElem_mem hn) hx.running
      | begin op =>
        rw [he] at hone
        exact stage_begin hrule (hN _) op (hb op (he ▸ List.getElem_mem hn)) hone ih
      | turn j => exact stage_turn hrule _ hN (working_ok hw (fun op h => hb op (List.mem_of_mem_take h))) j ih
    · rw [List.take_of_length_le (by omega)] at ih ⊢
      exact ih

theorem exclusive_run_ok (hrule : Rule E ok kind sel N R I W) (hN : ∀ evs, N ((boot E cfg).run E cfg evs).mem)
    {evs evs' : List Event} (hx : Exclusive kind E cfg evs evs')
    (hw : ∀ op p, Thread.working op p ∈ ((boot E cfg).run E cfg evs).threads → ok op) (hb : ∀ op, .begin op ∈ evs' → ok op)
    (h0 : I ((boot E cfg).run E cfg evs).mem (selected sel ((boot E cfg).run E cfg evs))) :
    W ((boot E cfg).run E cfg (evs ++ evs')).mem (selected sel ((boot E cfg).run E cfg (evs ++ evs'))) := by
  have h := exclusive_stage hrule hN hx hw hb h0 evs'.length
  rw [List.take_length] at h
  exact h.now hrule.weaker

theorem exclusive_run (hrule : Rule E (fun _ => True) kind sel N R I W) (hN : ∀ evs, N ((boot E cfg).run E cfg evs).mem)
    {evs evs' : List Event} (hx : Exclusive kind E cfg evs evs')
    (h0 : I ((boot E cfg).run E cfg evs).mem (selected sel ((boot E cfg).run E cfg evs))) :
    W ((boot E cfg).run E cfg (evs ++ evs')).mem (selected sel ((boot E cfg).run E cfg (evs ++ evs'))) :=
  exclusive_run_ok hrule hN hx (fun _ _ _ => trivial) (fun _ _ => trivial) h0

/-! ### Places in the list of results -/

theorem filterMap_place {α β : Type} {f : α → Option β} {l : List α} {i : Nat} {a : α} {b : β} (h : l[i]? = some a)
    (hf : f a = some b) : (l.filterMap f)[((l.take i).filterMap f).length]? = some b := by
  have hi := (List.getElem?_eq_some_iff.1 h).1
  have e : l = l.take i ++ a :: l.drop (i + 1) := by
    rw [List.getElem?_eq_getElem hi] at h
    obtain rfl := Option.some.inj h
    rw [← List.drop_eq_getElem_cons hi, List.take_append_drop]
  have e2 : l.filterMap f = (l.take i).filterMap f ++ b :: (l.drop (i + 1)).filterMap f := by
    conv => lhs; rw [e]
    rw [List.filterMap_append, List.filterMap_cons, hf]
  rw [e2, List.getElem?_append_right (Nat.le_refl _), Nat.sub_self]
  rfl

theorem filterMap_length_le {α β : Type} {f : α → Option β} : ∀ {l l' : List α},
    (∀ (k : Nat) (a : α), l[k]? = some a → (f a).isSome = true → l'[k]? = some a) →
    (l.filterMap f).length ≤ ((l'.take l.length).filterMap f).length
  | [], _, _ => by simp
  | a :: l, [], h => by
    have : ∀ x ∈ a :: l, f x = none := by
      intro x hx
      obtain ⟨k, hk⟩ := List.mem_iff_getElem?.1 hx
      cases hf : f x with
      | none => rfl
      | some y =>
        have := h k x hk (by rw [hf]; rfl)
        simp at this
    rw [List.filterMap_eq_nil_iff.2 this]
    simp
  | a :: l, a' :: l', h => by
    have ih := filterMap_length_le (f := f) (l := l) (l' := l') (fun k x h1 h2 => by
      have := h (k + 1) x (by simpa using h1) h2
      simpa using this)
    simp only [List.length_cons, List.take_succ_cons, List.filterMap_cons]
    cases hf : f a with
    | none => cases hf' : f a' <;> simp <;> omega
    | some b =>
      have := h 0 a (by simp) (by rw [hf]; rfl)
      obtain rfl : a' = a := by simpa using this
      rw [hf]
      simp
      omega

theorem take_filterMap_mono {α β : Type} {f : α → Option β} (l : List α) {i j : Nat} (h : i ≤ j) :
    ((l.take i).filterMap f).length ≤ ((l.take j).filterMap f).length := by
  have e : l.take i = (l.take j).take i := by rw [List.take_take, Nat.min_eq_left h]
  rw [e]
  conv => rhs; rw [← List.take_append_drop i (l.take j), List.filterMap_append, List.length_append]
  omega

/-- Two results of operations begun after `evs`: their places in the list of selected results, after those of `evs`. -/
theorem selected_places {evs evs' : List Event} (hr : .restart ∉ evs') {i j : Nat} {op op' : Op} {r r' : Reply}
    (hn : ((boot E cfg).run E cfg evs).threads.length ≤ i) (hij : i < j)
    (hi : ((boot E cfg).run E cfg (evs ++ evs')).threads[i]? = some (.ready op r))
    (hj : ((boot E cfg).run E cfg (evs ++ evs')).threads[j]? = some (.ready op' r'))
    (hs : sel (op, r) = true) (hs' : sel (op', r') = true) {new : List (Op × Reply)}
    (hnew : selected sel ((boot E cfg).run E cfg (evs ++ evs')) = selected sel ((boot E cfg).run E cfg evs) ++ new) :
    ∃ k k' : Nat, k < k' ∧ new[k]? = some (op, r) ∧ new[k']? = some (op', r') := by
  have hmark : mark sel (.ready op r) = some (op, r) := by
    unfold mark result
    simp [Option.filter, hs]
  have hmark' : mark sel (.ready op' r') = some (op', r') := by
    unfold mark result
    simp [Option.filter, hs']
  have p1 := filterMap_place hi hmark
  have p2 := filterMap_place hj hmark'
  have hlt : (((boot E cfg).run E cfg (evs ++ evs')).threads.take i |>.filterMap (mark sel)).length <
      (((boot E cfg).run E cfg (evs ++ evs')).threads.take j |>.filterMap (mark sel)).length := by
    have h1 := take_filterMap_mono (f := mark sel) ((boot E cfg).run E cfg (evs ++ evs')).threads (i := i + 1) (j := j) (by omega)
    have hil := (List.getElem?_eq_some_iff.1 hi).1
    rw [List.take_succ_eq_append_getElem hil, List.filterMap_append] at h1
    have e : ((boot E cfg).run E cfg (evs ++ evs')).threads[i] = .ready op r := by
      rw [List.getElem?_eq_getElem hil] at hi
      exact Option.some.inj hi
    rw [e] at h1
    simp only [List.filterMap_cons, hmark, List.filterMap_nil, List.length_append, List.length_cons,
      List.length_nil] at h1
    omega
  have hle : (selected sel ((boot E cfg).run E cfg evs)).length ≤
      (((boot E cfg).run E cfg (evs ++ evs')).threads.take i |>.filterMap (mark sel)).length := by
    rw [selected_eq]
    refine Nat.le_trans (filterMap_length_le (l' := ((boot E cfg).run E cfg (evs ++ evs')).threads) ?_)
      (take_filterMap_mono _ hn)
    intro k t hk ht
    rw [run_append]
    refine run_fixed evs' (fun e he h => hr (h ▸ he)) hk ?_
    cases t with
    | ready op r => rfl
    | working op p => cases ht
    | gone op => cases ht
  rw [← selected_eq, hnew] at p1 p2
  rw [List.getElem?_append_right hle] at p1
  rw [List.getElem?_append_right (by omega)] at p2
  exact ⟨_, _, by omega, p1, p2⟩

/-- A result of an operation begun after `evs`: there are more selected results than after `evs`. -/
theorem selected_new {evs evs' : List Event} (hr : .restart ∉ evs') {i : Nat} {op : Op} {r : Reply}
    (hn : ((boot E cfg).run E cfg evs).threads.length ≤ i)
    (hi : ((boot E cfg).run E cfg (evs ++ evs')).threads[i]? = some (.ready op r)) (hs : sel (op, r) = true) :
    (selected sel ((boot E cfg).run E cfg evs)).length < (selected sel ((boot E cfg).run E cfg (evs ++ evs'))).length := by
  have hmark : mark sel (.ready op r) = some (op, r) := by
    unfold mark result
    simp [Option.filter, hs]
  have p1 := (List.getElem?_eq_some_iff.1 (filterMap_place hi hmark)).1
  rw [selected_eq, selected_eq]
  refine Nat.lt_of_le_of_lt (Nat.le_trans (filterMap_length_le (l' := ((boot E cfg).run E cfg (evs ++ evs')).threads) ?_)
    (take_filterMap_mono _ hn)) p1
  intro k t hk ht
  rw [run_append]
  refine run_fixed evs' (fun e he h => hr (h ▸ he)) hk ?_
  cases t with
  | ready op r => rfl
  | working op p => cases ht
  | gone op => cases ht

theorem selected_length (s : Process) (hk : ∀ op r, sel (op, r) = true → kind op = true) :
    (selected sel s).length ≤ s.threads.countP (fun t => kind (opOf t)) := by
  rw [selected_eq, List.length_filterMap_eq_countP]
  refine List.countP_mono_left (fun t _ ht => ?_)
  cases h : kind (opOf t) with
  | true => rfl
  | false => rw [mark_other hk h] at ht; cases ht

end Overlap
end VF.Fido
