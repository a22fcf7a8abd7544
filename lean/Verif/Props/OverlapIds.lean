import Verif.Proofs.OverlapIdsRun
import Verif.Proofs.OverlapRaces
import Verif.Proofs.ExclusivePlay

/-!
# Ids of credentials, however requests overlap (C109)
-/

namespace VF.Props

open VF.Fido VF.Fido.Overlap VF.Spec.Client VF.Spec.Vault VF.Spec.History VF.Spec.Overlap VF.Spec.Ctap VF.Spec.Store

variable {E : Env} {cfg : Client.Config}

/-- Two requests that are answered with new credentials announce different ids, however requests and calls overlap, also when
the process was ended and started again in between, as long as random draws do not repeat. -/
theorem C109_announced_differ (L : Laws E) (hu : Usable E cfg) {evs : List Event} {i j : Nat} {data1 data2 b1 b2 : Bytes}
    {c1 c2 : Cred} (hij : i ≠ j)
    (hi : ((boot E cfg).run E cfg evs).threads[i]? = some (.ready (.ctap (1 :: data1)) (.answer b1)))
    (hj : ((boot E cfg).run E cfg evs).threads[j]? = some (.ready (.ctap (1 :: data2)) (.answer b2)))
    (h1 : announced b1 = some c1) (h2 : announced b2 = some c2)
    (hd : DistinctDraws E ((boot E cfg).run E cfg evs).mem.world.rnd) : c1.id ≠ c2.id := by
  obtain ⟨f, h⟩ := tickets_run L hu evs hd
  have e1 := h.ready i _ _ hi _ _ _ rfl rfl h1
  have e2 := h.ready j _ _ hj _ _ _ rfl rfl h2
  exact h.dealt.apart i j _ _ hij (by rw [e1]; rfl) (by rw [e2]; rfl)

/-- No two credentials on the device have the same id, at any moment (also after any restart). -/
theorem C109_ids_distinct (L : Laws E) (hu : Usable E cfg) (evs : List Event)
    (hd : DistinctDraws E ((boot E cfg).run E cfg evs).mem.world.rnd) :
    ((sequential ((boot E cfg).run E cfg evs).mem).client.vault.map (·.id)).Nodup := by
  obtain ⟨f, h⟩ := tickets_run L hu evs hd
  have hg := good_always (E := E) (cfg := cfg) L hu evs
  have h1 := h.dealt.slots
  have h2 := h.dealt.ids
  clear h hd
  generalize ((boot E cfg).run E cfg evs).mem = m at hg h1 h2 ⊢
  show ((m.slots.filterMap (m.heap[·]?)).map (·.id)).Nodup
  refine nodup_saved (m := m) h1 h2 ?_
  have hall := hg.slots
  clear h1
  generalize m.slots = l at hall ⊢
  induction l with
  | nil => rfl
  | cons p l ih =>
    have hp := hall p (by simp)
    rw [List.filterMap_cons, List.getElem?_eq_getElem hp]
    dsimp only
    rw [List.map_cons, List.map_cons, ih (fun q hq => hall q (by simp [hq]))]
    congr 1
    unfold idAt ids
    rw [List.getElem?_map, List.getElem?_eq_getElem hp]
    rfl

/-- The hypotheses can be met: a creation has begun, another one is begun and done before it, both are answered. -/
theorem two_creations : ∃ (E : Env) (cfg : Client.Config) (evs : List Event) (data b1 b2 : Bytes) (c1 c2 : Cred), Laws E ∧ Usable E cfg ∧
    ((boot E cfg).run E cfg evs).threads = [.ready (.ctap (1 :: data)) (.answer b1), .ready (.ctap (1 :: data)) (.answer b2)] ∧
    announced b1 = some c1 ∧ announced b2 = some c2 ∧
    DistinctDraws E ((boot E cfg).run E cfg evs).mem.world.rnd ∧
    (∃ evs1 p, evs1 <+: evs ∧ ((boot E cfg).run E cfg evs1).threads = [.working (.ctap (1 :: data)) p, .ready (.ctap (1 :: data)) (.answer b2)]) := by
  let E := Toy.toy Toy.agree
  let cfg := Toy.config false
  let s1 : Process := { boot E cfg with threads := [.working Toy.makeOp (perform E Toy.makeOp)] }
  have e1 : (boot E cfg).run E cfg [.begin Toy.makeOp] = s1 := by
    show (boot E cfg).step E cfg (.begin Toy.makeOp) = s1
    exact begin_working rfl (by simp [Toy.makeOp]) Toy.make_acts
  obtain ⟨b2, w2, h2, r2, v2, -, n2⟩ := Toy.make_perform Toy.boot_ready
  obtain ⟨n, m2, k1, k2, k3⟩ := do_op (E := E) (cfg := cfg) (s := s1) rfl (sound_load _) (by simp [Toy.makeOp]) h2
  obtain ⟨b1, w1, h1, r1, v1, -, n1⟩ := Toy.make_perform r2
  rw [← k2] at h1
  obtain ⟨m1, j1, j2, j3⟩ := perform_run (E := E) k3 h1
  have k : (boot E cfg).run E cfg ([.begin Toy.makeOp] ++ .begin Toy.makeOp :: List.replicate n (.turn 1)) =
      { mem := m2, threads := s1.threads ++ [.ready Toy.makeOp (.answer (0 :: b2))], alive := true } := by
    rw [run_append, e1]
    exact k1
  obtain ⟨n', j4⟩ := complete (E := E) (cfg := cfg) (s := { mem := m2, threads := s1.threads ++ [.ready Toy.makeOp (.answer (0 :: b2))], alive := true })
    (i := 0) (op := Toy.makeOp) rfl rfl Toy.make_acts j1
  have j : (boot E cfg).run E cfg (([.begin Toy.makeOp] ++ .begin Toy.makeOp :: List.replicate n (.turn 1)) ++ List.replicate n' (.turn 0)) =
      { mem := m1, threads := [.ready Toy.makeOp (.answer (0 :: b1)), .ready Toy.makeOp (.answer (0 :: b2))], alive := true } := by
    rw [run_append, k]
    exact j4
  obtain ⟨c2, a2, -⟩ := Toy.make_announces h2
  obtain ⟨c1, a1, -⟩ := Toy.make_announces h1
  have hrnd : m1.world.rnd ≤ 18 := by
    rw [show m1.world.rnd = (view m1).rnd from rfl, j2]
    have n2 : w2.rnd ≤ 2 + 8 := n2
    omega
  refine ⟨E, cfg, ([.begin Toy.makeOp] ++ .begin Toy.makeOp :: List.replicate n (.turn 1)) ++ List.replicate n' (.turn 0), _, 0 :: b1, 0 :: b2, c1, c2,
    Toy.toy_laws _, Toy.config_usable _ _, by rw [j]; rfl, a1, a2, ?_, ?_⟩
  · rw [j]
    exact Toy.toy_draws _ (by show m1.world.rnd ≤ 256; omega)
  · exact ⟨_, perform E Toy.makeOp, List.prefix_append _ _, by rw [k]; rfl⟩

end VF.Props
