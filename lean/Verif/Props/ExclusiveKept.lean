import Verif.Proofs.ExclusiveKeptPerform
import Verif.Proofs.ExclusiveCounters
import Verif.Proofs.ExclusivePlay
import Verif.Proofs.OverlapRaces

/-!
# Announced credentials are kept when creations and deletions come one at a time (C100)
-/

namespace VF.Props

open VF.Fido VF.Fido.Overlap VF.Spec.Client VF.Spec.Vault VF.Spec.History VF.Spec.Overlap VF.Spec.Ctap VF.Spec.Store

variable {E : Env} {cfg : Client.Config}

theorem kept_exclusive (L : Laws E) (hu : Usable E cfg) {b : Bool} {evs evs' : List Event} (hx : Exclusive (keptKind b E) E cfg evs evs')
    {i : Nat} {data body : Bytes} {c : Cred} (hn : ((boot E cfg).run E cfg evs).threads.length ≤ i)
    (hi : ((boot E cfg).run E cfg (evs ++ evs')).threads[i]? = some (.ready (.ctap (1 :: data)) (.answer body)))
    (hc : announced body = some c) (hdel : .begin (.deleteIdentity c.id) ∉ evs') :
    Kept b E cfg c ((boot E cfg).run E cfg (evs ++ evs')).mem := by
  have hdk : keptKind b E (.deleteIdentity c.id) = true := by cases b <;> rfl
  obtain ⟨⟨new, hnew⟩, h⟩ := exclusive_run_ok (kept_rule (b := b) (cfg := cfg) (c := c) L (selected (announcing c) ((boot E cfg).run E cfg evs)))
    (good_always L hu) hx
    (fun op p h e => by rw [e] at h; rw [hx.quiet _ _ h] at hdk; cases hdk)
    (fun op h e => hdel (e ▸ h)) ⟨⟨[], by rw [List.append_nil]⟩, fun h => absurd rfl h⟩
  refine h ?_
  intro he
  have := selected_new hx.running hn hi (announcing_iff.2 ⟨data, body, rfl, rfl, hc⟩)
  rw [he] at this
  omega

/-- Creations and deletions do not overlap with each other, whatever else overlaps: a credential that was announced and is
not deleted is on the list of the device.  Missing: overlapping creations and deletions, for which it is false
(`C100_kept_in_memory_refuted`). -/
theorem C100_in_memory_partial (L : Laws E) (hu : Usable E cfg) {evs evs' : List Event} (hx : Exclusive changesList E cfg evs evs')
    {i : Nat} {data body : Bytes} {c : Cred} (hn : ((boot E cfg).run E cfg evs).threads.length ≤ i)
    (hi : ((boot E cfg).run E cfg (evs ++ evs')).threads[i]? = some (.ready (.ctap (1 :: data)) (.answer body)))
    (hc : announced body = some c) (hdel : .begin (.deleteIdentity c.id) ∉ evs') :
    ∃ s ∈ (sequential ((boot E cfg).run E cfg (evs ++ evs')).mem).client.vault, Is c s := by
  obtain ⟨⟨p, hp, s, hs, h⟩, -⟩ := kept_exclusive (b := false) L hu hx hn hi hc hdel
  exact ⟨s, List.mem_filterMap.2 ⟨p, hp, hs⟩, h⟩

/-- All that saves does not overlap with each other, whatever else overlaps: a credential that was announced and is not
deleted is there after a restart as well, whenever that comes.  Missing: other overlapping requests and calls, for which it is
false (`C100_kept_in_store_refuted`). -/
theorem C100_in_store_partial (L : Laws E) (hu : Usable E cfg) {evs evs' : List Event} (hx : Exclusive (saves E) E cfg evs evs')
    {i : Nat} {data body : Bytes} {c : Cred} (hn : ((boot E cfg).run E cfg evs).threads.length ≤ i)
    (hi : ((boot E cfg).run E cfg (evs ++ evs')).threads[i]? = some (.ready (.ctap (1 :: data)) (.answer body)))
    (hc : announced body = some c) (hdel : .begin (.deleteIdentity c.id) ∉ evs') :
    (∃ s ∈ (sequential ((boot E cfg).run E cfg (evs ++ evs')).mem).client.vault, Is c s) ∧
    ((boot E cfg).run E cfg (evs ++ evs' ++ [.restart])).alive = true ∧
    ∃ s ∈ (sequential ((boot E cfg).run E cfg (evs ++ evs' ++ [.restart])).mem).client.vault, Is c s := by
  obtain ⟨⟨p, hp, s, hs, h⟩, h'⟩ := kept_exclusive (b := true) L hu hx hn hi hc hdel
  refine ⟨⟨s, List.mem_filterMap.2 ⟨p, hp, hs⟩, h⟩, ?_⟩
  have h' := h' rfl
  obtain ⟨cl, k1, -⟩ := good_restart (good_always L hu (evs ++ evs')) ((boot E cfg).run E cfg (evs ++ evs')).mem.world.rnd
  obtain ⟨s', hs', hi'⟩ := h' _ _ k1
  rw [run_snoc]
  unfold Process.step
  simp only [k1]
  refine ⟨trivial, s', ?_, hi'⟩
  obtain ⟨j, hj⟩ := List.mem_iff_getElem?.1 hs'
  exact List.mem_filterMap.2 ⟨j, List.mem_range.2 (List.getElem?_eq_some_iff.1 hj).1, hj⟩

/-- The hypotheses can be met: a request for the authenticator's properties is begun, and meanwhile two credentials are made. -/
example : ∃ (E : Env) (cfg : Client.Config) (evs evs' : List Event) (data body body' : Bytes) (c c' : Cred), Laws E ∧ Usable E cfg ∧
    Exclusive (saves E) E cfg evs evs' ∧ Exclusive changesList E cfg evs evs' ∧ ((boot E cfg).run E cfg evs).threads.length = 1 ∧
    (∃ p, ((boot E cfg).run E cfg (evs ++ evs')).threads[0]? = some (.working (.ctap [4]) p)) ∧
    ((boot E cfg).run E cfg (evs ++ evs')).threads[1]? = some (.ready (.ctap (1 :: data)) (.answer (0 :: body))) ∧
    ((boot E cfg).run E cfg (evs ++ evs')).threads[2]? = some (.ready (.ctap (1 :: data)) (.answer (0 :: body'))) ∧
    announced (0 :: body) = some c ∧ announced (0 :: body') = some c' ∧ ∀ id, .begin (.deleteIdentity id) ∉ evs' := by
  let E := Toy.toy Toy.agree
  let cfg := Toy.config false
  have hb : Toy.Ready (Device.boot E cfg).world := by
    have := Toy.boot_ready
    exact this
  obtain ⟨b1, w1, h1, r1, -, -⟩ := Toy.make_perform hb
  obtain ⟨b2, w2, h2, r2, -, -⟩ := Toy.make_perform r1
  obtain ⟨c1, a1, -⟩ := Toy.make_announces h1
  obtain ⟨c2, a2, -⟩ := Toy.make_announces h2
  have s1 : Device.step E cfg (Device.boot E cfg) Toy.makeOp = (.answer (0 :: b1), ⟨w1, true⟩) :=
    step_of_perform (w := (Device.boot E cfg).world) (by simp [Toy.makeOp]) h1
  have s2 : Device.step E cfg ⟨w1, true⟩ Toy.makeOp = (.answer (0 :: b2), ⟨w2, true⟩) := step_of_perform (by simp [Toy.makeOp]) h2
  have hnil : Device.after E cfg (Device.boot E cfg) [] = Device.boot E cfg := rfl
  have e2 : events E cfg (Device.boot E cfg) [Toy.makeOp, Toy.makeOp] =
      [(Toy.makeOp, .answer (0 :: b1)), (Toy.makeOp, .answer (0 :: b2))] := by
    simp only [events, Device.run, s1, s2, List.zip, List.zipWith]
  obtain ⟨evs, evs', -, -, -, hbg, k1, k2, k3, -, -, -, k5⟩ := beside (E := E) (cfg := cfg) (call := .ctap [4]) (by simp) ⟨_, _, rfl⟩
    (pre := []) (ops := [Toy.makeOp, Toy.makeOp]) (by simp) (by simp [Toy.makeOp])
    (by simp [events]) rfl (by rw [hnil, e2]; simp)
  rw [hnil, e2] at k3
  refine ⟨E, cfg, evs, evs', _, b1, b2, c1, c2, Toy.toy_laws _, Toy.config_usable _ _, k5 _ rfl, k5 _ rfl, by rw [k1]; rfl,
    ⟨_, by rw [k3]; rfl⟩, by rw [k3]; rfl, by rw [k3]; rfl, a1, a2, ?_⟩
  intro id h
  have := hbg _ h
  simp [Toy.makeOp] at this

end VF.Props
