import Verif.Proofs.OverlapRaces
import Verif.Proofs.OverlapCounters

/-!
# What overlapping requests can spoil (C100, C101)
-/

namespace VF.Props

open VF.Fido VF.Fido.Overlap VF.Spec.Client VF.Spec.Vault VF.Spec.History VF.Spec.Overlap VF.Spec.Ctap VF.Spec.Store

/-! ## C100: announced credentials are kept -/

/-- False: two creations overlap, the second is answered with success, nothing was deleted, there was no restart, and the
credential in the answer is not on the device: the first creation has overwritten the list of
credentials with the one it had read before. -/
theorem C100_kept_in_memory_refuted : ∃ (E : Env) (cfg : Client.Config) (evs : List Event) (i : Nat) (data body : Bytes)
    (c : Cred), Laws E ∧ Usable E cfg ∧ (∀ id, .begin (.deleteIdentity id) ∉ evs) ∧ .restart ∉ evs ∧
    ((boot E cfg).run E cfg evs).alive = true ∧
    ((boot E cfg).run E cfg evs).threads[i]? = some (.ready (.ctap (1 :: data)) (.answer (0 :: body))) ∧
    announced (0 :: body) = some c ∧
    ∀ s ∈ (sequential ((boot E cfg).run E cfg evs).mem).client.vault, s.id ≠ c.id := by
  obtain ⟨evs, body, c, h1, h2, h3, h4, h5, h6, h7, h8⟩ := Toy.lost_in_memory
  exact ⟨Toy.toy Toy.agree, Toy.config false, evs, 1, _, body, c, h1, h2, h3, h4, h5, h6, h7, h8⟩

/-- False after a restart as well, even when everything has been answered before: a call to switch the PIN off collected the state
before a creation saved it, and its save came last. -/
theorem C100_kept_in_store_refuted : ∃ (E : Env) (cfg : Client.Config) (evs : List Event) (i : Nat) (data body : Bytes)
    (c : Cred), Laws E ∧ Usable E cfg ∧ (∀ id, .begin (.deleteIdentity id) ∉ evs) ∧
    (∀ t ∈ ((boot E cfg).run E cfg evs).threads, busy t = false) ∧
    ((boot E cfg).run E cfg evs).alive = true ∧
    ((boot E cfg).run E cfg evs).threads[i]? = some (.ready (.ctap (1 :: data)) (.answer (0 :: body))) ∧
    announced (0 :: body) = some c ∧
    ((boot E cfg).run E cfg (evs ++ [.restart])).alive = true ∧
    (sequential ((boot E cfg).run E cfg (evs ++ [.restart])).mem).client.vault = [] := by
  obtain ⟨evs, body, c, h1, h2, h3, h4, h5, h6, h7, h8, h9⟩ := Toy.lost_in_store
  refine ⟨Toy.toy Toy.agree, Toy.config false, evs, 1, _, body, c, h1, h2, h3, h4, h5, h6, h7, h8, ?_⟩
  unfold sequential
  rw [h9]
  rfl

/-! ## C101: signature counters differ -/

/-- False: two logins overlap and both are answered with the same credential and the same signature counter. -/
theorem C101_counters_differ_refuted : ∃ (E : Env) (cfg : Client.Config) (evs : List Event) (i j : Nat)
    (data b1 b2 id a1 a2 g1 g2 : Bytes) (ad1 ad2 : AuthData), Laws E ∧ Usable E cfg ∧ .restart ∉ evs ∧
    DistinctDraws E ((boot E cfg).run E cfg evs).mem.world.rnd ∧ i ≠ j ∧
    ((boot E cfg).run E cfg evs).threads[i]? = some (.ready (.ctap (2 :: data)) (.answer (0 :: b1))) ∧
    ((boot E cfg).run E cfg evs).threads[j]? = some (.ready (.ctap (2 :: data)) (.answer (0 :: b2))) ∧
    IsAssertion (0 :: b1) id a1 g1 ∧ parseAuthData a1 = some ad1 ∧
    IsAssertion (0 :: b2) id a2 g2 ∧ parseAuthData a2 = some ad2 ∧ ad1.counter = ad2.counter := by
  obtain ⟨evs, b0, b1, b2, id, a1, a2, g1, g2, ad1, ad2, h1, h2, h3, h4, h5, h6, h7⟩ := Toy.same_counter
  exact ⟨Toy.toy Toy.agree, Toy.config false, evs, 1, 2, _, b1, b2, id, a1, a2, g1, g2, ad1, ad2, h1, h2, h3, h6,
    by simp, by rw [h4]; rfl, by rw [h4]; rfl, h7⟩

end VF.Props
