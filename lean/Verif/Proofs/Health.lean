import Verif.Proofs.CtapSpec

/-!
# Commands keep a device healthy
-/

namespace VF.Fido.Ctap

open VF.Spec.Client VF.Spec.Vault VF.Spec.Cose

theorem utf8_publicKey : utf8 (ascii "public-key") := ⟨"public-key", by decide +kernel⟩

/-- A new credential for a decoded request is complete, if a user was sent. -/
theorem newIdentity_complete {E : Env} (L : Laws E) {data : Bytes} {args : MakeCredArgs}
    {rp : RPEntity} {user : UserEntity} (hd : E.decodeMakeCred data = some args)
    (hrp : args.rp = some rp) (hu : args.user = some user) (n : Nat) :
    Complete E (Vault.newIdentity E args.rp args.user n) := by
  obtain ⟨h1, h2⟩ := L.makeCred_utf8 data args hd
  exact ⟨.ecdsa _, L.genEC_valid _, utf8_publicKey,
    ⟨rp, hrp, h1 rp (by simp [hrp])⟩, ⟨user, hu, h2 user (by simp [hu])⟩⟩

theorem healthy_append {E : Env} {c : Client} (h : Healthy E c) {s : Source}
    (hs : Complete E s) : Healthy E { c with vault := c.vault ++ [s] } := by
  refine ⟨h.1, h.2.1, h.2.2.1, h.2.2.2.1, ?_⟩
  intro x hx
  rcases List.mem_append.1 hx with hx | hx
  · exact h.2.2.2.2 x hx
  · simp at hx; subst hx; exact hs

theorem mem_bump {v : List Source} {i : Nat} {x : Source} (h : x ∈ Client.bump v i) :
    ∃ y ∈ v, x = y ∨ x = bumped y := by
  obtain ⟨j, hj⟩ := List.mem_iff_getElem?.1 h
  unfold Client.bump at hj
  rw [List.getElem?_modify] at hj
  cases hv : v[j]? with
  | none => rw [hv] at hj; simp at hj
  | some y =>
    rw [hv] at hj
    refine ⟨y, List.mem_of_getElem? hv, ?_⟩
    by_cases e : i = j
    · right; simp [e] at hj; exact hj.symm
    · left; simp [e] at hj; exact hj.symm

theorem healthy_bump {E : Env} {c : Client} (h : Healthy E c) (i : Nat) :
    Healthy E { c with vault := Client.bump c.vault i } := by
  refine ⟨h.1, h.2.1, h.2.2.1, h.2.2.2.1, ?_⟩
  intro x hx
  obtain ⟨y, hy, rfl | rfl⟩ := mem_bump hx
  · exact h.2.2.2.2 x hy
  · exact h.2.2.2.2 y hy

theorem pinDigest_ne {E : Env} (L : Laws E) (pin : Bytes) : pinDigest E pin ≠ [] := by
  intro h
  have := congrArg List.length h
  simp [pinDigest, L.sha256_length] at this

theorem healthy_pin {E : Env} (L : Laws E) {c : Client} (h : Healthy E c) (n : Int) (pin : Bytes) :
    Healthy E { c with pinRetries := n, pinHash := some (pinDigest E pin) } :=
  ⟨h.1, h.2.1, h.2.2.1, by simpa using pinDigest_ne L pin, h.2.2.2.2⟩

theorem healthy_retries {E : Env} {c : Client} (h : Healthy E c) (n : Int) :
    Healthy E { c with pinRetries := n } := h

theorem healthy_counter {E : Env} {c : Client} (h : Healthy E c) (n : UInt32) :
    Healthy E { c with authCounter := n } := h

theorem healthy_enabled {E : Env} {c : Client} (h : Healthy E c) (b : Bool) :
    Healthy E { c with pinEnabled := b } := h

end VF.Fido.Ctap
