import Verif.Proofs.Vault
import Verif.Proofs.SavedState
import Verif.Proofs.Toy

/-!
# The identity vault and its saved form (C35–C39)
-/

namespace VF.Props

open VF.Fido VF.Spec.Vault VF.Spec.Cose

/-! ## C35 -/

/-- DeleteIdentity says `true` exactly if there is a credential with the id. -/
theorem C35_delete_result (v : List Source) (id : Bytes) :
    (Vault.deleteIdentity v id).2 = true ↔ ∃ s ∈ v, s.id = id := by
  rcases Vault.deleteIdentity_spec v id with ⟨h1, h2⟩ | ⟨l, s, r, v', h1, h2, h3, h4, h5⟩
  · rw [h2]; simp; exact h1
  · rw [h4]; simp; exact ⟨s, by simp [h1], h2⟩

/-- When it says `true`, exactly one credential with the id (the first) is gone and all others,
counted with multiplicity, are still there. -/
theorem C35_delete_removes_exactly_one (v v' : List Source) (id : Bytes)
    (h : Vault.deleteIdentity v id = (v', true)) :
    ∃ s, v.find? (fun x => x.id == id) = some s ∧ s.id = id ∧ v.Perm (s :: v') := by
  rcases Vault.deleteIdentity_spec v id with ⟨h1, h2⟩ | ⟨l, s, r, v'', h1, h2, h3, h4, h5⟩
  · rw [h2] at h; simp at h
  · rw [h4] at h
    obtain rfl : v'' = v' := by simpa using h
    refine ⟨s, ?_, h2, h5⟩
    rw [h1, List.find?_append, List.find?_eq_none.2 (fun x hx => by simpa using h3 x hx)]
    simp [h2]

/-- Otherwise nothing changes. -/
theorem C35_delete_missing (v v' : List Source) (id : Bytes)
    (h : Vault.deleteIdentity v id = (v', false)) : v' = v ∧ ∀ s ∈ v, s.id ≠ id := by
  rcases Vault.deleteIdentity_spec v id with ⟨h1, h2⟩ | ⟨l, s, r, v'', h1, h2, h3, h4, h5⟩
  · rw [h2] at h
    exact ⟨by simpa using h.symm, h1⟩
  · rw [h4] at h; simp at h

/-- With different ids, the id is gone afterwards and every other credential is kept. -/
theorem C35_delete_distinct (v v' : List Source) (id : Bytes)
    (hd : v.Pairwise (fun a b => a.id ≠ b.id))
    (h : Vault.deleteIdentity v id = (v', true)) :
    (∀ s ∈ v', s.id ≠ id) ∧ (∀ s ∈ v, s.id ≠ id → s ∈ v') ∧ (∀ s ∈ v', s ∈ v) := by
  obtain ⟨s, -, h2, h3⟩ := C35_delete_removes_exactly_one v v' id h
  have hp : (s :: v').Pairwise (fun a b => a.id ≠ b.id) :=
    h3.pairwise hd (fun h e => h e.symm)
  refine ⟨?_, ?_, ?_⟩
  · intro x hx e
    exact (List.pairwise_cons.1 hp).1 x hx (h2.trans e.symm)
  · intro x hx hn
    rcases List.mem_cons.1 (h3.mem_iff.1 hx) with rfl | hx
    · exact absurd h2 hn
    · exact hx
  · exact fun x hx => h3.mem_iff.2 (List.mem_cons_of_mem _ hx)

/-! ## C36 -/

/-- The lookup returns, in vault order and each once, exactly the positions of the matching
credentials (every stored credential has a relying party). -/
theorem C36_lookup_exact (v : List Source) (rpId : Bytes) (allow : Option (List Descriptor))
    (h : ∀ s ∈ v, s.rp.isSome) :
    ∃ ps, Vault.getMatching rpId allow 0 v = .ok ps ∧ ps.Pairwise (· < ·) ∧
      ∀ i, i ∈ ps ↔ ∃ s, v[i]? = some s ∧ Matches rpId allow s := by
  obtain ⟨ps, h1, -, h3, h4⟩ := Vault.getMatching_spec rpId allow v 0 h
  exact ⟨ps, h1, h3, fun i => by simpa using h4 i (Nat.zero_le i)⟩

/-- In a vault holding a credential without relying party every lookup panics. -/
theorem C36_lookup_needs_relying_parties (v : List Source) (rpId : Bytes)
    (allow : Option (List Descriptor)) (h : ∃ s ∈ v, s.rp = none) :
    (Vault.getMatching rpId allow 0 v).isPanic = true :=
  Vault.getMatching_panic rpId allow v 0 h

/-! ## C37, C38 -/

/-- Keys, ids, types and counters survive export and import into an empty vault. -/
theorem C37_import_export {E : Env} (L : Laws E) (v : List Source)
    (h : ∀ s ∈ v, Only s.key ∧ KeyValid E s.key ∧ s.rp.isSome ∧ s.user.isSome) :
    ∃ saved v', Vault.exportSources v = .ok saved ∧
      Vault.importSources E [] saved = .ok (v', true) ∧ SameCredentials v v' := by
  obtain ⟨saved, v', h1, h2, h3, -, -⟩ := Vault.import_export L v h
  exact ⟨saved, v', h1, h2, h3⟩

/-- Relying parties and users are restored exactly if all credentials have the same ones as the
last: all imported credentials get the relying party and the user of the last one. -/
theorem C38_entities_restored_iff {E : Env} (L : Laws E) (v : List Source) (last : Source)
    (hl : v.getLast? = some last)
    (h : ∀ s ∈ v, Only s.key ∧ KeyValid E s.key ∧ s.rp.isSome ∧ s.user.isSome) :
    ∃ saved v', Vault.exportSources v = .ok saved ∧
      Vault.importSources E [] saved = .ok (v', true) ∧ v'.length = v.length ∧
      (∀ s ∈ v', s.rp = last.rp ∧ s.user = last.user) ∧
      ((v'.map (fun s => (s.rp, s.user)) = v.map (fun s => (s.rp, s.user))) ↔
        ∀ s ∈ v, s.rp = last.rp ∧ s.user = last.user) := by
  obtain ⟨saved, v', h1, h2, h3, -, h5⟩ := Vault.import_export L v h
  refine ⟨saved, v', h1, h2, h3.1.symm, h5 last hl, ?_⟩
  have e : v'.map (fun s => (s.rp, s.user)) = List.replicate v.length (last.rp, last.user) := by
    rw [h3.1, List.eq_replicate_iff]
    refine ⟨by simp, ?_⟩
    intro b hb
    obtain ⟨s, hs, rfl⟩ := List.mem_map.1 hb
    simp [h5 last hl s hs]
  rw [e]
  constructor
  · intro he s hs
    have hm : (s.rp, s.user) ∈ v.map (fun s => (s.rp, s.user)) := List.mem_map.2 ⟨s, hs, rfl⟩
    rw [← he] at hm
    have := List.eq_of_mem_replicate hm
    simpa using this
  · intro ha
    symm
    rw [List.eq_replicate_iff]
    refine ⟨by simp, ?_⟩
    intro b hb
    obtain ⟨s, hs, rfl⟩ := List.mem_map.1 hb
    simp [ha s hs]

/-- Two credentials of different relying parties: after export and import the first belongs to
the second's relying party. -/
theorem C38_entities_restored_refuted : ∃ (E : Env) (v : List Source), Laws E ∧
    (∀ s ∈ v, Only s.key ∧ KeyValid E s.key ∧ s.rp.isSome ∧ s.user.isSome) ∧
    ∃ saved v', Vault.exportSources v = .ok saved ∧
      Vault.importSources E [] saved = .ok (v', true) ∧
      ∃ a b, v.head? = some a ∧ v'.head? = some b ∧ a.id = b.id ∧ a.rp ≠ b.rp ∧ a.user ≠ b.user := by
  have L := Toy.toy_laws (fun _ _ _ _ => true)
  let E := Toy.toy (fun _ _ _ _ => true)
  let a : Source :=
    { type := [], id := [1], key := { ecdsa := some (E.genEC 0) }, rp := some ⟨[97], []⟩,
      user := some ⟨[1], [], []⟩, counter := 0 }
  let b : Source :=
    { type := [], id := [2], key := { ecdsa := some (E.genEC 1) }, rp := some ⟨[98], []⟩,
      user := some ⟨[2], [], []⟩, counter := 0 }
  have h : ∀ s ∈ [a, b], Only s.key ∧ KeyValid E s.key ∧ s.rp.isSome ∧ s.user.isSome := by
    intro s hs
    simp only [List.mem_cons, List.not_mem_nil, or_false] at hs
    rcases hs with rfl | rfl
    · exact ⟨.ecdsa _, L.genEC_valid 0, rfl, rfl⟩
    · exact ⟨.ecdsa _, L.genEC_valid 1, rfl, rfl⟩
  obtain ⟨saved, v', h1, h2, h3, -, h5⟩ := Vault.import_export L [a, b] h
  refine ⟨E, [a, b], L, h, saved, v', h1, h2, a, ?_⟩
  obtain ⟨x, y, rfl⟩ : ∃ x y, v' = [x, y] := by
    have := h3.1
    match v', this with
    | [x, y], _ => exact ⟨x, y, rfl⟩
  have hx := h5 b rfl x (by simp)
  refine ⟨x, rfl, rfl, (h3.2 0 a x rfl rfl).1, ?_, ?_⟩
  · rw [hx.1]; simp [a, b]
  · rw [hx.2]; simp [a, b]

/-! ## C39 -/

/-- Encrypting a state never fails, and the result opens with the same passphrase to the state
(an empty PIN hash comes back as absent). -/
theorem C39_saved_state_round_trip {E : Env} (L : Laws E) (s : SavedState) (hu : s.Utf8)
    (pass : Bytes) (rnd : Nat) :
    ∃ b rnd', Saved.encryptState E s pass rnd = some (b, rnd') ∧
      Saved.decryptState E b pass =
        .ok (some { s with pinHash := if s.pinHash = some [] then none else s.pinHash }) := by
  obtain ⟨b, h1, h2⟩ := Saved.decryptState_encryptState L s hu pass rnd
  exact ⟨b, _, h1, h2⟩

/-! ## The hypotheses can be met -/

/-- A vault with two credentials of different relying parties that can be exported (see also the
refutation of C38), and a state with such a vault that can be saved. -/
example : ∃ (E : Env) (v : List Source) (st : SavedState), Laws E ∧ v.length = 2 ∧
    (∀ s ∈ v, Only s.key ∧ KeyValid E s.key ∧ s.rp.isSome ∧ s.user.isSome) ∧
    (∃ last, v.getLast? = some last) ∧ v.Pairwise (fun a b => a.id ≠ b.id) ∧
    (Vault.deleteIdentity v [1]).2 = true ∧
    st.Utf8 ∧ Vault.exportSources v = .ok st.sources := by
  have L := Toy.toy_laws (fun _ _ _ _ => true)
  let E := Toy.toy (fun _ _ _ _ => true)
  let a : Source :=
    { type := [], id := [1], key := { ecdsa := some (E.genEC 0) }, rp := some ⟨[], []⟩,
      user := some ⟨[1], [], []⟩, counter := 0 }
  let b : Source := { a with id := [2] }
  have h : ∀ s ∈ [a, b], Only s.key ∧ KeyValid E s.key ∧ s.rp.isSome ∧ s.user.isSome := by
    intro s hs
    simp only [List.mem_cons, List.not_mem_nil, or_false] at hs
    rcases hs with rfl | rfl
    · exact ⟨.ecdsa _, L.genEC_valid 0, rfl, rfl⟩
    · exact ⟨.ecdsa _, L.genEC_valid 0, rfl, rfl⟩
  have u0 : utf8 [] := ⟨"", by decide +kernel⟩
  obtain ⟨saved, v', h1, -⟩ := Vault.import_export L [a, b] h
  let st : SavedState :=
    { encryptionKey := [], cert := [], certKey := [], authCounter := 0, pinEnabled := false,
      pinHash := none, sources := saved }
  refine ⟨E, [a, b], st, L, rfl, h, ⟨b, rfl⟩, ?_, ?_, ?_, h1⟩
  · simp [a, b]
  · rw [C35_delete_result]; exact ⟨a, by simp, rfl⟩
  · apply Vault.exportSources_utf8 h1
    intro s hs
    simp only [List.mem_cons, List.not_mem_nil, or_false] at hs
    rcases hs with rfl | rfl <;> simp [a, b, u0]

end VF.Props
