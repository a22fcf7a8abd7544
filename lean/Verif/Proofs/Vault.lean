import Verif.Spec.Vault
import Verif.Model.Client
import Verif.Proofs.Cose

namespace VF.Fido.Vault

open VF.Spec.Vault VF.Spec.Cose

theorem findIdx?_split {p : Source → Bool} : ∀ {v : List Source} {i : Nat},
    v.findIdx? p = some i → ∃ l s r, v = l ++ s :: r ∧ l.length = i ∧ p s = true ∧
      (∀ x ∈ l, p x = false)
  | [], i, h => by simp at h
  | x :: v, i, h => by
    rw [List.findIdx?_cons] at h
    split at h
    · rename_i hx
      obtain rfl := Option.some.inj h
      exact ⟨[], x, v, rfl, rfl, hx, by simp⟩
    · rename_i hx
      cases hf : v.findIdx? p with
      | none => rw [hf] at h; simp at h
      | some j =>
        rw [hf] at h
        simp at h
        obtain ⟨l, s, r, h1, h2, h3, h4⟩ := findIdx?_split hf
        refine ⟨x :: l, s, r, by simp [h1], by simp [h2, h], h3, ?_⟩
        intro y hy
        rcases List.mem_cons.1 hy with rfl | hy
        · simpa using hx
        · exact h4 y hy

theorem set_length {α : Type} (l r : List α) (s t : α) :
    (l ++ s :: r).set l.length t = l ++ t :: r := by
  simp

theorem perm_remove {α : Type} (l r : List α) (s last : α) (h : (l ++ s :: r).getLast? = some last) :
    (l ++ s :: r).Perm (s :: ((l ++ s :: r).set l.length last).dropLast) := by
  rw [set_length]
  cases hr : r.reverse with
  | nil =>
    have : r = [] := by simpa using hr
    subst this
    simp
  | cons t r' =>
    have e : r = r'.reverse ++ [t] := by
      have := congrArg List.reverse hr
      simpa using this
    subst e
    have ht : last = t := by
      have : (l ++ s :: (r'.reverse ++ [t])).getLast? = some t := by
        rw [show l ++ s :: (r'.reverse ++ [t]) = (l ++ s :: r'.reverse) ++ [t] by simp]
        exact List.getLast?_concat
      rw [this] at h
      exact (Option.some.inj h).symm
    subst ht
    rw [show l ++ last :: (r'.reverse ++ [last]) = (l ++ last :: r'.reverse) ++ [last] by simp,
      List.dropLast_concat]
    have p1 : (l ++ s :: (r'.reverse ++ [last])).Perm (s :: (l ++ (r'.reverse ++ [last]))) :=
      List.perm_middle
    refine p1.trans (List.Perm.cons s ?_)
    have p2 : (l ++ last :: r'.reverse).Perm (last :: (l ++ r'.reverse)) := List.perm_middle
    rw [← List.append_assoc]
    exact (List.perm_append_singleton last (l ++ r'.reverse)).trans p2.symm

theorem deleteIdentity_spec (v : List Source) (id : Bytes) :
    ((∀ s ∈ v, s.id ≠ id) ∧ deleteIdentity v id = (v, false)) ∨
    (∃ l s r v', v = l ++ s :: r ∧ s.id = id ∧ (∀ x ∈ l, x.id ≠ id) ∧
      deleteIdentity v id = (v', true) ∧ v.Perm (s :: v')) := by
  unfold deleteIdentity
  cases hf : v.findIdx? (fun s => s.id == id) with
  | none =>
    left
    refine ⟨?_, rfl⟩
    intro s hs he
    have := List.findIdx?_eq_none_iff.1 hf s hs
    simp [he] at this
  | some i =>
    right
    obtain ⟨l, s, r, rfl, hl, hs, hn⟩ := findIdx?_split hf
    cases hg : (l ++ s :: r).getLast? with
    | none => simp at hg
    | some last =>
      refine ⟨l, s, r, _, rfl, by simpa using hs, fun x hx => by simpa using hn x hx, rfl, ?_⟩
      rw [← hl]
      exact perm_remove l r s last hg

theorem getMatching_spec (rpId : Bytes) (allow : Option (List Descriptor)) :
    ∀ (v : List Source) (i : Nat), (∀ s ∈ v, s.rp.isSome) →
    ∃ ps, getMatching rpId allow i v = .ok ps ∧
      (∀ j ∈ ps, i ≤ j) ∧ ps.Pairwise (· < ·) ∧
      (∀ j, i ≤ j → (j ∈ ps ↔ ∃ s, v[j - i]? = some s ∧ Matches rpId allow s))
  | [], i, _ => ⟨[], rfl, by simp, by simp, by simp⟩
  | s :: v, i, h => by
    obtain ⟨ps, h1, h2, h3, h4⟩ := getMatching_spec rpId allow v (i + 1)
      (fun x hx => h x (by simp [hx]))
    obtain ⟨rp, hrp⟩ := Option.isSome_iff_exists.1 (h s (by simp))
    have hm : (rp.id = rpId ∧ allowed allow s.id = true) ↔ Matches rpId allow s := by
      cases allow with
      | none => simp [allowed, Matches, hrp]
      | some l => simp [allowed, Matches, hrp]
    have key : ∀ j, i ≤ j → ((∃ t, (s :: v)[j - i]? = some t ∧ Matches rpId allow t) ↔
        (j = i ∧ Matches rpId allow s) ∨
        (i + 1 ≤ j ∧ ∃ t, v[j - (i + 1)]? = some t ∧ Matches rpId allow t)) := by
      intro j hj
      by_cases e : j = i
      · subst e; simp; omega
      · have : j - i = (j - (i + 1)) + 1 := by omega
        rw [this]
        simp [e]; omega
    simp only [getMatching, hrp, h1, Res.bind_ok]
    split
    · rename_i hc
      refine ⟨i :: ps, rfl, ?_, ?_, ?_⟩
      · intro j hj
        rcases List.mem_cons.1 hj with rfl | hj
        · omega
        · have := h2 j hj; omega
      · exact List.pairwise_cons.2 ⟨fun j hj => by have := h2 j hj; omega, h3⟩
      · intro j hj
        rw [key j hj, List.mem_cons]
        constructor
        · rintro (rfl | hj')
          · exact .inl ⟨rfl, hm.1 hc⟩
          · have hle := h2 j hj'
            exact .inr ⟨hle, (h4 j hle).1 hj'⟩
        · rintro (⟨rfl, -⟩ | ⟨hle, ht⟩)
          · exact .inl rfl
          · exact .inr ((h4 j hle).2 ht)
    · rename_i hc
      refine ⟨ps, rfl, fun j hj => by have := h2 j hj; omega, h3, ?_⟩
      intro j hj
      rw [key j hj]
      constructor
      · intro hj'
        have hle := h2 j hj'
        exact .inr ⟨hle, (h4 j hle).1 hj'⟩
      · rintro (⟨rfl, hx⟩ | ⟨hle, ht⟩)
        · exact absurd (hm.2 hx) hc
        · exact (h4 j hle).2 ht

theorem getMatching_panic (rpId : Bytes) (allow : Option (List Descriptor)) :
    ∀ (v : List Source) (i : Nat), (∃ s ∈ v, s.rp = none) →
      (getMatching rpId allow i v).isPanic = true
  | [], _, h => by simp at h
  | s :: v, i, h => by
    simp only [getMatching]
    cases hrp : s.rp with
    | none => rfl
    | some rp =>
      have : ∃ x ∈ v, x.rp = none := by
        obtain ⟨x, hx, hn⟩ := h
        rcases List.mem_cons.1 hx with rfl | hx
        · rw [hrp] at hn; cases hn
        · exact ⟨x, hx, hn⟩
      have ih := getMatching_panic rpId allow v (i + 1) this
      cases hg : getMatching rpId allow (i + 1) v with
      | ok a => rw [hg] at ih; simp at ih
      | panic c => rfl

/-! ### Export and import -/

/-- A credential that can be saved: one valid key, relying party and user present. -/
def Savable (E : Env) (s : Source) : Prop :=
  Only s.key ∧ KeyValid E s.key ∧ s.rp.isSome ∧ s.user.isSome

theorem ecValid_bounds {E : Env} (L : Laws E) {k : ECPriv} (h : ECValid E k) :
    k.pub.p256 = true ∧ k.pub.x < 2 ^ 256 ∧ k.pub.y < 2 ^ 256 ∧ k.d < 2 ^ 256 := by
  obtain ⟨hp, -, hd, he⟩ := h
  have hb := L.ecPublic_lt k.d
  rw [← he] at hb
  have : p256Order < 2 ^ 256 := by decide +kernel
  exact ⟨hp, hb.1, hb.2, by omega⟩

/-- Restored keys are valid again. -/
theorem private_round_trip {E : Env} (L : Laws E) (k : PrivKey) (ho : Only k)
    (hv : KeyValid E k) :
    ∃ b k', Cose.marshalPrivate k = .ok b ∧ Cose.unmarshalPrivate E b = .ok (some k') ∧
      SamePrivate k k' ∧ Only k' ∧ KeyValid E k' := by
  cases ho with
  | ecdsa k =>
    obtain ⟨hp, hx, hy, hd⟩ := ecValid_bounds L (show ECValid E k from hv)
    obtain ⟨b, h1, h2⟩ := Cose.ecPrivate_round_trip L k hp hx hy hd
    exact ⟨b, _, h1, h2, ⟨rfl, rfl, rfl⟩, .ecdsa k, hv⟩
  | ed25519 k =>
    obtain ⟨b, h1, h2⟩ := Cose.edPrivate_round_trip L k hv
    exact ⟨b, _, h1, h2, ⟨rfl, rfl, rfl⟩, .ed25519 k, hv⟩
  | rsa k =>
    obtain ⟨b, k', h1, h2, h3, h4, h5, h6⟩ := Cose.rsaPrivate_round_trip_valid L k hv
    exact ⟨b, _, h1, h2, ⟨rfl, rfl, by simp [rsaMaterial, h3, h4, h5]⟩, .rsa k', h6⟩

/-- What a saved credential decodes to. -/
def Decodes (E : Env) (s : SavedSource) (k : PrivKey) : Prop :=
  Cose.unmarshalPrivate E s.key = .ok (some k)

theorem importLoop_ok {E : Env} : ∀ (l : List (SavedSource × PrivKey)) (last : SavedSource),
    (∀ p ∈ l, Decodes E p.1 p.2) →
    importLoop E last (l.map Prod.fst) =
      .ok (l, (l.getLast?.map Prod.fst).getD last, true)
  | [], last, _ => rfl
  | (s, k) :: l, last, h => by
    have h0 : Cose.unmarshalPrivate E s.key = .ok (some k) := h (s, k) (by simp)
    have ih := importLoop_ok l s (fun p hp => h p (by simp [hp]))
    simp only [List.map_cons, importLoop, importKey, h0, Res.bind_ok, ih]
    cases l with
    | nil => rfl
    | cons a l => simp [List.getLast?_cons_cons]
                  cases hg : (a :: l).getLast? <;> simp_all

/-- Export of savable credentials succeeds, and every exported credential decodes to a key with
the same material. -/
theorem exportSources_ok {E : Env} (L : Laws E) : ∀ (v : List Source), (∀ s ∈ v, Savable E s) →
    ∃ l : List (SavedSource × PrivKey), exportSources v = .ok (l.map Prod.fst) ∧
      l.length = v.length ∧ (∀ p ∈ l, Decodes E p.1 p.2) ∧
      ∀ (i : Nat) (s : Source) (p : SavedSource × PrivKey), v[i]? = some s → l[i]? = some p →
        p.1.type = s.type ∧ p.1.id = s.id ∧ p.1.counter = s.counter ∧ s.rp = some p.1.rp ∧
        s.user = some p.1.user ∧ SamePrivate s.key p.2 ∧ Only p.2 ∧ KeyValid E p.2
  | [], _ => ⟨[], rfl, rfl, by simp, by simp⟩
  | s :: v, h => by
    obtain ⟨l, h1, h2, h3, h4⟩ := exportSources_ok L v (fun x hx => h x (by simp [hx]))
    obtain ⟨ho, hv, hr, hu⟩ := h s (by simp)
    obtain ⟨b, k', m1, m2, m3, m4, m5⟩ := private_round_trip L s.key ho hv
    obtain ⟨rp, hrp⟩ := Option.isSome_iff_exists.1 hr
    obtain ⟨u, hu⟩ := Option.isSome_iff_exists.1 hu
    refine ⟨({ type := s.type, id := s.id, key := b, rp := rp, user := u, counter := s.counter },
      k') :: l, ?_, by simp [h2], ?_, ?_⟩
    · simp only [exportSources, m1, Res.bind_ok, hrp, hu, h1, List.map_cons]
    · intro p hp
      rcases List.mem_cons.1 hp with rfl | hp
      · exact m2
      · exact h3 p hp
    · intro i x p hx hp
      cases i with
      | zero =>
        simp at hx hp
        subst hx; subst hp
        exact ⟨rfl, rfl, rfl, hrp, hu, m3, m4, m5⟩
      | succ i => exact h4 i x p (by simpa using hx) (by simpa using hp)

/-- Importing what was exported. -/
theorem import_export {E : Env} (L : Laws E) (v : List Source) (h : ∀ s ∈ v, Savable E s) :
    ∃ saved v', exportSources v = .ok saved ∧ importSources E [] saved = .ok (v', true) ∧
      SameCredentials v v' ∧ (∀ s ∈ v', Only s.key ∧ KeyValid E s.key) ∧
      (∀ last, v.getLast? = some last → ∀ s ∈ v', s.rp = last.rp ∧ s.user = last.user) := by
  obtain ⟨l, h1, h2, h3, h4⟩ := exportSources_ok L v h
  cases l with
  | nil =>
    have : v = [] := by simpa using h2.symm
    subst this
    exact ⟨[], [], h1, rfl, ⟨rfl, by simp⟩, by simp, by simp⟩
  | cons p0 l0 =>
    have ih := importLoop_ok (p0 :: l0) p0.1 h3
    obtain ⟨pl, hpl⟩ : ∃ pl, (p0 :: l0).getLast? = some pl :=
      ⟨_, List.getLast?_eq_some_getLast (by simp)⟩
    rw [hpl] at ih
    simp only [Option.map_some, Option.getD_some] at ih
    refine ⟨_, (p0 :: l0).map (fun p =>
      { type := p.1.type, id := p.1.id, key := p.2, rp := some pl.1.rp, user := some pl.1.user,
        counter := p.1.counter }), h1, ?_, ?_, ?_, ?_⟩
    · rw [List.map_cons] at ih ⊢
      simp only [importSources, ih, Res.bind_ok, List.nil_append]
    · refine ⟨by rw [List.length_map]; exact h2.symm, ?_⟩
      intro i a b ha hb
      rw [List.getElem?_map] at hb
      cases hp : (p0 :: l0)[i]? with
      | none => rw [hp] at hb; simp at hb
      | some p =>
        rw [hp] at hb
        simp at hb
        subst hb
        obtain ⟨e1, e2, e3, -, -, e6, -, -⟩ := h4 i a p ha hp
        exact ⟨e2.symm, e1.symm, e3.symm, e6⟩
    · intro s hs
      obtain ⟨p, hp, rfl⟩ := List.mem_map.1 hs
      obtain ⟨i, hi⟩ := List.mem_iff_getElem?.1 hp
      have hlt : i < v.length := by
        have := (List.getElem?_eq_some_iff.1 hi).1; omega
      obtain ⟨-, -, -, -, -, -, e7, e8⟩ := h4 i v[i] p (List.getElem?_eq_getElem hlt) hi
      exact ⟨e7, e8⟩
    · intro last hlast s hs
      obtain ⟨p, hp, rfl⟩ := List.mem_map.1 hs
      rw [List.getLast?_eq_getElem?] at hlast hpl
      rw [h2] at hpl
      obtain ⟨-, -, -, e4, e5, -⟩ := h4 _ last pl hlast hpl
      exact ⟨e4.symm, e5.symm⟩

theorem exportSources_utf8 : ∀ {v : List Source} {saved : List SavedSource},
    exportSources v = .ok saved →
    (∀ s ∈ v, utf8 s.type ∧ (∀ rp ∈ s.rp, utf8 rp.id ∧ utf8 rp.name) ∧
      (∀ u ∈ s.user, utf8 u.displayName ∧ utf8 u.name)) →
    ∀ x ∈ saved, x.Utf8
  | [], saved, h, _ => by
    obtain rfl := Res.ok.inj h
    simp
  | s :: v, saved, h, hu => by
    simp only [exportSources] at h
    cases hm : Cose.marshalPrivate s.key with
    | panic c => rw [hm] at h; simp at h
    | ok b =>
      rw [hm] at h
      simp only [Res.bind_ok] at h
      split at h
      · rename_i rp user hr hus
        cases he : exportSources v with
        | panic c => rw [he] at h; simp at h
        | ok tail =>
          rw [he] at h
          simp only [Res.bind_ok] at h
          obtain rfl := Res.ok.inj h
          obtain ⟨h1, h2, h3⟩ := hu s (by simp)
          intro x hx
          rcases List.mem_cons.1 hx with rfl | hx
          · exact ⟨h1, (h2 rp hr).1, (h2 rp hr).2, (h3 user hus).1, (h3 user hus).2⟩
          · exact exportSources_utf8 he (fun y hy => hu y (by simp [hy])) x hx
      · cases h

theorem exportSources_savable : ∀ {v : List Source} {saved : List SavedSource},
    exportSources v = .ok saved → ∀ s ∈ v, s.rp.isSome ∧ s.user.isSome
  | [], _, _ => by simp
  | s :: v, saved, h => by
    simp only [exportSources] at h
    cases hm : Cose.marshalPrivate s.key with
    | panic c => rw [hm] at h; simp at h
    | ok b =>
      rw [hm] at h
      simp only [Res.bind_ok] at h
      split at h
      · rename_i rp user hr hus
        cases he : exportSources v with
        | panic c => rw [he] at h; simp at h
        | ok tail =>
          intro x hx
          rcases List.mem_cons.1 hx with rfl | hx
          · simp [hr, hus]
          · exact exportSources_savable he x hx
      · cases h

end VF.Fido.Vault
