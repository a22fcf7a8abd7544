import Verif.Proofs.Cbor

/-!
# The strict reader accepts only the encoder's form
-/

namespace VF.Cbor

open VF.Spec.Cbor (argument lexLt beNat readItem readItems readEntries)

theorem ofNat_eq {n : Nat} {a : UInt8} (h : n % 256 = a.toNat) : UInt8.ofNat n = a := by
  apply UInt8.toNat_inj.1
  rw [UInt8.toNat_ofNat']
  exact h

theorem argument_inv (major info n : Nat) (rest r : Bytes)
    (h : argument info rest = some (n, r)) :
    UInt8.ofNat (32 * major + info) :: rest = head major n ++ r := by
  have add8 : ∀ i, UInt8.ofNat (32 * major) + UInt8.ofNat i = UInt8.ofNat (32 * major + i) := by
    intro i; exact (UInt8.ofNat_add ..).symm
  unfold argument at h
  split at h
  · rename_i h1
    simp only [Option.some.injEq, Prod.mk.injEq] at h
    obtain ⟨rfl, rfl⟩ := h
    simp [head, h1, add8]
  split at h
  · rename_i h1 h2
    subst h2
    split at h
    · cases h
    · rename_i hc
      simp only [Option.some.injEq, Prod.mk.injEq] at h
      match rest with
      | [] => simp at hc
      | a :: rest =>
        obtain ⟨h, rfl⟩ := h
        have hb : beNat (List.take 1 (a :: rest)) = a.toNat := by simp [beNat]
        rw [hb] at h hc
        subst h
        have := a.toNat_lt
        simp only [not_or] at hc
        unfold head
        rw [if_neg (by omega), if_pos (by omega), ← add8]
        simp
  split at h
  · rename_i h1 h2 h3
    subst h3
    split at h
    · cases h
    · rename_i hc
      simp only [Option.some.injEq, Prod.mk.injEq] at h
      match rest with
      | [] => simp at hc
      | [a] => simp at hc
      | a :: b :: rest =>
        obtain ⟨h, rfl⟩ := h
        have hb : beNat (List.take 2 (a :: b :: rest)) = a.toNat * 256 + b.toNat := by simp [beNat]
        rw [hb] at h hc
        have := a.toNat_lt
        have := b.toNat_lt
        simp only [not_or] at hc
        unfold head
        rw [if_neg (by omega), if_neg (by omega), if_pos (by omega), ← add8, Util.toBE16_eq]
        have e1 : UInt8.ofNat (n / 256) = a := ofNat_eq (by omega)
        have e2 : UInt8.ofNat n = b := ofNat_eq (by omega)
        have e3 : n % 65536 = n := by omega
        simp [be16, UInt16.toNat_ofNat', e1, e2, e3]
  split at h
  · rename_i h1 h2 h3 h4
    subst h4
    split at h
    · cases h
    · rename_i hc
      simp only [Option.some.injEq, Prod.mk.injEq] at h
      match rest with
      | [] => simp at hc
      | [a] => simp at hc
      | [a, b] => simp at hc
      | [a, b, c] => simp at hc
      | a :: b :: c :: d :: rest =>
        obtain ⟨h, rfl⟩ := h
        have hb : beNat (List.take 4 (a :: b :: c :: d :: rest)) =
            ((a.toNat * 256 + b.toNat) * 256 + c.toNat) * 256 + d.toNat := by simp [beNat]
        rw [hb] at h hc
        have := a.toNat_lt
        have := b.toNat_lt
        have := c.toNat_lt
        have := d.toNat_lt
        simp only [not_or] at hc
        unfold head
        rw [if_neg (by omega), if_neg (by omega), if_neg (by omega), if_pos (by omega), ← add8,
          Util.toBE32_eq]
        have e1 : UInt8.ofNat (n / 16777216) = a := ofNat_eq (by omega)
        have e2 : UInt8.ofNat (n / 65536) = b := ofNat_eq (by omega)
        have e3 : UInt8.ofNat (n / 256) = c := ofNat_eq (by omega)
        have e4 : UInt8.ofNat n = d := ofNat_eq (by omega)
        have e5 : n % 4294967296 = n := by omega
        simp [be32, UInt32.toNat_ofNat', e1, e2, e3, e4, e5]
  split at h
  · rename_i h1 h2 h3 h4 h5
    subst h5
    split at h
    · cases h
    · rename_i hc
      simp only [Option.some.injEq, Prod.mk.injEq] at h
      match rest with
      | [] => simp at hc
      | [a] => simp at hc
      | [a, b] => simp at hc
      | [a, b, c] => simp at hc
      | [a, b, c, d] => simp at hc
      | [a, b, c, d, e] => simp at hc
      | [a, b, c, d, e, f] => simp at hc
      | [a, b, c, d, e, f, g] => simp at hc
      | a :: b :: c :: d :: e :: f :: g :: i :: rest =>
        obtain ⟨h, rfl⟩ := h
        have hb : beNat (List.take 8 (a :: b :: c :: d :: e :: f :: g :: i :: rest)) =
            (((((((a.toNat * 256 + b.toNat) * 256 + c.toNat) * 256 + d.toNat) * 256 + e.toNat)
              * 256 + f.toNat) * 256 + g.toNat) * 256 + i.toNat) := by simp [beNat]
        rw [hb] at h hc
        have := a.toNat_lt
        have := b.toNat_lt
        have := c.toNat_lt
        have := d.toNat_lt
        have := e.toNat_lt
        have := f.toNat_lt
        have := g.toNat_lt
        have := i.toNat_lt
        simp only [not_or] at hc
        unfold head
        rw [if_neg (by omega), if_neg (by omega), if_neg (by omega), if_neg (by omega), ← add8,
          Util.toBE32_eq, Util.toBE32_eq]
        have e0 : n / 4294967296 % 4294967296 = n / 4294967296 := by omega
        have e1 : UInt8.ofNat (n / 4294967296 / 16777216) = a := ofNat_eq (by omega)
        have e2 : UInt8.ofNat (n / 4294967296 / 65536) = b := ofNat_eq (by omega)
        have e3 : UInt8.ofNat (n / 4294967296 / 256) = c := ofNat_eq (by omega)
        have e4 : UInt8.ofNat (n / 4294967296) = d := ofNat_eq (by omega)
        have e5 : UInt8.ofNat (n % 4294967296 / 16777216) = e := ofNat_eq (by omega)
        have e6 : UInt8.ofNat (n % 4294967296 / 65536) = f := ofNat_eq (by omega)
        have e7 : UInt8.ofNat (n % 4294967296 / 256) = g := ofNat_eq (by omega)
        have e8 : UInt8.ofNat (n % 4294967296) = i := ofNat_eq (by omega)
        simp only [be32, UInt32.toNat_ofNat', e0, e1, e2, e3, e4, e5, e6, e7, e8]
        simp
  · cases h

mutual
theorem readItem_inv : ∀ (fuel : Nat) (b : Bytes) (v : Cbor) (r : Bytes),
    readItem fuel b = some (v, r) → b = encode v ++ r
  | 0, b, v, r, h => by simp [readItem] at h
  | fuel + 1, [], v, r, h => by simp [readItem] at h
  | fuel + 1, x :: rest, v, r, h => by
    unfold readItem at h
    dsimp only at h
    have hx := x.toNat_lt
    have hx32 : UInt8.ofNat (32 * (x.toNat / 32) + x.toNat % 32) = x := ofNat_eq (by omega)
    split at h
    · rename_i h7
      split at h
      · obtain ⟨rfl, rfl⟩ := by simpa using h
        have : x = 0xf4 := by apply UInt8.toNat_inj.1; simp; omega
        simp [encode, this]
      split at h
      · obtain ⟨rfl, rfl⟩ := by simpa using h
        have : x = 0xf5 := by apply UInt8.toNat_inj.1; simp; omega
        simp [encode, this]
      split at h
      · obtain ⟨rfl, rfl⟩ := by simpa using h
        have : x = 0xf6 := by apply UInt8.toNat_inj.1; simp; omega
        simp [encode, this]
      · cases h
    · cases ha : argument (x.toNat % 32) rest with
      | none => rw [ha] at h; cases h
      | some p =>
        obtain ⟨n, rest'⟩ := p
        rw [ha] at h
        dsimp only at h
        have hi := argument_inv (x.toNat / 32) _ _ _ _ ha
        rw [hx32] at hi
        rw [hi]
        split at h
        · rename_i hm; obtain ⟨rfl, rfl⟩ := by simpa using h
          simp [encode, hm]
        split at h
        · rename_i hm; obtain ⟨rfl, rfl⟩ := by simpa using h
          simp [encode, hm]
        split at h
        · rename_i hm
          split at h
          · cases h
          · obtain ⟨rfl, rfl⟩ := by simpa using h
            simp [encode, hm]
            rw [Nat.min_eq_left (by omega)]
        split at h
        · rename_i hm
          split at h
          · cases h
          · obtain ⟨rfl, rfl⟩ := by simpa using h
            simp [encode, hm]
            rw [Nat.min_eq_left (by omega)]
        split at h
        · rename_i hm
          cases hr : readItems fuel n rest' with
          | none => rw [hr] at h; cases h
          | some p =>
            obtain ⟨l, rest2⟩ := p
            rw [hr] at h
            obtain ⟨rfl, rfl⟩ := by simpa using h
            obtain ⟨e, el⟩ := readItems_inv _ _ _ _ _ hr
            rw [e, hm, encode, el, List.append_assoc]
        split at h
        · rename_i hm
          cases hr : readEntries fuel n none rest' with
          | none => rw [hr] at h; cases h
          | some p =>
            obtain ⟨l, rest2⟩ := p
            rw [hr] at h
            obtain ⟨rfl, rfl⟩ := by simpa using h
            obtain ⟨e, el⟩ := readEntries_inv _ _ _ _ _ _ hr
            rw [e, hm, encode, el, List.append_assoc]
        · cases h
theorem readItems_inv : ∀ (fuel n : Nat) (b : Bytes) (l : List Cbor) (r : Bytes),
    readItems fuel n b = some (l, r) → b = encodeItems l ++ r ∧ l.length = n
  | fuel, 0, b, l, r, h => by
    rw [readItems] at h
    obtain ⟨rfl, rfl⟩ := by simpa using h
    simp [encodeItems]
  | 0, n + 1, b, l, r, h => by simp [readItems] at h
  | fuel + 1, n + 1, b, l, r, h => by
    rw [readItems] at h
    cases h1 : readItem fuel b with
    | none => rw [h1] at h; cases h
    | some p =>
      obtain ⟨v, r1⟩ := p
      rw [h1] at h
      dsimp only at h
      cases h2 : readItems fuel n r1 with
      | none => rw [h2] at h; cases h
      | some p =>
        obtain ⟨l2, r2⟩ := p
        rw [h2] at h
        obtain ⟨rfl, rfl⟩ := by simpa using h
        have e1 := readItem_inv _ _ _ _ h1
        obtain ⟨e2, el⟩ := readItems_inv _ _ _ _ _ h2
        rw [e1, e2, encodeItems, List.append_assoc]
        simp [el]
theorem readEntries_inv : ∀ (fuel n : Nat) (last : Option Bytes) (b : Bytes)
    (l : List (Cbor × Cbor)) (r : Bytes),
    readEntries fuel n last b = some (l, r) → b = encodeEntries l ++ r ∧ l.length = n
  | fuel, 0, last, b, l, r, h => by
    rw [readEntries] at h
    obtain ⟨rfl, rfl⟩ := by simpa using h
    simp [encodeEntries]
  | 0, n + 1, last, b, l, r, h => by simp [readEntries] at h
  | fuel + 1, n + 1, last, b, l, r, h => by
    rw [readEntries] at h
    cases h1 : readItem fuel b with
    | none => rw [h1] at h; cases h
    | some p =>
      obtain ⟨k, r1⟩ := p
      rw [h1] at h
      dsimp only at h
      simp only [Option.ite_none_left_eq_some] at h
      · obtain ⟨-, h⟩ := h
        cases h3 : readItem fuel r1 with
        | none => rw [h3] at h; cases h
        | some p =>
          obtain ⟨v, r3⟩ := p
          rw [h3] at h
          dsimp only at h
          cases h2 : readEntries fuel n
              (some (b.take (b.length - r1.length))) r3 with
          | none => rw [h2] at h; cases h
          | some p =>
            obtain ⟨l2, r2⟩ := p
            rw [h2] at h
            obtain ⟨rfl, rfl⟩ := by simpa using h
            have e1 := readItem_inv _ _ _ _ h1
            have e3 := readItem_inv _ _ _ _ h3
            obtain ⟨e2, el⟩ := readEntries_inv _ _ _ _ _ _ h2
            rw [e1, e3, e2, encodeEntries]
            simp [el]
end

theorem decode_inv {b : Bytes} {v : Cbor} (h : Spec.Cbor.decode b = some v) : b = encode v := by
  unfold Spec.Cbor.decode at h
  cases hr : readItem (2 * b.length) b with
  | none => rw [hr] at h; cases h
  | some p =>
    obtain ⟨w, r⟩ := p
    rw [hr] at h
    cases r with
    | nil =>
      obtain rfl := Option.some.inj h
      simpa using readItem_inv _ _ _ _ hr
    | cons a r => cases h

end VF.Cbor
