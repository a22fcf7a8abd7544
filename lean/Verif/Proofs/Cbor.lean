import Verif.Model.Cbor
import Verif.Spec.Cbor
import Verif.Proofs.Util

/-!
# The encoder produces canonical CBOR
-/

namespace VF.Cbor

open VF.Spec.Cbor (argument lexLt beNat readItem readItems readEntries)

mutual
/-- Encodable in canonical form: numbers and lengths below `2^64` and, in maps, strictly
increasing encoded keys. -/
def WF : Cbor → Prop
  | .uint n => n < 18446744073709551616
  | .nint n => n < 18446744073709551616
  | .bytes b => b.length < 18446744073709551616
  | .text b => b.length < 18446744073709551616
  | .array l => l.length < 18446744073709551616 ∧ WFItems l
  | .map l => l.length < 18446744073709551616 ∧ WFEntries none l
  | .bool _ => True
  | .null => True
def WFItems : List Cbor → Prop
  | [] => True
  | v :: l => WF v ∧ WFItems l
def WFEntries : Option Bytes → List (Cbor × Cbor) → Prop
  | _, [] => True
  | last, (k, v) :: l =>
    WF k ∧ WF v ∧ (match last with | none => True | some b => lexLt b (encode k) = true) ∧
      WFEntries (some (encode k)) l
end

mutual
/-- Fuel needed to read an item back. -/
def size : Cbor → Nat
  | .array l => 1 + sizeItems l
  | .map l => 1 + sizeEntries l
  | _ => 1
def sizeItems : List Cbor → Nat
  | [] => 0
  | v :: l => 1 + max (size v) (sizeItems l)
def sizeEntries : List (Cbor × Cbor) → Nat
  | [] => 0
  | (k, v) :: l => 1 + max (size k) (max (size v) (sizeEntries l))
end

theorem head_spec (major n : Nat) (hm : major < 8) (hn : n < 18446744073709551616) :
    ∃ (info : Nat) (tail : Bytes), info < 28 ∧
      head major n = UInt8.ofNat (32 * major + info) :: tail ∧
      ∀ rest, argument info (tail ++ rest) = some (n, rest) := by
  have add8 : ∀ i, UInt8.ofNat (32 * major) + UInt8.ofNat i = UInt8.ofNat (32 * major + i) := by
    intro i; exact (UInt8.ofNat_add ..).symm
  unfold head
  dsimp only
  split
  · rename_i h
    exact ⟨n, [], by omega, by simp [add8], by simp [argument, h]⟩
  split
  · rename_i h1 h2
    refine ⟨24, [UInt8.ofNat n], by omega, by rw [← add8]; rfl, ?_⟩
    intro rest
    have hb : beNat ([UInt8.ofNat n] : Bytes) = n := by
      simp [beNat, UInt8.toNat_ofNat']; omega
    simp [argument, hb, h1]
  split
  · rename_i h1 h2 h3
    refine ⟨25, Util.toBE16 (UInt16.ofNat n), by omega, by rw [← add8]; rfl, ?_⟩
    intro rest
    have hb : beNat (be16 (UInt16.ofNat n)) = n := by
      simp [beNat, be16, UInt8.toNat_ofNat', UInt16.toNat_ofNat']; omega
    have ht : List.take 2 (be16 (UInt16.ofNat n) ++ rest) = be16 (UInt16.ofNat n) :=
      List.take_left' (by simp)
    have hd : List.drop 2 (be16 (UInt16.ofNat n) ++ rest) = rest := List.drop_left' (by simp)
    rw [Util.toBE16_eq]
    simp [argument, ht, hd, hb]; omega
  split
  · rename_i h1 h2 h3 h4
    refine ⟨26, Util.toBE32 (UInt32.ofNat n), by omega, by rw [← add8]; rfl, ?_⟩
    intro rest
    have hb : beNat (be32 (UInt32.ofNat n)) = n := by
      simp [beNat, be32, UInt8.toNat_ofNat', UInt32.toNat_ofNat']; omega
    have ht : List.take 4 (be32 (UInt32.ofNat n) ++ rest) = be32 (UInt32.ofNat n) :=
      List.take_left' (by simp)
    have hd : List.drop 4 (be32 (UInt32.ofNat n) ++ rest) = rest := List.drop_left' (by simp)
    rw [Util.toBE32_eq]
    simp [argument, ht, hd, hb]; omega
  · rename_i h1 h2 h3 h4
    refine ⟨27, Util.toBE32 (UInt32.ofNat (n / 4294967296)) ++ Util.toBE32 (UInt32.ofNat n),
      by omega, by rw [← add8]; rfl, ?_⟩
    intro rest
    rw [Util.toBE32_eq, Util.toBE32_eq]
    have hb : beNat (be32 (UInt32.ofNat (n / 4294967296)) ++ be32 (UInt32.ofNat n)) = n := by
      simp [beNat, be32, UInt8.toNat_ofNat', UInt32.toNat_ofNat']; omega
    have ht : List.take 8 ((be32 (UInt32.ofNat (n / 4294967296)) ++ be32 (UInt32.ofNat n)) ++ rest)
        = be32 (UInt32.ofNat (n / 4294967296)) ++ be32 (UInt32.ofNat n) :=
      List.take_left' (by simp)
    have hd : List.drop 8 ((be32 (UInt32.ofNat (n / 4294967296)) ++ be32 (UInt32.ofNat n)) ++ rest)
        = rest := List.drop_left' (by simp)
    simp only [argument]
    rw [ht, hd, hb]
    simp; omega

theorem head_pos (major n : Nat) : 1 ≤ (head major n).length := by
  unfold head; dsimp only
  split; · simp
  split; · simp
  split; · simp
  split <;> simp

mutual
theorem encode_pos : ∀ v : Cbor, 1 ≤ (encode v).length
  | .uint n => by simpa [encode] using head_pos 0 n
  | .nint n => by simpa [encode] using head_pos 1 n
  | .bytes b => by have := head_pos 2 b.length; simp [encode]; omega
  | .text b => by have := head_pos 3 b.length; simp [encode]; omega
  | .array l => by have := head_pos 4 l.length; simp [encode]; omega
  | .map l => by have := head_pos 5 l.length; simp [encode]; omega
  | .bool false => by simp [encode]
  | .bool true => by simp [encode]
  | .null => by simp [encode]
end

mutual
theorem size_le : ∀ v : Cbor, size v + 1 ≤ 2 * (encode v).length
  | .uint n => by have := head_pos 0 n; simp [encode, size]; omega
  | .nint n => by have := head_pos 1 n; simp [encode, size]; omega
  | .bytes b => by have := head_pos 2 b.length; simp [encode, size]; omega
  | .text b => by have := head_pos 3 b.length; simp [encode, size]; omega
  | .array l => by
      have := head_pos 4 l.length; have := sizeItems_le l; simp [encode, size]; omega
  | .map l => by
      have := head_pos 5 l.length; have := sizeEntries_le l; simp [encode, size]; omega
  | .bool false => by simp [encode, size]
  | .bool true => by simp [encode, size]
  | .null => by simp [encode, size]
theorem sizeItems_le : ∀ l : List Cbor, sizeItems l ≤ 2 * (encodeItems l).length
  | [] => by simp [sizeItems]
  | v :: l => by
      have := size_le v; have := sizeItems_le l
      simp [sizeItems, encodeItems]; omega
theorem sizeEntries_le : ∀ l : List (Cbor × Cbor), sizeEntries l ≤ 2 * (encodeEntries l).length
  | [] => by simp [sizeEntries]
  | (k, v) :: l => by
      have := size_le k; have := size_le v; have := sizeEntries_le l
      simp [sizeEntries, encodeEntries]; omega
end

theorem init_div (major info : Nat) (hm : major < 8) (hi : info < 28) :
    (UInt8.ofNat (32 * major + info)).toNat / 32 = major ∧
    (UInt8.ofNat (32 * major + info)).toNat % 32 = info := by
  simp [UInt8.toNat_ofNat']; omega

/-- One step of the reader on an item that is not a simple value. -/
theorem readItem_step (fuel major info : Nat) (tail rest : Bytes) (n : Nat)
    (hm : major < 7) (hi : info < 28) (ha : argument info tail = some (n, rest)) :
    readItem (fuel + 1) (UInt8.ofNat (32 * major + info) :: tail) =
      if major = 0 then some (.uint n, rest)
      else if major = 1 then some (.nint n, rest)
      else if major = 2 then
        if rest.length < n then none else some (.bytes (rest.take n), rest.drop n)
      else if major = 3 then
        if rest.length < n then none else some (.text (rest.take n), rest.drop n)
      else if major = 4 then
        match readItems fuel n rest with
        | none => none
        | some (l, rest) => some (.array l, rest)
      else if major = 5 then
        match readEntries fuel n none rest with
        | none => none
        | some (l, rest) => some (.map l, rest)
      else none := by
  obtain ⟨d, m⟩ := init_div major info (by omega) hi
  rw [readItem]
  rw [d, m, ha, if_neg (by omega : ¬ major = 7)]
  rfl

mutual
/-- Reading back an encoded item. -/
theorem read_encode : ∀ (v : Cbor) (fuel : Nat) (rest : Bytes), WF v → size v ≤ fuel →
    readItem fuel (encode v ++ rest) = some (v, rest)
  | .uint n, fuel + 1, rest, h, _ => by
      obtain ⟨info, tail, hi, e, ha⟩ := head_spec 0 n (by omega) (by simpa [WF] using h)
      rw [encode, e, List.cons_append, readItem_step fuel _ info _ rest n (by omega) hi (ha rest)]; simp
  | .nint n, fuel + 1, rest, h, _ => by
      obtain ⟨info, tail, hi, e, ha⟩ := head_spec 1 n (by omega) (by simpa [WF] using h)
      rw [encode, e, List.cons_append, readItem_step fuel _ info _ rest n (by omega) hi (ha rest)]; simp
  | .bytes b, fuel + 1, rest, h, _ => by
      obtain ⟨info, tail, hi, e, ha⟩ := head_spec 2 b.length (by omega) (by simpa [WF] using h)
      rw [encode, e, List.cons_append, List.cons_append, List.append_assoc,
        readItem_step fuel _ info _ (b ++ rest) b.length (by omega) hi (ha _)]
      simp
  | .text b, fuel + 1, rest, h, _ => by
      obtain ⟨info, tail, hi, e, ha⟩ := head_spec 3 b.length (by omega) (by simpa [WF] using h)
      rw [encode, e, List.cons_append, List.cons_append, List.append_assoc,
        readItem_step fuel _ info _ (b ++ rest) b.length (by omega) hi (ha _)]
      simp
  | .array l, fuel + 1, rest, h, hf => by
      simp only [WF] at h
      obtain ⟨info, tail, hi, e, ha⟩ := head_spec 4 l.length (by omega) h.1
      have ih := readItems_encode l fuel rest h.2 (by simp [size] at hf; omega)
      rw [encode, e, List.cons_append, List.cons_append, List.append_assoc,
        readItem_step fuel _ info _ (encodeItems l ++ rest) l.length (by omega) hi (ha _)]
      simp [ih]
  | .map l, fuel + 1, rest, h, hf => by
      simp only [WF] at h
      obtain ⟨info, tail, hi, e, ha⟩ := head_spec 5 l.length (by omega) h.1
      have ih := readEntries_encode l fuel none rest h.2 (by simp [size] at hf; omega)
      rw [encode, e, List.cons_append, List.cons_append, List.append_assoc,
        readItem_step fuel _ info _ (encodeEntries l ++ rest) l.length (by omega) hi (ha _)]
      simp [ih]
  | .bool false, fuel + 1, rest, _, _ => by simp [encode, readItem]
  | .bool true, fuel + 1, rest, _, _ => by simp [encode, readItem]
  | .null, fuel + 1, rest, _, _ => by simp [encode, readItem]
  | .uint _, 0, _, _, h => by simp [size] at h
  | .nint _, 0, _, _, h => by simp [size] at h
  | .bytes _, 0, _, _, h => by simp [size] at h
  | .text _, 0, _, _, h => by simp [size] at h
  | .array _, 0, _, _, h => by simp [size] at h
  | .map _, 0, _, _, h => by simp [size] at h
  | .bool _, 0, _, _, h => by simp [size] at h
  | .null, 0, _, _, h => by simp [size] at h
theorem readItems_encode : ∀ (l : List Cbor) (fuel : Nat) (rest : Bytes), WFItems l →
    sizeItems l ≤ fuel → readItems fuel l.length (encodeItems l ++ rest) = some (l, rest)
  | [], fuel, rest, _, _ => by cases fuel <;> simp [readItems, encodeItems]
  | v :: l, fuel + 1, rest, h, hf => by
      simp only [WFItems] at h
      simp only [sizeItems] at hf
      have h1 := read_encode v fuel (encodeItems l ++ rest) h.1 (by omega)
      have h2 := readItems_encode l fuel rest h.2 (by omega)
      simp [readItems, encodeItems, h1, h2]
  | v :: l, 0, rest, h, hf => by simp [sizeItems] at hf
theorem readEntries_encode : ∀ (l : List (Cbor × Cbor)) (fuel : Nat) (last : Option Bytes)
    (rest : Bytes), WFEntries last l → sizeEntries l ≤ fuel →
    readEntries fuel l.length last (encodeEntries l ++ rest) = some (l, rest)
  | [], fuel, last, rest, _, _ => by cases fuel <;> simp [readEntries, encodeEntries]
  | (k, v) :: l, fuel + 1, last, rest, h, hf => by
      simp only [WFEntries] at h
      simp only [sizeEntries] at hf
      have h1 := read_encode k fuel (encode v ++ (encodeEntries l ++ rest)) h.1 (by omega)
      have h2 := read_encode v fuel (encodeEntries l ++ rest) h.2.1 (by omega)
      have h3 := readEntries_encode l fuel (some (encode k)) rest h.2.2.2 (by omega)
      have hk : (encode k ++ (encode v ++ (encodeEntries l ++ rest))).take
          ((encode k ++ (encode v ++ (encodeEntries l ++ rest))).length -
            (encode v ++ (encodeEntries l ++ rest)).length) = encode k :=
        List.take_left' (by simp only [List.length_append]; omega)
      simp only [List.length_cons, encodeEntries, List.append_assoc, readEntries, h1]
      rw [hk, h2]
      have hl := h.2.2.1
      cases last with
      | none => simp only [h3]; rfl
      | some b => simp only [h3]; dsimp only at hl; rw [hl]; rfl
  | (k, v) :: l, 0, last, rest, h, hf => by simp [sizeEntries] at hf
end

/-- The strict reader decodes what the encoder wrote. -/
theorem decode_encode (v : Cbor) (h : WF v) : Spec.Cbor.decode (encode v) = some v := by
  have := read_encode v (2 * (encode v).length) [] h (by have := size_le v; omega)
  simp only [List.append_nil] at this
  simp [Spec.Cbor.decode, this]

theorem encode_inj {v w : Cbor} (hv : WF v) (hw : WF w) (h : encode v = encode w) : v = w := by
  have := decode_encode v hv
  rw [h, decode_encode w hw] at this
  exact (Option.some.inj this).symm

end VF.Cbor
