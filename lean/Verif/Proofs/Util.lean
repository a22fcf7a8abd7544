import Verif.Model.Util

/-! # Lemmas about util/util.go: the model's encoders and decoders are the standard ones -/

namespace VF.Util

theorem toLE32_eq (n : UInt32) : toLE32 n = le32 n := by
  have := n.toNat_lt
  simp only [toLE32, le32, List.cons.injEq, and_true]
  refine ⟨UInt8.toNat_inj.mp ?_, UInt8.toNat_inj.mp ?_, UInt8.toNat_inj.mp ?_,
    UInt8.toNat_inj.mp ?_⟩ <;>
    simp [UInt8.toNat_ofNat', Nat.shiftRight_eq_div_pow]

theorem toBE32_eq (n : UInt32) : toBE32 n = be32 n := by
  have := n.toNat_lt
  simp only [toBE32, be32, List.cons.injEq, and_true]
  refine ⟨UInt8.toNat_inj.mp ?_, UInt8.toNat_inj.mp ?_, UInt8.toNat_inj.mp ?_,
    UInt8.toNat_inj.mp ?_⟩ <;>
    simp [UInt8.toNat_ofNat', Nat.shiftRight_eq_div_pow]

theorem toLE16_eq (n : UInt16) : toLE16 n = le16 n := by
  have := n.toNat_lt
  simp only [toLE16, le16, List.cons.injEq, and_true]
  refine ⟨UInt8.toNat_inj.mp ?_, UInt8.toNat_inj.mp ?_⟩ <;>
    simp [UInt8.toNat_ofNat', Nat.shiftRight_eq_div_pow]

theorem toBE16_eq (n : UInt16) : toBE16 n = be16 n := by
  have := n.toNat_lt
  simp only [toBE16, be16, List.cons.injEq, and_true]
  refine ⟨UInt8.toNat_inj.mp ?_, UInt8.toNat_inj.mp ?_⟩ <;>
    simp [UInt8.toNat_ofNat', Nat.shiftRight_eq_div_pow]

@[simp] theorem readLE32_le32 (n : UInt32) (rest : Bytes) :
    readLE32 (le32 n ++ rest) = .ok (n, rest) := by
  have := n.toNat_lt
  simp only [le32, List.cons_append, List.nil_append, readLE32, Res.ok.injEq, Prod.mk.injEq,
    and_true]
  apply UInt32.toNat_inj.mp
  simp [UInt8.toNat_ofNat']; omega

@[simp] theorem readBE32_be32 (n : UInt32) (rest : Bytes) :
    readBE32 (be32 n ++ rest) = .ok (n, rest) := by
  have := n.toNat_lt
  simp only [be32, List.cons_append, List.nil_append, readBE32, Res.ok.injEq, Prod.mk.injEq,
    and_true]
  apply UInt32.toNat_inj.mp
  simp [UInt8.toNat_ofNat']; omega

@[simp] theorem readBE16_be16 (n : UInt16) (rest : Bytes) :
    readBE16 (be16 n ++ rest) = .ok (n, rest) := by
  have := n.toNat_lt
  simp only [be16, List.cons_append, List.nil_append, readBE16, Res.ok.injEq, Prod.mk.injEq,
    and_true]
  apply UInt16.toNat_inj.mp
  simp [UInt8.toNat_ofNat']; omega

@[simp] theorem readLE16_le16 (n : UInt16) (rest : Bytes) :
    readLE16 (le16 n ++ rest) = .ok (n, rest) := by
  have := n.toNat_lt
  simp only [le16, List.cons_append, List.nil_append, readLE16, Res.ok.injEq, Prod.mk.injEq,
    and_true]
  apply UInt16.toNat_inj.mp
  simp [UInt8.toNat_ofNat']; omega

@[simp] theorem readLE8_cons (a : UInt8) (rest : Bytes) : readLE8 (a :: rest) = .ok (a, rest) := rfl

/-- A successful little-endian read means the buffer started with that encoding. -/
theorem readLE32_ok {b : Bytes} {n : UInt32} {rest : Bytes} (h : readLE32 b = .ok (n, rest)) :
    b = le32 n ++ rest := by
  unfold readLE32 at h
  split at h
  · rename_i a b c d r
    simp only [Res.ok.injEq, Prod.mk.injEq] at h
    obtain ⟨h1, h2⟩ := h
    have : ofLe32 a b c d = n := by rw [← h1]; unfold ofLe32; congr 1; omega
    rw [← this, le32_ofLe32, h2]; rfl
  · cases h

theorem readBE32_ok {b : Bytes} {n : UInt32} {rest : Bytes} (h : readBE32 b = .ok (n, rest)) :
    b = be32 n ++ rest := by
  unfold readBE32 at h
  split at h
  · rename_i a b c d r
    simp only [Res.ok.injEq, Prod.mk.injEq] at h
    obtain ⟨h1, h2⟩ := h
    have : ofBe32 a b c d = n := by rw [← h1]; unfold ofBe32; congr 1; omega
    rw [← this, be32_ofBe32, h2]; rfl
  · cases h

theorem readBE16_ok {b : Bytes} {n : UInt16} {rest : Bytes} (h : readBE16 b = .ok (n, rest)) :
    b = be16 n ++ rest := by
  unfold readBE16 at h
  split at h
  · rename_i a b r
    simp only [Res.ok.injEq, Prod.mk.injEq] at h
    obtain ⟨h1, h2⟩ := h
    have : ofBe16 a b = n := by rw [← h1]; unfold ofBe16; congr 1; omega
    rw [← this, be16_ofBe16, h2]; rfl
  · cases h

theorem readLE8_ok {b : Bytes} {n : UInt8} {rest : Bytes} (h : readLE8 b = .ok (n, rest)) :
    b = n :: rest := by
  unfold readLE8 at h
  split at h <;> simp_all

theorem readLE32_panic_iff {b : Bytes} : (readLE32 b).isPanic = true ↔ b.length < 4 := by
  rcases b with _ | ⟨a, _ | ⟨b, _ | ⟨c, _ | ⟨d, r⟩⟩⟩⟩ <;> simp [readLE32]

theorem readBE16_panic_iff {b : Bytes} : (readBE16 b).isPanic = true ↔ b.length < 2 := by
  rcases b with _ | ⟨a, _ | ⟨b, r⟩⟩ <;> simp [readBE16]

theorem readLE8_panic_iff {b : Bytes} : (readLE8 b).isPanic = true ↔ b.length < 1 := by
  rcases b with _ | ⟨a, r⟩ <;> simp [readLE8]

@[simp] theorem pad_length (src : Bytes) (n : Nat) : (pad src n).length = n := by
  simp [pad]; omega

theorem pad_of_le {src : Bytes} {n : Nat} (h : src.length ≤ n) :
    pad src n = src ++ List.replicate (n - src.length) 0 := by
  simp [pad, List.take_of_length_le h]

theorem pad_self (src : Bytes) : pad src src.length = src := by
  simp [pad]

theorem concat_eq (l : List Bytes) : concat l = l.flatten := by
  unfold concat
  have : ∀ (acc : Bytes) (l : List Bytes),
      l.foldl (fun out arr => out ++ arr) acc = acc ++ l.flatten := by
    intro acc l
    induction l generalizing acc with
    | nil => simp
    | cons x xs ih => simp [ih]
  simpa using this [] l

end VF.Util
