/-!
# Byte strings and integer encodings

Go's `[]byte` and `string` are both modelled by `Bytes = List UInt8` (Go strings are byte strings).
The integer encodings are written with division and remainder so that `omega` can reason
about them.
-/

namespace VF

/-- Go `[]byte` / `string` contents. -/
abbrev Bytes := List UInt8

/-- ASCII text as bytes (for the string literals of the Go code). -/
def ascii (s : String) : Bytes := s.toList.map (fun c => UInt8.ofNat c.toNat)

/-- `encoding/binary` big-endian encoding of a `uint16`. -/
def be16 (n : UInt16) : Bytes := [UInt8.ofNat (n.toNat / 256), UInt8.ofNat n.toNat]

/-- big-endian encoding of a `uint32` -/
def be32 (n : UInt32) : Bytes :=
  [UInt8.ofNat (n.toNat / 16777216), UInt8.ofNat (n.toNat / 65536),
   UInt8.ofNat (n.toNat / 256), UInt8.ofNat n.toNat]

/-- little-endian encoding of a `uint16` -/
def le16 (n : UInt16) : Bytes := [UInt8.ofNat n.toNat, UInt8.ofNat (n.toNat / 256)]

/-- little-endian encoding of a `uint32` -/
def le32 (n : UInt32) : Bytes :=
  [UInt8.ofNat n.toNat, UInt8.ofNat (n.toNat / 256),
   UInt8.ofNat (n.toNat / 65536), UInt8.ofNat (n.toNat / 16777216)]

def ofBe16 (a b : UInt8) : UInt16 := UInt16.ofNat (a.toNat * 256 + b.toNat)
def ofLe16 (a b : UInt8) : UInt16 := UInt16.ofNat (b.toNat * 256 + a.toNat)
def ofBe32 (a b c d : UInt8) : UInt32 :=
  UInt32.ofNat (a.toNat * 16777216 + b.toNat * 65536 + c.toNat * 256 + d.toNat)
def ofLe32 (a b c d : UInt8) : UInt32 :=
  UInt32.ofNat (d.toNat * 16777216 + c.toNat * 65536 + b.toNat * 256 + a.toNat)

@[simp] theorem be16_length (n : UInt16) : (be16 n).length = 2 := rfl
@[simp] theorem be32_length (n : UInt32) : (be32 n).length = 4 := rfl
@[simp] theorem le16_length (n : UInt16) : (le16 n).length = 2 := rfl
@[simp] theorem le32_length (n : UInt32) : (le32 n).length = 4 := rfl

theorem ofBe16_be16 (n : UInt16) :
    ofBe16 (UInt8.ofNat (n.toNat / 256)) (UInt8.ofNat n.toNat) = n := by
  apply UInt16.toNat_inj.mp
  have := n.toNat_lt
  simp [ofBe16, UInt8.toNat_ofNat']
  omega

theorem ofLe16_le16 (n : UInt16) :
    ofLe16 (UInt8.ofNat n.toNat) (UInt8.ofNat (n.toNat / 256)) = n := by
  apply UInt16.toNat_inj.mp
  have := n.toNat_lt
  simp [ofLe16, UInt8.toNat_ofNat']
  omega

theorem ofBe32_be32 (n : UInt32) :
    ofBe32 (UInt8.ofNat (n.toNat / 16777216)) (UInt8.ofNat (n.toNat / 65536))
      (UInt8.ofNat (n.toNat / 256)) (UInt8.ofNat n.toNat) = n := by
  apply UInt32.toNat_inj.mp
  have := n.toNat_lt
  simp [ofBe32, UInt8.toNat_ofNat']
  omega

theorem ofLe32_le32 (n : UInt32) :
    ofLe32 (UInt8.ofNat n.toNat) (UInt8.ofNat (n.toNat / 256))
      (UInt8.ofNat (n.toNat / 65536)) (UInt8.ofNat (n.toNat / 16777216)) = n := by
  apply UInt32.toNat_inj.mp
  have := n.toNat_lt
  simp [ofLe32, UInt8.toNat_ofNat']
  omega

theorem be16_ofBe16 (a b : UInt8) : be16 (ofBe16 a b) = [a, b] := by
  have ha := a.toNat_lt; have hb := b.toNat_lt
  simp only [be16, ofBe16, List.cons.injEq, and_true]
  refine ⟨UInt8.toNat_inj.mp ?_, UInt8.toNat_inj.mp ?_⟩ <;>
    simp [UInt8.toNat_ofNat'] <;> omega

theorem be32_ofBe32 (a b c d : UInt8) : be32 (ofBe32 a b c d) = [a, b, c, d] := by
  have ha := a.toNat_lt; have hb := b.toNat_lt; have hc := c.toNat_lt; have hd := d.toNat_lt
  simp only [be32, ofBe32, List.cons.injEq, and_true]
  refine ⟨UInt8.toNat_inj.mp ?_, UInt8.toNat_inj.mp ?_, UInt8.toNat_inj.mp ?_,
    UInt8.toNat_inj.mp ?_⟩ <;>
    simp [UInt8.toNat_ofNat'] <;> omega

theorem le32_ofLe32 (a b c d : UInt8) : le32 (ofLe32 a b c d) = [a, b, c, d] := by
  have ha := a.toNat_lt; have hb := b.toNat_lt; have hc := c.toNat_lt; have hd := d.toNat_lt
  simp only [le32, ofLe32, List.cons.injEq, and_true]
  refine ⟨UInt8.toNat_inj.mp ?_, UInt8.toNat_inj.mp ?_, UInt8.toNat_inj.mp ?_,
    UInt8.toNat_inj.mp ?_⟩ <;>
    simp [UInt8.toNat_ofNat'] <;> omega

theorem le16_ofLe16 (a b : UInt8) : le16 (ofLe16 a b) = [a, b] := by
  have ha := a.toNat_lt; have hb := b.toNat_lt
  simp only [le16, ofLe16, List.cons.injEq, and_true]
  refine ⟨UInt8.toNat_inj.mp ?_, UInt8.toNat_inj.mp ?_⟩ <;>
    simp [UInt8.toNat_ofNat'] <;> omega

theorem be16_inj {a b : UInt16} (h : be16 a = be16 b) : a = b := by
  have := ofBe16_be16 a
  simp only [be16, List.cons.injEq, and_true] at h
  rw [h.1, h.2, ofBe16_be16] at this
  exact this.symm

theorem be32_inj {a b : UInt32} (h : be32 a = be32 b) : a = b := by
  have := ofBe32_be32 a
  simp only [be32, List.cons.injEq, and_true] at h
  rw [h.1, h.2.1, h.2.2.1, h.2.2.2, ofBe32_be32] at this
  exact this.symm

theorem le32_inj {a b : UInt32} (h : le32 a = le32 b) : a = b := by
  have := ofLe32_le32 a
  simp only [le32, List.cons.injEq, and_true] at h
  rw [h.1, h.2.1, h.2.2.1, h.2.2.2, ofLe32_le32] at this
  exact this.symm

end VF
