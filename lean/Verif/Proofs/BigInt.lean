import Verif.Model.BigInt

namespace VF.BigInt

theorem foldl_acc (b : Bytes) : ∀ acc : Nat,
    b.foldl (fun acc x => acc * 256 + x.toNat) acc = acc * 256 ^ b.length + ofBytes b := by
  induction b with
  | nil => intro acc; simp [ofBytes]
  | cons x b ih =>
    intro acc
    have h0 : ofBytes (x :: b) = x.toNat * 256 ^ b.length + ofBytes b := by
      simp only [ofBytes, List.foldl_cons, Nat.zero_mul, Nat.zero_add]
      exact ih _
    rw [List.foldl_cons, ih, h0, List.length_cons, Nat.pow_succ, Nat.add_mul, Nat.mul_assoc,
      Nat.mul_comm 256, Nat.add_assoc]

theorem ofBytes_append (a b : Bytes) :
    ofBytes (a ++ b) = ofBytes a * 256 ^ b.length + ofBytes b := by
  rw [ofBytes, List.foldl_append, foldl_acc]; rfl

theorem ofBytes_concat (a : Bytes) (x : UInt8) : ofBytes (a ++ [x]) = ofBytes a * 256 + x.toNat := by
  simp [ofBytes, List.foldl_append]

theorem ofBytes_toBytes (n : Nat) : ofBytes (toBytes n) = n := by
  induction n using Nat.strongRecOn with
  | _ n ih =>
    rw [toBytes]
    split
    · rename_i h; simp [ofBytes, h]
    · rename_i h
      rw [ofBytes_concat, ih (n / 256) (by omega)]
      simp [UInt8.toNat_ofNat']
      omega

theorem toBytes_inj {a b : Nat} (h : toBytes a = toBytes b) : a = b := by
  rw [← ofBytes_toBytes a, h, ofBytes_toBytes]

theorem toBytes_length_le (k : Nat) : ∀ n, n < 256 ^ k → (toBytes n).length ≤ k := by
  induction k with
  | zero => intro n h; have : n = 0 := by simpa using h
            subst this; rw [toBytes]; simp
  | succ k ih =>
    intro n h
    rw [toBytes]
    split
    · simp
    · have : n / 256 < 256 ^ k := by rw [Nat.pow_succ] at h; exact Nat.div_lt_of_lt_mul (by omega)
      simp [ih _ this]

theorem toBytes_length_ge (k : Nat) : ∀ n, 256 ^ k ≤ n → k + 1 ≤ (toBytes n).length := by
  induction k with
  | zero =>
    intro n h
    have : n ≠ 0 := by simp at h; omega
    rw [toBytes]; simp [this]
  | succ k ih =>
    intro n h
    have hpos : 0 < 256 ^ (k + 1) := Nat.pow_pos (by omega)
    have h0 : n ≠ 0 := by omega
    have : 256 ^ k ≤ n / 256 := by
      rw [Nat.pow_succ] at h; exact (Nat.le_div_iff_mul_le (by omega)).mpr h
    rw [toBytes]; simp [h0]; exact ih _ this

/-- `Bytes()` has exactly 32 bytes for the 256-bit numbers not below `2^248`. -/
theorem toBytes_length_32 (n : Nat) (h : n < 2 ^ 256) :
    (toBytes n).length = 32 ↔ 2 ^ 248 ≤ n := by
  have e1 : (256 : Nat) ^ 32 = 2 ^ 256 := by decide +kernel
  have e2 : (256 : Nat) ^ 31 = 2 ^ 248 := by decide +kernel
  constructor
  · intro hl
    by_cases hlt : n < 2 ^ 248
    · have := toBytes_length_le 31 n (by rw [e2]; exact hlt); omega
    · omega
  · intro hge
    have a := toBytes_length_le 32 n (by rw [e1]; exact h)
    have b := toBytes_length_ge 31 n (by rw [e2]; exact hge)
    omega

theorem ofBytes_zeros (k : Nat) (b : Bytes) : ofBytes (List.replicate k 0 ++ b) = ofBytes b := by
  rw [ofBytes_append]
  have : ofBytes (List.replicate k 0) = 0 := by
    induction k with
    | zero => rfl
    | succ k ih => rw [List.replicate_succ']; rw [ofBytes_concat, ih]; rfl
  simp [this]

theorem ofBytes_fill (len n : Nat) : ofBytes (fill len n) = n := by
  rw [fill, ofBytes_zeros, ofBytes_toBytes]

theorem fill_length (len n : Nat) (h : n < 256 ^ len) : (fill len n).length = len := by
  have := toBytes_length_le len n h
  simp [fill]; omega

theorem fill32_length (n : Nat) (h : n < 2 ^ 256) : (fill 32 n).length = 32 :=
  fill_length 32 n (by have : (256 : Nat) ^ 32 = 2 ^ 256 := by decide +kernel
                       omega)

theorem fill_inj {len a b : Nat} (h : fill len a = fill len b) : a = b := by
  rw [← ofBytes_fill len a, h, ofBytes_fill]

theorem toBytes_isEmpty (n : Nat) : (toBytes n).isEmpty = true ↔ n = 0 := by
  rw [toBytes]; split <;> simp_all

theorem toBytes_zero : toBytes 0 = [] := by rw [toBytes]; simp

/-- No leading zero byte. -/
theorem toBytes_head (n : Nat) : (toBytes n).head? ≠ some 0 := by
  induction n using Nat.strongRecOn with
  | _ n ih =>
    rw [toBytes]
    split
    · simp
    · rename_i h
      by_cases h2 : n / 256 = 0
      · rw [h2, toBytes_zero]
        simp
        intro e
        have : (UInt8.ofNat n).toNat = 0 := by rw [e]; rfl
        simp [UInt8.toNat_ofNat'] at this
        omega
      · have i := ih (n / 256) (by omega)
        have hne : toBytes (n / 256) ≠ [] := by
          intro e; exact h2 ((toBytes_isEmpty _).mp (by simp [e]))
        rcases hb : toBytes (n / 256) with _ | ⟨a, l⟩
        · exact absurd hb hne
        · rw [hb] at i; simpa using i

end VF.BigInt
