import Verif.Spec.Service

/-! # The requests in the reports of a channel are determined by them -/

namespace VF.Spec.Service

open Spec.Ctaphid

theorem le32_len (c : UInt32) : (le32 c).length = 4 := rfl

theorem initPacket_inj {cid : UInt32} {cmd cmd' : UInt8} {len len' : Nat} {d d' : Bytes} (h1 : len < 65536)
    (h2 : len' < 65536) (h : initPacket cid cmd len d = initPacket cid cmd' len' d') :
    cmd = cmd' ∧ len = len' ∧ d = d' := by
  unfold initPacket at h
  simp only [List.append_assoc] at h
  obtain ⟨-, h⟩ := List.append_inj h rfl
  obtain ⟨hc, h⟩ := List.append_inj h rfl
  obtain ⟨hl, hd⟩ := List.append_inj h rfl
  refine ⟨(List.cons.inj hc).1, ?_, hd⟩
  have := congrArg (fun l : Bytes => match l with | [a, b] => a.toNat * 256 + b.toNat | _ => 0) hl
  simp [be16, UInt8.toNat_ofNat', UInt16.toNat_ofNat'] at this
  omega

theorem contPackets_inj {cid : UInt32} {k : Nat} {ds ds' : List Bytes}
    (h : contPackets cid k ds = contPackets cid k ds') : ds = ds' := by
  induction ds generalizing k ds' with
  | nil => cases ds' with
    | nil => rfl
    | cons x xs => cases h
  | cons d ds ih => cases ds' with
    | nil => cases h
    | cons x xs =>
      obtain ⟨h1, h2⟩ := List.cons.inj h
      have : d = x := by
        unfold contPacket at h1
        exact (List.append_inj h1 rfl).2
      rw [this, ih h2]

theorem fragmentation_unique {cid : UInt32} {cmd cmd' : UInt8} {p p' : Bytes} {w : List Bytes}
    (h : IsFragmentation cid cmd p w) (h' : IsFragmentation cid cmd' p' w) : cmd = cmd' ∧ p = p' := by
  obtain ⟨d0, ds, h1, h2, -, h3, -, -⟩ := h
  obtain ⟨e0, es, g1, g2, -, g3, -, -⟩ := h'
  rw [h1] at g1
  obtain ⟨q1, q2⟩ := List.cons.inj g1
  obtain ⟨r1, r2, r3⟩ := initPacket_inj h2 g2 q1
  have r4 := contPackets_inj q2
  refine ⟨r1, ?_⟩
  rw [h3, g3, r2, r3, r4]

theorem beginning_incomplete {cid : UInt32} {cmd : UInt8} {p : Bytes} {w : List Bytes} (h : IsBeginning cid w)
    (h' : IsFragmentation cid cmd p w) : False := by
  obtain ⟨c, len, d0, ds, -, h2, -, h1, h3⟩ := h
  obtain ⟨e0, es, g1, g2, -, -, g3, -⟩ := h'
  rw [h1] at g1
  obtain ⟨q1, q2⟩ := List.cons.inj g1
  obtain ⟨-, r2, r3⟩ := initPacket_inj h2 g2 q1
  have r4 := contPackets_inj q2
  rw [r2, r3, r4] at h3
  omega

/-- How the last report was heard. -/
theorem Heard.last {cid : UInt32} {rs : List Bytes} {p : Bytes} {a : List (UInt8 × Bytes)} {w : List Bytes}
    (h : Heard cid (rs ++ [p]) a w) : ∃ a0 w0, Heard cid rs a0 w0 ∧
      ((IsBeginning cid (w0 ++ [p]) ∧ a = a0 ∧ w = w0 ++ [p]) ∨
        (∃ cmd payload, Begins cmd ∧ IsFragmentation cid cmd payload (w0 ++ [p]) ∧ a = a0 ++ [(cmd, payload)] ∧ w = []) ∨
        (¬ IsBeginning cid (w0 ++ [p]) ∧ (∀ cmd payload, Begins cmd → ¬ IsFragmentation cid cmd payload (w0 ++ [p])) ∧
          a = a0 ∧ w = [])) := by
  generalize hl : rs ++ [p] = l at h
  cases h with
  | nil => simp at hl
  | begun q h hb =>
    obtain ⟨rfl, h2⟩ := List.append_inj' hl rfl
    cases h2
    exact ⟨_, _, h, .inl ⟨hb, rfl, rfl⟩⟩
  | request q cmd payload h hc hw =>
    obtain ⟨rfl, h2⟩ := List.append_inj' hl rfl
    cases h2
    exact ⟨_, _, h, .inr (.inl ⟨cmd, payload, hc, hw, rfl, rfl⟩)⟩
  | nothing q h hb hw =>
    obtain ⟨rfl, h2⟩ := List.append_inj' hl rfl
    cases h2
    exact ⟨_, _, h, .inr (.inr ⟨hb, hw, rfl, rfl⟩)⟩

/-- The requests are determined by the reports. -/
theorem Heard.unique {cid : UInt32} {rs : List Bytes} {a : List (UInt8 × Bytes)} {w : List Bytes} (h : Heard cid rs a w) :
    ∀ {b : List (UInt8 × Bytes)} {v : List Bytes}, Heard cid rs b v → a = b ∧ w = v := by
  induction h with
  | nil =>
    intro b v h'
    generalize hl : ([] : List Bytes) = l at h'
    cases h' with
    | nil => exact ⟨rfl, rfl⟩
    | begun => simp at hl
    | request => simp at hl
    | nothing => simp at hl
  | begun p h hb ih =>
    intro b v h'
    obtain ⟨a0, w0, h0, hc⟩ := h'.last
    obtain ⟨rfl, rfl⟩ := ih h0
    rcases hc with ⟨-, rfl, rfl⟩ | ⟨cmd, payload, -, hf, -, -⟩ | ⟨hn, -, -, -⟩
    · exact ⟨rfl, rfl⟩
    · exact (beginning_incomplete hb hf).elim
    · exact absurd hb hn
  | request p cmd payload h hcm hw ih =>
    intro b v h'
    obtain ⟨a0, w0, h0, hc⟩ := h'.last
    obtain ⟨rfl, rfl⟩ := ih h0
    rcases hc with ⟨hb, -, -⟩ | ⟨cmd', payload', -, hf, rfl, rfl⟩ | ⟨-, hn, -, -⟩
    · exact (beginning_incomplete hb hw).elim
    · obtain ⟨rfl, rfl⟩ := fragmentation_unique hw hf
      exact ⟨rfl, rfl⟩
    · exact absurd hw (hn _ _ hcm)
  | nothing p h hb hw ih =>
    intro b v h'
    obtain ⟨a0, w0, h0, hc⟩ := h'.last
    obtain ⟨rfl, rfl⟩ := ih h0
    rcases hc with ⟨hb', -, -⟩ | ⟨cmd', payload', hcm, hf, -, -⟩ | ⟨-, -, rfl, rfl⟩
    · exact absurd hb' hb
    · exact absurd hf (hw _ _ hcm)
    · exact ⟨rfl, rfl⟩

theorem contPackets_take (cid : UInt32) (k n : Nat) (ds : List Bytes) :
    (contPackets cid k ds).take n = contPackets cid k (ds.take n) := by
  induction ds generalizing k n with
  | nil => simp [contPackets]
  | cons d ds ih =>
    cases n with
    | zero => rfl
    | succ n => simp [contPackets, ih]

theorem contPackets_len (cid : UInt32) (k : Nat) (ds : List Bytes) : (contPackets cid k ds).length = ds.length := by
  induction ds generalizing k with
  | nil => rfl
  | cons d ds ih => simp [contPackets, ih]

/-- Before the last report a request is not complete. -/
theorem fragmentation_prefix {cid : UInt32} {cmd : UInt8} {p : Bytes} {w : List Bytes} (hc : Begins cmd)
    (h : IsFragmentation cid cmd p w) {n : Nat} (h0 : 0 < n) (hn : n < w.length) : IsBeginning cid (w.take n) := by
  obtain ⟨d0, ds, rfl, h2, h3, -, -, h4⟩ := h
  obtain ⟨n, rfl⟩ : ∃ m, n = m + 1 := ⟨n - 1, by omega⟩
  simp only [List.length_cons, contPackets_len] at hn
  refine ⟨cmd, p.length, d0, ds.take n, hc, h2, by simp; omega, by rw [List.take_succ_cons, contPackets_take], ?_⟩
  have hne : ds ≠ [] := by rintro rfl; simp at hn
  have h5 := h4 hne
  refine Nat.lt_of_le_of_lt ?_ h5
  rw [List.length_append, List.length_append]
  have : ds.take n = ds.dropLast.take n := by
    rw [List.dropLast_eq_take, List.take_take, Nat.min_eq_left (by omega)]
  rw [this]
  have hsub : (ds.dropLast.take n).flatten.length ≤ ds.dropLast.flatten.length := by
    have e := congrArg (fun l : List Bytes => l.flatten.length) (List.take_append_drop n ds.dropLast)
    simp only [List.flatten_append, List.length_append] at e
    omega
  omega

/-- A request sent by a conforming host is heard. -/
theorem Heard.fragments {cid : UInt32} {rs : List Bytes} {a : List (UInt8 × Bytes)} (h : Heard cid rs a [])
    {cmd : UInt8} {p : Bytes} {w : List Bytes} (hc : Begins cmd) (hf : IsFragmentation cid cmd p w) :
    Heard cid (rs ++ w) (a ++ [(cmd, p)]) [] := by
  have hne : w ≠ [] := by
    rintro rfl
    obtain ⟨_, _, h, -⟩ := hf
    cases h
  have key : ∀ n, n < w.length → Heard cid (rs ++ w.take n) a (w.take n) := by
    intro n
    induction n with
    | zero => intro _; simpa using h
    | succ n ih =>
      intro hn
      have h1 := ih (by omega)
      have e : w.take (n + 1) = w.take n ++ [w[n]] := (List.take_append_getElem (by omega)).symm
      rw [e, ← List.append_assoc]
      refine .begun _ h1 ?_
      rw [← e]
      exact fragmentation_prefix hc hf (by omega) hn
  have hpos := List.length_pos_iff.mpr hne
  have h1 := key (w.length - 1) (by omega)
  have e : w = w.take (w.length - 1) ++ [w[w.length - 1]] := by
    rw [List.take_append_getElem]
    rw [List.take_of_length_le (by omega)]
  rw [e, ← List.append_assoc]
  refine .request _ cmd p h1 hc ?_
  rw [← e]
  exact hf

end VF.Spec.Service
