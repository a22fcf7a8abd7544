import Verif.Proofs.Cbor
import Verif.Spec.Laws

/-!
# The data items the device sends are encodable
-/

namespace VF.Cbor

open VF.Spec.Cbor (lexLt)
open VF.Fido (Short Int8Range)

theorem wf_int (i : Int) (h1 : -18446744073709551616 ≤ i) (h2 : i < 18446744073709551616) :
    WF (.int i) := by
  cases i with
  | ofNat n => simp only [Cbor.int, WF]; simp at h2; omega
  | negSucc n => simp only [Cbor.int, WF]; omega

theorem wf_int8 {i : Int} (h : Int8Range i) : WF (.int i) := by
  unfold Int8Range at h
  exact wf_int i (by omega) (by omega)

theorem wf_bytes {b : Bytes} (h : Short b) : WF (.bytes b) := by unfold Short at h; simpa [WF] using h

theorem wf_text {b : Bytes} (h : Short b) : WF (.text b) := by unfold Short at h; simpa [WF] using h

theorem wf_bytesOrNull {b : Option Bytes} (h : ∀ x ∈ b, Short x) :
    WF (Fido.Cose.bytesOrNull b) := by
  cases b with
  | none => simp [Fido.Cose.bytesOrNull, WF]
  | some x => exact wf_bytes (h x rfl)

theorem wfEntries_of_pairwise : ∀ (l : List (Cbor × Cbor)) (last : Option Bytes),
    (∀ e ∈ l, WF e.1 ∧ WF e.2) →
    (l.map Prod.fst).Pairwise (fun a b => lexLt (encode a) (encode b) = true) →
    (∀ b ∈ last, ∀ e ∈ l, lexLt b (encode e.1) = true) →
    WFEntries last l
  | [], _, _, _, _ => by simp [WFEntries]
  | (k, v) :: l, last, hw, hp, hl => by
    simp only [List.map_cons, List.pairwise_cons] at hp
    have h0 := hw (k, v) (by simp)
    simp only [WFEntries]
    refine ⟨h0.1, h0.2, ?_, ?_⟩
    · cases last with
      | none => trivial
      | some b => exact hl b rfl (k, v) (by simp)
    · apply wfEntries_of_pairwise l _ (fun e he => hw e (by simp [he])) hp.2
      intro b hb e he
      simp at hb; subst hb
      exact hp.1 e.1 (by simp; exact ⟨e.2, he⟩)

/-- A map whose keys are some of a list of increasing keys. -/
theorem wf_map (keys : List Cbor) (l : List (Cbor × Cbor))
    (hp : keys.Pairwise (fun a b => lexLt (encode a) (encode b) = true))
    (hk : (l.map Prod.fst).Sublist keys) (hl : l.length < 18446744073709551616)
    (hw : ∀ e ∈ l, WF e.1 ∧ WF e.2) : WF (.map l) := by
  simp only [WF]
  exact ⟨hl, wfEntries_of_pairwise l none hw (hp.sublist hk) (by simp)⟩

theorem omitEmpty_keys (k : Int) (b : Bytes) :
    ((Fido.Cose.omitEmpty k b).map Prod.fst).Sublist [Cbor.int k] := by
  unfold Fido.Cose.omitEmpty; split <;> simp

theorem omitEmpty_length (k : Int) (b : Bytes) : (Fido.Cose.omitEmpty k b).length ≤ 1 := by
  unfold Fido.Cose.omitEmpty; split <;> simp

theorem omitEmpty_wf {k : Int} {b : Bytes} (hk : Int8Range k) (h : Short b) :
    ∀ e ∈ Fido.Cose.omitEmpty k b, WF e.1 ∧ WF e.2 := by
  unfold Fido.Cose.omitEmpty; split
  · simp
  · simp; exact ⟨wf_int8 hk, wf_bytes h⟩

open VF.Fido VF.Fido.Cose

theorem ec2Item_wf (k : EC2Key) (h1 : Int8Range k.kty) (h2 : Int8Range k.alg)
    (h3 : Int8Range k.crv) (hx : ∀ x ∈ k.x, Short x) (hy : ∀ x ∈ k.y, Short x) (hd : Short k.d) :
    WF (ec2Item k) := by
  apply wf_map [.int 1, .int 3, .int (-1), .int (-2), .int (-3), .int (-4)]
  · decide +kernel
  · simp only [List.map_append]
    exact List.Sublist.append (l₂ := [.int 1, .int 3, .int (-1), .int (-2), .int (-3)])
      (List.Sublist.refl _) (omitEmpty_keys _ _)
  · have := omitEmpty_length (-4) k.d; simp; omega
  · intro e he
    rw [List.mem_append] at he
    rcases he with he | he
    · simp only [List.mem_cons, List.not_mem_nil, or_false] at he
      rcases he with rfl | rfl | rfl | rfl | rfl
      · exact ⟨(by dsimp only; apply wf_int8; unfold Int8Range; decide), wf_int8 h1⟩
      · exact ⟨(by dsimp only; apply wf_int8; unfold Int8Range; decide), wf_int8 h2⟩
      · exact ⟨(by dsimp only; apply wf_int8; unfold Int8Range; decide), wf_int8 h3⟩
      · exact ⟨(by dsimp only; apply wf_int8; unfold Int8Range; decide), wf_bytesOrNull hx⟩
      · exact ⟨(by dsimp only; apply wf_int8; unfold Int8Range; decide), wf_bytesOrNull hy⟩
    · exact omitEmpty_wf (by unfold Int8Range; decide) hd e he

theorem okpItem_wf (k : OKPKey) (h1 : Int8Range k.kty) (h2 : Int8Range k.alg)
    (h3 : Int8Range k.crv) (hx : ∀ x ∈ k.x, Short x) (hd : Short k.d) :
    WF (okpItem k) := by
  apply wf_map [.int 1, .int 3, .int (-1), .int (-2), .int (-4)]
  · decide +kernel
  · simp only [List.map_append]
    exact List.Sublist.append (l₂ := [.int 1, .int 3, .int (-1), .int (-2)])
      (List.Sublist.refl _) (omitEmpty_keys _ _)
  · have := omitEmpty_length (-4) k.d; simp; omega
  · intro e he
    rw [List.mem_append] at he
    rcases he with he | he
    · simp only [List.mem_cons, List.not_mem_nil, or_false] at he
      rcases he with rfl | rfl | rfl | rfl
      · exact ⟨(by dsimp only; apply wf_int8; unfold Int8Range; decide), wf_int8 h1⟩
      · exact ⟨(by dsimp only; apply wf_int8; unfold Int8Range; decide), wf_int8 h2⟩
      · exact ⟨(by dsimp only; apply wf_int8; unfold Int8Range; decide), wf_int8 h3⟩
      · exact ⟨(by dsimp only; apply wf_int8; unfold Int8Range; decide), wf_bytesOrNull hx⟩
    · exact omitEmpty_wf (by unfold Int8Range; decide) hd e he

theorem rsaItem_wf (k : RSAKey) (h1 : Int8Range k.kty) (h2 : Int8Range k.alg)
    (hn : ∀ x ∈ k.n, Short x) (he' : ∀ x ∈ k.e, Short x) (hd : Short k.d) (hp : Short k.p)
    (hq : Short k.q) (hdp : Short k.dp) (hdq : Short k.dq) (hqi : Short k.qinv) :
    WF (rsaItem k) := by
  apply wf_map ([.int 1, .int 3, .int (-1), .int (-2)] ++ [.int (-3)] ++ [.int (-4)] ++
    [.int (-5)] ++ [.int (-6)] ++ [.int (-7)] ++ [.int (-8)])
  · decide +kernel
  · simp only [List.map_append]
    repeat' apply List.Sublist.append
    all_goals first | exact omitEmpty_keys _ _ | simp
  · have := omitEmpty_length (-3) k.d
    have := omitEmpty_length (-4) k.p
    have := omitEmpty_length (-5) k.q
    have := omitEmpty_length (-6) k.dp
    have := omitEmpty_length (-7) k.dq
    have := omitEmpty_length (-8) k.qinv
    simp; omega
  · intro e he
    simp only [List.mem_append] at he
    rcases he with (((((he | he) | he) | he) | he) | he) | he
    · simp only [List.mem_cons, List.not_mem_nil, or_false] at he
      rcases he with rfl | rfl | rfl | rfl
      · exact ⟨(by dsimp only; apply wf_int8; unfold Int8Range; decide), wf_int8 h1⟩
      · exact ⟨(by dsimp only; apply wf_int8; unfold Int8Range; decide), wf_int8 h2⟩
      · exact ⟨(by dsimp only; apply wf_int8; unfold Int8Range; decide), wf_bytesOrNull hn⟩
      · exact ⟨(by dsimp only; apply wf_int8; unfold Int8Range; decide), wf_bytesOrNull he'⟩
    · exact omitEmpty_wf (by unfold Int8Range; decide) hd e he
    · exact omitEmpty_wf (by unfold Int8Range; decide) hp e he
    · exact omitEmpty_wf (by unfold Int8Range; decide) hq e he
    · exact omitEmpty_wf (by unfold Int8Range; decide) hdp e he
    · exact omitEmpty_wf (by unfold Int8Range; decide) hdq e he
    · exact omitEmpty_wf (by unfold Int8Range; decide) hqi e he

end VF.Cbor
