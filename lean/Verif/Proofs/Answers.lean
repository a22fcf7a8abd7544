import Verif.Spec.Ctap
import Verif.Proofs.Items
import Verif.Proofs.CtapCases
import Verif.Proofs.Util

/-!
# The answers can be read
-/

namespace VF.Fido.Ctap

open VF.Cbor VF.Items VF.Spec.Ctap

local macro "small_int" : term =>
  `(by dsimp only; apply wf_int8; unfold Int8Range; decide)

theorem wf_entries (keys : List Cbor) (l : List (Cbor × Cbor))
    (hp : keys.Pairwise (fun a b => Spec.Cbor.lexLt (encode a) (encode b) = true))
    (hk : l.map Prod.fst = keys) (hl : l.length < 1000)
    (hw : ∀ e ∈ l, WF e.1 ∧ WF e.2) : WF (.map l) :=
  wf_map keys l hp (by rw [hk]; exact List.Sublist.refl _) (by omega) hw

theorem makeCredentialItem_wf {authData sig cert : Bytes} (h1 : Short authData) (h2 : Short sig)
    (h3 : Short cert) : WF (makeCredentialItem authData sig cert) := by
  apply wf_entries [.int 1, .int 2, .int 3] _ (by decide +kernel) rfl (by simp)
  intro e he
  simp only [List.mem_cons, List.not_mem_nil, or_false] at he
  rcases he with rfl | rfl | rfl
  · exact ⟨small_int, wf_str _ (by decide)⟩
  · exact ⟨small_int, wf_bytes h1⟩
  · refine ⟨small_int, ?_⟩
    apply wf_entries [.str "alg", .str "sig", .str "x5c"] _ (by decide +kernel) rfl (by simp)
    intro e he
    simp only [List.mem_cons, List.not_mem_nil, or_false] at he
    rcases he with rfl | rfl | rfl
    · exact ⟨wf_str _ (by decide), small_int⟩
    · exact ⟨wf_str _ (by decide), wf_bytes h2⟩
    · exact ⟨wf_str _ (by decide), by unfold Short at h3; simpa [WF, WFItems] using h3⟩

theorem getAssertionItem_wf {id authData sig : Bytes} (h1 : Short id) (h2 : Short authData)
    (h3 : Short sig) : WF (getAssertionItem id authData sig) := by
  apply wf_entries [.int 1, .int 2, .int 3] _ (by decide +kernel) rfl (by simp)
  intro e he
  simp only [List.mem_cons, List.not_mem_nil, or_false] at he
  rcases he with rfl | rfl | rfl
  · refine ⟨small_int, ?_⟩
    apply wf_entries [.str "id", .str "type"] _ (by decide +kernel) rfl (by simp)
    intro e he
    simp only [List.mem_cons, List.not_mem_nil, or_false] at he
    rcases he with rfl | rfl
    · exact ⟨wf_str _ (by decide), wf_bytes h1⟩
    · exact ⟨wf_str _ (by decide), wf_str _ (by decide)⟩
  · exact ⟨small_int, wf_bytes h2⟩
  · exact ⟨small_int, wf_bytes h3⟩

theorem getInfoItem_wf (p : Option Bool) : WF (getInfoItem p) := by
  have a1 : WF (.array [.str "FIDO_2_0", .str "U2F_V2"]) := by
    have e1 := wf_str "FIDO_2_0" (by decide)
    have e2 := wf_str "U2F_V2" (by decide)
    simp only [WF, WFItems]
    exact ⟨by decide, e1, e2, trivial⟩
  have a2 : WF (.bytes aaguid) := by simp [WF, aaguid]
  cases p with
  | none =>
    apply wf_entries [.int 1, .int 3, .int 4] _ (by decide +kernel) rfl (by simp)
    intro e he
    simp only [List.append_nil, List.mem_cons, List.not_mem_nil, or_false] at he
    rcases he with rfl | rfl | rfl
    · exact ⟨small_int, a1⟩
    · exact ⟨small_int, a2⟩
    · refine ⟨small_int, ?_⟩
      apply wf_entries [.str "rk", .str "up", .str "plat"] _ (by decide +kernel) rfl (by simp)
      intro e he
      simp only [List.mem_cons, List.not_mem_nil, or_false] at he
      rcases he with rfl | rfl | rfl <;> exact ⟨wf_str _ (by decide), by simp [WF]⟩
  | some b =>
    apply wf_entries [.int 1, .int 3, .int 4, .int 6] _ (by decide +kernel) rfl (by simp)
    intro e he
    simp only [List.cons_append, List.nil_append, List.mem_cons, List.not_mem_nil, or_false] at he
    rcases he with rfl | rfl | rfl | rfl
    · exact ⟨small_int, a1⟩
    · exact ⟨small_int, a2⟩
    · refine ⟨small_int, ?_⟩
      apply wf_entries [.str "rk", .str "up", .str "plat", .str "clientPin"] _ (by decide +kernel)
        rfl (by simp)
      intro e he
      simp only [List.mem_cons, List.not_mem_nil, or_false] at he
      rcases he with rfl | rfl | rfl | rfl <;> exact ⟨wf_str _ (by decide), by simp [WF]⟩
    · refine ⟨small_int, ?_⟩
      have : WF (.int 1) := wf_int8 (by unfold Int8Range; decide)
      simp only [WF, WFItems]
      exact ⟨by decide, this, trivial⟩

theorem retriesItem_wf (n : UInt8) : WF (retriesItem n) := by
  apply wf_entries [.int 3] _ (by decide +kernel) rfl (by simp)
  intro e he
  simp only [List.mem_cons, List.not_mem_nil, or_false] at he
  subst he
  refine ⟨small_int, ?_⟩
  have := n.toNat_lt
  simp only [WF]; omega

theorem pinTokenItem_wf {t : Bytes} (h : Short t) : WF (pinTokenItem t) := by
  unfold pinTokenItem
  split
  · simp [WF, WFEntries]
  · apply wf_entries [.int 2] _ (by decide +kernel) rfl (by simp)
    intro e he
    simp only [List.mem_cons, List.not_mem_nil, or_false] at he
    subst he
    exact ⟨small_int, wf_bytes h⟩

theorem keyAgreementItem_wf {k : EC2Key} (h : WF (Cose.ec2Item k)) : WF (keyAgreementItem k) := by
  apply wf_entries [.int 1] _ (by decide +kernel) rfl (by simp)
  intro e he
  simp only [List.mem_cons, List.not_mem_nil, or_false] at he
  subst he
  exact ⟨small_int, h⟩

theorem makeCredentialItem_length (authData sig cert : Bytes) :
    authData.length + sig.length + cert.length ≤
      (encode (makeCredentialItem authData sig cert)).length := by
  simp only [makeCredentialItem, encode, encodeEntries, encodeItems, List.length_append]
  omega

theorem getAssertionItem_length (id authData sig : Bytes) :
    id.length + authData.length + sig.length ≤
      (encode (getAssertionItem id authData sig)).length := by
  simp only [getAssertionItem, encode, encodeEntries, encodeItems, List.length_append]
  omega

theorem pinTokenItem_length (t : Bytes) : t.length ≤ (encode (pinTokenItem t)).length := by
  unfold pinTokenItem
  split
  · rename_i h; simp at h; simp [h]
  · simp only [encode, encodeEntries, List.length_append]; omega

theorem success_of_wf {item : Cbor} (h : WF item) : Success (0 :: encode item) item :=
  ⟨_, rfl, decode_encode _ h⟩

/-! ### Authenticator data -/

theorem beNat_be32 (n : UInt32) : Spec.Cbor.beNat (be32 n) = n.toNat := by
  have := n.toNat_lt
  simp only [be32, Spec.Cbor.beNat, List.foldl]
  simp
  omega

theorem beNat_be16 (n : UInt16) : Spec.Cbor.beNat (be16 n) = n.toNat := by
  have := n.toNat_lt
  simp only [be16, Spec.Cbor.beNat, List.foldl]
  simp
  omega

theorem parse_layout (h rest : Bytes) (flags : UInt8) (n : UInt32) (hh : h.length = 32) :
    parseAuthData (h ++ [flags] ++ be32 n ++ rest) = some
      { rpIdHash := h
        userPresent := bit flags 0
        userVerified := bit flags 2
        attestedData := bit flags 6
        otherFlags := bit flags 1 || bit flags 3 || bit flags 4 || bit flags 5 || bit flags 7
        counter := n.toNat
        rest := rest } := by
  have e : (h ++ [flags] ++ be32 n ++ rest).drop 32 = flags :: (be32 n ++ rest) := by
    simp [← hh]
  have l4 : (be32 n).length = 4 := rfl
  unfold parseAuthData
  rw [e]
  simp only [List.length_append, l4]
  rw [if_neg (by omega)]
  congr 2
  · simp [← hh]
  · rw [List.take_left' l4, beNat_be32]

theorem parse_attested (aaguid id key : Bytes) (h1 : aaguid.length = 16)
    (h2 : id.length < 65536) :
    parseAttested (aaguid ++ be16 (UInt16.ofNat id.length) ++ id ++ key) =
      some { aaguid := aaguid, id := id, key := key } := by
  have l2 : (be16 (UInt16.ofNat id.length)).length = 2 := rfl
  have en : Spec.Cbor.beNat
      (((aaguid ++ be16 (UInt16.ofNat id.length) ++ id ++ key).drop 16).take 2) = id.length := by
    have : (aaguid ++ be16 (UInt16.ofNat id.length) ++ id ++ key).drop 16 =
        be16 (UInt16.ofNat id.length) ++ (id ++ key) := by simp [← h1]
    rw [this, List.take_left' l2, beNat_be16]
    simp; omega
  unfold parseAttested
  rw [en]
  simp only [List.length_append, h1, l2]
  rw [if_neg (by omega), if_neg (by omega)]
  have d18 : (aaguid ++ be16 (UInt16.ofNat id.length) ++ id ++ key).drop 18 = id ++ key := by
    rw [List.append_assoc]
    exact List.drop_left' (by simp [h1, l2])
  congr 2
  · simp [← h1]
  · rw [d18]; simp
  · rw [show 18 + id.length = 18 + id.length from rfl, ← List.drop_drop, d18]; simp

end VF.Fido.Ctap
