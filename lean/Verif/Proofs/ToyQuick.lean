import Verif.Proofs.ToyHistory

/-!
# The toy environment, computably

Some functions of the toy environment are inverses of encoders, or ask whether a key is short, and cannot be computed.
`quick` answers the requests of the examples by table, and is the same environment.
-/

namespace VF.Toy

open VF.Fido VF.Fido.Device VF.Cbor VF.Spec.Platform

instance : DecidablePred CertFits := fun x =>
  inferInstanceAs (Decidable ((serPub x.1).length < 2147483647 ∧ (serPub x.2.1).length < 2147483647))

noncomputable def kindQuick (t : CertTemplate) (p : Option Bytes) : Option Bool :=
  if t.isCA then some false else if p = some cert then some true else kindOf t p

theorem certInv_cert : (certInv cert).map (·.2.2) = some (some false) := by
  have hv := (toy_laws (fun _ _ _ _ => true)).genEC_valid 0
  have hf := fits_ec _ (Vault.ecValid_bounds (toy_laws _) hv).2.1 (Vault.ecValid_bounds (toy_laws _) hv).2.2.1
  have : certInv cert = some _ := certInv_certOf ⟨hf, hf⟩
  rw [this]; rfl

theorem kindQuick_eq (t : CertTemplate) (p : Option Bytes) : kindQuick t p = kindOf t p := by
  unfold kindQuick
  split
  · rw [kindOf, if_pos (by assumption)]
  · split
    · rename_i h1 h2
      subst h2
      obtain ⟨⟨a, b, k⟩, hc, hk⟩ := Option.map_eq_some_iff.mp certInv_cert
      obtain rfl : k = some false := hk
      rw [kindOf, if_neg h1, Option.bind_some, hc]
    · rfl

/-- An attestation certificate for the `i`-th key, made by the authority. -/
noncomputable def leaf (i : Nat) : Bytes :=
  certOf ({ ecdsa := some ((toy (fun _ _ _ _ => true)).genEC i).pub },
    { ecdsa := some ((toy (fun _ _ _ _ => true)).genEC 0).pub }, some true)

theorem certInv_leaf (i : Nat) : (certInv (leaf i)).isSome = true := by
  have hv := (toy_laws (fun _ _ _ _ => true)).genEC_valid 0
  have hf := fits_ec _ (Vault.ecValid_bounds (toy_laws _) hv).2.1 (Vault.ecValid_bounds (toy_laws _) hv).2.2.1
  have hv' := (toy_laws (fun _ _ _ _ => true)).genEC_valid i
  have hf' := fits_ec _ (Vault.ecValid_bounds (toy_laws _) hv').2.1 (Vault.ecValid_bounds (toy_laws _) hv').2.2.1
  have : certInv (leaf i) = some _ := certInv_certOf ⟨hf', hf⟩
  rw [this]; rfl

/-- A descriptor of the first credential that a new device creates. -/
def made : Descriptor := { type := ascii "public-key", id := List.replicate 16 2, transports := [] }

theorem made_decodes (ap : List Ask → Action → Bytes → Bytes → Bool) :
    (toy ap).decodeGetAssertion (getData (some [made]) none none) = some (getArgs (some [made]) none none) := by
  apply (toy_laws ap).decode_getAssertion
  refine ⟨⟨utf8_ascii_example.1, short_of_small (by dsimp only [getArgs]; decide +kernel)⟩,
    short_of_small (by dsimp only [getArgs]; decide), ?_, by simp [getArgs]⟩
  intro l hl
  obtain rfl : [made] = l := by simpa [getArgs] using hl
  refine ⟨?_, by simp⟩
  intro d hd
  obtain rfl : d = made := by simpa using hd
  exact ⟨short_of_small (by decide), text_publicKey, by simp [made], by simp [made]⟩

/-! The handle that a new device makes in a first registration with this application. -/

def application : Bytes := List.replicate 32 5

noncomputable def plainHandle : KeyHandle :=
  { privateKey := some (ecToDER ((toy (fun _ _ _ _ => true)).genEC 2)), applicationID := application }

noncomputable def box : Box :=
  { data := (toy (fun _ _ _ _ => true)).gcmSeal (List.replicate 32 9) (List.replicate 12 3) (encode (U2f.keyHandleItem plainHandle))
    iv := List.replicate 12 3 }

noncomputable def handle : Bytes := encode (U2f.boxItem box)

theorem box_decodes (ap : List Ask → Action → Bytes → Bytes → Bool) : (toy ap).decodeBox handle = some box :=
  (toy_laws ap).decode_box _ (short_of_small (by decide +kernel)) (short_of_small (by decide +kernel))

theorem plainHandle_decodes (ap : List Ask → Action → Bytes → Bytes → Bool) :
    (toy ap).decodeKeyHandle (encode (U2f.keyHandleItem plainHandle)) = some plainHandle :=
  (toy_laws ap).decode_keyHandle _ (by
    intro b hb
    obtain rfl := Option.some.inj hb
    exact short_of_small (by decide +kernel)) (short_of_small (by decide +kernel))

noncomputable def quick (ap : List Ask → Action → Bytes → Bytes → Bool) : Env :=
  { toy ap with
    createCert := fun t p sub issuer _ =>
      match Cose.publicOf issuer with
      | .ok pub => if CertFits (sub, pub, kindQuick t p) then some (certOf (sub, pub, kindQuick t p)) else none
      | .panic _ => none
    parseECDER := fun b => if b = ecToDER ((toy ap).genEC 2) then some ((toy ap).genEC 2) else (toy ap).parseECDER b
    decodeBox := fun b => if b = handle then some box else (toy ap).decodeBox b
    decodeKeyHandle := fun b => if b = encode (U2f.keyHandleItem plainHandle) then some plainHandle else (toy ap).decodeKeyHandle b
    parseCert := fun c => if c = cert ∨ c ∈ (List.range 16).map leaf then true else (toy ap).parseCert c
    decodeMakeCred := fun b => if b = makeData [] none then some (makeArgs [] none) else (toy ap).decodeMakeCred b
    decodeGetAssertion := fun b => if b = getData none none none then some (getArgs none none none)
      else if b = getData (some [made]) none none then some (getArgs (some [made]) none none) else (toy ap).decodeGetAssertion b }

theorem quick_eq (ap : List Ask → Action → Bytes → Bytes → Bool) : quick ap = toy ap := by
  have h1 : (quick ap).createCert = (toy ap).createCert := by
    funext t p sub issuer i
    show (match Cose.publicOf issuer with | .ok pub => _ | .panic _ => _) = (match Cose.publicOf issuer with | .ok pub => _ | .panic _ => _)
    cases Cose.publicOf issuer with
    | ok pub =>
      dsimp only
      rw [kindQuick_eq]
      split <;> rfl
    | panic _ => rfl
  have h2 : (quick ap).decodeMakeCred = (toy ap).decodeMakeCred := by
    funext b
    show (if _ then _ else _) = _
    split
    · rename_i h; rw [h]; exact (make_decodes ap [] none (.inl rfl) (by simp)).symm
    · rfl
  have h3 : (quick ap).decodeGetAssertion = (toy ap).decodeGetAssertion := by
    funext b
    show (if _ then _ else _) = _
    split
    · rename_i h; rw [h]; exact (get_decodes ap none none none (.inl rfl) (by simp)).symm
    · split
      · rename_i h; rw [h]; exact (made_decodes ap).symm
      · rfl
  have h4 : (quick ap).parseCert = (toy ap).parseCert := by
    funext c
    show (if _ then _ else _) = _
    split
    · rename_i h
      rcases h with h | h
      · obtain ⟨x, hc, -⟩ := Option.map_eq_some_iff.mp certInv_cert
        rw [h]
        show true = (certInv cert).isSome
        rw [hc]; rfl
      · obtain ⟨i, -, rfl⟩ := List.mem_map.1 h
        exact (certInv_leaf i).symm
    · rfl
  have h5 : (quick ap).parseECDER = (toy ap).parseECDER := by
    funext b
    show (if _ then _ else _) = _
    split
    · rename_i h; rw [h]; exact ((toy_laws ap).parseECDER_toDER _ ((toy_laws ap).genEC_valid 2)).symm
    · rfl
  have h6 : (quick ap).decodeBox = (toy ap).decodeBox := by
    funext b
    show (if _ then _ else _) = _
    split
    · rename_i h; rw [h]; exact (box_decodes ap).symm
    · rfl
  have h7 : (quick ap).decodeKeyHandle = (toy ap).decodeKeyHandle := by
    funext b
    show (if _ then _ else _) = _
    split
    · rename_i h; rw [h]; exact (plainHandle_decodes ap).symm
    · rfl
  show Env.mk .. = _
  simp only [quick] at h1 h2 h3 h4 h5 h6 h7
  rw [h1, h2, h3, h4, h5, h6, h7]

end VF.Toy
