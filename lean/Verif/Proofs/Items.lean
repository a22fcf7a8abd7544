import Verif.Proofs.CborWF

/-!
# The data items determine what they encode
-/

namespace VF.Items

open VF.Cbor VF.Fido VF.Spec.Platform
open VF.Spec.Cbor (lexLt)

/-- Is the item the given integer? -/
def isInt (i : Int) : Cbor → Bool
  | .uint n => i == (n : Int)
  | .nint n => i == -1 - (n : Int)
  | _ => false

theorem isInt_int (i j : Int) : isInt i (.int j) = (i == j) := by
  cases j with
  | ofNat n => simp [isInt, Cbor.int]
  | negSucc n => simp only [isInt, Cbor.int]; congr 1; omega

theorem int_inj {i j : Int} (h : Cbor.int i = Cbor.int j) : i = j := by
  have := isInt_int i i
  rw [h, isInt_int] at this
  simpa using this

/-- The value of an integer key. -/
def get (i : Int) : List (Cbor × Cbor) → Option Cbor
  | [] => none
  | (k, v) :: l => if isInt i k then some v else get i l

theorem get_nil (i : Int) : get i [] = none := rfl

theorem get_cons (i j : Int) (v : Cbor) (l : List (Cbor × Cbor)) :
    get i ((.int j, v) :: l) = if i = j then some v else get i l := by
  simp [get, isInt_int]

theorem get_opt (i j : Int) (v : Option Cbor) (l : List (Cbor × Cbor)) :
    get i (opt j v ++ l) = if i = j then v.or (get i l) else get i l := by
  cases v <;> simp [opt, get_cons]

theorem get_opt_nil (i j : Int) (v : Option Cbor) :
    get i (opt j v) = if i = j then v else none := by
  cases v <;> simp [opt, get_cons, get_nil]

theorem omitEmpty_eq (k : Int) (b : Bytes) : Cose.omitEmpty k b = opt k (someBytes b) := by
  simp only [Cose.omitEmpty, someBytes]; split <;> rfl

theorem map_inj {l m : List (Cbor × Cbor)} (h : Cbor.map l = Cbor.map m) (i : Int) :
    get i l = get i m := by
  injection h with h; rw [h]

theorem optMap_inj {α : Type} {f : α → Cbor} (hf : ∀ a b, f a = f b → a = b) {x y : Option α}
    (h : x.map f = y.map f) : x = y := by
  cases x <;> cases y <;> simp_all
  exact hf _ _ h

theorem bytes_inj (a b : Bytes) (h : Cbor.bytes a = Cbor.bytes b) : a = b := by
  injection h
theorem text_inj (a b : Bytes) (h : Cbor.text a = Cbor.text b) : a = b := by
  injection h

theorem list_inj {α : Type} {f : α → Cbor} (hf : ∀ a b, f a = f b → a = b) {x y : List α}
    (h : x.map f = y.map f) : x = y := by
  induction x generalizing y with
  | nil => cases y <;> simp_all
  | cons a x ih =>
    cases y with
    | nil => simp at h
    | cons b y =>
      simp only [List.map_cons, List.cons.injEq] at h
      rw [hf _ _ h.1, ih h.2]

theorem someBytes_inj {a b : Bytes} (h : someBytes a = someBytes b) : a = b := by
  simp only [someBytes] at h
  split at h <;> split at h <;> simp_all

theorem nonZero_inj {a b : UInt32} (h : nonZero a = nonZero b) : a = b := by
  simp only [nonZero] at h
  split at h <;> split at h <;> simp_all
  exact UInt32.toNat_inj.1 h

theorem nonEmpty_inj {a b : List Cbor} (h : nonEmpty a = nonEmpty b) : a = b := by
  cases a <;> cases b <;> simp_all [nonEmpty]

theorem bytesOrNull_inj {a b : Option Bytes} (h : Cose.bytesOrNull a = Cose.bytesOrNull b) :
    a = b := by
  cases a <;> cases b <;> simp_all [Cose.bytesOrNull]

/-! ### Keys -/

theorem coseEC2_inj {a b : EC2Key} (h : Cose.ec2Item a = Cose.ec2Item b) : a = b := by
  have g := map_inj h
  simp only [omitEmpty_eq] at g
  have g1 := g 1
  have g2 := g 3
  have g3 := g (-1)
  have g4 := g (-2)
  have g5 := g (-3)
  have g6 := g (-4)
  simp [get_cons, get_opt_nil] at g1 g2 g3 g4 g5 g6
  cases a; cases b
  simp at *
  exact ⟨int_inj g1, int_inj g2, int_inj g3, bytesOrNull_inj g4, bytesOrNull_inj g5,
    someBytes_inj g6⟩

theorem coseOKP_inj {a b : OKPKey} (h : Cose.okpItem a = Cose.okpItem b) : a = b := by
  have g := map_inj h
  simp only [omitEmpty_eq] at g
  have g1 := g 1
  have g2 := g 3
  have g3 := g (-1)
  have g4 := g (-2)
  have g6 := g (-4)
  simp [get_cons, get_opt_nil] at g1 g2 g3 g4 g6
  cases a; cases b
  simp at *
  exact ⟨int_inj g1, int_inj g2, int_inj g3, bytesOrNull_inj g4, someBytes_inj g6⟩

theorem coseRSA_inj {a b : RSAKey} (h : Cose.rsaItem a = Cose.rsaItem b) : a = b := by
  have g := map_inj h
  simp only [omitEmpty_eq] at g
  have g1 := g 1
  have g2 := g 3
  have g3 := g (-1)
  have g4 := g (-2)
  have g5 := g (-3)
  have g6 := g (-4)
  have g7 := g (-5)
  have g8 := g (-6)
  have g9 := g (-7)
  have g10 := g (-8)
  simp [get_cons, get_opt_nil, get_opt] at g1 g2 g3 g4 g5 g6 g7 g8 g9 g10
  cases a; cases b
  simp at *
  exact ⟨int_inj g1, int_inj g2, bytesOrNull_inj g3, bytesOrNull_inj g4, someBytes_inj g5,
    someBytes_inj g6, someBytes_inj g7, someBytes_inj g8, someBytes_inj g9, someBytes_inj g10⟩

theorem ec2_inj (a b : EC2Key) (h : ec2Item a = ec2Item b) : a = b := by
  have g := map_inj h
  have g1 := g 1
  have g2 := g 3
  have g3 := g (-1)
  have g4 := g (-2)
  have g5 := g (-3)
  have g6 := g (-4)
  simp [get_cons, get_opt_nil, get_opt] at g1 g2 g3 g4 g5 g6
  cases a; cases b
  simp at *
  exact ⟨int_inj g1, int_inj g2, int_inj g3, optMap_inj bytes_inj g4, optMap_inj bytes_inj g5,
    someBytes_inj g6⟩

/-! ### Requests -/

theorem clientPIN_inj {a b : ClientPINArgs} (h : clientPINItem a = clientPINItem b) : a = b := by
  have g := map_inj h
  have g1 := g 1
  have g2 := g 2
  have g3 := g 3
  have g4 := g 4
  have g5 := g 5
  have g6 := g 6
  simp [get_cons, get_opt_nil, get_opt] at g1 g2 g3 g4 g5 g6
  cases a; cases b
  simp at *
  exact ⟨UInt32.toNat_inj.1 g1, UInt32.toNat_inj.1 g2, optMap_inj ec2_inj g3,
    optMap_inj bytes_inj g4, optMap_inj bytes_inj g5, optMap_inj bytes_inj g6⟩

theorem rp_inj (a b : RPEntity) (h : rpItem a = rpItem b) : a = b := by
  cases a; cases b; simp_all [rpItem]

theorem user_inj (a b : UserEntity) (h : userItem a = userItem b) : a = b := by
  cases a; cases b; simp_all [userItem]

theorem param_inj (a b : CredParam) (h : paramItem a = paramItem b) : a = b := by
  cases a; cases b; simp [paramItem] at h ⊢; exact ⟨h.2, int_inj h.1⟩

theorem descriptor_inj (a b : Descriptor) (h : descriptorItem a = descriptorItem b) : a = b := by
  rcases a with ⟨t1, i1, l1⟩
  rcases b with ⟨t2, i2, l2⟩
  cases l1 <;> cases l2 <;> simp [descriptorItem] at h ⊢
  · exact ⟨h.2, h.1⟩
  · exact ⟨h.2.1, h.1, h.2.2.1, list_inj text_inj h.2.2.2⟩

theorem makeCred_inj {a b : MakeCredArgs} (h : makeCredItem a = makeCredItem b) : a = b := by
  have g := map_inj h
  have g1 := g 1
  have g2 := g 2
  have g3 := g 3
  have g4 := g 4
  have g5 := g 5
  have g8 := g 8
  have g9 := g 9
  simp [get_cons, get_opt_nil, get_opt] at g1 g2 g3 g4 g5 g8 g9
  cases a; cases b
  simp at *
  exact ⟨g1, optMap_inj rp_inj g2, optMap_inj user_inj g3, list_inj param_inj g4,
    list_inj descriptor_inj (nonEmpty_inj g5), optMap_inj bytes_inj g8, nonZero_inj g9⟩

theorem getAssertion_inj {a b : GetAssertionArgs} (h : getAssertionItem a = getAssertionItem b) :
    a = b := by
  have g := map_inj h
  have g1 := g 1
  have g2 := g 2
  have g3 := g 3
  have g5 := g 5
  have g6 := g 6
  have g7 := g 7
  simp [get_cons, get_opt_nil, get_opt] at g1 g2 g3 g5 g6 g7
  cases a; cases b
  simp at *
  exact ⟨g1, g2, optMap_inj (fun x y e => by injection e with e; exact list_inj descriptor_inj e) g3,
    optMap_inj (by simp) g5, optMap_inj bytes_inj g6, nonZero_inj g7⟩

/-! ### Well-formedness of requests -/

theorem opt_keys (k : Int) (v : Option Cbor) : ((opt k v).map Prod.fst).Sublist [Cbor.int k] := by
  cases v <;> simp [opt]

theorem opt_length (k : Int) (v : Option Cbor) : (opt k v).length ≤ 1 := by
  cases v <;> simp [opt]

theorem opt_wf {k : Int} {v : Option Cbor} (hk : Int8Range k) (h : ∀ x ∈ v, WF x) :
    ∀ e ∈ opt k v, WF e.1 ∧ WF e.2 := by
  cases v with
  | none => simp [opt]
  | some v => simp [opt]; exact ⟨wf_int8 hk, h v rfl⟩

theorem wf_optMap {α : Type} {f : α → Cbor} {x : Option α} (h : ∀ a ∈ x, WF (f a)) :
    ∀ y ∈ x.map f, WF y := by
  cases x <;> simp_all

theorem wf_optBytes {x : Option Bytes} (h : ∀ a ∈ x, Short a) : ∀ y ∈ x.map Cbor.bytes, WF y :=
  wf_optMap (fun a ha => wf_bytes (h a ha))

theorem wf_someBytes {b : Bytes} (h : Short b) : ∀ y ∈ someBytes b, WF y := by
  simp only [someBytes]; split <;> simp
  exact wf_bytes h

theorem wfItems_map {α : Type} {f : α → Cbor} : ∀ (l : List α), (∀ a ∈ l, WF (f a)) →
    WFItems (l.map f)
  | [], _ => by simp [WFItems]
  | a :: l, h => by
    simp only [List.map_cons, WFItems]
    exact ⟨h a (by simp), wfItems_map l (fun b hb => h b (by simp [hb]))⟩

theorem wf_array {α : Type} {f : α → Cbor} {l : List α} (hl : l.length ≤ 131072)
    (h : ∀ a ∈ l, WF (f a)) : WF (.array (l.map f)) := by
  simp only [WF, List.length_map]
  exact ⟨by omega, wfItems_map l h⟩

theorem wf_nonEmpty {α : Type} {f : α → Cbor} {l : List α} (hl : l.length ≤ 131072)
    (h : ∀ a ∈ l, WF (f a)) : ∀ y ∈ nonEmpty (l.map f), WF y := by
  have := wf_array hl h
  cases l <;> simp_all [nonEmpty]

theorem wf_nonZero (n : UInt32) : ∀ y ∈ nonZero n, WF y := by
  have := n.toNat_lt
  simp only [nonZero]; split <;> simp [WF]
  omega

macro "i8" : tactic => `(tactic| (unfold Int8Range; decide))

theorem ec2_wf (k : EC2Key) (h : EC2Fits k) : WF (ec2Item k) := by
  obtain ⟨h1, h2, h3, hx, hy, hd⟩ := h
  apply wf_map ([.int 1, .int 3, .int (-1)] ++ [.int (-2)] ++ [.int (-3)] ++ [.int (-4)])
  · decide +kernel
  · simp only [List.map_append]
    repeat' apply List.Sublist.append
    all_goals first | exact opt_keys _ _ | simp
  · have := opt_length (-2) (k.x.map .bytes)
    have := opt_length (-3) (k.y.map .bytes)
    have := opt_length (-4) (someBytes k.d)
    simp; omega
  · intro e he
    simp only [List.mem_append] at he
    rcases he with ((he | he) | he) | he
    · simp only [List.mem_cons, List.not_mem_nil, or_false] at he
      rcases he with rfl | rfl | rfl
      · exact ⟨(by dsimp only; apply wf_int8; i8), wf_int8 h1⟩
      · exact ⟨(by dsimp only; apply wf_int8; i8), wf_int8 h2⟩
      · exact ⟨(by dsimp only; apply wf_int8; i8), wf_int8 h3⟩
    · exact opt_wf (by i8) (wf_optBytes hx) e he
    · exact opt_wf (by i8) (wf_optBytes hy) e he
    · exact opt_wf (by i8) (wf_someBytes hd) e he

theorem clientPIN_wf (a : ClientPINArgs) (h : ClientPINFits a) : WF (clientPINItem a) := by
  obtain ⟨h1, h2, h3, h4⟩ := h
  apply wf_map ([.int 1, .int 2] ++ [.int 3] ++ [.int 4] ++ [.int 5] ++ [.int 6])
  · decide +kernel
  · simp only [List.map_append]
    repeat' apply List.Sublist.append
    all_goals first | exact opt_keys _ _ | simp
  · have := opt_length 3 (a.keyAgreement.map ec2Item)
    have := opt_length 4 (a.pinAuth.map .bytes)
    have := opt_length 5 (a.newPinEnc.map .bytes)
    have := opt_length 6 (a.pinHashEnc.map .bytes)
    simp; omega
  · intro e he
    simp only [List.mem_append] at he
    rcases he with (((he | he) | he) | he) | he
    · have := a.pinProtocol.toNat_lt
      have := a.subCommand.toNat_lt
      simp only [List.mem_cons, List.not_mem_nil, or_false] at he
      rcases he with rfl | rfl
      · exact ⟨(by dsimp only; apply wf_int8; i8), by simp only [WF]; omega⟩
      · exact ⟨(by dsimp only; apply wf_int8; i8), by simp only [WF]; omega⟩
    · exact opt_wf (by i8) (wf_optMap (fun k hk => ec2_wf k (h1 k hk))) e he
    · exact opt_wf (by i8) (wf_optBytes h2) e he
    · exact opt_wf (by i8) (wf_optBytes h3) e he
    · exact opt_wf (by i8) (wf_optBytes h4) e he

theorem wf_str (s : String) (h : (ascii s).length < 1000) : WF (.str s) := by
  simp only [Cbor.str, WF]; omega

theorem rp_wf (r : RPEntity) (h : RPFits r) : WF (rpItem r) := by
  apply wf_map [.str "id", .str "name"]
  · decide +kernel
  · simp
  · simp
  · intro e he
    simp only [List.mem_cons, List.not_mem_nil, or_false] at he
    rcases he with rfl | rfl
    · exact ⟨wf_str _ (by decide), wf_text h.1.2⟩
    · exact ⟨wf_str _ (by decide), wf_text h.2.2⟩

theorem user_wf (u : UserEntity) (h : UserFits u) : WF (userItem u) := by
  apply wf_map [.str "id", .str "name", .str "displayName"]
  · decide +kernel
  · simp
  · simp
  · intro e he
    simp only [List.mem_cons, List.not_mem_nil, or_false] at he
    rcases he with rfl | rfl | rfl
    · exact ⟨wf_str _ (by decide), wf_bytes h.1⟩
    · exact ⟨wf_str _ (by decide), wf_text h.2.1.2⟩
    · exact ⟨wf_str _ (by decide), wf_text h.2.2.2⟩

theorem param_wf (p : CredParam) (h : ParamFits p) : WF (paramItem p) := by
  obtain ⟨⟨h1, h2⟩, h3⟩ := h
  apply wf_map [.str "alg", .str "type"]
  · decide +kernel
  · simp
  · simp
  · intro e he
    simp only [List.mem_cons, List.not_mem_nil, or_false] at he
    rcases he with rfl | rfl
    · exact ⟨wf_str _ (by decide), wf_int _ (by omega) (by omega)⟩
    · exact ⟨wf_str _ (by decide), wf_text h3.2⟩

theorem descriptor_wf (d : Descriptor) (h : DescriptorFits d) : WF (descriptorItem d) := by
  obtain ⟨h1, h2, h3, h4⟩ := h
  rcases d with ⟨t, i, l⟩
  apply wf_map [.str "id", .str "type", .str "transports"]
  · decide +kernel
  · cases l <;> simp
  · cases l <;> simp
  · intro e he
    simp only [List.mem_append, List.mem_cons, List.not_mem_nil, or_false] at he
    rcases he with (rfl | rfl) | he
    · exact ⟨wf_str _ (by decide), wf_bytes h1⟩
    · exact ⟨wf_str _ (by decide), wf_text h2.2⟩
    · cases l with
      | nil => simp at he
      | cons x l =>
        simp only [List.mem_cons, List.not_mem_nil, or_false] at he
        subst he
        exact ⟨wf_str _ (by decide), wf_array h4 (fun a ha => wf_text (h3 a ha).2)⟩

theorem makeCred_wf (a : MakeCredArgs) (h : MakeCredFits a) : WF (makeCredItem a) := by
  obtain ⟨h1, h2, h3, h4, h5, h6, h7, h8⟩ := h
  apply wf_map ([.int 1] ++ [.int 2] ++ [.int 3] ++ [.int 4] ++ [.int 5] ++ [.int 8] ++ [.int 9])
  · decide +kernel
  · simp only [List.map_append]
    repeat' apply List.Sublist.append
    all_goals first | exact opt_keys _ _ | simp
  · have := opt_length 2 (a.rp.map rpItem)
    have := opt_length 3 (a.user.map userItem)
    have := opt_length 5 (nonEmpty (a.excludeList.map descriptorItem))
    have := opt_length 8 (a.pinAuth.map .bytes)
    have := opt_length 9 (nonZero a.pinProtocol)
    simp only [List.length_append, List.length_cons, List.length_nil]; omega
  · intro e he
    simp only [List.mem_append] at he
    rcases he with (((((he | he) | he) | he) | he) | he) | he
    · simp only [List.mem_cons, List.not_mem_nil, or_false] at he
      subst he
      exact ⟨(by dsimp only; apply wf_int8; i8), wf_bytes h1⟩
    · exact opt_wf (by i8) (wf_optMap (fun k hk => rp_wf k (h2 k hk))) e he
    · exact opt_wf (by i8) (wf_optMap (fun k hk => user_wf k (h3 k hk))) e he
    · simp only [List.mem_cons, List.not_mem_nil, or_false] at he
      subst he
      exact ⟨(by dsimp only; apply wf_int8; i8), wf_array h5 (fun k hk => param_wf k (h4 k hk))⟩
    · exact opt_wf (by i8) (wf_nonEmpty h7 (fun k hk => descriptor_wf k (h6 k hk))) e he
    · exact opt_wf (by i8) (wf_optBytes h8) e he
    · exact opt_wf (by i8) (wf_nonZero _) e he

theorem getAssertion_wf (a : GetAssertionArgs) (h : GetAssertionFits a) :
    WF (getAssertionItem a) := by
  obtain ⟨h1, h2, h3, h4⟩ := h
  apply wf_map ([.int 1, .int 2] ++ [.int 3] ++ [.int 5] ++ [.int 6] ++ [.int 7])
  · decide +kernel
  · simp only [List.map_append]
    repeat' apply List.Sublist.append
    all_goals first | exact opt_keys _ _ | simp
  · have := opt_length 3 (a.allowList.map (fun l => Cbor.array (l.map descriptorItem)))
    have := opt_length 5 (a.up.map (fun b => Cbor.map [(.str "up", .bool b)]))
    have := opt_length 6 (a.pinAuth.map .bytes)
    have := opt_length 7 (nonZero a.pinProtocol)
    simp only [List.length_append, List.length_cons, List.length_nil]; omega
  · intro e he
    simp only [List.mem_append] at he
    rcases he with (((he | he) | he) | he) | he
    · simp only [List.mem_cons, List.not_mem_nil, or_false] at he
      rcases he with rfl | rfl
      · exact ⟨(by dsimp only; apply wf_int8; i8), wf_text h1.2⟩
      · exact ⟨(by dsimp only; apply wf_int8; i8), wf_bytes h2⟩
    · exact opt_wf (by i8) (wf_optMap (fun l hl => wf_array (h3 l hl).2
        (fun d hd => descriptor_wf d ((h3 l hl).1 d hd)))) e he
    · refine opt_wf (by i8) (wf_optMap (fun b _ => ?_)) e he
      simp only [WF, WFEntries]
      exact ⟨by simp, wf_str _ (by decide), trivial, trivial, trivial⟩
    · exact opt_wf (by i8) (wf_optBytes h4) e he
    · exact opt_wf (by i8) (wf_nonZero _) e he

end VF.Items
