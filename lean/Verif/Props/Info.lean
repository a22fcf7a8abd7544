import Verif.Props.Answers
import Verif.Props.MakeCredential
import Verif.Props.GetAssertion
import Verif.Props.U2f
import Verif.Props.Status
import Verif.Spec.Info

/-!
# Property C114: what GetInfo announces is true
-/

namespace VF.Props

open VF.Fido VF.Fido.Device VF.Spec.Ctap VF.Spec.Client VF.Spec.Vault VF.Spec.History VF.Spec.Info

variable {E : Env}

/-- The answer to GetInfo. -/
def infoAnswer (w : World) : Bytes :=
  0 :: Cbor.encode (Ctap.getInfoItem (if w.client.pinEnabled then some w.client.pinHash.isSome else none))

theorem getInfo_eq (E : Env) (data : Bytes) (w : World) :
    Ctap.handleMessage E (0x04 :: data) w = (.ok (infoAnswer w), w) := rfl

theorem carried_info (w : World) :
    carried (infoAnswer w) =
      some (Ctap.getInfoItem (if w.client.pinEnabled then some w.client.pinHash.isSome else none)) := by
  obtain ⟨body, e, h⟩ := Ctap.success_of_wf (Ctap.getInfoItem_wf
    (if w.client.pinEnabled then some w.client.pinHash.isSome else none))
  have e2 : infoAnswer w = 0 :: body := e
  rw [e2]; exact h

/-- The options of GetInfo. -/
def optionsItem (p : Option Bool) : Cbor :=
  .map ([(.str "rk", .bool true), (.str "up", .bool true), (.str "plat", .bool false)] ++
    (match p with | some b => [(.str "clientPin", .bool b)] | none => []))

theorem info_options (p : Option Bool) : at' 4 (Ctap.getInfoItem p) = some (optionsItem p) := by
  cases p <;> rfl

theorem options_named (p : Option Bool) :
    named "rk" (optionsItem p) = some (.bool true) ∧ named "up" (optionsItem p) = some (.bool true) ∧
    named "plat" (optionsItem p) = some (.bool false) ∧ named "uv" (optionsItem p) = none := by
  have f : ∀ a ∈ ["rk", "up", "plat", "uv"], ∀ b ∈ ["rk", "up", "plat", "clientPin"],
      (ascii b == ascii a) = (b == a) := by decide +kernel
  have g : ∀ a ∈ ["rk", "up", "plat", "uv"], ∀ b ∈ ["rk", "up", "plat", "clientPin"],
      ((match Cbor.str b with | .text t => t == ascii a | _ => false) : Bool) = (b == a) := f
  cases p with
  | none =>
    refine ⟨?_, ?_, ?_, ?_⟩ <;>
      simp [named, optionsItem, Spec.Cbor.lookup, Cbor.str, f]
  | some b =>
    refine ⟨?_, ?_, ?_, ?_⟩ <;>
      simp [named, optionsItem, Spec.Cbor.lookup, Cbor.str, f]

/-- Everything GetInfo announces, in every state and whatever follows the command: the versions, the
options (keys stay on the device, the user is asked, the device is not part of the platform; there is
no built-in user verification), and the PIN protocol if PINs are supported. -/
theorem C114_announced (E : Env) (data : Bytes) (w : World) :
    ∃ answer, Ctap.handleMessage E (0x04 :: data) w = (.ok answer, w) ∧
      versions answer = some (.array [.text (ascii "FIDO_2_0"), .text (ascii "U2F_V2")]) ∧
      option answer "rk" = some (.bool true) ∧ option answer "up" = some (.bool true) ∧
      option answer "plat" = some (.bool false) ∧ option answer "uv" = none ∧
      pinProtocols answer = if w.client.pinEnabled then some (.array [.uint 1]) else none := by
  refine ⟨infoAnswer w, getInfo_eq E data w, ?_⟩
  unfold versions option pinProtocols
  rw [carried_info]
  simp only [Option.bind_some, info_options]
  obtain ⟨h1, h2, h3, h4⟩ := options_named (if w.client.pinEnabled then some w.client.pinHash.isSome else none)
  refine ⟨?_, h1, h2, h3, h4, ?_⟩
  · cases w.client.pinEnabled <;> rfl
  · cases w.client.pinEnabled <;> rfl

/-- The AAGUID GetInfo announces, in whatever state it was asked, has 16 bytes and is the one in the
authenticator data of every credential the device makes, in whatever state. -/
theorem C114_aaguid (L : Laws E) {data body info : Bytes} {w w' v v' : World} {more : Bytes}
    (hi : Ctap.handleMessage E (0x04 :: more) v = (.ok info, v'))
    (h : Ctap.handleMessage E (0x01 :: data) w = (.ok (0 :: body), w')) :
    ∃ authData sig cert ad att,
      IsCreation (0 :: body) authData sig cert ∧ parseAuthData authData = some ad ∧
      parseAttested ad.rest = some att ∧ att.aaguid.length = 16 ∧ aaguid info = some (.bytes att.aaguid) := by
  obtain ⟨args, rp, flags, blob, n, k, authData, sig, cert, ad, att, xb, yb, h1, h2, h3, h4, h5, h6,
    h7, h8, h9, h10, h11, h12, h13, h14, h15, h16, h17, h18, h19, h20, -⟩ := Ctap.creation_spec L h
  rw [getInfo_eq] at hi
  obtain rfl := Res.ok.inj (congrArg Prod.fst hi)
  refine ⟨authData, sig, cert, ad, att, h11, h12, h19, by rw [h20]; rfl, ?_⟩
  unfold aaguid
  rw [carried_info, h20, Option.bind_some]
  cases v.client.pinEnabled <;> rfl

/-- A PIN protocol is announced exactly when it is number 1 and PINs are supported. -/
theorem announces_iff (E : Env) (w : World) (n : Nat) : Announces (infoAnswer w) n ↔ w.client.pinEnabled = true ∧ n = 1 := by
  obtain ⟨answer, e, -, -, -, -, -, h⟩ := C114_announced E [] w
  rw [getInfo_eq] at e
  obtain rfl := Res.ok.inj (congrArg Prod.fst e)
  unfold Announces
  rw [h]
  cases w.client.pinEnabled with
  | false => simp
  | true =>
    simp only [if_true, Option.some.injEq, Cbor.array.injEq, true_and]
    constructor
    · rintro ⟨l, rfl, hl⟩; simpa using hl
    · rintro rfl; exact ⟨_, rfl, by simp⟩

/-- A user is verified, in a creation or in an assertion, only by a PIN protocol that GetInfo announces
in that state; so it is with every successful ClientPIN request. -/
theorem C114_protocols (L : Laws E) {data body info more : Bytes} {w w' v' : World}
    (hi : Ctap.handleMessage E (0x04 :: more) w = (.ok info, v')) :
    (Ctap.handleMessage E (0x01 :: data) w = (.ok (0 :: body), w') →
      ∃ args authData sig cert ad, E.decodeMakeCred data = some args ∧
        IsCreation (0 :: body) authData sig cert ∧ parseAuthData authData = some ad ∧
        (ad.userVerified = true → Announces info args.pinProtocol.toNat)) ∧
    (Ctap.handleMessage E (0x02 :: data) w = (.ok (0 :: body), w') → body.length < 18446744073709551616 →
      ∃ args id authData sig ad, E.decodeGetAssertion data = some args ∧
        IsAssertion (0 :: body) id authData sig ∧ parseAuthData authData = some ad ∧
        (ad.userVerified = true → Announces info args.pinProtocol.toNat)) ∧
    (Ctap.handleMessage E (0x06 :: data) w = (.ok (0 :: body), w') →
      ∃ args, E.decodeClientPIN data = some args ∧ Announces info args.pinProtocol.toNat) := by
  rw [getInfo_eq] at hi
  obtain rfl := Res.ok.inj (congrArg Prod.fst hi)
  simp only [announces_iff E]
  refine ⟨fun h => ?_, fun h hl => ?_, fun h => ?_⟩
  · obtain ⟨args, rp, authData, sig, cert, ad, s, h1, h2, h3, h4, h5, h6, h7, -⟩ := C45_creation_authenticator_data L h
    refine ⟨args, authData, sig, cert, ad, h1, h3, h4, fun hv => ?_⟩
    obtain ⟨a, b⟩ := h7.1 hv
    exact ⟨a, by rw [b.1]; rfl⟩
  · obtain ⟨args, id, authData, sig, ad, i, s, h1, h2, h3, h4, h5, h6, -⟩ := C45_assertion_authenticator_data L h hl
    refine ⟨args, id, authData, sig, ad, h1, h2, h3, fun hv => ?_⟩
    obtain ⟨a, b⟩ := h6.1 hv
    exact ⟨a, by rw [b.1]; rfl⟩
  · rw [Ctap.handleMessage_pin] at h
    unfold Ctap.handleClientPIN at h
    rw [Go.get_bind_run] at h
    by_cases he : w.client.pinEnabled = false
    · rw [if_pos he] at h; cases h
    · rw [if_neg he] at h
      cases hd : E.decodeClientPIN data with
      | none => rw [hd] at h; cases h
      | some args =>
        rw [hd] at h
        dsimp only at h
        by_cases hp : args.pinProtocol = 1
        · exact ⟨args, rfl, by simpa using he, by rw [hp]; rfl⟩
        · rw [if_pos hp] at h; cases h

/-- `rk`: a credential just made is found without being named.  A request for an assertion at its
relying party, without a list of credentials, is never answered that there are none. -/
theorem C114_resident_key (L : Laws E) {data body get : Bytes} {w w' : World} {args : MakeCredArgs} {rp : RPEntity}
    {gargs : GetAssertionArgs} (h : Ctap.handleMessage E (0x01 :: data) w = (.ok (0 :: body), w'))
    (hd : E.decodeMakeCred data = some args) (hrp : args.rp = some rp)
    (hg : E.decodeGetAssertion get = some gargs) (hid : gargs.rpId = rp.id) (hn : gargs.allowList = none) :
    (Ctap.handleMessage E (0x02 :: get) w').1 ≠ .ok [0x2E] := by
  intro hno
  obtain ⟨args', rp', _, _, _, k, _, _, _, _, _, _, _, h1, -, h3, -, -, -, h7, -⟩ := Ctap.creation_spec L h
  rw [hd] at h1; obtain rfl := Option.some.inj h1
  rw [hrp] at h3; obtain rfl := Option.some.inj h3
  rw [Ctap.handleMessage_get] at hno
  have hc := Ctap.handleGetAssertion_cases E get w'
  rw [hno] at hc
  generalize (Ctap.handleGetAssertion E get w').2 = w'' at hc
  cases hc with
  | nothing hw hr =>
    obtain ⟨e, -, he, hb⟩ := hr _ rfl
    exact absurd (by simpa using hb.symm) he
  | none args2 flags hd2 hp hm hw hr =>
    rw [hg] at hd2; obtain rfl := Option.some.inj hd2
    refine hm _ (by rw [h7]; exact List.mem_append_right _ (List.mem_singleton.2 rfl)) ⟨⟨rp, rfl, hid.symm⟩, ?_⟩
    intro l hl; rw [hn] at hl; cases hl
  | unsaved args flags i s hd hp hi hn c hr hw => simp at hr
  | refused args flags i s rp user blob n hd hp hi hn hup hrp hu ha hr hw => simp at hr
  | saved args flags flags' i s rp user blob n asks hd hp hi hn hrp hu hq hw hr =>
    obtain ⟨sig, -, h2⟩ := hr _ rfl
    simp at h2

/-- The second version is the one the U2F part names when asked, in any state. -/
theorem C114_u2f_version (E : Env) (cla p1 p2 : UInt8) (data : Bytes) (w v : World) :
    ∃ answer info l v', U2f.handleMessage E [cla, 3, p1, p2] v = (.ok (answer ++ [0x90, 0x00]), v) ∧
      Ctap.handleMessage E (0x04 :: data) w = (.ok info, v') ∧ versions info = some (.array l) ∧ .text answer ∈ l := by
  obtain ⟨info, h1, h2, -⟩ := C114_announced E data w
  refine ⟨ascii "U2F_V2", info, _, w, (C68_version E cla p1 p2 [0] none v (by simp) (by simp)).2, h1, h2, by simp⟩

/-- FIDO_2_0 has two commands more (CTAP 2.0, 5): authenticatorGetNextAssertion and authenticatorReset.
Both end the process. -/
theorem C114_commands_refuted (E : Env) (data : Bytes) (w : World) :
    (Ctap.handleMessage E (0x08 :: data) w).1.isPanic = true ∧ (Ctap.handleMessage E (0x07 :: data) w).1.isPanic = true := by
  constructor
  · rw [Ctap.handleMessage_other E 8 data (by decide) (by decide) (by decide) (by decide)]; rfl
  · rw [Ctap.handleMessage_other E 7 data (by decide) (by decide) (by decide) (by decide)]; rfl

/-- The hypotheses of `C114_aaguid`, `C114_protocols` and `C114_resident_key` are met: a device that
makes a credential, and a request for an assertion without a list. -/
example : ∃ (E : Env) (w w' v : World) (data body info get : Bytes) (args : MakeCredArgs) (rp : RPEntity)
    (gargs : GetAssertionArgs), Laws E ∧ Ctap.handleMessage E (0x04 :: []) w = (.ok info, v) ∧
      Ctap.handleMessage E (0x01 :: data) w = (.ok (0 :: body), w') ∧ E.decodeMakeCred data = some args ∧
      args.rp = some rp ∧ E.decodeGetAssertion get = some gargs ∧ gargs.rpId = rp.id ∧ gargs.allowList = none := by
  let ap : List Ask → Action → Bytes → Bytes → Bool := fun _ _ _ _ => true
  obtain ⟨body, w', h⟩ := Toy.make_succeeds ap [Toy.descriptor] (.inr rfl) rfl
  exact ⟨Toy.toy ap, Toy.world false none 8, w', Toy.world false none 8, Toy.makeData [Toy.descriptor] none, body,
    _, _, Toy.makeArgs [Toy.descriptor] none, Toy.rp, _, Toy.toy_laws ap, getInfo_eq _ _ _, h,
    Toy.make_decodes ap _ _ (.inr rfl) (by simp), rfl, Toy.get_decodes ap none none none (.inl rfl) (by simp), rfl, rfl⟩

end VF.Props
