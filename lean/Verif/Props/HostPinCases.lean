import Verif.Proofs.ToyPin
import Verif.Props.ConversationCases
import Verif.Props.HostPin

/-!
# A host that sets the PIN, gets a token, registers and logs in, by reports

The hypotheses of C135 hold of a host on macOS that asks for the device's key, sets the PIN "1234", asks for a token with this
PIN, and with the token registers a credential and logs in.
-/

namespace VF.Props

open Fido Hid Spec.Client Spec.Platform Spec.History Spec.Service Spec.Live Spec.Conversation Spec.Ctaphid Toy
open Spec.Stack (onChannel)
open Spec.Overlap (operations)
open Live.Example (grow0 initReport ended)
open VF.Spec.Pin (getKeyAgreement)
open VF.Spec.HostPin

namespace PinHost

/-- A request in packets of 57, then 59 bytes. -/
def asked (payload : Bytes) (room : Nat) : Request :=
  ⟨0x90, payload, hostPackets 1 0x90 payload (List.replicate (room - payload.length) 0)⟩

noncomputable def requests : List Request :=
  [asked (Spec.Pin.request getKeyAgreement) 57, asked (Spec.Pin.request settingPIN) 175, asked (Spec.Pin.request askingToken) 116,
    asked (1 :: makeData [] verified) 175, asked (2 :: getData (some [madeLater]) none verified) 116]

theorem wellSent : ∀ q ∈ requests, q.WellSent 1 := by
  have hb : Begins 0x90 := by unfold Begins; decide
  intro q hq
  simp only [requests, List.mem_cons, List.not_mem_nil, or_false] at hq
  rcases hq with rfl | rfl | rfl | rfl | rfl
  · exact ⟨hb, Spec.Pin.request getKeyAgreement ++ List.replicate (57 - (Spec.Pin.request getKeyAgreement).length) 0, [],
      by decide +kernel, by decide +kernel, by decide +kernel, by decide +kernel, by decide +kernel, by decide +kernel⟩
  · exact ⟨hb, (Spec.Pin.request settingPIN).take 57, [((Spec.Pin.request settingPIN).drop 57).take 59,
      (Spec.Pin.request settingPIN).drop 116 ++ List.replicate (175 - (Spec.Pin.request settingPIN).length) 0],
      by decide +kernel, by decide +kernel, by decide +kernel, by decide +kernel, by decide +kernel, by decide +kernel⟩
  · exact ⟨hb, (Spec.Pin.request askingToken).take 57, [(Spec.Pin.request askingToken).drop 57 ++
      List.replicate (116 - (Spec.Pin.request askingToken).length) 0],
      by decide +kernel, by decide +kernel, by decide +kernel, by decide +kernel, by decide +kernel, by decide +kernel⟩
  · exact ⟨hb, (1 :: makeData [] verified).take 57, [((1 :: makeData [] verified).drop 57).take 59,
      (1 :: makeData [] verified).drop 116 ++ List.replicate (175 - (1 :: makeData [] verified).length) 0],
      by decide +kernel, by decide +kernel, by decide +kernel, by decide +kernel, by decide +kernel, by decide +kernel⟩
  · exact ⟨hb, (2 :: getData (some [madeLater]) none verified).take 57, [(2 :: getData (some [madeLater]) none verified).drop 57 ++
      List.replicate (116 - (2 :: getData (some [madeLater]) none verified).length) 0],
      by decide +kernel, by decide +kernel, by decide +kernel, by decide +kernel, by decide +kernel, by decide +kernel⟩

def heard (first n : Nat) : List Mac.Event := (List.range n).flatMap fun k => [.notice] ++ Conversation.steps (first + k) 3

/-- A request is sent, heard and answered. -/
def answered (ps : List Bytes) (first thread works answers : Nat) : List Mac.Event :=
  ps.map .setReport ++ heard first ps.length ++ List.replicate works (.inside (.work thread)) ++
    [.inside (.return (first + ps.length - 1))] ++ Conversation.steps (first + ps.length - 1) (answers + 2)

noncomputable def work (n : Nat) : List Mac.Event :=
  ((requests.zip [(1, 0, 2, 1), (2, 1, 14, 1), (5, 2, 12, 1), (7, 3, 23, 4), (10, 4, 20, 2)]).take n).flatMap fun x =>
    answered x.1.packets x.2.1 x.2.2.1 x.2.2.2.1 x.2.2.2.2

noncomputable def at' (E : Env) (evs : List Mac.Event) : Option Mac.State :=
  (Mac.State.start (Overlap.boot E (config true))).run E (config true) grow0 evs

def check (s : Mac.State) : Bool :=
  ended s.live && !s.live.hid.crashed && s.live.proc.alive && (s.live.proc.threads.all fun t => !Spec.Overlap.busy t) &&
    s.notices == 0 && Conversation.fits (Spec.Overlap.results s.live.proc)

theorem summary3 : (at' quickPin (Mac.Example.hello ++ work 3)).any check = true := by decide +kernel
theorem summary4 : (at' quickPin (Mac.Example.hello ++ work 4)).any check = true := by decide +kernel
theorem summary5 : (at' quickPin (Mac.Example.hello ++ work 5)).any check = true := by decide +kernel

/-- What is checked of the reports sent. -/
noncomputable def checkSent (n : Nat) : Bool :=
  ((Mac.Example.hello ++ work n).all fun e => match e with | .inside (.api _) => false | _ => true) &&
  ((Spec.Mac.sent (Mac.Example.hello ++ work n)).all fun m => decide (m.length ≤ 64)) &&
  decide ((Spec.Mac.sent (Mac.Example.hello ++ work n)).length ≤ 17) &&
  ((Spec.Mac.sent (Mac.Example.hello ++ work n)).all fun m => channelOf m == some 1 || channelOf m == some 0xFFFFFFFF) &&
  (onChannel 1 (Spec.Mac.sent (work n)) == (requests.take n).flatMap (·.packets))

theorem sent3 : checkSent 3 = true := by decide +kernel
theorem sent4 : checkSent 4 = true := by decide +kernel
theorem sent5 : checkSent 5 = true := by decide +kernel

theorem on_mac {n : Nat} (h : (at' quickPin (Mac.Example.hello ++ work n)).any check = true) (hsent : checkSent n = true) :
    ∃ s1 s, OnMac (toy agree) (config true) grow0 [] Mac.Example.hello (work n) s1 s 1 (requests.take n) := by
  have h1 : (at' quickPin Mac.Example.hello).map (fun s => s.input.elem (initAnswer [1, 2, 3, 4, 5, 6, 7, 8] 1)) =
      some true := by decide +kernel
  rw [quickPin_eq] at h h1
  obtain ⟨s1, hs1, h1⟩ := Option.map_eq_some_iff.mp h1
  rw [Option.any_eq_true] at h
  obtain ⟨s, hs, h⟩ := h
  simp only [check, Bool.and_eq_true, Bool.not_eq_true', beq_iff_eq, decide_eq_true_eq] at h
  obtain ⟨⟨⟨⟨⟨g1, g2⟩, g3⟩, g4⟩, g5⟩, g6⟩ := h
  simp only [checkSent, Bool.and_eq_true, beq_iff_eq, decide_eq_true_eq, List.all_eq_true] at hsent
  obtain ⟨⟨⟨⟨k1, k2⟩, k3⟩, k4⟩, k5⟩ := hsent
  refine ⟨s1, s, ?_⟩
  constructor
  case run1 => exact hs1
  case run =>
    have e : at' (toy agree) (Mac.Example.hello ++ work n) = (at' (toy agree) Mac.Example.hello).bind fun s' =>
        s'.run (toy agree) (config true) grow0 (work n) := Mac.run_append Mac.Example.hello (work n) _
    rw [hs1, Option.bind_some] at e
    rw [← e]
    exact hs
  case api =>
    intro op h
    have := k1 _ h
    cases this
  case calm => exact ⟨g2, g3⟩
  case short => exact k2
  case few => omega
  case paced => exact Mac.Example.paced_of_few k3
  case rest =>
    refine Mac.C107_rest (Live.Example.ended_idle g1) ?_ g5
    intro t ht
    have := List.all_eq_true.mp g4 t ht
    simpa using this
  case channel => exact ⟨by decide, [1, 2, 3, 4, 5, 6, 7, 8], rfl, List.elem_iff.mp h1⟩
  case new => decide +kernel
  case alone =>
    intro m hm
    have := k4 m hm
    simpa using this
  case wellSent => exact fun q hq => wellSent q (List.mem_of_mem_take hq)
  case sent => exact k5
  case sizes => exact Conversation.fits_spec g6

/-! ### What the host is told -/

noncomputable def told (E : Env) (n : Nat) : List (Op × Reply) :=
  events E (config true) (Device.boot E (config true)) (requested (requests.take n))

def keyAnswer : Bytes := [0, 0xa1, 1, 0xa5, 1, 2, 3, 0x38, 0x18, 0x20, 0, 0x21, 0x41, 2, 0x22, 0x41, 2]
noncomputable def tokenAnswer : Bytes := [0, 0xa1, 2, 0x50] ++ firstToken

theorem told3 : told (toy agree) 3 = [(.ctap (Spec.Pin.request getKeyAgreement), .answer keyAnswer),
    (.ctap (Spec.Pin.request settingPIN), .answer [0]), (.ctap (Spec.Pin.request askingToken), .answer tokenAnswer)] := by
  have : told quickPin 3 = [(.ctap (Spec.Pin.request getKeyAgreement), .answer keyAnswer),
    (.ctap (Spec.Pin.request settingPIN), .answer [0]), (.ctap (Spec.Pin.request askingToken), .answer tokenAnswer)] := by
    decide +kernel
  rwa [quickPin_eq] at this

theorem told4 : (told (toy agree) 4).dropLast = told (toy agree) 3 := by
  have : (told quickPin 4).dropLast = told quickPin 3 := by decide +kernel
  rwa [quickPin_eq] at this

theorem told5 : (told (toy agree) 5).dropLast = told (toy agree) 4 := by
  have : (told quickPin 5).dropLast = told quickPin 4 := by decide +kernel
  rwa [quickPin_eq] at this

def platform : ECDHKey := { priv := BigInt.toBytes (2 ^ 248), x := 2 ^ 248, y := 2 ^ 248 }

theorem has_secret {seen : List (Op × Reply)} (hm : (.ctap (Spec.Pin.request getKeyAgreement), .answer keyAnswer) ∈ seen) :
    HasSecret (toy agree) seen platform platformKey platformSecret := by
  have hs : (toy agree).ecdh platform.priv (Spec.Cbor.beNat [2]) (Spec.Cbor.beNat [2]) = some (2 * 2 ^ 248) := by
    show some (BigInt.ofBytes (BigInt.toBytes (2 ^ 248)) * _ % 2 ^ 256) = _
    rw [BigInt.ofBytes_toBytes]
    congr 1
  refine ⟨keyAnswer, [2], [2], hm, ⟨_, rfl, by rfl⟩, ⟨2 ^ 248, by decide +kernel, by decide +kernel,
      BigInt.ofBytes_toBytes _, by decide +kernel⟩, ⟨_, _, rfl, by decide +kernel, rfl,
      by decide +kernel, rfl⟩, ⟨_, rfl, ?_, rfl⟩, ?_⟩
  · rw [hs]
    decide +kernel
  · intro s h
    rw [hs] at h
    obtain rfl := Option.some.inj h
    decide +kernel

theorem has_token {seen : List (Op × Reply)} (h : ∀ e ∈ told (toy agree) 3, e ∈ seen) :
    HasToken (toy agree) seen firstToken :=
  ⟨platform, platformKey, platformSecret, ascii "1234", tokenAnswer, firstToken,
    has_secret (h _ (by rw [told3]; exact List.mem_cons_self)), h _ (by rw [told3]; exact .tail _ (.tail _ (.head _))),
    ⟨_, rfl, by rfl⟩, rfl⟩

theorem pin_now : PinNow (toy agree) (config true) (requested (requests.take 2)) (ascii "1234") := by
  have h1 : quickPin.ecdh (Device.after quickPin (config true) (Device.boot quickPin (config true))
      [.ctap (Spec.Pin.request getKeyAgreement)]).world.client.keyAgreement.priv (Spec.Cbor.beNat (platformKey.x.getD []))
      (Spec.Cbor.beNat (platformKey.y.getD [])) = some (Spec.Cbor.beNat (2 :: List.replicate 31 0)) := by decide +kernel
  have h2 : (Device.step quickPin (config true) (Device.after quickPin (config true) (Device.boot quickPin (config true))
      [.ctap (Spec.Pin.request getKeyAgreement)]) (.ctap (Spec.Pin.request settingPIN))).1 = .answer [0] := by decide +kernel
  have h3 : Spec.PinHistory.pinOn true (told quickPin 2) = true ∧ 0 < Spec.PinHistory.tries quickPin (told quickPin 2) := by
    decide +kernel
  rw [quickPin_eq] at h1 h2 h3
  refine ⟨⟨[.ctap (Spec.Pin.request getKeyAgreement)], .ctap (Spec.Pin.request settingPIN), [], rfl, ?_, fun e he => nomatch he⟩,
    h3.1, h3.2⟩
  have hsec : Spec.Pin.Secret (toy agree) (Device.after (toy agree) (config true) (Device.boot (toy agree) (config true))
      [.ctap (Spec.Pin.request getKeyAgreement)]).world.client platformKey platformSecret := by
    refine ⟨2 :: List.replicate 31 0, by decide +kernel, ?_, ?_⟩
    · unfold platformSecret; rfl
    · exact h1
  have hpad : Spec.Pin.Padded (ascii "1234") ((toy agree).cbcDecrypt platformSecret (settingPIN.newPinEnc.getD [])) :=
    ⟨by decide +kernel, List.replicate 59 0, by decide +kernel⟩
  rw [h2]
  exact .request ((toy_laws agree).decode_clientPIN _ settingPIN_fits) (.inl rfl) rfl hsec hpad

noncomputable def strict : Spec.RelyingParty.Party := { Conversation.party with demandsUV := true }

theorem asks_registration : AsksVerified (toy agree) (config true) strict (requested (requests.take 3)) firstToken
    (asked (1 :: makeData [] verified) 175) (makeData [] verified) (makeArgs [] verified) := by
  have hw : decide ((Device.after quickPin (config true) (Device.boot quickPin (config true))
      (requested (requests.take 3) ++ [.ctap (1 :: makeData [] verified)])).world.rnd ≤ 256) = true := by decide +kernel
  rw [quickPin_eq, decide_eq_true_eq] at hw
  constructor
  case command => rfl
  case payload => rfl
  case decoded => exact verified_make_decodes
  case party => exact ⟨_, rfl, rfl, rfl⟩
  case user => exact fun h => nomatch h
  case params => exact ⟨_, List.mem_cons_self, rfl, rfl⟩
  case protocol => rfl
  case proof => rfl
  case draws => exact toy_draws agree hw
  case few => decide +kernel

theorem asks_login {r : Spec.RelyingParty.Record} (hid : r.id = List.replicate 16 6) :
    AsksVerifiedLogin (toy agree) (config true) strict r (requested (requests.take 4)) firstToken
      (asked (2 :: getData (some [madeLater]) none verified) 116) (getData (some [madeLater]) none verified)
      (getArgs (some [madeLater]) none verified) := by
  have hw : decide ((Device.after quickPin (config true) (Device.boot quickPin (config true))
      (requested (requests.take 4))).world.rnd ≤ 256) = true := by decide +kernel
  rw [quickPin_eq, decide_eq_true_eq] at hw
  constructor
  case command => rfl
  case payload => rfl
  case decoded => exact verified_get_decodes
  case party => rfl
  case allow => exact ⟨madeLater, rfl, hid.symm⟩
  case protocol => rfl
  case proof => rfl
  case presence => exact fun h => nomatch h
  case agrees => exact fun _ _ => rfl
  case draws => exact toy_draws agree hw
  case kept =>
    intro op ho
    rcases requested_ops ho with ⟨m, rfl⟩ | ⟨m, rfl⟩ <;> exact ⟨(fun h => nomatch h), (fun h => nomatch h)⟩
  case few => decide +kernel

theorem free : ∀ t ∈ ((Overlap.boot (toy agree) (config true)).run (toy agree) (config true) []).threads,
    Spec.Overlap.busy t = false := fun _ ht => nomatch ht

theorem has_registered : ∃ r, HasRegistered (toy agree) strict (told (toy agree) 4) r ∧ r.id = List.replicate 16 6 := by
  obtain ⟨s1, s, h⟩ := on_mac summary4 sent4
  have ht := (C131_mac (pre := []) trivial free h).1
  have ht' : talk (requests.take 4) 1 s.input = told (toy agree) 4 := ht
  obtain ⟨body, r, h1, h2⟩ := C135_mac_registration (toy_laws agree) (config_usable agree true) (boot_attests agree true)
    (pre := []) trivial free (qs := requests.take 3) (q := asked (1 :: makeData [] verified) 175) h (p := strict) rfl
    (token := firstToken) (has_token (fun e he => by
      show e ∈ (talk (requests.take 4) 1 s.input).dropLast
      rw [ht', told4]; exact he)) asks_registration
  have e4 : told (toy agree) 4 = told (toy agree) 3 ++ [(.ctap (1 :: makeData [] verified), .answer (0 :: body))] := by
    rw [← told4]
    have h1' : (told (toy agree) 4).getLast? = _ := ht' ▸ h1
    exact (List.dropLast_append_getLast? _ h1').symm
  have h2' : Spec.RelyingParty.register (toy agree) strict (Spec.RelyingParty.records (toy agree) strict (told (toy agree) 3))
      (makeArgs [] verified) (0 :: body) = some r := by
    rw [← told4, ← ht']; exact h2
  refine ⟨r, ⟨told (toy agree) 3, [], _, _, _, e4, verified_make_decodes, rfl, h2'⟩, ?_⟩
  have h3 : (Device.step (toy agree) (config true) (Device.after (toy agree) (config true) (Device.boot (toy agree) (config true))
      (requested (requests.take 3))) (.ctap (1 :: makeData [] verified))).1 = .answer (0 :: body) := by
    obtain ⟨a, d', k1, k2, -⟩ := last_told (pre := []) (res := []) (qs := requests.take 3)
      (q := asked (1 :: makeData [] verified) 175) rfl ht (by decide)
    have k1' : Device.step (toy agree) (config true) (Device.after (toy agree) (config true) (Device.boot (toy agree) (config true))
      (requested (requests.take 3))) (.ctap (1 :: makeData [] verified)) = (.answer a, d') := k1
    rw [k2] at h1
    have h1' : some (Op.ctap (1 :: makeData [] verified), Reply.answer a) =
      some (Op.ctap (1 :: makeData [] verified), Reply.answer (0 :: body)) := by rw [← h1, List.getLast?_concat]; rfl
    rw [k1', (Prod.mk.inj (Option.some.inj h1')).2]
  obtain ⟨-, -, hm⟩ := Device.ctap_answered (Prod.ext h3 rfl)
  obtain ⟨args', rp, key, cert, ad, flags, q1, q2, q3, q4, q5, q6, q7, q8, q9, -, -, q12⟩ := Device.register_eq (toy_laws agree) hm
  rw [verified_make_decodes] at q1
  cases q1
  rw [q12] at h2'
  have hw : quickPin.rand (Device.after quickPin (config true) (Device.boot quickPin (config true))
      (requested (requests.take 3))).world.rnd 16 = List.replicate 16 6 := by decide +kernel
  rw [quickPin_eq] at hw
  split at h2'
  · rw [← Option.some.inj h2']
    exact hw
  · cases h2'

end PinHost

open PinHost

/-- A host on macOS asks for the device's key, sets the PIN "1234", and asks for a token with this PIN. -/
theorem C135_case_token : ∃ (E : Env) (cfg : Client.Config) (grow : Nat → Nat → Nat) (evs1 evs2 : List Mac.Event)
    (s1 s : Mac.State) (qs : List Request) (q : Request) (platform : ECDHKey) (key : EC2Key) (secret pin : Bytes),
    Laws E ∧ Usable E cfg ∧ OnMac E cfg grow [] evs1 evs2 s1 s 1 (qs ++ [q]) ∧ PinNow E cfg (operations [] ++ requested qs) pin ∧
    HasSecret E (talk (qs ++ [q]) 1 s.input).dropLast platform key secret ∧ q.command = 0x90 ∧
    q.payload = Spec.Pin.request (Spec.Pin.getPINToken E key secret pin) := by
  obtain ⟨s1, s, h⟩ := on_mac summary3 sent3
  have ht : talk (requests.take 3) 1 s.input = told (toy agree) 3 := (C131_mac (pre := []) trivial free h).1
  refine ⟨toy agree, config true, grow0, _, _, s1, s, requests.take 2, asked (Spec.Pin.request askingToken) 116, platform,
    platformKey, platformSecret, ascii "1234", toy_laws agree, config_usable agree true, h, pin_now, has_secret ?_, rfl, rfl⟩
  show _ ∈ (talk (requests.take 3) 1 s.input).dropLast
  rw [ht, told3]
  exact List.mem_cons_self

/-- ... and, with the token, for a credential at a party that demands user verification. -/
theorem C135_case_registration : ∃ (E : Env) (cfg : Client.Config) (grow : Nat → Nat → Nat) (evs1 evs2 : List Mac.Event)
    (s1 s : Mac.State) (qs : List Request) (q : Request) (p : Spec.RelyingParty.Party) (token data : Bytes) (args : MakeCredArgs),
    Laws E ∧ Usable E cfg ∧ CanAttest E (Device.boot E cfg).world.client ∧ OnMac E cfg grow [] evs1 evs2 s1 s 1 (qs ++ [q]) ∧
    Cose.publicOf cfg.certKey = .ok p.anchor ∧ p.demandsUV = true ∧
    HasToken E (talk (qs ++ [q]) 1 s.input).dropLast token ∧
    AsksVerified E cfg p (operations [] ++ requested qs) token q data args := by
  obtain ⟨s1, s, h⟩ := on_mac summary4 sent4
  have ht : talk (requests.take 4) 1 s.input = told (toy agree) 4 := (C131_mac (pre := []) trivial free h).1
  refine ⟨toy agree, config true, grow0, _, _, s1, s, requests.take 3, asked (1 :: makeData [] verified) 175, strict, firstToken,
    _, _, toy_laws agree, config_usable agree true, boot_attests agree true, h, rfl, rfl, has_token ?_, asks_registration⟩
  intro e he
  show e ∈ (talk (requests.take 4) 1 s.input).dropLast
  rw [ht, told4]
  exact he

/-- ... and for a login with it. -/
theorem C135_case_login : ∃ (E : Env) (cfg : Client.Config) (grow : Nat → Nat → Nat) (evs1 evs2 : List Mac.Event)
    (s1 s : Mac.State) (qs : List Request) (q : Request) (p : Spec.RelyingParty.Party) (r : Spec.RelyingParty.Record)
    (token data : Bytes) (args : GetAssertionArgs),
    Laws E ∧ Usable E cfg ∧ OnMac E cfg grow [] evs1 evs2 s1 s 1 (qs ++ [q]) ∧ p.demandsUV = true ∧
    HasToken E (talk (qs ++ [q]) 1 s.input).dropLast token ∧
    HasRegistered E p (Spec.Overlap.results ((Overlap.boot E cfg).run E cfg []) ++ (talk (qs ++ [q]) 1 s.input).dropLast) r ∧
    AsksVerifiedLogin E cfg p r (operations [] ++ requested qs) token q data args := by
  obtain ⟨s1, s, h⟩ := on_mac summary5 sent5
  have ht : talk (requests.take 5) 1 s.input = told (toy agree) 5 := (C131_mac (pre := []) trivial free h).1
  obtain ⟨r, hr, hid⟩ := has_registered
  refine ⟨toy agree, config true, grow0, _, _, s1, s, requests.take 4, asked (2 :: getData (some [madeLater]) none verified) 116,
    strict, r, firstToken, _, _, toy_laws agree, config_usable agree true, h, rfl, has_token ?_, ?_, asks_login hid⟩
  · intro e he
    show e ∈ (talk (requests.take 5) 1 s.input).dropLast
    rw [ht, told5]
    rw [← told4] at he
    exact (List.dropLast_sublist _).subset he
  · show HasRegistered _ _ (talk (requests.take 5) 1 s.input).dropLast r
    rw [ht, told5]
    exact hr

end VF.Props
