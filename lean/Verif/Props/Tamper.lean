import Verif.Proofs.Tamper
import Verif.Props.Accounts
import Verif.Props.OverlapDraws

/-!
# C125: saved data cannot be forged, only put back
-/

namespace VF.Props

open VF.Fido VF.Fido.Device VF.Spec.Client VF.Spec.Vault VF.Spec.History VF.Spec.Ctap VF.Spec.Store
open VF.Spec.Tamper (savedBy saved seen Unforged Hostile)
open VF.Fido.Processes (Event)

variable {E : Env} {cfg : Client.Config}

/-- Whatever others have written into the file: a start fails, or brings back the device as it was when it saved
something earlier (or there never was a file). -/
theorem C125_old_device (L : Laws E) (hu : Usable E cfg) (hat : CanAttest E (boot E cfg).world.client) (evs : List Event)
    {d : Device} (h0 : Spec.Tamper.after E cfg (boot E cfg) evs = d) (hh : Hostile E cfg (boot E cfg) evs)
    (hd : Spec.Draws.Distinct E 32 d.world.rnd) :
    (step E cfg d .restart).1 = .panicked ∨
    ∃ d', step E cfg d .restart = (.started, d') ∧
      ((d.world.store = none ∧ saved E cfg (boot E cfg) evs = [] ∧ ∀ data, .wrote data ∉ evs) ∨
        ∃ pre op post, evs = pre ++ .own op :: post ∧
          savedBy E cfg (Spec.Tamper.after E cfg (boot E cfg) pre) op ≠ none ∧
          SameDevice (Spec.Tamper.after E cfg (boot E cfg) (pre ++ [.own op])).world.client d'.world.client) := by
  obtain ⟨log, k⟩ := known L hu hat evs hh (by rw [h0]; exact hd)
  have ks := known_start L hu k
  have kb := k.blobs
  have kw := k.when_
  rw [h0] at ks
  rcases ks with ⟨c, hc⟩ | ⟨c', hc, -, hx⟩
  · left
    simp only [step, hc]
  · right
    refine ⟨⟨{ d.world with client := c', rnd := d.world.rnd + 2 }, true⟩, by simp only [step, hc], ?_⟩
    rcases hx with ⟨h1, h2, h3⟩ | ⟨x, hx, hs⟩
    · exact .inl ⟨h1, by rw [← kb, h2]; rfl, h3⟩
    · obtain ⟨pre, op, post, q1, q2, q3⟩ := kw x hx
      exact .inr ⟨pre, op, post, q1, by rw [q2]; exact (nomatch ·), by rw [q3]; exact hs⟩

/-- Whatever others have written into the file: a login that succeeds is made with a credential that the device has
announced, and its key. -/
theorem C125_provenance (L : Laws E) (hu : Usable E cfg) (hat : CanAttest E (boot E cfg).world.client) (evs : List Event)
    {d d' : Device} {data body : Bytes} (h0 : Spec.Tamper.after E cfg (boot E cfg) evs = d)
    (hh : Hostile E cfg (boot E cfg) evs) (hd : Spec.Draws.Distinct E 32 d.world.rnd)
    (h : step E cfg d (.ctap (0x02 :: data)) = (.answer (0 :: body), d')) :
    ∃ args c authData sig request answer, E.decodeGetAssertion data = some args ∧
      IsAssertion (0 :: body) c.id authData sig ∧
      (.ctap (0x01 :: request), .answer answer) ∈ seen E cfg (boot E cfg) evs ∧ announced answer = some c ∧
      E.verifyEC c.key (E.sha256 (authData ++ args.clientDataHash)) sig = true := by
  obtain ⟨log, k⟩ := known L hu hat evs hh (by rw [h0]; exact hd)
  obtain ⟨halive, -, hm⟩ := ctap_answered h
  have hg := k.running (by rw [h0]; exact halive)
  rw [h0] at hg
  have hkeys : ∀ s ∈ d.world.client.vault, ∃ w, Announced (seen E cfg (boot E cfg) evs) w ∧ s.id = w.id ∧ w.id.length = 16 ∧
      ∃ k, s.key.ecdsa = some k ∧ k.pub = w.key ∧ ECValid E k := by
    intro s hs
    obtain ⟨w, q1, q2, q3⟩ := hg.2.2 s hs
    obtain ⟨e1, e2⟩ := Prod.mk.inj q2
    have hv := (hg.1.2.2.2.2 s hs).2.1
    cases he : s.key.ecdsa with
    | none => rw [he] at e2; cases e2
    | some k =>
      rw [he] at e2
      simp only [KeyValid, he] at hv
      exact ⟨w, q1, e1, q3, k, rfl, Option.some.inj e2, hv⟩
  have hlen : body.length < 18446744073709551616 := by
    refine assertion_length L hm ?_
    intro s hs'
    obtain ⟨w, -, hid, hl, k, hk, -, hv⟩ := hkeys s hs'
    exact ⟨by rw [hid, hl]; omega, k, hk, hv⟩
  obtain ⟨args, i, s, rp, user, flags, blob, n, authData, sig, ad, h1, h2, -, -, -, -, -, -, -, -,
    h11, -, -, -, -, -, -, -, h19⟩ := Ctap.assertion_spec L hm hlen
  obtain ⟨w, ⟨request, answer, g1, g2⟩, hid, -, k, hk, hp, hv⟩ := hkeys s (List.mem_of_getElem? h2.1)
  rw [hid] at h11
  refine ⟨args, w, authData, sig, request, answer, h1, h11, g1, g2, ?_⟩
  have hsig : signECDSA E k (authData ++ args.clientDataHash) n = .ok sig := by
    simpa only [Cose.sign, hk] using h19
  rw [← hp]
  exact (Ctap.signECDSA_ok L hv hsig).1

/-- Earlier saved data can always be put back. -/
theorem C125_old_unforged {old : List Bytes} {data : Bytes} (h : data ∈ old) : Unforged E old data := by
  refine ⟨?_, ?_⟩
  · intro blob hb _
    exact ⟨data, h, blob, hb, rfl, rfl, rfl⟩
  · intro blob k hb hk _ _
    exact ⟨data, h, blob, hb, hk, rfl, rfl⟩

theorem saved_mem {d : Device} {evs pre post : List Event} {op : Op} {b : Bytes} (h : evs = pre ++ .own op :: post)
    (hs : savedBy E cfg (Spec.Tamper.after E cfg d pre) op = some b) : b ∈ saved E cfg d evs := by
  rw [h, tamper_saved_append]
  refine List.mem_append_right _ ?_
  unfold saved
  rw [hs]
  exact List.mem_append_left _ (List.mem_singleton.2 rfl)

/-- Any earlier saved data are accepted: a start brings back the device as it was when it saved them. -/
theorem C125_any_old_file (L : Laws E) (hu : Usable E cfg) (hat : CanAttest E (boot E cfg).world.client) (evs : List Event)
    {pre post : List Event} {op : Op} {b : Bytes} (hh : Hostile E cfg (boot E cfg) evs)
    (hd : Spec.Draws.Distinct E 32 (Spec.Tamper.after E cfg (boot E cfg) evs).world.rnd)
    (he : evs = pre ++ .own op :: post)
    (hs : savedBy E cfg (Spec.Tamper.after E cfg (boot E cfg) pre) op = some b) :
    Hostile E cfg (boot E cfg) (evs ++ [.wrote b]) ∧
    ∃ d', step E cfg (Spec.Tamper.after E cfg (boot E cfg) (evs ++ [.wrote b])) .restart = (.started, d') ∧
      SameDevice (Spec.Tamper.after E cfg (boot E cfg) (pre ++ [.own op])).world.client d'.world.client := by
  have hmem := saved_mem he hs
  refine ⟨?_, ?_⟩
  · intro pre' data post' h
    rcases List.eq_nil_or_concat post' with rfl | ⟨front, last, rfl⟩
    · obtain ⟨e1, e2⟩ := List.append_inj' h rfl
      cases e2
      rw [← e1]
      exact C125_old_unforged hmem
    · rw [List.concat_eq_append, ← List.cons_append, ← List.append_assoc] at h
      obtain ⟨e1, -⟩ := List.append_inj' h rfl
      exact hh pre' data front e1
  · obtain ⟨log, k⟩ := known L hu hat pre (fun p x q h => hh p x (q ++ .own op :: post) (by rw [he, h]; simp))
      (fun i j hi hj => hd i j
        (Nat.lt_of_lt_of_le hi (by rw [he]; exact tamper_rnd L _ _))
        (Nat.lt_of_lt_of_le hj (by rw [he]; exact tamper_rnd L _ _)))
    have hr : op ≠ .restart := by
      rintro rfl
      cases hs
    have ha : (Spec.Tamper.after E cfg (boot E cfg) pre).alive = true := by
      cases ha : (Spec.Tamper.after E cfg (boot E cfg) pre).alive with
      | true => rfl
      | false =>
        have hr' : isRestart op = false := by
          cases op with
          | restart => exact absurd rfl hr
          | _ => rfl
        rw [savedBy_eq, step_dead (d := withFile none _) hr' ha] at hs
        cases hs
    rw [tamper_after_snoc, tamper_after_snoc]
    dsimp only
    obtain ⟨-, ⟨h1, -⟩ | ⟨b', m, h1, -, h3, -, -, h6⟩⟩ := own_step L hat hr ha (k.running ha)
    · rw [hs] at h1
      cases h1
    · obtain rfl : b = b' := Option.some.inj (hs.symm.trans h1)
      obtain ⟨-, c', q1, q2, -⟩ := saves_restore L h6.1 h3 cfg (Spec.Tamper.after E cfg (boot E cfg) evs).world.rnd
      refine ⟨⟨{ (Spec.Tamper.after E cfg (boot E cfg) evs).world with
        client := c', store := some b, rnd := (Spec.Tamper.after E cfg (boot E cfg) evs).world.rnd + 2 }, true⟩, ?_, q2⟩
      simp only [step, Processes.wrote, q1]

/-! ## What is not so -/

/-- A login at a device with one credential. -/
theorem single_login (L : Laws E) {d : Device} {s : Source} {data : Bytes} {args : GetAssertionArgs}
    (hh : Healthy E d.world.client) (ha : d.alive = true) (hp : d.world.client.pinEnabled = false)
    (hv : d.world.client.vault = [s]) (hm : Matches args.rpId args.allowList s) (hl : s.id.length = 16)
    (hk : s.key.ecdsa.isSome = true) (hd : E.decodeGetAssertion data = some args)
    (happ : ∀ rp user, E.approve d.world.asks .getAssertion rp user = true) :
    ∃ (body authData sig : Bytes) (ad : AuthData) (w' : World),
      step E cfg d (.ctap (0x02 :: data)) = (.answer (0 :: body), ⟨w', true⟩) ∧
      IsAssertion (0 :: body) s.id authData sig ∧ parseAuthData authData = some ad ∧
      ad.counter = (s.counter + 1).toNat ∧
      w'.client = { d.world.client with vault := [{ s with counter := s.counter + 1 }] } ∧ Healthy E w'.client ∧
      w'.rnd = d.world.rnd + 5 := by
  obtain ⟨body, w', h⟩ := Ctap.getAssertion_succeeds L (w := d.world) hh hd (flags := 0)
    (by simp [Ctap.getAssertionPIN, hp]) ⟨s, by rw [hv]; exact List.mem_singleton.2 rfl, hm⟩ (.inr happ)
  have hlen : body.length < 18446744073709551616 := by
    refine assertion_length L h ?_
    intro t ht
    rw [hv] at ht
    obtain rfl := List.mem_singleton.1 ht
    obtain ⟨k, hk⟩ := Option.isSome_iff_exists.1 hk
    have hv := (hh.2.2.2.2 t (by rw [hv]; exact List.mem_singleton.2 rfl)).2.1
    simp only [KeyValid, hk] at hv
    exact ⟨by omega, k, hk, hv⟩
  obtain ⟨args', i, t, rp, user, flags, blob, n, authData, sig, ad, h1, h2, -, -, -, h6, h7, h8, h9, -,
    h11, h12, h13, -, -, -, h17, -⟩ := Ctap.assertion_spec L h hlen
  have hnr := saves_rnd L h7
  have hi := h2.1
  rw [hv] at hi
  cases i with
  | succ i => simp at hi
  | zero =>
    obtain rfl : s = t := by simpa using hi
    refine ⟨body, authData, sig, ad, w', by rw [step_live rfl ha, perform_ctap', h]; rfl, h11, h12, h17, ?_, ?_, by omega⟩
    · rw [h6, hv]; rfl
    · rw [h6]; exact Ctap.healthy_bump hh 0

/-- A credential is made, used and deleted; then others put back what was saved when it was made. -/
theorem C125_case : ∃ (E : Env) (cfg : Client.Config) (make get b0 blob body body' authData authData' sig sig' : Bytes)
    (c : Cred) (ad ad' : AuthData) (d1 d2 d3 d : Device), Laws E ∧ Usable E cfg ∧ CanAttest E (boot E cfg).world.client ∧
    step E cfg (boot E cfg) (.ctap (0x01 :: make)) = (.answer b0, d1) ∧ announced b0 = some c ∧
    savedBy E cfg (boot E cfg) (.ctap (0x01 :: make)) = some blob ∧
    step E cfg d1 (.ctap (0x02 :: get)) = (.answer (0 :: body), d2) ∧
    IsAssertion (0 :: body) c.id authData sig ∧ parseAuthData authData = some ad ∧
    step E cfg d2 (.deleteIdentity c.id) = (.deleted true, d3) ∧
    step E cfg (Processes.wrote blob d3) .restart = (.started, d) ∧
    Hostile E cfg (boot E cfg) [.own (.ctap (0x01 :: make)), .own (.ctap (0x02 :: get)), .own (.deleteIdentity c.id), .wrote blob,
      .own .restart] ∧ Spec.Draws.Distinct E 32 d.world.rnd ∧
    (step E cfg d (.ctap (0x02 :: get))).1 = .answer (0 :: body') ∧
    IsAssertion (0 :: body') c.id authData' sig' ∧ parseAuthData authData' = some ad' ∧ ad'.counter = ad.counter := by
  let ap : List Ask → Action → Bytes → Bytes → Bool := fun _ _ _ _ => true
  have L := Toy.toy_laws ap
  let E := Toy.toy ap
  let cfg := Toy.config false
  have hu : Usable E cfg := Toy.config_usable ap false
  have hat := Toy.boot_attests ap false
  have hm := L.decode_makeCred _ otherMake_fits
  have hg := L.decode_getAssertion _ anyGet_fits
  obtain ⟨b0, w1, blob, m, n, h1, h2, h3, h4, h5, hr1, -⟩ := made L (w := (boot E cfg).world)
    (Toy.boot_healthy ap false) hat hm (rp := otherRp) (user := Toy.user)
    (by dsimp only [otherMake, Toy.makeArgs]; decide +kernel) rfl rfl (flags := 0) rfl rfl
  have s1 := step_ctap (E := E) (cfg := cfg) (d := boot E cfg) rfl h1
  obtain ⟨t, c, et, u0, v0, x0, -⟩ := creation_announces L h1
  have ev : w1.client.vault = [t] := et
  have ev' : w1.client.vault = [Vault.newIdentity E (some otherRp) (some Toy.user) 2] := by rw [h2]; rfl
  have e0 : t = Vault.newIdentity E (some otherRp) (some Toy.user) 2 := by
    rw [ev] at ev'; exact (List.cons.inj ev').1
  have hid : t.id = c.id := (Prod.mk.inj x0).1
  have hl : t.id.length = 16 := by rw [e0]; exact L.rand_length _ _
  have hk : t.key.ecdsa.isSome = true := by rw [e0]; rfl
  have hrp : t.rp = some otherRp := by rw [e0]; rfl
  have hma : ∀ s : Source, s.rp = some otherRp → Matches anyGet.rpId anyGet.allowList s := by
    intro s hs
    exact ⟨⟨otherRp, hs, rfl⟩, fun l hl => by cases hl⟩
  have hp1 : w1.client.pinEnabled = false := by rw [h2]; rfl
  obtain ⟨body, authData, sig, ad, w2, a1, a2, a3, a4, a5, a6, a7⟩ := single_login (cfg := cfg) (d := ⟨w1, true⟩) L h3 rfl hp1
    ev (hma t hrp) hl hk hg (fun _ _ => rfl)
  have hdel : ∃ d3, step E cfg ⟨w2, true⟩ (.deleteIdentity c.id) = (.deleted true, d3) ∧ d3.world.rnd ≤ w2.rnd + 4 := by
    rcases perform_delete E c.id w2 with ⟨q1, -⟩ | ⟨_, _, _, v', -, -, -, hp, ⟨_, q1, -⟩ | ⟨blob, n, q0, q1⟩⟩
    · exact absurd hid (q1 { t with counter := t.counter + 1 } (by rw [a5]; exact List.mem_singleton.2 rfl))
    · have hh' : Healthy E { w2.client with vault := v' } :=
        ⟨a6.1, a6.2.1, a6.2.2.1, a6.2.2.2.1, fun s hs => a6.2.2.2.2 s (hp.mem_iff.2 (List.mem_cons_of_mem _ hs))⟩
      obtain ⟨blob, hb⟩ := healthy_saves L hh' w2.rnd
      exact absurd hb (q1 _ _)
    · have := saves_rnd L q0
      exact ⟨⟨{ w2 with client := { w2.client with vault := v' }, store := some blob, rnd := n }, true⟩,
        by rw [step_live rfl rfl, q1], by dsimp only; omega⟩
  obtain ⟨d3, b1, b2⟩ := hdel
  obtain ⟨-, c', r1, r2, r3, -, -, -, -, r4⟩ := saves_restore L h3 h5 cfg d3.world.rnd
  have s4 : step E cfg (Processes.wrote blob d3) .restart =
      (.started, ⟨{ d3.world with client := c', store := some blob, rnd := d3.world.rnd + 2 }, true⟩) := by
    have r1' : Client.start E cfg (some blob) d3.world.rnd = .ok c' := r1
    simp only [step, Processes.wrote, r1']
  obtain ⟨-, -, -, p1, -, hsame⟩ := r2
  rw [ev] at hsame
  obtain ⟨hlen, hsame⟩ := hsame
  obtain ⟨t', hv'⟩ := List.length_eq_one_iff.1 hlen.symm
  rw [hv'] at hsame
  obtain ⟨y1, -, y3, y4⟩ := hsame 0 t t' rfl rfl
  have hrp' : t'.rp = some otherRp := by
    rw [(r4 t (by rw [ev]; rfl) t' (by rw [hv']; exact List.mem_singleton.2 rfl)).1]; exact hrp
  have hk' : t'.key.ecdsa.isSome = true := by
    rw [← y4.1]; exact hk
  have hp' : c'.pinEnabled = false := p1.symm.trans hp1
  obtain ⟨body', authData', sig', ad', w5, z1, z2, z3, z4, -⟩ := single_login (cfg := cfg)
    (d := ⟨{ d3.world with client := c', store := some blob, rnd := d3.world.rnd + 2 }, true⟩) L r3 rfl hp'
    hv' (hma t' hrp') (by rw [← y1]; exact hl) hk' hg (fun _ _ => rfl)
  have hsb : savedBy E cfg (boot E cfg) (.ctap (0x01 :: Cbor.encode (Spec.Platform.makeCredItem otherMake))) = some blob := by
    show (step E cfg (boot E cfg) _).2.world.store = _
    rw [s1]; exact h4
  refine ⟨E, cfg, _, _, _, blob, body, body', authData, authData', sig, sig', c, ad, ad', _, _, d3, _, L, hu, hat, s1, v0, hsb, a1,
    by rw [← hid]; exact a2, a3, b1, s4, ?_, ?_, by rw [z1], by rw [← hid, y1]; exact z2, z3, by rw [z4, a4, y3]⟩
  · intro pre data post h
    rcases pre with _ | ⟨x1, _ | ⟨x2, _ | ⟨x3, _ | ⟨x4, _ | ⟨x5, pre⟩⟩⟩⟩⟩
    · cases h
    · cases h
    · cases h
    · cases h
      refine C125_old_unforged ?_
      exact saved_mem (pre := []) rfl hsb
    · cases h
    · simp at h
  · refine toy_distinct _ (by omega) ?_
    have n1 : w1.rnd ≤ 2 + 8 := hr1.2
    have : w2.rnd = w1.rnd + 5 := a7
    show d3.world.rnd + 2 ≤ 256
    omega

/-- A deleted credential does not stay deleted if others can write into the file. -/
theorem C125_deleted_returns_refuted : ¬ ∀ (E : Env) (cfg : Client.Config) (pre post : List Event) (d d' : Device)
    (id get body authData sig : Bytes), Laws E → Usable E cfg → CanAttest E (boot E cfg).world.client →
    Hostile E cfg (boot E cfg) (pre ++ .own (.deleteIdentity id) :: post) →
    step E cfg (Spec.Tamper.after E cfg (boot E cfg) pre) (.deleteIdentity id) = (.deleted true, d') →
    (∀ data, .own (.ctap (0x01 :: data)) ∉ post) →
    Spec.Tamper.after E cfg (boot E cfg) (pre ++ .own (.deleteIdentity id) :: post) = d →
    Spec.Draws.Distinct E 32 d.world.rnd →
    (step E cfg d (.ctap (0x02 :: get))).1 = .answer (0 :: body) → ¬ IsAssertion (0 :: body) id authData sig := by
  intro hall
  obtain ⟨E, cfg, make, get, b0, blob, body, body', authData, authData', sig, sig', c, ad, ad', d1, d2, d3, d, L, hu, hat, h1, h2, h3,
    h4, h5, h6, h7, h8, h9, h10, h11, h12, h13, h14⟩ := C125_case
  refine hall E cfg [.own (.ctap (0x01 :: make)), .own (.ctap (0x02 :: get))] [.wrote blob, .own .restart] d d3 c.id get body'
    authData' sig' L hu hat h9 ?_ (by simp) ?_ h10 h11 h12
  · simp only [Spec.Tamper.after, Processes.run, h1, h4, h7]
  · simp only [Spec.Tamper.after, List.cons_append, List.nil_append, Processes.run, h1, h4, h7, h8]

/-- Signature counters do not increase if others can write into the file. -/
theorem C125_counters_refuted : ¬ ∀ (E : Env) (cfg : Client.Config) (pre post : List Event) (d d1 d2 : Device)
    (id get get' body body' authData authData' sig sig' : Bytes) (ad ad' : AuthData), Laws E → Usable E cfg →
    CanAttest E (boot E cfg).world.client →
    Hostile E cfg (boot E cfg) (pre ++ .own (.ctap (0x02 :: get)) :: post) →
    Spec.Tamper.after E cfg (boot E cfg) pre = d1 →
    step E cfg d1 (.ctap (0x02 :: get)) = (.answer (0 :: body), d2) → IsAssertion (0 :: body) id authData sig →
    parseAuthData authData = some ad →
    Spec.Tamper.after E cfg (boot E cfg) (pre ++ .own (.ctap (0x02 :: get)) :: post) = d →
    Spec.Draws.Distinct E 32 d.world.rnd →
    (step E cfg d (.ctap (0x02 :: get'))).1 = .answer (0 :: body') → IsAssertion (0 :: body') id authData' sig' →
    parseAuthData authData' = some ad' → ad.counter < ad'.counter := by
  intro hall
  obtain ⟨E, cfg, make, get, b0, blob, body, body', authData, authData', sig, sig', c, ad, ad', d1, d2, d3, d, L, hu, hat, h1, h2, h3,
    h4, h5, h6, h7, h8, h9, h10, h11, h12, h13, h14⟩ := C125_case
  refine absurd (hall E cfg [.own (.ctap (0x01 :: make))] [.own (.deleteIdentity c.id), .wrote blob, .own .restart] d d1 d2 c.id get
    get body body' authData authData' sig sig' ad ad' L hu hat h9 ?_ h4 h5 h6 ?_ h10 h11 h12 h13) (by omega)
  · simp only [Spec.Tamper.after, Processes.run, h1]
  · simp only [Spec.Tamper.after, List.cons_append, List.nil_append, Processes.run, h1, h4, h7, h8]

end VF.Props
