import Verif.Proofs.Accounts
import Verif.Props.Restart

/-!
# C124: which credential answers a login

The list of `Verif.Spec.Accounts` is kept from requests and answers alone. It tells which credential every login
uses, over any history with starts and crashes.
-/

namespace VF.Props

open VF.Fido VF.Fido.Device VF.Spec.Client VF.Spec.Vault VF.Spec.History VF.Spec.Ctap VF.Spec.Store VF.Spec.Accounts

variable {E : Env} {cfg : Client.Config}

/-- A successful login names the first credential of the list that is for the relying party and in its allow list
(if it sent one). -/
theorem C124_answers (L : Laws E) (hu : Usable E cfg) (hat : CanAttest E (boot E cfg).world.client) (ops : List Op)
    {d d' : Device} {data body : Bytes} (h0 : after E cfg (boot E cfg) ops = d)
    (h : step E cfg d (.ctap (0x02 :: data)) = (.answer (0 :: body), d')) :
    ∃ (args : GetAssertionArgs) (e : Entry) (authData sig : Bytes), E.decodeGetAssertion data = some args ∧
      chosen (entries E (events E cfg (boot E cfg) ops)) args = some e ∧
      IsAssertion (0 :: body) e.id authData sig := by
  have hi := tracks_reachable L hu hat ops
  rw [h0] at hi
  exact tracks_login L h hi

/-- With no such credential the login is answered "no credentials". -/
theorem C124_no_credentials (L : Laws E) (hu : Usable E cfg) (hat : CanAttest E (boot E cfg).world.client)
    (ops : List Op) {d : Device} {data : Bytes} {args : GetAssertionArgs} (h0 : after E cfg (boot E cfg) ops = d)
    (halive : d.alive = true) (hargs : E.decodeGetAssertion data = some args)
    (hpin : AssertionPinOk E d.world.client args)
    (hnone : chosen (entries E (events E cfg (boot E cfg) ops)) args = none) :
    (step E cfg d (.ctap (0x02 :: data))).1 = .answer [0x2E] := by
  have hi := tracks_reachable L hu hat ops
  rw [h0] at hi
  obtain ⟨c, hh, -, ht, hc⟩ := hi
  obtain rfl := hc halive
  have g := (C49_no_credentials_iff (E := E) (w := d.world) (data := data) hh).2
    ⟨args, hargs, hpin, chosen_none ht hnone⟩
  rw [step_live rfl halive, perform_ctap']
  rw [g]
  rfl

/-- With such a credential an approved login succeeds, and names it. -/
theorem C124_found (L : Laws E) (hu : Usable E cfg) (hat : CanAttest E (boot E cfg).world.client)
    (ops : List Op) {d : Device} {data : Bytes} {args : GetAssertionArgs} {e : Entry}
    (h0 : after E cfg (boot E cfg) ops = d)
    (halive : d.alive = true) (hargs : E.decodeGetAssertion data = some args)
    (hpin : AssertionPinOk E d.world.client args)
    (hsome : chosen (entries E (events E cfg (boot E cfg) ops)) args = some e)
    (happrove : args.up = some false ∨ ∀ rp user, E.approve d.world.asks .getAssertion rp user = true) :
    ∃ (body authData sig : Bytes) (d' : Device), step E cfg d (.ctap (0x02 :: data)) = (.answer (0 :: body), d') ∧
      IsAssertion (0 :: body) e.id authData sig := by
  have hi := tracks_reachable L hu hat ops
  rw [h0] at hi
  have hi' := hi
  obtain ⟨c, hh, -, ht, hc⟩ := hi
  obtain rfl := hc halive
  obtain ⟨fl, hfl⟩ := (assertionPinOk_iff E d.world.client args).1 hpin
  obtain ⟨body, w', hm⟩ := Ctap.getAssertion_succeeds L (w := d.world) hh hargs hfl (chosen_some ht hsome) happrove
  have hst : step E cfg d (.ctap (0x02 :: data)) = (.answer (0 :: body), ⟨w', true⟩) := by
    rw [step_live rfl halive, perform_ctap', hm]
    rfl
  obtain ⟨args', e', authData, sig, q1, q2, q3⟩ := tracks_login L hst hi'
  obtain rfl : args = args' := by rw [hargs] at q1; exact Option.some.inj q1
  obtain rfl : e = e' := by rw [hsome] at q2; exact Option.some.inj q2
  exact ⟨body, authData, sig, _, hst, q3⟩

/-- Every credential of the list can be used: a login of its relying party that names it. -/
theorem C124_usable (L : Laws E) (hu : Usable E cfg) (hat : CanAttest E (boot E cfg).world.client)
    (ops : List Op) {d : Device} {data : Bytes} {args : GetAssertionArgs} {e : Entry} {desc : Descriptor}
    (h0 : after E cfg (boot E cfg) ops = d)
    (hmem : e ∈ entries E (events E cfg (boot E cfg) ops))
    (halive : d.alive = true) (hargs : E.decodeGetAssertion data = some args)
    (hid : args.rpId = e.rp) (hallow : args.allowList = some [desc]) (hdesc : desc.id = e.id)
    (hpin : AssertionPinOk E d.world.client args)
    (happrove : args.up = some false ∨ ∀ rp user, E.approve d.world.asks .getAssertion rp user = true) :
    ∃ (body authData sig : Bytes) (d' : Device), step E cfg d (.ctap (0x02 :: data)) = (.answer (0 :: body), d') ∧
      IsAssertion (0 :: body) e.id authData sig := by
  have hall : ∀ f : Entry, (f.rp == args.rpId && Spec.RelyingParty.allowed args.allowList f.id) = true ↔
      f.rp = e.rp ∧ f.id = e.id := by
    intro f
    rw [hid, hallow]
    simp only [Spec.RelyingParty.allowed, hdesc, List.any_cons, List.any_nil, Bool.or_false, Bool.and_eq_true,
      beq_iff_eq]
    exact and_congr_right fun _ => eq_comm
  cases hc : chosen (entries E (events E cfg (boot E cfg) ops)) args with
  | none => exact absurd ((hall e).2 ⟨rfl, rfl⟩) (List.find?_eq_none.1 hc e hmem)
  | some f =>
    have hf : (f.rp == args.rpId && Spec.RelyingParty.allowed args.allowList f.id) = true := by
      unfold chosen at hc
      exact List.find?_some (p := fun e : Entry => e.rp == args.rpId && Spec.RelyingParty.allowed args.allowList e.id) hc
    have hf := (hall f).1 hf
    rw [← hf.2]
    exact C124_found L hu hat ops h0 halive hargs hpin hc happrove

/-! ## Without deletions and starts -/

theorem note_other (l : List Entry) {op : Op} {reply : Reply} (hr : (op, reply) ≠ (.restart, .started))
    (hd : ∀ id, (op, reply) ≠ (.deleteIdentity id, .deleted true)) :
    note E l (op, reply) = l ∨
      ∃ data b rp c, (op, reply) = (.ctap (1 :: data), .answer b) ∧
        (E.decodeMakeCred data).bind (·.rp) = some rp ∧ announced b = some c ∧
        note E l (op, reply) = l ++ [⟨rp.id, c.id⟩] := by
  unfold note
  split
  · rename_i data b heq
    split
    · rename_i rp c h1 h2
      exact .inr ⟨data, b, rp, c, heq, h1, h2, rfl⟩
    · exact .inl rfl
  · rename_i id heq
    exact absurd heq (hd id)
  · rename_i heq
    exact absurd heq hr
  · exact .inl rfl

theorem note_keeps (seen : List (Op × Reply)) (hr : (.restart, .started) ∉ seen)
    (hd : ∀ id, (.deleteIdentity id, .deleted true) ∉ seen) :
    ∀ l : List Entry, ∃ more, seen.foldl (note E) l = l ++ more := by
  induction seen with
  | nil => exact fun l => ⟨[], (List.append_nil l).symm⟩
  | cons x seen ih =>
    intro l
    obtain ⟨op, reply⟩ := x
    rw [List.foldl_cons]
    have ih := ih (fun h => hr (List.mem_cons_of_mem _ h)) (fun id h => hd id (List.mem_cons_of_mem _ h))
    rcases note_other (E := E) l (op := op) (reply := reply) (fun e => hr (by rw [← e]; exact List.mem_cons_self ..))
      (fun id e => hd id (by rw [← e]; exact List.mem_cons_self ..)) with e | ⟨_, _, rp, c, -, -, -, e⟩
    · rw [e]; exact ih l
    · rw [e]
      obtain ⟨more, h⟩ := ih (l ++ [⟨rp.id, c.id⟩])
      exact ⟨⟨rp.id, c.id⟩ :: more, by rw [h, List.append_assoc]; rfl⟩

/-- What no creation was announced for is not in the list. -/
theorem note_absent (rpId : Bytes) (seen : List (Op × Reply)) (hr : (.restart, .started) ∉ seen)
    (hd : ∀ id, (.deleteIdentity id, .deleted true) ∉ seen)
    (hn : ∀ data b args rp c, (.ctap (1 :: data), .answer b) ∈ seen → E.decodeMakeCred data = some args →
      args.rp = some rp → rp.id = rpId → announced b ≠ some c) :
    ∀ l : List Entry, (∀ e ∈ l, e.rp ≠ rpId) → ∀ e ∈ seen.foldl (note E) l, e.rp ≠ rpId := by
  induction seen with
  | nil => exact fun l h => h
  | cons x seen ih =>
    intro l hl
    obtain ⟨op, reply⟩ := x
    rw [List.foldl_cons]
    refine ih (fun h => hr (List.mem_cons_of_mem _ h)) (fun id h => hd id (List.mem_cons_of_mem _ h))
      (fun data b args rp c h => hn data b args rp c (List.mem_cons_of_mem _ h)) _ ?_
    rcases note_other (E := E) l (op := op) (reply := reply) (fun e => hr (by rw [← e]; exact List.mem_cons_self ..))
      (fun id e => hd id (by rw [← e]; exact List.mem_cons_self ..)) with e | ⟨data, b, rp, c, e0, e1, e2, e⟩
    · rw [e]; exact hl
    · rw [e]
      intro f hf
      rcases List.mem_append.1 hf with hf | hf
      · exact hl f hf
      · obtain rfl := List.mem_singleton.1 hf
        obtain ⟨args, a1, a2⟩ := Option.bind_eq_some_iff.1 e1
        intro he
        exact hn data b args rp c (by rw [← e0]; exact List.mem_cons_self ..) a1 a2 he e2

/-- As long as nothing was deleted and the program not started again: a login without an allow list uses the
credential that was created first for the relying party, whatever was created later. -/
theorem C124_first_made (L : Laws E) (hu : Usable E cfg) (hat : CanAttest E (boot E cfg).world.client)
    (ops : List Op) {pre post : List (Op × Reply)} {make b get body : Bytes} {d d' : Device} {margs : MakeCredArgs}
    {rp : RPEntity} {c : Cred} {args : GetAssertionArgs} (h0 : after E cfg (boot E cfg) ops = d)
    (hseen : events E cfg (boot E cfg) ops = pre ++ (.ctap (0x01 :: make), .answer b) :: post)
    (hmake : E.decodeMakeCred make = some margs) (hrp : margs.rp = some rp) (hb : announced b = some c)
    (hfirst : ∀ data b' args' rp' c', (.ctap (0x01 :: data), .answer b') ∈ pre → E.decodeMakeCred data = some args' →
      args'.rp = some rp' → rp'.id = rp.id → announced b' ≠ some c')
    (hr : (.restart, .started) ∉ events E cfg (boot E cfg) ops)
    (hd : ∀ id, (.deleteIdentity id, .deleted true) ∉ events E cfg (boot E cfg) ops)
    (hget : E.decodeGetAssertion get = some args) (hid : args.rpId = rp.id) (hallow : args.allowList = none)
    (h : step E cfg d (.ctap (0x02 :: get)) = (.answer (0 :: body), d')) :
    ∃ authData sig, IsAssertion (0 :: body) c.id authData sig := by
  obtain ⟨args', e, authData, sig, q1, q2, q3⟩ := C124_answers L hu hat ops h0 h
  obtain rfl : args = args' := by rw [hget] at q1; exact Option.some.inj q1
  refine ⟨authData, sig, ?_⟩
  rw [hseen] at hr hd q2
  have hr1 : (.restart, .started) ∉ pre := fun h => hr (List.mem_append_left _ h)
  have hd1 : ∀ id, (.deleteIdentity id, .deleted true) ∉ pre := fun id h => hd id (List.mem_append_left _ h)
  have hr2 : (.restart, .started) ∉ post := fun h => hr (List.mem_append_right _ (List.mem_cons_of_mem _ h))
  have hd2 : ∀ id, (.deleteIdentity id, .deleted true) ∉ post :=
    fun id h => hd id (List.mem_append_right _ (List.mem_cons_of_mem _ h))
  have habs := note_absent rp.id pre hr1 hd1 hfirst [] (fun e he => by cases he)
  obtain ⟨more, hmore⟩ := note_keeps (E := E) post hr2 hd2 (pre.foldl (note E) [] ++ [⟨rp.id, c.id⟩])
  have hn : note E (pre.foldl (note E) []) (.ctap (0x01 :: make), .answer b) =
      pre.foldl (note E) [] ++ [⟨rp.id, c.id⟩] := by
    simp only [note, hmake, hrp, hb, Option.bind_some]
  rw [entries, List.foldl_append, List.foldl_cons, hn, hmore, chosen, List.append_assoc, List.find?_append,
    List.find?_eq_none.2 (fun f hf => by simp [hid, habs f hf]), Option.none_or, List.singleton_append,
    List.find?_cons_of_pos (by simp [hid, hallow, Spec.RelyingParty.allowed])] at q2
  obtain rfl := Option.some.inj q2
  exact q3

/-! ## What is not so -/

/-- A request of the other relying party, naming no credential. -/
def anyGet : GetAssertionArgs := { Toy.getArgs none none none with rpId := ascii "other.org" }

theorem anyGet_fits : Spec.Platform.GetAssertionFits anyGet := by
  refine ⟨otherRp_fits.1, Toy.short_of_small (by dsimp only [anyGet, Toy.getArgs]; decide), ?_, ?_⟩
  · intro l hl
    simp [anyGet, Toy.getArgs] at hl
  · intro b hb
    simp [anyGet, Toy.getArgs] at hb

/-- A device whose list is known, with a login that succeeds. -/
theorem accounts_login (L : Laws E) {l : List Entry} {d : Device} {data : Bytes} {args : GetAssertionArgs} {e : Entry}
    (hi : Inv E cfg (fun _ => Tracks l) d) (ha : d.alive = true) (hp : d.world.client.pinEnabled = false)
    (hd : E.decodeGetAssertion data = some args) (hc : chosen l args = some e)
    (happ : ∀ rp user, E.approve d.world.asks .getAssertion rp user = true) :
    ∃ (body authData sig : Bytes) (d' : Device), step E cfg d (.ctap (0x02 :: data)) = (.answer (0 :: body), d') ∧
      IsAssertion (0 :: body) e.id authData sig := by
  have hi' := hi
  obtain ⟨c, hh, -, ht, hcc⟩ := hi
  obtain rfl := hcc ha
  obtain ⟨body, w', hm⟩ := Ctap.getAssertion_succeeds L (w := d.world) hh hd (flags := 0)
    (by simp [Ctap.getAssertionPIN, hp]) (chosen_some ht hc) (.inr happ)
  have hst : step E cfg d (.ctap (0x02 :: data)) = (.answer (0 :: body), ⟨w', true⟩) := by
    rw [step_live rfl ha, perform_ctap', hm]
    rfl
  obtain ⟨args', e', authData, sig, q1, q2, q3⟩ := tracks_login L hst hi'
  obtain rfl : args = args' := by rw [hd] at q1; exact Option.some.inj q1
  obtain rfl : e = e' := by rw [hc] at q2; exact Option.some.inj q2
  exact ⟨body, authData, sig, _, hst, q3⟩

/-- A credential of the list can be deleted. -/
theorem accounts_delete (L : Laws E) {l : List Entry} {d : Device} {id : Bytes} (hi : Inv E cfg (fun _ => Tracks l) d)
    (ha : d.alive = true) (hm : ∃ e ∈ l, e.id = id) :
    ∃ d', step E cfg d (.deleteIdentity id) = (.deleted true, d') ∧ d'.alive = true ∧
      d'.world.client.pinEnabled = d.world.client.pinEnabled ∧ d'.world.asks = d.world.asks := by
  obtain ⟨c, hh, -, ht, hc⟩ := hi
  obtain rfl := hc ha
  obtain ⟨e, he, rfl⟩ := hm
  obtain ⟨i, hi⟩ := List.mem_iff_getElem?.1 he
  have g := ht.get i
  rw [hi, Option.map_some] at g
  obtain ⟨s, hs, ef⟩ := Option.map_eq_some_iff.1 g
  rcases perform_delete E e.id d.world with ⟨h1, -⟩ | ⟨_, _, _, v', -, -, -, hp, ⟨_, h1, -⟩ | ⟨blob, n, -, h1⟩⟩
  · exact absurd (Prod.mk.inj ef).2 (h1 s (List.mem_of_getElem? hs))
  · have hh' : Healthy E { d.world.client with vault := v' } :=
      ⟨hh.1, hh.2.1, hh.2.2.1, hh.2.2.2.1, fun s hs => hh.2.2.2.2 s (hp.mem_iff.2 (List.mem_cons_of_mem _ hs))⟩
    obtain ⟨blob, hb⟩ := healthy_saves L hh' d.world.rnd
    exact absurd hb (h1 _ _)
  · refine ⟨⟨{ d.world with client := { d.world.client with vault := v' }, store := some blob, rnd := n }, true⟩, ?_, rfl, rfl,
      rfl⟩
    rw [step_live rfl ha, h1]

/-- A credential for one relying party and two for another, made with the same request. -/
theorem C124_case : ∃ (E : Env) (cfg : Client.Config) (makeA makeB get b0 b1 b2 body body' : Bytes)
    (margsA margsB : MakeCredArgs) (args : GetAssertionArgs) (rpA rpB : RPEntity) (c0 c1 c2 : Cred) (d d' : Device)
    (authData sig authData' sig' : Bytes),
    Laws E ∧ Usable E cfg ∧ CanAttest E (boot E cfg).world.client ∧
    E.decodeMakeCred makeA = some margsA ∧ margsA.rp = some rpA ∧
    E.decodeMakeCred makeB = some margsB ∧ margsB.rp = some rpB ∧ margsB.user ≠ none ∧ rpA.id ≠ rpB.id ∧
    E.decodeGetAssertion get = some args ∧ args.rpId = rpB.id ∧ args.allowList = none ∧
    events E cfg (boot E cfg) [.ctap (0x01 :: makeA), .ctap (0x01 :: makeB), .ctap (0x01 :: makeB)] =
      [(.ctap (0x01 :: makeA), .answer b0), (.ctap (0x01 :: makeB), .answer b1), (.ctap (0x01 :: makeB), .answer b2)] ∧
    announced b0 = some c0 ∧ announced b1 = some c1 ∧ announced b2 = some c2 ∧ c1.id ≠ c2.id ∧
    c1.id ≠ c0.id ∧ c2.id ≠ c0.id ∧
    after E cfg (boot E cfg) [.ctap (0x01 :: makeA), .ctap (0x01 :: makeB), .ctap (0x01 :: makeB)] = d ∧
    (step E cfg d (.ctap (0x02 :: get))).1 = .answer (0 :: body) ∧ IsAssertion (0 :: body) c1.id authData sig ∧
    step E cfg d (.deleteIdentity c0.id) = (.deleted true, d') ∧
    (step E cfg d' (.ctap (0x02 :: get))).1 = .answer (0 :: body') ∧
    IsAssertion (0 :: body') c2.id authData' sig' := by
  let ap : List Ask → Action → Bytes → Bytes → Bool := fun _ _ _ _ => true
  have L := Toy.toy_laws ap
  let E := Toy.toy ap
  let cfg := Toy.config false
  have hu : Usable E cfg := Toy.config_usable ap false
  have hat := Toy.boot_attests ap false
  have hm1 := Toy.make_decodes ap [] none (.inl rfl) (by simp)
  have hm2 := L.decode_makeCred _ otherMake_fits
  have hg := L.decode_getAssertion _ anyGet_fits
  obtain ⟨b0, w1, -, -, -, h1, h2, h3, -, -, hr1, -⟩ := made L (w := (boot E cfg).world)
    (Toy.boot_healthy ap false) hat hm1
    (by dsimp only [Toy.makeArgs]; decide +kernel) rfl rfl (flags := 0) rfl rfl
  have s1 := step_ctap (E := E) (cfg := cfg) (d := boot E cfg) rfl h1
  have hat1 : CanAttest E w1.client := by rw [h2]; exact hat
  have hp1 : w1.client.pinEnabled = false := by rw [h2]; rfl
  obtain ⟨b1, w2, -, -, -, k1, k2, k3, -, -, hr2, -⟩ := made L (w := w1) h3 hat1 hm2
    (rp := otherRp) (user := Toy.user)
    (by dsimp only [otherMake, Toy.makeArgs]; decide +kernel) rfl rfl (flags := 0)
    (by simp [Ctap.makeCredentialPIN, hp1]) rfl
  have s2 := step_ctap (E := E) (cfg := cfg) (d := ⟨w1, true⟩) rfl k1
  have hat2 : CanAttest E w2.client := by rw [k2]; exact hat1
  have hp2 : w2.client.pinEnabled = false := by rw [k2]; exact hp1
  obtain ⟨b2, w3, -, -, -, g1, g2, g3, -, -, hr3, -⟩ := made L (w := w2) k3 hat2 hm2
    (rp := otherRp) (user := Toy.user)
    (by dsimp only [otherMake, Toy.makeArgs]; decide +kernel) rfl rfl (flags := 0)
    (by simp [Ctap.makeCredentialPIN, hp2]) rfl
  have s3 := step_ctap (E := E) (cfg := cfg) (d := ⟨w2, true⟩) rfl g1
  have hat3 : CanAttest E w3.client := by rw [g2]; exact hat2
  have hp3 : w3.client.pinEnabled = false := by rw [g2]; exact hp2
  obtain ⟨t0, c0, -, u0, v0, x0, -⟩ := creation_announces L h1
  obtain ⟨t1, c1, -, u1, v1, x1, -⟩ := creation_announces L k1
  obtain ⟨t2, c2, -, u2, v2, x2, -⟩ := creation_announces L g1
  have i0 : c0.id = E.rand 2 16 := by rw [← (Prod.mk.inj x0).1]; exact u0
  have i1 : c1.id = E.rand w1.rnd 16 := by rw [← (Prod.mk.inj x1).1]; exact u1
  have i2 : c2.id = E.rand w2.rnd 16 := by rw [← (Prod.mk.inj x2).1]; exact u2
  have n1 : 2 < w1.rnd ∧ w1.rnd ≤ 2 + 8 := hr1
  have ne : ∀ i j, i < j → j < 256 → E.rand i 16 ≠ E.rand j 16 := by
    intro i j hij hj e
    have := Toy.toy_draws ap (n := 256) (Nat.le_refl _) i j (by omega) (by omega) e
    omega
  have ne12 : c1.id ≠ c2.id := by rw [i1, i2]; exact ne _ _ hr2.1 (by omega)
  have ne10 : c1.id ≠ c0.id := by rw [i1, i0]; exact (ne _ _ n1.1 (by omega)).symm
  have ne20 : c2.id ≠ c0.id := by rw [i2, i0]; exact (ne _ _ (by omega) (by omega)).symm
  have hev : events E cfg (boot E cfg) [.ctap (0x01 :: Toy.makeData [] none),
      .ctap (0x01 :: Cbor.encode (Spec.Platform.makeCredItem otherMake)),
      .ctap (0x01 :: Cbor.encode (Spec.Platform.makeCredItem otherMake))] =
      [(.ctap (0x01 :: Toy.makeData [] none), .answer (0 :: b0)),
        (.ctap (0x01 :: Cbor.encode (Spec.Platform.makeCredItem otherMake)), .answer (0 :: b1)),
        (.ctap (0x01 :: Cbor.encode (Spec.Platform.makeCredItem otherMake)), .answer (0 :: b2))] := by
    rw [events_cons, s1, events_cons, s2, events_cons, s3]; rfl
  have haf : after E cfg (boot E cfg) [.ctap (0x01 :: Toy.makeData [] none),
      .ctap (0x01 :: Cbor.encode (Spec.Platform.makeCredItem otherMake)),
      .ctap (0x01 :: Cbor.encode (Spec.Platform.makeCredItem otherMake))] = ⟨w3, true⟩ := by
    rw [after_cons, s1, after_cons, s2, after_cons, s3]; rfl
  have hi := tracks_reachable (cfg := cfg) L hu hat [.ctap (0x01 :: Toy.makeData [] none),
      .ctap (0x01 :: Cbor.encode (Spec.Platform.makeCredItem otherMake)),
      .ctap (0x01 :: Cbor.encode (Spec.Platform.makeCredItem otherMake))]
  rw [haf, hev] at hi
  have el : entries E [(.ctap (0x01 :: Toy.makeData [] none), .answer (0 :: b0)),
        (.ctap (0x01 :: Cbor.encode (Spec.Platform.makeCredItem otherMake)), .answer (0 :: b1)),
        (.ctap (0x01 :: Cbor.encode (Spec.Platform.makeCredItem otherMake)), .answer (0 :: b2))] =
      [⟨Toy.rp.id, c0.id⟩, ⟨otherRp.id, c1.id⟩, ⟨otherRp.id, c2.id⟩] := by
    have e1 : (E.decodeMakeCred (Toy.makeData [] none)).bind (·.rp) = some Toy.rp := by rw [hm1]; rfl
    have e2 : (E.decodeMakeCred (Cbor.encode (Spec.Platform.makeCredItem otherMake))).bind (·.rp) = some otherRp := by
      rw [hm2]; rfl
    simp only [entries, List.foldl_cons, List.foldl_nil, note, e1, e2, v0, v1, v2]
    rfl
  rw [el] at hi
  have hne : Toy.rp.id ≠ otherRp.id := by dsimp only [Toy.rp, otherRp]; decide +kernel
  have hrpid : anyGet.rpId = otherRp.id := rfl
  have hal : ∀ id, Spec.RelyingParty.allowed anyGet.allowList id = true := fun _ => rfl
  obtain ⟨body, authData, sig, d1, l1, l2⟩ := accounts_login (E := E) (cfg := cfg) (d := ⟨w3, true⟩)
    (e := ⟨otherRp.id, c1.id⟩) L hi rfl hp3 hg
    (by simp [chosen, hrpid, hne, hal]) (fun _ _ => rfl)
  obtain ⟨d2, m1, m2, m3, m4⟩ := accounts_delete (E := E) (cfg := cfg) (d := ⟨w3, true⟩) (id := c0.id) L hi rfl
    ⟨_, List.mem_cons_self .., rfl⟩
  have hi2 := tracks_step (cfg := cfg) (op := .deleteIdentity c0.id) L (fun _ => hat3) hi
  rw [m1] at hi2
  have en : note E [⟨Toy.rp.id, c0.id⟩, ⟨otherRp.id, c1.id⟩, ⟨otherRp.id, c2.id⟩] (.deleteIdentity c0.id, .deleted true) =
      [⟨otherRp.id, c2.id⟩, ⟨otherRp.id, c1.id⟩] := by
    simp [note, takeOut]
  rw [en] at hi2
  obtain ⟨body', authData', sig', d3, l3, l4⟩ := accounts_login (E := E) (cfg := cfg) (d := d2)
    (e := ⟨otherRp.id, c2.id⟩) L hi2 m2 (m3.trans hp3) hg
    (by simp [chosen, hrpid, hal]) (fun _ _ => rfl)
  exact ⟨E, cfg, _, _, _, _, _, _, body, body', _, _, _, Toy.rp, otherRp, c0, c1, c2, _, d2, authData, sig, authData', sig',
    L, hu, hat, hm1, rfl, hm2, rfl, (nomatch ·), hne, hg, rfl, rfl, hev, v0, v1, v2, ne12, ne10, ne20, haf, by rw [l1], l2, m1,
    by rw [l3], l4⟩

/-- Registering an account once more does not replace it: after the same request was carried out twice, a login that
names no credential is answered with the old one. -/
theorem C124_replaced_refuted : ¬ ∀ (E : Env) (cfg : Client.Config) (ops : List Op) (pre post : List (Op × Reply))
    (make b get body id authData sig : Bytes) (margs : MakeCredArgs) (args : GetAssertionArgs) (rp : RPEntity)
    (c : Cred) (d : Device), Laws E → Usable E cfg → CanAttest E (boot E cfg).world.client →
    events E cfg (boot E cfg) ops = pre ++ (.ctap (0x01 :: make), .answer b) :: post →
    E.decodeMakeCred make = some margs → margs.rp = some rp → margs.user ≠ none → announced b = some c →
    (∃ b', (.ctap (0x01 :: make), .answer b') ∈ post ∧ announced b' ≠ none) →
    E.decodeGetAssertion get = some args → args.rpId = rp.id → args.allowList = none →
    after E cfg (boot E cfg) ops = d → (step E cfg d (.ctap (0x02 :: get))).1 = .answer (0 :: body) →
    IsAssertion (0 :: body) id authData sig → id ≠ c.id := by
  intro hall
  obtain ⟨E, cfg, makeA, makeB, get, b0, b1, b2, body, _, _, margs, args, _, rp, _, c1, c2, d, _, authData, sig, _, _, L, hu,
    hat, -, -, h1, h2, h3, -, h4, h5, h6, h7, -, h8, h9, -, -, -, h10, h11, h12, -⟩ := C124_case
  exact hall E cfg _ [(.ctap (0x01 :: makeA), .answer b0)] [(.ctap (0x01 :: makeB), .answer b2)] makeB b1 get body c1.id authData
    sig margs args rp c1 d L hu hat h7 h1 h2 h3 h8
    ⟨b2, List.mem_singleton.2 rfl, by rw [h9]; exact (nomatch ·)⟩ h4 h5 h6 h10 h11 h12 rfl

/-- Deleting a credential of one relying party can change with which account the user is logged in at another. -/
theorem C124_elsewhere_refuted : ¬ ∀ (E : Env) (cfg : Client.Config) (ops : List Op) (d d' : Device)
    (get body body' id id' authData authData' sig sig' gone : Bytes) (args : GetAssertionArgs), Laws E → Usable E cfg →
    CanAttest E (boot E cfg).world.client → after E cfg (boot E cfg) ops = d → E.decodeGetAssertion get = some args →
    step E cfg d (.deleteIdentity gone) = (.deleted true, d') →
    (∀ e ∈ entries E (events E cfg (boot E cfg) ops), e.id = gone → e.rp ≠ args.rpId) →
    (step E cfg d (.ctap (0x02 :: get))).1 = .answer (0 :: body) → IsAssertion (0 :: body) id authData sig →
    (step E cfg d' (.ctap (0x02 :: get))).1 = .answer (0 :: body') → IsAssertion (0 :: body') id' authData' sig' →
    id = id' := by
  intro hall
  obtain ⟨E, cfg, makeA, makeB, get, b0, b1, b2, body, body', margsA, margs, args, rpA, rp, c0, c1, c2, d, d', authData, sig,
    authData', sig', L, hu, hat, g1, g2, h1, h2, -, g3, h4, h5, h6, h7, g4, h8, h9, hne, n10, n20, h10, h11, h12, h13, h14, h15⟩ :=
    C124_case
  refine hne (hall E cfg _ d d' get body body' c1.id c2.id authData authData' sig sig' c0.id args L hu hat h10 h4 h13 ?_ h11 h12
    h14 h15)
  have el : entries E [(.ctap (0x01 :: makeA), .answer b0), (.ctap (0x01 :: makeB), .answer b1),
      (.ctap (0x01 :: makeB), .answer b2)] = [⟨rpA.id, c0.id⟩, ⟨rp.id, c1.id⟩, ⟨rp.id, c2.id⟩] := by
    have e1 : (E.decodeMakeCred makeA).bind (·.rp) = some rpA := by rw [g1]; exact g2
    have e2 : (E.decodeMakeCred makeB).bind (·.rp) = some rp := by rw [h1]; exact h2
    simp only [entries, List.foldl_cons, List.foldl_nil, note, e1, e2, g4, h8, h9]
    rfl
  rw [h7, el, h5]
  intro e he hid
  simp only [List.mem_cons, List.not_mem_nil, or_false] at he
  rcases he with rfl | rfl | rfl
  · exact g3
  · exact absurd hid n10
  · exact absurd hid n20

end VF.Props
