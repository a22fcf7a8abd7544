import Verif.Spec.Accounts
import Verif.Proofs.RelyingParty

/-!
# Lemmas on `Verif.Spec.Accounts`
-/

namespace VF.Fido.Device

open VF.Spec.Client VF.Spec.Vault VF.Spec.History VF.Spec.Ctap VF.Spec.Store VF.Spec.Accounts

variable {E : Env} {cfg : Client.Config}

/-- Relying party and id of a stored credential. -/
def face (s : Source) : Option Bytes × Bytes := (s.rp.map (·.id), s.id)

/-- Of an entry. -/
def Entry.face (e : Entry) : Option Bytes × Bytes := (some e.rp, e.id)

/-- A vault with the credentials `l`, in this order. -/
def Tracks (l : List Entry) (v : List Source) : Prop :=
  v.map face = l.map Entry.face ∧ ∀ s ∈ v, s.id.length = 16 ∧ s.key.ecdsa.isSome = true

theorem Tracks.length {l : List Entry} {v : List Source} (h : Tracks l v) : v.length = l.length := by
  have := congrArg List.length h.1
  simpa using this

theorem Tracks.get {l : List Entry} {v : List Source} (h : Tracks l v) (i : Nat) :
    v[i]?.map face = l[i]?.map Entry.face := by
  rw [← List.getElem?_map, ← List.getElem?_map, h.1]

theorem bump_face (v : List Source) (i : Nat) : (Client.bump v i).map face = v.map face := by
  apply List.ext_getElem?
  intro j
  simp only [Client.bump, List.getElem?_map, List.getElem?_modify]
  cases v[j]? with
  | none => rfl
  | some s => by_cases h : i = j <;> simp [h, face]

theorem tracks_bump {l : List Entry} {v : List Source} (i : Nat) (h : Tracks l v) : Tracks l (Client.bump v i) := by
  refine ⟨(bump_face v i).trans h.1, ?_⟩
  intro s hs
  obtain ⟨t, ht, e⟩ := Ctap.mem_bump hs
  have e : s.id = t.id ∧ s.key = t.key := by rcases e with rfl | rfl <;> exact ⟨rfl, rfl⟩
  rw [e.1, e.2]
  exact h.2 t ht

theorem tracks_append {l : List Entry} {v : List Source} {s : Source} {e : Entry} (hf : face s = Entry.face e)
    (h1 : s.id.length = 16) (h2 : s.key.ecdsa.isSome = true) (h : Tracks l v) : Tracks (l ++ [e]) (v ++ [s]) := by
  refine ⟨by rw [List.map_append, List.map_append, h.1, List.map_singleton, List.map_singleton, hf], ?_⟩
  intro t ht
  rcases List.mem_append.1 ht with ht | ht
  · exact h.2 t ht
  · obtain rfl := List.mem_singleton.1 ht
    exact ⟨h1, h2⟩

theorem takeOut_set {id : Bytes} : ∀ {l : List Entry} {i : Nat} {last : Entry},
    l.findIdx? (fun e => e.id == id) = some i → l.getLast? = some last → takeOut id l = (l.set i last).dropLast
  | [], _, _, h, _ => by simp at h
  | e :: rest, i, last, h, hl => by
    unfold takeOut
    rw [List.findIdx?_cons] at h
    by_cases he : e.id = id
    · rw [if_pos he]
      simp only [he, beq_self_eq_true, if_true, Option.some.injEq] at h
      subst h
      cases hr : rest with
      | nil => simp
      | cons f rest' =>
        rw [hr, List.getLast?_cons_cons] at hl
        rw [← hr] at hl ⊢
        rw [hl]
        simp [List.set_cons_zero, hr]
    · rw [if_neg he]
      have hb : (e.id == id) = false := by simpa using he
      simp only [hb, Bool.false_eq_true, if_false, Option.map_eq_some_iff] at h
      obtain ⟨j, hj, rfl⟩ := h
      cases hr : rest with
      | nil => rw [hr] at hj; simp at hj
      | cons f rest' =>
        rw [hr, List.getLast?_cons_cons] at hl
        rw [← hr] at hl ⊢
        rw [takeOut_set hj hl, List.set_cons_succ, List.dropLast_cons_of_ne_nil]
        intro e
        have := congrArg List.length e
        simp [hr] at this

theorem takeOut_none {id : Bytes} : ∀ {l : List Entry}, (∀ e ∈ l, e.id ≠ id) → takeOut id l = l
  | [], _ => rfl
  | e :: rest, h => by
    unfold takeOut
    rw [if_neg (h e (List.mem_cons_self ..)), takeOut_none (fun f hf => h f (List.mem_cons_of_mem _ hf))]

/-- What `DeleteIdentity` leaves. -/
theorem tracks_delete {id : Bytes} {v : List Source} {l : List Entry} (h : Tracks l v)
    (hd : (Vault.deleteIdentity v id).2 = true) : Tracks (takeOut id l) (Vault.deleteIdentity v id).1 := by
  unfold Vault.deleteIdentity at hd ⊢
  split at hd
  · rename_i i last hi hlast
    dsimp only
    have hidx : l.findIdx? (fun e => e.id == id) = some i := by
      have e1 : (v.map face).findIdx? (fun p => p.2 == id) = some i := by
        rw [List.findIdx?_map]; exact hi
      rw [h.1, List.findIdx?_map] at e1
      exact e1
    have hl : (v.map face).getLast? = some (face last) := by rw [List.getLast?_map, hlast]; rfl
    rw [h.1, List.getLast?_map, Option.map_eq_some_iff] at hl
    obtain ⟨z, hz, ez⟩ := hl
    rw [takeOut_set hidx hz]
    refine ⟨?_, ?_⟩
    · rw [List.map_dropLast, List.map_dropLast, List.map_set, List.map_set, h.1, ez]
    · intro s hs
      rcases List.mem_or_eq_of_mem_set (List.dropLast_subset _ hs) with hm | rfl
      · exact h.2 s hm
      · exact h.2 _ (List.mem_of_getLast? hlast)
  · cases hd

/-- A start. -/
theorem tracks_restart {v v' : List Source} {l : List Entry} (h : Tracks l v) (hs : SameCredentials v v')
    (hl : ∀ last, v.getLast? = some last → ∀ s ∈ v', s.rp = last.rp ∧ s.user = last.user) :
    Tracks (allLast l) v' := by
  refine ⟨?_, ?_⟩
  · unfold allLast
    cases hz : l.getLast? with
    | none =>
      have hl : l = [] := List.getLast?_eq_none_iff.1 hz
      have h1 := h.length
      rw [hl] at h1
      have : v'.length = 0 := hs.1.symm.trans h1
      rw [List.length_eq_zero_iff.1 this]
      rfl
    | some z =>
      dsimp only
      have hv : (v.map face).getLast? = some (Entry.face z) := by rw [h.1, List.getLast?_map, hz]; rfl
      rw [List.getLast?_map, Option.map_eq_some_iff] at hv
      obtain ⟨last, h1, h2⟩ := hv
      have h3 := hl last h1
      rw [List.map_map]
      apply List.ext_getElem
      · rw [List.length_map, List.length_map, ← hs.1, h.length]
      · intro j h4 h5
        simp only [List.length_map] at h4 h5
        simp only [List.getElem_map, Function.comp]
        have h6 : j < v.length := by rw [hs.1]; exact h4
        have h7 := hs.2 j _ _ (List.getElem?_eq_getElem h6) (List.getElem?_eq_getElem h4)
        have h8 := h.get j
        rw [List.getElem?_eq_getElem h6, List.getElem?_eq_getElem h5] at h8
        simp only [Option.map_some, Option.some.injEq, face, Entry.face, Prod.mk.injEq] at h8 h2 ⊢
        exact ⟨by rw [(h3 _ (List.getElem_mem h4)).1, h2.1], by rw [← h7.1, h8.2]⟩
  · intro s hm
    obtain ⟨t, ht, e1, -, e3⟩ := sameCredentials_mem hs hm
    rw [← e1, ← e3]
    exact h.2 t ht

/-- `inv_step` for what is no start. -/
theorem inv_own (L : Laws E) {P Q : Nat → List Source → Prop} {d : Device} {op : Op} (hr : isRestart op = false)
    (hmono : ∀ n n' v, P n v → Q n' v)
    (hchange : ∀ n v v', Change E op d.world.rnd n v v' → P d.world.rnd v → Q n v')
    (h : Inv E cfg P d) : Inv E cfg Q (step E cfg d op).2 := by
  have hi := inv_true_step L op h
  obtain ⟨c, h1, h2, h3, h4⟩ := h
  cases ha : d.alive with
  | false =>
    rw [step_dead (E := E) (cfg := cfg) hr ha]
    exact ⟨c, h1, h2, hmono _ _ _ h3, h4⟩
  | true =>
    obtain rfl := h4 ha
    have e := step_live (E := E) (cfg := cfg) hr ha
    obtain ⟨-, o2⟩ := perform_out L op d.world
    have ew : (step E cfg d op).2.world = (perform E op d.world).2 := by
      rw [e]
      cases (perform E op d.world).1 <;> rfl
    cases o2 with
    | kept hs hc =>
      refine ⟨(perform E op d.world).2.client, hc.healthy h1, ?_, ?_, fun _ => by rw [ew]⟩
      · rw [ew, hs]
        refine h2.same hc.same ?_
        rw [hc.2.2.2.2.2]
        exact fun last h => ⟨last, h, rfl, rfl⟩
      · rw [← hc.2.2.2.2.2]
        exact hmono _ _ _ h3
    | saved blob m n hs hv hh hch =>
      refine ⟨(perform E op d.world).2.client, hh h1, ?_, ?_, fun _ => by rw [ew]⟩
      · rw [ew, hs]
        intro rnd
        obtain ⟨-, c', q1, q2, q3, -, q4, -, -, q5⟩ := saves_restore L (hh h1) hv cfg rnd
        exact ⟨c', q1, q2, q3, q4, q5⟩
      · rw [ew]; exact hchange _ _ _ hch h3
    | lost c hr' hs =>
      refine ⟨d.world.client, h1, by rw [ew, hs]; exact h2, hmono _ _ _ h3, ?_⟩
      intro hal
      rw [e, hr'] at hal
      cases hal

theorem make_tracks (L : Laws E) {l : List Entry} {d : Device} {data : Bytes}
    (hat : d.alive = true → CanAttest E d.world.client) (h : Inv E cfg (fun _ => Tracks l) d) :
    Inv E cfg (fun _ => Tracks (note E l (.ctap (1 :: data), (step E cfg d (.ctap (1 :: data))).1)))
      (step E cfg d (.ctap (1 :: data))).2 := by
  cases ha : d.alive with
  | false => rw [step_dead (E := E) (cfg := cfg) rfl ha]; exact h
  | true =>
    have hi := inv_true_step L (.ctap (1 :: data)) h
    obtain ⟨c, h1, h2, h3, h4⟩ := h
    obtain rfl := h4 ha
    have e := step_live (E := E) (cfg := cfg) (op := .ctap (1 :: data)) rfl ha
    rw [perform_ctap'] at e
    rw [e] at hi ⊢
    rcases make_ends L data h1 (hat ha) with ⟨s, w', hs, hm, hw⟩ | ⟨c, w', hm, hw⟩ | ⟨body, w', hm⟩
    · rw [hm] at hi ⊢
      obtain ⟨c, g1, g2, -, g4⟩ := hi
      obtain rfl := g4 rfl
      refine ⟨_, g1, g2, ?_, g4⟩
      have : announced [s] = none := by
        unfold announced
        split
        · rename_i b e
          exact absurd (List.cons.inj e).1 hs
        · rfl
      have en : note E l (.ctap (1 :: data), .answer [s]) = l := by
        simp only [note, this]
        cases (E.decodeMakeCred data).bind (·.rp) <;> rfl
      simp only [outcome, en, hw]
      exact h3
    · rw [hm]
      refine ⟨_, h1, ?_, h3, fun h => by cases h⟩
      dsimp only [outcome]
      rw [hw]
      exact h2
    · obtain ⟨s, c, q1, q2, q3, q4, q5⟩ := creation_announces L hm
      obtain ⟨args, rp, k, cert, ad, flags, r1, r2, -, -, -, r6, -⟩ := register_eq L hm
      rw [hm] at hi ⊢
      obtain ⟨c', g1, g2, -, g4⟩ := hi
      obtain rfl := g4 rfl
      refine ⟨_, g1, g2, ?_, g4⟩
      have es : s = ⟨ascii "public-key", E.rand d.world.rnd 16, { ecdsa := some k }, some rp, args.user, 0⟩ := by
        rw [r6] at q1
        exact (List.singleton_inj.1 (List.append_cancel_left q1)).symm
      have ec : c.id = s.id := ((Prod.mk.inj q4).1).symm
      simp only [outcome, note, q3, r1, r2, Option.bind_some, q1]
      refine tracks_append ?_ ?_ ?_ h3
      · rw [ec, es]; rfl
      · rw [q2, L.rand_length]
      · rw [es]; rfl

theorem delete_tracks (L : Laws E) {l : List Entry} {d : Device} {id : Bytes}
    (h : Inv E cfg (fun _ => Tracks l) d) :
    Inv E cfg (fun _ => Tracks (note E l (.deleteIdentity id, (step E cfg d (.deleteIdentity id)).1)))
      (step E cfg d (.deleteIdentity id)).2 := by
  cases ha : d.alive with
  | false => rw [step_dead (E := E) (cfg := cfg) rfl ha]; exact h
  | true =>
    have hi := inv_true_step L (.deleteIdentity id) h
    have h0 := h
    obtain ⟨c, h1, h2, h3, h4⟩ := h
    obtain rfl := h4 ha
    have e := step_live (E := E) (cfg := cfg) (op := .deleteIdentity id) rfl ha
    obtain ⟨v', b, hvb⟩ : ∃ v' b, Vault.deleteIdentity d.world.client.vault id = (v', b) := ⟨_, _, rfl⟩
    cases b with
    | false =>
      have hv : v' = d.world.client.vault := by
        unfold Vault.deleteIdentity at hvb
        split at hvb
        · cases hvb
        · exact ((Prod.mk.inj hvb).1).symm
      have hp : perform E (.deleteIdentity id) d.world = (.ok (.deleted false), d.world) := by
        simp only [perform, Go.run_bind, Client.deleteIdentity, Go.run_get, Client.update, Go.modify, hvb, hv,
          Bool.false_eq_true, if_false, Go.run_pure]
      rw [e, hp]
      have : d = ⟨d.world, true⟩ := by cases d; cases ha; rfl
      rw [this] at h0
      exact h0
    | true =>
      have ht : Tracks (takeOut id l) v' := by
        have := tracks_delete (id := id) h3 (by rw [hvb])
        rw [hvb] at this
        exact this
      have hp : (∃ c, perform E (.deleteIdentity id) d.world = (.panic c, { d.world with client := { d.world.client with vault := v' } })) ∨
          ∃ blob n, perform E (.deleteIdentity id) d.world = (.ok (.deleted true),
            { d.world with client := { d.world.client with vault := v' }, store := some blob, rnd := n }) := by
        simp only [perform, Go.run_bind, Client.deleteIdentity, Go.run_get, Client.update, Go.modify, hvb, if_true]
        rcases Ctap.saveData_cases E { d.world with client := { d.world.client with vault := v' } } with
          ⟨c, h, -⟩ | ⟨blob, n, -, h⟩
        · simp only [h]; exact .inl ⟨c, rfl⟩
        · simp only [h, Go.run_pure]; exact .inr ⟨blob, n, rfl⟩
      rcases hp with ⟨c, hp⟩ | ⟨blob, n, hp⟩
      · rw [e, hp]
        exact ⟨_, h1, h2, h3, fun h => by cases h⟩
      · rw [e, hp] at hi ⊢
        obtain ⟨c', g1, g2, -, g4⟩ := hi
        obtain rfl := g4 rfl
        exact ⟨_, g1, g2, ht, g4⟩

/-- A step of a device that can attest. -/
theorem tracks_step (L : Laws E) {l : List Entry} {d : Device} {op : Op}
    (hat : d.alive = true → CanAttest E d.world.client) (h : Inv E cfg (fun _ => Tracks l) d) :
    Inv E cfg (fun _ => Tracks (note E l (op, (step E cfg d op).1))) (step E cfg d op).2 := by
  by_cases hmk : ∃ data, op = .ctap (1 :: data)
  · obtain ⟨data, rfl⟩ := hmk
    exact make_tracks L hat h
  by_cases hdl : ∃ id, op = .deleteIdentity id
  · obtain ⟨id, rfl⟩ := hdl
    exact delete_tracks L h
  cases hr : isRestart op with
  | true =>
    cases op with
    | restart =>
      obtain ⟨c, h1, h2, h3, h4⟩ := h
      obtain ⟨c', s1, s2, s3, -, s5⟩ := h2 d.world.rnd
      have e : step E cfg d .restart =
          (.started, ⟨{ d.world with client := c', rnd := d.world.rnd + 2 }, true⟩) := by
        simp only [step, s1]
      rw [e]
      exact ⟨c', s3, h2.same s2 (last_of_uniform s2.2.2.2.2.2 s5), tracks_restart h3 s2.2.2.2.2.2 s5, fun _ => rfl⟩
    | _ => cases hr
  | false =>
    have hu : note E l (op, (step E cfg d op).1) = l := by
      unfold note
      split
      · rename_i e
        exact absurd ⟨_, (Prod.mk.inj e).1⟩ hmk
      · rename_i e
        exact absurd ⟨_, (Prod.mk.inj e).1⟩ hdl
      · rename_i e
        rw [(Prod.mk.inj e).1] at hr
        cases hr
      · rfl
    rw [hu]
    refine inv_own L hr (fun _ _ _ h => h) ?_ h
    intro n v v' hch hs
    cases hch with
    | same e => rw [e]; exact hs
    | added rp user e hr ho =>
      unfold isMakeCredential at ho
      split at ho
      · exact absurd ⟨_, rfl⟩ hmk
      · cases ho
    | used i e ho => rw [e]; exact tracks_bump i hs
    | removed s e ho => exact absurd ⟨_, ho⟩ hdl

theorem tracks_after (L : Laws E) (hat : CanAttest E (boot E cfg).world.client) :
    ∀ (ops : List Op) (l : List Entry) (d : Device), Keeps E cfg d → Inv E cfg (fun _ => Tracks l) d →
      Inv E cfg (fun _ => Tracks ((events E cfg d ops).foldl (note E) l)) (after E cfg d ops)
  | [], l, d, _, h => h
  | op :: ops, l, d, hk, h => by
    rw [after_cons, events_cons, List.foldl_cons]
    exact tracks_after L hat ops _ _ (keeps_step L hk) (tracks_step L (attests_keeps hat hk) h)

theorem tracks_reachable (L : Laws E) (hu : Usable E cfg) (hat : CanAttest E (boot E cfg).world.client)
    (ops : List Op) :
    Inv E cfg (fun _ => Tracks (entries E (events E cfg (boot E cfg) ops))) (after E cfg (boot E cfg) ops) :=
  tracks_after L hat ops [] _ (keeps_reachable L hu []) (inv_boot hu ⟨rfl, fun s hs => by cases hs⟩)

/-! ## Logins -/

theorem matches_iff {s : Source} {e : Entry} (h : face s = Entry.face e) (args : GetAssertionArgs) :
    Matches args.rpId args.allowList s ↔
      (e.rp == args.rpId && Spec.RelyingParty.allowed args.allowList e.id) = true := by
  simp only [face, Entry.face, Prod.mk.injEq, Option.map_eq_some_iff] at h
  obtain ⟨⟨rp, h1, h2⟩, h3⟩ := h
  simp only [Bool.and_eq_true, beq_iff_eq]
  constructor
  · rintro ⟨⟨rp', e1, e2⟩, hl⟩
    rw [h1] at e1
    obtain rfl := Option.some.inj e1
    refine ⟨h2.symm.trans e2, ?_⟩
    cases ha : args.allowList with
    | none => rfl
    | some l =>
      obtain ⟨x, hx, ex⟩ := hl l ha
      simp only [Spec.RelyingParty.allowed, List.any_eq_true, beq_iff_eq]
      exact ⟨x, hx, ex.trans h3⟩
  · rintro ⟨e1, e2⟩
    refine ⟨⟨rp, h1, h2.trans e1⟩, ?_⟩
    intro l ha
    rw [ha] at e2
    simp only [Spec.RelyingParty.allowed, List.any_eq_true, beq_iff_eq] at e2
    obtain ⟨x, hx, ex⟩ := e2
    exact ⟨x, hx, ex.trans h3.symm⟩

/-- The first that matches is the one chosen. -/
theorem chosen_first {l : List Entry} {v : List Source} (h : Tracks l v) {args : GetAssertionArgs} {i : Nat}
    {s : Source} (hf : Ctap.First v args.rpId args.allowList i s) :
    ∃ e, chosen l args = some e ∧ s.id = e.id := by
  obtain ⟨h1, h2, h3⟩ := hf
  have hi := h.get i
  rw [h1, Option.map_some] at hi
  obtain ⟨e, he, ef⟩ := Option.map_eq_some_iff.1 hi.symm
  refine ⟨e, ?_, ((Prod.mk.inj ef).2).symm⟩
  obtain ⟨hlt, hget⟩ := List.getElem?_eq_some_iff.1 he
  unfold chosen
  rw [List.find?_eq_some_iff_getElem]
  refine ⟨(matches_iff ef.symm args).1 h2, i, hlt, hget, ?_⟩
  intro j hj
  have hj' : j < l.length := by omega
  have hjv : j < v.length := by rw [h.length]; exact hj'
  have g := h.get j
  rw [List.getElem?_eq_getElem hj', List.getElem?_eq_getElem hjv] at g
  have g := Option.some.inj g
  have := h3 j _ hj (List.getElem?_eq_getElem hjv)
  rw [matches_iff g args] at this
  cases hb : (l[j].rp == args.rpId && Spec.RelyingParty.allowed args.allowList l[j].id) with
  | true => exact absurd hb this
  | false => rfl

theorem chosen_none {l : List Entry} {v : List Source} (h : Tracks l v) {args : GetAssertionArgs}
    (hn : chosen l args = none) : ∀ s ∈ v, ¬ Matches args.rpId args.allowList s := by
  intro s hs hm
  obtain ⟨i, hi⟩ := List.mem_iff_getElem?.1 hs
  have g := h.get i
  rw [hi, Option.map_some] at g
  obtain ⟨e, he, ef⟩ := Option.map_eq_some_iff.1 g.symm
  have := (matches_iff ef.symm args).1 hm
  exact List.find?_eq_none.1 hn e (List.mem_of_getElem? he) this

theorem chosen_some {l : List Entry} {v : List Source} (h : Tracks l v) {args : GetAssertionArgs} {e : Entry}
    (hc : chosen l args = some e) : ∃ s ∈ v, Matches args.rpId args.allowList s := by
  have h1 := List.mem_of_find?_eq_some hc
  have h2 := List.find?_some hc
  obtain ⟨i, hi⟩ := List.mem_iff_getElem?.1 h1
  have g := h.get i
  rw [hi, Option.map_some] at g
  obtain ⟨s, hs, ef⟩ := Option.map_eq_some_iff.1 g
  exact ⟨s, List.mem_of_getElem? hs, (matches_iff ef args).2 h2⟩

/-- The answer to a login. -/
theorem tracks_login (L : Laws E) {l : List Entry} {d d' : Device} {data body : Bytes}
    (h : step E cfg d (.ctap (2 :: data)) = (.answer (0 :: body), d')) (hi : Inv E cfg (fun _ => Tracks l) d) :
    ∃ (args : GetAssertionArgs) (e : Entry) (authData sig : Bytes),
      E.decodeGetAssertion data = some args ∧ chosen l args = some e ∧ IsAssertion (0 :: body) e.id authData sig := by
  obtain ⟨halive, -, hm⟩ := ctap_answered h
  obtain ⟨c, hh, -, hf, hc⟩ := hi
  obtain rfl := hc halive
  have hlen : body.length < 18446744073709551616 := by
    refine assertion_length L hm ?_
    intro s hs
    obtain ⟨h1, h2⟩ := hf.2 s hs
    obtain ⟨k, hk⟩ := Option.isSome_iff_exists.1 h2
    have hv := (hh.2.2.2.2 s hs).2.1
    simp only [KeyValid, hk] at hv
    exact ⟨by rw [h1]; omega, k, hk, hv⟩
  obtain ⟨args, i, s, rp, user, flags, blob, n, authData, sig, ad, h1, h2, -, -, -, -, -, -, -, -,
    h11, -⟩ := Ctap.assertion_spec L hm hlen
  obtain ⟨e, h3, h4⟩ := chosen_first hf h2
  exact ⟨args, e, authData, sig, h1, h3, by rw [← h4]; exact h11⟩

end VF.Fido.Device
