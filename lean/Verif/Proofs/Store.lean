import Verif.Spec.Store
import Verif.Proofs.Counters
import Verif.Proofs.StatusHistory

/-!
# The credentials held are those announced and not deleted
-/

namespace VF.Fido.Device

open VF.Spec.Client VF.Spec.Vault VF.Spec.History VF.Spec.Ctap VF.Spec.Store Client Ctap

variable {E : Env} {cfg : Config}

/-- Id and public key of a stored credential. -/
def shown (s : Source) : Bytes × Option ECPub := (s.id, s.key.ecdsa.map (·.pub))

/-- Id and public key that were announced. -/
def want (c : Cred) : Bytes × Option ECPub := (c.id, some c.key)

/-- A vault with exactly the credentials `l`; ids are draws below `n` and do not repeat. -/
def Stores (E : Env) (l : List Cred) (n : Nat) (v : List Source) : Prop :=
  (v.map shown).Perm (l.map want) ∧ (v.map (·.id)).Nodup ∧
    ∀ s ∈ v, ∃ i, i < n ∧ s.id = E.rand i 16

theorem sameCredentials_shown {v v' : List Source} (h : SameCredentials v v') :
    v.map shown = v'.map shown := by
  apply List.ext_getElem
  · simpa using h.1
  · intro j h1 h2
    simp only [List.length_map] at h1 h2
    simp only [List.getElem_map, shown]
    have := h.2 j _ _ (List.getElem?_eq_getElem h1) (List.getElem?_eq_getElem h2)
    rw [this.1, this.2.2.2.1]

theorem bump_shown (v : List Source) (i : Nat) : (bump v i).map shown = v.map shown := by
  apply List.ext_getElem?
  intro j
  simp only [bump, List.getElem?_map, List.getElem?_modify]
  cases v[j]? with
  | none => rfl
  | some s => by_cases h : i = j <;> simp [h, shown]

theorem stores_same {l : List Cred} {n : Nat} {v v' : List Source} (h : SameCredentials v v')
    (hs : Stores E l n v) : Stores E l n v' := by
  refine ⟨by rw [← sameCredentials_shown h]; exact hs.1, by rw [← sameCredentials_ids h]; exact hs.2.1,
    ?_⟩
  intro s hm
  obtain ⟨t, ht, e, -⟩ := sameCredentials_mem h hm
  rw [← e]
  exact hs.2.2 t ht

theorem stores_mono {l : List Cred} {n n' : Nat} {v : List Source} (hn : n ≤ n')
    (hs : Stores E l n v) : Stores E l n' v := by
  refine ⟨hs.1, hs.2.1, fun s hm => ?_⟩
  obtain ⟨i, h, e⟩ := hs.2.2 s hm
  exact ⟨i, by omega, e⟩

theorem stores_append {N : Nat} (hd : DistinctDraws E N) {l : List Cred} {c : Cred} {n n' : Nat}
    {v : List Source} {s : Source} (hn : n < n') (hN : n' ≤ N) (hid : s.id = E.rand n 16)
    (hw : shown s = want c) (hs : Stores E l n v) : Stores E (l ++ [c]) n' (v ++ [s]) := by
  refine ⟨?_, ?_, ?_⟩
  · rw [List.map_append, List.map_append, List.map_singleton, List.map_singleton, hw]
    exact hs.1.append_right _
  · rw [List.map_append, List.nodup_append]
    refine ⟨hs.2.1, by simp, ?_⟩
    intro a ha b hb
    simp only [List.map_cons, List.map_nil, List.mem_singleton] at hb
    subst hb
    obtain ⟨t, ht, rfl⟩ := List.mem_map.1 ha
    obtain ⟨i, h1, h2⟩ := hs.2.2 t ht
    intro e
    rw [h2, hid] at e
    have := hd i n (by omega) (by omega) e
    omega
  · intro t ht
    rcases List.mem_append.1 ht with ht | ht
    · exact (stores_mono (Nat.le_of_lt hn) hs).2.2 t ht
    · rw [List.mem_singleton.1 ht]
      exact ⟨n, hn, hid⟩

theorem stores_remove {l : List Cred} {n : Nat} {v v' : List Source} {s : Source}
    (hp : v.Perm (s :: v')) (hs : Stores E l n v) :
    Stores E (l.filter (fun c => c.id != s.id)) n v' := by
  have hid := (hp.map (·.id)).nodup_iff.1 hs.2.1
  rw [List.map_cons, List.nodup_cons] at hid
  refine ⟨?_, hid.2, fun t ht => hs.2.2 t (hp.mem_iff.2 (List.mem_cons_of_mem _ ht))⟩
  have h1 := ((hp.map shown).symm.trans hs.1).filter (fun p => p.1 != s.id)
  have e1 : ((s :: v').map shown).filter (fun p => p.1 != s.id) = v'.map shown := by
    rw [List.map_cons, List.filter_cons_of_neg (by simp [shown]), List.filter_eq_self]
    intro p hp
    obtain ⟨t, ht, rfl⟩ := List.mem_map.1 hp
    simp only [shown, bne_iff_ne, ne_eq]
    intro e
    exact hid.1 (by rw [← e]; exact List.mem_map.2 ⟨t, ht, rfl⟩)
  have e2 : (l.map want).filter (fun p => p.1 != s.id) =
      (l.filter (fun c => c.id != s.id)).map want := by
    rw [List.filter_map]
    rfl
  rw [e1, e2] at h1
  exact h1

/-- The answer to a successful creation announces the credential that was added. -/
theorem creation_announces (L : Laws E) {data body : Bytes} {w w' : World}
    (h : Ctap.handleMessage E (0x01 :: data) w = (.ok (0 :: body), w')) :
    ∃ s c, w'.client.vault = w.client.vault ++ [s] ∧ s.id = E.rand w.rnd 16 ∧
      announced (0 :: body) = some c ∧ shown s = want c ∧ w.rnd < w'.rnd := by
  obtain ⟨args, rp, flags, blob, n, k, authData, sig, cert, ad, at', xb, yb, -, -, -, -, -, h6,
    h7, h8, -, h10, h11, h12, -, -, -, -, -, -, h19, -, h21, h22, h23, h24, -⟩ :=
    Ctap.creation_spec L h
  obtain ⟨bp, -⟩ := Vault.ecValid_bounds L (show ECValid E k by rw [h6]; exact L.genEC_valid _)
  obtain ⟨b, e, hd⟩ := h11
  obtain rfl := (List.cons.inj e).2
  have hn := saves_rnd L h8
  refine ⟨⟨ascii "public-key", E.rand w.rnd 16, { ecdsa := some k }, some rp, args.user, 0⟩,
    ⟨at'.id, Spec.Cbor.beNat xb, Spec.Cbor.beNat yb⟩, by rw [h7], rfl, ?_, ?_, by omega⟩
  · have f1 : ∀ a b c : Cbor, field 2 (.map [(.int 1, a), (.int 2, b), (.int 3, c)]) = some b := by
      intros; rfl
    have f2 : ∀ a b c d e : Cbor, field (-2) (.map [(.int 1, a), (.int 3, b), (.int (-1), c),
        (.int (-2), d), (.int (-3), e)]) = some d := by
      intros; rfl
    have f3 : ∀ a b c d e : Cbor, field (-3) (.map [(.int 1, a), (.int 3, b), (.int (-1), c),
        (.int (-2), d), (.int (-3), e)]) = some e := by
      intros; rfl
    simp only [announced, hd, Option.bind_eq_bind, Option.bind_some, bytesField, f1, h12, h19, h22, f2,
      f3]
  · simp only [shown, want, Cred.key, h21, h23, h24, Option.map_some]
    rcases k with ⟨⟨p, x, y⟩, d⟩
    dsimp only at bp
    subst bp
    rfl

/-- How MakeCredential may end on a device that can attest. -/
theorem make_ends (L : Laws E) (data : Bytes) {w : World} (hh : Healthy E w.client)
    (hat : CanAttest E w.client) :
    (∃ e w', e ≠ 0 ∧ Ctap.handleMessage E (1 :: data) w = (.ok [e], w') ∧ w'.client = w.client) ∨
    (∃ c w', Ctap.handleMessage E (1 :: data) w = (.panic c, w') ∧ w'.store = w.store) ∨
    (∃ body w', Ctap.handleMessage E (1 :: data) w = (.ok (0 :: body), w')) := by
  have hc := Ctap.handleMakeCredential_cases E data w
  rw [← Ctap.handleMessage_make] at hc
  have hsurj : Ctap.handleMessage E (1 :: data) w =
    ((Ctap.handleMessage E (1 :: data) w).1, (Ctap.handleMessage E (1 :: data) w).2) := rfl
  cases hc with
  | nothing hw hr =>
    cases hres : (Ctap.handleMessage E (1 :: data) w).1 with
    | panic c => exact .inr (.inl ⟨c, w, by rw [hsurj, hres, hw], rfl⟩)
    | ok b =>
      obtain ⟨e, he, rfl⟩ := hr b hres
      exact .inl ⟨e, w, he, by rw [hsurj, hres, hw], rfl⟩
  | refused args rp flags hd hs hp hrp ha hr hw =>
    exact .inl ⟨0x27, (Ctap.handleMessage E (1 :: data) w).2, by decide, by rw [← hr], by rw [hw]⟩
  | unsaved args rp flags hd hs hp hrp ha hn c hr hw =>
    exact .inr (.inl ⟨c, (Ctap.handleMessage E (1 :: data) w).2, by rw [← hr], by rw [hw]⟩)
  | saved args rp flags blob n m hd hs hp hrp ha hn hm hw hr =>
    have hu := saves_user hn (Vault.newIdentity E args.rp args.user w.rnd) (by simp)
    obtain ⟨u, hu⟩ := Option.isSome_iff_exists.1 hu
    obtain ⟨body, w', h⟩ := makeCredential_succeeds L hh hat hd hs hrp hu hp ha
    exact .inr (.inr ⟨body, w', h⟩)

theorem inv_true {P : Nat → List Source → Prop} {d : Device} (h : Inv E cfg P d) :
    Inv E cfg (fun _ _ => True) d := by
  obtain ⟨c, h1, h2, -, h4⟩ := h
  exact ⟨c, h1, h2, trivial, h4⟩

theorem inv_true_step (L : Laws E) {P : Nat → List Source → Prop} {d : Device} (op : Op)
    (h : Inv E cfg P d) : Inv E cfg (fun _ _ => True) (step E cfg d op).2 :=
  inv_step L (fun _ _ _ _ _ => trivial) (fun _ _ _ _ _ _ => trivial)
    (fun _ _ _ _ _ _ _ => trivial) (inv_true h)

theorem make_stores (L : Laws E) {N : Nat} (hd : DistinctDraws E N) {l : List Cred} {d : Device}
    {data : Bytes} (hN : (step E cfg d (.ctap (1 :: data))).2.world.rnd ≤ N)
    (hat : d.alive = true → CanAttest E d.world.client) (h : Inv E cfg (Stores E l) d) :
    Inv E cfg (Stores E (learn l (.ctap (1 :: data), (step E cfg d (.ctap (1 :: data))).1)))
      (step E cfg d (.ctap (1 :: data))).2 := by
  cases ha : d.alive with
  | false => rw [step_dead (E := E) (cfg := cfg) rfl ha]; exact h
  | true =>
    have hi := inv_true_step L (.ctap (1 :: data)) h
    have hr := step_rnd (cfg := cfg) L d (.ctap (1 :: data))
    obtain ⟨c, h1, h2, h3, h4⟩ := h
    obtain rfl := h4 ha
    have e := step_live (E := E) (cfg := cfg) (op := .ctap (1 :: data)) rfl ha
    rw [perform_ctap'] at e
    rw [e] at hN hi hr ⊢
    rcases make_ends L data h1 (hat ha) with ⟨s, w', hs, hm, hw⟩ | ⟨c, w', hm, hw⟩ | ⟨body, w', hm⟩
    · rw [hm] at hi hr ⊢
      obtain ⟨c, g1, g2, -, g4⟩ := hi
      obtain rfl := g4 rfl
      refine ⟨_, g1, g2, ?_, g4⟩
      have : announced [s] = none := by
        unfold announced
        split
        · rename_i b e
          exact absurd (List.cons.inj e).1 hs
        · rfl
      simp only [outcome, learn, this, Option.toList_none, List.append_nil]
      dsimp only [outcome] at hr
      rw [hw]
      exact stores_mono hr h3
    · rw [hm] at hi hr ⊢
      refine ⟨_, h1, ?_, stores_mono hr h3, fun h => by cases h⟩
      dsimp only [outcome]
      rw [hw]
      exact h2
    · obtain ⟨s, c, q1, q2, q3, q4, q5⟩ := creation_announces L hm
      rw [hm] at hi hN ⊢
      obtain ⟨c', g1, g2, -, g4⟩ := hi
      obtain rfl := g4 rfl
      refine ⟨_, g1, g2, ?_, g4⟩
      simp only [outcome, learn, q3, Option.toList_some, q1]
      exact stores_append hd q5 hN q2 q4 h3

theorem delete_stores (L : Laws E) {l : List Cred} {d : Device} {id : Bytes}
    (h : Inv E cfg (Stores E l) d) :
    Inv E cfg (Stores E (learn l (.deleteIdentity id, (step E cfg d (.deleteIdentity id)).1)))
      (step E cfg d (.deleteIdentity id)).2 := by
  cases ha : d.alive with
  | false => rw [step_dead (E := E) (cfg := cfg) rfl ha]; exact h
  | true =>
    have hi := inv_true_step L (.deleteIdentity id) h
    have hr := step_rnd (cfg := cfg) L d (.deleteIdentity id)
    have h0 := h
    obtain ⟨c, h1, h2, h3, h4⟩ := h
    obtain rfl := h4 ha
    have e := step_live (E := E) (cfg := cfg) (op := .deleteIdentity id) rfl ha
    rw [e] at hi hr ⊢
    rcases perform_delete E id d.world with
      ⟨-, hm⟩ | ⟨lv, s, rv, v', hv, hid, -, hp, ⟨c, -, hm⟩ | ⟨blob, n, hs, hm⟩⟩
    · rw [hm]
      have : d = ⟨d.world, true⟩ := by cases d; cases ha; rfl
      rw [this] at h0
      exact h0
    · rw [hm] at hr ⊢
      exact ⟨_, h1, h2, stores_mono hr h3, fun h => by cases h⟩
    · rw [hm] at hi hr ⊢
      obtain ⟨c', g1, g2, -, g4⟩ := hi
      obtain rfl := g4 rfl
      refine ⟨_, g1, g2, ?_, g4⟩
      rw [← hid]
      exact stores_mono hr (stores_remove hp h3)

theorem step_stores (L : Laws E) {N : Nat} (hd : DistinctDraws E N) {l : List Cred} {d : Device}
    {op : Op} (hN : (step E cfg d op).2.world.rnd ≤ N)
    (hat : d.alive = true → CanAttest E d.world.client) (h : Inv E cfg (Stores E l) d) :
    Inv E cfg (Stores E (learn l (op, (step E cfg d op).1))) (step E cfg d op).2 := by
  by_cases hmk : isMakeCredential op = true
  · cases op with
    | ctap m =>
      match m with
      | [] => cases hmk
      | c :: data =>
        by_cases hc : c = 1
        · subst hc; exact make_stores L hd hN hat h
        · unfold isMakeCredential at hmk
          split at hmk
          · rename_i e
            simp only [Op.ctap.injEq, List.cons.injEq] at e
            exact absurd e.1 hc
          · cases hmk
    | _ => cases hmk
  by_cases hdl : ∃ id, op = .deleteIdentity id
  · obtain ⟨id, rfl⟩ := hdl
    exact delete_stores L h
  have hu : learn l (op, (step E cfg d op).1) = l := by
    unfold learn
    split
    · rename_i e
      rw [(Prod.mk.inj e).1] at hmk
      exact absurd rfl hmk
    · rename_i id e
      exact absurd ⟨_, (Prod.mk.inj e).1⟩ hdl
    · rfl
  rw [hu]
  refine inv_step (P := Stores E l) L (fun n v v' => stores_same) (fun n n' v h1 _ => stores_mono h1) ?_ h
  intro n v v' h1 h2 hch hs
  cases hch with
  | same e => rw [e]; exact stores_mono h1 hs
  | added rp user e hr ho => exact absurd ho hmk
  | used i e ho =>
    rw [e]
    refine ⟨by rw [bump_shown]; exact hs.1, by rw [bump_ids]; exact hs.2.1, ?_⟩
    intro s hm
    obtain ⟨t, q1, q2⟩ := mem_bump hm
    obtain ⟨i, q3, q4⟩ := hs.2.2 t q1
    rcases q2 with rfl | rfl
    · exact ⟨i, by omega, q4⟩
    · exact ⟨i, by omega, q4⟩
  | removed s e ho => exact absurd ⟨_, ho⟩ hdl

theorem stores_after (L : Laws E) {N : Nat} (hd : DistinctDraws E N)
    (hat : CanAttest E (boot E cfg).world.client) :
    ∀ (ops : List Op) (l : List Cred) (d : Device), (after E cfg d ops).world.rnd ≤ N →
      Keeps E cfg d → Inv E cfg (Stores E l) d →
      Inv E cfg (Stores E ((events E cfg d ops).foldl learn l)) (after E cfg d ops)
  | [], l, d, _, _, h => h
  | op :: ops, l, d, hN, hk, h => by
    have hr := after_rnd (cfg := cfg) L (step E cfg d op).2 ops
    rw [after_cons] at hN ⊢
    have h' := step_stores (op := op) L hd (by omega) (attests_keeps hat hk) h
    exact stores_after L hd hat ops _ _ hN (keeps_step L hk) h'

theorem stores_reachable (L : Laws E) (hu : Usable E cfg)
    (hat : CanAttest E (boot E cfg).world.client) (ops : List Op)
    (hd : DistinctDraws E (after E cfg (boot E cfg) ops).world.rnd) :
    Inv E cfg (Stores E (held (events E cfg (boot E cfg) ops))) (after E cfg (boot E cfg) ops) :=
  stores_after L hd hat ops [] _ (Nat.le_refl _) (keeps_reachable L hu [])
    (inv_boot hu ⟨.nil, List.nodup_nil, fun s hs => by cases hs⟩)

end VF.Fido.Device
