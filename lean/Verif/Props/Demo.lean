import Verif.Spec.Demo
import Verif.Props.Restart
import Verif.Proofs.PinProgress

/-!
# The demo (C42, C70, C71)
-/

namespace VF.Props

open VF.Fido VF.Fido.Device VF.Spec.Client VF.Spec.Vault VF.Spec.History VF.Spec.Demo

variable {E : Env} {cfg : Client.Config}

/-! ## C42 -/

theorem saves_blob {c : Client} {m n : Nat} {data : Bytes} (h : Ctap.Saves E c m data n) :
    ∃ b, data = E.renderBlob b := by
  obtain ⟨st, -, h⟩ := h
  simp only [Saved.encryptState, Saved.encryptWithPassphrase, Option.bind_eq_bind,
    Option.bind_eq_some_iff] at h
  obtain ⟨⟨_, _, _⟩, -, ⟨_, _, _⟩, -, h⟩ := h
  simp only [Option.some.injEq, Prod.mk.injEq] at h
  exact ⟨_, h.1.symm⟩

/-- Whenever an operation saves, an interruption anywhere between truncating the file and writing its
last byte is fatal: the file holds neither the old nor the new vault, and every later start panics. -/
theorem C42_interrupted_save_is_fatal (L : Laws E) (op : Op) (w : World) {data : Bytes}
    (h : (perform E op w).2.store = some data) (hne : (perform E op w).2.store ≠ w.store)
    {n : Nat} (h0 : 0 < n) (hn : n ≤ data.length) (rnd : Nat) :
    Client.start E cfg (Demo.retrieveData (Demo.saveData w.store data n)) rnd =
      .panic .checkErr := by
  obtain ⟨b, hb⟩ : ∃ b, data = E.renderBlob b := by
    obtain ⟨-, o⟩ := perform_out L op w
    cases o with
    | kept hs hc => exact absurd hs hne
    | saved blob m n hs hv hh hch =>
      rw [h] at hs
      obtain rfl := Option.some.inj hs
      exact saves_blob hv
    | lost c hr hs => exact absurd hs hne
  cases n with
  | zero => omega
  | succ n =>
    have := L.json_prefix b n (by rw [← hb]; omega)
    rw [← hb] at this
    simp only [Demo.saveData, Demo.retrieveData, Client.start, Client.importData, Saved.decryptState,
      Saved.decryptWithPassphrase, this]
    rfl

/-- Not interrupted, or interrupted before the file is opened: the new or the old vault. -/
theorem C42_complete_or_not_begun (file : Option Bytes) (data : Bytes) (n : Nat) :
    Demo.saveData file data 0 = file ∧
      (data.length < n → Demo.saveData file data n = some data) := by
  refine ⟨rfl, fun h => ?_⟩
  cases n with
  | zero => omega
  | succ n => simp only [Demo.saveData]; rw [List.take_of_length_le (by omega)]

/-- Without a file the demo starts, with no credentials; after a complete save it starts with what was saved. -/
theorem C42_file_read (data : Bytes) (file : Option Bytes) (rnd : Nat) :
    (∃ c, Client.start E cfg (Demo.retrieveData none) rnd = .ok c ∧ c.vault = [] ∧ c.cert = cfg.cert ∧ c.certKey = cfg.certKey) ∧
    Client.start E cfg (Demo.retrieveData (Demo.saveData file data (data.length + 1))) rnd = Client.start E cfg (some data) rnd := by
  refine ⟨⟨_, rfl, rfl, rfl, rfl⟩, ?_⟩
  simp [Demo.saveData, Demo.retrieveData]

/-- The property fails: a vault with a credential, the creation of another one is interrupted while
saving, and the vault is lost. -/
theorem C42_crash_refuted : ∃ (E : Env) (cfg : Client.Config) (w : World) (op : Op) (data : Bytes)
    (n : Nat), Laws E ∧ Healthy E w.client ∧ w.client.vault ≠ [] ∧
    (perform E op w).2.store = some data ∧
    Demo.saveData w.store data n ≠ w.store ∧ Demo.saveData w.store data n ≠ some data ∧
    ∀ rnd, Client.start E cfg (Demo.retrieveData (Demo.saveData w.store data n)) rnd =
      .panic .checkErr := by
  let ap : List Ask → Action → Bytes → Bytes → Bool := fun _ _ _ _ => true
  have L := Toy.toy_laws ap
  have hh := Toy.client_healthy ap false none 8 (by simp)
  obtain ⟨b0, w1, blob, m, n, h1, h2, h3, h4, h5, -⟩ := made L (w := Toy.world false none 8)
    hh (Toy.client_attests ap false none 8) (Toy.make_decodes ap [] none (.inl rfl) (by simp))
    (by dsimp only [Toy.makeArgs]; decide +kernel) rfl rfl (flags := 0) rfl rfl
  have hs : (perform (Toy.toy ap) (.ctap (0x01 :: Toy.makeData [] none))
      (Toy.world false none 8)).2.store = some blob := by
    rw [perform_ctap', h1]; exact h4
  have hne : blob ≠ [] := by
    obtain ⟨b, rfl⟩ := saves_blob h5
    intro e
    have : Toy.serBlob b = [] := e
    have := congrArg List.length this
    simp only [Toy.serBlob, List.length_append, List.length_nil] at this
    have h0 : ∀ l : Bytes, 0 < (Toy.ser l).length := by intro l; cases l <;> simp [Toy.ser]
    have := h0 b.salt
    omega
  have hstore : (Toy.world false none 8).store = none := rfl
  refine ⟨Toy.toy ap, Toy.config false, Toy.world false none 8, _, blob, 1, L, hh,
    by simp [Toy.world, Toy.client], hs, by rw [hstore]; simp [Demo.saveData], ?_, fun rnd => ?_⟩
  · simp only [Demo.saveData, List.take_zero]
    intro e
    exact hne (Option.some.inj e).symm
  · refine C42_interrupted_save_is_fatal L _ _ hs (by rw [hs, hstore]; simp) (by decide) ?_ rnd
    cases blob with
    | nil => exact absurd rfl hne
    | cons x xs => simp

/-! ## C70 -/

/-- On a running device that can save, deleting an identity works. -/
theorem delete_works (L : Laws E) {d : Device} (ha : d.alive = true) (hh : Healthy E d.world.client)
    {s : Source} (hs : s ∈ d.world.client.vault) :
    ∃ x d', step E cfg d (.deleteIdentity s.id) = (.deleted true, d') ∧ d'.alive = true ∧
      x ∈ d.world.client.vault ∧ x.id = s.id ∧
      d.world.client.vault.Perm (x :: d'.world.client.vault) := by
  rcases perform_delete E s.id d.world with ⟨h, -⟩ | ⟨l, x, r, v', h1, h2, h3, h4, h5⟩
  · exact absurd rfl (h s hs)
  · have hh' : Healthy E { d.world.client with vault := v' } :=
      ⟨hh.1, hh.2.1, hh.2.2.1, hh.2.2.2.1, fun y hy =>
        hh.2.2.2.2 y (h4.mem_iff.2 (List.mem_cons_of_mem _ hy))⟩
    obtain ⟨blob, hsv⟩ := healthy_saves L hh' d.world.rnd
    rcases h5 with ⟨c, h5, -⟩ | ⟨blob, n, hsv, h5⟩
    · exact absurd hsv (h5 _ _)
    · refine ⟨x, ⟨{ d.world with
          client := { d.world.client with vault := v' }, store := some blob, rnd := n }, true⟩,
        ?_, rfl, by rw [h1]; simp, h2, h4⟩
      rw [step_live rfl ha, h5]

theorem hex_inj : ∀ {a b : Bytes}, Demo.hex a = Demo.hex b → a = b
  | [], [], _ => rfl
  | [], _ :: _, h => by simp [Demo.hex] at h
  | _ :: _, [], h => by simp [Demo.hex] at h
  | x :: a, y :: b, h => by
    have hd : ∀ m n, m < 16 → n < 16 → Demo.hexDigit m = Demo.hexDigit n → m = n := by
      have : ∀ m n : Fin 16, Demo.hexDigit m.1 = Demo.hexDigit n.1 → m = n := by decide +kernel
      exact fun m n hm hn e => congrArg Fin.val (this ⟨m, hm⟩ ⟨n, hn⟩ e)
    simp only [Demo.hex, List.flatMap_cons, List.cons_append, List.nil_append,
      List.cons.injEq] at h
    have h1 := hd _ _ (by have := x.toNat_lt; omega) (by have := y.toNat_lt; omega) h.1
    have h2 := hd _ _ (by omega) (by omega) h.2.1
    have : x = y := UInt8.toNat_inj.1 (by omega)
    rw [this, hex_inj h.2.2]

theorem hex_length (a : Bytes) : (Demo.hex a).length = 2 * a.length := by
  induction a with
  | nil => rfl
  | cons x a ih =>
    have : Demo.hex (x :: a) =
        Demo.hexDigit (x.toNat / 16) :: Demo.hexDigit (x.toNat % 16) :: Demo.hex a := rfl
    rw [this, List.length_cons, List.length_cons, List.length_cons, ih]
    omega

theorem hex_form : ∀ a : Bytes, Demo.hex a = hexForm a
  | [] => rfl
  | x :: a => by
    have hd : ∀ m, m < 16 → Demo.hexDigit m = hexForm.digits[m]! := by
      have : ∀ m : Fin 16, Demo.hexDigit m.1 = hexForm.digits[m.1]! := by decide +kernel
      exact fun m hm => this ⟨m, hm⟩
    have : Demo.hex (x :: a) =
        Demo.hexDigit (x.toNat / 16) :: Demo.hexDigit (x.toNat % 16) :: Demo.hex a := rfl
    rw [this, hexForm, hex_form a, hd _ (by have := x.toNat_lt; omega), hd _ (by omega)]

theorem filter_split {p : Source → Bool} {l r : List Source} {s : Source} (hs : p s = true)
    (ho : ∀ x ∈ l ++ r, p x = false) : (l ++ s :: r).filter p = [s] := by
  have : ∀ m : List Source, (∀ x ∈ m, p x = false) → m.filter p = [] := by
    intro m hm
    exact List.filter_eq_nil_iff.2 (fun x hx => by simp [hm x hx])
  rw [List.filter_append, List.filter_cons, if_pos hs,
    this l (fun x hx => ho x (by simp [hx])), this r (fun x hx => ho x (by simp [hx]))]
  rfl

theorem prefix_iff (text : Bytes) (s : Source) :
    text.isPrefixOf (Demo.hex s.id) = true ↔ HasPrefix text s := by
  rw [hex_form]; exact List.isPrefixOf_iff_prefix

/-- What `demo delete` does after any history: nothing if no identity, or several, match; if exactly
one matches it deletes (durably: `d2` is again a reachable device, see C40 and C41) the identity listed
last, whichever matched. -/
theorem C70_what_it_does (L : Laws E) (hu : Usable E cfg) (ops : List Op) (text : Bytes) {d : Device}
    (h : after E cfg (boot E cfg) ops = d) :
    ∃ d1, step E cfg d .restart = (.started, d1) ∧
      ((∀ s ∈ d1.world.client.vault, ¬ HasPrefix text s) →
        Demo.deleteIdentity E cfg text d = (.notFound, d1)) ∧
      (∀ l m r s t, d1.world.client.vault = l ++ s :: m ++ t :: r → HasPrefix text s →
        HasPrefix text t → ∃ ids, Demo.deleteIdentity E cfg text d = (.multiple ids, d1)) ∧
      ∀ l r s, d1.world.client.vault = l ++ s :: r → HasPrefix text s →
        (∀ x ∈ l ++ r, ¬ HasPrefix text x) →
        ∃ last x d2, (l ++ s :: r).getLast? = some last ∧
          Demo.deleteIdentity E cfg text d = (.done last.id, d2) ∧
          d2 = after E cfg (boot E cfg) (ops ++ [.restart, .deleteIdentity last.id]) ∧
          d2.alive = true ∧ x ∈ d1.world.client.vault ∧ x.id = last.id ∧
          d1.world.client.vault.Perm (x :: d2.world.client.vault) := by
  subst h
  obtain ⟨c, h1, h2, h3, h4⟩ := inv_reachable L hu ops
  obtain ⟨c', s1, s2, s3, -, s5⟩ := h2 (after E cfg (boot E cfg) ops).world.rnd
  have e : step E cfg (after E cfg (boot E cfg) ops) .restart =
      (.started, ⟨{ (after E cfg (boot E cfg) ops).world with
        client := c', rnd := (after E cfg (boot E cfg) ops).world.rnd + 2 }, true⟩) := by
    simp only [step, s1]
  generalize hd : after E cfg (boot E cfg) ops = d at *
  refine ⟨_, e, ?_, ?_, ?_⟩
  · intro hn
    have : c'.vault.filter (fun s => text.isPrefixOf (Demo.hex s.id)) = [] :=
      List.filter_eq_nil_iff.2 (fun x hx hp => hn x hx ((prefix_iff _ _).1 hp))
    simp only [Demo.deleteIdentity, e, this, List.map_nil]
  · intro l m r s t hv hs ht
    have hv : c'.vault = l ++ s :: m ++ t :: r := hv
    have : ∃ a b q, c'.vault.filter (fun s => text.isPrefixOf (Demo.hex s.id)) = a :: b :: q := by
      rw [hv]
      have hf : 2 ≤ ((l ++ s :: m ++ t :: r).filter
          (fun s => text.isPrefixOf (Demo.hex s.id))).length := by
        simp only [List.filter_append, List.filter_cons, (prefix_iff _ _).2 hs,
          (prefix_iff _ _).2 ht, if_true, List.length_append, List.length_cons]
        omega
      generalize (l ++ s :: m ++ t :: r).filter (fun s => text.isPrefixOf (Demo.hex s.id)) = f at *
      match f, hf with
      | a :: b :: q, _ => exact ⟨a, b, q, rfl⟩
    obtain ⟨a, b, q, hf⟩ := this
    simp only [Demo.deleteIdentity, e, hf, List.map_cons]
    cases c'.vault.getLast? <;> exact ⟨_, rfl⟩
  · intro l r s hv hs ho
    have hv : c'.vault = l ++ s :: r := hv
    have hf := filter_split (p := fun s => text.isPrefixOf (Demo.hex s.id)) ((prefix_iff text s).2 hs)
      (fun x hx => by
        cases hp : text.isPrefixOf (Demo.hex x.id) with
        | false => rfl
        | true => exact absurd ((prefix_iff _ _).1 hp) (ho x hx))
    obtain ⟨last, hl⟩ : ∃ last, (l ++ s :: r).getLast? = some last := by
      cases hg : (l ++ s :: r).getLast? with
      | none => simp at hg
      | some last => exact ⟨last, rfl⟩
    obtain ⟨x, d2, q1, q2, q3, q4, q5⟩ := delete_works (cfg := cfg) L
      (d := ⟨{ d.world with client := c', rnd := d.world.rnd + 2 }, true⟩) rfl s3
      (s := last) (by show last ∈ c'.vault; rw [hv]; exact List.mem_of_getLast? hl)
    refine ⟨last, x, d2, hl, ?_, ?_, q2, q3, q4, q5⟩
    · simp only [Demo.deleteIdentity, e, hv, hf, hl, List.map_cons, List.map_nil, q1]
    · rw [after_append, hd, after_cons, after_cons, after_nil, e, q1]

/-- The identity named is the one deleted exactly if it is the last one. -/
theorem C70_right_identity_iff (L : Laws E) (hu : Usable E cfg) (ops : List Op) (text : Bytes)
    {d d1 : Device} (h : after E cfg (boot E cfg) ops = d)
    (h1 : step E cfg d .restart = (.started, d1)) {l r : List Source} {s : Source}
    (hv : d1.world.client.vault = l ++ s :: r) (hs : HasPrefix text s)
    (ho : ∀ x ∈ l ++ r, ¬ HasPrefix text x) :
    (Demo.deleteIdentity E cfg text d).1 = .done s.id ↔ r = [] := by
  obtain ⟨d1', e1, -, -, e4⟩ := C70_what_it_does L hu ops text h
  rw [h1] at e1
  obtain rfl : d1 = d1' := (Prod.mk.inj e1).2
  obtain ⟨last, x, d2, q1, q2, -⟩ := e4 l r s hv hs ho
  rw [q2]
  constructor
  · intro hd
    have hid : last.id = s.id := by simpa using hd
    by_cases hr : r = []
    · exact hr
    · exfalso
      have hm : last ∈ r := by
        rw [List.getLast?_append, List.getLast?_cons] at q1
        obtain ⟨z, hz⟩ : ∃ z, r.getLast? = some z := by
          cases hg : r.getLast? with
          | none => exact absurd (List.getLast?_eq_none_iff.1 hg) hr
          | some z => exact ⟨z, rfl⟩
        rw [hz] at q1
        have : z = last := by simpa using q1
        rw [← this]
        exact List.mem_of_getLast? hz
      refine ho last (by simp [hm]) ?_
      unfold HasPrefix at hs ⊢
      rw [hid]; exact hs
  · intro hr
    subst hr
    have : s = last := by simpa using q1
    rw [this]

/-- The property fails: two credentials, the first is named by its full id, the second is deleted. -/
theorem C70_named_identity_refuted : ∃ (E : Env) (cfg : Client.Config) (ops : List Op) (a b : Source)
    (d2 : Device), Laws E ∧ Usable E cfg ∧
    (step E cfg (after E cfg (boot E cfg) ops) .restart).2.world.client.vault = [a, b] ∧
    a.id ≠ b.id ∧ ¬ HasPrefix (hexForm a.id) b ∧
    Demo.deleteIdentity E cfg (hexForm a.id) (after E cfg (boot E cfg) ops) = (.done b.id, d2) ∧
    d2.world.client.vault = [a] := by
  let ap : List Ask → Action → Bytes → Bytes → Bool := fun _ _ _ _ => true
  have L := Toy.toy_laws ap
  let E := Toy.toy ap
  let cfg := Toy.config false
  have hm1 := Toy.make_decodes ap [] none (.inl rfl) (by simp)
  obtain ⟨b0, w1, blob1, m1, n1, h1, h2, h3, -, -, hr, -⟩ := made L (w := (boot E cfg).world)
    (Toy.boot_healthy ap false) (Toy.boot_attests ap false) hm1
    (by dsimp only [Toy.makeArgs]; decide +kernel) rfl rfl (flags := 0) rfl rfl
  have s1 := step_ctap (E := E) (cfg := cfg) (d := boot E cfg) rfl h1
  have hat : CanAttest E w1.client := by
    obtain ⟨i, q⟩ := Toy.boot_attests ap false
    rw [h2]; exact ⟨i, q⟩
  obtain ⟨b1, w2, blob2, m2, n2, k1, k2, k3, k4, k5, -, -⟩ := made L (w := w1) h3 hat hm1
    (by dsimp only [Toy.makeArgs]; decide +kernel) rfl rfl (flags := 0)
    (by rw [h2]; rfl) rfl
  have s2 := step_ctap (E := E) (cfg := cfg) (d := ⟨w1, true⟩) rfl k1
  have hd : after E cfg (boot E cfg)
      [.ctap (0x01 :: Toy.makeData [] none), .ctap (0x01 :: Toy.makeData [] none)] = ⟨w2, true⟩ := by
    rw [after_cons, s1, after_cons, s2, after_nil]
  obtain ⟨c', s3, r1, r2, -⟩ := restarted (E := E) (cfg := cfg) (d := ⟨w2, true⟩) L k3 k4 k5
  obtain ⟨a0, ea⟩ : ∃ a, a = Vault.newIdentity E (some Toy.rp) (some Toy.user) 2 := ⟨_, rfl⟩
  obtain ⟨b0', eb⟩ : ∃ b, b = Vault.newIdentity E (some Toy.rp) (some Toy.user) w1.rnd := ⟨_, rfl⟩
  have hv : w2.client.vault = [a0, b0'] := by
    rw [k2, ea, eb]
    show w1.client.vault ++ _ = _
    rw [h2]; rfl
  have hsame := r1.2.2.2.2.2
  have hlen : c'.vault.length = 2 := by rw [← hsame.1]; show w2.client.vault.length = 2; rw [hv]; rfl
  obtain ⟨a, b, hc⟩ : ∃ a b, c'.vault = [a, b] := by
    generalize c'.vault = v at *
    match v, hlen with
    | [a, b], _ => exact ⟨a, b, rfl⟩
  have ia : a0.id = a.id := (hsame.2 0 a0 a (by show w2.client.vault[0]? = _; rw [hv]; rfl)
    (by rw [hc]; rfl)).1
  have ib : b0'.id = b.id := (hsame.2 1 b0' b (by show w2.client.vault[1]? = _; rw [hv]; rfl)
    (by rw [hc]; rfl)).1
  have hne : a.id ≠ b.id := by
    rw [← ia, ← ib, ea, eb]
    intro q2
    have q2 : List.replicate 16 (UInt8.ofNat 2) = List.replicate 16 (UInt8.ofNat w1.rnd) := q2
    have q2 := Toy.toy_draws ap (n := 256) (Nat.le_refl _) 2 w1.rnd (by omega)
      (by have : w1.rnd ≤ 2 + 8 := hr.2; omega) q2
    have : 2 < w1.rnd := hr.1
    omega
  have hl : a.id.length = b.id.length := by
    rw [← ia, ← ib, ea, eb]
    exact (L.rand_length 2 16).trans (L.rand_length w1.rnd 16).symm
  have hnp : ¬ HasPrefix (hexForm a.id) b := by
    intro hp
    unfold HasPrefix at hp
    rw [← hex_form, ← hex_form] at hp
    refine hne (hex_inj (List.IsPrefix.eq_of_length hp ?_))
    rw [hex_length, hex_length, hl]
  obtain ⟨d1, e1, -, -, e4⟩ := C70_what_it_does L (Toy.config_usable ap false)
    [.ctap (0x01 :: Toy.makeData [] none), .ctap (0x01 :: Toy.makeData [] none)] (hexForm a.id) hd
  have e1' := e1
  rw [s3] at e1'
  have e1' := (Prod.mk.inj e1').2
  have hv1 : d1.world.client.vault = [] ++ a :: [b] := by rw [← e1']; exact hc
  obtain ⟨last, x, d2, q1, q2, q3, q4, q5, q6, q7⟩ := e4 [] [b] a hv1 (List.prefix_refl _)
    (by intro x hx; have : x = b := by simpa using hx
        rw [this]; exact hnp)
  obtain rfl : b = last := by simpa using q1
  have hxb : x = b := by
    rw [hv1] at q5
    simp only [List.nil_append, List.mem_cons, List.not_mem_nil, or_false] at q5
    rcases q5 with rfl | rfl
    · exact absurd q6 hne
    · rfl
  refine ⟨E, cfg, _, a, b, d2, L, Toy.config_usable ap false, ?_, hne, hnp, by rw [hd]; exact q2, ?_⟩
  · rw [hd, e1]; exact hv1
  · rw [hv1, hxb] at q7
    have : [a, b].Perm (b :: d2.world.client.vault) := q7
    have := ((List.Perm.swap a b []).trans this).cons_inv
    exact List.perm_singleton.1 this.symm

/-! ## C82 -/

theorem listing_ok : ∀ (v : List Source), (∀ s ∈ v, 4 ≤ s.id.length ∧ s.user.isSome ∧ s.rp.isSome) →
    ∃ lines, Demo.listing v = .ok lines ∧ Lists v lines
  | [], _ => ⟨[], rfl, rfl, by simp⟩
  | s :: v, h => by
    obtain ⟨lines, h1, h2⟩ := listing_ok v (fun x hx => h x (by simp [hx]))
    obtain ⟨a, b, c⟩ := h s (by simp)
    obtain ⟨user, hu⟩ := Option.isSome_iff_exists.1 b
    obtain ⟨rp, hr⟩ := Option.isSome_iff_exists.1 c
    refine ⟨(ascii "(" ++ Demo.hex (s.id.take 4) ++ ascii "): '" ++ user.name ++
      ascii "' for website '" ++ rp.name ++ ascii "'\n") :: lines, ?_, by simp [h2.1], ?_⟩
    · simp only [Demo.listing, if_neg (Nat.not_lt.2 a), hu, hr, h1]
      rfl
    · intro i x line hx hl
      cases i with
      | zero =>
        obtain rfl : s = x := by simpa using hx
        rw [List.getElem?_cons_zero] at hl
        exact ⟨user, rp, hu, hr, by rw [← hex_form]; exact (Option.some.inj hl).symm⟩
      | succ i => exact h2.2 i x line (by simpa using hx) (by simpa using hl)

/-- After any history, all credential ids have 16 bytes. -/
theorem ids_length (L : Laws E) (hu : Usable E cfg) (ops : List Op) :
    Inv E cfg (fun _ v => ∀ s ∈ v, s.id.length = 16) (after E cfg (boot E cfg) ops) := by
  have key := inv_after (E := E) (cfg := cfg) L
    (P := fun _ _ v => ∀ s ∈ v, s.id.length = 16)
    (N := (after E cfg (boot E cfg) ops).world.rnd) (K := 0 + ops.countP isGetAssertion)
    ?_ (fun _ _ _ _ _ _ _ h => h) ?_ ops 0 (boot E cfg) (Nat.le_refl _) (Nat.le_refl _)
    (inv_boot hu (by simp))
  · exact key
  · intro k n v v' hs h s hm
    obtain ⟨i, hi, e⟩ := List.getElem_of_mem hm
    have hi' : i < v.length := by rw [hs.1]; exact hi
    have := (hs.2 i v[i] s (List.getElem?_eq_getElem hi')
      (by rw [List.getElem?_eq_getElem hi, e])).1
    rw [← this]
    exact h _ (List.getElem_mem hi')
  · intro op k n n' v v' _ _ _ hc h
    cases hc with
    | same e => rw [e]; exact h
    | added rp user e hr =>
      rw [e]
      intro s hs
      rcases List.mem_append.1 hs with hs | hs
      · exact h s hs
      · rw [List.mem_singleton.1 hs]; exact L.rand_length _ _
    | used i e hu =>
      intro s hs
      have hm : s.id ∈ (Client.bump v i).map (·.id) := List.mem_map_of_mem (by rw [← e]; exact hs)
      rw [bump_ids] at hm
      obtain ⟨x, hx, hxe⟩ := List.mem_map.1 hm
      rw [← hxe]; exact h x hx
    | removed x hp => exact fun s hs => h s (hp.mem_iff.2 (List.mem_cons_of_mem _ hs))

/-- After any history `demo list` prints one line per credential and does not crash. -/
theorem C82_list_complete (L : Laws E) (hu : Usable E cfg) (ops : List Op) :
    ∃ d1 lines, step E cfg (after E cfg (boot E cfg) ops) .restart = (.started, d1) ∧
      Demo.listIdentities E cfg (after E cfg (boot E cfg) ops) = (.ok lines, d1) ∧
      Lists d1.world.client.vault lines := by
  have hi := ids_length L hu (ops ++ [.restart])
  rw [after_append, after_cons, after_nil] at hi
  obtain ⟨c, -, h2, -, -⟩ := inv_reachable L hu ops
  obtain ⟨c', s1, s2, s3, -, -⟩ := h2 (after E cfg (boot E cfg) ops).world.rnd
  have e : step E cfg (after E cfg (boot E cfg) ops) .restart =
      (.started, ⟨{ (after E cfg (boot E cfg) ops).world with
        client := c', rnd := (after E cfg (boot E cfg) ops).world.rnd + 2 }, true⟩) := by
    simp only [step, s1]
  rw [e] at hi
  obtain ⟨c'', -, -, hi, ha⟩ := hi
  obtain rfl : c'' = c' := ha rfl
  obtain ⟨lines, h3, h4⟩ := listing_ok c''.vault (fun s hs => by
    obtain ⟨-, -, -, ⟨rp, h5, -⟩, ⟨user, h6, -⟩⟩ := s3.2.2.2.2 s hs
    exact ⟨by rw [hi s hs]; decide, by rw [h6]; rfl, by rw [h5]; rfl⟩)
  refine ⟨_, lines, e, ?_, h4⟩
  simp only [Demo.listIdentities, e, h3]

end VF.Props
