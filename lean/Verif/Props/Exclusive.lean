import Verif.Proofs.ExclusiveCounters
import Verif.Proofs.ExclusiveU2f
import Verif.Proofs.ExclusivePlay
import Verif.Proofs.ExclusivePin
import Verif.Proofs.OverlapCounters
import Verif.Proofs.OverlapFootprint
import Verif.Props.OverlapIds
import Verif.Props.History

/-!
# Requests of one kind one at a time, anything else overlapping (C73, C99, C101)

When requests of one kind do not overlap with each other, they are as safe as on a sequential device, whatever other
requests and calls overlap with them.
-/

namespace VF.Props

open VF.Fido VF.Fido.Overlap VF.Spec.Client VF.Spec.Vault VF.Spec.History VF.Spec.Overlap VF.Spec.Ctap VF.Spec.U2f

variable {E : Env} {cfg : Client.Config}

/-! ## C101: signature counters differ -/

theorem same_place {m : Mem} (h : DistinctIds m) {p q : Nat} {s t : Source} (hp : m.heap[p]? = some s)
    (hq : m.heap[q]? = some t) (he : s.id = t.id) : p = q := by
  unfold DistinctIds at h
  obtain ⟨hp', -⟩ := List.getElem?_eq_some_iff.1 hp
  obtain ⟨hq', -⟩ := List.getElem?_eq_some_iff.1 hq
  refine (List.getElem?_inj (by simpa using hp') h).1 ?_
  rw [List.getElem?_map, List.getElem?_map, hp, hq]
  simp [he]

theorem heap_ids (L : Laws E) (hu : Usable E cfg) {evs : List Event}
    (hd : DistinctDraws E ((boot E cfg).run E cfg evs).mem.world.rnd) : DistinctIds ((boot E cfg).run E cfg evs).mem := by
  obtain ⟨f, h⟩ := tickets_run L hu evs hd
  exact h.dealt.ids

/-- Logins do not overlap with each other, whatever else overlaps: two logins with the same credential give different
signature counters (counters have 32 bits), as long as random draws do not repeat.  Missing: overlapping logins, for which it is false (`C101_counters_differ_refuted`), and restarts
between the two. -/
theorem C101_partial (L : Laws E) (hu : Usable E cfg) {evs evs' : List Event}
    (hx : Exclusive isGetAssertion E cfg evs evs') {i j : Nat} {data1 data2 b1 b2 id a1 a2 g1 g2 : Bytes} {ad1 ad2 : AuthData}
    (hn : ((boot E cfg).run E cfg evs).threads.length ≤ i) (hij : i < j)
    (hi : ((boot E cfg).run E cfg (evs ++ evs')).threads[i]? = some (.ready (.ctap (2 :: data1)) (.answer (0 :: b1))))
    (hj : ((boot E cfg).run E cfg (evs ++ evs')).threads[j]? = some (.ready (.ctap (2 :: data2)) (.answer (0 :: b2))))
    (ha1 : IsAssertion (0 :: b1) id a1 g1) (hp1 : parseAuthData a1 = some ad1)
    (ha2 : IsAssertion (0 :: b2) id a2 g2) (hp2 : parseAuthData a2 = some ad2)
    (hd : DistinctDraws E ((boot E cfg).run E cfg (evs ++ evs')).mem.world.rnd)
    (hmany : begun isGetAssertion ((boot E cfg).run E cfg (evs ++ evs')) < 2 ^ 32) :
    ad1.counter ≠ ad2.counter := by
  obtain ⟨p, q, s, t, h1, h2, h3, h4, n, n', h5, h6, h7, h8⟩ := two_assertions L hu hx hn hij hi hj ha1 hp1 ha2 hp2
  obtain rfl := same_place (heap_ids L hu hd) h1 h3 (h2.trans h4.symm)
  have hlt := h8 rfl
  have hb : n' < 2 ^ 32 := Nat.lt_of_le_of_lt h7 hmany
  rw [h5, h6]
  intro he
  have he := UInt32.toNat_inj.1 he
  have he := UInt32.add_right_inj _ |>.1 he
  have he := congrArg UInt32.toNat he
  rw [UInt32.toNat_ofNat_of_lt' (by show n < 2 ^ 32; omega), UInt32.toNat_ofNat_of_lt' (by show n' < 2 ^ 32; omega)] at he
  omega

/-- They increase, as long as no counter comes to 2^32. -/
theorem C101_increasing_partial (L : Laws E) (hu : Usable E cfg) {evs evs' : List Event}
    (hx : Exclusive isGetAssertion E cfg evs evs') {i j : Nat} {data1 data2 b1 b2 id a1 a2 g1 g2 : Bytes} {ad1 ad2 : AuthData}
    (hn : ((boot E cfg).run E cfg evs).threads.length ≤ i) (hij : i < j)
    (hi : ((boot E cfg).run E cfg (evs ++ evs')).threads[i]? = some (.ready (.ctap (2 :: data1)) (.answer (0 :: b1))))
    (hj : ((boot E cfg).run E cfg (evs ++ evs')).threads[j]? = some (.ready (.ctap (2 :: data2)) (.answer (0 :: b2))))
    (ha1 : IsAssertion (0 :: b1) id a1 g1) (hp1 : parseAuthData a1 = some ad1)
    (ha2 : IsAssertion (0 :: b2) id a2 g2) (hp2 : parseAuthData a2 = some ad2)
    (hd : DistinctDraws E ((boot E cfg).run E cfg (evs ++ evs')).mem.world.rnd)
    (hmany : begun isGetAssertion ((boot E cfg).run E cfg (evs ++ evs')) < 2 ^ 32)
    (hfar : ∀ s ∈ ((boot E cfg).run E cfg evs).mem.heap,
      s.counter.toNat + begun isGetAssertion ((boot E cfg).run E cfg (evs ++ evs')) < 2 ^ 32) :
    ad1.counter < ad2.counter := by
  obtain ⟨p, q, s, t, h1, h2, h3, h4, n, n', h5, h6, h7, h8⟩ := two_assertions L hu hx hn hij hi hj ha1 hp1 ha2 hp2
  obtain rfl := same_place (heap_ids L hu hd) h1 h3 (h2.trans h4.symm)
  have hlt := h8 rfl
  have hb : (counterAt ((boot E cfg).run E cfg evs).mem p).toNat + n' < 2 ^ 32 := by
    unfold counterAt
    have h7 : n' ≤ begun isGetAssertion ((boot E cfg).run E cfg (evs ++ evs')) := h7
    cases hs : ((boot E cfg).run E cfg evs).mem.heap[p]? with
    | none =>
      show 0 + n' < _
      omega
    | some s =>
      have := hfar s (List.mem_of_getElem? hs)
      show s.counter.toNat + n' < _
      omega
  rw [h5, h6, UInt32.toNat_add, UInt32.toNat_add, UInt32.toNat_ofNat_of_lt' (by show n < 2 ^ 32; omega),
    UInt32.toNat_ofNat_of_lt' (by show n' < 2 ^ 32; omega), Nat.mod_eq_of_lt (by omega), Nat.mod_eq_of_lt (by omega)]
  omega

/-- The hypotheses can be met: a credential is made, the embedding program begins to switch the PIN off, and meanwhile
two logins are done. -/
example : ∃ (E : Env) (cfg : Client.Config) (evs evs' : List Event) (data b1 b2 id a1 a2 g1 g2 : Bytes) (ad1 ad2 : AuthData),
    Laws E ∧ Usable E cfg ∧ Exclusive isGetAssertion E cfg evs evs' ∧ ((boot E cfg).run E cfg evs).threads.length = 2 ∧
    (∃ p, ((boot E cfg).run E cfg (evs ++ evs')).threads[1]? = some (.working .disablePIN p)) ∧
    ((boot E cfg).run E cfg (evs ++ evs')).threads[2]? = some (.ready (.ctap (2 :: data)) (.answer (0 :: b1))) ∧
    ((boot E cfg).run E cfg (evs ++ evs')).threads[3]? = some (.ready (.ctap (2 :: data)) (.answer (0 :: b2))) ∧
    IsAssertion (0 :: b1) id a1 g1 ∧ parseAuthData a1 = some ad1 ∧ ad1.counter = 1 ∧
    IsAssertion (0 :: b2) id a2 g2 ∧ parseAuthData a2 = some ad2 ∧ ad2.counter = 2 ∧
    DistinctDraws E ((boot E cfg).run E cfg (evs ++ evs')).mem.world.rnd ∧
    begun isGetAssertion ((boot E cfg).run E cfg (evs ++ evs')) < 2 ^ 32 ∧
    ∀ s ∈ ((boot E cfg).run E cfg evs).mem.heap,
      s.counter.toNat + begun isGetAssertion ((boot E cfg).run E cfg (evs ++ evs')) < 2 ^ 32 := by
  let E := Toy.toy Toy.agree
  let cfg := Toy.config false
  have hb : Toy.Ready (Device.boot E cfg).world := by
    have := Toy.boot_ready
    exact this
  obtain ⟨b0, w1, h1, r1, v1, -, n1⟩ := Toy.make_perform hb
  have v1 : w1.client.vault = [Vault.newIdentity E (some Toy.rp) (some Toy.user) (Device.boot E cfg).world.rnd] := v1
  obtain ⟨b1, w2, a1, g1, ad1, h2, r2, c2, n2, q1, q2, q3⟩ := Toy.get_again (c := 0) r1 v1 rfl
  obtain ⟨b2, w3, a2, g2, ad2, h3, -, c3, n3, q4, q5, q6⟩ := Toy.get_again (w := w2)
    (s := Ctap.bumped (Vault.newIdentity E (some Toy.rp) (some Toy.user) (Device.boot E cfg).world.rnd)) (c := 1) r2 (by rw [c2]) rfl
  have s1 : Device.step E cfg (Device.boot E cfg) Toy.makeOp = (.answer (0 :: b0), ⟨w1, true⟩) :=
    step_of_perform (w := (Device.boot E cfg).world) (by simp [Toy.makeOp]) h1
  have s2 : Device.step E cfg ⟨w1, true⟩ Toy.getOp = (.answer (0 :: b1), ⟨w2, true⟩) := step_of_perform (by simp [Toy.getOp]) h2
  have s3 : Device.step E cfg ⟨w2, true⟩ Toy.getOp = (.answer (0 :: b2), ⟨w3, true⟩) := step_of_perform (by simp [Toy.getOp]) h3
  have t1 : Device.after E cfg (Device.boot E cfg) [Toy.makeOp] = ⟨w1, true⟩ := by
    simp only [Device.after, Device.run, s1]
  have t2 : Device.after E cfg ⟨w1, true⟩ [Toy.getOp, Toy.getOp] = ⟨w3, true⟩ := by
    simp only [Device.after, Device.run, s2, s3]
  have e1 : events E cfg (Device.boot E cfg) [Toy.makeOp] = [(Toy.makeOp, .answer (0 :: b0))] := by
    simp only [events, Device.run, s1, List.zip, List.zipWith]
  have e2 : events E cfg ⟨w1, true⟩ [Toy.getOp, Toy.getOp] =
      [(Toy.getOp, .answer (0 :: b1)), (Toy.getOp, .answer (0 :: b2))] := by
    simp only [events, Device.run, s2, s3, List.zip, List.zipWith]
  obtain ⟨evs, evs', hr, -, hbg, -, k1, k2, k3, k4, -, -, k5⟩ := beside (E := E) (cfg := cfg) (call := .disablePIN) (by simp) ⟨_, _, rfl⟩
    (pre := [Toy.makeOp]) (ops := [Toy.getOp, Toy.getOp]) (by simp [Toy.makeOp]) (by simp [Toy.getOp])
    (by rw [e1]; simp) (by rw [t1]) (by rw [t1, e2]; simp)
  rw [t1, e1, e2] at k3
  rw [t1, t2] at k4
  rw [e1] at k1
  have hmany : begun isGetAssertion ((boot E cfg).run E cfg (evs ++ evs')) ≤ 4 := by
    unfold begun
    rw [k3]
    exact List.countP_le_length
  have hrnd : ((boot E cfg).run E cfg (evs ++ evs')).mem.world.rnd ≤ 256 := by
    rw [show ((boot E cfg).run E cfg (evs ++ evs')).mem.world.rnd = (view ((boot E cfg).run E cfg (evs ++ evs')).mem).rnd from rfl, k4]
    have n1 : w1.rnd ≤ 2 + 8 := n1
    show w3.rnd ≤ 256
    omega
  refine ⟨E, cfg, evs, evs', _, b1, b2, _, a1, a2, g1, g2, ad1, ad2, Toy.toy_laws _, Toy.config_usable _ _, k5 _ rfl, by rw [k1]; rfl,
    ⟨_, by rw [k3]; rfl⟩, by rw [k3]; rfl, by rw [k3]; rfl, q1, q2, q3, q4, q5, q6, Toy.toy_draws _ hrnd, by omega, ?_⟩
  have hk := history_keeps (E := E) (cfg := cfg) (t := { touches E Toy.makeOp with pinEnabled := true }) [] evs hr
    (fun op p h => nomatch h) (fun op h => by
      rcases hbg op h with h | rfl
      · rw [List.mem_singleton.1 h]
        simp [Touches.Within, touches, Toy.makeOp]
      · simp [Touches.Within, touches, Toy.makeOp])
  rw [List.nil_append] at hk
  intro s hs
  obtain ⟨p, hp⟩ := List.getElem?_of_mem hs
  have h0 : s.counter = 0 := hk.fresh rfl p s (Nat.zero_le _) hp
  rw [h0]
  show 0 + _ < 2 ^ 32
  omega

/-! ## C73: U2F counters differ -/

/-- U2F authentications do not overlap with each other, whatever else overlaps: two give different
counters (counters have 32 bits).  Missing: overlapping authentications, for which it is false (`C73_race_refuted`), and restarts
between the two, which set the counter back (`C67_across_restarts_refuted`). -/
theorem C73_exclusive_partial {evs evs' : List Event} (hx : Exclusive isU2fAuthenticate E cfg evs evs') {i j : Nat}
    {cla cla' : UInt8} {rest rest' b b' : Bytes} {a a' : Authentication}
    (hn : ((boot E cfg).run E cfg evs).threads.length ≤ i) (hij : i < j)
    (hi : ((boot E cfg).run E cfg (evs ++ evs')).threads[i]? = some (.ready (.u2f (cla :: 2 :: rest)) (.answer b)))
    (hj : ((boot E cfg).run E cfg (evs ++ evs')).threads[j]? = some (.ready (.u2f (cla' :: 2 :: rest')) (.answer b')))
    (ha : parseAuthentication b = some a) (ha' : parseAuthentication b' = some a')
    (hmany : begun isU2fAuthenticate ((boot E cfg).run E cfg (evs ++ evs')) < 2 ^ 32) :
    a.counter ≠ a'.counter := by
  obtain ⟨n, n', h1, h2, h3, h4⟩ := two_authentications hx rfl rfl hn hij hi hj ha ha'
  have h4 : n' < begun isU2fAuthenticate ((boot E cfg).run E cfg (evs ++ evs')) := h4
  rw [h1, h2]
  intro he
  have he := UInt32.toNat_inj.1 he
  have he := UInt32.add_right_inj _ |>.1 he
  have he := congrArg UInt32.toNat he
  rw [UInt32.toNat_ofNat_of_lt' (by show n < 2 ^ 32; omega), UInt32.toNat_ofNat_of_lt' (by show n' < 2 ^ 32; omega)] at he
  omega

/-- They increase, as long as the counter does not come to 2^32. -/
theorem C73_exclusive_increasing_partial {evs evs' : List Event} (hx : Exclusive isU2fAuthenticate E cfg evs evs') {i j : Nat}
    {cla cla' : UInt8} {rest rest' b b' : Bytes} {a a' : Authentication}
    (hn : ((boot E cfg).run E cfg evs).threads.length ≤ i) (hij : i < j)
    (hi : ((boot E cfg).run E cfg (evs ++ evs')).threads[i]? = some (.ready (.u2f (cla :: 2 :: rest)) (.answer b)))
    (hj : ((boot E cfg).run E cfg (evs ++ evs')).threads[j]? = some (.ready (.u2f (cla' :: 2 :: rest')) (.answer b')))
    (ha : parseAuthentication b = some a) (ha' : parseAuthentication b' = some a')
    (hfar : ((boot E cfg).run E cfg evs).mem.world.client.authCounter.toNat +
      begun isU2fAuthenticate ((boot E cfg).run E cfg (evs ++ evs')) < 2 ^ 32) :
    a.counter < a'.counter := by
  obtain ⟨n, n', h1, h2, h3, h4⟩ := two_authentications hx rfl rfl hn hij hi hj ha ha'
  have h4 : n' < begun isU2fAuthenticate ((boot E cfg).run E cfg (evs ++ evs')) := h4
  rw [h1, h2, UInt32.toNat_add, UInt32.toNat_add, UInt32.toNat_ofNat_of_lt' (by show n < 2 ^ 32; omega),
    UInt32.toNat_ofNat_of_lt' (by show n' < 2 ^ 32; omega), Nat.mod_eq_of_lt (by omega), Nat.mod_eq_of_lt (by omega)]
  omega

/-- The hypotheses can be met: a key is registered, the embedding program begins to switch the PIN off, and meanwhile
two authentications are done. -/
example : ∃ (E : Env) (cfg : Client.Config) (evs evs' : List Event) (rest b b' : Bytes) (a a' : Authentication), Laws E ∧
    Exclusive isU2fAuthenticate E cfg evs evs' ∧ ((boot E cfg).run E cfg evs).threads.length = 2 ∧
    (∃ p, ((boot E cfg).run E cfg (evs ++ evs')).threads[1]? = some (.working .disablePIN p)) ∧
    ((boot E cfg).run E cfg (evs ++ evs')).threads[2]? = some (.ready (.u2f (0 :: 2 :: rest)) (.answer b)) ∧
    ((boot E cfg).run E cfg (evs ++ evs')).threads[3]? = some (.ready (.u2f (0 :: 2 :: rest)) (.answer b')) ∧
    parseAuthentication b = some a ∧ parseAuthentication b' = some a' ∧ a.counter = 1 ∧ a'.counter = 2 ∧
    ((boot E cfg).run E cfg evs).mem.world.client.authCounter.toNat +
      begun isU2fAuthenticate ((boot E cfg).run E cfg (evs ++ evs')) < 2 ^ 32 := by
  obtain ⟨E, cfg, register, rest, answer, answer', -, auth, auth', -, d1, d2, d3, -, -, L, -, h1, h2, h3, -, hn, p1, p2, -, c1, c2, -⟩ :=
    u2f_history
  have hd : ∀ {d d' : Device} {m b : Bytes}, Device.step E cfg d (.u2f m) = (.answer b, d') → d.alive = true := by
    intro d d' m b h
    cases ha : d.alive with
    | true => rfl
    | false => simp [Device.step, ha] at h
  have hd1 := hd h2
  have hr : ∃ r, events E cfg (Device.boot E cfg) [.u2f register] = [(.u2f register, r)] ∧ r ≠ .panicked := by
    refine ⟨(Device.step E cfg (Device.boot E cfg) (.u2f register)).1, rfl, ?_⟩
    intro he
    rw [← h1] at hd1
    have hd1 : (Device.step E cfg (Device.boot E cfg) (.u2f register)).2.alive = true := hd1
    unfold Device.step at he hd1
    dsimp only at he hd1
    rw [if_pos (show (Device.boot E cfg).alive = true from rfl)] at he hd1
    cases hp : Device.perform E (.u2f register) (Device.boot E cfg).world with
    | mk r w =>
      cases r with
      | panic c => rw [hp] at hd1; cases hd1
      | ok r =>
        rw [hp] at he
        have he : r = .panicked := he
        rw [Device.perform_u2f'] at hp
        have hp := (Prod.mk.inj hp).1
        cases hq : (U2f.handleMessage E register (Device.boot E cfg).world).1 with
        | panic c => rw [hq] at hp; cases hp
        | ok b =>
          rw [hq] at hp
          injection hp with hp
          rw [← hp] at he
          cases he
  obtain ⟨r, hr, hnp⟩ := hr
  have hev : events E cfg d1 [.u2f (0 :: 2 :: rest), .u2f (0 :: 2 :: rest)] =
      [(.u2f (0 :: 2 :: rest), .answer answer), (.u2f (0 :: 2 :: rest), .answer answer')] := by
    simp [events, Device.run, h2, h3]
  have hnq : ∀ e ∈ events E cfg (Device.after E cfg (Device.boot E cfg) [.u2f register])
      [.u2f (0 :: 2 :: rest), .u2f (0 :: 2 :: rest)], e.2 ≠ .panicked := by
    rw [h1, hev]
    intro e he
    rcases List.mem_cons.1 he with rfl | he
    · simp
    · rw [List.mem_singleton.1 he]
      simp
  obtain ⟨evs, evs', -, -, -, -, k1, k2, k3, k4, -, -, k5⟩ := beside (E := E) (cfg := cfg) (call := .disablePIN) (by simp) ⟨_, _, rfl⟩
    (pre := [.u2f register]) (ops := [.u2f (0 :: 2 :: rest), .u2f (0 :: 2 :: rest)]) (by simp) (by simp)
    (by rw [hr]; intro e he; rw [List.mem_singleton.1 he]; exact hnp) (by rw [h1]; exact hd1)
    hnq
  rw [h1, hev, hr] at k3
  rw [hr] at k1
  refine ⟨E, cfg, evs, evs', rest, answer, answer', auth, auth', L, k5 _ rfl, by rw [k1]; rfl, ⟨_, by rw [k3]; rfl⟩, by rw [k3]; rfl,
    by rw [k3]; rfl, p1, p2, c1, c2, ?_⟩
  have e1 : ((boot E cfg).run E cfg evs).mem.world.client.authCounter.toNat = 1 := by
    have e2 := (Device.u2f_step hd1 h2 p1).1
    rw [c1, ← h1, ← k2] at e2
    exact e2.symm
  rw [e1]
  have e2 : begun isU2fAuthenticate ((boot E cfg).run E cfg (evs ++ evs')) ≤ 4 := by
    unfold begun
    rw [k3]
    exact List.countP_le_length
  omega

/-! ## C99: guesses of the PIN -/

/-- ClientPIN requests do not overlap with each other, whatever else overlaps: no more than eight wrong PINs are answered without
a right one between them, and after eight no PIN is looked at any more.  Missing: overlapping ClientPIN requests, for which it
is false (`C99_limit_refuted`), and restarts, which give eight more (C57). -/
theorem C99_in_a_row_partial {evs evs' : List Event} (hx : Exclusive isClientPIN E cfg evs evs') :
    ∃ new, selected (tried E) ((boot E cfg).run E cfg (evs ++ evs')) = selected (tried E) ((boot E cfg).run E cfg evs) ++ new ∧
      EightInARow E new := by
  refine exclusive_run (pin_rule _) (fun _ => trivial) hx ⟨[], by simp, ?_, ?_⟩
  · intro a b h _
    obtain ⟨-, rfl⟩ := List.append_eq_nil_iff.1 h.symm
    exact .inl rfl
  · intro a b c h _
    obtain ⟨h1, rfl⟩ := List.append_eq_nil_iff.1 h.symm
    obtain ⟨-, rfl⟩ := List.append_eq_nil_iff.1 h1
    refine ⟨by simp, fun _ e he => by cases he⟩

/-- In particular, as long as no PIN was right, at most eight are answered as wrong. -/
theorem C99_at_most_eight_partial {evs evs' : List Event} (hx : Exclusive isClientPIN E cfg evs evs')
    (hright : (results ((boot E cfg).run E cfg (evs ++ evs'))).countP (isRightPIN E) =
      (results ((boot E cfg).run E cfg evs)).countP (isRightPIN E)) :
    (results ((boot E cfg).run E cfg (evs ++ evs'))).countP isWrongPIN ≤
      (results ((boot E cfg).run E cfg evs)).countP isWrongPIN + 8 := by
  obtain ⟨new, h1, h2⟩ := C99_in_a_row_partial hx
  have hw : ∀ s : Process, (selected (tried E) s).countP isWrongPIN = (results s).countP isWrongPIN := by
    intro s
    unfold selected
    rw [List.countP_filter]
    congr 1
    funext e
    unfold tried
    cases isWrongPIN e <;> simp
  have hr : ∀ s : Process, (selected (tried E) s).countP (isRightPIN E) = (results s).countP (isRightPIN E) := by
    intro s
    unfold selected
    rw [List.countP_filter]
    congr 1
    funext e
    unfold tried
    cases isRightPIN E e <;> simp
  rw [← hr, ← hr, h1, List.countP_append] at hright
  rw [← hw, ← hw, h1, List.countP_append]
  have := (h2 [] new [] (by simp) (by
    intro e he
    cases h : isRightPIN E e with
    | false => rfl
    | true =>
      have := List.countP_pos_iff.2 ⟨e, he, h⟩
      omega)).1
  omega

/-- The hypotheses can be met: the embedding program begins to switch the PIN off, and meanwhile eight wrong PINs are tried. -/
example : ∃ (E : Env) (cfg : Client.Config) (evs evs' : List Event), Laws E ∧ Usable E cfg ∧ Exclusive isClientPIN E cfg evs evs' ∧
    (∃ p, ((boot E cfg).run E cfg (evs ++ evs')).threads[0]? = some (.working .disablePIN p)) ∧
    (results ((boot E cfg).run E cfg (evs ++ evs'))).countP (isRightPIN E) = (results ((boot E cfg).run E cfg evs)).countP (isRightPIN E) ∧
    (results ((boot E cfg).run E cfg (evs ++ evs'))).countP isWrongPIN = 8 ∧ (results ((boot E cfg).run E cfg evs)).countP isWrongPIN = 0 := by
  obtain ⟨E, cfg, op, L, hu, -, hev, data, rfl⟩ := eight_wrong
  have hnil : Device.after E cfg (Device.boot E cfg) [] = Device.boot E cfg := rfl
  obtain ⟨evs, evs', -, -, -, -, k1, k2, k3, k4, -, -, k5⟩ := beside (E := E) (cfg := cfg) (call := .disablePIN) (by simp) ⟨_, _, rfl⟩
    (pre := []) (ops := List.replicate 8 (.ctap (6 :: data))) (by simp) (fun op h => by rw [List.eq_of_mem_replicate h]; simp)
    (by simp [events]) rfl (fun e h => by rw [hnil, hev] at h; rw [List.eq_of_mem_replicate h]; simp)
  rw [hnil, hev] at k3
  refine ⟨E, cfg, evs, evs', L, hu, k5 _ rfl, ⟨_, by rw [k3]; rfl⟩, ?_, ?_, ?_⟩
  · unfold results
    rw [k1, k3]
    rfl
  · unfold results
    rw [k3]
    rfl
  · unfold results
    rw [k1]
    rfl

end VF.Props
