import Verif.Proofs.StoreBlind
import Verif.Spec.Processes
import Verif.Props.Demo
import Verif.Props.Token

/-!
# C118: a running device and other processes that write its file
-/

namespace VF.Props

open VF.Fido VF.Fido.Device VF.Spec.Client VF.Spec.History VF.Spec.Processes

variable {E : Env} {cfg : Client.Config}

/-- The device with another file. -/
def withFile (st : Option Bytes) (d : Device) : Device := ⟨{ d.world with store := st }, d.alive⟩

theorem withFile_self (d : Device) : withFile d.world.store d = d := rfl
theorem withFile_twice (a b : Option Bytes) (d : Device) : withFile a (withFile b d) = withFile a d := rfl
theorem withFile_store (a : Option Bytes) (d : Device) : (withFile a d).world.store = a := rfl
theorem wrote_eq (data : Bytes) (d : Device) : Processes.wrote data d = withFile (some data) d := rfl

theorem step_blind (d : Device) {op : Op} (h : op ≠ .restart) :
    ∃ (r : Reply) (d' : Device) (saved : Option Bytes), ∀ st, step E cfg (withFile st d) op =
      (r, withFile (Option.or saved st) d') := by
  have hr : isRestart op = false := by
    cases op with
    | restart => exact absurd rfl h
    | _ => rfl
  obtain ⟨w, a⟩ := d
  cases a with
  | false => exact ⟨.nothing, ⟨w, false⟩, none, fun st => step_dead hr rfl⟩
  | true =>
    obtain ⟨r, w', s, hb⟩ := b_perform (E := E) op w
    cases r with
    | ok r =>
      refine ⟨r, ⟨w', true⟩, s, fun st => ?_⟩
      rw [step_live hr rfl]
      unfold withFile
      dsimp only
      rw [hb]
    | panic c =>
      refine ⟨.panicked, ⟨w', false⟩, s, fun st => ?_⟩
      rw [step_live hr rfl]
      unfold withFile
      dsimp only
      rw [hb]

theorem step_same (d : Device) (st : Option Bytes) {op : Op} (ho : op ≠ .restart) :
    (step E cfg d op).1 = (step E cfg (withFile st d) op).1 ∧
    ∃ st', (step E cfg (withFile st d) op).2 = withFile st' (step E cfg d op).2 := by
  obtain ⟨r, d', s, hb⟩ := step_blind (E := E) (cfg := cfg) d ho
  have h1 := hb d.world.store
  rw [withFile_self] at h1
  rw [h1, hb st]
  exact ⟨rfl, _, rfl⟩

theorem run_own (d : Device) (op : Op) (evs : List Processes.Event) :
    Processes.run E cfg d (.own op :: evs) =
      ((step E cfg d op).1 :: (Processes.run E cfg (step E cfg d op).2 evs).1,
        (Processes.run E cfg (step E cfg d op).2 evs).2) := rfl

theorem run_same (evs : List Processes.Event) (d : Device) (st : Option Bytes)
    (hr : .restart ∉ ownOps evs) :
    (run E cfg d (ownOps evs)).1 = (Processes.run E cfg (withFile st d) evs).1 ∧
    ∃ st', (Processes.run E cfg (withFile st d) evs).2 = withFile st' (after E cfg d (ownOps evs)) := by
  induction evs generalizing d st with
  | nil => exact ⟨rfl, st, rfl⟩
  | cons e evs ih =>
    cases e with
    | wrote data => exact ih d (some data) hr
    | own op =>
      obtain ⟨e1, st', h'⟩ := step_same (E := E) (cfg := cfg) d st (op := op)
        (fun e => hr (by rw [e]; exact List.mem_cons_self ..))
      obtain ⟨e2, h''⟩ := ih (step E cfg d op).2 st' fun hm => hr (List.mem_cons_of_mem _ hm)
      show (run E cfg d (op :: ownOps evs)).1 = _ ∧ ∃ _, _ = withFile _ (after E cfg d (op :: ownOps evs))
      rw [run_own, run_cons, after_cons, h']
      exact ⟨by rw [e1, e2], h''⟩

/-- C118: a running device does not notice what other processes write to its file: its replies, its
credentials and PIN, and what the user is asked are the same as without. -/
theorem C118_not_noticed (d : Device) (evs : List Processes.Event) (hr : .restart ∉ ownOps evs) :
    (Processes.run E cfg d evs).1 = (run E cfg d (ownOps evs)).1 ∧
    (Processes.run E cfg d evs).2.alive = (after E cfg d (ownOps evs)).alive ∧
    (Processes.run E cfg d evs).2.world.client = (after E cfg d (ownOps evs)).world.client ∧
    (Processes.run E cfg d evs).2.world.asks = (after E cfg d (ownOps evs)).world.asks := by
  obtain ⟨e, st, h⟩ := run_same (E := E) (cfg := cfg) evs d d.world.store hr
  rw [withFile_self] at e h
  rw [h]
  exact ⟨e.symm, rfl, rfl, rfl⟩

theorem run_split (evs1 evs2 : List Processes.Event) (d : Device) :
    (Processes.run E cfg d (evs1 ++ evs2)).2 = (Processes.run E cfg (Processes.run E cfg d evs1).2 evs2).2 := by
  induction evs1 generalizing d with
  | nil => rfl
  | cons e evs ih =>
    cases e with
    | wrote data => exact ih _
    | own op => rw [List.cons_append, run_own, run_own]; exact ih _

theorem run_owns (d : Device) (ops : List Op) :
    (Processes.run E cfg d (ops.map .own)).2 = after E cfg d ops := by
  induction ops generalizing d with
  | nil => rfl
  | cons op ops ih => rw [List.map_cons, run_own, after_cons, ← ih]

theorem owns_own (ops : List Op) : ownOps (ops.map .own) = ops := by
  induction ops with
  | nil => rfl
  | cons op ops ih => exact congrArg _ ih

theorem owns_append (a b : List Processes.Event) : ownOps (a ++ b) = ownOps a ++ ownOps b := by
  induction a with
  | nil => rfl
  | cons e a ih =>
    cases e with
    | wrote data => exact ih
    | own op => exact congrArg _ ih

/-- What operations save does not depend on the file: they leave it, or replace all of it. -/
theorem after_blind (ops : List Op) (h : .restart ∉ ops) (d : Device) :
    ∃ (d' : Device) (saved : Option Bytes), ∀ st, after E cfg (withFile st d) ops = withFile (Option.or saved st) d' := by
  induction ops generalizing d with
  | nil => exact ⟨d, none, fun _ => rfl⟩
  | cons op ops ih =>
    obtain ⟨r, d', s, hs⟩ := step_blind (E := E) (cfg := cfg) d (op := op)
      (fun e => h (by rw [e]; exact List.mem_cons_self ..))
    obtain ⟨d'', s', hs'⟩ := ih (fun hm => h (List.mem_cons_of_mem _ hm)) d'
    refine ⟨d'', s'.or s, fun st => ?_⟩
    rw [after_cons, hs, hs', Option.or_assoc]

/-- The device after others wrote the file and it did some operations. -/
theorem run_wrote (d : Device) (evs : List Processes.Event) (data : Bytes) (ops : List Op)
    (h : .restart ∉ ownOps evs) :
    (Processes.run E cfg d (evs ++ .wrote data :: ops.map .own)).2 =
      after E cfg (withFile (some data) (after E cfg d (ownOps evs))) ops := by
  obtain ⟨-, st, e⟩ := run_same (E := E) (cfg := cfg) evs d d.world.store h
  rw [withFile_self] at e
  rw [run_split, e]
  show (Processes.run E cfg (withFile (some data) (after E cfg d (ownOps evs))) (ops.map .own)).2 = _
  rw [run_owns]

/-- C118: and what other processes wrote is undone with the next save: either the device has not saved
anything since, and the file is as written, or the file is as if no other process had written it. -/
theorem C118_undone_by_next_save (d : Device) (evs : List Processes.Event) (data : Bytes) (ops : List Op)
    (h1 : .restart ∉ ownOps evs) (h2 : .restart ∉ ops) :
    let with_ := (Processes.run E cfg d (evs ++ .wrote data :: ops.map .own)).2
    let without := after E cfg d (ownOps evs ++ ops)
    (without.world.store = (after E cfg d (ownOps evs)).world.store ∧ with_.world.store = some data) ∨
    with_.world.store = without.world.store := by
  dsimp only
  rw [run_wrote d evs data ops h1, after_append]
  obtain ⟨d', s, hs⟩ := after_blind (E := E) (cfg := cfg) ops h2 (after E cfg d (ownOps evs))
  have e := hs (after E cfg d (ownOps evs)).world.store
  rw [withFile_self] at e
  rw [hs, e]
  cases s with
  | none => exact .inl ⟨rfl, rfl⟩
  | some b => exact .inr rfl

/-- C118: so a start finds what the running device had, not what other processes wrote before its last
save. -/
theorem C118_next_save_wins (L : Laws E) (hu : Usable E cfg) (evs : List Processes.Event) (data : Bytes)
    (ops : List Op) (h1 : .restart ∉ ownOps evs) (h2 : .restart ∉ ops)
    (ha : (after E cfg (boot E cfg) (ownOps evs ++ ops)).alive = true)
    (hs : (after E cfg (boot E cfg) (ownOps evs ++ ops)).world.store ≠
      (after E cfg (boot E cfg) (ownOps evs)).world.store) :
    let d := (Processes.run E cfg (boot E cfg) (evs ++ .wrote data :: ops.map .own)).2
    ∃ d', step E cfg d .restart = (.started, d') ∧ SameDevice d.world.client d'.world.client := by
  have he := C118_undone_by_next_save (E := E) (cfg := cfg) (boot E cfg) evs data ops h1 h2
  have hn := C118_not_noticed (E := E) (cfg := cfg) (boot E cfg) (evs ++ .wrote data :: ops.map .own) (by
    rw [owns_append]
    show .restart ∉ ownOps evs ++ ownOps (ops.map .own)
    rw [owns_own]
    intro hm
    rcases List.mem_append.1 hm with hm | hm
    · exact h1 hm
    · exact h2 hm)
  have ho : ownOps (evs ++ .wrote data :: ops.map .own) = ownOps evs ++ ops := by
    rw [owns_append]
    show ownOps evs ++ ownOps (ops.map .own) = _
    rw [owns_own]
  rw [ho] at hn
  dsimp only at he ⊢
  rcases he with ⟨he, -⟩ | he
  · exact absurd he hs
  · obtain ⟨c, -, q2, -, q4⟩ := inv_reachable L hu (ownOps evs ++ ops)
    obtain rfl := q4 ha
    obtain ⟨c', s1, s2, -⟩ := q2
      (Processes.run E cfg (boot E cfg) (evs ++ .wrote data :: ops.map .own)).2.world.rnd
    rw [← he] at s1
    have e := hn.2.2.1
    generalize (Processes.run E cfg (boot E cfg) (evs ++ .wrote data :: ops.map .own)).2 = d at *
    refine ⟨⟨{ d.world with client := c', rnd := d.world.rnd + 2 }, true⟩, by simp only [step, s1], ?_⟩
    rw [e]
    exact s2

/-- Switching the PIN on, on a running healthy device: it saves, whatever is in the file. -/
theorem enable_live (L : Laws E) {d : Device} (ha : d.alive = true) (hh : Healthy E d.world.client) :
    ∃ w blob, step E cfg d .enablePIN = (.done, ⟨w, true⟩) ∧
      w.client = { d.world.client with pinEnabled := true } ∧ w.store = some blob := by
  have hp : Healthy E { d.world.client with pinEnabled := true } := hh
  obtain ⟨blob, st, h1, h2⟩ := healthy_saves L hp d.world.rnd
  have e : perform E .enablePIN d.world = (do Client.saveData E; pure .done : Go World Reply)
      { d.world with client := { d.world.client with pinEnabled := true } } := rfl
  have hv : Client.saveData E { d.world with client := { d.world.client with pinEnabled := true } } =
      (.ok (), { d.world with
        client := { d.world.client with pinEnabled := true }
        store := some blob
        rnd := d.world.rnd + 4 }) := by
    unfold Client.saveData
    dsimp only
    rw [h1]
    dsimp only
    rw [h2]
  rw [step_live rfl ha, e, Go.run_bind_ok hv]
  exact ⟨_, blob, rfl, rfl, rfl⟩

/-- C118: an identity that `demo delete` deleted while the device runs (leaving `data` in the file) is back
after the device's next save, here that of switching the PIN on, and a start. -/
theorem C118_deletion_undone (L : Laws E) (hu : Usable E cfg) (ops : List Op) {text id data : Bytes} {d2 : Device}
    (hr : .restart ∉ ops) (ha : (after E cfg (boot E cfg) ops).alive = true)
    (hd : Demo.deleteIdentity E cfg text (after E cfg (boot E cfg) ops) = (.done id, d2))
    (hf : d2.world.store = some data) :
    ∃ d', (Processes.run E cfg (boot E cfg) (ops.map .own ++ [.wrote data, .own .enablePIN])).1 =
        (run E cfg (boot E cfg) (ops ++ [.enablePIN])).1 ∧
      step E cfg (Processes.run E cfg (boot E cfg) (ops.map .own ++ [.wrote data, .own .enablePIN])).2 .restart =
        (.started, d') ∧
      ∃ s ∈ d'.world.client.vault, s.id = id := by
  have ho : ownOps (ops.map .own ++ [.wrote data, .own .enablePIN]) = ops ++ [.enablePIN] := by
    rw [owns_append, owns_own]; rfl
  have hr' : .restart ∉ ops ++ [.enablePIN] := by
    intro hm
    rcases List.mem_append.1 hm with hm | hm
    · exact hr hm
    · cases List.mem_singleton.1 hm
  have hn := (C118_not_noticed (E := E) (cfg := cfg) (boot E cfg)
    (ops.map .own ++ [.wrote data, .own .enablePIN]) (by rw [ho]; exact hr')).1
  rw [ho] at hn
  obtain ⟨c, h1, h2, -, h4⟩ := inv_reachable L hu ops
  obtain rfl := h4 ha
  -- the identity was on the device
  obtain ⟨s, hs, hid⟩ : ∃ s ∈ (after E cfg (boot E cfg) ops).world.client.vault, s.id = id := by
    obtain ⟨c', s1, s2, -⟩ := h2 (after E cfg (boot E cfg) ops).world.rnd
    have e : step E cfg (after E cfg (boot E cfg) ops) .restart =
        (.started, ⟨{ (after E cfg (boot E cfg) ops).world with
          client := c', rnd := (after E cfg (boot E cfg) ops).world.rnd + 2 }, true⟩) := by
      simp only [step, s1]
    generalize after E cfg (boot E cfg) ops = d at *
    unfold Demo.deleteIdentity at hd
    rw [e] at hd
    dsimp only at hd
    have hl : ∃ t, c'.vault.getLast? = some t ∧ t.id = id := by
      cases hg : c'.vault.getLast? with
      | none =>
        rw [hg] at hd
        split at hd
        · cases hd
        · rename_i t hm
          have : some t ∈ [some t] := List.mem_cons_self ..
          rw [← hm] at this
          obtain ⟨_, -, q⟩ := List.mem_map.1 this
          cases q
        · cases hd
        · cases hd
      | some t =>
        rw [hg] at hd
        split at hd
        · cases hd
        · rename_i t' hm
          have : some t' ∈ [some t'] := List.mem_cons_self ..
          rw [← hm] at this
          obtain ⟨_, -, q⟩ := List.mem_map.1 this
          obtain rfl := Option.some.inj q
          split at hd
          · injection hd with q _
            injection q with q
            exact ⟨_, rfl, q⟩
          · cases hd
          · cases hd
        · cases hd
        · cases hd
    obtain ⟨t, ht, hid⟩ := hl
    have hm := List.mem_of_getLast? ht
    obtain ⟨i, hi, ei⟩ := List.getElem_of_mem hm
    have hsame := s2.2.2.2.2.2
    have hi' : i < d.world.client.vault.length := by rw [hsame.1]; exact hi
    refine ⟨d.world.client.vault[i], List.getElem_mem hi', ?_⟩
    rw [(hsame.2 i _ t (List.getElem?_eq_getElem hi') (by rw [List.getElem?_eq_getElem hi, ei])).1, hid]
  -- the file after the save
  have hw : (Processes.run E cfg (boot E cfg) (ops.map .own ++ [.wrote data, .own .enablePIN])).2 =
      (step E cfg (withFile (some data) (after E cfg (boot E cfg) ops)) .enablePIN).2 := by
    have := run_wrote (E := E) (cfg := cfg) (boot E cfg) (ops.map .own) data [.enablePIN]
      (by rw [owns_own]; exact hr)
    rw [owns_own] at this
    exact this
  obtain ⟨c3, -, g2, -, g4⟩ := inv_reachable L hu (ops ++ [.enablePIN])
  rw [after_append, after_cons, after_nil] at g2 g4
  rw [hn, hw]
  generalize after E cfg (boot E cfg) ops = d at *
  obtain ⟨w0, blob0, k1, -, k3⟩ := enable_live (cfg := cfg) (d := withFile none d) L ha h1
  obtain ⟨w1, blob1, m1, m2, -⟩ := enable_live (cfg := cfg) L ha h1
  obtain ⟨r, d', saved, hb⟩ := step_blind (E := E) (cfg := cfg) d (op := .enablePIN) (by intro h; cases h)
  have b0 := hb none
  have b1 := hb d.world.store
  rw [k1] at b0
  rw [withFile_self, m1] at b1
  have hsv : saved = some blob0 := by
    have := congrArg (fun p => p.2.world.store) b0
    dsimp only at this
    rw [withFile_store, k3, Option.or_none] at this
    exact this.symm
  subst hsv
  have e1 : (⟨w1, true⟩ : Device) = withFile (some blob0) d' := (Prod.mk.inj b1).2
  rw [m1] at g2 g4
  have g4 := g4 rfl
  rw [hb (some data)]
  have e2 : withFile (Option.or (some blob0) (some data)) d' = ⟨w1, true⟩ := e1.symm
  dsimp only
  rw [e2]
  obtain ⟨c', q1, q2, -⟩ := g2 w1.rnd
  refine ⟨⟨{ w1 with client := c', rnd := w1.rnd + 2 }, true⟩, rfl, by simp only [step, q1], ?_⟩
  rw [g4, m2] at q2
  obtain ⟨i, hi, ei⟩ := List.getElem_of_mem hs
  have hsame := q2.2.2.2.2.2
  have hi' : i < c'.vault.length := by rw [← hsame.1]; exact hi
  refine ⟨c'.vault[i], List.getElem_mem hi', ?_⟩
  rw [← (hsame.2 i s _ (by dsimp only; rw [List.getElem?_eq_getElem hi, ei]) (List.getElem?_eq_getElem hi')).1, hid]

/-- A toy device with one credential, which `demo delete` deletes while it runs. -/
example : ∃ (E : Env) (cfg : Client.Config) (ops : List Op) (text id data : Bytes) (d2 : Device),
    Laws E ∧ Usable E cfg ∧ .restart ∉ ops ∧ (after E cfg (boot E cfg) ops).alive = true ∧
    Demo.deleteIdentity E cfg text (after E cfg (boot E cfg) ops) = (.done id, d2) ∧
    d2.world.store = some data ∧ d2.world.client.vault = [] := by
  let ap : List Ask → Action → Bytes → Bytes → Bool := fun _ _ _ _ => true
  have L := Toy.toy_laws ap
  let E := Toy.toy ap
  let cfg := Toy.config false
  have hm1 := Toy.make_decodes ap [] none (.inl rfl) (by simp)
  obtain ⟨b0, w1, blob1, m1, n1, h1, h2, h3, k4, k5, -, -⟩ := made L (w := (boot E cfg).world)
    (Toy.boot_healthy ap false) (Toy.boot_attests ap false) hm1
    (by dsimp only [Toy.makeArgs]; decide +kernel) rfl rfl (flags := 0) rfl rfl
  have s1 := step_ctap (E := E) (cfg := cfg) (d := boot E cfg) rfl h1
  have hd : after E cfg (boot E cfg) [.ctap (0x01 :: Toy.makeData [] none)] = ⟨w1, true⟩ := by
    rw [after_cons, s1, after_nil]
  obtain ⟨c', s3, r1, -, -⟩ := restarted (E := E) (cfg := cfg) (d := ⟨w1, true⟩) L h3 k4 k5
  have hlen : c'.vault.length = 1 := by
    rw [← r1.2.2.2.2.2.1]
    show w1.client.vault.length = 1
    rw [h2]; rfl
  obtain ⟨a, hc⟩ := List.length_eq_one_iff.1 hlen
  obtain ⟨d1, e1, -, -, e4⟩ := C70_what_it_does L (Toy.config_usable ap false)
    [.ctap (0x01 :: Toy.makeData [] none)] [] hd
  have e1' := e1
  rw [s3] at e1'
  have e1' := (Prod.mk.inj e1').2
  have hv1 : d1.world.client.vault = [] ++ a :: [] := by rw [← e1']; exact hc
  obtain ⟨last, x, d2, q1, q2, q3, q4, q5, q6, q7⟩ := e4 [] [] a hv1 (List.nil_prefix) (by simp)
  obtain ⟨r, d', saved, hb⟩ := step_blind (E := E) (cfg := cfg) d1 (op := .deleteIdentity last.id)
    (by intro h; cases h)
  have hst : d1.world.store = some blob1 := by rw [← e1']; exact k4
  have hd2 : d2 = withFile (saved.or d1.world.store) d' := by
    rw [q3, after_append, hd, after_cons, after_cons, after_nil, e1]
    have := hb d1.world.store
    rw [withFile_self] at this
    rw [this]
  refine ⟨E, cfg, [.ctap (0x01 :: Toy.makeData [] none)], [], last.id, saved.getD blob1, d2, L,
    Toy.config_usable ap false, by simp, by rw [hd], by rw [hd]; exact q2, ?_, ?_⟩
  · rw [hd2, withFile_store, hst]
    cases saved <;> rfl
  · rw [hv1] at q7
    have := q7.length_eq
    simpa using this

end VF.Props
