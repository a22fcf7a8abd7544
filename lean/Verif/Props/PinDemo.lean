import Verif.Props.PinHistory
import Verif.Proofs.Launch
import Verif.Props.Launch
import Verif.Props.Processes

/-!
# C134 for the demo program, which makes its own arguments at each start
-/

namespace VF.Props

open VF.Fido VF.Fido.Launch VF.Spec.Ctap VF.Spec.Client VF.Spec.Pin VF.Spec.PinHistory VF.Spec.History VF.Spec.Attestation
open VF.Fido.Device (PinIs pinIs_step step_dead last_of_uniform)
open VF.Fido.Client (fresh start)

variable {E : Env}

/-- What is known of the demo: nothing yet and nothing saved, or what `PinIs` says for the arguments of some start. -/
def DemoPin (E : Env) (on : Bool) (h : Option Bytes) (d : Device) : Prop :=
  (Off d ∧ on = false ∧ h = none) ∨ ∃ cfg i, Made E cfg i ∧ PinIs E cfg on h d

theorem demoPin_new (L : Laws E) {d : Device} (hs : d.world.store = none) :
    (Launch.step E d .restart).1 = .started ∧ ∃ cfg i, Made E cfg i ∧ PinIs E cfg false none (Launch.step E d .restart).2 := by
  obtain ⟨cfg, hm, e, c, q1, q2, -, q4⟩ := keeps_launch_new L hs
  rw [e] at q2 q4 ⊢
  have hc : c = fresh E cfg (d.world.rnd + 2) := q4 rfl
  refine ⟨rfl, cfg, _, hm, c, q1, q2, ?_, q4⟩
  rw [hc]
  exact ⟨hm.2.2.2.2, rfl⟩

theorem demoPin_step (L : Laws E) {d : Device} {on : Bool} {h : Option Bytes} (op : Op) (hd : DemoPin E on h d) :
    ∃ h', DemoPin E (switched on (op, (Launch.step E d op).1)) h' (Launch.step E d op).2 ∧
      h'.isSome = (h.isSome || setsPIN E (op, (Launch.step E d op).1)) := by
  cases hr : isRestart op with
  | false =>
    rcases hd with ⟨hoff, rfl, rfl⟩ | ⟨cfg, i, hm, hp⟩
    · obtain ⟨cfg, -, -⟩ := config_made L 0
      rw [step_own cfg d hr, step_dead (E := E) (cfg := cfg) hr hoff.1]
      have e1 : switched false (op, .nothing) = false := by cases op <;> rfl
      have e2 : setsPIN E (op, .nothing) = false := by
        unfold setsPIN
        split
        · rename_i h; cases h
        · rename_i h; cases h
        · rfl
      rw [e1, e2]
      exact ⟨none, .inl ⟨hoff, rfl, rfl⟩, rfl⟩
    · rw [step_own cfg d hr]
      obtain ⟨h', q1, q2, q3⟩ := pinIs_step L op hp
      refine ⟨h', .inr ⟨cfg, i, hm, q1⟩, ?_⟩
      cases hs : setsPIN E (op, (Device.step E cfg d op).1) with
      | false => rw [q2 hs]; simp
      | true => obtain ⟨pin, rfl, -⟩ := q3 hs; simp
  | true =>
    cases op with
    | restart =>
      have hsw : ∀ r, switched on (.restart, r) = on := fun r => by cases r <;> rfl
      have hse : ∀ r, setsPIN E (.restart, r) = false := fun r => by cases r <;> rfl
      rw [hsw, hse]
      cases hs : d.world.store with
      | none =>
        obtain ⟨-, hn⟩ := demoPin_new L hs
        have hoff : on = false ∧ h = none := by
          rcases hd with ⟨-, h1, h2⟩ | ⟨cfg, i, hm, c, q1, q2, ⟨q3, q4⟩, -⟩
          · exact ⟨h1, h2⟩
          · obtain ⟨c', s1, s2, -⟩ := q2 0
            rw [hs] at s1
            obtain rfl : fresh E cfg 0 = c' := by cases s1; rfl
            exact ⟨q3.symm.trans (s2.2.2.2.1.trans hm.2.2.2.2), q4.symm.trans s2.2.2.2.2.1⟩
        obtain ⟨rfl, rfl⟩ := hoff
        exact ⟨none, .inr hn, rfl⟩
      | some data =>
        rcases hd with ⟨hoff, -, -⟩ | ⟨cfg, i, hm, c, h1, h2, ⟨k1, k2⟩, h4⟩
        · rw [hoff.2] at hs; cases hs
        · obtain ⟨cfg', hc, -⟩ := config_made L d.world.rnd
          obtain ⟨c', s1, s2, s3, -, s5⟩ := h2 (d.world.rnd + 2)
          have e : Launch.step E d .restart =
              (.started, ⟨{ d.world with client := c', rnd := d.world.rnd + 4 }, true⟩) := by
            have s1' : start E cfg' d.world.store (d.world.rnd + 2) = .ok c' := by
              rw [hs] at s1 ⊢
              exact s1
            simp only [Launch.step, hc, s1']
          rw [e]
          exact ⟨h, .inr ⟨cfg, i, hm, c', s3, h2.same s2 (last_of_uniform s2.2.2.2.2.2 s5),
            ⟨s2.2.2.2.1.symm.trans k1, s2.2.2.2.2.1.symm.trans k2⟩, fun _ => rfl⟩, by simp⟩
    | _ => cases hr

theorem demoPin_after (L : Laws E) (ops : List Op) : ∀ {d : Device} {on : Bool} {h : Option Bytes}, DemoPin E on h d →
    ∃ h', DemoPin E (pinOn on (ops.zip (Launch.run E d ops).1)) h' (Launch.after E d ops) ∧
      h'.isSome = (h.isSome || (ops.zip (Launch.run E d ops).1).any (setsPIN E)) := by
  induction ops with
  | nil => exact fun hd => ⟨_, hd, by simp⟩
  | cons op ops ih =>
    intro d on h hd
    obtain ⟨h1, q1, q2⟩ := demoPin_step L op hd
    obtain ⟨h2, q3, q4⟩ := ih q1
    refine ⟨h2, ?_, ?_⟩
    · rw [Launch.after_cons]
      exact q3
    · rw [q4, q2]
      show _ = (_ || ((op, (Launch.step E d op).1) :: ops.zip (Launch.run E (Launch.step E d op).2 ops).1).any (setsPIN E))
      rw [List.any_cons, Bool.or_assoc]

/-- **The PIN of the demo.**  PIN support is off at the demo's first start and is then as last switched, by whatever process,
whatever happens in between; GetInfo says whether a PIN was ever set, if it is on, and nothing of PINs otherwise. -/
theorem C134_demo (L : Laws E) {d0 d : Device} (h0 : Off d0) {ops : List Op} (hd : Launch.after E d0 ops = d)
    (ha : d.alive = true) (data : Bytes) :
    ∃ answer info options, Launch.step E d (.ctap (4 :: data)) = (.answer answer, d) ∧
      Success answer (.map info) ∧ (.int 4, .map options) ∈ info ∧ (∀ e ∈ info, e.1 = .int 4 → e.2 = .map options) ∧
      Spec.Cbor.lookup options (textKey "clientPin") =
        if pinOn false (ops.zip (Launch.run E d0 ops).1)
        then some (.bool ((ops.zip (Launch.run E d0 ops).1).any (setsPIN E))) else none := by
  subst hd
  obtain ⟨h, q1, q2⟩ := demoPin_after L ops (d := d0) (on := false) (h := none) (.inl ⟨h0, rfl, rfl⟩)
  generalize Launch.after E d0 ops = d at *
  rcases q1 with ⟨hoff, -, -⟩ | ⟨cfg, i, hm, c, -, -, ⟨k1, k2⟩, k4⟩
  · rw [hoff.1] at ha; cases ha
  obtain rfl := k4 ha
  obtain ⟨answer, info, options, h1, h2, h3, h4, h5⟩ := C60_getInfo_tells_pin_state E data d.world
  refine ⟨answer, info, options, ?_, h2, h3, h4, ?_⟩
  · rw [step_own cfg d rfl, step_message ha h1]
    cases d
    cases ha
    rfl
  · rw [h5, k1, k2, q2]
    simp

theorem zip_run (d : Device) (op : Op) (ops : List Op) : (op :: ops).zip (Launch.run E d (op :: ops)).1 =
    (op, (Launch.step E d op).1) :: ops.zip (Launch.run E (Launch.step E d op).2 ops).1 := rfl

theorem demo_healthy {on : Bool} {h : Option Bytes} {d : Device} (hd : DemoPin E on h d) (ha : d.alive = true) :
    Healthy E d.world.client := by
  rcases hd with ⟨hoff, -, -⟩ | ⟨cfg, i, hm, c, h1, -, -, k4⟩
  · rw [hoff.1] at ha; cases ha
  · exact k4 ha ▸ h1

/-- The hypotheses of `C134_demo` are met, with PIN support switched on, the program started anew and a PIN set: GetInfo says
that there is one. -/
theorem C134_case_demo : ∃ (E : Env) (d0 d : Device) (ops : List Op), Laws E ∧ Off d0 ∧ Launch.after E d0 ops = d ∧ d.alive = true ∧
    pinOn false (ops.zip (Launch.run E d0 ops).1) = true ∧ (ops.zip (Launch.run E d0 ops).1).any (setsPIN E) = true := by
  have L := Toy.toy_laws Toy.agree
  have hoff : Off neverStarted := neverStarted_off
  obtain ⟨cfg, -, -⟩ := config_made L 0
  have p0 : DemoPin (Toy.toy Toy.agree) false none neverStarted := .inl ⟨hoff, rfl, rfl⟩
  obtain ⟨r1, a1⟩ := C123_starts L hoff []
  obtain ⟨h1, p1, -⟩ := demoPin_step L .restart p0
  obtain ⟨w2, b2, e2, -⟩ := enable_live (cfg := cfg) L a1 (demo_healthy p1 a1)
  have e2' := (step_own (E := Toy.toy Toy.agree) cfg (Launch.step (Toy.toy Toy.agree) neverStarted .restart).2
    (op := .enablePIN) rfl).trans e2
  obtain ⟨r3, a3⟩ := C123_starts L hoff [.restart, .enablePIN]
  obtain ⟨h3, p3, -⟩ := demoPin_after L [.restart, .enablePIN, .restart] p0
  obtain ⟨w4, e4, -⟩ := set_live (cfg := cfg) L a3 (demo_healthy p3 a3) (ascii "1234")
  have e4' := (step_own (E := Toy.toy Toy.agree) cfg _ (op := .setPIN (ascii "1234")) rfl).trans e4
  have hz : [Op.restart, .enablePIN, .restart, .setPIN (ascii "1234")].zip
      (Launch.run (Toy.toy Toy.agree) neverStarted [.restart, .enablePIN, .restart, .setPIN (ascii "1234")]).1 =
      [(.restart, .started), (.enablePIN, .done), (.restart, .started), (.setPIN (ascii "1234"), .done)] := by
    rw [zip_run, zip_run, zip_run, zip_run, show (Launch.step (Toy.toy Toy.agree) neverStarted .restart).1 = .started from r1,
      show (Launch.step _ (Launch.step (Toy.toy Toy.agree) (Launch.step (Toy.toy Toy.agree) neverStarted .restart).2
        .enablePIN).2 .restart).1 = _ from r3, show (Launch.step _ (Launch.step (Toy.toy Toy.agree) (Launch.step (Toy.toy Toy.agree)
        (Launch.step (Toy.toy Toy.agree) neverStarted .restart).2 .enablePIN).2 .restart).2 _).1 = _ from congrArg Prod.fst e4',
      show (Launch.step (Toy.toy Toy.agree) (Launch.step (Toy.toy Toy.agree) neverStarted .restart).2 .enablePIN).1 = _ from
        congrArg Prod.fst e2']
    rfl
  refine ⟨_, _, _, [.restart, .enablePIN, .restart, .setPIN (ascii "1234")], L, hoff, rfl, ?_, ?_, ?_⟩
  · exact congrArg (fun x => x.2.alive) e4'
  · rw [hz]; rfl
  · rw [hz]; rfl

end VF.Props
