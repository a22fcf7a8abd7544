import Verif.Spec.Demo
import Verif.Props.Restart
import Verif.Props.PinProtocol

/-!
# The demo's PIN (C81)
-/

namespace VF.Props

open VF.Fido VF.Fido.Device VF.Spec.Client VF.Spec.History VF.Spec.Demo VF.Spec.Pin VF.Spec.Ctap

variable {E : Env} {cfg : Client.Config}

theorem digitOf_digit {c : UInt8} (h : 48 ≤ c.toNat ∧ c.toNat ≤ 57) :
    Demo.digitOf 10 c = some (c.toNat - 48) := by
  unfold Demo.digitOf
  dsimp only
  rw [if_pos h, if_pos (by omega)]

/-- A decimal numeral that does not begin with zero is what `Itoa` makes of its value. -/
theorem digits_itoa : ∀ (cs : Bytes) (acc : Nat), 0 < acc → (∀ c ∈ cs, 48 ≤ c.toNat ∧ c.toNat ≤ 57) →
    ∃ v, Demo.digits 10 acc cs = some v ∧ Demo.itoa v = Demo.itoa acc ++ cs ∧
      v < (acc + 1) * 10 ^ cs.length ∧ acc * 10 ^ cs.length ≤ v
  | [], acc, _, _ => ⟨acc, rfl, by simp, by simp, by simp⟩
  | c :: cs, acc, ha, h => by
    have hc := h c (by simp)
    obtain ⟨v, h1, h2, h3, h4⟩ := digits_itoa cs (acc * 10 + (c.toNat - 48)) (by omega)
      (fun x hx => h x (by simp [hx]))
    refine ⟨v, ?_, ?_, ?_, ?_⟩
    · simp only [Demo.digits, digitOf_digit hc, h1]
    · rw [h2]
      rw [Demo.itoa, if_neg (by omega)]
      have e1 : (acc * 10 + (c.toNat - 48)) / 10 = acc := by omega
      have e2 : 48 + (acc * 10 + (c.toNat - 48)) % 10 = c.toNat := by omega
      rw [e1, e2, UInt8.ofNat_toNat]
      simp
    · refine Nat.lt_of_lt_of_le h3 ?_
      rw [List.length_cons, Nat.pow_succ, Nat.mul_comm (10 ^ cs.length) 10, ← Nat.mul_assoc]
      exact Nat.mul_le_mul_right _ (by omega)
    · refine Nat.le_trans ?_ h4
      rw [List.length_cons, Nat.pow_succ, Nat.mul_comm (10 ^ cs.length) 10, ← Nat.mul_assoc]
      exact Nat.mul_le_mul_right _ (by omega)

/-- The flag keeps a PIN without leading zeros. -/
theorem parse_plain {typed : Bytes} (h : IsPIN typed) (h0 : typed.head? ≠ some 48)
    (hl : typed.length ≤ 18) :
    ∃ n : Nat, Demo.parsePIN typed = some (Int.ofNat n) ∧ Demo.itoa n = typed := by
  cases typed with
  | nil => exact absurd h.1 (by simp)
  | cons c cs =>
    have hc := h.2 c (by simp)
    have hne : c ≠ 48 := fun e => h0 (by simp [e])
    have hpos : 0 < c.toNat - 48 := by
      have : c.toNat ≠ 48 := fun e => hne (UInt8.toNat_inj.1 e)
      omega
    obtain ⟨v, h1, h2, h3, -⟩ := digits_itoa cs (c.toNat - 48) hpos (fun x hx => h.2 x (by simp [hx]))
    have hd : Demo.digits 10 0 (c :: cs) = some v := by
      simp only [Demo.digits, digitOf_digit hc, Nat.zero_mul, Nat.zero_add, h1]
    have hv : v < 2 ^ 63 := by
      have h5 : (c.toNat - 48 + 1) * 10 ^ cs.length ≤ 10 * 10 ^ 17 :=
        Nat.mul_le_mul (by omega) (Nat.pow_le_pow_right (by decide) (by simpa using hl))
      have : (10 : Nat) * 10 ^ 17 < 2 ^ 63 := by decide
      omega
    refine ⟨v, ?_, ?_⟩
    · unfold Demo.parsePIN
      split
      case h_9 => simp only [hd, if_pos hv]
      all_goals
        rename_i heq
        first
          | (simp only [List.cons.injEq] at heq; exact absurd heq.1 hne)
          | cases heq
    · rw [h2, Demo.itoa, if_pos (by omega),
        show 48 + (c.toNat - 48) = c.toNat by omega, UInt8.ofNat_toNat]
      rfl

/-- What `demo pin set` does after any history with a number of at least four digits: its decimal
numeral becomes the PIN, durably. -/
theorem setPIN_works (L : Laws E) (hu : Usable E cfg) (ops : List Op) {n : Nat}
    (h4 : 4 ≤ (Demo.itoa n).length) :
    ∃ d1 d2, Demo.setPIN E cfg (Int.ofNat n) (after E cfg (boot E cfg) ops) = (.done, d1) ∧
      d1 = after E cfg (boot E cfg) (ops ++ [.restart, .setPIN (Demo.itoa n)]) ∧
      step E cfg d1 .restart = (.started, d2) ∧ d2.alive = true ∧ Healthy E d2.world.client ∧
      d2.world.client.pinHash = some (hash E (Demo.itoa n)) ∧ d2.world.client.pinRetries = 8 ∧
      d2.world.client.pinToken.length = 16 := by
  obtain ⟨c, h1, h2, h3, -⟩ := inv_reachable L hu ops
  obtain ⟨c', s1, s2, s3, -, s5⟩ := h2 (after E cfg (boot E cfg) ops).world.rnd
  have e : step E cfg (after E cfg (boot E cfg) ops) .restart =
      (.started, ⟨{ (after E cfg (boot E cfg) ops).world with
        client := c', rnd := (after E cfg (boot E cfg) ops).world.rnd + 2 }, true⟩) := by
    simp only [step, s1]
  generalize hd : after E cfg (boot E cfg) ops = d at *
  have hh := Ctap.healthy_pin L s3 c'.pinRetries (Demo.itoa n)
  obtain ⟨blob, hsv⟩ := healthy_saves L hh (d.world.rnd + 2)
  have hp : perform E (.setPIN (Demo.itoa n)) { d.world with client := c', rnd := d.world.rnd + 2 } =
      (.ok .done, { d.world with
        client := { c' with pinHash := some (Ctap.pinDigest E (Demo.itoa n)) }
        store := some blob, rnd := d.world.rnd + 2 + 4 }) := by
    rcases Ctap.saveData_cases E { d.world with
        client := { c' with pinHash := some (Ctap.pinDigest E (Demo.itoa n)) }
        rnd := d.world.rnd + 2 } with ⟨x, -, hno⟩ | ⟨blob', m, hsv', hsd⟩
    · exact absurd hsv (hno _ _)
    · obtain ⟨st, q1, q2⟩ := hsv
      obtain ⟨st', q3, q4⟩ := hsv'
      obtain rfl := Res.ok.inj (q1.symm.trans q3)
      have q4 : Saved.encryptState E st E.passphrase (d.world.rnd + 2) = some (blob', m) := q4
      rw [q2] at q4
      obtain ⟨rfl, rfl⟩ := Prod.mk.inj (Option.some.inj q4)
      simp only [perform, Client.setPIN, Client.setPINHash, Go.run_bind, Client.update, Go.modify]
      simp only [Ctap.pinDigest] at hsd
      simp only [hsd, Go.run_pure, Ctap.pinDigest]
  have e2 := step_live (E := E) (cfg := cfg)
    (d := ⟨{ d.world with client := c', rnd := d.world.rnd + 2 }, true⟩)
    (op := .setPIN (Demo.itoa n)) rfl rfl
  rw [hp] at e2
  obtain ⟨c2, e3, r1, r2, r3⟩ := restarted (E := E) (cfg := cfg) L (d := ⟨{ d.world with
        client := { c' with pinHash := some (Ctap.pinDigest E (Demo.itoa n)) }
        store := some blob, rnd := d.world.rnd + 2 + 4 }, true⟩) hh rfl hsv
  obtain ⟨-, c3, t1, -, -, -, t5, t6, -⟩ := saves_restore L hh hsv cfg (d.world.rnd + 2 + 4)
  have hc : c2 = c3 := by
    simp only [step, t1, Prod.mk.injEq, Device.mk.injEq, World.mk.injEq, and_true, true_and] at e3
    exact e3.symm
  refine ⟨_, _, ?_, ?_, e3, rfl, r2, ?_, ?_, ?_⟩
  · have hneg : ¬ (Int.ofNat n < 0) := by simp
    unfold Demo.setPIN
    rw [if_neg hneg]
    dsimp only [Int.toNat]
    rw [if_neg (Nat.not_lt.2 h4), e]
    dsimp only at e2 ⊢
    rw [e2]
  · rw [after_append, hd, after_cons, after_cons, after_nil, e, e2]
  · exact r1.2.2.2.2.1.symm
  · exact (congrArg Client.pinRetries hc).trans t5
  · show c2.pinToken.length = 16
    rw [hc, t6]; exact L.rand_length _ _

/-- A PIN of 4 to 18 digits without leading zero: after any history `demo pin set` stores it, and when
the device is started with PINs enabled, a conforming platform that is given this PIN gets the token. -/
theorem C81_typed_pin_works (L : Laws E) (hu : Usable E cfg) (ops : List Op) {typed : Bytes}
    (h : IsPIN typed) (h0 : typed.head? ≠ some 48) (hl : typed.length ≤ 18) :
    ∃ d1 d2, Demo.setPINCommand E cfg typed (after E cfg (boot E cfg) ops) = some (.done, d1) ∧
      step E cfg d1 .restart = (.started, d2) ∧
      ∀ platform key secret, d2.world.client.pinEnabled = true →
        Agreement E d2.world.client platform key secret →
        ∃ answer enc d3, step E cfg d2 (.ctap (request (getPINToken E key secret typed))) =
            (.answer answer, d3) ∧
          Success answer (.map [(.int 2, .bytes enc)]) ∧
          E.cbcDecrypt secret enc = d2.world.client.pinToken := by
  obtain ⟨n, p1, p2⟩ := parse_plain h h0 hl
  obtain ⟨d1, d2, h1, -, h3, h4, h5, h6, h7, h8⟩ := setPIN_works L hu ops (n := n) (by rw [p2]; exact h.1)
  refine ⟨d1, d2, ?_, h3, ?_⟩
  · simp only [Demo.setPINCommand, p1, h1]
  · intro platform key secret hon hag
    rw [p2] at h6
    obtain ⟨answer, enc, q1, q2, q3⟩ := C59_get_token L (w := d2.world) hon (by rw [h7]; decide) h8 h6 hag
    exact ⟨answer, enc, _, step_ctap h4 q1, q2, q3⟩

theorem itoa_head (n : Nat) (h : 0 < n) : (Demo.itoa n).head? ≠ some 48 := by
  induction n using Nat.strongRecOn with
  | ind n ih =>
    rw [Demo.itoa]
    split
    · intro e
      have := congrArg UInt8.toNat (Option.some.inj e)
      simp at this
      omega
    · have := ih (n / 10) (by omega) (by omega)
      cases hi : Demo.itoa (n / 10) with
      | nil => 
        rw [Demo.itoa] at hi
        split at hi <;> simp at hi
      | cons x xs => rw [hi] at this; simpa using this

theorem itoa_digits (n : Nat) : ∀ c ∈ Demo.itoa n, 48 ≤ c.toNat ∧ c.toNat ≤ 57 := by
  have key : ∀ m, m < 10 → 48 ≤ (UInt8.ofNat (48 + m)).toNat ∧ (UInt8.ofNat (48 + m)).toNat ≤ 57 := by
    intro m hm
    rw [UInt8.toNat_ofNat']
    omega
  induction n using Nat.strongRecOn with
  | ind n ih =>
    rw [Demo.itoa]
    split
    · intro c hc
      rw [List.mem_singleton.1 hc]
      exact key n (by omega)
    · intro c hc
      rcases List.mem_append.1 hc with hc | hc
      · exact ih (n / 10) (by omega) c hc
      · rw [List.mem_singleton.1 hc]
        exact key _ (by omega)

/-- Whatever is typed: if the command succeeds, the PIN it sets has at least four digits and does not
begin with a zero. -/
theorem C81_no_leading_zero (L : Laws E) (hu : Usable E cfg) (ops : List Op) {typed : Bytes}
    {d1 : Device} (h : Demo.setPINCommand E cfg typed (after E cfg (boot E cfg) ops) =
      some (.done, d1)) :
    ∃ pin, IsPIN pin ∧ pin.head? ≠ some 48 ∧
      d1 = after E cfg (boot E cfg) (ops ++ [.restart, .setPIN pin]) := by
  unfold Demo.setPINCommand at h
  split at h
  · rename_i z hz
    by_cases hneg : z < 0
    · simp [Demo.setPIN, hneg] at h
    · obtain ⟨n, rfl⟩ := Int.eq_ofNat_of_zero_le (Int.not_lt.1 hneg)
      by_cases h4 : (Demo.itoa n).length < 4
      · simp [Demo.setPIN, h4, hneg] at h
      · have h4' : 4 ≤ (Demo.itoa n).length := Nat.not_lt.1 h4
        obtain ⟨d1', d2, q1, q2, -⟩ := setPIN_works L hu ops h4'
        have h := Option.some.inj h
        rw [show ((n : Nat) : Int) = Int.ofNat n from rfl, q1] at h
        refine ⟨Demo.itoa n, ⟨h4', itoa_digits n⟩, itoa_head n ?_, ?_⟩
        · cases n with
          | zero => rw [Demo.itoa] at h4; simp at h4
          | succ n => omega
        · rw [← q2]; exact (Prod.mk.inj h).2.symm
  · cases h

/-- With a leading zero it goes wrong: the PIN 012345 is taken for an octal number, the command
succeeds, and the PIN is 5349. -/
theorem C81_leading_zero_refuted : ∃ (E : Env) (cfg : Client.Config) (d1 d2 : Device),
    Laws E ∧ Usable E cfg ∧ IsPIN (ascii "012345") ∧
    Demo.setPINCommand E cfg (ascii "012345") (boot E cfg) = some (.done, d1) ∧
    step E cfg d1 .restart = (.started, d2) ∧
    d2.world.client.pinHash = some (hash E (ascii "5349")) ∧
    d2.world.client.pinHash ≠ some (hash E (ascii "012345")) := by
  let ap : List Ask → Action → Bytes → Bytes → Bool := fun _ _ _ _ => true
  have L := Toy.toy_laws ap
  have hp : Demo.parsePIN (ascii "012345") = some (Int.ofNat 5349) := by decide +kernel
  have hi : Demo.itoa 5349 = ascii "5349" := by decide +kernel
  obtain ⟨d1, d2, h1, -, h3, -, -, h6, -⟩ := setPIN_works L (Toy.config_usable ap false) []
    (n := 5349) (by decide +kernel)
  rw [hi] at h6
  refine ⟨Toy.toy ap, Toy.config false, d1, d2, L, Toy.config_usable ap false, ?_, ?_, h3, h6, ?_⟩
  · unfold IsPIN; decide +kernel
  · rw [after_nil] at h1
    simp only [Demo.setPINCommand, hp, h1]
  · rw [h6]
    intro e
    have e : (Toy.shaped 32 (ascii "5349")).take 16 = (Toy.shaped 32 (ascii "012345")).take 16 :=
      Option.some.inj e
    exact absurd e (by decide +kernel)

end VF.Props
