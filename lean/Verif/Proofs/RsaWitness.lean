import Verif.Spec.Laws
import Mathlib.NumberTheory.LucasLehmer

/-!
# A concrete RSA key

The key with the Mersenne primes `2^521 - 1` and `2^607 - 1`, to show that `RSAValid` is
satisfiable.
-/

namespace VF.RsaWitness

open VF.Fido

def p : Nat := 2 ^ 521 - 1
def q : Nat := 2 ^ 607 - 1
def d : Nat := 605309440029444797632079365922351903778944636504290628815687804447518401725202045830587428993072200378798732205389608178468869002370652053408838463061590768976059755211666722868590174546762165023955171158423681809701058604934000382033836393559131564093520170601086332978178762009136501271874027235396379522707933355224417396404416034089473
def qinv : Nat := 221445085810664829515545184205031064690430961084969366776337966263993579547131070136655493104453674321627155849131184341222111266700875443261518028401084481

def key : RSAPriv :=
  { pub := { n := p * q, e := 65537 }
    d := d
    primes := [p, q]
    precomp := some (d % (p - 1), d % (q - 1), qinv) }

set_option exponentiation.threshold 70000

theorem p_prime : p.Prime := by
  have : (mersenne 521).Prime := lucas_lehmer_sufficiency _ (by simp) (by norm_num)
  exact this

theorem q_prime : q.Prime := by
  have : (mersenne 607).Prime := lucas_lehmer_sufficiency _ (by simp) (by norm_num)
  exact this

theorem p_ne_q : p ≠ q := by
  have h : Nat.beq p q = false := by decide +kernel
  exact Nat.ne_of_beq_eq_false h

theorem n_large : 2 ^ 1024 ≤ p * q := by
  have h : Nat.ble (2 ^ 1024) (p * q) = true := by decide +kernel
  exact Nat.le_of_ble_eq_true h

theorem n_small : p * q < 2 ^ 65536 := by
  have h : Nat.ble (p * q + 1) (2 ^ 1200) = true := by decide +kernel
  exact Nat.lt_of_lt_of_le (Nat.le_of_ble_eq_true h) (Nat.pow_le_pow_right (by omega) (by omega))

theorem d_small : d < p * q := by
  have h : Nat.ble (d + 1) (p * q) = true := by decide +kernel
  exact Nat.le_of_ble_eq_true h

theorem qinv_small : qinv < p := by
  have h : Nat.ble (qinv + 1) p = true := by decide +kernel
  exact Nat.le_of_ble_eq_true h

theorem ed_p : (65537 * d) % (p - 1) = 1 := by
  have h : Nat.beq ((65537 * d) % (p - 1)) 1 = true := by decide +kernel
  exact Nat.eq_of_beq_eq_true h

theorem ed_q : (65537 * d) % (q - 1) = 1 := by
  have h : Nat.beq ((65537 * d) % (q - 1)) 1 = true := by decide +kernel
  exact Nat.eq_of_beq_eq_true h

theorem key_valid : RSAValid key := by
  have hp := p_prime.one_lt
  have hq := q_prime.one_lt
  refine ⟨p, q, rfl, hp, hq, p_ne_q, fun m hm => (Nat.dvd_prime p_prime).1 hm,
    fun m hm => (Nat.dvd_prime q_prime).1 hm, rfl, n_large, n_small, by simp [key], by simp [key],
    d_small, ?_, ?_, qinv, qinv_small, rfl⟩
  · have h := ed_p
    show ((65537 : Int) * (d : Int)) % ((p : Int) - 1) = 1
    have e : ((p : Int) - 1) = ((p - 1 : Nat) : Int) := by omega
    rw [e]; exact_mod_cast h
  · have h := ed_q
    show ((65537 : Int) * (d : Int)) % ((q : Int) - 1) = 1
    have e : ((q : Int) - 1) = ((q - 1 : Nat) : Int) := by omega
    rw [e]; exact_mod_cast h

end VF.RsaWitness
