import Verif.Props.Laws
import Verif.Props.Bezout
import Verif.Props.Powm
import Mathlib.FieldTheory.Finite.Basic
import Mathlib.Tactic.NormNum.Prime

/-!
# C82: the protocols the library is made for

Client programs written with library calls only: Diffie-Hellman agreement, an RSA key generation with
encryption and decryption, Fermat's test, and inversion modulo a prime by exponentiation.
-/

namespace AesiMP
open Aeu
variable {n : Nat}

/-- Diffie-Hellman, one side: `powm(powm(g, x, p), y, p)`. -/
def dhSide (cfg : Cfg) (g p x y : Aeu n) : Exec (Aeu n) := do
  let publicKey ← powm cfg g x p
  powm cfg publicKey y p

/-- RSA with library calls: `N = p * q`, `phi = (p - 1) * (q - 1)`, `d` the inverse of `e` modulo `phi` by
`gcd(e, phi, x, y)`, then `c = powm(msg, e, N)` and the result `powm(c, d, N)`. -/
def rsaRoundTrip (cfg : Cfg) (p q e msg : Aeu n) : Exec (Aeu n) := do
  let modulus ← mul p q
  let p1 ← subRight p (1#32)
  let q1 ← subRight q (1#32)
  let phi ← mul p1 q1
  let d ← invMod cfg e phi
  let c ← powm cfg msg e modulus
  powm cfg c d modulus

/-- Fermat's test: `powm(a, p - 1, p)`. -/
def fermat (cfg : Cfg) (a p : Aeu n) : Exec (Aeu n) := do
  let e ← subRight p (1#32)
  powm cfg a e p

/-- Inversion modulo a prime: `powm(a, p - 2, p)`. -/
def invPrime (cfg : Cfg) (a p : Aeu n) : Exec (Aeu n) := do
  let e ← subRight p (2#32)
  powm cfg a e p

private theorem subRight_small (x : Aeu n) (c : BitVec 32) (h : c.toNat ≤ toNat x) :
    Sat (subRight x c) fun r => toNat r = toNat x - c.toNat := by
  obtain ⟨o, ho, eo⟩ := ofUnsigned_spec (n := n) (by norm_num) c
  have hc : c.toNat % 2 ^ (32 * n) = c.toNat :=
    Nat.mod_eq_of_lt (Nat.lt_of_le_of_lt h (toNat_lt x))
  rw [hc] at eo
  simp only [subRight, ho, ok_bind]
  rw [← eo]
  exact sub_spec_le (by rw [eo]; exact h)

private theorem pow_mod_prime {p : Nat} (hp : p.Prime) (m k : Nat) : m ^ (1 + k * (p - 1)) ≡ m [MOD p] := by
  have := Fact.mk hp
  rw [← ZMod.natCast_eq_natCast_iff]
  push_cast
  by_cases h : (m : ZMod p) = 0
  · rw [h, pow_add, pow_one, zero_mul]
  · rw [pow_add, pow_one, mul_comm k, pow_mul, ZMod.pow_card_sub_one_eq_one h, one_pow, mul_one]

private theorem rsa_number {p q : Nat} (hp : p.Prime) (hq : q.Prime) (hpq : p ≠ q) (m e d : Nat)
    (hd : e * d % ((p - 1) * (q - 1)) = 1) : m ^ (e * d) ≡ m [MOD p * q] := by
  obtain ⟨k, hk⟩ : ∃ k, e * d = 1 + k * ((p - 1) * (q - 1)) := by
    refine ⟨e * d / ((p - 1) * (q - 1)), ?_⟩
    have := Nat.mod_add_div (e * d) ((p - 1) * (q - 1))
    rw [hd] at this
    rw [Nat.mul_comm _ ((p - 1) * (q - 1)), this]
  rw [← Nat.modEq_and_modEq_iff_modEq_mul ((Nat.coprime_primes hp hq).mpr hpq), hk]
  constructor
  · rw [show k * ((p - 1) * (q - 1)) = k * (q - 1) * (p - 1) by ring]; exact pow_mod_prime hp m _
  · rw [← Nat.mul_assoc]; exact pow_mod_prime hq m _

section
variable (cfg : Cfg) (hn : 0 < n)
include hn

/-- C82: both parties of a Diffie-Hellman exchange hold the same number, `g^(x*y) mod p`, for every base,
every pair of exponents and every modulus (prime or not) from 2 on whose products fit. -/
theorem C82_diffie_hellman (g p x y : Aeu n) (hp : 1 < toNat p)
    (hfit : (toNat p - 1) ^ 2 < 2 ^ (32 * n)) :
    Returns (dhSide cfg g p x y) (toNat g ^ (toNat x * toNat y) % toNat p) ∧
    checkEq cfg (dhSide cfg g p x y) (dhSide cfg g p y x) = .ok true := by
  have key : ∀ x y : Aeu n, Returns (dhSide cfg g p x y) (toNat g ^ (toNat x * toNat y) % toNat p) := by
    intro x y
    refine Sat.bind (C29_powm_partial cfg hn g x p (by omega) hfit (by omega)) fun s hs => ?_
    refine Sat.mono (C29_powm_partial cfg hn s y p (by omega) hfit (by omega)) fun r hr => ?_
    rw [hr, hs, ← Nat.pow_mod, Nat.pow_mul]
  refine ⟨key x y, checkEq_of_nat (key x y) ?_⟩
  rw [Nat.mul_comm]; exact key y x

/-- C82: RSA: for distinct primes `p`, `q` whose product's square fits, every exponent `e` coprime to
`(p-1)(q-1)` and every message below `p*q` (coprime to it or not), key generation, encryption and
decryption by the library give the message back. -/
theorem C82_rsa (p q e msg : Aeu n) (hp : (toNat p).Prime) (hq : (toNat q).Prime)
    (hpq : toNat p ≠ toNat q) (hfit : (toNat p * toNat q - 1) ^ 2 < 2 ^ (32 * n))
    (he : Nat.gcd (toNat e) ((toNat p - 1) * (toNat q - 1)) = 1) (hm : toNat msg < toNat p * toNat q) :
    checkEq cfg (rsaRoundTrip cfg p q e msg) (.ok msg) = .ok true := by
  have hp2 := hp.two_le
  have hq2 := hq.two_le
  have hN1 : 1 < toNat p * toNat q := by nlinarith
  have hN : toNat p * toNat q < 2 ^ (32 * n) := by
    have hn1 : 2 ^ 1 ≤ 2 ^ (32 * n) := Nat.pow_le_pow_right (by norm_num) (by omega)
    by_contra hc
    push Not at hc
    have h2 : 2 ^ 32 ≤ 2 ^ (32 * n) := Nat.pow_le_pow_right (by norm_num) (by omega)
    have : (2 ^ (32 * n) - 1) ^ 2 ≤ (toNat p * toNat q - 1) ^ 2 := Nat.pow_le_pow_left (by omega) 2
    have h3 : 2 ^ (32 * n) ≤ (2 ^ (32 * n) - 1) ^ 2 := by
      obtain ⟨w, hw⟩ : ∃ w, 2 ^ (32 * n) = w + 3 := ⟨2 ^ (32 * n) - 3, by omega⟩
      rw [hw]
      rw [show w + 3 - 1 = w + 2 by omega]
      nlinarith
    omega
  have hphi1 : 1 < (toNat p - 1) * (toNat q - 1) := by
    rcases Nat.lt_or_gt_of_ne hpq with h | h
    · have h1 : 1 ≤ toNat p - 1 := by omega
      have h2 : 2 ≤ toNat q - 1 := by omega
      nlinarith
    · have h1 : 2 ≤ toNat p - 1 := by omega
      have h2 : 1 ≤ toNat q - 1 := by omega
      nlinarith
  have hphi : (toNat p - 1) * (toNat q - 1) < 2 ^ (32 * n) :=
    Nat.lt_of_le_of_lt (Nat.mul_le_mul (by omega) (by omega)) hN
  refine checkEq_of_nat (v := toNat msg) ?_ (Sat.ok rfl)
  refine Sat.bind (mul_spec p q) fun N eN => ?_
  rw [Nat.mod_eq_of_lt hN] at eN
  refine Sat.bind (subRight_small p (1#32) (by simpa using hp.one_le)) fun p1 ep => ?_
  refine Sat.bind (subRight_small q (1#32) (by simpa using hq.one_le)) fun q1 eq => ?_
  refine Sat.bind (mul_spec p1 q1) fun phi ephi => ?_
  rw [ep, eq, show (1#32).toNat = 1 from rfl, Nat.mod_eq_of_lt hphi] at ephi
  refine Sat.bind (C78_modular_inverse cfg hn e phi (by omega) (by rw [ephi]; exact he)) fun d hd => ?_
  obtain ⟨_, hd⟩ := hd
  rw [ephi] at hd
  refine Sat.bind (C29_powm_partial cfg hn msg e N (by omega) (by rw [eN]; exact hfit) (by omega)) fun c hc => ?_
  refine Sat.mono (C29_powm_partial cfg hn c d N (by omega) (by rw [eN]; exact hfit) (by omega)) fun r hr => ?_
  rw [hr, hc, ← Nat.pow_mod, ← Nat.pow_mul, eN]
  have := rsa_number hp hq hpq (toNat msg) _ _ hd
  rw [Nat.ModEq, Nat.mod_eq_of_lt hm] at this
  exact this

/-- C82: Fermat's test never rejects a prime: `powm(a, p - 1, p)` is 1 for every prime `p` with
products that fit and every `a` that `p` does not divide. -/
theorem C82_fermat (a p : Aeu n) (hp : (toNat p).Prime) (hfit : (toNat p - 1) ^ 2 < 2 ^ (32 * n))
    (ha : ¬ toNat p ∣ toNat a) : Returns (fermat cfg a p) 1 := by
  have hp2 := hp.two_le
  refine Sat.bind (subRight_small p (1#32) (by simpa using hp.one_le)) fun e he => ?_
  refine Sat.mono (C29_powm_partial cfg hn a e p (by omega) hfit (by omega)) fun r hr => ?_
  rw [hr, he, show (1#32).toNat = 1 from rfl]
  have := Fact.mk hp
  have h0 : ((toNat a : ℕ) : ZMod (toNat p)) ≠ 0 := by
    rw [Ne, ZMod.natCast_eq_zero_iff]; exact ha
  have h := ZMod.pow_card_sub_one_eq_one h0
  have h' : toNat a ^ (toNat p - 1) ≡ 1 [MOD toNat p] := by
    rw [← ZMod.natCast_eq_natCast_iff]; push_cast; exact h
  rw [h', Nat.mod_eq_of_lt hp.one_lt]

/-- C82: `powm(a, p - 2, p)` inverts `a` modulo an odd or even prime `p`, and is the same number the
extended gcd gives. -/
theorem C82_inverse_prime (a p : Aeu n) (hp : (toNat p).Prime)
    (hfit : (toNat p - 1) ^ 2 < 2 ^ (32 * n)) (ha : ¬ toNat p ∣ toNat a) :
    (Sat (invPrime cfg a p) fun r => toNat r < toNat p ∧ toNat a * toNat r % toNat p = 1) ∧
    checkEq cfg (invPrime cfg a p) (invMod cfg a p) = .ok true := by
  have hp2 := hp.two_le
  have key : Sat (invPrime cfg a p) fun r => toNat r < toNat p ∧ toNat a * toNat r % toNat p = 1 := by
    refine Sat.bind (subRight_small p (2#32) (by simpa using hp2)) fun e he => ?_
    refine Sat.mono (C29_powm_partial cfg hn a e p (by omega) hfit (by omega)) fun r hr => ?_
    refine ⟨by rw [hr]; exact Nat.mod_lt _ (by omega), ?_⟩
    rw [hr, Nat.mul_mod_mod, he, show (2#32).toNat = 2 from rfl, ← Nat.pow_succ',
      show (toNat p - 2).succ = toNat p - 1 by omega]
    have := Fact.mk hp
    have h0 : ((toNat a : ℕ) : ZMod (toNat p)) ≠ 0 := by
      rw [Ne, ZMod.natCast_eq_zero_iff]; exact ha
    have h := ZMod.pow_card_sub_one_eq_one h0
    have h' : toNat a ^ (toNat p - 1) ≡ 1 [MOD toNat p] := by
      rw [← ZMod.natCast_eq_natCast_iff]; push_cast; exact h
    rw [h', Nat.mod_eq_of_lt hp.one_lt]
  refine ⟨key, ?_⟩
  have hc : Nat.gcd (toNat a) (toNat p) = 1 := by
    rw [Nat.gcd_comm]; exact (hp.coprime_iff_not_dvd.mpr ha)
  obtain ⟨r, hr, h1, h2⟩ := key
  obtain ⟨s, hs, h3, h4⟩ := C78_modular_inverse cfg hn a p hp.one_lt hc
  refine checkEq_of_nat (v := toNat r) ⟨r, hr, rfl⟩ ⟨s, hs, ?_⟩
  have e1 : toNat s * (toNat a * toNat r) % toNat p = toNat s := by
    rw [Nat.mul_mod, h2, Nat.mul_one, Nat.mod_mod, Nat.mod_eq_of_lt h3]
  have e2 : toNat r * (toNat a * toNat s) % toNat p = toNat r := by
    rw [Nat.mul_mod, h4, Nat.mul_one, Nat.mod_mod, Nat.mod_eq_of_lt h1]
  show toNat s = toNat r
  rw [show toNat s * (toNat a * toNat r) = toNat r * (toNat a * toNat s) by ring] at e1
  rw [← e1, e2]
end

/-- The hypotheses are met and the programs run. -/
example : rsaRoundTrip ⟨false, false, false⟩ (ofNat 2 61) (ofNat 2 53) (ofNat 2 17) (ofNat 2 65) =
      .ok (ofNat 2 65) ∧
    dhSide ⟨false, false, false⟩ (ofNat 2 5) (ofNat 2 23) (ofNat 2 6) (ofNat 2 15) = .ok (ofNat 2 2) ∧
    fermat ⟨false, false, false⟩ (ofNat 2 2) (ofNat 2 1000003) = .ok (ofNat 2 1) ∧
    fermat ⟨false, false, false⟩ (ofNat 2 2) (ofNat 2 1000001) ≠ .ok (ofNat 2 1) ∧
    invPrime ⟨false, false, false⟩ (ofNat 2 3) (ofNat 2 7) = .ok (ofNat 2 5) := by decide +kernel

/-- All hypotheses of `C82_rsa` hold for the textbook key. -/
example : checkEq ⟨false, false, false⟩ (rsaRoundTrip ⟨false, false, false⟩ (ofNat 2 61) (ofNat 2 53)
      (ofNat 2 17) (ofNat 2 65)) (.ok (ofNat 2 65)) = .ok true :=
  C82_rsa _ (by decide) _ _ _ _ (by rw [toNat_ofNat]; norm_num) (by rw [toNat_ofNat]; norm_num)
    (by decide +kernel) (by decide +kernel) (by decide +kernel) (by decide +kernel)

/-! ### Concrete cases that meet the hypotheses -/

/-- The hypotheses of `C82_diffie_hellman` are met. -/
example := C82_diffie_hellman ⟨false, false, false⟩ (by omega) (Aeu.ofNat 2 5) (Aeu.ofNat 2 (2 ^ 31 - 1))
  (Aeu.ofNat 2 (2 ^ 40 + 3)) (Aeu.ofNat 2 (2 ^ 50 + 7)) (by decide +kernel) (by decide +kernel)

end AesiMP
