import Verif.Lemmas.Count
import Mathlib.Data.Nat.GCD.Basic

/-!
# Properties C26–C32: number theory
-/

namespace AesiMP
open Aeu
variable {n m : Nat}

/-! ### C26–C28 -/

/-- C26: `gcd(a, b)`: terminates; the result divides both and every common divisor divides it
(for `a = b = 0` it is `0`). -/
theorem C26_gcd (cfg : Cfg) (hn : 0 < n) (a b : Aeu n) : Sat (gcd cfg a b) fun g =>
    toNat g ∣ toNat a ∧ toNat g ∣ toNat b ∧ ∀ d, d ∣ toNat a → d ∣ toNat b → d ∣ toNat g := by
  refine Sat.mono (gcd_spec cfg hn a b) fun g h => ?_
  rw [h]
  exact ⟨Nat.gcd_dvd_left _ _, Nat.gcd_dvd_right _ _, fun d h1 h2 => Nat.dvd_gcd h1 h2⟩

/-- C26: the same as an equation, so the result is *the greatest* common divisor. -/
theorem C26_gcd_value (cfg : Cfg) (hn : 0 < n) (a b : Aeu n) :
    Returns (gcd cfg a b) (Nat.gcd (toNat a) (toNat b)) := gcd_spec cfg hn a b

example : gcd ⟨false, false, false⟩ (ofNat 2 (2 ^ 40 * 9)) (ofNat 2 (2 ^ 35 * 15)) =
    .ok (ofNat 2 (2 ^ 35 * 3)) := by decide +kernel
example : gcd ⟨false, false, false⟩ (ofNat 2 0) (ofNat 2 7) = .ok (ofNat 2 7) := by decide +kernel

/-- C27: `gcd(a, b, x, y)`: the greatest common divisor and Bezout coefficients modulo
`2^bitness`. -/
theorem C27_bezout (cfg : Cfg) (hn : 0 < n) (a b : Aeu n) :
    Sat (gcdExt cfg a b) fun (g, x, y) => toNat g = Nat.gcd (toNat a) (toNat b) ∧
      (toNat a * toNat x + toNat b * toNat y) % 2 ^ (32 * n) = toNat g := by
  refine Sat.mono (gcdExt_spec cfg hn a b) ?_
  rintro ⟨g, x, y⟩ ⟨h1, h2⟩
  refine ⟨h1, ?_⟩
  simp only at h1 h2 ⊢
  rw [← h1] at h2
  have h3 : (toNat a * toNat x + toNat b * toNat y) ≡ toNat g [MOD 2 ^ (32 * n)] := by
    rw [← Int.natCast_modEq_iff]; push_cast; exact h2
  have h4 : toNat g % 2 ^ (32 * n) = toNat g := Nat.mod_eq_of_lt (toNat_lt g)
  rw [← h4]; exact h3

example : Sat (gcdExt ⟨false, false, false⟩ (ofNat 2 240) (ofNat 2 46)) fun (g, x, y) =>
    toNat g = 2 ∧ (240 * toNat x + 46 * toNat y) % 2 ^ 64 = 2 :=
  ⟨(ofNat 2 2, ofNat 2 (2 ^ 64 - 9), ofNat 2 47), by decide +kernel, by decide +kernel⟩

/-- C28: `lcm(a, b)` when it fits the precision. -/
theorem C28_lcm (cfg : Cfg) (hn : 0 < n) (a b : Aeu n)
    (hfit : Nat.lcm (toNat a) (toNat b) < 2 ^ (32 * n)) : Sat (lcm cfg a b) fun l =>
    toNat a ∣ toNat l ∧ toNat b ∣ toNat l ∧ ∀ k, toNat a ∣ k → toNat b ∣ k → toNat l ∣ k := by
  refine Sat.mono (lcm_spec cfg hn a b) fun l h => ?_
  rw [h, Nat.mod_eq_of_lt hfit]
  exact ⟨Nat.dvd_lcm_left _ _, Nat.dvd_lcm_right _ _, fun k h1 h2 => Nat.lcm_dvd h1 h2⟩

/-- C28: `lcm(a, b)` in general. -/
theorem C28_lcm_mod (cfg : Cfg) (hn : 0 < n) (a b : Aeu n) :
    Returns (lcm cfg a b) (Nat.lcm (toNat a) (toNat b) % 2 ^ (32 * n)) := lcm_spec cfg hn a b

example : lcm ⟨false, false, false⟩ (ofNat 2 (2 ^ 40 * 9)) (ofNat 2 (2 ^ 35 * 15)) =
    .ok (ofNat 2 (2 ^ 40 * 45)) := by decide +kernel
example : lcm ⟨false, false, false⟩ (ofNat 2 0) (ofNat 2 0) = .ok (ofNat 2 0) := by decide +kernel

/-! ### C29, C30 -/

/-- C29, partial: `powm(b, e, m) = b^e mod m`.  Missing: `e = 0` with `m = 1`, where the library
returns 1 (see `C29_counterexample`). -/
theorem C29_powm_partial (cfg : Cfg) (hn : 0 < n) (b e md : Aeu n) (hmd : 0 < toNat md)
    (hfit : (toNat md - 1) ^ 2 < 2 ^ (32 * n)) (hne : ¬ (toNat e = 0 ∧ toNat md = 1)) :
    Returns (powm cfg b e md) (toNat b ^ toNat e % toNat md) := by
  refine Sat.mono (powm_spec cfg hn b e md hmd (by rw [← pow_two]; exact hfit)) fun r h => ?_
  rw [h]
  split
  · rename_i h0
    rw [h0, pow_zero, Nat.mod_eq_of_lt]
    omega
  · rfl

/-- C29: the excluded case, for every precision and base: `powm(b, 0, 1)` returns 1, not
`b^0 mod 1 = 0`. -/
theorem C29_counterexample (cfg : Cfg) (hn : 0 < n) (b e md : Aeu n) (he : toNat e = 0)
    (hmd : toNat md = 1) : Returns (powm cfg b e md) 1 := by
  have := powm_spec cfg hn b e md (by omega) (by rw [hmd]; simp)
  simpa [he] using this

example : powm ⟨false, false, false⟩ (ofNat 2 1234567) (ofNat 2 0x10001) (ofNat 2 1000003) =
    .ok (ofNat 2 (1234567 ^ 0x10001 % 1000003)) := by decide +kernel
example : powm ⟨false, false, false⟩ (ofNat 2 5) (ofNat 2 0) (ofNat 2 1) = .ok (ofNat 2 1) := by
  decide +kernel

/-- The overflow caveat is real: with `(m-1)^2 >= 2^bitness` the result can be wrong. -/
theorem C29_caveat : ∃ b e md : Aeu 2, 0 < toNat md ∧
    ¬ Returns (powm ⟨false, false, false⟩ b e md) (toNat b ^ toNat e % toNat md) := by
  refine ⟨ofNat 2 (2 ^ 32 + 1), ofNat 2 2, ofNat 2 (2 ^ 33 + 5), by decide +kernel, ?_⟩
  rintro ⟨r, h1, h2⟩
  have hr : powm ⟨false, false, false⟩ (ofNat 2 (2 ^ 32 + 1)) (ofNat 2 2) (ofNat 2 (2 ^ 33 + 5)) =
    .ok (ofNat 2 ((2 ^ 64 + 2 ^ 33 + 1) % 2 ^ 64 % (2 ^ 33 + 5))) := by decide +kernel
  rw [hr] at h1
  injection h1 with h1
  rw [← h1] at h2
  revert h2
  decide +kernel

/-- C30, partial: `powm<M>(b, e, m) = b^e mod m`.  Missing: `b = 0` with `e > 0`, and modulus 1
with `b <= 1` or `e = 0` (see the counterexamples).  The exponent type has fewer than `2^32` bits
because the loop counter of this overload is a 32-bit `unsigned`. -/
theorem C30_powm_partial (cfg : Cfg) (hn : 0 < n) (b : Aeu n) (e : Aeu m) (md : Aeu n)
    (hmd : 0 < toNat md) (hm : 32 * m < 2 ^ 32) (hfit : (toNat md - 1) ^ 2 < 2 ^ (32 * n))
    (h0 : ¬ (toNat b = 0 ∧ 0 < toNat e))
    (h1 : toNat md = 1 → 1 < toNat b ∧ 0 < toNat e) :
    Returns (powmT cfg b e md) (toNat b ^ toNat e % toNat md) := by
  refine Sat.mono (powmT_spec cfg hn b e md hmd hm (by rw [← pow_two]; exact hfit)) fun r h => ?_
  rw [h]
  have hmd1 : (toNat b = 1 ∨ toNat b = 0 ∨ toNat e = 0) → 1 < toNat md := by
    intro hc
    by_contra hx
    have := h1 (by omega)
    omega
  split
  · rename_i hc
    have h2 := hmd1 hc
    rcases hc with hc | hc | hc
    · rw [hc, one_pow, Nat.mod_eq_of_lt h2]
    · have : toNat e = 0 := by omega
      rw [this, pow_zero, Nat.mod_eq_of_lt h2]
    · rw [hc, pow_zero, Nat.mod_eq_of_lt h2]
  · rfl

/-- C30: base 0 with a positive exponent: the library returns 1 instead of 0, for every precision,
exponent and modulus. -/
theorem C30_counterexample_base_zero (cfg : Cfg) (hn : 0 < n) (b : Aeu n) (e : Aeu m) (md : Aeu n)
    (hmd : 0 < toNat md) (hm : 32 * m < 2 ^ 32) (hfit : (toNat md - 1) ^ 2 < 2 ^ (32 * n))
    (hb : toNat b = 0) (he : 0 < toNat e) :
    Returns (powmT cfg b e md) 1 ∧ toNat b ^ toNat e % toNat md = 0 := by
  refine ⟨by simpa [hb] using powmT_spec cfg hn b e md hmd hm (by rw [← pow_two]; exact hfit), ?_⟩
  rw [hb, zero_pow (by omega), Nat.zero_mod]

/-- C30: modulus 1 with base 1: the library returns 1 instead of 0. -/
theorem C30_counterexample_modulo_one (cfg : Cfg) (hn : 0 < n) (b : Aeu n) (e : Aeu m) (md : Aeu n)
    (hm : 32 * m < 2 ^ 32) (hb : toNat b = 1) (hmd : toNat md = 1) :
    Returns (powmT cfg b e md) 1 ∧ toNat b ^ toNat e % toNat md = 0 := by
  refine ⟨by simpa [hb] using powmT_spec cfg hn b e md (by omega) hm (by rw [hmd]; simp), ?_⟩
  rw [hmd, Nat.mod_one]

example : powmT ⟨false, false, false⟩ (ofNat 2 3) (ofNat 3 (2 ^ 70)) (ofNat 2 1000003) =
    .ok (ofNat 2 313294) := by decide +kernel
example : powmT ⟨false, false, false⟩ (ofNat 2 0) (ofNat 3 5) (ofNat 2 7) = .ok (ofNat 2 1) := by
  decide +kernel

/-! ### C31, C32 -/

/-- C31: `power2(k)`. -/
theorem C31_power2 (cfg : Cfg) (k : Nat) (hk : k < 32 * n) : Returns (power2 cfg n k) (2 ^ k) :=
  power2_spec cfg hk

/-- C31: beyond the precision (checked build). -/
theorem C31_power2_out_of_range (cfg : Cfg) (hs : cfg.unsafeMode = false) (k : Nat)
    (hk : 32 * n ≤ k) : Returns (power2 cfg n k) 0 := power2_ge cfg hs hk

example : power2 ⟨false, false, false⟩ 3 77 = .ok (ofNat 3 (2 ^ 77)) := by decide +kernel

/-- C32: `squareRoot()`: terminates with the floor square root. -/
theorem C32_squareRoot (cfg : Cfg) (hn : 0 < n) (a : Aeu n) : Sat (squareRoot cfg a) fun r =>
    toNat r ^ 2 ≤ toNat a ∧ toNat a < (toNat r + 1) ^ 2 := by
  refine Sat.mono (squareRoot_spec cfg hn a) fun r h => ?_
  rw [h]
  exact ⟨Nat.sqrt_le' _, Nat.lt_succ_sqrt' _⟩

example : squareRoot ⟨false, false, false⟩ (ofNat 2 (2 ^ 64 - 1)) = .ok (ofNat 2 (2 ^ 32 - 1)) := by
  decide +kernel
example : squareRoot ⟨false, false, false⟩ (ofNat 2 0) = .ok (ofNat 2 0) := by decide +kernel

end AesiMP
