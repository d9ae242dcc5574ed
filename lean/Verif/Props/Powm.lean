import Verif.Lemmas.PowmTotal
import Verif.Props.Access
import Verif.Props.NumTheory

/-!
# C68, C69: `powm` in a doubled precision; `powm` for every modulus
-/

namespace AesiMP
open Aeu
variable {n m k : Nat}

/-! ### C68 -/

private theorem widen (cfg : Cfg) (hk : n ≤ k) (a : Aeu n) :
    Sat (precisionCast cfg k a) fun r => toNat r = toNat a := by
  refine Sat.mono (precisionCast_spec (m := k) cfg a) fun r h => ?_
  rw [h, Nat.mod_eq_of_lt]
  exact Nat.lt_of_lt_of_le (toNat_lt a) (Nat.pow_le_pow_right (by norm_num) (by omega))

private theorem fit_of_double (hk : 2 * n ≤ k) (a : Aeu n) : (toNat a - 1) ^ 2 < 2 ^ (32 * k) := by
  have h := toNat_lt a
  have h1 : (toNat a - 1) ^ 2 ≤ (2 ^ (32 * n) - 1) ^ 2 := Nat.pow_le_pow_left (by omega) 2
  have h2 : (2 ^ (32 * n) - 1) ^ 2 < (2 ^ (32 * n)) ^ 2 := by
    have := Nat.two_pow_pos (32 * n)
    exact Nat.pow_lt_pow_left (by omega) (by norm_num)
  rw [← Nat.pow_mul] at h2
  exact Nat.lt_of_lt_of_le (Nat.lt_of_le_of_lt h1 h2) (Nat.pow_le_pow_right (by norm_num) (by omega))

/-- C68: `Aeu<K>::powm(base.precisionCast<K>(), power.precisionCast<K>(), modulo.precisionCast<K>())`
with `K` at least twice the precision of base and modulo and at least that of the exponent: the
modular power, for every modulus from 2 on (and for 1 unless the exponent is 0). -/
theorem C68_powm_widened (cfg : Cfg) (hn : 0 < n) (hk : 2 * n ≤ k) (hm : m ≤ k) (b md : Aeu n)
    (e : Aeu m) (hmd : 0 < toNat md) (hne : ¬ (toNat e = 0 ∧ toNat md = 1)) :
    Sat (precisionCast cfg k b) fun b' => Sat (precisionCast cfg k e) fun e' =>
      Sat (precisionCast cfg k md) fun md' =>
        Returns (powm cfg b' e' md') (toNat b ^ toNat e % toNat md) := by
  refine Sat.mono (widen cfg (by omega) b) fun b' hb => ?_
  refine Sat.mono (widen cfg hm e) fun e' he => ?_
  refine Sat.mono (widen cfg (by omega) md) fun md' hmd' => ?_
  rw [← hb, ← he, ← hmd']
  refine C29_powm_partial cfg (by omega) b' e' md' (by omega) ?_ (by rw [he, hmd']; exact hne)
  rw [hmd']; exact fit_of_double hk md

/-- C68: the README's form, where the exponent keeps its own precision `M ≠ K`.  The overload taken is
the one with the defects of C30, so base 0 (with a positive exponent) stays excluded. -/
theorem C68_powm_readme_partial (cfg : Cfg) (hn : 0 < n) (hk : 2 * n ≤ k) (hm : 32 * m < 2 ^ 32)
    (b md : Aeu n) (e : Aeu m) (hmd : 1 < toNat md) (h0 : 0 < toNat b ∨ toNat e = 0) :
    Sat (precisionCast cfg k b) fun b' => Sat (precisionCast cfg k md) fun md' =>
        Returns (powmT cfg b' e md') (toNat b ^ toNat e % toNat md) := by
  refine Sat.mono (widen cfg (by omega) b) fun b' hb => ?_
  refine Sat.mono (widen cfg (by omega) md) fun md' hmd' => ?_
  rw [← hb, ← hmd']
  refine C30_powm_partial cfg (by omega) b' e md' (by omega) hm ?_ (by omega) (by omega)
  rw [hmd']; exact fit_of_double hk md

/-- C68: the missing case is false: base 0 with a positive exponent gives 1 in the README's form. -/
theorem C68_readme_base_zero (cfg : Cfg) (hn : 0 < n) (hk : 2 * n ≤ k) (hm : 32 * m < 2 ^ 32)
    (b md : Aeu n) (e : Aeu m) (hmd : 1 < toNat md) (hb : toNat b = 0) (he : 0 < toNat e) :
    toNat b ^ toNat e % toNat md = 0 ∧
    Sat (precisionCast cfg k b) fun b' => Sat (precisionCast cfg k md) fun md' =>
        Returns (powmT cfg b' e md') 1 := by
  refine ⟨by rw [hb, zero_pow (by omega), Nat.zero_mod], ?_⟩
  refine Sat.mono (widen cfg (by omega) b) fun b' hb' => ?_
  refine Sat.mono (widen cfg (by omega) md) fun md' hmd' => ?_
  exact (C30_counterexample_base_zero cfg (by omega) b' e md' (by omega) hm
    (by rw [hmd']; exact fit_of_double hk md) (by omega) he).1

/-- The README's example, at a smaller size: 32-bit numbers, where `powm` overflows in 32 bits and is
right in 64. -/
example : powm ⟨false, false, false⟩ (ofNat 1 3735928559) (ofNat 1 65537) (ofNat 1 4294967291) ≠
      .ok (ofNat 1 (3735928559 ^ 65537 % 4294967291)) ∧
    powmT ⟨false, false, false⟩ (ofNat 2 3735928559) (ofNat 1 65537) (ofNat 2 4294967291) =
      .ok (ofNat 2 (3735928559 ^ 65537 % 4294967291)) := by decide +kernel

/-! ### C69 -/

/-- C69: `powm` terminates without undefined behaviour for every base, exponent and modulus (0
included, and whatever overflows). -/
theorem C69_powm_total (cfg : Cfg) (hn : 0 < n) (b e md : Aeu n) :
    ∃ r, powm cfg b e md = .ok r := by
  obtain ⟨_, _, _, r, hr, _⟩ := powm_total cfg hn b e md
  exact ⟨r, hr⟩

theorem C69_powmT_total (cfg : Cfg) (hn : 0 < n) (hm : 32 * m < 2 ^ 32) (b : Aeu n) (e : Aeu m)
    (md : Aeu n) : ∃ r, powmT cfg b e md = .ok r := by
  obtain ⟨_, _, _, r, hr, _⟩ := powmT_total cfg hn b e md hm
  exact ⟨r, hr⟩

/-- C69: modulus 0 gives the power modulo `2^bitness`. -/
theorem C69_powm_modulus_zero (cfg : Cfg) (hn : 0 < n) (b e md : Aeu n) (hmd : toNat md = 0) :
    Returns (powm cfg b e md) (toNat b ^ toNat e % 2 ^ (32 * n)) := by
  obtain ⟨K, _, hK, r, hr, h⟩ := powm_total cfg hn b e md
  refine ⟨r, hr, ?_⟩
  have key := sqMul_modEq (W := 2 ^ (32 * n)) (M := 0) (N := 2 ^ (32 * n))
    (fun y => by rw [Nat.mod_zero]; exact Nat.mod_modEq _ _) (toNat e) (32 * K) 0 1 (toNat b)
  rw [hmd, Nat.mod_zero] at h
  rw [← h, Nat.one_mul, Nat.pow_zero, Nat.div_one, Nat.mod_eq_of_lt hK] at key
  rw [← Nat.mod_eq_of_lt (toNat_lt r)]
  exact key

/-- C69: a modulus that is a power of two needs no extra precision: `powm` is exact although the
products overflow. -/
theorem C69_powm_power_of_two (cfg : Cfg) (hn : 0 < n) (b e md : Aeu n) (j : Nat) (hj : 0 < j)
    (hmd : toNat md = 2 ^ j) : Returns (powm cfg b e md) (toNat b ^ toNat e % toNat md) := by
  obtain ⟨K, _, hK, r, hr, h⟩ := powm_total cfg hn b e md
  refine ⟨r, hr, ?_⟩
  have hjn : j < 32 * n := by
    have := toNat_lt md
    rw [hmd] at this
    exact (Nat.pow_lt_pow_iff_right (by norm_num)).mp this
  have h1 : 1 < toNat md := by rw [hmd]; exact Nat.one_lt_two_pow (by omega)
  have key := sqMul_modEq (W := 2 ^ (32 * n)) (M := toNat md) (N := toNat md)
    (fun y => by
      rw [hmd, Nat.mod_mod_of_dvd _ (Nat.pow_dvd_pow 2 (by omega))]
      exact Nat.mod_modEq _ _) (toNat e) (32 * K) 0 1 (toNat b % toNat md)
  rw [← h, Nat.one_mul, Nat.pow_zero, Nat.div_one, Nat.mod_eq_of_lt hK] at key
  have hlt : toNat r < toNat md := by rw [h]; exact sqMul_lt h1 _ _ _ _ _ h1
  rw [← Nat.mod_eq_of_lt hlt]
  exact key.trans ((Nat.mod_modEq _ _).pow _)

/-- C69, exactly, for every input: right-to-left square and multiply where every product is truncated
to the precision before it is reduced. -/
theorem C69_powm_exact (cfg : Cfg) (hn : 0 < n) (b e md : Aeu n) :
    ∃ bits, toNat e < 2 ^ bits ∧ Returns (powm cfg b e md)
      (sqMul (2 ^ (32 * n)) (toNat md) (toNat e) bits 0 1 (toNat b % toNat md)) := by
  obtain ⟨K, _, hK, h⟩ := powm_total cfg hn b e md
  exact ⟨32 * K, hK, h⟩

example : powm ⟨false, false, false⟩ (ofNat 2 7) (ofNat 2 100) (ofNat 2 0) =
    .ok (ofNat 2 (7 ^ 100 % 2 ^ 64)) ∧
    powm ⟨false, false, false⟩ (ofNat 2 (2 ^ 63 + 3)) (ofNat 2 100) (ofNat 2 (2 ^ 63)) =
    .ok (ofNat 2 (3 ^ 100 % 2 ^ 63)) := by decide +kernel

end AesiMP
