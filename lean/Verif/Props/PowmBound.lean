import Verif.Props.Complete
import Mathlib.Data.Nat.Prime.Basic

/-!
# C29, C30: for which moduli `powm` is right

`powm` multiplies in the precision of its operands (Aeu.h:1201-1222, 1224-1245), so a product can lose
its high bits.  Here: exactly the moduli for which this never shows.
-/

namespace AesiMP
open Aeu
variable {n m : Nat}

private theorem sqMul_zero (W M e : Nat) : ∀ k i b, sqMul W M e k i 0 b = 0
  | 0, _, _ => rfl
  | k + 1, i, b => by
    rw [sqMul, show (if e.testBit i then 0 * b % W % M else 0) = 0 by split <;> simp]
    exact sqMul_zero W M e k (i + 1) _

private theorem sqMul_two {W M B : Nat} (hB : B * B = W) {k : Nat} (hk : 2 < 2 ^ k) : sqMul W M 2 k 0 1 B = 0 := by
  obtain ⟨j, rfl⟩ : ∃ j, k = j + 2 := by
    refine ⟨k - 2, ?_⟩
    rcases k with _ | _ | k
    · simp at hk
    · simp at hk
    · omega
  rw [sqMul, sqMul]
  have h0 : Nat.testBit 2 0 = false := by decide
  have h1 : Nat.testBit 2 (0 + 1) = true := by decide
  rw [h0, h1, hB, Nat.mod_self, Nat.zero_mod]
  simp [sqMul_zero]

private theorem half_sq (n : Nat) : (2 : Nat) ^ (16 * n) * 2 ^ (16 * n) = 2 ^ (32 * n) := by
  rw [← Nat.pow_add]; congr 1; omega

private theorem half_lt (hn : 0 < n) : (2 : Nat) ^ (16 * n) < 2 ^ (32 * n) :=
  Nat.pow_lt_pow_right (by norm_num) (by omega)

/-- `M - 1` squared fits in the precision exactly if `M` has at most half as many bits. -/
private theorem fit_iff (M : Nat) : (M - 1) ^ 2 < 2 ^ (32 * n) ↔ M ≤ 2 ^ (16 * n) := by
  rw [← half_sq n, ← pow_two, Nat.pow_lt_pow_iff_left (by norm_num)]
  have := Nat.two_pow_pos (16 * n)
  omega

/-- **C29**: a modulus of more than half the precision that is not a power of two is never safe: the square of
`2^(bitness/2)` comes out as 0, which it is not. -/
theorem C29_wide_modulus_wrong (cfg : Cfg) (hn : 0 < n) (md : Aeu n) (hw : 2 ^ (16 * n) < toNat md)
    (hd : ¬ toNat md ∣ 2 ^ (32 * n)) (b e : Aeu n) (hb : toNat b = 2 ^ (16 * n)) (he : toNat e = 2) :
    Returns (powm cfg b e md) 0 ∧ toNat b ^ toNat e % toNat md ≠ 0 := by
  obtain ⟨k, hk, h⟩ := C69_powm_exact cfg hn b e md
  rw [he, hb, Nat.mod_eq_of_lt hw, sqMul_two (half_sq n) (he ▸ hk)] at h
  refine ⟨h, fun h0 => hd ?_⟩
  rw [he, hb, pow_two, half_sq] at h0
  exact Nat.dvd_of_mod_eq_zero h0

/-- **C29**: the moduli above 1 for which `powm` is right for every base and exponent: those of at most half the
precision, and the powers of two. -/
theorem C29_safe_moduli (cfg : Cfg) (hn : 0 < n) (md : Aeu n) (hmd : 1 < toNat md) :
    (∀ b e : Aeu n, Returns (powm cfg b e md) (toNat b ^ toNat e % toNat md)) ↔
      toNat md ≤ 2 ^ (16 * n) ∨ ∃ j, toNat md = 2 ^ j := by
  constructor
  · intro h
    by_contra hc
    rw [not_or] at hc
    have hd : ¬ toNat md ∣ 2 ^ (32 * n) := fun hd => hc.2 (by
      obtain ⟨j, _, hj⟩ := (Nat.dvd_prime_pow Nat.prime_two).1 hd
      exact ⟨j, hj⟩)
    have hb : toNat (ofNat n (2 ^ (16 * n))) = 2 ^ (16 * n) := by
      rw [toNat_ofNat, Nat.mod_eq_of_lt (half_lt hn)]
    have he : toNat (ofNat n 2) = 2 := by
      rw [toNat_ofNat, Nat.mod_eq_of_lt (Nat.lt_of_lt_of_le (by norm_num : 2 < 2 ^ 2)
        (Nat.pow_le_pow_right (by norm_num) (by omega)))]
    obtain ⟨⟨r, hr, h0⟩, hne⟩ := C29_wide_modulus_wrong cfg hn md (by omega) hd _ _ hb he
    obtain ⟨r', hr', h1⟩ := h (ofNat n (2 ^ (16 * n))) (ofNat n 2)
    rw [hr] at hr'
    cases hr'
    exact hne (h1 ▸ h0)
  · rintro (h | ⟨j, hj⟩) b e
    · exact C29_powm_partial cfg hn b e md (by omega) ((fit_iff _).2 h) (by omega)
    · refine C69_powm_power_of_two cfg hn b e md j ?_ hj
      rcases j with _ | j
      · simp at hj; omega
      · omega

/-- **C30**, the overload with an exponent of another precision: the same failure. -/
theorem C30_wide_modulus_wrong (cfg : Cfg) (hn : 0 < n) (hm : 32 * m < 2 ^ 32) (md : Aeu n)
    (hw : 2 ^ (16 * n) < toNat md) (hd : ¬ toNat md ∣ 2 ^ (32 * n)) (b : Aeu n) (e : Aeu m)
    (hb : toNat b = 2 ^ (16 * n)) (he : toNat e = 2) :
    Returns (powmT cfg b e md) 0 ∧ toNat b ^ toNat e % toNat md ≠ 0 := by
  have h1 : 1 < 2 ^ (16 * n) := Nat.one_lt_two_pow (by omega)
  obtain ⟨k, hk, h⟩ := C69_powmT_exact cfg hn hm b e md
  rw [if_neg (by omega), he, hb, Nat.mod_eq_of_lt hw, sqMul_two (half_sq n) (he ▸ hk)] at h
  refine ⟨h, fun h0 => hd ?_⟩
  rw [he, hb, pow_two, half_sq] at h0
  exact Nat.dvd_of_mod_eq_zero h0

/-- **C30**: the moduli above 1 for which that overload is right for every base above 0 and every exponent. -/
theorem C30_safe_moduli (cfg : Cfg) (hn : 0 < n) (hm0 : 0 < m) (hm : 32 * m < 2 ^ 32) (md : Aeu n)
    (hmd : 1 < toNat md) :
    (∀ (b : Aeu n) (e : Aeu m), 0 < toNat b → Returns (powmT cfg b e md) (toNat b ^ toNat e % toNat md)) ↔
      toNat md ≤ 2 ^ (16 * n) ∨ ∃ j, toNat md = 2 ^ j := by
  constructor
  · intro h
    by_contra hc
    rw [not_or] at hc
    have hd : ¬ toNat md ∣ 2 ^ (32 * n) := fun hd => hc.2 (by
      obtain ⟨j, _, hj⟩ := (Nat.dvd_prime_pow Nat.prime_two).1 hd
      exact ⟨j, hj⟩)
    have hb : toNat (ofNat n (2 ^ (16 * n))) = 2 ^ (16 * n) := by
      rw [toNat_ofNat, Nat.mod_eq_of_lt (half_lt hn)]
    have he : toNat (ofNat m 2) = 2 := by
      rw [toNat_ofNat, Nat.mod_eq_of_lt (Nat.lt_of_lt_of_le (by norm_num : 2 < 2 ^ 2)
        (Nat.pow_le_pow_right (by norm_num) (by omega)))]
    obtain ⟨⟨r, hr, h0⟩, hne⟩ := C30_wide_modulus_wrong cfg hn hm md (by omega) hd _ _ hb he
    obtain ⟨r', hr', h1⟩ := h (ofNat n (2 ^ (16 * n))) (ofNat m 2) (by rw [hb]; exact Nat.two_pow_pos _)
    rw [hr] at hr'
    cases hr'
    exact hne (h1 ▸ h0)
  · rintro (h | ⟨j, hj⟩) b e hb0
    · exact C30_powm_partial cfg hn b e md (by omega) hm ((fit_iff _).2 h) (by omega) (by omega)
    · have := C69_powmT_power_of_two cfg hn hm b e md j (by
        rcases j with _ | j
        · simp at hj; omega
        · omega) hj
      rwa [if_neg (by omega)] at this

/-- A modulus of each kind, in 64 bits: 2^32 is safe, 2^40 is safe, 2^32 + 1 is not. -/
example : powm ⟨false, false, false⟩ (ofNat 2 (2 ^ 32)) (ofNat 2 2) (ofNat 2 (2 ^ 32 + 1)) = .ok (ofNat 2 0) ∧
    (2 ^ 32) ^ 2 % (2 ^ 32 + 1) = 1 ∧
    powm ⟨false, false, false⟩ (ofNat 2 (2 ^ 32 - 1)) (ofNat 2 2) (ofNat 2 (2 ^ 32)) = .ok (ofNat 2 1) ∧
    powm ⟨false, false, false⟩ (ofNat 2 (2 ^ 40 - 1)) (ofNat 2 2) (ofNat 2 (2 ^ 40)) = .ok (ofNat 2 1) ∧
    powmT ⟨false, false, false⟩ (ofNat 2 (2 ^ 32)) (ofNat 1 2) (ofNat 2 (2 ^ 32 + 1)) = .ok (ofNat 2 0) := by
  decide +kernel

end AesiMP
