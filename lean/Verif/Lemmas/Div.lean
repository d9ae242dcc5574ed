import Verif.Lemmas.Mul

/-! # Division -/

namespace AesiMP
open Aeu
namespace Aeu
variable {n : Nat}

theorem div_two_pow_step (N i : Nat) :
    N / 2 ^ i = 2 * (N / 2 ^ (i + 1)) + (N.testBit i).toNat := by
  rw [Nat.testBit_eq_decide_div_mod_eq, Nat.pow_succ, ← Nat.div_div_eq_div_mul]
  generalize N / 2 ^ i = a
  by_cases h : a % 2 = 1
  · simp [h]; omega
  · simp [h]; omega

theorem divmod_step_ge {a D b : Nat} (hD : 0 < D) (h : D ≤ 2 * (a % D) + b) (hb : b ≤ 1) :
    (2 * a + b) / D = 2 * (a / D) + 1 ∧ (2 * a + b) % D = 2 * (a % D) + b - D := by
  apply (Nat.div_mod_unique hD).mpr
  have h1 := Nat.mod_lt a hD
  have h2 := Nat.div_add_mod a D
  constructor
  · obtain ⟨k, hk⟩ := Nat.exists_eq_add_of_le h
    rw [hk, Nat.add_sub_cancel_left]
    rw [Nat.mul_add, Nat.mul_one, show D * (2 * (a / D)) = 2 * (D * (a / D)) by ring]
    omega
  · omega

theorem divmod_step_lt {a D b : Nat} (hD : 0 < D) (h : 2 * (a % D) + b < D) :
    (2 * a + b) / D = 2 * (a / D) ∧ (2 * a + b) % D = 2 * (a % D) + b := by
  apply (Nat.div_mod_unique hD).mpr
  have h2 := Nat.div_add_mod a D
  refine ⟨?_, h⟩
  rw [show D * (2 * (a / D)) = 2 * (D * (a / D)) by ring]
  omega

/-- The quotient the code computes: the Euclidean one, or the all-ones pattern of `bits` bits for a
zero divisor. -/
def quotSpec (bits N D : Nat) : Nat := if D = 0 then 2 ^ bits - 1 else N / D

theorem divide_greater (cfg : Cfg) (hn : 0 < n) (x d : Aeu n) (bits : Nat) (hbits : bits ≤ 32 * n)
    (hx : toNat x < 2 ^ bits) :
    Sat (forDown bits 0 (zero n, zero n) fun i (quotient, remainder) => do
      let remainder ← shl remainder 1
      let bit ← getBit cfg x i
      let remainder ← setBit cfg remainder 0 bit
      let g ← ge cfg remainder d
      if g then do
        let remainder ← sub remainder d
        let quotient ← setBit cfg quotient i true
        .ok (quotient, remainder)
      else .ok (quotient, remainder))
    fun r => toNat r.1 = quotSpec bits (toNat x) (toNat d) ∧ toNat r.2 = toNat x % toNat d := by
  set N := toNat x with hN
  set D := toNat d with hD
  refine Sat.forDown (fun i (s : Aeu n × Aeu n) =>
    (if D = 0 then toNat s.1 + 2 ^ i = 2 ^ bits else toNat s.1 = N / 2 ^ i / D * 2 ^ i) ∧
      2 ^ i ∣ toNat s.1 ∧ toNat s.2 = N / 2 ^ i % D) (Nat.zero_le _) ?_ ?_ ?_
  · have : N / 2 ^ bits = 0 := Nat.div_eq_of_lt hx
    simp [this]
  · rintro i ⟨q, r⟩ _ hi ⟨h1, hdvd, h2⟩
    simp only at h1 hdvd h2
    have hin : i < 32 * n := by omega
    have hNW : N < 2 ^ (32 * n) := toNat_lt x
    have hdiv := div_two_pow_step N i
    have hle : N / 2 ^ i ≤ N := Nat.div_le_self _ _
    have hrle : toNat r ≤ N / 2 ^ (i + 1) := by rw [h2]; exact Nat.mod_le _ _
    have hr2 : toNat r * 2 < 2 ^ (32 * n) := by omega
    obtain ⟨r1, hr1, e1⟩ := shl_spec (x := r) (show 1 < 32 * n by omega)
    rw [Nat.pow_one, Nat.mod_eq_of_lt hr2] at e1
    obtain ⟨r2, hr2', e2⟩ := setBit_of_dvd cfg r1 (show 0 < 32 * n by omega) (N.testBit i)
      (by rw [e1]; exact ⟨toNat r, by ring⟩)
    rw [e1, Nat.pow_zero, Nat.mul_one] at e2
    have hbit : (N.testBit i).toNat ≤ 1 := Bool.toNat_le _
    simp only [hr1, getBit_spec cfg x hin, ← hN, hr2', ge_spec, ← hD, ok_bind]
    by_cases hge : D ≤ toNat r2
    · simp only [hge, decide_true, if_true]
      obtain ⟨r3, hr3, e3⟩ := sub_spec_le (x := r2) (y := d) hge
      obtain ⟨q1, hq1, e4⟩ := setBit_of_dvd cfg q hin true hdvd
      simp only [hr3, hq1, ok_bind, sat_ok]
      simp only [Bool.toNat_true, Nat.one_mul] at e4
      rw [← hD, e2] at e3
      refine ⟨?_, ?_, ?_⟩
      · split
        · rename_i h0
          rw [if_pos h0, Nat.pow_succ] at h1
          rw [e4]; omega
        · rename_i h0
          rw [if_neg h0] at h1
          have := (divmod_step_ge (a := N / 2 ^ (i + 1)) (b := (N.testBit i).toNat)
            (by omega : 0 < D) (by rw [← h2]; omega) hbit).1
          rw [← hdiv] at this
          rw [this, e4, h1, Nat.pow_succ]; ring
      · rw [e4]
        exact Nat.dvd_add (Nat.dvd_trans (Nat.pow_dvd_pow 2 (by omega)) hdvd) (Nat.dvd_refl _)
      · by_cases h0 : D = 0
        · simp only [h0, Nat.mod_zero, Nat.sub_zero] at h2 e3 ⊢
          rw [e3, hdiv, h2]; ring
        · have := (divmod_step_ge (a := N / 2 ^ (i + 1)) (b := (N.testBit i).toNat)
            (by omega : 0 < D) (by rw [← h2]; omega) hbit).2
          rw [← hdiv] at this
          rw [this, e3, h2]; ring_nf
    · have hD0 : 0 < D := by omega
      simp only [hge, decide_false, Bool.false_eq_true, if_false, sat_ok]
      rw [if_neg (by omega)] at h1 ⊢
      have := divmod_step_lt (a := N / 2 ^ (i + 1)) (b := (N.testBit i).toNat) hD0
        (by rw [← h2]; omega)
      rw [← hdiv] at this
      refine ⟨?_, ?_, ?_⟩
      · rw [this.1, h1, Nat.pow_succ]; ring
      · exact Nat.dvd_trans (Nat.pow_dvd_pow 2 (by omega)) hdvd
      · rw [this.2, e2, h2]; ring
  · rintro ⟨q, r⟩ ⟨h1, _, h2⟩
    simp only [Nat.pow_zero, Nat.div_one, Nat.mul_one] at h1 h2 ⊢
    refine ⟨?_, h2⟩
    unfold quotSpec
    split
    · rename_i h0; rw [if_pos h0] at h1; omega
    · rename_i h0; rw [if_neg h0] at h1; exact h1

/-- `divide`, nonzero divisor. -/
theorem divide_spec (cfg : Cfg) (hn : 0 < n) (x d : Aeu n) (hd : toNat d ≠ 0) :
    Sat (divide cfg x d) fun r =>
      toNat r.1 = toNat x / toNat d ∧ toNat r.2 = toNat x % toNat d := by
  unfold divide
  rw [compareTo_spec]
  simp only [ok_bind, cmpNat]
  rcases Nat.lt_trichotomy (toNat x) (toNat d) with h | h | h
  · simp only [h, if_true, sat_ok, toNat_zero]
    rw [Nat.div_eq_of_lt h, Nat.mod_eq_of_lt h]
    exact ⟨rfl, rfl⟩
  · have h' : ¬ toNat x < toNat d := by omega
    simp only [h, if_true]
    obtain ⟨one, h1, e1⟩ := ofUnsigned32_one hn
    simp only [h1, ok_bind, sat_ok, toNat_zero, e1, Nat.mod_self, and_true, lt_irrefl, if_false]
    rw [Nat.div_self (by omega)]
  · have h' : ¬ toNat x < toNat d := by omega
    have h'' : ¬ toNat x = toNat d := by omega
    simp only [h', h'', if_false]
    obtain ⟨k, hk, hk1, hk2, _⟩ := filledBlocksNumber_nat x
    simp only [hk, ok_bind]
    have := divide_greater cfg hn x d (k * 32) (by omega) (by rwa [Nat.mul_comm] at hk2)
    simpa [quotSpec, hd] using this

/-- `divide` by zero of a nonzero number. -/
theorem divide_zero_pos (cfg : Cfg) (hn : 0 < n) (x d : Aeu n) (hd : toNat d = 0)
    (hx : 0 < toNat x) : Sat (divide cfg x d) fun r =>
      (∃ k, filledBlocksNumber x = .ok k ∧ toNat r.1 = 2 ^ (32 * k) - 1) ∧ toNat r.2 = toNat x := by
  unfold divide
  rw [compareTo_spec]
  have h' : ¬ toNat x < toNat d := by omega
  have h'' : ¬ toNat x = toNat d := by omega
  simp only [ok_bind, cmpNat, h', h'', if_false]
  obtain ⟨k, hk, hk1, hk2, _⟩ := filledBlocksNumber_nat x
  simp only [hk, ok_bind]
  have := divide_greater cfg hn x d (k * 32) (by omega) (by rwa [Nat.mul_comm] at hk2)
  refine Sat.mono this ?_
  rintro r ⟨h1, h2⟩
  rw [hd] at h1 h2
  simp only [quotSpec, if_true, Nat.mod_zero] at h1 h2
  exact ⟨⟨k, rfl, by rw [h1, Nat.mul_comm]⟩, h2⟩

/-- `divide(0, 0)`. -/
theorem divide_zero_zero (cfg : Cfg) (hn : 0 < n) (x d : Aeu n) (hd : toNat d = 0)
    (hx : toNat x = 0) : Sat (divide cfg x d) fun r => toNat r.1 = 1 ∧ toNat r.2 = 0 := by
  unfold divide
  rw [compareTo_spec]
  obtain ⟨one, h1, e1⟩ := ofUnsigned32_one hn
  simp [cmpNat, hd, hx, h1, e1]

/-- In every case the remainder is `N % D` of Lean's natural numbers (`N % 0 = N`). -/
theorem divide_total (cfg : Cfg) (hn : 0 < n) (x d : Aeu n) :
    Sat (divide cfg x d) fun r => toNat r.2 = toNat x % toNat d ∧
      (toNat d ≠ 0 → toNat r.1 = toNat x / toNat d) := by
  by_cases hd : toNat d = 0
  · by_cases hx : toNat x = 0
    · refine Sat.mono (divide_zero_zero cfg hn x d hd hx) ?_
      rintro r ⟨h1, h2⟩
      simp [hd, hx, h2]
    · refine Sat.mono (divide_zero_pos cfg hn x d hd (by omega)) ?_
      rintro r ⟨_, h2⟩
      simp [hd, h2]
  · exact Sat.mono (divide_spec cfg hn x d hd) fun r h => ⟨h.2, fun _ => h.1⟩

theorem div_spec (cfg : Cfg) (hn : 0 < n) (x d : Aeu n) (hd : toNat d ≠ 0) :
    Returns (div cfg x d) (toNat x / toNat d) := by
  obtain ⟨r, hr, h1, _⟩ := divide_spec cfg hn x d hd
  exact ⟨r.1, by simp [div, hr], h1⟩

theorem mod_spec (cfg : Cfg) (hn : 0 < n) (x d : Aeu n) (hd : toNat d ≠ 0) :
    Returns (mod cfg x d) (toNat x % toNat d) := by
  obtain ⟨r, hr, _, h1⟩ := divide_spec cfg hn x d hd
  exact ⟨r.2, by simp [mod, hr], h1⟩

end Aeu
end AesiMP
