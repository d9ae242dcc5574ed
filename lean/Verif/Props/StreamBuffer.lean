import Verif.Model.Double
import Verif.Props.StreamExact
import Mathlib.Tactic.Positivity
import Mathlib.Tactic.Linarith
import Mathlib.Tactic.FieldSimp

/-!
# C35: the size of the character buffer of `operator<<`

It is computed in floating point.  The other theorems about output are about every size with the property `IsStreamBuf`;
here is that the size computed in `double` has it.
-/

namespace AesiMP
open Double

private theorem ulp_pos (x : ℚ) : 0 < ulp x := zpow_pos (by norm_num) _

private theorem nearestEven_close (x : ℚ) : |(nearestEven x : ℚ) - x| ≤ 1 / 2 := by
  have h0 := Int.floor_le x
  have h1 := Int.lt_floor_add_one x
  unfold nearestEven
  split_ifs with h h' <;> rw [abs_le] <;> constructor <;> push_cast <;> linarith

private theorem nearestEven_int (k : Int) : nearestEven (k : ℚ) = k := by
  unfold nearestEven
  rw [Int.floor_intCast, if_pos (by simp)]

/-- The relative error of rounding is at most 2^-53. -/
private theorem round_close {x : ℚ} (hx : 0 < x) : |Double.round x - x| ≤ x / 2 ^ 53 := by
  have hu := ulp_pos x
  have h := nearestEven_close (x / ulp x)
  have e : Double.round x - x = ((nearestEven (x / ulp x) : ℚ) - x / ulp x) * ulp x := by
    unfold Double.round
    rw [if_neg hx.ne', sub_mul, div_mul_cancel₀ _ hu.ne']
  rw [e, abs_mul, abs_of_pos hu]
  have hl : (2 : ℚ) ^ Int.log 2 |x| ≤ x := by
    have := Int.zpow_log_le_self (b := 2) (r := |x|) (by norm_num) (abs_pos.2 hx.ne')
    rw [abs_of_pos hx] at this ⊢
    exact_mod_cast this
  have hul : ulp x = 2 ^ Int.log 2 |x| / 2 ^ 52 := by
    unfold ulp
    rw [zpow_sub₀ (by norm_num)]
    norm_cast
  calc |(nearestEven (x / ulp x) : ℚ) - x / ulp x| * ulp x ≤ 1 / 2 * ulp x := by gcongr
    _ ≤ x / 2 ^ 53 := by rw [hul]; linarith

/-- Integers of up to 53 bits are `double`s. -/
private theorem round_nat (k : Nat) (hk : k < 2 ^ 53) : Double.round (k : ℚ) = k := by
  unfold Double.round
  split_ifs with h
  · exact h.symm
  · have hu := ulp_pos (k : ℚ)
    have h0 : k ≠ 0 := by rintro rfl; simp at h
    have hlog : Int.log 2 |(k : ℚ)| = (Nat.log 2 k : Nat) := by
      rw [abs_of_nonneg (by positivity)]; exact Int.log_natCast 2 k
    have hl : Nat.log 2 k < 53 := Nat.log_lt_of_lt_pow h0 hk
    have hul : ulp (k : ℚ) = ((2 ^ (52 - Nat.log 2 k) : Nat) : ℚ)⁻¹ := by
      unfold ulp
      rw [hlog, show ((Nat.log 2 k : Nat) : Int) - 52 = -((52 - Nat.log 2 k : Nat) : Int) by omega, zpow_neg, zpow_natCast]
      push_cast; rfl
    have e : (k : ℚ) / ulp (k : ℚ) = ((k * 2 ^ (52 - Nat.log 2 k) : Nat) : Int) := by
      rw [hul]; push_cast; simp [div_eq_mul_inv]
    rw [e, nearestEven_int, ← e, div_mul_cancel₀ _ hu.ne']

private theorem round_literal : Double.round (295 / 100) = 6642809450371482 / 2 ^ 51 := by
  have hlog : Int.log 2 |(295 / 100 : ℚ)| = 1 := by
    rw [abs_of_pos (by norm_num), Int.log_of_one_le_right 2 (by norm_num)]
    have : ⌊(295 / 100 : ℚ)⌋₊ = 2 := by rw [Nat.floor_eq_iff (by norm_num)]; constructor <;> norm_num
    rw [this]; decide
  have hul : ulp (295 / 100) = 1 / 2 ^ 51 := by
    unfold ulp
    rw [hlog]; norm_num
  have e : (295 / 100 : ℚ) / ulp (295 / 100) = 6642809450371481 + 3 / 5 := by rw [hul]; norm_num
  have hf : ⌊(6642809450371481 + 3 / 5 : ℚ)⌋ = 6642809450371481 := by
    rw [Int.floor_eq_iff]; constructor <;> norm_num
  unfold Double.round
  rw [if_neg (by norm_num), e, hul]
  unfold nearestEven
  rw [hf, if_neg (by norm_num), if_pos (by norm_num)]
  norm_num

/-- **C35**: the size of the buffer, computed in `double`, is the integer part of `bitness * 20 / 59`, or one less where
that is an integer, for every `bitness` up to 2^46. -/
theorem C35_buffer_size (n : Nat) (hn : 32 * n ≤ 2 ^ 46) : Aeu.IsStreamBuf n (Aeu.streamBuf n) := by
  unfold Aeu.streamBuf
  rw [round_nat _ (by omega), round_literal]
  rcases Nat.eq_zero_or_pos n with rfl | hpos
  · simp [Double.div, Double.round, Double.toSize, Aeu.IsStreamBuf]
  · unfold Double.div
    have hB : (0 : ℚ) < ((32 * n : Nat) : ℚ) := by positivity
    have hBle : ((32 * n : Nat) : ℚ) ≤ 2 ^ 46 := by exact_mod_cast hn
    have hB1 : (1 : ℚ) ≤ ((32 * n : Nat) : ℚ) := by exact_mod_cast (by omega : 1 ≤ 32 * n)
    generalize hBdef : ((32 * n : Nat) : ℚ) = B at *
    have hx : 0 < B / (6642809450371482 / 2 ^ 51) := by positivity
    have hr := abs_le.1 (round_close hx)
    generalize Double.round (B / (6642809450371482 / 2 ^ 51)) = r at *
    have e : B / (6642809450371482 / 2 ^ 51) = B * (2 ^ 51 / 6642809450371482) := by
      rw [div_div_eq_mul_div, mul_div_assoc]
    rw [e] at hr
    -- the quotient is within 1/59 of the exact one
    have hlo : 20 * B - 1 < 59 * r := by
      have := hr.1
      norm_num at this
      linarith
    have hhi : 59 * r < 20 * B + 1 := by
      have := hr.2
      norm_num at this
      linarith
    have hr0 : 0 ≤ r := by linarith
    unfold Double.toSize Aeu.IsStreamBuf
    have h1 := Nat.floor_le hr0
    have h2 := Nat.lt_floor_add_one r
    generalize ⌊r⌋₊ = b at *
    have g1 : (59 * b : ℚ) < 20 * ((32 * n : Nat) : ℚ) + 1 := by rw [hBdef]; linarith
    have g2 : (20 * ((32 * n : Nat) : ℚ) - 1 : ℚ) < 59 * (b + 1) := by rw [hBdef]; linarith
    have g1' : 59 * b < 20 * (32 * n) + 1 := by exact_mod_cast g1
    have g2' : 20 * (32 * n) < 59 * (b + 1) + 1 := by
      have : (20 * ((32 * n : Nat) : ℚ) : ℚ) < 59 * (b + 1) + 1 := by linarith
      exact_mod_cast this
    omega

/-- C35: both cases occur: 1888 / 2.95 is 640 in `double`, but 5664 / 2.95, which is 1920, comes out below it and the
buffer has 1919 characters. -/
theorem C35_buffer_size_cases : Aeu.streamBuf 2 = 21 ∧ Aeu.streamBuf 59 = 640 ∧ Aeu.streamBuf 177 = 1919 := by
  have key : ∀ (B k : Nat) (e : Nat) (m : Int), B < 2 ^ 53 → 0 < B → e ≤ 52 →
      Int.log 2 |((B : ℚ) / (6642809450371482 / 2 ^ 51))| = e →
      (B : ℚ) / (6642809450371482 / 2 ^ 51) * 2 ^ (52 - e) - m < 1 / 2 → (m : ℚ) - (B : ℚ) / (6642809450371482 / 2 ^ 51) * 2 ^ (52 - e) < 1 / 2 →
      (k * 2 ^ (52 - e) : Int) ≤ m → m < (k + 1) * 2 ^ (52 - e) →
      Double.toSize (Double.div (Double.round (B : ℚ)) (Double.round (295 / 100))) = k := by
    intro B k e m hB hpos he hlog h1 h2 h3 h4
    rw [round_nat _ hB, round_literal]
    have hx : (B : ℚ) / (6642809450371482 / 2 ^ 51) ≠ 0 := by
      have : (0 : ℚ) < B := by exact_mod_cast hpos
      positivity
    unfold Double.div Double.round
    rw [if_neg hx]
    have hul : ulp ((B : ℚ) / (6642809450371482 / 2 ^ 51)) = ((2 : ℚ) ^ (52 - e))⁻¹ := by
      unfold ulp
      rw [hlog, show ((e : Nat) : Int) - 52 = -((52 - e : Nat) : Int) by omega, zpow_neg, zpow_natCast]
    rw [hul, div_inv_eq_mul]
    generalize (B : ℚ) / (6642809450371482 / 2 ^ 51) * 2 ^ (52 - e) = y at *
    have hm : nearestEven y = m := by
      have hc := abs_le.1 (nearestEven_close y)
      have g1 : (nearestEven y : ℚ) < m + 1 := by linarith [hc.2]
      have g2 : (m : ℚ) < nearestEven y + 1 := by linarith [hc.1]
      have g1' : nearestEven y < m + 1 := by exact_mod_cast g1
      have g2' : m < nearestEven y + 1 := by exact_mod_cast g2
      omega
    rw [hm]
    unfold Double.toSize
    have hP : (0 : ℚ) < 2 ^ (52 - e) := by positivity
    have h3' : (k : ℚ) * 2 ^ (52 - e) ≤ m := by exact_mod_cast h3
    have h4' : (m : ℚ) < (k + 1) * 2 ^ (52 - e) := by exact_mod_cast h4
    rw [← div_eq_mul_inv, Nat.floor_eq_iff (div_nonneg (le_trans (by positivity) h3') hP.le)]
    exact ⟨(le_div_iff₀ hP).2 h3', (div_lt_iff₀ hP).2 h4'⟩
  have hlog : ∀ (B e : Nat), 0 < B → (2 ^ e * 6642809450371482 ≤ B * 2 ^ 51) → B * 2 ^ 51 < 2 ^ (e + 1) * 6642809450371482 →
      Int.log 2 |((B : ℚ) / (6642809450371482 / 2 ^ 51))| = e := by
    intro B e hpos h1 h2
    have hB : (0 : ℚ) < B := by exact_mod_cast hpos
    have hx : 0 < (B : ℚ) / (6642809450371482 / 2 ^ 51) := by positivity
    rw [abs_of_pos hx]
    have h1' : (2 : ℚ) ^ e * 6642809450371482 ≤ B * 2 ^ 51 := by exact_mod_cast h1
    have h2' : (B : ℚ) * 2 ^ 51 < 2 ^ (e + 1) * 6642809450371482 := by exact_mod_cast h2
    have a1 : ((2 : Nat) : ℚ) ^ ((e : Nat) : Int) ≤ (B : ℚ) / (6642809450371482 / 2 ^ 51) := by
      rw [zpow_natCast, div_div_eq_mul_div, le_div_iff₀ (by norm_num)]; push_cast; exact h1'
    have a2 : (B : ℚ) / (6642809450371482 / 2 ^ 51) < ((2 : Nat) : ℚ) ^ (((e + 1 : Nat)) : Int) := by
      rw [zpow_natCast, div_div_eq_mul_div, div_lt_iff₀ (by norm_num)]; push_cast; exact h2'
    have b1 := (Int.zpow_le_iff_le_log (by norm_num) hx).1 a1
    have b2 := (Int.lt_zpow_iff_log_lt (by norm_num) hx).1 a2
    push_cast at b2
    omega
  refine ⟨?_, ?_, ?_⟩
  · have := C35_buffer_size 2 (by norm_num)
    unfold Aeu.IsStreamBuf at this
    omega
  · exact key (32 * 59) 640 9 (640 * 2 ^ 43) (by norm_num) (by norm_num) (by norm_num)
      (hlog _ _ (by norm_num) (by norm_num) (by norm_num)) (by norm_num) (by norm_num) (by norm_num) (by norm_num)
  · exact key (32 * 177) 1919 10 (1920 * 2 ^ 42 - 1) (by norm_num) (by norm_num) (by norm_num)
      (hlog _ _ (by norm_num) (by norm_num) (by norm_num)) (by norm_num) (by norm_num) (by norm_num) (by norm_num)

/-- The theorems about output hold of the size that is computed: `std::cout << a` in decimal. -/
example := C35_width_exact (n := 177) ⟨false, false, false⟩ (Aeu.streamBuf 177) (C35_buffer_size 177 (by norm_num))

end AesiMP
