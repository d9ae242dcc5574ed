import Verif.Spec
import Mathlib.Tactic.Ring
import Mathlib.Tactic.Linarith
import Mathlib.Tactic.NormNum

/-! # Lemmas about the represented number -/

namespace AesiMP
open Aeu

theorem pow32_succ (k : Nat) : 2 ^ (32 * (k + 1)) = 2 ^ (32 * k) * 4294967296 := by
  rw [Nat.mul_add, Nat.pow_add]

theorem pow32_pos (k : Nat) : 0 < 2 ^ (32 * k) := Nat.two_pow_pos _

theorem psum_congr {f g : Nat → Nat} {k : Nat} (h : ∀ i, i < k → f i = g i) :
    psum f k = psum g k := by
  induction k with
  | zero => rfl
  | succ k ih => rw [psum, psum, ih (fun i hi => h i (by omega)), h k (by omega)]

theorem psum_lt {f : Nat → Nat} (h : ∀ i, f i < 4294967296) (k : Nat) : psum f k < 2 ^ (32 * k) := by
  induction k with
  | zero => simp [psum]
  | succ k ih =>
    rw [psum, pow32_succ]
    have h1 : f k + 1 ≤ 4294967296 := h k
    have h2 := Nat.mul_le_mul_right (2 ^ (32 * k)) h1
    rw [Nat.add_mul] at h2
    rw [Nat.mul_comm (2 ^ (32 * k))]
    omega

theorem psum_zero {f : Nat → Nat} {k : Nat} (h : ∀ i, i < k → f i = 0) : psum f k = 0 := by
  induction k with
  | zero => rfl
  | succ k ih => rw [psum, ih (fun i hi => h i (by omega)), h k (by omega)]; simp

/-- Splitting a digit sum. -/
theorem psum_add (f : Nat → Nat) (k m : Nat) :
    psum f (k + m) = psum f k + psum (fun i => f (i + k)) m * 2 ^ (32 * k) := by
  induction m with
  | zero => simp [psum]
  | succ m ih =>
    rw [← Nat.add_assoc, psum, ih, psum, Nat.add_comm m k]
    rw [show 32 * (k + m) = 32 * m + 32 * k by ring, Nat.pow_add]
    ring

theorem psum_mod {f : Nat → Nat} (h : ∀ i, f i < 4294967296) {k m : Nat} (hk : k ≤ m) :
    psum f m % 2 ^ (32 * k) = psum f k := by
  obtain ⟨d, rfl⟩ := Nat.exists_eq_add_of_le hk
  rw [psum_add, Nat.add_mul_mod_self_right, Nat.mod_eq_of_lt (psum_lt h k)]

theorem psum_div {f : Nat → Nat} (h : ∀ i, f i < 4294967296) {k m : Nat} (hk : k ≤ m) :
    psum f m / 2 ^ (32 * k) = psum (fun i => f (i + k)) (m - k) := by
  obtain ⟨d, rfl⟩ := Nat.exists_eq_add_of_le hk
  rw [psum_add, Nat.add_mul_div_right _ _ (pow32_pos k), Nat.div_eq_of_lt (psum_lt h k)]
  simp

theorem psum_digit {f : Nat → Nat} (h : ∀ i, f i < 4294967296) {k m : Nat} (hk : k < m) :
    psum f m / 2 ^ (32 * k) % 4294967296 = f k := by
  rw [psum_div h (by omega)]
  have : 4294967296 = 2 ^ (32 * 1) := by norm_num
  rw [this, psum_mod (fun i => by simpa using h _) (by omega : 1 ≤ m - k)]
  simp [psum]

theorem psum_inj {f g : Nat → Nat} (hf : ∀ i, f i < 4294967296) (hg : ∀ i, g i < 4294967296)
    {m : Nat} (h : psum f m = psum g m) : ∀ i, i < m → f i = g i := by
  intro i hi
  rw [← psum_digit hf hi, ← psum_digit hg hi, h]

namespace Aeu
variable {n : Nat}

theorem dig_lt (x : Aeu n) (i : Nat) : dig x i < 4294967296 := by
  unfold dig; split
  · exact BitVec.isLt _
  · norm_num

theorem dig_of_lt {x : Aeu n} {i : Nat} (h : i < n) : dig x i = (x[i]).toNat := by simp [dig, h]
theorem dig_of_ge {x : Aeu n} {i : Nat} (h : n ≤ i) : dig x i = 0 := by
  simp [dig, Nat.not_lt.mpr h]

theorem dig_set {x : Aeu n} {i : Nat} {v : Block} (h : i < n) (j : Nat) :
    dig (x.set i v) j = if j = i then v.toNat else dig x j := by
  unfold dig
  by_cases hj : j < n
  · simp only [hj, dif_pos]
    by_cases hji : j = i
    · subst hji; simp
    · rw [Vector.getElem_set_ne _ _ (fun h => hji h.symm)]; simp [hji]
  · have : j ≠ i := by omega
    simp [hj, this]

theorem dig_set_self {x : Aeu n} {i : Nat} {v : Block} (h : i < n) :
    dig (x.set i v) i = v.toNat := by simp [dig_set h]

theorem dig_set_ne {x : Aeu n} {i j : Nat} {v : Block} (h : i < n) (hj : j ≠ i) :
    dig (x.set i v) j = dig x j := by simp [dig_set h, hj]

@[simp] theorem dig_zero (i : Nat) : dig (zero n) i = 0 := by
  unfold dig zero; split <;> simp

theorem toNat_lt (x : Aeu n) : toNat x < 2 ^ (32 * n) := psum_lt (dig_lt x) n

@[simp] theorem toNat_zero : toNat (zero n) = 0 := psum_zero fun _ _ => dig_zero _

/-- Two objects with the same digits are equal. -/
theorem ext_dig {x y : Aeu n} (h : ∀ i, i < n → dig x i = dig y i) : x = y := by
  apply Vector.ext
  intro i hi
  have := h i hi
  rw [dig_of_lt hi, dig_of_lt hi] at this
  exact BitVec.eq_of_toNat_eq this

/-- The representation is unique. -/
theorem toNat_inj {x y : Aeu n} (h : toNat x = toNat y) : x = y :=
  ext_dig (psum_inj (dig_lt x) (dig_lt y) h)

theorem toNat_inj_iff {x y : Aeu n} : toNat x = toNat y ↔ x = y := ⟨toNat_inj, fun h => by rw [h]⟩

theorem toNat_digit (x : Aeu n) (i : Nat) : toNat x / 2 ^ (32 * i) % 4294967296 = dig x i := by
  by_cases h : i < n
  · exact psum_digit (dig_lt x) h
  · rw [dig_of_ge (by omega), Nat.div_eq_of_lt]
    exact Nat.lt_of_lt_of_le (toNat_lt x) (Nat.pow_le_pow_right (by norm_num) (by omega))

theorem dig_ofNat (v i : Nat) :
    dig (ofNat n v) i = if i < n then v / 2 ^ (32 * i) % 4294967296 else 0 := by
  unfold dig ofNat
  split <;> simp

theorem psum_div_mod (v k : Nat) :
    psum (fun i => v / 2 ^ (32 * i) % 4294967296) k = v % 2 ^ (32 * k) := by
  induction k with
  | zero => simp [psum, Nat.mod_one]
  | succ k ih =>
    rw [psum, ih, pow32_succ, Nat.mod_mul, Nat.mul_comm (2 ^ (32 * k))]

theorem toNat_ofNat (v : Nat) : toNat (ofNat n v) = v % 2 ^ (32 * n) := by
  unfold toNat
  rw [← psum_div_mod]
  apply psum_congr
  intro i hi
  simp [dig_ofNat, hi]

theorem toNat_ofNat_of_lt {v : Nat} (h : v < 2 ^ (32 * n)) : toNat (ofNat n v) = v := by
  rw [toNat_ofNat, Nat.mod_eq_of_lt h]

theorem ofNat_toNat (x : Aeu n) : ofNat n (toNat x) = x :=
  toNat_inj (toNat_ofNat_of_lt (toNat_lt x))

theorem Returns.eq {e : Exec (Aeu n)} {v : Nat} (h : Returns e v) : e = .ok (ofNat n v) := by
  obtain ⟨r, hr, rfl⟩ := h; rw [hr, ofNat_toNat]

theorem Returns.lt {e : Exec (Aeu n)} {v : Nat} (h : Returns e v) : v < 2 ^ (32 * n) := by
  obtain ⟨r, _, rfl⟩ := h; exact toNat_lt r

/-- Low digits. -/
theorem toNat_mod (x : Aeu n) {k : Nat} (h : k ≤ n) : toNat x % 2 ^ (32 * k) = psum (dig x) k :=
  psum_mod (dig_lt x) h

theorem toNat_split (x : Aeu n) {k : Nat} (h : k ≤ n) :
    toNat x = psum (dig x) k + psum (fun i => dig x (i + k)) (n - k) * 2 ^ (32 * k) := by
  have := psum_add (dig x) k (n - k)
  rwa [Nat.add_sub_cancel' h] at this

/-- Sum of the digits beyond the last nonzero one. -/
theorem psum_dig_eq_of_high_zero (x : Aeu n) {k : Nat} (hk : k ≤ n) (h : ∀ i, k ≤ i → i < n → dig x i = 0) :
    psum (dig x) k = toNat x := by
  rw [toNat_split x hk, psum_zero (f := fun i => dig x (i + k))]
  · simp
  · intro i hi; exact h _ (by omega) (by omega)

/-- The object with one digit replaced. -/
theorem toNat_set {x : Aeu n} {i : Nat} {v : Block} (h : i < n) :
    toNat (x.set i v) + dig x i * 2 ^ (32 * i) = toNat x + v.toNat * 2 ^ (32 * i) := by
  have key : ∀ k, psum (dig (x.set i v)) k + (if i < k then dig x i * 2 ^ (32 * i) else 0)
      = psum (dig x) k + (if i < k then v.toNat * 2 ^ (32 * i) else 0) := by
    intro k
    induction k with
    | zero => simp [psum]
    | succ k ih =>
      rw [psum, psum, dig_set h]
      rcases Nat.lt_trichotomy i k with hik | hik | hik
      · have : i < k + 1 := by omega
        have hne : k ≠ i := by omega
        simp only [hik, this, hne, if_true, if_false] at ih ⊢
        omega
      · subst hik
        simp only [lt_irrefl, Nat.lt_succ_self, if_true, if_false] at ih ⊢
        omega
      · have h1 : ¬ i < k := by omega
        have h2 : ¬ i < k + 1 := by omega
        have hne : k ≠ i := by omega
        simp only [h1, h2, hne, if_false] at ih ⊢
        omega
  have := key n
  simpa [h, toNat] using this

end Aeu
end AesiMP
