import Verif.Lemmas.Count
import Verif.Model.Builtin

/-!
# Properties C01–C08: unsigned arithmetic

`toNat` is the represented number, `2 ^ (32 * n)` is `2^bitness`; `Returns e v` / `Sat e P`: the
execution has no undefined behaviour, terminates and yields `v` / a result satisfying `P`.
-/

namespace AesiMP
open Aeu
variable {n : Nat}

/-- C01: `a + b`, `a += b`. -/
theorem C01_add (a b : Aeu n) : Returns (add a b) ((toNat a + toNat b) % 2 ^ (32 * n)) :=
  add_spec a b

-- carries through every block and wraps
example : add (ofNat 3 (2 ^ 96 - 1)) (ofNat 3 2) = .ok (ofNat 3 1) := by decide +kernel
example : add (ofNat 3 (2 ^ 64 - 1)) (ofNat 3 2) = .ok (ofNat 3 (2 ^ 64 + 1)) := by decide +kernel

/-- C02: `a - b`, `a -= b`. -/
theorem C02_sub (a b : Aeu n) : Sat (sub a b) fun r =>
    (toNat r : Int) = ((toNat a : Int) - toNat b) % (2 : Int) ^ (32 * n) := by
  refine Sat.mono (sub_int a b) fun r h => ?_
  have h2 : (toNat r : Int) % (2 : Int) ^ (32 * n) = toNat r :=
    Int.emod_eq_of_lt (by omega) (by exact_mod_cast toNat_lt r)
  rw [← h2]; exact h

/-- C02: `-a`. -/
theorem C02_neg (a : Aeu n) : Sat (neg a) fun r =>
    (toNat r : Int) = (-(toNat a : Int)) % (2 : Int) ^ (32 * n) := by
  obtain ⟨r, hr, e⟩ := neg_spec a
  refine ⟨r, hr, ?_⟩
  simp only
  rw [e, Int.natCast_mod, Nat.cast_sub (le_of_lt (toNat_lt a))]
  push_cast
  rw [Int.sub_eq_add_neg, Int.add_emod_left]

example : sub (ofNat 3 5) (ofNat 3 7) = .ok (ofNat 3 (2 ^ 96 - 2)) := by decide +kernel
example : neg (ofNat 2 0) = .ok (ofNat 2 0) := by decide +kernel

/-- C03: `a * b`, `a *= b`. -/
theorem C03_mul (a b : Aeu n) : Returns (mul a b) (toNat a * toNat b % 2 ^ (32 * n)) :=
  mul_spec a b

example : mul (ofNat 3 (2 ^ 96 - 1)) (ofNat 3 (2 ^ 64 - 1)) =
    .ok (ofNat 3 ((2 ^ 96 - 1) * (2 ^ 64 - 1))) := by decide +kernel

/-- C04: `a *= f` for `f` of type `uint64_t`. -/
theorem C04_mul_uint64 (a : Aeu n) (f : BitVec 64) :
    Returns (mulU64 a f) (toNat a * f.toNat % 2 ^ (32 * n)) := mulU64_spec a f

/-- C04: `a *= f` for a built-in unsigned type of at most 32 bits. -/
theorem C04_mul_narrow {w : Nat} (hw : w ≤ 32) (a : Aeu n) (f : BitVec w) :
    Returns (mulNarrow a f) (toNat a * f.toNat % 2 ^ (32 * n)) :=
  mulNarrow_spec a f (Nat.le_of_lt (Nat.lt_of_lt_of_le f.isLt
    (Nat.le_trans (Nat.pow_le_pow_right (by norm_num) hw) (by norm_num))))

/-- C04, partial: an `unsigned long long` factor is handled exactly when that type is `uint64_t`;
where it is a distinct type (LP64 Linux) only factors up to `2^32` are.
Missing: larger factors there, see `C04_ull_counterexample`. -/
theorem C04_mul_ull_partial (cfg : Cfg) (a : Aeu n) (f : BitVec 64)
    (h : cfg.u64IsULL = true ∨ f.toNat ≤ 2 ^ 32) :
    Returns (mulULL cfg a f) (toNat a * f.toNat % 2 ^ (32 * n)) := by
  unfold mulULL
  cases hc : cfg.u64IsULL
  · exact mulNarrow_spec a f (h.resolve_left (by simp [hc]))
  · exact mulU64_spec a f

example : mulNarrow (ofNat 3 (2 ^ 96 - 1)) (0xff#8) = .ok (ofNat 3 ((2 ^ 96 - 1) * 255)) := by
  decide +kernel
example : mulU64 (ofNat 3 (2 ^ 96 - 1)) (0xfedcba9876543210#64) =
    .ok (ofNat 3 ((2 ^ 96 - 1) * 0xfedcba9876543210)) := by decide +kernel

/-- C04 is false as stated: on LP64 Linux `Aeu<128>(0xffffffff) *= 0xffff'ffff'ffff'ffffull` is
wrong, because the 64-bit partial product wraps. -/
theorem C04_ull_counterexample :
    ∃ (a : Aeu 4) (f : BitVec 64),
      ¬ Returns (mulULL ⟨false, false, false⟩ a f) (toNat a * f.toNat % 2 ^ (32 * 4)) := by
  refine ⟨ofNat 4 0xffffffff, 0xffffffffffffffff#64, fun h => ?_⟩
  have h1 := h.eq
  revert h1
  decide +kernel

/-- C05, partial: `a += u` for a built-in unsigned type of `w` bits.  Missing: 64-bit addends above
`2^64 - 2^32`, see `C05_counterexample`. -/
theorem C05_add_builtin_partial {w : Nat} (hw0 : 0 < w) (hw : w ≤ 64) (a : Aeu n) (u : BitVec w)
    (hu : u.toNat ≤ 2 ^ 64 - 2 ^ 32) :
    Returns (addBuiltin a u) ((toNat a + u.toNat) % 2 ^ (32 * n)) := addBuiltin_spec hw0 hw a u hu

/-- C05 for every built-in unsigned type of at most 32 bits. -/
theorem C05_add_builtin_narrow {w : Nat} (hw0 : 0 < w) (hw : w ≤ 32) (a : Aeu n) (u : BitVec w) :
    Returns (addBuiltin a u) ((toNat a + u.toNat) % 2 ^ (32 * n)) :=
  addBuiltin_spec hw0 (by omega) a u (Nat.le_trans (Nat.le_of_lt u.isLt)
    (Nat.le_trans (Nat.pow_le_pow_right (by norm_num) hw) (by norm_num)))

example : addBuiltin (ofNat 3 (2 ^ 64 - 1)) (0xffff#16) = .ok (ofNat 3 (2 ^ 64 + 0xfffe)) := by
  decide +kernel
example : (0xffffffff00000000#64).toNat ≤ 2 ^ 64 - 2 ^ 32 := by decide +kernel

/-- C05 is false as stated: `Aeu<96>(1) += UINT64_MAX` gives 0. -/
theorem C05_counterexample : ∃ (a : Aeu 3) (u : BitVec 64),
    toNat a = 1 ∧ Returns (addBuiltin a u) 0 ∧ (toNat a + u.toNat) % 2 ^ (32 * 3) ≠ 0 := by
  refine ⟨ofNat 3 1, 0xffffffffffffffff#64, by decide +kernel, ⟨ofNat 3 0, ?_, ?_⟩, ?_⟩ <;>
    decide +kernel

/-- C06: `divide`. -/
theorem C06_divide (cfg : Cfg) (hn : 0 < n) (a b : Aeu n) (hb : toNat b ≠ 0) :
    Sat (divide cfg a b) fun (q, r) =>
      toNat a = toNat q * toNat b + toNat r ∧ toNat r < toNat b := by
  refine Sat.mono (divide_spec cfg hn a b hb) ?_
  rintro ⟨q, r⟩ ⟨h1, h2⟩
  simp only at h1 h2 ⊢
  rw [h1, h2]
  exact ⟨by rw [Nat.mul_comm]; exact (Nat.div_add_mod _ _).symm, Nat.mod_lt _ (by omega)⟩

/-- C06: `a / b`, `a /= b`. -/
theorem C06_div (cfg : Cfg) (hn : 0 < n) (a b : Aeu n) (hb : toNat b ≠ 0) :
    Returns (div cfg a b) (toNat a / toNat b) := div_spec cfg hn a b hb

/-- C06: `a % b`, `a %= b`. -/
theorem C06_mod (cfg : Cfg) (hn : 0 < n) (a b : Aeu n) (hb : toNat b ≠ 0) :
    Returns (mod cfg a b) (toNat a % toNat b) := mod_spec cfg hn a b hb

-- divisor with the top bit set, dividend larger
example : divide ⟨false, false, false⟩ (ofNat 2 (2 ^ 64 - 1)) (ofNat 2 (2 ^ 63 + 5)) =
    .ok (ofNat 2 1, ofNat 2 (2 ^ 63 - 6)) := by decide +kernel
example : toNat (ofNat 2 (2 ^ 63 + 5)) ≠ 0 := by decide +kernel

/-- C07: division of a nonzero number by zero: the remainder is the number and the quotient is the
all-ones pattern over the blocks the number occupies. -/
theorem C07_divide_by_zero (cfg : Cfg) (hn : 0 < n) (a b : Aeu n) (hb : toNat b = 0)
    (ha : toNat a ≠ 0) : Sat (divide cfg a b) fun (q, r) => toNat r = toNat a ∧
      ∃ k, 0 < k ∧ 2 ^ (32 * (k - 1)) ≤ toNat a ∧ toNat a < 2 ^ (32 * k) ∧
        toNat q = 2 ^ (32 * k) - 1 := by
  refine Sat.mono (divide_zero_pos cfg hn a b hb (by omega)) ?_
  rintro ⟨q, r⟩ ⟨⟨k, hk, hq⟩, hr⟩
  obtain ⟨k', hk', h1, h2, h3⟩ := filledBlocksNumber_nat a
  have : k = k' := by rw [hk] at hk'; simpa using hk'
  subst this
  have hk0 : 0 < k := by
    by_contra h
    have : k = 0 := by omega
    rw [this] at h2; simp at h2; exact ha h2
  exact ⟨hr, k, hk0, h3 hk0, h2, hq⟩

/-- C07: `divide(0, 0)` gives quotient 1 and remainder 0. -/
theorem C07_divide_zero_by_zero (cfg : Cfg) (hn : 0 < n) (a b : Aeu n) (hb : toNat b = 0)
    (ha : toNat a = 0) : Sat (divide cfg a b) fun (q, r) => toNat q = 1 ∧ toNat r = 0 :=
  divide_zero_zero cfg hn a b hb ha

example : divide ⟨false, false, false⟩ (ofNat 3 (2 ^ 40)) (ofNat 3 0) =
    .ok (ofNat 3 (2 ^ 64 - 1), ofNat 3 (2 ^ 40)) := by decide +kernel

/-- C08: `++a`. -/
theorem C08_inc (a : Aeu n) : Returns (inc a) ((toNat a + 1) % 2 ^ (32 * n)) := inc_spec a

/-- C08: `--a`. -/
theorem C08_dec (a : Aeu n) : Sat (dec a) fun r =>
    (toNat r : Int) = ((toNat a : Int) - 1) % (2 : Int) ^ (32 * n) := by
  obtain ⟨r, hr, e⟩ := dec_spec a
  refine ⟨r, hr, ?_⟩
  simp only
  rw [e, Int.natCast_mod]
  push_cast [Nat.one_le_two_pow]
  rw [show (toNat a : Int) + ((2 : Int) ^ (32 * n) - 1) = (toNat a - 1) + (2 : Int) ^ (32 * n) by ring,
    Int.add_emod_right]

/-- C08: `a++` yields the old value and leaves the incremented one. -/
theorem C08_postInc (a : Aeu n) : Sat (postInc a) fun (new, returned) =>
    toNat new = (toNat a + 1) % 2 ^ (32 * n) ∧ returned = a := by
  obtain ⟨r, hr, e⟩ := inc_spec a
  simp [postInc, hr, e]

/-- C08: `a--`. -/
theorem C08_postDec (a : Aeu n) : Sat (postDec a) fun (new, returned) =>
    (toNat new : Int) = ((toNat a : Int) - 1) % (2 : Int) ^ (32 * n) ∧ returned = a := by
  obtain ⟨r, hr, e⟩ := C08_dec a
  simp only [postDec, hr, ok_bind, sat_ok]
  exact ⟨e, trivial⟩

example : inc (ofNat 3 (2 ^ 64 - 1)) = .ok (ofNat 3 (2 ^ 64)) := by decide +kernel
example : dec (ofNat 3 0) = .ok (ofNat 3 (2 ^ 96 - 1)) := by decide +kernel

end AesiMP
