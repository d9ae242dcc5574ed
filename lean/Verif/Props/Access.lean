import Verif.Lemmas.Count
import Verif.Model.Builtin
import Mathlib.Data.Nat.Log

/-!
# Properties C09–C22: bitwise operators, shifts, element access, observers, comparison, casts
-/

namespace AesiMP
open Aeu
variable {n m : Nat}

/-! ### C09 -/

/-- C09: `~a`, bit by bit. -/
theorem C09_not (a : Aeu n) : Sat (Aeu.not a) fun r =>
    ∀ i, i < 32 * n → (toNat r).testBit i = !(toNat a).testBit i := by
  obtain ⟨r, hr, e⟩ := not_spec a
  refine ⟨r, hr, fun i hi => ?_⟩
  rw [e, Nat.sub_sub, Nat.add_comm 1, Nat.testBit_two_pow_sub_succ (toNat_lt a)]
  simp [hi]

/-- C09: `~a`, numerically. -/
theorem C09_not_value (a : Aeu n) : Returns (Aeu.not a) (2 ^ (32 * n) - 1 - toNat a) := not_spec a

/-- C09: `a & b`. -/
theorem C09_and (a b : Aeu n) : Returns (Aeu.and a b) (toNat a &&& toNat b) := and_spec a b
/-- C09: `a | b`. -/
theorem C09_or (a b : Aeu n) : Returns (Aeu.or a b) (toNat a ||| toNat b) := or_spec a b
/-- C09: `a ^ b`. -/
theorem C09_xor (a b : Aeu n) : Returns (Aeu.xor a b) (toNat a ^^^ toNat b) := xor_spec a b

/-- C09: `&`, `|`, `^` bit by bit. -/
theorem C09_bits (a b : Aeu n) :
    (Sat (Aeu.and a b) fun r => ∀ i, (toNat r).testBit i = ((toNat a).testBit i && (toNat b).testBit i)) ∧
    (Sat (Aeu.or a b) fun r => ∀ i, (toNat r).testBit i = ((toNat a).testBit i || (toNat b).testBit i)) ∧
    (Sat (Aeu.xor a b) fun r =>
      ∀ i, (toNat r).testBit i = ((toNat a).testBit i ^^ (toNat b).testBit i)) := by
  refine ⟨?_, ?_, ?_⟩
  · obtain ⟨r, hr, e⟩ := and_spec a b
    exact ⟨r, hr, fun i => by rw [e, Nat.testBit_and]⟩
  · obtain ⟨r, hr, e⟩ := or_spec a b
    exact ⟨r, hr, fun i => by rw [e, Nat.testBit_or]⟩
  · obtain ⟨r, hr, e⟩ := xor_spec a b
    exact ⟨r, hr, fun i => by rw [e, Nat.testBit_xor]⟩

example : Aeu.xor (ofNat 2 0x123456789abcdef0) (ofNat 2 0xffff0000ffff0000) =
    .ok (ofNat 2 (0x123456789abcdef0 ^^^ 0xffff0000ffff0000)) := by decide +kernel

/-! ### C10, C11 -/

/-- C10: `a << s` for `s < bitness`. -/
theorem C10_shl (a : Aeu n) (s : Nat) (hs : s < 32 * n) :
    Returns (shl a s) (toNat a * 2 ^ s % 2 ^ (32 * n)) := shl_spec hs

/-- C10: a shift by `bitness` or more (or by 0) changes nothing. -/
theorem C10_shl_noop (a : Aeu n) (s : Nat) (hs : 32 * n ≤ s ∨ s = 0) : shl a s = .ok a := by
  have : s ≥ 32 * n ∨ s = 0 := hs
  simp [shl, this]

/-- C11: `a >> s` for `s < bitness`. -/
theorem C11_shr (a : Aeu n) (s : Nat) (hs : s < 32 * n) :
    Returns (shr a s) (toNat a / 2 ^ s) := shr_spec hs

/-- C11: a shift by `bitness` or more (or by 0) changes nothing. -/
theorem C11_shr_noop (a : Aeu n) (s : Nat) (hs : 32 * n ≤ s ∨ s = 0) : shr a s = .ok a := by
  have : s ≥ 32 * n ∨ s = 0 := hs
  simp [shr, this]

example : shl (ofNat 3 0x123456789abcdef0) 37 = .ok (ofNat 3 (0x123456789abcdef0 * 2 ^ 37)) := by
  decide +kernel
example : shl (ofNat 3 0x123456789abcdef0) 64 = .ok (ofNat 3 (0x123456789abcdef0 * 2 ^ 64)) := by
  decide +kernel
example : shr (ofNat 3 0x123456789abcdef0123) 33 = .ok (ofNat 3 (0x123456789abcdef0123 / 2 ^ 33)) := by
  decide +kernel
example : (37 : Nat) < 32 * 3 := by decide

/-! ### C12 -/

/-- C12: `getBit(i)` is the `i`-th binary digit. -/
theorem C12_getBit (cfg : Cfg) (a : Aeu n) (i : Nat) (hi : i < 32 * n) :
    getBit cfg a i = .ok ((toNat a).testBit i) := getBit_spec cfg a hi

/-- C12: `setBit(i, v)` sets exactly bit `i`. -/
theorem C12_setBit (cfg : Cfg) (a : Aeu n) (i : Nat) (v : Bool) (hi : i < 32 * n) :
    Sat (setBit cfg a i v) fun r => ∀ j, j < 32 * n →
      getBit cfg r j = if j = i then .ok v else getBit cfg a j := by
  refine Sat.mono (setBit_sat cfg a v hi) fun r h j hj => ?_
  rw [getBit_spec cfg r hj, getBit_spec cfg a hj, h j]
  split <;> rfl

/-- C12: outside the number (checked build) `getBit` is `false` and `setBit` does nothing. -/
theorem C12_out_of_range (cfg : Cfg) (hs : cfg.unsafeMode = false) (a : Aeu n) (i : Nat) (v : Bool)
    (hi : 32 * n ≤ i) : getBit cfg a i = .ok false ∧ setBit cfg a i v = .ok a :=
  ⟨getBit_ge cfg hs a hi, setBit_ge cfg hs a v hi⟩

/-- C12: the `AESI_UNSAFE` build drops the check: an index outside the number is a failed assertion
or an out-of-bounds access. -/
theorem C12_unsafe_out_of_range (cfg : Cfg) (hs : cfg.unsafeMode = true) (a : Aeu n) (i : Nat)
    (v : Bool) (hi : 32 * n ≤ i) :
    getBit cfg a i = .error (if cfg.ndebug then .outOfBounds else .assertFailed) ∧
    setBit cfg a i v = .error (if cfg.ndebug then .outOfBounds else .assertFailed) := by
  have h1 : ¬ i / 32 < n := by omega
  have hj : i % 32 < 32 := Nat.mod_lt _ (by norm_num)
  constructor
  · unfold getBit
    simp only [hs, Bool.not_true, Bool.false_eq_true, false_and, if_false, h1, decide_false, cassert,
      Bool.or_false, shl32_ok hj, rd_oob h1]
    cases cfg.ndebug <;> rfl
  · unfold setBit
    simp only [hs, Bool.not_true, Bool.false_eq_true, false_and, if_false, h1, decide_false, cassert,
      Bool.or_false, shl32_ok hj, rd_oob h1]
    cases cfg.ndebug <;> rfl

example : setBit ⟨false, false, false⟩ (ofNat 2 0xff) 40 true = .ok (ofNat 2 (0xff + 2 ^ 40)) := by
  decide +kernel

/-! ### C13 -/

/-- C13: `getByte(i)` is the `i`-th base-256 digit. -/
theorem C13_getByte (cfg : Cfg) (a : Aeu n) (i : Nat) (hi : i < 4 * n) :
    Sat (getByte cfg a i) fun b => b.toNat = toNat a / 256 ^ i % 256 := getByte_spec cfg a hi

/-- C13: `setByte(i, v)` sets exactly byte `i`. -/
theorem C13_setByte (cfg : Cfg) (a : Aeu n) (i : Nat) (v : BitVec 8) (hi : i < 4 * n) :
    Sat (setByte cfg a i v) fun r => ∀ j, j < 4 * n →
      getByte cfg r j = if j = i then .ok v else getByte cfg a j := by
  refine Sat.mono (setByte_spec cfg a v hi) fun r h j hj => ?_
  obtain ⟨b, hb, eb⟩ := getByte_spec cfg r hj
  obtain ⟨c, hc, ec⟩ := getByte_spec cfg a hj
  rw [h j] at eb
  rw [hb, hc]
  split at eb
  · rename_i hji; simp only [hji, if_true]; rw [BitVec.eq_of_toNat_eq eb]
  · rename_i hji; simp only [hji, if_false]; rw [BitVec.eq_of_toNat_eq (eb.trans ec.symm)]

/-- C13, partial: beyond the last byte by at least two, `setByte` does nothing and `getByte` is 0.
Missing: the index equal to the number of bytes, see `C13_boundary_counterexample`. -/
theorem C13_out_of_range_partial (cfg : Cfg) (hs : cfg.unsafeMode = false) (a : Aeu n) (i : Nat)
    (v : BitVec 8) (hi : 4 * n < i) : getByte cfg a i = .ok 0#8 ∧ setByte cfg a i v = .ok a := by
  have : i > n * 4 := by omega
  simp [getByte, setByte, hs, this]

/-- C13 is false at the boundary, for every object and in every build: with the index equal to the
number of bytes the check lets the call through to a failed assertion or an out-of-bounds access. -/
theorem C13_boundary_counterexample (cfg : Cfg) (a : Aeu n) (v : BitVec 8) :
    getByte cfg a (4 * n) = .error (if cfg.ndebug then .outOfBounds else .assertFailed) ∧
    setByte cfg a (4 * n) v = .error (if cfg.ndebug then .outOfBounds else .assertFailed) := by
  have h0 : ¬ 4 * n > n * 4 := by omega
  have h1 : ¬ 4 * n / 4 < n := by omega
  have h2 : 4 * n % 4 = 0 := by omega
  constructor
  · unfold getByte
    simp only [h0, and_false, if_false, h1, false_and, decide_false, cassert, Bool.or_false, h2,
      Nat.zero_mul, shl32_ok (show 0 < 32 by norm_num), rd_oob h1]
    cases cfg.ndebug <;> rfl
  · unfold setByte
    simp only [h0, and_false, if_false, h1, false_and, decide_false, cassert, Bool.or_false, h2,
      Nat.zero_mul, shl32_ok (show 0 < 32 by norm_num), rd_oob h1]
    cases cfg.ndebug <;> rfl

example : setByte ⟨false, false, false⟩ (ofNat 2 0x1122334455667788) 5 0xab#8 =
    .ok (ofNat 2 0x1122ab4455667788) := by decide +kernel

/-! ### C14 -/

/-- C14: `getBlock(i)` is the `i`-th base-`2^32` digit. -/
theorem C14_getBlock (cfg : Cfg) (a : Aeu n) (i : Nat) (hi : i < n) :
    Sat (getBlock cfg a i) fun b => b.toNat = toNat a / 2 ^ (32 * i) % 2 ^ 32 := by
  rw [getBlock_spec cfg a hi]
  refine Sat.ok ?_
  rw [← dig_of_lt hi, ← toNat_digit]
  rfl

/-- C14: `setBlock(i, w)` sets exactly block `i`. -/
theorem C14_setBlock (cfg : Cfg) (a : Aeu n) (i : Nat) (w : Block) (hi : i < n) :
    Sat (setBlock cfg a i w) fun r => ∀ j, j < n →
      getBlock cfg r j = if j = i then .ok w else getBlock cfg a j := by
  rw [setBlock_spec cfg a w hi]
  refine Sat.ok fun j hj => ?_
  rw [getBlock_spec cfg _ hj, getBlock_spec cfg _ hj]
  split
  · rename_i h; subst h; simp
  · rename_i h; rw [Vector.getElem_set_ne _ _ (fun h' => h h'.symm)]

/-- C14: outside the number (checked build). -/
theorem C14_out_of_range (cfg : Cfg) (hs : cfg.unsafeMode = false) (a : Aeu n) (i : Nat) (w : Block)
    (hi : n ≤ i) : getBlock cfg a i = .ok 0#32 ∧ setBlock cfg a i w = .ok a :=
  ⟨getBlock_ge cfg hs a hi, setBlock_ge cfg hs a w hi⟩

/-! ### C15 -/

theorem count_unique {b v k : Nat} (hb : 1 < b) (h1 : v < b ^ k) (h2 : 0 < k → b ^ (k - 1) ≤ v) :
    k = if v = 0 then 0 else Nat.log b v + 1 := by
  split
  · rename_i h0
    by_contra hk
    have := h2 (by omega)
    have hp : 0 < b ^ (k - 1) := Nat.pow_pos (by omega)
    omega
  · rename_i h0
    have hk : 0 < k := by
      by_contra hk
      have : k = 0 := by omega
      rw [this] at h1; simp at h1; omega
    have := Nat.log_eq_of_pow_le_of_lt_pow (h2 hk) (by rwa [Nat.sub_add_cancel hk])
    omega

/-- C15: `bitCount()` is the number of binary digits. -/
theorem C15_bitCount (hn : 0 < n) (a : Aeu n) :
    bitCount a = .ok (if toNat a = 0 then 0 else Nat.log 2 (toNat a) + 1) := by
  obtain ⟨k, hk, h1, h2⟩ := bitCount_spec hn a
  rw [hk, count_unique (by norm_num) h1 h2]

/-- C15: `byteCount()` is the number of base-256 digits. -/
theorem C15_byteCount (hn : 0 < n) (a : Aeu n) :
    byteCount a = .ok (if toNat a = 0 then 0 else Nat.log 256 (toNat a) + 1) := by
  obtain ⟨k, hk, h1, h2⟩ := byteCount_spec hn a
  rw [hk, count_unique (by norm_num) h1 h2]

/-- C15: `filledBlocksNumber()` is the number of base-`2^32` digits. -/
theorem C15_filledBlocksNumber (a : Aeu n) :
    filledBlocksNumber a = .ok (if toNat a = 0 then 0 else Nat.log (2 ^ 32) (toNat a) + 1) := by
  obtain ⟨k, hk, _, h1, h2⟩ := filledBlocksNumber_nat a
  rw [hk, count_unique (b := 2 ^ 32) (v := toNat a) (k := k) (by norm_num)
    (by rw [← Nat.pow_mul]; exact h1) (by intro h; rw [← Nat.pow_mul]; exact h2 h)]

/-- C15: `isZero()`, `isOdd()`, `isEven()`. -/
theorem C15_zero_parity (hn : 0 < n) (a : Aeu n) :
    isZero a = .ok (decide (toNat a = 0)) ∧ isOdd a = .ok (decide (toNat a % 2 = 1)) ∧
    isEven a = .ok (decide (toNat a % 2 = 0)) :=
  ⟨isZero_spec a, isOdd_spec hn a, isEven_spec hn a⟩

example : bitCount (ofNat 3 (2 ^ 70 + 1)) = .ok 71 := by decide +kernel
example : byteCount (ofNat 3 (2 ^ 70 + 1)) = .ok 9 := by decide +kernel

/-! ### C16 -/

/-- C16: all comparison operators between numbers of the same precision are the numeric ones. -/
theorem C16_compare (cfg : Cfg) (a b : Aeu n) :
    eq cfg a b = .ok (decide (toNat a = toNat b)) ∧
    ne cfg a b = .ok (decide (toNat a ≠ toNat b)) ∧
    lt cfg a b = .ok (decide (toNat a < toNat b)) ∧
    le cfg a b = .ok (decide (toNat a ≤ toNat b)) ∧
    gt cfg a b = .ok (decide (toNat a > toNat b)) ∧
    ge cfg a b = .ok (decide (toNat a ≥ toNat b)) := by
  refine ⟨eq_spec cfg a b, ?_, lt_spec cfg a b, le_spec cfg a b, gt_spec cfg a b, ge_spec cfg a b⟩
  simp [ne, eq_spec]

/-- C16: `compareTo` and `<=>`; `equivalent` is never returned. -/
theorem C16_compareTo (cfg : Cfg) (a b : Aeu n) :
    (compareTo cfg a b = .ok .less ↔ toNat a < toNat b) ∧
    (compareTo cfg a b = .ok .equal ↔ toNat a = toNat b) ∧
    (compareTo cfg a b = .ok .greater ↔ toNat a > toNat b) ∧
    compareTo cfg a b ≠ .ok .equivalent ∧
    (spaceship cfg a b = .ok .less ↔ toNat a < toNat b) ∧
    (spaceship cfg a b = .ok .equal ↔ toNat a = toNat b) ∧
    (spaceship cfg a b = .ok .greater ↔ toNat a > toNat b) := by
  simp only [spaceship, compareTo_spec, ok_bind, cmpNat, Except.ok.injEq]
  rcases Nat.lt_trichotomy (toNat a) (toNat b) with h | h | h
  · have h2 : ¬ toNat a = toNat b := by omega
    have h3 : ¬ toNat a > toNat b := by omega
    simp [h, h2, toOrdering]; omega
  · simp [h, toOrdering]
  · have h2 : ¬ toNat a = toNat b := by omega
    have h3 : ¬ toNat a < toNat b := by omega
    simp [h, h2, h3, toOrdering]

/-! ### C17 -/

/-- C17: comparison with a built-in value of at most 32 bits. -/
theorem C17_compare_narrow (hn : 0 < n) {w : Nat} (hw : w ≤ 32) (a : Aeu n) (u : BitVec w) :
    eqNarrow a u = .ok (decide (toNat a = u.toNat)) ∧
    (compareToNarrow a u = .ok .less ↔ toNat a < u.toNat) ∧
    (compareToNarrow a u = .ok .equal ↔ toNat a = u.toNat) ∧
    (compareToNarrow a u = .ok .greater ↔ toNat a > u.toNat) ∧
    (spaceshipNarrow a u = .ok .less ↔ toNat a < u.toNat) ∧
    (spaceshipNarrow a u = .ok .equal ↔ toNat a = u.toNat) ∧
    (spaceshipNarrow a u = .ok .greater ↔ toNat a > u.toNat) := by
  refine ⟨eqNarrow_spec hn hw a u, ?_⟩
  simp only [spaceshipNarrow, compareToNarrow_spec hn hw, ok_bind, cmpNat, Except.ok.injEq]
  rcases Nat.lt_trichotomy (toNat a) u.toNat with h | h | h
  · have h2 : ¬ toNat a = u.toNat := by omega
    have h3 : ¬ toNat a > u.toNat := by omega
    simp [h, h2, toOrdering]; omega
  · simp [h, toOrdering]
  · have h2 : ¬ toNat a = u.toNat := by omega
    have h3 : ¬ toNat a < u.toNat := by omega
    simp [h, h2, h3, toOrdering]

/-- C17, partial: comparison with a `uint64_t`, for bitness of at least 64.
Missing: bitness 32, see `C17_one_block_counterexample`. -/
theorem C17_compare_u64_partial (hn : 2 ≤ n) (a : Aeu n) (u : BitVec 64) :
    eqU64 a u = .ok (decide (toNat a = u.toNat)) ∧
    (compareToU64 a u = .ok .less ↔ toNat a < u.toNat) ∧
    (compareToU64 a u = .ok .equal ↔ toNat a = u.toNat) ∧
    (compareToU64 a u = .ok .greater ↔ toNat a > u.toNat) ∧
    (spaceshipU64 a u = .ok .less ↔ toNat a < u.toNat) ∧
    (spaceshipU64 a u = .ok .equal ↔ toNat a = u.toNat) ∧
    (spaceshipU64 a u = .ok .greater ↔ toNat a > u.toNat) := by
  refine ⟨eqU64_spec hn a u, ?_⟩
  simp only [spaceshipU64, compareToU64_spec hn, ok_bind, cmpNat, Except.ok.injEq]
  rcases Nat.lt_trichotomy (toNat a) u.toNat with h | h | h
  · have h2 : ¬ toNat a = u.toNat := by omega
    have h3 : ¬ toNat a > u.toNat := by omega
    simp [h, h2, toOrdering]; omega
  · simp [h, toOrdering]
  · have h2 : ¬ toNat a = u.toNat := by omega
    have h3 : ¬ toNat a < u.toNat := by omega
    simp [h, h2, h3, toOrdering]

/-- C17 is false for `Aeu<32>` (accepted: the `static_assert` compares bits with `sizeof`): every
64-bit comparison reads the block after the last one. -/
theorem C17_one_block_counterexample (a : Aeu 1) (u : BitVec 64) :
    eqU64 a u = .error .outOfBounds ∧ compareToU64 a u = .error .outOfBounds := by
  obtain ⟨k, hk, h1, _, _⟩ := filledBlocksNumber_nat a
  have h2 : k ≤ 2 := by omega
  have h3 : ¬ k > 2 := by omega
  simp [eqU64, compareToU64, hk, h2, h3, low64_one_block]

example : compareToU64 (ofNat 4 (2 ^ 63)) (0x8000000000000001#64) = .ok .less := by decide +kernel

/-! ### C18, C19 -/

/-- C18: equality across precisions is numeric. -/
theorem C18_eq_across (cfg : Cfg) (a : Aeu n) (b : Aeu m) :
    eq cfg a b = .ok (decide (toNat a = toNat b)) := by
  simp only [eq, compareTo_general, ok_bind]
  congr 1
  rw [Bool.eq_iff_iff]
  simp only [beq_iff_eq, decide_eq_true_eq]
  by_cases h : toNat a = toNat b
  · rw [h]; simp [cmpNat]
  · simp only [h, iff_false]
    rcases hc : cmpNat (toNat a % 2 ^ (32 * min n m)) (toNat b % 2 ^ (32 * min n m)) with _ | _ | _ | _
    all_goals simp only [reduceCtorEq, not_false_eq_true]
    unfold cmpNat; split <;> simp

/-- C19, partial: ordering across precisions agrees with the numeric order when both numbers fit
the smaller precision (or agree on its digits).  Missing: the rest, see `C19_counterexample`. -/
theorem C19_order_across_partial (cfg : Cfg) (a : Aeu n) (b : Aeu m)
    (ha : toNat a < 2 ^ (32 * min n m)) (hb : toNat b < 2 ^ (32 * min n m)) :
    (compareTo cfg a b = .ok .less ↔ toNat a < toNat b) ∧
    (compareTo cfg a b = .ok .equal ↔ toNat a = toNat b) ∧
    (compareTo cfg a b = .ok .greater ↔ toNat a > toNat b) := by
  rw [compareTo_general, Nat.mod_eq_of_lt ha, Nat.mod_eq_of_lt hb]
  simp only [cmpNat, Except.ok.injEq]
  rcases Nat.lt_trichotomy (toNat a) (toNat b) with h | h | h
  · have h2 : ¬ toNat a = toNat b := by omega
    have h3 : ¬ toNat a > toNat b := by omega
    simp [h, h2]; omega
  · simp [h]
  · have h2 : ¬ toNat a = toNat b := by omega
    have h3 : ¬ toNat a < toNat b := by omega
    simp [h, h2, h3]

/-- What the code computes for operands of any precisions: the order of the low parts decides. -/
theorem C19_order_across_exact (cfg : Cfg) (a : Aeu n) (b : Aeu m) :
    (compareTo cfg a b = .ok .less ↔
      toNat a % 2 ^ (32 * min n m) < toNat b % 2 ^ (32 * min n m) ∨
      (toNat a % 2 ^ (32 * min n m) = toNat b % 2 ^ (32 * min n m) ∧ toNat a < toNat b)) ∧
    (compareTo cfg a b = .ok .greater ↔
      toNat a % 2 ^ (32 * min n m) > toNat b % 2 ^ (32 * min n m) ∨
      (toNat a % 2 ^ (32 * min n m) = toNat b % 2 ^ (32 * min n m) ∧ toNat a > toNat b)) := by
  rw [compareTo_general]
  generalize toNat a % 2 ^ (32 * min n m) = x
  generalize toNat b % 2 ^ (32 * min n m) = y
  simp only [Except.ok.injEq]
  rcases Nat.lt_trichotomy x y with h | h | h
  · have h2 : ¬ x = y := by omega
    have h3 : ¬ x > y := by omega
    simp [cmpNat, h, h2]; omega
  · subst h
    simp only [cmpNat, lt_irrefl, if_false, if_true, false_or, true_and, gt_iff_lt]
    rcases Nat.lt_trichotomy (toNat a) (toNat b) with h | h | h
    · simp [h]; omega
    · simp [h]
    · have h2 : ¬ toNat a = toNat b := by omega
      have h3 : ¬ toNat a < toNat b := by omega
      simp [h, h2, h3]
  · have h2 : ¬ x = y := by omega
    have h3 : ¬ x < y := by omega
    simp [cmpNat, h, h2, h3]

/-- C19 is false: `Aeu<64>(5)` compares greater than `Aeu<128>(2^100 + 3)`. -/
theorem C19_counterexample (cfg : Cfg) : ∃ (a : Aeu 2) (b : Aeu 4),
    toNat a < toNat b ∧ compareTo cfg a b = .ok .greater := by
  have h1 : toNat (ofNat 2 5) = 5 := by decide +kernel
  have h2 : toNat (ofNat 4 (2 ^ 100 + 3)) = 2 ^ 100 + 3 := by decide +kernel
  refine ⟨ofNat 2 5, ofNat 4 (2 ^ 100 + 3), by rw [h1, h2]; norm_num, ?_⟩
  rw [compareTo_general, h1, h2]
  decide +kernel

example : (5 : Nat) < 2 ^ (32 * min 2 4) ∧ toNat (ofNat 2 5) = 5 := by decide +kernel

/-! ### C20 -/

/-- C20: `precisionCast<M>()` is reduction modulo `2^M`. -/
theorem C20_precisionCast (cfg : Cfg) (a : Aeu n) :
    Returns (precisionCast cfg m a) (toNat a % 2 ^ (32 * m)) := precisionCast_spec cfg a

/-- C20: widening is lossless, and narrowing back gives the same object. -/
theorem C20_widen_narrow (cfg : Cfg) (a : Aeu n) (h : n ≤ m) :
    Sat (precisionCast cfg m a) fun b => toNat b = toNat a ∧ precisionCast cfg n b = .ok a := by
  refine Sat.mono (precisionCast_spec (m := m) cfg a) fun b hb => ?_
  have hlt : toNat a < 2 ^ (32 * m) :=
    Nat.lt_of_lt_of_le (toNat_lt a) (Nat.pow_le_pow_right (by norm_num) (by omega))
  rw [Nat.mod_eq_of_lt hlt] at hb
  refine ⟨hb, ?_⟩
  obtain ⟨c, hc, ec⟩ := precisionCast_spec (m := n) cfg b
  rw [hb, Nat.mod_eq_of_lt (toNat_lt a)] at ec
  rw [hc, toNat_inj ec]

example : precisionCast ⟨false, false, false⟩ 2 (ofNat 4 (2 ^ 100 + 7)) = .ok (ofNat 2 7) := by
  decide +kernel

/-! ### C21, C22 -/

/-- C21, partial: `integralCast<T>()` converts the low 64 bits to `T`, for bitness of at least 64.
Missing: bitness 32, see `C21_one_block_counterexample`. -/
theorem C21_integralCast_partial (hn : 2 ≤ n) (t : ITy) (a : Aeu n) :
    integralCast t a = .ok (t.conv ((toNat a % 2 ^ 64 : Nat) : Int)) := by
  obtain ⟨v, hv, e⟩ := low64_spec (show 1 < n by omega) a
  simp [integralCast, hv, e]

/-- C21: for an unsigned `T` of `w ≤ 64` bits this is the value modulo `2^w`. -/
theorem C21_unsigned_partial (hn : 2 ≤ n) (w : Nat) (hw : w ≤ 64) (a : Aeu n) :
    integralCast ⟨w, false, false⟩ a = .ok ((toNat a % 2 ^ w : Nat) : Int) := by
  rw [C21_integralCast_partial hn]
  simp only [ITy.conv, Bool.false_eq_true, if_false]
  congr 1
  have : (2 : Nat) ^ w ∣ 2 ^ 64 := Nat.pow_dvd_pow 2 hw
  rw [← Nat.mod_mod_of_dvd (toNat a) this]
  push_cast
  rfl

/-- C21: for a signed `T` of `w ≤ 64` bits the result is congruent to the value modulo `2^w` and in
the range of `T`. -/
theorem C21_signed_partial (hn : 2 ≤ n) (w : Nat) (hw0 : 0 < w) (hw : w ≤ 64) (a : Aeu n) :
    Sat (integralCast ⟨w, true, false⟩ a) fun v =>
      -(2 : Int) ^ (w - 1) ≤ v ∧ v < (2 : Int) ^ (w - 1) ∧
      v % (2 : Int) ^ w = (toNat a : Int) % (2 : Int) ^ w := by
  rw [C21_integralCast_partial hn]
  refine Sat.ok ?_
  simp only [ITy.conv, Bool.false_eq_true, if_false, if_true]
  have hdvd : (2 : Nat) ^ w ∣ 2 ^ 64 := Nat.pow_dvd_pow 2 hw
  have e : ((toNat a % 2 ^ 64 : Nat) : Int) % (2 : Int) ^ w = (toNat a : Int) % (2 : Int) ^ w := by
    have := Nat.mod_mod_of_dvd (toNat a) hdvd
    have := congrArg (Nat.cast : Nat → Int) this
    push_cast at this ⊢; exact this
  rw [e]
  have hpos : (0 : Int) < (2 : Int) ^ w := by positivity
  have h1 := Int.emod_nonneg (toNat a : Int) (ne_of_gt hpos)
  have h2 := Int.emod_lt_of_pos (toNat a : Int) hpos
  have h3 : (2 : Int) ^ w = 2 * (2 : Int) ^ (w - 1) := by
    rw [← Int.pow_succ']; congr 1; omega
  have h4 : (0 : Int) < (2 : Int) ^ (w - 1) := by positivity
  split
  · refine ⟨by omega, by omega, ?_⟩
    exact Int.emod_emod_of_dvd _ (dvd_refl _)
  · refine ⟨by omega, by omega, ?_⟩
    rw [Int.sub_emod_right, Int.emod_emod_of_dvd _ (dvd_refl _)]

theorem ITy.converted_conv {t : ITy} (h : 0 < t.width) (z : Int) : t.Converted z (t.conv z) := by
  unfold ITy.Converted ITy.conv
  have hpos : (0 : Int) < (2 : Int) ^ t.width := by positivity
  have h1 := Int.emod_nonneg z (ne_of_gt hpos)
  have h2 := Int.emod_lt_of_pos z hpos
  have h3 : (2 : Int) ^ t.width = 2 * (2 : Int) ^ (t.width - 1) := by
    rw [← Int.pow_succ']; congr 1; omega
  have hd : (2 : Int) ^ t.width ∣ z % (2 : Int) ^ t.width - z := by
    rw [← Int.dvd_neg, neg_sub]; exact Int.dvd_self_sub_emod
  by_cases hb : t.isBool = true
  · simp only [hb, if_true, ne_eq, ite_not]
  by_cases hs : t.signed = true
  · simp only [hb, hs, if_true, Bool.false_eq_true, if_false]
    split
    · exact ⟨⟨by omega, by omega⟩, hd⟩
    · refine ⟨⟨by omega, by omega⟩, ?_⟩
      rw [sub_right_comm]
      exact Int.dvd_sub hd (dvd_refl _)
  · simp only [hb, hs, Bool.false_eq_true, if_false]
    exact ⟨⟨h1, h2⟩, hd⟩

/-- C21: for every built-in type, `bool` included, the result is the conversion of the value's low 64 bits. -/
theorem C21_converted_partial (hn : 2 ≤ n) {t : ITy} (h : 0 < t.width) (a : Aeu n) :
    Sat (integralCast t a) fun r => t.Converted ((toNat a % 2 ^ 64 : Nat) : Int) r := by
  rw [C21_integralCast_partial hn]
  exact .ok (ITy.converted_conv h _)

/-- C21: `integralCast<bool>()` is `false` exactly if the low 64 bits are zero (also when the number is not). -/
theorem C21_bool_partial (hn : 2 ≤ n) (a : Aeu n) :
    integralCast .bool a = .ok (if toNat a % 2 ^ 64 = 0 then 0 else 1) := by
  obtain ⟨r, hr, h⟩ := C21_converted_partial hn (t := .bool) (by decide) a
  rw [hr]
  simp only [ITy.Converted, ITy.bool, if_true, Nat.cast_eq_zero] at h
  rw [h]

example : integralCast .bool (ofNat 3 2) = .ok 1 ∧ integralCast .bool (ofNat 3 (2 ^ 64)) = .ok 0 := by decide +kernel

/-- C21 is false for `Aeu<32>`: the cast reads outside the object. -/
theorem C21_one_block_counterexample (t : ITy) (a : Aeu 1) :
    integralCast t a = .error .outOfBounds := by
  simp [integralCast, low64_one_block]

example : integralCast .i8 (ofNat 2 0x1ff) = .ok (-1) := by decide +kernel

/-- C22: construction from a built-in unsigned value, whatever the previous content of the storage. -/
theorem C22_construct {w : Nat} (hw : w ≤ 64) (junk : Aeu n) (u : BitVec w) :
    Returns (ofUnsignedJ junk u) (u.toNat % 2 ^ (32 * n)) := ofUnsignedJ_spec hw junk u

/-- C22: no loss for bitness of at least 64, and `integralCast` gives the value back. -/
theorem C22_construct_exact (hn : 2 ≤ n) {w : Nat} (hw : w ≤ 64) (junk : Aeu n) (u : BitVec w) :
    Sat (ofUnsignedJ junk u) fun a => toNat a = u.toNat ∧
      integralCast ⟨w, false, false⟩ a = .ok (u.toNat : Int) := by
  have h : u.toNat < 2 ^ (32 * n) :=
    Nat.lt_of_lt_of_le u.isLt (Nat.pow_le_pow_right (by norm_num) (by omega))
  refine Sat.mono (ofUnsignedJ_spec hw junk u) fun a ha => ?_
  rw [Nat.mod_eq_of_lt h] at ha
  refine ⟨ha, ?_⟩
  rw [C21_unsigned_partial hn w hw, ha, Nat.mod_eq_of_lt u.isLt]

example : ofUnsignedJ (ofNat 3 (2 ^ 96 - 1)) (0x123456789abcdef0#64) =
    .ok (ofNat 3 0x123456789abcdef0) := by decide +kernel

/-! ### Concrete cases that meet the hypotheses -/

/-- The hypotheses of `C14_getBlock` are met. -/
example := C14_getBlock ⟨false, false, false⟩ (Aeu.ofNat 3 (2 ^ 70 + 5)) 2 (by omega)

end AesiMP
