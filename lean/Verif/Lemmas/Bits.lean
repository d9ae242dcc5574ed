import Verif.Lemmas.Add

/-! # Bit level view: bitwise operators and shifts -/

namespace AesiMP
open Aeu
namespace Aeu
variable {n : Nat}

theorem testBit_toNat (x : Aeu n) (i j : Nat) (hj : j < 32) :
    (toNat x).testBit (32 * i + j) = (dig x i).testBit j := by
  rw [← toNat_digit, show (4294967296 : Nat) = 2 ^ 32 by norm_num, Nat.testBit_mod_two_pow,
    Nat.testBit_div_two_pow]
  simp [hj, Nat.add_comm]

theorem testBit_toNat' (x : Aeu n) (k : Nat) :
    (toNat x).testBit k = (dig x (k / 32)).testBit (k % 32) := by
  rw [← testBit_toNat x (k / 32) (k % 32) (Nat.mod_lt _ (by norm_num)), Nat.div_add_mod]

theorem testBit_toNat_ge (x : Aeu n) {k : Nat} (h : 32 * n ≤ k) : (toNat x).testBit k = false :=
  Nat.testBit_lt_two_pow (Nat.lt_of_lt_of_le (toNat_lt x) (Nat.pow_le_pow_right (by norm_num) h))

theorem dig_testBit {x : Aeu n} {i : Nat} (h : i < n) (j : Nat) :
    (dig x i).testBit j = (x[i]).getLsbD j := by
  rw [dig_of_lt h]; rfl

/-- A number below `2^bitness` is the value of an object with the same bits. -/
theorem toNat_eq_of_testBit {x : Aeu n} {v : Nat} (hv : v < 2 ^ (32 * n))
    (h : ∀ i j, i < n → j < 32 → (dig x i).testBit j = v.testBit (32 * i + j)) : toNat x = v := by
  apply Nat.eq_of_testBit_eq
  intro k
  by_cases hk : k < 32 * n
  · rw [testBit_toNat', h _ _ (by omega) (Nat.mod_lt _ (by norm_num)), Nat.div_add_mod]
  · rw [testBit_toNat_ge x (by omega), Nat.testBit_lt_two_pow]
    exact Nat.lt_of_lt_of_le hv (Nat.pow_le_pow_right (by norm_num) (by omega))

theorem not_spec (x : Aeu n) : Returns (not x) (2 ^ (32 * n) - 1 - toNat x) := by
  refine Sat.forUp (fun i (s : Aeu n) => ∀ j, (h : j < n) → j < i → dig s j = (~~~ x[j]).toNat)
    (Nat.zero_le n) (by simp) ?_ ?_
  · rintro i s _ hi h
    simp only [rd_ok hi, wr_ok hi, ok_bind, sat_ok]
    intro j hj hji
    by_cases hji' : j = i
    · subst hji'; simp [dig_set_self hi]
    · rw [dig_set_ne hi hji', h j hj (by omega)]
  · intro s h
    apply toNat_eq_of_testBit
    · have := pow32_pos n; omega
    · intro i j hi hj
      rw [h i hi hi, Nat.sub_sub, Nat.add_comm 1, Nat.testBit_two_pow_sub_succ (toNat_lt x),
        testBit_toNat x i j hj, dig_testBit hi]
      have : 32 * i + j < 32 * n := by omega
      simp only [this, decide_true, Bool.true_and]
      change (~~~ x[i]).getLsbD j = _
      simp [hj]

theorem bitwiseLoop_spec (f : Block → Block → Block) (x y : Aeu n) :
    Sat (bitwiseLoop f x y) fun r => ∀ j, (h : j < n) → dig r j = (f x[j] y[j]).toNat := by
  refine Sat.forUp (fun i (s : Aeu n) => (∀ j, i ≤ j → dig s j = dig x j) ∧
    ∀ j, (h : j < n) → j < i → dig s j = (f x[j] y[j]).toNat)
    (Nat.zero_le n) (by simp) ?_ (fun s h j hj => h.2 j hj hj)
  rintro i s _ hi ⟨h0, h⟩
  simp only [rd_ok hi, wr_ok hi, ok_bind, sat_ok]
  have hsi : s[i] = x[i] := by
    have := h0 i (le_refl _)
    rw [dig_of_lt hi, dig_of_lt hi] at this
    exact BitVec.eq_of_toNat_eq this
  constructor
  · intro j hj
    rw [dig_set_ne hi (by omega), h0 j (by omega)]
  · intro j hj hji
    by_cases hji' : j = i
    · subst hji'; simp [dig_set_self hi, hsi]
    · rw [dig_set_ne hi hji', h j hj (by omega)]

theorem and_spec (x y : Aeu n) : Returns (and x y) (toNat x &&& toNat y) := by
  obtain ⟨r, hr, h⟩ := bitwiseLoop_spec (· &&& ·) x y
  refine ⟨r, hr, toNat_eq_of_testBit (Nat.and_lt_two_pow _ (toNat_lt y)) ?_⟩
  intro i j hi hj
  rw [h i hi, Nat.testBit_and, testBit_toNat x i j hj, testBit_toNat y i j hj, dig_testBit hi,
    dig_testBit hi]
  simp [BitVec.getLsbD]

theorem or_spec (x y : Aeu n) : Returns (or x y) (toNat x ||| toNat y) := by
  obtain ⟨r, hr, h⟩ := bitwiseLoop_spec (· ||| ·) x y
  refine ⟨r, hr, toNat_eq_of_testBit (Nat.or_lt_two_pow (toNat_lt x) (toNat_lt y)) ?_⟩
  intro i j hi hj
  rw [h i hi, Nat.testBit_or, testBit_toNat x i j hj, testBit_toNat y i j hj, dig_testBit hi,
    dig_testBit hi]
  simp [BitVec.getLsbD]

theorem xor_spec (x y : Aeu n) : Returns (xor x y) (toNat x ^^^ toNat y) := by
  obtain ⟨r, hr, h⟩ := bitwiseLoop_spec (· ^^^ ·) x y
  refine ⟨r, hr, toNat_eq_of_testBit (Nat.xor_lt_two_pow (toNat_lt x) (toNat_lt y)) ?_⟩
  intro i j hi hj
  rw [h i hi, Nat.testBit_xor, testBit_toNat x i j hj, testBit_toNat y i j hj, dig_testBit hi,
    dig_testBit hi]
  simp [BitVec.getLsbD]

/-! ### Shifts -/

theorem getElem_of_dig {x y : Aeu n} {i : Nat} (hi : i < n) (h : dig x i = dig y i) :
    x[i] = y[i] := by
  rw [dig_of_lt hi, dig_of_lt hi] at h; exact BitVec.eq_of_toNat_eq h

theorem stamp_bit (r j : Nat) (hr : r ≤ 32) (hj : j < 32) :
    (toBlock ((1#64 <<< r) - 1#64)).getLsbD j = decide (j < r) := by
  have h1 : ((1#64 <<< r) - 1#64).toNat = 2 ^ r - 1 := by
    have hp : 2 ^ r < 2 ^ 64 := Nat.pow_lt_pow_right (by norm_num) (by omega)
    have hp' : 0 < 2 ^ r := Nat.two_pow_pos r
    have h2 : (1#64 <<< r).toNat = 2 ^ r := by
      simp [BitVec.toNat_shiftLeft, Nat.shiftLeft_eq]
      exact hp
    rw [BitVec.toNat_sub_of_le, h2]
    · simp
    · simp [BitVec.le_def, h2]; omega
  rw [BitVec.getLsbD, toNat_toBlock, h1, show (4294967296 : Nat) = 2 ^ 32 by norm_num,
    Nat.testBit_mod_two_pow, Nat.testBit_two_pow_sub_one]
  simp [hj]

/-- Bits of the block assembled by `operator<<=`. -/
theorem shl_block_bit (a b : Block) (r j : Nat) (hr : r < 32) (hj : j < 32) :
    (((a &&& toBlock ((1#64 <<< (32 - r)) - 1#64)) <<< r) |||
      ((b &&& ~~~ toBlock ((1#64 <<< (32 - r)) - 1#64)) >>> ((32 - r) % 32))).getLsbD j =
    if j < r then b.getLsbD (32 + j - r) else a.getLsbD (j - r) := by
  simp only [BitVec.getLsbD_or, BitVec.getLsbD_shiftLeft, BitVec.getLsbD_and,
    BitVec.getLsbD_ushiftRight, BitVec.getLsbD_not]
  by_cases hjr : j < r
  · have e : (32 - r) % 32 + j = 32 + j - r := by omega
    rw [e, stamp_bit _ (32 + j - r) (by omega) (by omega)]
    have h1 : ¬ 32 + j - r < 32 - r := by omega
    have h2 : 32 + j - r < 32 := by omega
    simp [hjr, h1, h2]
  · rw [stamp_bit _ (j - r) (by omega) (by omega)]
    have h1 : j - r < 32 - r := by omega
    by_cases hr0 : r = 0
    · subst hr0
      have h5 := stamp_bit 32 j (by omega) hj
      simp [hj] at h5
      simp [hj, h5]
    · have h2 : (32 - r) % 32 + j ≥ 32 ∨ (32 - r) % 32 + j < 32 := by omega
      have h3 : ¬ ((32 - r) % 32 + j < 32) := by omega
      simp [hj, hjr, h1, h3]

theorem shl_low_bit (a : Block) (r j : Nat) (hr : r < 32) (hj : j < 32) :
    ((a &&& toBlock ((1#64 <<< (32 - r)) - 1#64)) <<< r).getLsbD j =
    (decide (r ≤ j) && a.getLsbD (j - r)) := by
  simp only [BitVec.getLsbD_shiftLeft, BitVec.getLsbD_and]
  by_cases hjr : j < r
  · have : ¬ r ≤ j := by omega
    simp [hjr, this]
  · rw [stamp_bit _ (j - r) (by omega) (by omega)]
    have h1 : j - r < 32 - r := by omega
    have h2 : r ≤ j := by omega
    simp [hj, hjr, h1, h2]

/-- Bits of the block assembled by `operator>>=`. -/
theorem shr_block_bit (a b : Block) (r j : Nat) (hr : r < 32) (hj : j < 32) :
    (((a &&& toBlock ((1#64 <<< r) - 1#64)) <<< ((32 - r) % 32)) |||
      ((b &&& ~~~ toBlock ((1#64 <<< r) - 1#64)) >>> r)).getLsbD j =
    if j + r < 32 then b.getLsbD (j + r) else a.getLsbD (j + r - 32) := by
  simp only [BitVec.getLsbD_or, BitVec.getLsbD_shiftLeft, BitVec.getLsbD_and,
    BitVec.getLsbD_ushiftRight, BitVec.getLsbD_not]
  by_cases hjr : j + r < 32
  · rw [Nat.add_comm r j, stamp_bit _ (j + r) (by omega) (by omega)]
    have h1 : ¬ j + r < r := by omega
    by_cases hr0 : r = 0
    · subst hr0
      have h5 : toBlock 0#64 = 0#32 := by decide
      simp [hj, h5]
    · have h3 : j < (32 - r) % 32 := by omega
      simp [hj, hjr, h1, h3]
  · have h3 : ¬ j < (32 - r) % 32 := by omega
    have e : j - (32 - r) % 32 = j + r - 32 := by omega
    rw [e, stamp_bit _ (j + r - 32) (by omega) (by omega)]
    have h1 : j + r - 32 < r := by omega
    have h4 : ¬ r + j < 32 := by omega
    simp [hj, hjr, h1, h3, h4]

theorem shr_top_bit (b : Block) (r j : Nat) (hr : r < 32) (hj : j < 32) :
    ((b &&& ~~~ toBlock ((1#64 <<< r) - 1#64)) >>> r).getLsbD j =
    (decide (j + r < 32) && b.getLsbD (j + r)) := by
  simp only [BitVec.getLsbD_and, BitVec.getLsbD_ushiftRight, BitVec.getLsbD_not]
  by_cases hjr : j + r < 32
  · rw [Nat.add_comm r j, stamp_bit _ (j + r) (by omega) (by omega)]
    have h1 : ¬ j + r < r := by omega
    simp [hjr, h1]
  · have h4 : ¬ r + j < 32 := by omega
    simp [hjr, h4]

/-- Left shift. -/
theorem shl_spec {x : Aeu n} {s : Nat} (hs : s < 32 * n) :
    Returns (shl x s) (toNat x * 2 ^ s % 2 ^ (32 * n)) := by
  unfold shl
  by_cases h0 : s = 0
  · subst h0
    simp only [or_true, if_true]
    exact Sat.ok (by simp [Nat.mod_eq_of_lt (toNat_lt x)])
  have hc : ¬ (s ≥ 32 * n ∨ s = 0) := by omega
  simp only [hc, if_false]
  have hr : s % 32 < 32 := Nat.mod_lt _ (by norm_num)
  simp only [shl64_ok (show 32 - s % 32 < 64 by omega), ok_bind]
  set q := s / 32 with hq
  set r := s % 32 with hrdef
  set stamp := toBlock ((1#64 <<< (32 - r)) - 1#64) with hstamp
  set e := if r ≠ 0 then 1 else 0 with he
  have hsq : s = 32 * q + r := by omega
  have hqn : q < n := by omega
  have he1 : e ≤ 1 := by rw [he]; split <;> omega
  have hpos : 0 < q + e := by
    rw [he]; split <;> omega
  have hn : 0 < n := by omega
  -- the descending loop
  refine Sat.bind (P := fun (v : Aeu n) => (∀ j, j < q + e → dig v j = dig x j) ∧
    ∀ i j, q + e ≤ i → i < n → j < 32 →
      (dig v i).testBit j = (toNat x).testBit (32 * i + j - s)) ?_ ?_
  · refine Sat.forDown (fun k (v : Aeu n) => (∀ j, j < k → dig v j = dig x j) ∧
      ∀ i j, k ≤ i → i < n → j < 32 →
      (dig v i).testBit j = (toNat x).testBit (32 * i + j - s)) (by omega) ⟨fun _ _ => rfl, ?_⟩ ?_
      (fun s h => h)
    · intro i j h1 h2; omega
    · rintro i v hlo hi ⟨h1, h2⟩
      have ha : i - q < n := by omega
      have hb : i - q - e < n := by omega
      simp only [rd_ok ha, rd_ok hb, shl32_ok hr, shr32_ok (show (32 - r) % 32 < 32 by omega),
        wr_ok hi, ok_bind, sat_ok]
      constructor
      · intro j hj
        rw [dig_set_ne hi (by omega), h1 j (by omega)]
      · intro k j hk hkn hj
        by_cases hki : k = i
        · subst hki
          rw [dig_set_self hi, ← BitVec.getLsbD, shl_block_bit _ _ _ _ hr hj]
          have hva : v[k - q] = x[k - q] := getElem_of_dig ha (h1 _ (by omega))
          have hvb : v[k - q - e] = x[k - q - e] := getElem_of_dig hb (h1 _ (by omega))
          rw [hva, hvb]
          split
          · rename_i hjr
            have he1 : e = 1 := by rw [he, if_pos (by omega)]
            rw [← dig_testBit hb, ← testBit_toNat x _ _ (by omega)]
            congr 1; omega
          · rw [← dig_testBit ha, ← testBit_toNat x _ _ (by omega)]
            congr 1; omega
        · rw [dig_set_ne hi hki, h2 k j (by omega) hkn hj]
  · rintro v ⟨h1, h2⟩
    simp only [rd_ok hn, shl32_ok hr, wr_ok hqn, ok_bind]
    refine Sat.forUp (fun k (w : Aeu n) => (∀ j, j < k → dig w j = 0) ∧
      ∀ i j, q ≤ i → i < n → j < 32 → (dig w i).testBit j =
        (decide (s ≤ 32 * i + j) && (toNat x).testBit (32 * i + j - s))) (Nat.zero_le q) ⟨by simp, ?_⟩
      ?_ ?_
    · intro i j hqi hin hj
      by_cases hiq : i = q
      · subst hiq
        rw [dig_set_self hqn, ← BitVec.getLsbD, shl_low_bit _ _ _ hr hj]
        have hv0 : v[0] = x[0] := getElem_of_dig hn (h1 _ hpos)
        rw [hv0, ← dig_testBit hn]
        by_cases hrj : r ≤ j
        · have : s ≤ 32 * q + j := by omega
          simp only [hrj, this, decide_true, Bool.true_and]
          rw [← testBit_toNat x _ _ (by omega)]
          congr 1; omega
        · have : ¬ s ≤ 32 * q + j := by omega
          simp [hrj, this]
      · rw [dig_set_ne hqn hiq, h2 i j (by omega) hin hj]
        have : s ≤ 32 * i + j := by omega
        simp [this]
    · rintro i w _ hi ⟨h3, h4⟩
      have hin : i < n := by omega
      simp only [wr_ok hin, sat_ok]
      constructor
      · intro j hj
        by_cases hji : j = i
        · subst hji; simp [dig_set_self hin]
        · rw [dig_set_ne hin hji, h3 j (by omega)]
      · intro k j hk hkn hj
        rw [dig_set_ne hin (by omega), h4 k j hk hkn hj]
    · rintro w ⟨h3, h4⟩
      apply toNat_eq_of_testBit (Nat.mod_lt _ (pow32_pos n))
      intro i j hi hj
      rw [Nat.testBit_mod_two_pow, Nat.testBit_mul_two_pow]
      have : 32 * i + j < 32 * n := by omega
      simp only [this, decide_true, Bool.true_and]
      by_cases hiq : i < q
      · rw [h3 i hiq]
        have : ¬ s ≤ 32 * i + j := by omega
        simp [this]
      · rw [h4 i j (by omega) hi hj]

/-- Right shift. -/
theorem shr_spec {x : Aeu n} {s : Nat} (hs : s < 32 * n) :
    Returns (shr x s) (toNat x / 2 ^ s) := by
  unfold shr
  by_cases h0 : s = 0
  · subst h0
    simp only [or_true, if_true]
    exact Sat.ok (by simp)
  have hc : ¬ (s ≥ 32 * n ∨ s = 0) := by omega
  simp only [hc, if_false]
  have hr : s % 32 < 32 := Nat.mod_lt _ (by norm_num)
  simp only [shl64_ok (show s % 32 < 64 by omega), ok_bind]
  set q := s / 32 with hq
  set r := s % 32 with hrdef
  set e := if r ≠ 0 then 1 else 0 with he
  have hsq : s = 32 * q + r := by omega
  have hqn : q < n := by omega
  have he1 : e ≤ 1 := by rw [he]; split <;> omega
  have hpos : 0 < q + e := by
    rw [he]; split <;> omega
  have hn : 0 < n := by omega
  refine Sat.bind (P := fun (v : Aeu n) => (∀ j, n - (q + e) ≤ j → dig v j = dig x j) ∧
    ∀ i j, i < n - (q + e) → j < 32 →
      (dig v i).testBit j = (toNat x).testBit (32 * i + j + s)) ?_ ?_
  · refine Sat.forUp (fun k (v : Aeu n) => (∀ j, k ≤ j → dig v j = dig x j) ∧
      ∀ i j, i < k → j < 32 →
      (dig v i).testBit j = (toNat x).testBit (32 * i + j + s)) (by omega) ⟨fun _ _ => rfl, by simp⟩ ?_
      (fun s h => h)
    rintro i v hlo hi' ⟨h1, h2⟩
    have hi : i < n := by omega
    have ha : i + q + e < n := by omega
    have hb : i + q < n := by omega
    simp only [rd_ok ha, rd_ok hb, shr32_ok hr, shl32_ok (show (32 - r) % 32 < 32 by omega),
      wr_ok hi, ok_bind, sat_ok]
    constructor
    · intro j hj
      rw [dig_set_ne hi (by omega), h1 j (by omega)]
    · intro k j hk hj
      by_cases hki : k = i
      · subst hki
        rw [dig_set_self hi, ← BitVec.getLsbD, shr_block_bit _ _ _ _ hr hj]
        have hva : v[k + q + e] = x[k + q + e] := getElem_of_dig ha (h1 _ (by omega))
        have hvb : v[k + q] = x[k + q] := getElem_of_dig hb (h1 _ (by omega))
        rw [hva, hvb]
        split
        · rw [← dig_testBit hb, ← testBit_toNat x _ _ (by omega)]
          congr 1; omega
        · rename_i hjr
          have he1 : e = 1 := by rw [he, if_pos (by omega)]
          rw [← dig_testBit ha, ← testBit_toNat x _ _ (by omega)]
          congr 1; omega
      · rw [dig_set_ne hi hki, h2 k j (by omega) hj]
  · rintro v ⟨h1, h2⟩
    have hn1 : n - 1 < n := by omega
    have hnq : n - 1 - q < n := by omega
    simp only [rd_ok hn1, shr32_ok hr, wr_ok hnq, ok_bind]
    refine Sat.forUp (fun k (w : Aeu n) => (∀ j, n - q ≤ j → j < k → dig w j = 0) ∧
      ∀ i j, i < n - q → j < 32 → (dig w i).testBit j =
        (toNat x).testBit (32 * i + j + s)) (by omega) ⟨by intro j; omega, ?_⟩
      ?_ ?_
    · intro i j hqi hj
      by_cases hiq : i = n - 1 - q
      · subst hiq
        rw [dig_set_self hnq, ← BitVec.getLsbD, shr_top_bit _ _ _ hr hj]
        have hv0 : v[n - 1] = x[n - 1] := getElem_of_dig hn1 (h1 _ (by omega))
        rw [hv0, ← dig_testBit hn1]
        by_cases hrj : j + r < 32
        · simp only [hrj, decide_true, Bool.true_and]
          rw [← testBit_toNat x _ _ (by omega)]
          congr 1; omega
        · rw [testBit_toNat_ge x (by omega)]
          simp [hrj]
      · rw [dig_set_ne hnq hiq, h2 i j (by omega) hj]
    · rintro i w hlo hi ⟨h3, h4⟩
      simp only [wr_ok hi, sat_ok]
      constructor
      · intro j hj hji
        by_cases hji : j = i
        · subst hji; simp [dig_set_self hi]
        · rw [dig_set_ne hi hji, h3 j hj (by omega)]
      · intro k j hk hj
        rw [dig_set_ne hi (by omega), h4 k j hk hj]
    · rintro w ⟨h3, h4⟩
      apply toNat_eq_of_testBit (Nat.lt_of_le_of_lt (Nat.div_le_self _ _) (toNat_lt x))
      intro i j hi hj
      rw [Nat.testBit_div_two_pow]
      by_cases hiq : i < n - q
      · rw [h4 i j (by omega) hj]
      · rw [h3 i (by omega) hi, testBit_toNat_ge x (by omega)]
        simp

theorem shl_ge {x : Aeu n} {s : Nat} (hs : 32 * n ≤ s) : shl x s = .ok x := by simp [shl, hs]
theorem shr_ge {x : Aeu n} {s : Nat} (hs : 32 * n ≤ s) : shr x s = .ok x := by simp [shr, hs]

end Aeu
end AesiMP
