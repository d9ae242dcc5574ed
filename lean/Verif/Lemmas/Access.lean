import Verif.Lemmas.Bits

/-! # Size observers, element access, comparison -/

namespace AesiMP
open Aeu
namespace Aeu
variable {n m : Nat}

/-! ### filledBlocksNumber -/

theorem filledBlocksNumber_spec (x : Aeu n) : Sat (filledBlocksNumber x) fun k =>
    k ≤ n ∧ (∀ i, k ≤ i → dig x i = 0) ∧ (0 < k → dig x (k - 1) ≠ 0) := by
  unfold filledBlocksNumber
  refine Sat.bind (P := CtlP (fun _ => ∀ i, dig x i = 0)
    (fun k => k ≤ n ∧ (∀ i, k ≤ i → dig x i = 0) ∧ (0 < k → dig x (k - 1) ≠ 0))) ?_ ?_
  · refine Sat.forDownC (fun k _ => ∀ i, k ≤ i → dig x i = 0)
      (fun k => k ≤ n ∧ (∀ i, k ≤ i → dig x i = 0) ∧ (0 < k → dig x (k - 1) ≠ 0)) (Nat.zero_le n)
      (fun i hi => dig_of_ge hi) ?_ ?_
    · rintro i ⟨⟩ _ hi h
      simp only [rd_ok hi, ok_bind]
      split
      · rename_i hne
        simp only [sat_ok, ctlP_leave]
        refine ⟨by omega, h, fun _ => ?_⟩
        simp only [Nat.add_sub_cancel, dig_of_lt hi]
        intro h0
        exact hne (BitVec.eq_of_toNat_eq (by simpa using h0))
      · rename_i hne
        simp only [ne_eq, not_not] at hne
        simp only [sat_ok, ctlP_next]
        intro j hj
        by_cases hji : j = i
        · subst hji; simp [dig_of_lt hi, hne]
        · exact h j (by omega)
    · rintro (s | k) h
      · intro i; exact h i (Nat.zero_le i)
      · exact h
  · rintro (s | k) h
    · exact Sat.ok ⟨Nat.zero_le n, fun i _ => h i, by omega⟩
    · exact Sat.ok h

/-- The block length characterises the magnitude. -/
theorem toNat_lt_of_high_zero {x : Aeu n} {k : Nat} (hk : k ≤ n) (h : ∀ i, k ≤ i → dig x i = 0) :
    toNat x < 2 ^ (32 * k) := by
  rw [← psum_dig_eq_of_high_zero x hk (fun i hi _ => h i hi)]
  exact psum_lt (dig_lt x) k

theorem toNat_ge_of_dig_ne {x : Aeu n} {i : Nat} (h : dig x i ≠ 0) : 2 ^ (32 * i) ≤ toNat x := by
  rw [← toNat_digit] at h
  by_contra hlt
  exact h (by rw [Nat.div_eq_of_lt (by omega)])

theorem high_zero_of_lt {x : Aeu n} {k : Nat} (h : toNat x < 2 ^ (32 * k)) :
    ∀ i, k ≤ i → dig x i = 0 := by
  intro i hi
  rw [← toNat_digit, Nat.div_eq_of_lt]
  exact Nat.lt_of_lt_of_le h (Nat.pow_le_pow_right (by norm_num) (by omega))

/-- Number of base-`2^32` digits. -/
theorem filledBlocksNumber_nat (x : Aeu n) : Sat (filledBlocksNumber x) fun k =>
    k ≤ n ∧ toNat x < 2 ^ (32 * k) ∧ (0 < k → 2 ^ (32 * (k - 1)) ≤ toNat x) := by
  refine Sat.mono (filledBlocksNumber_spec x) ?_
  rintro k ⟨h1, h2, h3⟩
  exact ⟨h1, toNat_lt_of_high_zero h1 h2, fun h => toNat_ge_of_dig_ne (h3 h)⟩

theorem filled_le_iff {x : Aeu n} {k j : Nat} (h1 : toNat x < 2 ^ (32 * k))
    (h2 : 0 < k → 2 ^ (32 * (k - 1)) ≤ toNat x) : k ≤ j ↔ toNat x < 2 ^ (32 * j) := by
  constructor
  · intro h; exact Nat.lt_of_lt_of_le h1 (Nat.pow_le_pow_right (by norm_num) (by omega))
  · intro h
    by_contra hk
    have := h2 (by omega)
    have h3 : 2 ^ (32 * (k - 1)) < 2 ^ (32 * j) := by omega
    have := (Nat.pow_lt_pow_iff_right (by norm_num)).mp h3
    omega

theorem isZero_spec (x : Aeu n) : isZero x = .ok (decide (toNat x = 0)) := by
  unfold isZero
  obtain ⟨k, hk, h1, h2, h3⟩ := filledBlocksNumber_nat x
  rw [hk]
  have := filled_le_iff (j := 0) h2 h3
  simp at this
  by_cases h : k = 0
  · simp [h, this.mp h]
  · have h' : ¬ toNat x = 0 := fun h0 => h (this.mpr h0)
    simp [h, h']

/-! ### bit access -/

theorem getBit_spec (cfg : Cfg) (x : Aeu n) {i : Nat} (hi : i < 32 * n) :
    getBit cfg x i = .ok ((toNat x).testBit i) := by
  unfold getBit
  have hge : ¬ i ≥ 32 * n := by omega
  have hb : i / 32 < n := by omega
  have hj : i % 32 < 32 := Nat.mod_lt _ (by norm_num)
  have hd : decide (i / 32 < n ∧ i % 32 < 32) = true := by simp [hb, hj]
  simp only [hge, and_false, if_false, hd, cassert, Bool.or_true, if_true, shl32_ok hj, rd_ok hb,
    ok_bind]
  rw [testBit_toNat', dig_testBit hb]
  congr 1
  cases hbit : (x[i / 32]).getLsbD (i % 32)
  · have : x[i / 32] &&& 1#32 <<< (i % 32) = 0#32 := by
      apply BitVec.eq_of_getLsbD_eq
      intro j hj
      simp
      intro h1 _ _
      by_contra h2
      have : j = i % 32 := by omega
      subst this
      rw [BitVec.getLsbD_eq_getElem hj] at hbit
      simp_all
    simp [this]
  · have : x[i / 32] &&& 1#32 <<< (i % 32) ≠ 0#32 := by
      intro h
      have := congrArg (fun b => b.getLsbD (i % 32)) h
      simp [hbit] at this
      omega
    simpa using this

theorem getBit_ge (cfg : Cfg) (hs : cfg.unsafeMode = false) (x : Aeu n) {i : Nat}
    (hi : 32 * n ≤ i) : getBit cfg x i = .ok false := by
  simp [getBit, hs, hi]

theorem setBit_ge (cfg : Cfg) (hs : cfg.unsafeMode = false) (x : Aeu n) {i : Nat} (b : Bool)
    (hi : 32 * n ≤ i) : setBit cfg x i b = .ok x := by
  simp [setBit, hs, hi]

theorem setBit_sat (cfg : Cfg) (x : Aeu n) {i : Nat} (v : Bool) (hi : i < 32 * n) :
    Sat (setBit cfg x i v) fun r =>
      ∀ k, (toNat r).testBit k = if k = i then v else (toNat x).testBit k := by
  unfold setBit
  have hge : ¬ i ≥ 32 * n := by omega
  have hb : i / 32 < n := by omega
  have hj : i % 32 < 32 := Nat.mod_lt _ (by norm_num)
  have hd : decide (i / 32 < n ∧ i % 32 < 32) = true := by simp [hb, hj]
  simp only [hge, and_false, if_false, hd, cassert, Bool.or_true, if_true, shl32_ok hj, rd_ok hb,
    wr_ok hb, ok_bind]
  have key : ∀ w : Block, (∀ t, t < 32 → w.getLsbD t = if t = i % 32 then v else (x[i / 32]).getLsbD t) →
      ∀ k, (toNat (x.set (i / 32) w)).testBit k = if k = i then v else (toNat x).testBit k := by
    intro w hw k
    rw [testBit_toNat', testBit_toNat']
    have hkm : k % 32 < 32 := Nat.mod_lt _ (by norm_num)
    by_cases hk : k / 32 = i / 32
    · rw [hk, dig_set_self hb, ← BitVec.getLsbD, hw _ hkm, dig_testBit hb]
      by_cases hki : k = i
      · simp [hki]
      · have : k % 32 ≠ i % 32 := by omega
        simp [hki, this]
    · rw [dig_set_ne hb hk]
      have : k ≠ i := by intro h; exact hk (by rw [h])
      simp [this]
  cases v
  · simp only [Bool.false_eq_true, if_false, sat_ok]
    apply key
    intro t ht
    simp only [BitVec.getLsbD_and, BitVec.getLsbD_not, BitVec.getLsbD_shiftLeft, ht, decide_true,
      Bool.true_and]
    by_cases hti : t = i % 32
    · subst hti; simp
    · by_cases h2 : t < i % 32
      · simp [hti, h2]
      · have : ¬ t - i % 32 = 0 := by omega
        simp [hti, h2, BitVec.getLsbD_one, this]
  · simp only [if_true, sat_ok]
    apply key
    intro t ht
    simp only [BitVec.getLsbD_or, BitVec.getLsbD_shiftLeft, ht, decide_true,
      Bool.true_and]
    by_cases hti : t = i % 32
    · subst hti; simp
    · by_cases h2 : t < i % 32
      · simp [hti, h2]
      · have : ¬ t - i % 32 = 0 := by omega
        simp [hti, h2, BitVec.getLsbD_one, this]

theorem add_two_pow_of_dvd {v i : Nat} (h : 2 ^ (i + 1) ∣ v) : v + 2 ^ i = v ||| 2 ^ i := by
  obtain ⟨a, rfl⟩ := h
  exact Nat.two_pow_add_eq_or_of_lt (Nat.pow_lt_pow_right (by norm_num) (by omega)) a

theorem testBit_eq_false_of_dvd {v i : Nat} (h : 2 ^ (i + 1) ∣ v) : v.testBit i = false := by
  obtain ⟨a, rfl⟩ := h
  rw [Nat.mul_comm, Nat.testBit_mul_two_pow]
  have : ¬ i + 1 ≤ i := by omega
  simp

/-- Setting bit `i` of a multiple of `2^(i+1)`. -/
theorem setBit_of_dvd (cfg : Cfg) (x : Aeu n) {i : Nat} (hi : i < 32 * n) (b : Bool)
    (hd : 2 ^ (i + 1) ∣ toNat x) : Returns (setBit cfg x i b) (toNat x + b.toNat * 2 ^ i) := by
  obtain ⟨r, hr, h⟩ := setBit_sat cfg x b hi
  refine ⟨r, hr, ?_⟩
  apply Nat.eq_of_testBit_eq
  intro k
  rw [h k]
  cases b
  · simp only [Bool.toNat_false, Nat.zero_mul, Nat.add_zero]
    split
    · rename_i h; rw [h, testBit_eq_false_of_dvd hd]
    · rfl
  · simp only [Bool.toNat_true, Nat.one_mul]
    rw [add_two_pow_of_dvd hd, Nat.testBit_or, Nat.testBit_two_pow]
    by_cases hk : k = i
    · simp [hk]
    · have : ¬ i = k := fun h => hk h.symm
      simp [hk, this]

theorem power2_spec (cfg : Cfg) {k : Nat} (hk : k < 32 * n) : Returns (power2 cfg n k) (2 ^ k) := by
  have := setBit_of_dvd cfg (zero n) hk true (by simp)
  simpa [power2] using this

theorem power2_ge (cfg : Cfg) (hs : cfg.unsafeMode = false) {k : Nat} (hk : 32 * n ≤ k) :
    Returns (power2 cfg n k) 0 := by
  rw [power2, setBit_ge cfg hs _ _ hk]; exact Sat.ok toNat_zero

/-! ### block access -/

theorem getBlock_spec (cfg : Cfg) (x : Aeu n) {i : Nat} (hi : i < n) :
    getBlock cfg x i = .ok x[i] := by
  have : ¬ i ≥ n := by omega
  simp [getBlock, this, rd_ok hi]

theorem getBlock_ge (cfg : Cfg) (hs : cfg.unsafeMode = false) (x : Aeu n) {i : Nat} (hi : n ≤ i) :
    getBlock cfg x i = .ok 0#32 := by
  simp [getBlock, hs, hi]

theorem setBlock_spec (cfg : Cfg) (x : Aeu n) {i : Nat} (b : Block) (hi : i < n) :
    setBlock cfg x i b = .ok (x.set i b) := by
  have : ¬ i ≥ n := by omega
  simp [setBlock, this, wr_ok hi]

theorem setBlock_ge (cfg : Cfg) (hs : cfg.unsafeMode = false) (x : Aeu n) {i : Nat} (b : Block)
    (hi : n ≤ i) : setBlock cfg x i b = .ok x := by
  simp [setBlock, hs, hi]

/-! ### comparison -/

theorem psum_lt_of_lt_digit {f g : Nat → Nat} (hf : ∀ i, f i < 4294967296) {k j : Nat}
    (hj : j < k) (heq : ∀ i, j < i → i < k → f i = g i) (h : f j < g j) : psum f k < psum g k := by
  induction k with
  | zero => omega
  | succ k ih =>
    rw [psum, psum]
    rcases Nat.lt_or_ge j k with hjk | hjk
    · rw [heq k hjk (by omega)]
      have := ih hjk (fun i h1 h2 => heq i h1 (by omega))
      omega
    · have : j = k := by omega
      subst this
      have h1 := psum_lt hf j
      have h2 := Nat.mul_le_mul_right (2 ^ (32 * j)) h
      rw [Nat.succ_mul] at h2
      omega

/-- The numeric comparison. -/
def cmpNat (a b : Nat) : Comparison := if a < b then .less else if a = b then .equal else .greater

/-- Result of `compareTo` between numbers of `n` and `m` blocks as the code computes it:
the low `min n m` blocks first, then the high part of the longer operand. -/
theorem compareTo_general (cfg : Cfg) (x : Aeu n) (y : Aeu m) :
    compareTo cfg x y = .ok (
      match cmpNat (toNat x % 2 ^ (32 * min n m)) (toNat y % 2 ^ (32 * min n m)) with
      | .equal => cmpNat (toNat x) (toNat y)
      | c => c) := by
  have hmin : (if n < m then n else m) = min n m := by simp only [Nat.min_def]; split <;> split <;> omega
  unfold compareTo
  simp only [hmin]
  set l := min n m with hl
  have hln : l ≤ n := Nat.min_le_left _ _
  have hlm : l ≤ m := Nat.min_le_right _ _
  rw [toNat_mod x hln, toNat_mod y hlm]
  have hloop : Sat (forDownC l 0 () fun i _ => do
      let thisBlock ← rd x i
      let otherBlock ← getBlock cfg y i
      if thisBlock ≠ otherBlock then
        .ok (.leave (if thisBlock > otherBlock then Comparison.greater else .less))
      else .ok (.next ()))
      (CtlP (fun _ => psum (dig x) l = psum (dig y) l)
        (fun c => c ≠ .equal ∧ c = cmpNat (psum (dig x) l) (psum (dig y) l))) := by
    refine Sat.forDownC (fun k _ => ∀ i, k ≤ i → i < l → dig x i = dig y i)
      (fun c => c ≠ .equal ∧ c = cmpNat (psum (dig x) l) (psum (dig y) l)) (Nat.zero_le l)
      (fun i h1 h2 => by omega) ?_ ?_
    · rintro i ⟨⟩ _ hi h
      have hix : i < n := by omega
      have hiy : i < m := by omega
      simp only [rd_ok hix, getBlock_spec cfg y hiy, ok_bind]
      split
      · rename_i hne
        have hne' : (x[i]).toNat ≠ (y[i]).toNat := fun h => hne (BitVec.eq_of_toNat_eq h)
        simp only [sat_ok, ctlP_leave]
        split
        · rename_i hgt
          have hgt' : (y[i]).toNat < (x[i]).toNat := hgt
          have := psum_lt_of_lt_digit (dig_lt y) hi (fun j h1 h2 => (h j (by omega) h2).symm)
            (by rwa [dig_of_lt hix, dig_of_lt hiy] : dig y i < dig x i)
          refine ⟨by simp, ?_⟩
          rw [cmpNat, if_neg (by omega), if_neg (by omega)]
        · rename_i hgt
          have hgt' : ¬ (y[i]).toNat < (x[i]).toNat := hgt
          have := psum_lt_of_lt_digit (dig_lt x) hi (fun j h1 h2 => h j (by omega) h2)
            (by rw [dig_of_lt hix, dig_of_lt hiy]; omega : dig x i < dig y i)
          refine ⟨by simp, ?_⟩
          rw [cmpNat, if_pos this]
      · rename_i heq
        simp only [ne_eq, not_not] at heq
        simp only [sat_ok, ctlP_next]
        intro j hj hjl
        by_cases hji : j = i
        · subst hji; rw [dig_of_lt hix, dig_of_lt hiy, heq]
        · exact h j (by omega) hjl
    · rintro (s | c) h
      · exact psum_congr (fun i hi => h i (Nat.zero_le i) hi)
      · exact h
  obtain ⟨c, hc, hP⟩ := hloop
  rw [hc]
  rcases c with s | c
  · simp only [ctlP_next] at hP
    simp only [ok_bind]
    have hlow : cmpNat (psum (dig x) l) (psum (dig y) l) = .equal := by simp [cmpNat, hP]
    rw [hlow]
    by_cases hnm : m = n
    · subst hnm
      have : toNat x = toNat y := by
        have : l = m := by omega
        rw [this] at hP; exact hP
      simp [cmpNat, this]
    · simp only [ne_eq, hnm, not_false_eq_true, if_true]
      by_cases hgt : m > n
      · simp only [hgt, if_true]
        have hl' : l = n := by omega
        have hx : toNat x = psum (dig x) l := by rw [hl', toNat]
        have hloop : Sat (forDownC m l () fun i _ => do
            let b ← getBlock cfg y i
            if b ≠ 0#32 then .ok (.leave Comparison.less) else .ok (.next ()))
            (CtlP (fun _ => toNat y = psum (dig y) l)
              (fun c => c = .less ∧ psum (dig y) l < toNat y)) := by
          refine Sat.forDownC (fun k _ => ∀ i, k ≤ i → i < m → dig y i = 0)
            (fun c => c = .less ∧ psum (dig y) l < toNat y) hlm (fun i h1 h2 => by omega) ?_ ?_
          · rintro i ⟨⟩ hli hi h
            simp only [getBlock_spec cfg y hi, ok_bind]
            split
            · rename_i hne
              simp only [sat_ok, ctlP_leave, true_and]
              have h1 : 2 ^ (32 * i) ≤ toNat y := toNat_ge_of_dig_ne (by
                rw [dig_of_lt hi]; intro h0; exact hne (BitVec.eq_of_toNat_eq (by simpa using h0)))
              have h2 := psum_lt (dig_lt y) l
              have h3 : 2 ^ (32 * l) ≤ 2 ^ (32 * i) := Nat.pow_le_pow_right (by norm_num) (by omega)
              omega
            · rename_i hne
              simp only [ne_eq, not_not] at hne
              simp only [sat_ok, ctlP_next]
              intro j hj hjm
              by_cases hji : j = i
              · subst hji; simp [dig_of_lt hi, hne]
              · exact h j (by omega) hjm
          · rintro (s | c) h
            · exact (psum_dig_eq_of_high_zero y hlm h).symm
            · exact h
        obtain ⟨c, hc, hP2⟩ := hloop
        rw [hc]
        rcases c with s | c
        · simp only [ctlP_next] at hP2
          simp [cmpNat, hP2, hx, hP]
        · simp only [ctlP_leave] at hP2
          simp only [ok_bind, hP2.1]
          rw [cmpNat, if_pos (by omega)]
      · have hgt' : n > m := by omega
        simp only [hgt, hgt', if_true, if_false]
        have hl' : l = m := by omega
        have hy : toNat y = psum (dig y) l := by rw [hl', toNat]
        have hloop : Sat (forDownC n l () fun i _ => do
            let b ← rd x i
            if b ≠ 0#32 then .ok (.leave Comparison.greater) else .ok (.next ()))
            (CtlP (fun _ => toNat x = psum (dig x) l)
              (fun c => c = .greater ∧ psum (dig x) l < toNat x)) := by
          refine Sat.forDownC (fun k _ => ∀ i, k ≤ i → i < n → dig x i = 0)
            (fun c => c = .greater ∧ psum (dig x) l < toNat x) hln (fun i h1 h2 => by omega) ?_ ?_
          · rintro i ⟨⟩ hli hi h
            simp only [rd_ok hi, ok_bind]
            split
            · rename_i hne
              simp only [sat_ok, ctlP_leave, true_and]
              have h1 : 2 ^ (32 * i) ≤ toNat x := toNat_ge_of_dig_ne (by
                rw [dig_of_lt hi]; intro h0; exact hne (BitVec.eq_of_toNat_eq (by simpa using h0)))
              have h2 := psum_lt (dig_lt x) l
              have h3 : 2 ^ (32 * l) ≤ 2 ^ (32 * i) := Nat.pow_le_pow_right (by norm_num) (by omega)
              omega
            · rename_i hne
              simp only [ne_eq, not_not] at hne
              simp only [sat_ok, ctlP_next]
              intro j hj hjm
              by_cases hji : j = i
              · subst hji; simp [dig_of_lt hi, hne]
              · exact h j (by omega) hjm
          · rintro (s | c) h
            · exact (psum_dig_eq_of_high_zero x hln h).symm
            · exact h
        obtain ⟨c, hc, hP2⟩ := hloop
        rw [hc]
        rcases c with s | c
        · simp only [ctlP_next] at hP2
          simp [cmpNat, hP2, hy, hP]
        · simp only [ctlP_leave] at hP2
          simp only [ok_bind, hP2.1]
          rw [cmpNat, if_neg (by omega), if_neg (by omega)]
  · simp only [ctlP_leave] at hP
    simp only [ok_bind]
    rw [← hP.2]
    cases c <;> simp_all

/-- Same precision: the numeric comparison. -/
theorem compareTo_spec (cfg : Cfg) (x y : Aeu n) :
    compareTo cfg x y = .ok (cmpNat (toNat x) (toNat y)) := by
  rw [compareTo_general, Nat.min_self, Nat.mod_eq_of_lt (toNat_lt x), Nat.mod_eq_of_lt (toNat_lt y)]
  cases cmpNat (toNat x) (toNat y) <;> rfl

theorem eq_spec (cfg : Cfg) (x y : Aeu n) :
    eq cfg x y = .ok (decide (toNat x = toNat y)) := by
  simp only [eq, compareTo_spec, ok_bind, cmpNat]
  congr 1
  rcases Nat.lt_trichotomy (toNat x) (toNat y) with h | h | h
  · have h' : toNat x ≠ toNat y := by omega
    simp [h, h']
  · simp [h]
  · have h' : ¬ toNat x = toNat y := by omega
    have h'' : ¬ toNat x < toNat y := by omega
    simp [h', h'']

theorem lt_spec (cfg : Cfg) (x y : Aeu n) :
    lt cfg x y = .ok (decide (toNat x < toNat y)) := by
  simp only [lt, spaceship, compareTo_spec, ok_bind, cmpNat]
  congr 1
  split
  · rename_i h; simp [h, toOrdering]
  · rename_i h; split <;> simp [h, toOrdering]

theorem ge_spec (cfg : Cfg) (x y : Aeu n) :
    ge cfg x y = .ok (decide (toNat y ≤ toNat x)) := by
  simp only [ge, spaceship, compareTo_spec, ok_bind, cmpNat]
  congr 1
  split
  · rename_i h
    have : ¬ toNat y ≤ toNat x := by omega
    simp [this, toOrdering]
  · rename_i h
    have : toNat y ≤ toNat x := by omega
    split <;> simp [this, toOrdering]

theorem gt_spec (cfg : Cfg) (x y : Aeu n) :
    gt cfg x y = .ok (decide (toNat y < toNat x)) := by
  simp only [gt, spaceship, compareTo_spec, ok_bind, cmpNat]
  congr 1
  split
  · rename_i h
    have : ¬ toNat y < toNat x := by omega
    simp [this, toOrdering]
  · rename_i h
    split
    · rename_i h; simp [h, toOrdering]
    · have : toNat y < toNat x := by omega
      simp [this, toOrdering]

theorem le_spec (cfg : Cfg) (x y : Aeu n) :
    le cfg x y = .ok (decide (toNat x ≤ toNat y)) := by
  simp only [le, spaceship, compareTo_spec, ok_bind, cmpNat]
  congr 1
  split
  · rename_i h
    have : toNat x ≤ toNat y := by omega
    simp [this, toOrdering]
  · rename_i h
    split
    · rename_i h; simp [h, toOrdering]
    · have : ¬ toNat x ≤ toNat y := by omega
      simp [this, toOrdering]

/-! ### comparison with built-in values -/

theorem dig0_of_lt {x : Aeu n} (h : toNat x < 2 ^ 32) : dig x 0 = toNat x := by
  rw [← toNat_digit]; simp; exact h

theorem eqNarrow_spec (hn : 0 < n) {w : Nat} (hw : w ≤ 32) (x : Aeu n) (u : BitVec w) :
    eqNarrow x u = .ok (decide (toNat x = u.toNat)) := by
  unfold eqNarrow
  obtain ⟨k, hk, h1, h2, h3⟩ := filledBlocksNumber_nat x
  have hle := filled_le_iff (j := 1) h2 h3
  have hu : u.toNat < 2 ^ 32 := Nat.lt_of_lt_of_le u.isLt (Nat.pow_le_pow_right (by norm_num) hw)
  rw [hk]
  simp only [ok_bind]
  by_cases h : k ≤ 1
  · have hx := hle.mp h
    simp only [h, if_true, rd_ok hn, ok_bind]
    congr 1
    have h0 : (x[0]).toNat = toNat x := by rw [← dig_of_lt hn, dig0_of_lt (by simpa using hx)]
    rw [← h0, Bool.eq_iff_iff]
    simp only [beq_iff_eq, decide_eq_true_eq]
    constructor
    · intro h; rw [← h]; simp; exact hu
    · intro h; apply BitVec.eq_of_toNat_eq; rw [h]; simp; exact hu
  · have hx : ¬ toNat x < 2 ^ (32 * 1) := fun h' => h (hle.mpr h')
    have : toNat x ≠ u.toNat := by omega
    simp [h, this]

theorem low64_spec (hn : 1 < n) (x : Aeu n) :
    Sat (low64 x) fun v => v.toNat = toNat x % 2 ^ 64 := by
  unfold low64
  simp only [rd_ok hn, rd_ok (show 0 < n by omega), shl64_ok (show 32 < 64 by norm_num), ok_bind,
    sat_ok]
  have : (2:Nat) ^ 64 = 2 ^ (32 * 2) := by norm_num
  rw [this, toNat_mod x (show 2 ≤ n by omega), psum, psum, psum, dig_of_lt hn,
    dig_of_lt (show 0 < n by omega)]
  have h0 := block_lt x[0]
  have h1 := block_lt x[1]
  rw [BitVec.toNat_or, BitVec.toNat_shiftLeft, toNat_toU64, toNat_toU64, Nat.shiftLeft_eq,
    Nat.mod_eq_of_lt (by norm_num; omega), Nat.mul_comm, ← Nat.two_pow_add_eq_or_of_lt (by simpa using h0)]
  ring

theorem toNat_lt_two_blocks {x : Aeu n} (h : toNat x < 2 ^ (32 * 2)) : toNat x % 2 ^ 64 = toNat x :=
  Nat.mod_eq_of_lt (by simpa using h)

theorem eqU64_spec (hn : 1 < n) (x : Aeu n) (u : U64) :
    eqU64 x u = .ok (decide (toNat x = u.toNat)) := by
  unfold eqU64
  obtain ⟨k, hk, h1, h2, h3⟩ := filledBlocksNumber_nat x
  have hle := filled_le_iff (j := 2) h2 h3
  obtain ⟨v, hv, hv2⟩ := low64_spec hn x
  rw [hk]
  simp only [ok_bind]
  by_cases h : k ≤ 2
  · have hx := hle.mp h
    simp only [h, if_true, hv, ok_bind]
    congr 1
    rw [toNat_lt_two_blocks hx] at hv2
    rw [← hv2, Bool.eq_iff_iff]
    simp only [beq_iff_eq, decide_eq_true_eq]
    exact ⟨fun h => by rw [h], fun h => BitVec.eq_of_toNat_eq h⟩
  · have hx : ¬ toNat x < 2 ^ (32 * 2) := fun h' => h (hle.mpr h')
    have hu : u.toNat < 2 ^ (32 * 2) := u.isLt
    have : toNat x ≠ u.toNat := by omega
    simp [h, this]

theorem compareToNarrow_spec (hn : 0 < n) {w : Nat} (hw : w ≤ 32) (x : Aeu n) (u : BitVec w) :
    compareToNarrow x u = .ok (cmpNat (toNat x) u.toNat) := by
  unfold compareToNarrow
  obtain ⟨k, hk, h1, h2, h3⟩ := filledBlocksNumber_nat x
  have hle := filled_le_iff (j := 1) h2 h3
  have hu : u.toNat < 2 ^ 32 := Nat.lt_of_lt_of_le u.isLt (Nat.pow_le_pow_right (by norm_num) hw)
  have hu' : (u.setWidth 32).toNat = u.toNat := by simp; exact hu
  rw [hk]
  simp only [ok_bind]
  by_cases h : k > 1
  · have hx : ¬ toNat x < 2 ^ (32 * 1) := fun h' => by have := hle.mpr h'; omega
    simp only [h, if_true]
    rw [cmpNat, if_neg (by omega), if_neg (by omega)]
  · have hx := hle.mp (by omega)
    have h0 : (x[0]).toNat = toNat x := by rw [← dig_of_lt hn, dig0_of_lt (by simpa using hx)]
    simp only [h, if_false, rd_ok hn, ok_bind, gt_iff_lt, BitVec.lt_def, h0, hu', cmpNat]
    split
    · rw [if_neg (by omega), if_neg (by omega)]
    · split
      · rfl
      · rw [if_pos (by omega)]

theorem compareToU64_spec (hn : 1 < n) (x : Aeu n) (u : U64) :
    compareToU64 x u = .ok (cmpNat (toNat x) u.toNat) := by
  unfold compareToU64
  obtain ⟨k, hk, h1, h2, h3⟩ := filledBlocksNumber_nat x
  have hle := filled_le_iff (j := 2) h2 h3
  obtain ⟨v, hv, hv2⟩ := low64_spec hn x
  have hu : u.toNat < 2 ^ (32 * 2) := u.isLt
  rw [hk]
  simp only [ok_bind]
  by_cases h : k > 2
  · have hx : ¬ toNat x < 2 ^ (32 * 2) := fun h' => by have := hle.mpr h'; omega
    simp only [h, if_true]
    rw [cmpNat, if_neg (by omega), if_neg (by omega)]
  · have hx := hle.mp (by omega)
    rw [toNat_lt_two_blocks hx] at hv2
    simp only [h, if_false, hv, ok_bind, gt_iff_lt, BitVec.lt_def, hv2, cmpNat]
    split
    · rw [if_neg (by omega), if_neg (by omega)]
    · split
      · rfl
      · rw [if_pos (by omega)]

/-- With a single block the 64-bit comparisons read outside the object. -/
theorem low64_one_block (x : Aeu 1) : low64 x = .error .outOfBounds := by
  simp [low64, rd_oob]

/-! ### parity, precisionCast -/

theorem isOdd_spec (hn : 0 < n) (x : Aeu n) : isOdd x = .ok (decide (toNat x % 2 = 1)) := by
  unfold isOdd
  simp only [rd_ok hn, ok_bind]
  congr 1
  have h0 : (toNat x) % 2 = (x[0]).toNat % 2 := by
    have := toNat_digit x 0
    rw [← dig_of_lt hn, ← this]; simp
  rw [h0, Bool.eq_iff_iff]
  simp only [beq_iff_eq, decide_eq_true_eq, ← BitVec.toNat_inj, BitVec.toNat_and]
  simp [Nat.and_comm 1, Nat.and_one_is_mod]

theorem isEven_spec (hn : 0 < n) (x : Aeu n) : isEven x = .ok (decide (toNat x % 2 = 0)) := by
  unfold isEven
  simp only [rd_ok hn, ok_bind]
  congr 1
  have h0 : (toNat x) % 2 = (x[0]).toNat % 2 := by
    have := toNat_digit x 0
    rw [← dig_of_lt hn, ← this]; simp
  rw [h0, Bool.eq_iff_iff]
  simp only [beq_iff_eq, decide_eq_true_eq, ← BitVec.toNat_inj, BitVec.toNat_and]
  simp [Nat.and_comm 1, Nat.and_one_is_mod]

theorem precisionCast_spec (cfg : Cfg) (x : Aeu n) :
    Returns (precisionCast cfg m x) (toNat x % 2 ^ (32 * m)) := by
  have hmin : (if m > n then n else m) = min n m := by simp only [Nat.min_def]; split <;> split <;> omega
  unfold precisionCast
  rw [hmin]
  refine Sat.forUp (fun i (s : Aeu m) => (∀ j, j < i → dig s j = dig x j) ∧ ∀ j, i ≤ j → dig s j = 0)
    (Nat.zero_le _) (by simp) ?_ ?_
  · rintro i s _ hi ⟨h1, h2⟩
    have hin : i < n := by omega
    have him : i < m := by omega
    simp only [getBlock_spec cfg x hin, setBlock_spec cfg s _ him, ok_bind, sat_ok]
    constructor
    · intro j hj
      by_cases hji : j = i
      · subst hji; rw [dig_set_self him, dig_of_lt hin]
      · rw [dig_set_ne him hji, h1 j (by omega)]
    · intro j hj
      rw [dig_set_ne him (by omega), h2 j (by omega)]
  · rintro s ⟨h1, h2⟩
    rw [← toNat_ofNat (n := m)]
    congr 1
    apply ext_dig
    intro i hi
    rw [dig_ofNat, if_pos hi, toNat_digit]
    by_cases him : i < min n m
    · exact h1 i him
    · rw [h2 i (by omega), dig_of_ge (by omega)]

end Aeu
end AesiMP
