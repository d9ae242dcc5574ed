import Verif.Lemmas.Value

/-! # Addition, complement, increment, decrement, integral construction -/

namespace AesiMP
open Aeu

@[simp] theorem toNat_toU64 (b : Block) : (toU64 b).toNat = b.toNat := by
  simp only [toU64, BitVec.toNat_setWidth]
  exact Nat.mod_eq_of_lt (by have := b.isLt; omega)

@[simp] theorem toNat_toBlock (v : U64) : (toBlock v).toNat = v.toNat % 4294967296 := by
  simp [toBlock]

@[simp] theorem toNat_blockBase : blockBase.toNat = 4294967296 := rfl
@[simp] theorem toNat_blockMax : blockMax.toNat = 4294967295 := rfl

theorem toNat_mod_base (v : U64) : (v % blockBase).toNat = v.toNat % 4294967296 := by
  simp
theorem toNat_div_base (v : U64) : (v / blockBase).toNat = v.toNat / 4294967296 := by
  simp

theorem toNat_toBlock_mod (v : U64) : (toBlock (v % blockBase)).toNat = v.toNat % 4294967296 := by
  simp

theorem u64_add_toNat {a b : U64} (h : a.toNat + b.toNat < 18446744073709551616) :
    (a + b).toNat = a.toNat + b.toNat := by
  rw [BitVec.toNat_add]; exact Nat.mod_eq_of_lt h

theorem u64_mul_toNat {a b : U64} (h : a.toNat * b.toNat < 18446744073709551616) :
    (a * b).toNat = a.toNat * b.toNat := by
  rw [BitVec.toNat_mul]; exact Nat.mod_eq_of_lt h

theorem block_lt (b : Block) : b.toNat < 4294967296 := b.isLt

theorem psum_set_low {n : Nat} {x : Aeu n} {i k : Nat} {v : Block} (h : i < n) (hk : k ≤ i) :
    psum (dig (x.set i v)) k = psum (dig x) k :=
  psum_congr fun j hj => dig_set_ne h (by omega)

theorem carry_split (s W : Nat) :
    s % 4294967296 * W + s / 4294967296 * (W * 4294967296) = s * W := by
  conv_rhs => rw [← Nat.div_add_mod s 4294967296]
  ring

namespace Aeu
variable {n : Nat}


theorem addLine_spec (x y : Aeu n) : Sat (addLine x y) fun r =>
    toNat r.1 + r.2.toNat * 2 ^ (32 * n) = toNat x + toNat y ∧ r.2.toNat ≤ 1 := by
  refine Sat.forUp (fun i s => (∀ j, i ≤ j → dig s.1 j = dig x j) ∧
      psum (dig s.1) i + s.2.toNat * 2 ^ (32 * i) = psum (dig x) i + psum (dig y) i ∧ s.2.toNat ≤ 1)
    (Nat.zero_le n) ⟨fun _ _ => rfl, by simp [psum], by simp⟩ ?_ (fun s h => h.2)
  rintro i ⟨d, c⟩ _ hi ⟨h1, h2, h3⟩
  simp only at h1 h2 h3
  have hb1 := block_lt d[i]
  have hb2 := block_lt y[i]
  have hs : (toU64 d[i] + toU64 y[i] + c).toNat = (d[i]).toNat + (y[i]).toNat + c.toNat := by
    have : (toU64 d[i] + toU64 y[i]).toNat = (d[i]).toNat + (y[i]).toNat := by
      rw [u64_add_toNat] <;> simp only [toNat_toU64]; omega
    rw [u64_add_toNat] <;> rw [this]; omega
  simp only [rd_ok hi, wr_ok hi, ok_bind, sat_ok]
  refine ⟨?_, ?_, ?_⟩
  · intro j hj
    rw [dig_set_ne hi (by omega), h1 j (by omega)]
  · rw [psum, psum_set_low hi (le_refl _), dig_set_self hi, toNat_toBlock_mod, toNat_div_base, hs,
      psum, psum, ← h1 i (le_refl _), dig_of_lt hi, dig_of_lt hi, pow32_succ]
    have := carry_split ((d[i]).toNat + (y[i]).toNat + c.toNat) (2 ^ (32 * i))
    rw [Nat.add_assoc, this]
    linarith
  · rw [toNat_div_base, hs]; omega

theorem makeComplement_spec (x : Aeu n) : Sat (makeComplement x) fun r =>
    toNat r.1 + r.2.toNat * 2 ^ (32 * n) + toNat x = 2 ^ (32 * n) ∧ r.2.toNat ≤ 1 := by
  refine Sat.forUp (fun i s => (∀ j, i ≤ j → dig s.1 j = dig x j) ∧
      psum (dig s.1) i + s.2.toNat * 2 ^ (32 * i) + psum (dig x) i = 2 ^ (32 * i) ∧ s.2.toNat ≤ 1)
    (Nat.zero_le n) ⟨fun _ _ => rfl, by simp [psum], by simp⟩ ?_ (fun s h => h.2)
  rintro i ⟨d, c⟩ _ hi ⟨h1, h2, h3⟩
  simp only at h1 h2 h3
  have hb1 := block_lt d[i]
  have hs : (blockBase - 1#64 - toU64 d[i] + c).toNat = 4294967295 - (d[i]).toNat + c.toNat := by
    have : (blockBase - 1#64 - toU64 d[i]).toNat = 4294967295 - (d[i]).toNat := by
      rw [BitVec.toNat_sub_of_le]
      · simp [blockBase]
      · simp only [BitVec.le_def, toNat_toU64]; simp [blockBase]; omega
    rw [u64_add_toNat] <;> rw [this]; omega
  simp only [rd_ok hi, wr_ok hi, ok_bind, sat_ok]
  refine ⟨?_, ?_, ?_⟩
  · intro j hj
    rw [dig_set_ne hi (by omega), h1 j (by omega)]
  · rw [psum, psum_set_low hi (le_refl _), dig_set_self hi, toNat_toBlock_mod, toNat_div_base, hs,
      psum, ← h1 i (le_refl _), dig_of_lt hi, pow32_succ]
    have := carry_split (4294967295 - (d[i]).toNat + c.toNat) (2 ^ (32 * i))
    rw [Nat.add_assoc (psum _ _), this]
    obtain ⟨k, hk⟩ : ∃ k, 4294967295 = (d[i]).toNat + k := ⟨4294967295 - (d[i]).toNat, by omega⟩
    rw [show 4294967295 - (d[i]).toNat = k by omega,
      show 4294967296 = (d[i]).toNat + k + 1 by omega]
    linarith
  · rw [toNat_div_base, hs]; omega

/-- Unsigned addition. -/
theorem add_spec (x y : Aeu n) : Returns (add x y) ((toNat x + toNat y) % 2 ^ (32 * n)) := by
  obtain ⟨r, hr, h1, h2⟩ := addLine_spec x y
  refine ⟨r.1, by simp [add, hr], ?_⟩
  rw [← h1, Nat.add_mul_mod_self_right, Nat.mod_eq_of_lt (toNat_lt _)]

theorem neg_spec (x : Aeu n) : Returns (neg x) ((2 ^ (32 * n) - toNat x) % 2 ^ (32 * n)) := by
  obtain ⟨r, hr, h1, h2⟩ := makeComplement_spec x
  refine ⟨r.1, by simp [neg, hr], ?_⟩
  rw [show 2 ^ (32 * n) - toNat x = toNat r.1 + r.2.toNat * 2 ^ (32 * n) by omega,
    Nat.add_mul_mod_self_right, Nat.mod_eq_of_lt (toNat_lt _)]

/-- Unsigned subtraction. -/
theorem sub_spec (x y : Aeu n) :
    Returns (sub x y) ((toNat x + (2 ^ (32 * n) - toNat y)) % 2 ^ (32 * n)) := by
  obtain ⟨m, hm, h1⟩ := neg_spec y
  obtain ⟨r, hr, h2⟩ := add_spec x m
  refine ⟨r, by simp [sub, hm, hr], ?_⟩
  rw [h2, h1, Nat.add_mod_mod]

theorem sub_spec_le {x y : Aeu n} (h : toNat y ≤ toNat x) :
    Returns (sub x y) (toNat x - toNat y) := by
  obtain ⟨r, hr, h2⟩ := sub_spec x y
  refine ⟨r, hr, ?_⟩
  have hx := toNat_lt x
  have hy := toNat_lt y
  rw [h2, show toNat x + (2 ^ (32 * n) - toNat y) = (toNat x - toNat y) + 2 ^ (32 * n) by omega,
    Nat.add_mod_right, Nat.mod_eq_of_lt (by omega)]

/-- Integral construction, from any indeterminate content. -/
theorem ofUnsignedJ_spec {w : Nat} (hw : w ≤ 64) (junk : Aeu n) (v : BitVec w) :
    Returns (ofUnsignedJ junk v) (v.toNat % 2 ^ (32 * n)) := by
  unfold ofUnsignedJ
  by_cases hv : v = 0#w
  · subst hv; simp [Returns]
  · simp only [ne_eq, hv, not_false_eq_true, if_true]
    refine Sat.bind (P := fun s => toNat s.1 = v.toNat % 2 ^ (32 * n)) ?_ (fun s hs => Sat.ok hs)
    refine Sat.forUp (fun i (s : Aeu n × U64) => psum (dig s.1) i = v.toNat % 2 ^ (32 * i) ∧
      s.2.toNat = v.toNat / 2 ^ (32 * i)) (Nat.zero_le n) ⟨by simp [psum, Nat.mod_one], ?_⟩ ?_
      (fun s h => h.1)
    · simp only [BitVec.toNat_setWidth]
      have : v.toNat < 2 ^ 64 := Nat.lt_of_lt_of_le v.isLt (Nat.pow_le_pow_right (by norm_num) hw)
      simpa using this
    · rintro i ⟨d, t⟩ _ hi ⟨h1, h2⟩
      simp only at h1 h2
      simp only [wr_ok hi, ok_bind, sat_ok]
      constructor
      · rw [psum, psum_set_low hi (le_refl _), dig_set_self hi, toNat_toBlock_mod, h1, h2, pow32_succ,
          Nat.mod_mul]
        ring
      · rw [toNat_div_base, h2, Nat.div_div_eq_div_mul, pow32_succ]

theorem ofUnsigned_spec {w : Nat} (hw : w ≤ 64) (v : BitVec w) :
    Returns (ofUnsigned n v) (v.toNat % 2 ^ (32 * n)) := ofUnsignedJ_spec hw _ v

theorem ofUnsigned32_one (hn : 0 < n) : Returns (ofUnsigned n (1#32)) 1 := by
  have := ofUnsigned_spec (n := n) (by norm_num) (1#32)
  rwa [show (1#32).toNat % 2 ^ (32 * n) = 1 from Nat.mod_eq_of_lt (by
    simpa using Nat.one_lt_two_pow (by omega))] at this

theorem ofUnsigned32_zero : Returns (ofUnsigned n (0#32)) 0 := by
  have := ofUnsigned_spec (n := n) (by norm_num) (0#32)
  simpa using this

/-- Prefix increment. -/
theorem inc_spec (x : Aeu n) : Returns (inc x) ((toNat x + 1) % 2 ^ (32 * n)) := by
  unfold inc
  refine Sat.bind (P := CtlP (fun r => toNat r + 2 ^ (32 * n) = toNat x + 1)
    (fun r => toNat r = toNat x + 1)) ?_ ?_
  · refine Sat.forUpC (fun i s => (∀ j, i ≤ j → dig s j = dig x j) ∧ (∀ j, j < i → dig s j = 0) ∧
      toNat s + 2 ^ (32 * i) = toNat x + 1) (fun r => toNat r = toNat x + 1) (Nat.zero_le n) ⟨fun _ _ => rfl, by simp, by simp⟩ ?_ ?_
    · rintro i s _ hi ⟨h1, h2, h3⟩
      simp only [rd_ok hi, wr_ok hi, ok_bind]
      have hb := block_lt s[i]
      split
      · rename_i hlt
        simp only [BitVec.lt_def, toNat_blockMax] at hlt
        simp only [sat_ok, ctlP_leave]
        have hset := toNat_set (x := s) (v := s[i] + 1#32) hi
        rw [dig_of_lt hi, show (s[i] + 1#32).toNat = (s[i]).toNat + 1 by
          simp [BitVec.toNat_add]; omega] at hset
        linarith
      · rename_i hlt
        simp only [BitVec.lt_def, toNat_blockMax] at hlt
        simp only [sat_ok, ctlP_next]
        have hset := toNat_set (x := s) (v := 0#32) hi
        rw [dig_of_lt hi, show (s[i]).toNat = 4294967295 by omega] at hset
        refine ⟨fun j hj => ?_, fun j hj => ?_, ?_⟩
        · rw [dig_set_ne hi (by omega), h1 j (by omega)]
        · by_cases hji : j = i
          · subst hji; simp [dig_set_self hi]
          · rw [dig_set_ne hi hji, h2 j (by omega)]
        · rw [pow32_succ]; simp at hset; linarith
    · rintro (s | r) h
      · exact h.2.2
      · exact h
  · rintro (s | r) h
    · simp only [ctlP_next] at h
      refine Sat.ok ?_
      rw [← h, Nat.add_mod_right, Nat.mod_eq_of_lt (toNat_lt _)]
    · simp only [ctlP_leave] at h
      refine Sat.ok ?_
      rw [← h, Nat.mod_eq_of_lt (toNat_lt _)]

/-- Prefix decrement. -/
theorem dec_spec (x : Aeu n) :
    Returns (dec x) ((toNat x + (2 ^ (32 * n) - 1)) % 2 ^ (32 * n)) := by
  unfold dec
  refine Sat.bind (P := CtlP (fun r => toNat r + 1 = toNat x + 2 ^ (32 * n))
    (fun r => toNat r + 1 = toNat x)) ?_ ?_
  · refine Sat.forUpC (fun i s => (∀ j, i ≤ j → dig s j = dig x j) ∧
      toNat s + 1 = toNat x + 2 ^ (32 * i)) (fun r => toNat r + 1 = toNat x) (Nat.zero_le n) ⟨fun _ _ => rfl, by simp⟩ ?_ ?_
    · rintro i s _ hi ⟨h1, h3⟩
      simp only [rd_ok hi, wr_ok hi, ok_bind]
      have hb := block_lt s[i]
      split
      · rename_i hlt
        simp only [gt_iff_lt, BitVec.lt_def] at hlt
        simp only [sat_ok, ctlP_leave]
        have hset := toNat_set (x := s) (v := s[i] - 1#32) hi
        obtain ⟨k, hk⟩ : ∃ k, (s[i]).toNat = k + 1 := ⟨(s[i]).toNat - 1, by simp at hlt; omega⟩
        rw [dig_of_lt hi, show (s[i] - 1#32).toNat = k by
          rw [BitVec.toNat_sub_of_le]
          · simp [hk]
          · simp [BitVec.le_def, hk], hk] at hset
        linarith
      · rename_i hlt
        simp only [gt_iff_lt, BitVec.lt_def] at hlt
        simp only [sat_ok, ctlP_next]
        have hset := toNat_set (x := s) (v := blockMax) hi
        rw [dig_of_lt hi, show (s[i]).toNat = 0 by simp at hlt; simp [hlt]] at hset
        refine ⟨fun j hj => ?_, ?_⟩
        · rw [dig_set_ne hi (by omega), h1 j (by omega)]
        · rw [pow32_succ]; simp at hset; linarith
    · rintro (s | r) h
      · exact h.2
      · exact h
  · rintro (s | r) h
    · simp only [ctlP_next] at h
      refine Sat.ok ?_
      have hp := pow32_pos n
      rw [show toNat x + (2 ^ (32 * n) - 1) = toNat s by omega, Nat.mod_eq_of_lt (toNat_lt _)]
    · simp only [ctlP_leave] at h
      refine Sat.ok ?_
      have hp := pow32_pos n
      rw [show toNat x + (2 ^ (32 * n) - 1) = toNat r + 2 ^ (32 * n) by omega, Nat.add_mod_right,
        Nat.mod_eq_of_lt (toNat_lt _)]

/-- Addition of a built-in value: exact unless the 64-bit sum of a block and the addendum wraps. -/
theorem addBuiltin_spec {w : Nat} (hw0 : 0 < w) (hw : w ≤ 64) (x : Aeu n) (u : BitVec w)
    (hu : u.toNat ≤ 2 ^ 64 - 2 ^ 32) :
    Returns (addBuiltin x u) ((toNat x + u.toNat) % 2 ^ (32 * n)) := by
  unfold addBuiltin
  refine Sat.bind (P := fun s => ∃ c, toNat s.1 + c * 2 ^ (32 * n) = toNat x + u.toNat) ?_ ?_
  · refine Sat.forUp (fun i s => (∀ j, i ≤ j → dig s.1 j = dig x j) ∧
      psum (dig s.1) i + s.2.toNat * 2 ^ (32 * i) = psum (dig x) i + u.toNat ∧
      s.2.toNat ≤ 2 ^ 64 - 2 ^ 32)
      (Nat.zero_le n) ⟨fun _ _ => rfl, by simp [psum], hu⟩ ?_ (fun s h => ⟨_, h.2.1⟩)
    rintro i ⟨d, c⟩ _ hi ⟨h1, h2, h3⟩
    simp only at h1 h2 h3
    have hb1 := block_lt d[i]
    have hcw := c.isLt
    have hc64 : c.toNat < 2 ^ 64 := Nat.lt_of_lt_of_le hcw (Nat.pow_le_pow_right (by norm_num) hw)
    have hs : (toU64 d[i] + c.setWidth 64).toNat = (d[i]).toNat + c.toNat := by
      rw [u64_add_toNat] <;> simp only [toNat_toU64, BitVec.toNat_setWidth, Nat.mod_eq_of_lt hc64]
      omega
    have hdiv : ((d[i]).toNat + c.toNat) / 4294967296 < 2 ^ w := by
      rw [Nat.div_lt_iff_lt_mul (by norm_num)]
      have : 1 ≤ 2 ^ w := Nat.one_le_two_pow
      have : 2 ≤ 2 ^ w := by
        calc 2 = 2 ^ 1 := rfl
          _ ≤ 2 ^ w := Nat.pow_le_pow_right (by norm_num) hw0
      omega
    simp only [rd_ok hi, wr_ok hi, ok_bind, sat_ok]
    refine ⟨?_, ?_, ?_⟩
    · intro j hj
      rw [dig_set_ne hi (by omega), h1 j (by omega)]
    · rw [psum, psum_set_low hi (le_refl _), dig_set_self hi, toNat_toBlock_mod,
        BitVec.toNat_setWidth, toNat_div_base, hs, Nat.mod_eq_of_lt hdiv,
        psum, ← h1 i (le_refl _), dig_of_lt hi, pow32_succ]
      have := carry_split ((d[i]).toNat + c.toNat) (2 ^ (32 * i))
      rw [Nat.add_assoc, this]
      linarith
    · rw [BitVec.toNat_setWidth, toNat_div_base, hs, Nat.mod_eq_of_lt hdiv]
      omega
  · rintro s ⟨c, hc⟩
    refine Sat.ok ?_
    rw [← hc, Nat.add_mul_mod_self_right, Nat.mod_eq_of_lt (toNat_lt _)]

/-- Addition of a built-in value, exactly: the only thing lost is `2^64`, when the first 64-bit sum
wraps. -/
theorem addBuiltin_exact {w : Nat} (hw0 : 0 < w) (hw : w ≤ 64) (x : Aeu n) (u : BitVec w) :
    Returns (addBuiltin x u)
      ((toNat x + u.toNat - if 2 ^ 64 ≤ dig x 0 + u.toNat then 2 ^ 64 else 0) % 2 ^ (32 * n)) := by
  have hu64 : u.toNat < 2 ^ 64 := Nat.lt_of_lt_of_le u.isLt (Nat.pow_le_pow_right (by norm_num) hw)
  generalize hL : (if 2 ^ 64 ≤ dig x 0 + u.toNat then 2 ^ 64 else 0) = L
  unfold addBuiltin
  refine Sat.bind (P := fun s => ∃ c, toNat s.1 + c * 2 ^ (32 * n) + (if n = 0 then 0 else L)
      = toNat x + u.toNat) ?_ ?_
  · refine Sat.forUp (fun i s => (∀ j, i ≤ j → dig s.1 j = dig x j) ∧
      psum (dig s.1) i + s.2.toNat * 2 ^ (32 * i) + (if i = 0 then 0 else L)
        = psum (dig x) i + u.toNat ∧
      (i ≠ 0 → s.2.toNat ≤ 2 ^ 64 - 2 ^ 32) ∧ (i = 0 → s.2 = u))
      (Nat.zero_le n) ⟨fun _ _ => rfl, by simp [psum], by simp, fun _ => rfl⟩ ?_
      (fun s h => ⟨_, h.2.1⟩)
    rintro i ⟨d, c⟩ _ hi ⟨h1, h2, h3, h4⟩
    simp only at h1 h2 h3 h4
    have hb1 := block_lt d[i]
    have hcw := c.isLt
    have hc64 : c.toNat < 2 ^ 64 := Nat.lt_of_lt_of_le hcw (Nat.pow_le_pow_right (by norm_num) hw)
    have hLi : ∃ L', (toU64 d[i] + c.setWidth 64).toNat + L' = (d[i]).toNat + c.toNat ∧
        L' + (if i = 0 then 0 else L) = L := by
      by_cases h0 : i = 0
      · subst h0
        have hd : dig x 0 = (d[0]).toNat := by rw [← h1 0 (le_refl _), dig_of_lt hi]
        have hcu : c.toNat = u.toNat := by rw [h4 rfl]
        refine ⟨L, ?_, by simp⟩
        rw [BitVec.toNat_add]
        simp only [toNat_toU64, BitVec.toNat_setWidth, Nat.mod_eq_of_lt hc64]
        rw [← hL, hd, hcu]
        split <;> omega
      · have h3' := h3 h0
        refine ⟨0, ?_, by simp [h0]⟩
        rw [u64_add_toNat] <;> simp only [toNat_toU64, BitVec.toNat_setWidth, Nat.mod_eq_of_lt hc64]
        · omega
        · omega
    obtain ⟨L', hs, hL'⟩ := hLi
    have hslt := (toU64 d[i] + c.setWidth 64).isLt
    generalize hS : (toU64 d[i] + c.setWidth 64) = S at hs hslt
    have hdiv : S.toNat / 4294967296 < 2 ^ w := by
      rw [Nat.div_lt_iff_lt_mul (by norm_num)]
      have : 2 ≤ 2 ^ w := by
        calc 2 = 2 ^ 1 := rfl
          _ ≤ 2 ^ w := Nat.pow_le_pow_right (by norm_num) hw0
      omega
    simp only [rd_ok hi, wr_ok hi, ok_bind, sat_ok, hS]
    refine ⟨?_, ?_, ?_, by omega⟩
    · intro j hj
      rw [dig_set_ne hi (by omega), h1 j (by omega)]
    · rw [psum, psum_set_low hi (le_refl _), dig_set_self hi, toNat_toBlock_mod,
        BitVec.toNat_setWidth, toNat_div_base, Nat.mod_eq_of_lt hdiv,
        psum, ← h1 i (le_refl _), dig_of_lt hi, pow32_succ, if_neg (by omega)]
      have := carry_split S.toNat (2 ^ (32 * i))
      rw [Nat.add_assoc (psum _ _), this]
      by_cases h0 : i = 0
      · subst h0
        simp only [if_true, Nat.mul_zero, Nat.pow_zero] at h2 hL' ⊢
        omega
      · rw [if_neg h0] at h2 hL'
        have : L' = 0 := by omega
        subst this
        have hs' : S.toNat = (d[i]).toNat + c.toNat := by omega
        rw [hs']; linarith
    · intro _
      rw [BitVec.toNat_setWidth, toNat_div_base, Nat.mod_eq_of_lt hdiv]
      omega
  · rintro s ⟨c, hc⟩
    refine Sat.ok ?_
    have : (if n = 0 then 0 else L) = L := by
      by_cases h0 : n = 0
      · subst h0
        rw [if_pos rfl, ← hL, if_neg]
        simp only [dig, Nat.lt_irrefl, dite_false]
        omega
      · rw [if_neg h0]
    rw [this] at hc
    rw [show toNat x + u.toNat - L = toNat s.1 + c * 2 ^ (32 * n) by omega,
      Nat.add_mul_mod_self_right, Nat.mod_eq_of_lt (toNat_lt _)]

end Aeu
end AesiMP
