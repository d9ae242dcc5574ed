import Verif.Lemmas.Access
import Mathlib.Data.Nat.ModEq

/-! # Multiplication -/

namespace AesiMP
open Aeu
namespace Aeu
variable {n : Nat}

theorem mulRow_spec (buf : Aeu n) (i : Nat) (a : U64) (digit : Nat → Exec U64) (sl : Nat)
    (D : Nat → Nat) (hi : i < n) (ha : a.toNat < 4294967296)
    (hD : ∀ j, j < sl → j < n - i → Sat (digit j) fun d => d.toNat = D j ∧ D j < 4294967296) :
    Sat (mulRow buf i a digit sl) fun r =>
      (∀ j, i + min sl (n - i) ≤ j → dig r.1 j = dig buf j) ∧
      toNat r.1 + r.2.toNat * 2 ^ (32 * (i + min sl (n - i))) =
        toNat buf + a.toNat * psum D (min sl (n - i)) * 2 ^ (32 * i) ∧
      r.2.toNat < 4294967296 := by
  unfold mulRow
  refine Sat.forUp (fun k (s : Aeu n × U64) => (∀ j, i + k ≤ j → dig s.1 j = dig buf j) ∧
      toNat s.1 + s.2.toNat * 2 ^ (32 * (i + k)) = toNat buf + a.toNat * psum D k * 2 ^ (32 * i) ∧
      s.2.toNat < 4294967296) (Nat.zero_le _) ⟨fun _ _ => rfl, by simp [psum], by simp⟩ ?_
    (fun s h => h)
  rintro k ⟨b, c⟩ _ hk ⟨h1, h2, h3⟩
  simp only at h1 h2 h3
  obtain ⟨d, hd, hdD, hDlt⟩ := hD k (by omega) (by omega)
  have hik : i + k < n := by omega
  have hbl := block_lt b[i + k]
  have hmul : a.toNat * d.toNat ≤ 4294967295 * 4294967295 := by
    apply Nat.mul_le_mul <;> omega
  have hp : (a * d + c).toNat = a.toNat * d.toNat + c.toNat := by
    have : (a * d).toNat = a.toNat * d.toNat := u64_mul_toNat (by omega)
    rw [u64_add_toNat] <;> rw [this]; omega
  have hps : (toU64 b[i + k] + (a * d + c) % blockBase).toNat =
      (b[i + k]).toNat + (a.toNat * d.toNat + c.toNat) % 4294967296 := by
    rw [u64_add_toNat] <;> simp only [toNat_toU64, toNat_mod_base, hp]
    omega
  have hcar : ((a * d + c) / blockBase + (toU64 b[i + k] + (a * d + c) % blockBase) / blockBase).toNat =
      (a.toNat * d.toNat + c.toNat) / 4294967296 +
      ((b[i + k]).toNat + (a.toNat * d.toNat + c.toNat) % 4294967296) / 4294967296 := by
    rw [u64_add_toNat] <;> simp only [toNat_div_base, hp, hps]
    omega
  simp only [hd, rd_ok hik, wr_ok hik, ok_bind, sat_ok]
  refine ⟨?_, ?_, ?_⟩
  · intro j hj
    rw [dig_set_ne hik (by omega), h1 j (by omega)]
  · rw [hcar]
    have hset := toNat_set (x := b)
      (v := toBlock ((toU64 b[i + k] + (a * d + c) % blockBase) % blockBase)) hik
    rw [toNat_toBlock_mod, hps, dig_of_lt hik] at hset
    have hexp : a.toNat * (psum D k + d.toNat * 2 ^ (32 * k)) * 2 ^ (32 * i) =
        a.toNat * psum D k * 2 ^ (32 * i) + (a.toNat * d.toNat) * 2 ^ (32 * (i + k)) := by
      rw [Nat.mul_add 32, Nat.pow_add]; ring
    rw [psum, ← hdD, hexp, ← Nat.add_assoc i k 1, pow32_succ]
    generalize a.toNat * psum D k * 2 ^ (32 * i) = S at *
    generalize 2 ^ (32 * (i + k)) = W at *
    generalize a.toNat * d.toNat = p at *
    have e1 : p + c.toNat = (p + c.toNat) / 4294967296 * 4294967296 + (p + c.toNat) % 4294967296 := by
      omega
    generalize (p + c.toNat) / 4294967296 = q1 at *
    generalize (p + c.toNat) % 4294967296 = r1 at *
    have e2 : (b[i + k]).toNat + r1 =
      ((b[i + k]).toNat + r1) / 4294967296 * 4294967296 + ((b[i + k]).toNat + r1) % 4294967296 := by
      omega
    generalize ((b[i + k]).toNat + r1) / 4294967296 = q2 at *
    generalize ((b[i + k]).toNat + r1) % 4294967296 = r2 at *
    have e1' := congrArg (· * W) e1
    have e2' := congrArg (· * W) e2
    simp only [Nat.add_mul] at e1' e2'
    generalize (b[i + k]).toNat = b0 at *
    linarith
  · rw [hcar]; omega

/-- One iteration of the outer loop of the schoolbook multiplication. -/
theorem mulStep_spec (buf : Aeu n) (i : Nat) (a : U64) (digit : Nat → Exec U64) (sl : Nat)
    (D : Nat → Nat) (hi : i < n) (ha : a.toNat < 4294967296) (P : Prop) [Decidable P]
    (hP : P ↔ sl + i < n)
    (hD : ∀ j, j < sl → j < n - i → Sat (digit j) fun d => d.toNat = D j ∧ D j < 4294967296)
    (hz : ∀ j, i + sl ≤ j → dig buf j = 0) :
    Sat (do
      let r ← mulRow buf i a digit sl
      let (buffer, carryOut) := r
      if P then do
        let b ← rd buffer (sl + i)
        wr buffer (sl + i) (b + toBlock carryOut)
      else .ok buffer) fun r =>
      (∀ j, i + 1 + sl ≤ j → dig r j = 0) ∧
      toNat r ≡ toNat buf + a.toNat * psum D sl * 2 ^ (32 * i) [MOD 2 ^ (32 * n)] := by
  refine Sat.bind (mulRow_spec buf i a digit sl D hi ha hD) ?_
  rintro ⟨b, c⟩ ⟨h1, h2, h3⟩
  simp only at h1 h2 h3 ⊢
  by_cases hp : P
  · have hs := hP.mp hp
    simp only [hp, if_true, rd_ok hs, wr_ok hs, ok_bind, sat_ok]
    have hk : min sl (n - i) = sl := by omega
    rw [hk] at h1 h2
    have hb0 : (b[sl + i]).toNat = 0 := by
      rw [← dig_of_lt hs, h1 _ (by omega), hz _ (by omega)]
    have hc : (b[sl + i] + toBlock c).toNat = c.toNat := by
      rw [BitVec.toNat_add, hb0, toNat_toBlock, Nat.mod_eq_of_lt h3, Nat.zero_add]
      exact Nat.mod_eq_of_lt h3
    constructor
    · intro j hj
      rw [dig_set_ne hs (by omega), h1 j (by omega), hz j (by omega)]
    · have hset := toNat_set (x := b) (v := b[sl + i] + toBlock c) hs
      rw [hc, dig_of_lt hs, hb0, Nat.zero_mul, Nat.add_zero] at hset
      rw [hset, show sl + i = i + sl from Nat.add_comm _ _, h2]
  · have hs : ¬ sl + i < n := fun h => hp (hP.mpr h)
    simp only [hp, if_false, sat_ok]
    have hk : min sl (n - i) = n - i := by omega
    rw [hk, Nat.add_sub_cancel' (le_of_lt hi)] at h1 h2
    constructor
    · intro j hj
      rw [dig_of_ge (by omega)]
    · have hsl : sl = (n - i) + (sl - (n - i)) := by omega
      have e1 : toNat b + c.toNat * 2 ^ (32 * n) ≡ toNat b [MOD 2 ^ (32 * n)] := by
        simp [Nat.ModEq]
      refine e1.symm.trans ?_
      rw [h2]
      apply Nat.ModEq.add_left
      conv_rhs => rw [hsl, psum_add]
      have e2 : a.toNat * (psum D (n - i) + psum (fun j => D (j + (n - i))) (sl - (n - i)) *
          2 ^ (32 * (n - i))) * 2 ^ (32 * i) = a.toNat * psum D (n - i) * 2 ^ (32 * i) +
          (a.toNat * psum (fun j => D (j + (n - i))) (sl - (n - i))) * 2 ^ (32 * n) := by
        have : 2 ^ (32 * n) = 2 ^ (32 * (n - i)) * 2 ^ (32 * i) := by
          rw [← Nat.pow_add]; congr 1; omega
        rw [this]; ring
      rw [e2]
      simp [Nat.ModEq]

theorem schoolbook (x : Aeu n) (ll sl : Nat) (D : Nat → Nat)
    (body : Nat → Aeu n → Exec (Aeu n))
    (hbody : ∀ i buf, i < ll → (∀ j, i + sl ≤ j → dig buf j = 0) → Sat (body i buf) fun r =>
      (∀ j, i + 1 + sl ≤ j → dig r j = 0) ∧
      toNat r ≡ toNat buf + dig x i * psum D sl * 2 ^ (32 * i) [MOD 2 ^ (32 * n)]) :
    Returns (forUp 0 ll (zero n) body) (psum (dig x) ll * psum D sl % 2 ^ (32 * n)) := by
  refine Sat.forUp (fun i (s : Aeu n) => (∀ j, i + sl ≤ j → dig s j = 0) ∧
    toNat s ≡ psum (dig x) i * psum D sl [MOD 2 ^ (32 * n)]) (Nat.zero_le _)
    ⟨by simp, by simp [psum]; rfl⟩ ?_ ?_
  · rintro i s _ hi ⟨h1, h2⟩
    refine Sat.mono (hbody i s hi h1) ?_
    rintro r ⟨h3, h4⟩
    refine ⟨h3, h4.trans ?_⟩
    refine (h2.add_right _).trans ?_
    rw [psum]
    have : psum (dig x) i * psum D sl + dig x i * psum D sl * 2 ^ (32 * i) =
      (psum (dig x) i + dig x i * 2 ^ (32 * i)) * psum D sl := by ring
    rw [this]
  · rintro s ⟨_, h⟩
    have : toNat s % 2 ^ (32 * n) = _ := h
    rwa [Nat.mod_eq_of_lt (toNat_lt s)] at this

theorem multiplyLines_spec (x y : Aeu n) (ll sl : Nat) (hll : ll ≤ n) (hsl : sl ≤ n) :
    Returns (multiplyLines x ll y sl)
      (psum (dig x) ll * psum (dig y) sl % 2 ^ (32 * n)) := by
  apply schoolbook x ll sl (dig y)
  intro i buf hi hz
  have hin : i < n := by omega
  simp only [rd_ok hin, ok_bind]
  have := mulStep_spec buf i (toU64 x[i])
    (fun j => do let s ← rd y j; .ok (toU64 s)) sl (dig y) hin (by simpa using block_lt x[i])
    (sl < n ∧ sl + i < n) (by omega) ?_ hz
  · rw [toNat_toU64, ← dig_of_lt hin] at this
    exact this
  · intro j hj _
    have hjn : j < n := by omega
    simp only [rd_ok hjn, ok_bind, sat_ok, toNat_toU64]
    exact ⟨(dig_of_lt hjn).symm, dig_lt _ _⟩

/-- Unsigned multiplication. -/
theorem mul_spec (x y : Aeu n) : Returns (mul x y) (toNat x * toNat y % 2 ^ (32 * n)) := by
  unfold mul
  obtain ⟨k, hk, hk1, hk2, _⟩ := filledBlocksNumber_spec x
  obtain ⟨l, hl, hl1, hl2, _⟩ := filledBlocksNumber_spec y
  rw [hk, hl]
  have ex := psum_dig_eq_of_high_zero x hk1 (fun i h _ => hk2 i h)
  have ey := psum_dig_eq_of_high_zero y hl1 (fun i h _ => hl2 i h)
  simp only [ok_bind]
  split
  · have := multiplyLines_spec x y k l hk1 hl1
    rwa [ex, ey] at this
  · have := multiplyLines_spec y x l k hl1 hk1
    rwa [ex, ey, Nat.mul_comm] at this

/-- Multiplication by a `uint64_t`. -/
theorem mulU64_spec (x : Aeu n) (f : U64) :
    Returns (mulU64 x f) (toNat x * f.toNat % 2 ^ (32 * n)) := by
  unfold mulU64
  obtain ⟨k, hk, hk1, hk2, _⟩ := filledBlocksNumber_spec x
  rw [hk]
  have ex := psum_dig_eq_of_high_zero x hk1 (fun i h _ => hk2 i h)
  simp only [ok_bind]
  set sl := if f > toU64 blockMax then 2 else 1 with hsl
  have hf := f.isLt
  have eD : psum (fun j => f.toNat / 2 ^ (32 * j) % 4294967296) sl = f.toNat := by
    rw [psum_div_mod]
    rw [hsl]; split
    · exact Nat.mod_eq_of_lt (by simpa using hf)
    · rename_i h
      simp only [gt_iff_lt, BitVec.lt_def, toNat_toU64, toNat_blockMax] at h
      exact Nat.mod_eq_of_lt (by simp; omega)
  have hsl2 : sl ≤ 2 := by rw [hsl]; split <;> omega
  rw [← ex]
  conv in f.toNat => rw [← eD]
  apply schoolbook x k sl
  intro i buf hi hz
  have hin : i < n := by omega
  simp only [rd_ok hin, ok_bind]
  have := mulStep_spec buf i (toU64 x[i])
    (fun j => do let g ← shr64 f (32 * j); .ok (g &&& 0x00000000ffffffff#64)) sl
    (fun j => f.toNat / 2 ^ (32 * j) % 4294967296) hin (by simpa using block_lt x[i])
    (sl + i < n) (by omega) ?_ hz
  · rw [toNat_toU64, ← dig_of_lt hin] at this
    exact this
  · intro j hj _
    have h64 : 32 * j < 64 := by omega
    simp only [shr64_ok h64, ok_bind, sat_ok]
    refine ⟨?_, Nat.mod_lt _ (by norm_num)⟩
    rw [BitVec.toNat_and, BitVec.toNat_ushiftRight, Nat.shiftRight_eq_div_pow]
    have := Nat.and_two_pow_sub_one_eq_mod (f.toNat / 2 ^ (32 * j)) 32
    simpa using this

/-- Multiplication by a factor of a narrower type (and, on LP64, by an `unsigned long long`):
exact when the factor is at most `2^32`. -/
theorem mulNarrow_spec {w : Nat} (x : Aeu n) (f : BitVec w)
    (hf : f.toNat ≤ 4294967296) :
    Returns (mulNarrow x f) (toNat x * f.toNat % 2 ^ (32 * n)) := by
  unfold mulNarrow
  have hf64 : (f.setWidth 64).toNat = f.toNat := by
    simp; omega
  refine Sat.bind (P := fun s => ∃ c, toNat s.1 + c * 2 ^ (32 * n) = toNat x * f.toNat) ?_ ?_
  · refine Sat.forUp (fun i s => (∀ j, i ≤ j → dig s.1 j = dig x j) ∧
      psum (dig s.1) i + s.2.toNat * 2 ^ (32 * i) = psum (dig x) i * f.toNat ∧
      s.2.toNat < 4294967296)
      (Nat.zero_le n) ⟨fun _ _ => rfl, by simp [psum], by simp⟩ ?_ (fun s h => ⟨_, h.2.1⟩)
    rintro i ⟨d, c⟩ _ hi ⟨h1, h2, h3⟩
    simp only at h1 h2 h3
    have hb1 := block_lt d[i]
    have hmul : f.toNat * (d[i]).toNat ≤ 4294967296 * 4294967295 := by
      apply Nat.mul_le_mul <;> omega
    have hs : (f.setWidth 64 * toU64 d[i] + c).toNat = f.toNat * (d[i]).toNat + c.toNat := by
      have : (f.setWidth 64 * toU64 d[i]).toNat = f.toNat * (d[i]).toNat := by
        rw [u64_mul_toNat] <;> rw [hf64, toNat_toU64]; omega
      rw [u64_add_toNat] <;> rw [this]; omega
    simp only [rd_ok hi, wr_ok hi, ok_bind, sat_ok]
    refine ⟨?_, ?_, ?_⟩
    · intro j hj
      rw [dig_set_ne hi (by omega), h1 j (by omega)]
    · rw [psum, psum_set_low hi (le_refl _), dig_set_self hi, toNat_toBlock_mod, toNat_div_base, hs,
        psum, ← h1 i (le_refl _), dig_of_lt hi, pow32_succ]
      have := carry_split (f.toNat * (d[i]).toNat + c.toNat) (2 ^ (32 * i))
      rw [Nat.add_assoc, this, Nat.add_mul (psum (dig x) i), ← h2]
      ring
    · rw [toNat_div_base, hs]; omega
  · rintro s ⟨c, hc⟩
    refine Sat.ok ?_
    rw [← hc, Nat.add_mul_mod_self_right, Nat.mod_eq_of_lt (toNat_lt _)]

theorem u64_mul_add_toNat (a b c : U64) :
    (a * b + c).toNat = (a.toNat * b.toNat + c.toNat) % 2 ^ 64 := by
  rw [BitVec.toNat_add, BitVec.toNat_mul, Nat.mod_add_mod]

/-- Multiplication through the narrow path by any 64-bit factor: what is lost is a multiple of
`2^64`. -/
theorem mulNarrow_lossy {w : Nat} (hw : w ≤ 64) (x : Aeu n) (f : BitVec w) :
    Sat (mulNarrow x f) fun r => ∃ c L, toNat r + c * 2 ^ (32 * n) + 2 ^ 64 * L
      = toNat x * f.toNat := by
  unfold mulNarrow
  have hf64 : (f.setWidth 64).toNat = f.toNat := by
    have := Nat.lt_of_lt_of_le f.isLt (Nat.pow_le_pow_right (by norm_num : 0 < 2) hw)
    simp; omega
  refine Sat.bind (P := fun s => ∃ c L, toNat s.1 + c * 2 ^ (32 * n) + 2 ^ 64 * L
      = toNat x * f.toNat) ?_ (fun s h => Sat.ok h)
  refine Sat.forUp (fun i s => (∀ j, i ≤ j → dig s.1 j = dig x j) ∧
      ∃ L, psum (dig s.1) i + s.2.toNat * 2 ^ (32 * i) + 2 ^ 64 * L = psum (dig x) i * f.toNat)
      (Nat.zero_le n) ⟨fun _ _ => rfl, 0, by simp [psum]⟩ ?_ (fun s h => ⟨_, h.2⟩)
  rintro i ⟨d, c⟩ _ hi ⟨h1, L, h2⟩
  simp only at h1 h2
  have hs : (f.setWidth 64 * toU64 d[i] + c).toNat = (f.toNat * (d[i]).toNat + c.toNat) % 2 ^ 64 := by
    rw [u64_mul_add_toNat, hf64, toNat_toU64]
  generalize hS : (f.setWidth 64 * toU64 d[i] + c) = S at hs
  simp only [rd_ok hi, wr_ok hi, ok_bind, sat_ok, hS]
  refine ⟨?_, ?_⟩
  · intro j hj
    rw [dig_set_ne hi (by omega), h1 j (by omega)]
  · refine ⟨L + (f.toNat * (d[i]).toNat + c.toNat) / 2 ^ 64 * 2 ^ (32 * i), ?_⟩
    rw [psum, psum_set_low hi (le_refl _), dig_set_self hi, toNat_toBlock_mod, toNat_div_base,
        psum, ← h1 i (le_refl _), dig_of_lt hi, pow32_succ]
    have := carry_split S.toNat (2 ^ (32 * i))
    rw [Nat.add_assoc (psum _ _), this]
    have hdm := Nat.div_add_mod (f.toNat * (d[i]).toNat + c.toNat) (2 ^ 64)
    rw [← hs] at hdm
    rw [Nat.add_mul (psum (dig x) i), ← h2]
    generalize (f.toNat * (d[i]).toNat + c.toNat) / 2 ^ 64 = q at hdm ⊢
    have h3 : S.toNat * 2 ^ (32 * i) + 2 ^ 64 * (q * 2 ^ (32 * i))
        = (f.toNat * (d[i]).toNat + c.toNat) * 2 ^ (32 * i) := by rw [← hdm]; ring
    have h4 : (d[i]).toNat * 2 ^ (32 * i) * f.toNat + c.toNat * 2 ^ (32 * i)
        = (f.toNat * (d[i]).toNat + c.toNat) * 2 ^ (32 * i) := by ring
    rw [Nat.mul_add (2 ^ 64)]
    omega

/-- A one-block number times a 64-bit factor through the narrow path: the product modulo `2^64`. -/
theorem mulNarrow_one_block {w : Nat} (hw : w ≤ 64) (hn : 0 < n) (x : Aeu n) (f : BitVec w)
    (hx : ∀ i, 0 < i → dig x i = 0) :
    Returns (mulNarrow x f) ((dig x 0 * f.toNat) % 2 ^ 64 % 2 ^ (32 * n)) := by
  unfold mulNarrow
  have hf64 : (f.setWidth 64).toNat = f.toNat := by
    have := Nat.lt_of_lt_of_le f.isLt (Nat.pow_le_pow_right (by norm_num : 0 < 2) hw)
    simp; omega
  refine Sat.bind (P := fun s => ∃ c, toNat s.1 + c * 2 ^ (32 * n)
      = (dig x 0 * f.toNat) % 2 ^ 64) ?_ ?_
  · refine Sat.forUp (fun i s => (∀ j, i ≤ j → dig s.1 j = dig x j) ∧ (i = 0 → s.2 = 0) ∧
      (i ≠ 0 → psum (dig s.1) i + s.2.toNat * 2 ^ (32 * i) = (dig x 0 * f.toNat) % 2 ^ 64))
      (Nat.zero_le n) ⟨fun _ _ => rfl, fun _ => rfl, by simp⟩ ?_
      (fun s h => ⟨_, h.2.2 (by omega)⟩)
    rintro i ⟨d, c⟩ _ hi ⟨h1, h2, h3⟩
    simp only at h1 h2 h3
    have hs : (f.setWidth 64 * toU64 d[i] + c).toNat = (f.toNat * (d[i]).toNat + c.toNat) % 2 ^ 64 := by
      rw [u64_mul_add_toNat, hf64, toNat_toU64]
    have hd : (d[i]).toNat = dig x i := by rw [← h1 i (le_refl _), dig_of_lt hi]
    generalize hS : (f.setWidth 64 * toU64 d[i] + c) = S at hs
    simp only [rd_ok hi, wr_ok hi, ok_bind, sat_ok, hS]
    refine ⟨?_, by omega, fun _ => ?_⟩
    · intro j hj
      rw [dig_set_ne hi (by omega), h1 j (by omega)]
    · rw [psum, psum_set_low hi (le_refl _), dig_set_self hi, toNat_toBlock_mod, toNat_div_base,
          pow32_succ]
      have := carry_split S.toNat (2 ^ (32 * i))
      rw [Nat.add_assoc (psum _ _), this]
      rw [hd] at hs
      by_cases h0 : i = 0
      · subst h0
        rw [h2 rfl] at hs
        simp only [psum, Nat.mul_zero, Nat.pow_zero, Nat.mul_one, Nat.zero_add]
        rw [hs, Nat.mul_comm]; simp
      · rw [hx i (by omega), Nat.mul_zero, Nat.zero_add, Nat.mod_eq_of_lt c.isLt] at hs
        rw [hs]; exact h3 h0
  · rintro s ⟨c, hc⟩
    refine Sat.ok ?_
    rw [← hc, Nat.add_mul_mod_self_right, Nat.mod_eq_of_lt (toNat_lt _)]

/-- A factor that cannot overflow in the lowest block: what is lost is a multiple of `2^96`. -/
theorem mulNarrow_lossy96 {w : Nat} (hw : w ≤ 64) (x : Aeu n) (f : BitVec w)
    (hf : f.toNat * (2 ^ 32 - 1) < 2 ^ 64) :
    Sat (mulNarrow x f) fun r => ∃ c L, toNat r + c * 2 ^ (32 * n) + 2 ^ 96 * L
      = toNat x * f.toNat := by
  unfold mulNarrow
  have hf64 : (f.setWidth 64).toNat = f.toNat := by
    have := Nat.lt_of_lt_of_le f.isLt (Nat.pow_le_pow_right (by norm_num : 0 < 2) hw)
    simp; omega
  refine Sat.bind (P := fun s => ∃ c L, toNat s.1 + c * 2 ^ (32 * n) + 2 ^ 96 * L
      = toNat x * f.toNat) ?_ (fun s h => Sat.ok h)
  refine Sat.forUp (fun i s => (∀ j, i ≤ j → dig s.1 j = dig x j) ∧ (i = 0 → s.2 = 0) ∧
      ∃ L, psum (dig s.1) i + s.2.toNat * 2 ^ (32 * i) + 2 ^ 96 * L = psum (dig x) i * f.toNat)
      (Nat.zero_le n) ⟨fun _ _ => rfl, fun _ => rfl, 0, by simp [psum]⟩ ?_ (fun s h => ⟨_, h.2.2⟩)
  rintro i ⟨d, c⟩ _ hi ⟨h1, h0, L, h2⟩
  simp only at h1 h2 h0
  have hs : (f.setWidth 64 * toU64 d[i] + c).toNat = (f.toNat * (d[i]).toNat + c.toNat) % 2 ^ 64 := by
    rw [u64_mul_add_toNat, hf64, toNat_toU64]
  generalize hS : (f.setWidth 64 * toU64 d[i] + c) = S at hs
  simp only [rd_ok hi, wr_ok hi, ok_bind, sat_ok, hS]
  have hq : ∃ q', (f.toNat * (d[i]).toNat + c.toNat) / 2 ^ 64 * 2 ^ (32 * i) = 2 ^ 32 * q' := by
    by_cases hi0 : i = 0
    · have hc0 := h0 hi0
      subst hi0
      have hb := block_lt d[0]
      have : f.toNat * (d[0]).toNat ≤ f.toNat * (2 ^ 32 - 1) := Nat.mul_le_mul_left _ (by omega)
      refine ⟨0, ?_⟩
      rw [hc0, Nat.div_eq_of_lt (by simp; omega)]; simp
    · refine ⟨(f.toNat * (d[i]).toNat + c.toNat) / 2 ^ 64 * 2 ^ (32 * (i - 1)), ?_⟩
      rw [show 32 * i = 32 * (i - 1) + 32 by omega, Nat.pow_add]; ring
  obtain ⟨q', hq⟩ := hq
  refine ⟨?_, by omega, ?_⟩
  · intro j hj
    rw [dig_set_ne hi (by omega), h1 j (by omega)]
  · refine ⟨L + q', ?_⟩
    rw [psum, psum_set_low hi (le_refl _), dig_set_self hi, toNat_toBlock_mod, toNat_div_base,
        psum, ← h1 i (le_refl _), dig_of_lt hi, pow32_succ]
    have := carry_split S.toNat (2 ^ (32 * i))
    rw [Nat.add_assoc (psum _ _), this]
    have hdm := Nat.div_add_mod (f.toNat * (d[i]).toNat + c.toNat) (2 ^ 64)
    rw [← hs] at hdm
    rw [Nat.add_mul (psum (dig x) i), ← h2]
    generalize (f.toNat * (d[i]).toNat + c.toNat) / 2 ^ 64 = q at hdm hq ⊢
    have h3 : S.toNat * 2 ^ (32 * i) + 2 ^ 64 * (q * 2 ^ (32 * i))
        = (f.toNat * (d[i]).toNat + c.toNat) * 2 ^ (32 * i) := by rw [← hdm]; ring
    have h4 : (d[i]).toNat * 2 ^ (32 * i) * f.toNat + c.toNat * 2 ^ (32 * i)
        = (f.toNat * (d[i]).toNat + c.toNat) * 2 ^ (32 * i) := by ring
    rw [Nat.mul_add (2 ^ 96)]
    rw [hq, ← Nat.mul_assoc, ← Nat.pow_add] at h3
    norm_num at h3 ⊢
    omega

/-- `2^64 - 1` times `2^32 + 1` through the narrow path. -/
theorem mulNarrow_two_block (hn : 2 ≤ n) (x : Aeu n) (f : BitVec 64) (hf : f.toNat = 2 ^ 32 + 1)
    (hx0 : dig x 0 = 2 ^ 32 - 1) (hx1 : dig x 1 = 2 ^ 32 - 1) (hx : ∀ i, 1 < i → dig x i = 0) :
    Returns (mulNarrow x f) (2 ^ 64 - 2 ^ 32 - 1) := by
  unfold mulNarrow
  have hf64 : (f.setWidth 64).toNat = f.toNat := by simp
  refine Sat.bind (P := fun s => toNat s.1 = 2 ^ 64 - 2 ^ 32 - 1) ?_ (fun s h => Sat.ok h)
  refine Sat.forUp (fun i s => (∀ j, i ≤ j → dig s.1 j = dig x j) ∧ (i = 0 → s.2.toNat = 0) ∧
      (i = 1 → psum (dig s.1) 1 = 2 ^ 32 - 1 ∧ s.2.toNat = 2 ^ 32 - 1) ∧
      (2 ≤ i → psum (dig s.1) i = 2 ^ 64 - 2 ^ 32 - 1 ∧ s.2.toNat = 0))
      (Nat.zero_le n) ⟨fun _ _ => rfl, by simp, by simp, by simp⟩ ?_
      (fun s h => show psum (dig s.1) n = _ from (h.2.2.2 hn).1)
  rintro i ⟨d, c⟩ _ hi ⟨h1, h2, h3, h4⟩
  simp only at h1 h2 h3 h4
  have hs : (f.setWidth 64 * toU64 d[i] + c).toNat = (f.toNat * (d[i]).toNat + c.toNat) % 2 ^ 64 := by
    rw [u64_mul_add_toNat, hf64, toNat_toU64]
  have hd : (d[i]).toNat = dig x i := by rw [← h1 i (le_refl _), dig_of_lt hi]
  generalize hS : (f.setWidth 64 * toU64 d[i] + c) = S at hs
  simp only [rd_ok hi, wr_ok hi, ok_bind, sat_ok, hS]
  rw [hd, hf] at hs
  refine ⟨?_, by omega, fun h => ?_, fun h => ?_⟩
  · intro j hj
    rw [dig_set_ne hi (by omega), h1 j (by omega)]
  · obtain rfl : i = 0 := by omega
    rw [hx0, h2 rfl] at hs
    rw [psum, psum_set_low hi (le_refl _), dig_set_self hi, toNat_toBlock_mod, toNat_div_base, hs]
    simp [psum]
  · rw [psum, psum_set_low hi (le_refl _), dig_set_self hi, toNat_toBlock_mod, toNat_div_base, hs]
    by_cases h5 : i = 1
    · subst h5
      rw [hx1, (h3 rfl).2, (h3 rfl).1]
      norm_num
    · rw [hx i (by omega), (h4 (by omega)).2, (h4 (by omega)).1]
      simp

end Aeu
end AesiMP
