import Verif.Model.Rest
import Verif.Props.Arith
import Verif.Props.Access

/-!
# C06, C15: the pair-returning division and the size constants
-/

namespace AesiMP
open Aeu
variable {n : Nat}

/-- **C06**: `divide` that returns a pair: quotient first, remainder second. -/
theorem C06_divide_pair (cfg : Cfg) (hn : 0 < n) (a b : Aeu n) (hb : toNat b ≠ 0) :
    ∃ q r : Aeu n, Aeu.dividePair cfg a b = .ok (q, r) ∧ toNat q = toNat a / toNat b ∧ toNat r = toNat a % toNat b := by
  obtain ⟨⟨q, r⟩, h, h1, h2⟩ := C06_divide cfg hn a b hb
  have hpos : 0 < toNat b := Nat.pos_of_ne_zero hb
  have h3 : toNat a = toNat r + toNat b * toNat q := by rw [h1, Nat.mul_comm, Nat.add_comm]
  refine ⟨q, r, by rw [Aeu.dividePair, h]; rfl, ?_, ?_⟩
  · rw [h3, Nat.add_mul_div_left _ _ hpos, Nat.div_eq_of_lt h2, Nat.zero_add]
  · rw [h3, Nat.add_mul_mod_self_left, Nat.mod_eq_of_lt h2]

example : (do let a ← Aeu.ofUnsigned 2 1000#32; let b ← Aeu.ofUnsigned 2 7#32
              let p ← Aeu.dividePair ⟨false, false, false⟩ a b; .ok (toNat p.1, toNat p.2)) = .ok (142, 6) := by
  decide +kernel

/-- **C15**: the size constants bound the observers, and the largest number reaches all of them. -/
theorem C15_constants (hn : 0 < n) :
    32 * Aeu.totalBlocksNumber n = Aeu.getBitness n ∧
    (∀ a : Aeu n, toNat a < 2 ^ Aeu.getBitness n ∧
      ∃ bits bytes blocks, bitCount a = .ok bits ∧ byteCount a = .ok bytes ∧ filledBlocksNumber a = .ok blocks ∧
        bits ≤ Aeu.getBitness n ∧ 8 * bytes ≤ Aeu.getBitness n ∧ blocks ≤ Aeu.totalBlocksNumber n) ∧
    ∃ a : Aeu n, toNat a = 2 ^ Aeu.getBitness n - 1 ∧ bitCount a = .ok (Aeu.getBitness n) ∧
      filledBlocksNumber a = .ok (Aeu.totalBlocksNumber n) := by
  have hlog : ∀ (b k v : Nat), 1 < b → v ≠ 0 → v < b ^ k → Nat.log b v + 1 ≤ k := fun b k v hb hv h =>
    Nat.succ_le_of_lt ((Nat.log_lt_iff_lt_pow hb hv).2 h)
  have hbl : Aeu.totalBlocksNumber n = n := by simp [Aeu.totalBlocksNumber, Aeu.getBitness]
  have h1 : 1 ≤ 2 ^ (32 * n) := Nat.one_le_two_pow
  have h2 : 2 ≤ 2 ^ (32 * n) := by
    calc 2 = 2 ^ 1 := rfl
      _ ≤ 2 ^ (32 * n) := Nat.pow_le_pow_right (by norm_num) (by omega)
  refine ⟨by rw [hbl]; rfl, fun a => ⟨toNat_lt a, _, _, _, C15_bitCount hn a, C15_byteCount hn a,
    C15_filledBlocksNumber a, ?_⟩, Aeu.ofNat n (2 ^ (32 * n) - 1), ?_⟩
  · have ha := toNat_lt a
    by_cases h0 : toNat a = 0
    · simp [h0]
    · simp only [h0, if_false, hbl, Aeu.getBitness]
      refine ⟨hlog _ _ _ (by norm_num) h0 ha, ?_, hlog _ _ _ (by norm_num) h0 (by rw [← Nat.pow_mul]; exact ha)⟩
      have := hlog 256 (4 * n) _ (by norm_num) h0 (by
        rw [show 256 = 2 ^ 8 by norm_num, ← Nat.pow_mul]
        rw [show 8 * (4 * n) = 32 * n by ring]; exact ha)
      omega
  · have hv : toNat (Aeu.ofNat n (2 ^ (32 * n) - 1)) = 2 ^ (32 * n) - 1 := by
      rw [toNat_ofNat, Nat.mod_eq_of_lt (by omega)]
    have hge : ∀ (b k : Nat), 1 < b → b ^ k = 2 ^ (32 * n) → 0 < k → Nat.log b (2 ^ (32 * n) - 1) + 1 = k := by
      intro b k hb hk h0
      obtain ⟨k, rfl⟩ : ∃ j, k = j + 1 := ⟨k - 1, by omega⟩
      rw [Nat.log_eq_of_pow_le_of_lt_pow (m := k)]
      · rw [← hk, Nat.pow_succ]
        have : 1 ≤ b ^ k := Nat.one_le_pow _ _ (by omega)
        have : b ^ k * 2 ≤ b ^ k * b := Nat.mul_le_mul_left _ hb
        omega
      · omega
    refine ⟨hv, ?_, ?_⟩
    · rw [C15_bitCount hn, hv, if_neg (by omega), hge 2 _ (by norm_num) rfl (by omega)]; rfl
    · rw [C15_filledBlocksNumber, hv, if_neg (by omega),
        hge (2 ^ 32) n (by norm_num) (by rw [← Nat.pow_mul]) hn, hbl]

end AesiMP
