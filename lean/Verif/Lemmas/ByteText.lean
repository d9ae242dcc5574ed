import Verif.Model.TestsText
import Verif.Lemmas.Parse
import Verif.Lemmas.Print

/-! # The texts built by the tests (`Model/TestsText.lean`) -/

namespace AesiMP
open Tests

theorem topBits_eq (b : BitVec 8) :
    topBits b = .ok (if b = 0#8 then [] else numeral false 2 b.toNat) := by
  have h : ∀ i : Fin 256, topBits (BitVec.ofFin (w := 8) i) =
      .ok (if BitVec.ofFin (w := 8) i = 0#8 then [] else numeral false 2 i.val) := by decide +kernel
  exact h b.toFin

/-- The eight bits of a byte, least significant first. -/
def bits8 (b : BitVec 8) : List Nat := (List.range 8).map fun i => (b.getLsbD i).toNat

theorem bitset8_eq (b : BitVec 8) : bitset8 b = (bits8 b).reverse.map (digitChar false) ∧
    Nat.ofDigits 2 (bits8 b) = b.toNat := by
  have h : ∀ i : Fin 256, bitset8 (BitVec.ofFin (w := 8) i) =
      (bits8 (BitVec.ofFin (w := 8) i)).reverse.map (digitChar false) ∧
      Nat.ofDigits 2 (bits8 (BitVec.ofFin (w := 8) i)) = i.val := by decide +kernel
  exact h b.toFin

theorem bits8_lt (b : BitVec 8) : ∀ d ∈ bits8 b, d < 2 := by
  intro d hd
  simp only [bits8, List.mem_map] at hd
  obtain ⟨i, -, rfl⟩ := hd
  cases b.getLsbD i <;> decide

theorem bits8_length (b : BitVec 8) : (bits8 b).length = 8 := by simp [bits8]

theorem textValue_bitset8 (cs : List Int) (b : BitVec 8) :
    textValue 2 (cs ++ bitset8 b) = textValue 2 cs * 256 + b.toNat := by
  rw [(bitset8_eq b).1, Aeu.textValue_append_digits false 2 (by norm_num) cs _ (bits8_lt b), bits8_length,
    (bitset8_eq b).2]
  norm_num

theorem textValue_topBits (b : BitVec 8) :
    textValue 2 (if b = 0#8 then [] else numeral false 2 b.toNat) = b.toNat := by
  split
  · next h => rw [h]; rfl
  · exact Aeu.textValue_numeral false (by norm_num) (by norm_num) _

/-- The number with the given bytes. -/
def ofBytes (g : Nat → BitVec 8) : Nat → Nat
  | 0 => 0
  | k + 1 => ofBytes g k + (g k).toNat * 256 ^ k

theorem textValue_bytes (g : Nat → BitVec 8) (k : Nat) : ∀ cs : List Int,
    textValue 2 (cs ++ (List.range k).reverse.flatMap fun j => bitset8 (g j)) =
      textValue 2 cs * 256 ^ k + ofBytes g k := by
  induction k with
  | zero => intro cs; simp [ofBytes]
  | succ k ih =>
    intro cs
    rw [List.range_succ, List.reverse_append, List.reverse_singleton, List.singleton_append, List.flatMap_cons,
      ← List.append_assoc, ih, textValue_bitset8, ofBytes, pow_succ]
    ring

theorem ofBytes_gmp (v : Int) (k : Nat) : ofBytes (gmpByte v) k = v.natAbs % 256 ^ k := by
  induction k with
  | zero => simp [ofBytes, Nat.mod_one]
  | succ k ih =>
    rw [ofBytes, ih, pow_succ, Nat.mod_mul, gmpByte, BitVec.toNat_ofNat,
      show (2 : Nat) ^ (8 * k) = 256 ^ k by rw [pow_mul]; norm_num]
    ring

theorem ofBytes_not (v : Int) (k : Nat) :
    ofBytes (fun j => ~~~ gmpByte v j) k + v.natAbs % 256 ^ k + 1 = 256 ^ k := by
  rw [← ofBytes_gmp]
  induction k with
  | zero => rfl
  | succ k ih =>
    simp only [ofBytes, BitVec.toNat_not]
    have h := (gmpByte v k).isLt
    have : (2 ^ 8 - 1 - (gmpByte v k).toNat) * 256 ^ k + (gmpByte v k).toNat * 256 ^ k + 256 ^ k =
        256 ^ (k + 1) := by
      rw [← Nat.add_mul, ← Nat.succ_mul, pow_succ, Nat.mul_comm]
      congr 1
      omega
    omega

theorem gmpBytes_pos (v : Int) : 1 ≤ gmpBytes v := by
  unfold gmpBytes mpzSizeInBase2
  split <;> omega

theorem gmpBytes_zero : gmpBytes 0 = 1 := rfl

theorem gmpBytes_bounds {v : Int} (h : v ≠ 0) :
    256 ^ (gmpBytes v - 1) ≤ v.natAbs ∧ v.natAbs < 256 ^ gmpBytes v := by
  have h1 : v.natAbs ≠ 0 := by omega
  have e : ∀ k, (256 : Nat) ^ k = 2 ^ (8 * k) := by intro k; rw [pow_mul]; norm_num
  rw [e, e, gmpBytes, mpzSizeInBase2, if_neg h]
  constructor
  · exact le_trans (Nat.pow_le_pow_right (by norm_num) (by omega)) (Nat.log2_self_le h1)
  · exact lt_of_lt_of_le Nat.lt_log2_self (Nat.pow_le_pow_right (by norm_num) (by omega))

theorem gmpBytes_lt (v : Int) : v.natAbs < 256 ^ gmpBytes v := by
  by_cases h : v = 0
  · subst h; decide
  · exact (gmpBytes_bounds h).2

/-- The digits of `byteText` and their value. -/
theorem byteText_value (f : BitVec 8 → BitVec 8) (v : Int) :
    Sat (byteText f v) fun t => textValue 2 t = ofBytes (fun j => f (gmpByte v j)) (gmpBytes v) := by
  unfold byteText
  simp only [topBits_eq, ok_bind]
  refine Sat.ok ?_
  rw [textValue_bytes (fun j => f (gmpByte v j)), textValue_topBits]
  obtain ⟨k, hk⟩ : ∃ k, gmpBytes v = k + 1 := ⟨gmpBytes v - 1, by have := gmpBytes_pos v; omega⟩
  rw [hk, Nat.add_sub_cancel, ofBytes]
  ring

theorem bits8_digits (b : BitVec 8) :
    bits8 b = Nat.digits 2 b.toNat ++ List.replicate (8 - (Nat.digits 2 b.toNat).length) 0 := by
  have h : ∀ i : Fin 256, bits8 (BitVec.ofFin (w := 8) i) =
      Nat.digits 2 i.val ++ List.replicate (8 - (Nat.digits 2 i.val).length) 0 := by decide +kernel
  exact h b.toFin

theorem numeral_byte (hi : Nat) (hhi : hi ≠ 0) (b : BitVec 8) :
    numeral false 2 (hi * 256 + b.toNat) = numeral false 2 hi ++ bitset8 b := by
  have hle : (Nat.digits 2 b.toNat).length ≤ 8 := by
    rw [Nat.digits_length_le_iff (by norm_num)]
    exact b.isLt
  have hd := Nat.digits_append_zeroes_append_digits (b := 2)
    (k := 8 - (Nat.digits 2 b.toNat).length) (m := hi) (n := b.toNat) (by norm_num) (by omega)
  rw [show (Nat.digits 2 b.toNat).length + (8 - (Nat.digits 2 b.toNat).length) = 8 by omega] at hd
  rw [(bitset8_eq b).1, bits8_digits]
  unfold numeral
  rw [if_neg (by omega), if_neg hhi, show hi * 256 + b.toNat = b.toNat + 2 ^ 8 * hi by
    norm_num; omega, ← hd, List.reverse_append, List.map_append]

theorem numeral_bytes (v : Int) (k : Nat) : v.natAbs / 256 ^ k ≠ 0 →
    numeral false 2 (v.natAbs / 256 ^ k) ++ ((List.range k).reverse.flatMap fun j => bitset8 (gmpByte v j)) =
      numeral false 2 v.natAbs := by
  induction k with
  | zero => intro _; simp
  | succ k ih =>
    intro h
    have e : v.natAbs / 256 ^ (k + 1) = v.natAbs / 256 ^ k / 256 := by rw [pow_succ, Nat.div_div_eq_div_mul]
    have h' : v.natAbs / 256 ^ k ≠ 0 := by
      intro h0; rw [e, h0] at h; exact h rfl
    have hb : (gmpByte v k).toNat = v.natAbs / 256 ^ k % 256 := by
      rw [gmpByte, BitVec.toNat_ofNat, show (2 : Nat) ^ (8 * k) = 256 ^ k by rw [pow_mul]; norm_num]
    rw [List.range_succ, List.reverse_append, List.reverse_singleton, List.singleton_append, List.flatMap_cons,
      ← List.append_assoc, ← numeral_byte _ h, hb, e, Nat.div_add_mod', ih h']

/-- The digits built by the tests are the canonical binary numeral, except that zero has none. -/
theorem byteText_eq (v : Int) : byteText id v = .ok (if v = 0 then [] else numeral false 2 v.natAbs) := by
  unfold byteText
  simp only [topBits_eq, ok_bind, id]
  refine congrArg Except.ok ?_
  by_cases hv : v = 0
  · subst hv; rfl
  rw [if_neg hv]
  obtain ⟨h1, h2⟩ := gmpBytes_bounds hv
  have hp := gmpBytes_pos v
  have hne : v.natAbs / 256 ^ (gmpBytes v - 1) ≠ 0 := by
    have := Nat.div_pos h1 (by positivity); omega
  have hlt : v.natAbs / 256 ^ (gmpBytes v - 1) < 256 := by
    rw [Nat.div_lt_iff_lt_mul (by positivity), ← pow_succ', Nat.sub_add_cancel hp]; exact h2
  have hb : (gmpByte v (gmpBytes v - 1)).toNat = v.natAbs / 256 ^ (gmpBytes v - 1) := by
    rw [gmpByte, BitVec.toNat_ofNat, show (2 : Nat) ^ (8 * (gmpBytes v - 1)) = 256 ^ (gmpBytes v - 1) by
      rw [pow_mul]; norm_num, Nat.mod_eq_of_lt hlt]
  have hz : gmpByte v (gmpBytes v - 1) ≠ 0#8 := by
    intro h0; rw [h0] at hb; exact hne hb.symm
  rw [if_neg hz, hb, numeral_bytes v _ hne]

end AesiMP
