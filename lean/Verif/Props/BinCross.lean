import Verif.Props.BinIO

/-!
# C80: a binary file written in one precision and read in another
-/

namespace AesiMP
open Aeu
variable {n m : Nat}

theorem pow32_256 (k : Nat) : 2 ^ (32 * k) = 256 ^ (4 * k) := by
  rw [show (256 : Nat) = 2 ^ 8 by norm_num, ← Nat.pow_mul]; congr 1; ring

theorem byteOf_big {v q : Nat} (h : v < 256 ^ q) : byteOf v q = 0 := by
  unfold byteOf; rw [Nat.div_eq_of_lt h]

theorem byteOf_div (v k q : Nat) : byteOf (v / 256 ^ k) q = byteOf v (q + k) := by
  unfold byteOf; rw [Nat.div_div_eq_div_mul, ← Nat.pow_add, Nat.add_comm]

theorem byteOf_mul (v k q : Nat) : byteOf (v * 256 ^ k) q = if q < k then 0 else byteOf v (q - k) := by
  unfold byteOf
  have hp : ∀ j, 0 < 256 ^ j := fun j => Nat.pow_pos (by norm_num)
  split
  · rename_i h
    obtain ⟨d, rfl⟩ := Nat.exists_eq_add_of_lt h
    rw [show q + d + 1 = q + (d + 1) by ring, Nat.pow_add, Nat.mul_comm v, Nat.mul_assoc,
      Nat.mul_div_cancel_left _ (hp q), Nat.pow_succ, Nat.mul_assoc, Nat.mul_comm, Nat.mul_assoc,
      Nat.mul_mod_right]
  · rename_i h
    obtain ⟨d, rfl⟩ := Nat.exists_eq_add_of_le (Nat.le_of_not_lt h)
    rw [show k + d - k = d by omega, Nat.pow_add, ← Nat.div_div_eq_div_mul,
      Nat.mul_div_cancel _ (hp k)]

theorem byteOf_mod {v k q : Nat} (h : q < k) : byteOf (v % 256 ^ k) q = byteOf v q := by
  unfold byteOf
  obtain ⟨d, rfl⟩ := Nat.exists_eq_add_of_lt h
  rw [show q + d + 1 = q + (d + 1) by ring, Nat.pow_add, Nat.mod_mul_right_div_self, Nat.pow_succ',
    Nat.mod_mul_right_mod]

/-- C80: the file written by `writeBinary(os, bigEndian)` from an object of `n` blocks and read by
`readBinary(is, bigEndian)` into an object of `m` blocks.  In little-endian block order the value is
reduced modulo the precision of the reader, so it is preserved whenever it fits.  In big-endian block
order the leading blocks are kept: the value is divided, or multiplied, by the power of two that
separates the precisions. -/
theorem C80_cross (host : Host) (bigEndian : Bool) (a : Aeu n) (old : Aeu m) (room : Nat)
    (hroom : 4 * n ≤ room) :
    Sat (writeBinary host a ⟨[], room, false⟩ bigEndian) fun w =>
      Sat (readBinary host old ⟨w.out, false⟩ bigEndian) fun r =>
        toNat r.1 = (if bigEndian then toNat a * 2 ^ (32 * m) / 2 ^ (32 * n)
          else toNat a % 2 ^ (32 * m)) ∧
        r.2.data = w.out.drop (4 * m) ∧ (r.2.fail = true ↔ n < m) := by
  obtain ⟨image, hlen, him, hw⟩ := C33_write_prefix host bigEndian a []
  obtain ⟨w, hw1, hw2, _⟩ := hw room
  refine ⟨w, hw1, ?_⟩
  have hout : w.out = image := by
    rw [hw2, List.nil_append, List.take_of_length_le (by omega)]
  obtain ⟨r, hr, h1, h2, h3⟩ := C33_read host old bigEndian w.out
  refine ⟨r, hr, ?_, h2, ?_⟩
  swap
  · rw [h3, hout, hlen]; omega
  rw [hout] at h1
  have hbyte : ∀ p, p < 4 * m → byteOf (toNat r.1) (byteIndex host bigEndian m p) =
      if p < 4 * n then byteOf (toNat a) (byteIndex host bigEndian n p) else 0 := by
    intro p hp
    rw [h1 p hp]
    split
    · rename_i h; exact him p h
    · rename_i h
      rw [List.getD_eq_getElem?_getD, List.getElem?_eq_none (by omega)]; rfl
  have ha := toNat_lt a
  refine eq_of_bytes (k := 4 * m) ?_ ?_ ?_
  · have := toNat_lt r.1; rwa [show 8 * (4 * m) = 32 * m by ring]
  · rw [show 8 * (4 * m) = 32 * m by ring]
    split
    · rw [Nat.div_lt_iff_lt_mul (Nat.two_pow_pos _), Nat.mul_comm (2 ^ (32 * m))]
      exact Nat.mul_lt_mul_of_pos_right ha (Nat.two_pow_pos _)
    · exact Nat.mod_lt _ (Nat.two_pow_pos _)
  · intro q hq
    obtain ⟨p, hp, rfl⟩ := byteIndex_surj host bigEndian hq
    rw [hbyte p hp]
    cases bigEndian with
    | false =>
      simp only [Bool.false_eq_true, if_false]
      rw [pow32_256, byteOf_mod (byteIndex_lt host false hp)]
      split
      · unfold byteIndex; simp
      · rename_i h
        refine (byteOf_big (lt_of_lt_of_le ha ?_)).symm
        rw [pow32_256]
        refine Nat.pow_le_pow_right (by norm_num) ?_
        unfold byteIndex; simp only [Bool.false_eq_true, if_false]; omega
    | true =>
      simp only [if_true]
      rw [pow32_256 m, pow32_256 n, byteOf_div, byteOf_mul]
      have e : byteIndex host true m p + 4 * n < 4 * m ↔ ¬ p < 4 * n := by
        unfold byteIndex; simp only [if_true]; split <;> omega
      by_cases h : p < 4 * n
      · rw [if_pos h, if_neg (by rw [e]; exact not_not.mpr h)]
        congr 1
        unfold byteIndex; simp only [if_true]; split <;> omega
      · rw [if_neg h, if_pos (e.mpr h)]

/-- 0x0102030405060708 written in two blocks, read in three and in one. -/
example : (∀ be, ∃ w, writeBinary .little (ofNat 2 0x0102030405060708) ⟨[], 8, false⟩ be = .ok w ∧
      w.out.length = 8) ∧
    (0x0102030405060708 * 2 ^ (32 * 3) / 2 ^ (32 * 2) = 0x010203040506070800000000) ∧
    (0x0102030405060708 * 2 ^ (32 * 1) / 2 ^ (32 * 2) = 0x01020304) := by
  refine ⟨fun be => ?_, by norm_num, by norm_num⟩
  cases be <;> exact ⟨_, rfl, rfl⟩

/-- Consequently a big-endian file does not survive a change of precision: 1 written in two blocks reads
as `2^32` in three blocks and as 0 in one. -/
theorem C80_big_endian_one :
    (∃ w r, writeBinary .little (ofNat 2 1) ⟨[], 8, false⟩ true = .ok w ∧
      readBinary .little (ofNat 3 0) ⟨w.out, false⟩ true = .ok r ∧ toNat r.1 = 2 ^ 32) ∧
    (∃ w r, writeBinary .little (ofNat 2 1) ⟨[], 8, false⟩ true = .ok w ∧
      readBinary .little (ofNat 1 0) ⟨w.out, false⟩ true = .ok r ∧ toNat r.1 = 0) := by
  constructor
  · obtain ⟨w, hw, r, hr, e, _⟩ := C80_cross (n := 2) (m := 3) .little true (ofNat 2 1) (ofNat 3 0) 8
      (by norm_num)
    refine ⟨w, r, hw, hr, ?_⟩
    rw [e, if_pos rfl, show toNat (ofNat 2 1) = 1 by decide +kernel]; norm_num
  · obtain ⟨w, hw, r, hr, e, _⟩ := C80_cross (n := 2) (m := 1) .little true (ofNat 2 1) (ofNat 1 0) 8
      (by norm_num)
    refine ⟨w, r, hw, hr, ?_⟩
    rw [e, if_pos rfl, show toNat (ofNat 2 1) = 1 by decide +kernel]; norm_num

end AesiMP
