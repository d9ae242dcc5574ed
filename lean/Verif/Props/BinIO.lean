import Verif.Lemmas.BinIO

/-!
# Properties C33, C34: binary input and output
-/

namespace AesiMP
open Aeu
variable {n : Nat}

/-- Byte number `k` of a number, 0 the least significant. -/
def byteOf (v k : Nat) : Nat := v / 256 ^ k % 256

/-- Significance of the byte at offset `p` of the binary image: which byte of the number it holds. -/
def byteIndex (host : Host) (bigEndian : Bool) (n p : Nat) : Nat :=
  4 * (if bigEndian then n - 1 - p / 4 else p / 4) + (if host = .little then p % 4 else 3 - p % 4)

theorem byteOf_add (v i k : Nat) : byteOf v (4 * i + k) = v / 2 ^ (32 * i) / 256 ^ k % 256 := by
  unfold byteOf
  rw [Nat.pow_add, Nat.pow_mul, Nat.pow_mul, ← Nat.div_div_eq_div_mul]

theorem blockByte_value (host : Host) (x : Aeu n) {i k : Nat} (hi : i < n) (hk : k < 4) :
    (blockByte host (x[i]?.getD 0) k).toNat =
      byteOf (toNat x) (4 * i + if host = .little then k else 3 - k) := by
  have key : ∀ k, k < 4 → (x[i].extractLsb' (8 * k) 8).toNat = byteOf (toNat x) (4 * i + k) := by
    intro k hk
    rw [byteOf_add, BitVec.extractLsb'_toNat, ← dig_of_lt hi, ← toNat_digit, Nat.shiftRight_eq_div_pow,
      show (256 : Nat) = 2 ^ 8 by norm_num, ← Nat.pow_mul]
    generalize toNat x / 2 ^ (32 * i) = w
    apply Nat.eq_of_testBit_eq
    intro t
    rw [show (4294967296 : Nat) = 2 ^ 32 by norm_num]
    simp only [Nat.testBit_mod_two_pow, Nat.testBit_div_two_pow]
    by_cases ht : t < 8
    · have : t + 8 * k < 32 := by omega
      simp [ht, this]
    · simp [ht]
  cases host with
  | little => simpa [blockByte, hi] using key k hk
  | big => simpa [blockByte, hi] using key (3 - k) (by omega)

theorem byteIndex_lt (host : Host) (be : Bool) {p : Nat} (hp : p < 4 * n) :
    byteIndex host be n p < 4 * n := by
  unfold byteIndex; split <;> split <;> omega

/-- Every byte of the number is somewhere in the image. -/
theorem byteIndex_surj (host : Host) (be : Bool) {q : Nat} (hq : q < 4 * n) :
    ∃ p, p < 4 * n ∧ byteIndex host be n p = q := by
  refine ⟨4 * (if be then n - 1 - q / 4 else q / 4) + (if host = .little then q % 4 else 3 - q % 4), ?_, ?_⟩
  · split <;> split <;> omega
  · unfold byteIndex; cases be <;> by_cases h : host = .little <;> simp only [h, if_true, if_false,
      Bool.false_eq_true] <;> omega

/-- Numbers below `256^k` are determined by their bytes. -/
theorem eq_of_bytes {v w k : Nat} (hv : v < 2 ^ (8 * k)) (hw : w < 2 ^ (8 * k))
    (h : ∀ q, q < k → byteOf v q = byteOf w q) : v = w := by
  apply Nat.eq_of_testBit_eq
  intro t
  by_cases ht : t / 8 < k
  · have := congrArg (fun z => z.testBit (t % 8)) (h (t / 8) ht)
    simp only [byteOf, show (256 : Nat) = 2 ^ 8 by norm_num, ← Nat.pow_mul, Nat.testBit_mod_two_pow,
      Nat.testBit_div_two_pow] at this
    have h8 : t % 8 < 8 := Nat.mod_lt _ (by norm_num)
    simpa [h8, Nat.mod_add_div] using this
  · rw [Nat.testBit_lt_two_pow (Nat.lt_of_lt_of_le hv (Nat.pow_le_pow_right (by norm_num) (by omega))),
      Nat.testBit_lt_two_pow (Nat.lt_of_lt_of_le hw (Nat.pow_le_pow_right (by norm_num) (by omega)))]

theorem written_byte (host : Host) (be : Bool) (x : Aeu n) {p : Nat} (hp : p < 4 * n) :
    ((written host be x n).getD p 0).toNat = byteOf (toNat x) (byteIndex host be n p) := by
  have hv := visit_lt (n := n) be (i := p / 4) (by omega)
  have hval := blockByte_value host x hv (k := p % 4) (by omega)
  have : (written host be x n).getD p 0 = blockByte host (x[visit n be (p / 4)]?.getD 0) (p % 4) := by
    simp [written, List.getD, hp]
  rw [this, hval]
  rfl

/-! ### C33 -/

/-- C33: reading any stream (any content, any length, any byte order and flag): the byte at offset
`p` becomes byte `byteIndex p` of the number, missing bytes are zero, whatever the object's
previous value `old`, exactly the first `bitness/8` bytes, or all if
there are fewer, are consumed, and the stream fails iff it was too short. -/
theorem C33_read (host : Host) (old : Aeu n) (bigEndian : Bool) (bytes : List (BitVec 8)) :
    Sat (readBinary host old ⟨bytes, false⟩ bigEndian) fun r =>
      (∀ p, p < 4 * n →
        byteOf (toNat r.1) (byteIndex host bigEndian n p) = (bytes.getD p 0).toNat) ∧
      r.2.data = bytes.drop (4 * n) ∧ (r.2.fail = true ↔ bytes.length < 4 * n) := by
  refine Sat.mono (readBinary_spec host old ⟨bytes, false⟩ rfl bigEndian) ?_
  rintro ⟨x, st⟩ ⟨h1, h2, h3⟩
  refine ⟨fun p hp => ?_, h2, h3⟩
  have hv := visit_lt (n := n) bigEndian (i := p / 4) (by omega)
  have hval := blockByte_value host x hv (k := p % 4) (by omega)
  have := h1 (p / 4) (p % 4) (by omega) (by omega)
  simp only at this
  rw [this, show 4 * (p / 4) + p % 4 = p by omega] at hval
  rw [hval]
  rfl

/-- C33: a failed stream reads as zero. -/
theorem C33_read_failed (host : Host) (old : Aeu n) (bigEndian : Bool) (bytes : List (BitVec 8)) :
    Sat (readBinary host old ⟨bytes, true⟩ bigEndian) fun r => toNat r.1 = 0 ∧ r.2 = ⟨bytes, true⟩ := by
  unfold readBinary
  have hz : (old.map fun _ => (0 : Block)) = zero n := by
    apply Vector.ext; intro i hi; simp [zero]
  simp only [hz]
  refine Sat.bind (Sat.forUpC (fun i s => i = 0 ∧ s = (zero n, ⟨bytes, true⟩))
    (fun s => s = (zero n, ⟨bytes, true⟩)) (Nat.zero_le n) (Q := fun c => c = .next (zero n, ⟨bytes, true⟩) ∨
      c = .leave (zero n, ⟨bytes, true⟩)) ⟨rfl, rfl⟩ ?_ ?_) ?_
  · rintro i s _ hi ⟨rfl, rfl⟩
    have hv := visit_lt (n := n) bigEndian hi
    simp only [rd_ok hv, ok_bind, IStream.read, if_true, wr_ok hv, sat_ok, ctlP_leave, Prod.mk.injEq,
      and_true]
    apply Vector.ext
    intro i hi
    simp [zero]
  · rintro (s | s) h
    · exact Or.inl (by rw [h.2])
    · exact Or.inr (by rw [show s = _ from h])
  · rintro c (rfl | rfl) <;> exact Sat.ok ⟨toNat_zero, rfl⟩

/-- C33, crash points: writing to a stream that breaks after any number of bytes leaves exactly that
prefix of the full image of the number, the image being the same at every crash point; the number is
not modified (it is `const`). -/
theorem C33_write_prefix (host : Host) (bigEndian : Bool) (a : Aeu n) (before : List (BitVec 8)) :
    ∃ image : List (BitVec 8), image.length = 4 * n ∧
      (∀ p, p < 4 * n → (image.getD p 0).toNat = byteOf (toNat a) (byteIndex host bigEndian n p)) ∧
      ∀ room, Sat (writeBinary host a ⟨before, room, false⟩ bigEndian) fun r =>
        r.out = before ++ image.take room ∧ (r.fail = true ↔ room < 4 * n) :=
  ⟨written host bigEndian a n, written_length _ _ _ _, fun _ hp => written_byte host bigEndian a hp,
    fun room => writeBinary_spec host a ⟨before, room, false⟩ rfl bigEndian⟩

/-- C33: writing to a stream that has already failed writes nothing and leaves it failed. -/
theorem C33_write_failed (host : Host) (bigEndian : Bool) (a : Aeu n) (os : BSink) (hf : os.fail = true) :
    writeBinary host a os bigEndian = .ok os := by
  unfold writeBinary forUpC
  cases n with
  | zero => simp [forUpCN]
  | succ k =>
    have hv := visit_lt (n := k + 1) bigEndian (i := 0) (by omega)
    simp [forUpCN, rd_ok hv, BSink.write, hf]

example : writeBinary .little (ofNat 2 0x0102) ⟨[7#8], 3, true⟩ false = .ok ⟨[7#8], 3, true⟩ := by decide +kernel

/-- C33, round trip, with a crash: write to a stream that breaks after `room` bytes, read what it holds
with the same flag: every byte that got through is back, the others are zero; if all got through, the
number is restored. -/
theorem C33_round_trip (host : Host) (bigEndian : Bool) (a old : Aeu n) (room : Nat) (rest : List (BitVec 8)) :
    Sat (writeBinary host a ⟨[], room, false⟩ bigEndian) fun w =>
      (Sat (readBinary host old ⟨w.out, false⟩ bigEndian) fun r =>
        ∀ p, p < 4 * n → byteOf (toNat r.1) (byteIndex host bigEndian n p) =
          if p < room then byteOf (toNat a) (byteIndex host bigEndian n p) else 0) ∧
      (4 * n ≤ room → Sat (readBinary host old ⟨w.out ++ rest, false⟩ bigEndian) fun r =>
        r.1 = a ∧ r.2 = ⟨rest, false⟩) := by
  refine Sat.mono (writeBinary_spec host a ⟨[], room, false⟩ rfl bigEndian) ?_
  rintro w ⟨hw, _⟩
  simp only [List.nil_append] at hw
  have hlen := written_length host bigEndian a n
  constructor
  · refine Sat.mono (C33_read host old bigEndian w.out) ?_
    rintro ⟨x, st⟩ ⟨h1, _, _⟩ p hp
    rw [h1 p hp, hw]
    split
    · rename_i hlt
      rw [← written_byte host bigEndian a hp]
      simp [List.getD, hlt]
    · rename_i hlt
      simp [List.getD, hlt]
  · intro hroom
    rw [List.take_of_length_le (by omega)] at hw
    refine Sat.mono (C33_read host old bigEndian (w.out ++ rest)) ?_
    rintro ⟨x, st⟩ ⟨h1, h2, h3⟩
    simp only at h1 h2 h3 ⊢
    constructor
    · apply toNat_inj
      refine eq_of_bytes (k := 4 * n) ?_ ?_ ?_
      · rw [← Nat.mul_assoc]; exact toNat_lt x
      · rw [← Nat.mul_assoc]; exact toNat_lt a
      · intro q hq
        obtain ⟨p, hp, rfl⟩ := byteIndex_surj host bigEndian hq
        rw [h1 p hp, ← written_byte host bigEndian a hp, hw]
        simp [List.getD, List.getElem?_append, hlen, hp]
    · have hf : st.fail = false := by
        have : ¬ (w.out ++ rest).length < 4 * n := by
          rw [List.length_append, hw, hlen]; omega
        cases h : st.fail with
        | false => rfl
        | true => exact absurd (h3.mp h) this
      have hd : st.data = rest := by rw [h2, hw, List.drop_append, hlen]; simp [hlen]
      cases st; simp only at hf hd; rw [hf, hd]

example : (readBinary .little (ofNat 2 (2 ^ 64 - 1)) ⟨[1, 2, 3, 4, 5], false⟩ false) =
    .ok (ofNat 2 0x0504030201, ⟨[], true⟩) := by decide +kernel
example : (readBinary .little (ofNat 2 (2 ^ 64 - 1)) ⟨[1, 2, 3, 4, 5], false⟩ true) =
    .ok (ofNat 2 0x0403020100000005, ⟨[], true⟩) := by decide +kernel

/-! ### C34 -/

/-- C34: without the flag on a little-endian host: the bytes least significant first. -/
theorem C34_little_endian (a : Aeu n) (room : Nat) (h : 4 * n ≤ room) :
    Sat (writeBinary .little a ⟨[], room, false⟩ false) fun r => r.out.length = 4 * n ∧
      ∀ p, p < 4 * n → (r.out.getD p 0).toNat = byteOf (toNat a) p := by
  obtain ⟨image, hl, hb, hw⟩ := C33_write_prefix .little false a []
  refine Sat.mono (hw room) ?_
  rintro r ⟨hr, _⟩
  rw [List.nil_append, List.take_of_length_le (by omega)] at hr
  rw [hr]
  refine ⟨hl, fun p hp => ?_⟩
  rw [hb p hp]; simp only [byteIndex, Bool.false_eq_true, if_false, if_true]
  rw [show 4 * (p / 4) + p % 4 = p by omega]

/-- C34: with the flag on a big-endian host: the bytes most significant first.  Missing: the flag on a
little-endian host (`C34_counterexample`), no flag on a big-endian host. -/
theorem C34_big_endian_partial (a : Aeu n) (room : Nat) (h : 4 * n ≤ room) :
    Sat (writeBinary .big a ⟨[], room, false⟩ true) fun r => r.out.length = 4 * n ∧
      ∀ p, p < 4 * n → (r.out.getD p 0).toNat = byteOf (toNat a) (4 * n - 1 - p) := by
  obtain ⟨image, hl, hb, hw⟩ := C33_write_prefix .big true a []
  refine Sat.mono (hw room) ?_
  rintro r ⟨hr, _⟩
  rw [List.nil_append, List.take_of_length_le (by omega)] at hr
  rw [hr]
  refine ⟨hl, fun p hp => ?_⟩
  rw [hb p hp]
  simp only [byteIndex, if_true, reduceCtorEq, if_false]
  congr 1; omega

/-- C34 is false on little-endian hosts (every supported platform): with `bigEndian = true`, the
32-bit number 0x01020304 is written 04 03 02 01. -/
theorem C34_counterexample :
    (writeBinary .little (ofNat 1 0x01020304) ⟨[], 4, false⟩ true).map (·.out) = .ok [4, 3, 2, 1] := by
  decide +kernel

/-! ### Concrete cases that meet the hypotheses -/

/-- The hypotheses of `C34_little_endian` are met. -/
example := C34_little_endian (Aeu.ofNat 2 (2 ^ 40 + 3)) 10 (by omega)

/-- The hypotheses of `C34_big_endian_partial` are met. -/
example := C34_big_endian_partial (Aeu.ofNat 2 (2 ^ 40 + 3)) 8 (by omega)

end AesiMP
