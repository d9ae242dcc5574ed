import Verif.Props.Complete
import Verif.Props.Transfer
import Verif.Props.Powm
import Verif.Props.Interchange
import Verif.Props.SignedExact

/-!
# What the code does where a property fails: exact forms of C13, C17, C34, C43, C51, C68, C85
-/

namespace AesiMP
open Aeu
variable {n m k : Nat}

/-- C13, every index in both modes: the byte in range, nothing above the guard, undefined behaviour between them and,
in unsafe mode, everywhere out of range. -/
theorem C13_exact (cfg : Cfg) (a : Aeu n) (i : Nat) (v : BitVec 8) :
    (if i < 4 * n then Sat (getByte cfg a i) fun b => b.toNat = toNat a / 256 ^ i % 256
      else if 4 * n < i ∧ cfg.unsafeMode = false then getByte cfg a i = .ok 0#8
      else getByte cfg a i = .error (if cfg.ndebug then .outOfBounds else .assertFailed)) ∧
    (if i < 4 * n then Sat (setByte cfg a i v) fun r => ∀ j, j < 4 * n → getByte cfg r j = if j = i then .ok v else getByte cfg a j
      else if 4 * n < i ∧ cfg.unsafeMode = false then setByte cfg a i v = .ok a
      else setByte cfg a i v = .error (if cfg.ndebug then .outOfBounds else .assertFailed)) := by
  by_cases h1 : i < 4 * n
  · rw [if_pos h1, if_pos h1]
    exact ⟨C13_getByte cfg a i h1, C13_setByte cfg a i v h1⟩
  · rw [if_neg h1, if_neg h1]
    by_cases h2 : 4 * n < i ∧ cfg.unsafeMode = false
    · rw [if_pos h2, if_pos h2]
      exact C13_out_of_range_partial cfg h2.2 a i v h2.1
    · rw [if_neg h2, if_neg h2]
      have hg : ¬ ((!cfg.unsafeMode) = true ∧ i > n * 4) := by
        rintro ⟨hu, hi⟩
        exact h2 ⟨by omega, by simpa using hu⟩
      have hblk : ¬ (i / 4 < n ∧ i % 4 < 4) := by omega
      have hs : i % 4 * 8 < 32 := by omega
      have hoob : ¬ i / 4 < n := by omega
      unfold getByte setByte
      rw [if_neg hg, if_neg hg]
      cases hnd : cfg.ndebug <;>
        simp [cassert, hnd, hblk, hoob, shl32, hs, rd, bind, Except.bind, hs]

/-- C14 with `AESI_UNSAFE`: an index out of range is not checked. -/
theorem C14_unsafe_out_of_range (cfg : Cfg) (hs : cfg.unsafeMode = true) (a : Aeu n) (i : Nat) (w : Block) (hi : n ≤ i) :
    getBlock cfg a i = .error .outOfBounds ∧ setBlock cfg a i w = .error .outOfBounds := by
  have h : ¬ i < n := by omega
  unfold getBlock setBlock
  simp [hs, rd, wr, h]

/-- C31 with `AESI_UNSAFE`: `power2` of an exponent out of range writes past the object (or fails an assertion). -/
theorem C31_unsafe_out_of_range (cfg : Cfg) (hs : cfg.unsafeMode = true) (k : Nat) (hk : 32 * n ≤ k) :
    power2 cfg n k = .error (if cfg.ndebug then .outOfBounds else .assertFailed) := by
  have := (C12_unsafe_out_of_range cfg hs (Aeu.zero n) k true hk).2
  unfold power2
  rw [this]

/-- C17, numbers of one block: every comparison with a 64-bit value reads past the object. -/
theorem C17_one_block_exact (a : Aeu 1) (u : BitVec 64) :
    eqU64 a u = .error .outOfBounds ∧ compareToU64 a u = .error .outOfBounds ∧ spaceshipU64 a u = .error .outOfBounds := by
  obtain ⟨h1, h2⟩ := C17_one_block_counterexample a u
  refine ⟨h1, h2, ?_⟩
  unfold spaceshipU64
  rw [h2]; rfl

/-- C34, both machines and both flags: which byte of the number each byte written is. -/
theorem C34_exact (host : Host) (bigEndian : Bool) (a : Aeu n) (room : Nat) (h : 4 * n ≤ room) :
    Sat (writeBinary host a ⟨[], room, false⟩ bigEndian) fun r => r.out.length = 4 * n ∧ r.fail = false ∧
      ∀ block, block < n → ∀ k, k < 4 → (r.out.getD (4 * block + k) 0).toNat =
        byteOf (toNat a) (4 * (if bigEndian then n - 1 - block else block) + (if host = .little then k else 3 - k)) := by
  obtain ⟨image, hlen, hbytes, hw⟩ := C33_write_prefix host bigEndian a []
  obtain ⟨w, hw1, hw2, hw3⟩ := hw room
  refine ⟨w, hw1, ?_⟩
  have hout : w.out = image := by
    rw [hw2, List.take_of_length_le (by omega)]; rfl
  refine ⟨by rw [hout, hlen], ?_, fun block hb k hk => ?_⟩
  · cases hf : w.fail with
    | false => rfl
    | true => have := hw3.1 hf; omega
  · rw [hout, hbytes _ (by omega)]
    unfold byteIndex
    rw [show (4 * block + k) / 4 = block by omega, show (4 * block + k) % 4 = k by omega]

/-- C34: on a little-endian machine, what is written with the big-endian flag is the big-endian image of the number
exactly when every block reads the same forwards and backwards. -/
theorem C34_big_endian_iff (a : Aeu n) (room : Nat) (h : 4 * n ≤ room) :
    (Sat (writeBinary .little a ⟨[], room, false⟩ true) fun r =>
      ∀ p, p < 4 * n → (r.out.getD p 0).toNat = byteOf (toNat a) (4 * n - 1 - p)) ↔
    ∀ block, block < n → ∀ k, k < 4 → byteOf (toNat a) (4 * block + k) = byteOf (toNat a) (4 * block + (3 - k)) := by
  obtain ⟨w, hw, -, -, hb⟩ := C34_exact .little true a room h
  constructor
  · rintro ⟨w', hw', hb'⟩ block hblk k hk
    rw [hw] at hw'
    obtain rfl := Except.ok.inj hw'
    have e1 := hb (n - 1 - block) (by omega) k hk
    have e2 := hb' (4 * (n - 1 - block) + k) (by omega)
    rw [e1] at e2
    simp only [if_true] at e2
    rw [show n - 1 - (n - 1 - block) = block by omega,
      show 4 * n - 1 - (4 * (n - 1 - block) + k) = 4 * block + (3 - k) by omega] at e2
    exact e2
  · intro hpal
    refine ⟨w, hw, fun p hp => ?_⟩
    have e1 := hb (p / 4) (by omega) (p % 4) (by omega)
    rw [show 4 * (p / 4) + p % 4 = p by omega] at e1
    rw [e1]
    simp only [if_true]
    rw [hpal (n - 1 - p / 4) (by omega) (p % 4) (by omega)]
    congr 1
    omega

/-- C68, the README's form, every base and exponent: 1 for base 0. -/
theorem C68_readme_exact (cfg : Cfg) (hn : 0 < n) (hk : 2 * n ≤ k) (hm : 32 * m < 2 ^ 32) (b md : Aeu n) (e : Aeu m)
    (hmd : 1 < toNat md) :
    Sat (precisionCast cfg k b) fun b' => Sat (precisionCast cfg k md) fun md' =>
      Returns (powmT cfg b' e md') (if toNat b = 0 then 1 else toNat b ^ toNat e % toNat md) := by
  by_cases hb : toNat b = 0
  · rw [if_pos hb]
    by_cases he : toNat e = 0
    · have := C68_powm_readme_partial cfg hn hk hm b md e hmd (Or.inr he)
      rwa [he, pow_zero, Nat.mod_eq_of_lt hmd] at this
    · exact (C68_readme_base_zero cfg hn hk hm b md e hmd hb (by omega)).2
  · rw [if_neg hb]
    exact C68_powm_readme_partial cfg hn hk hm b md e hmd (Or.inl (by omega))

open Aesi in
/-- C85, signed numbers that compare equal: the members that read the digits give the same answers exactly when the digits
are the same, which is certain unless both are signed zero. -/
theorem C85_iff (cfg : Cfg) (a b : Aesi n) (h : Aesi.eq cfg a b = .ok true) :
    ((∀ i, Aesi.getBit cfg a i = Aesi.getBit cfg b i) ↔
      toNat (Aesi.unsignedCast a) = toNat (Aesi.unsignedCast b)) ∧
    (Aesi.isZero a = false → a = b) ∧ (Aesi.isZero a = true → Aesi.isZero b = true) := by
  have hs := (eq_iff_same cfg a b).1 h
  refine ⟨⟨fun hb => ?_, fun hb i => ?_⟩, fun hz => ?_, fun hz => ?_⟩
  · refine congrArg toNat (toNat_inj (Nat.eq_of_testBit_eq fun i => ?_))
    by_cases hi : i < 32 * n
    · have := hb i
      unfold Aesi.getBit at this
      rw [C12_getBit cfg _ i hi, C12_getBit cfg _ i hi] at this
      exact Except.ok.inj this
    · have hbig : ∀ x : Aeu n, (toNat x).testBit i = false := fun x =>
        Nat.testBit_lt_two_pow (lt_of_lt_of_le (toNat_lt x) (Nat.pow_le_pow_right (by norm_num) (by omega)))
      rw [hbig, hbig]
  · have : a.base = b.base := toNat_inj hb
    unfold Aesi.getBit
    rw [this]
  · rcases hs.cases with h | h
    · exact h
    · simp [Aesi.isZero, h.1] at hz
  · have : a.sign = .zero := by simpa [Aesi.isZero] using hz
    simp [Aesi.isZero, ← hs.1, this]

/-- Cases that meet the hypotheses: a palindromic number for C34, a stale zero for C85. -/
example : ¬ (∀ block, block < 2 → ∀ k, k < 4 → byteOf (toNat (ofNat 2 0xABCDCDAB12344321)) (4 * block + k) =
      byteOf (toNat (ofNat 2 0xABCDCDAB12344321)) (4 * block + (3 - k))) ∧
    (∀ block, block < 2 → ∀ k, k < 4 → byteOf (toNat (ofNat 2 0xABCDCDAB12343412)) (4 * block + k) =
      byteOf (toNat (ofNat 2 0xABCDCDAB12343412)) (4 * block + (3 - k))) := by decide +kernel

/-! ### C43 -/

open Aesi

/-- What the sign observers say: the sign of `x`. -/
def ShowsSign (r : Aesi n) (x : Int) : Prop :=
  Aesi.isZero r = decide (x = 0) ∧ Aesi.isPositive r = decide (0 < x) ∧ Aesi.isNegative r = decide (x < 0)

private theorem shows_of_canon {r : Aesi n} (hc : Canon r) {x : Int} (h : toInt r = x) : ShowsSign r x := by
  obtain ⟨h1, h2, h3⟩ := canon_sign hc
  rw [h] at h1 h2 h3
  refine ⟨?_, ?_, ?_⟩
  · by_cases hx : x = 0 <;> simp [Aesi.isZero, hx, h1]
  · by_cases hx : 0 < x <;> simp [Aesi.isPositive, hx, h2]
  · by_cases hx : x < 0 <;> simp [Aesi.isNegative, hx, h3]

private theorem shows_of_sign {r a : Aesi n} (hc : Canon a) (h : r.sign = a.sign) {x : Int}
    (h0 : x = 0 ↔ toInt a = 0) (h1 : 0 < x ↔ 0 < toInt a) (h2 : x < 0 ↔ toInt a < 0) : ShowsSign r x := by
  have := shows_of_canon hc (x := toInt a) rfl
  simpa [ShowsSign, Aesi.isZero, Aesi.isPositive, Aesi.isNegative, h, h0, h1, h2] using this

private theorem add_shows (cfg : Cfg) (a b : Aesi n) (ha : Canon a) (hb : Canon b) :
    Sat (Aesi.add cfg a b) fun r => ShowsSign r (toInt a + toInt b) := by
  by_cases hfit : Fits n (toInt a + toInt b)
  · exact Sat.mono (Aesi.add_spec cfg a b hfit) fun r h => shows_of_canon (h.2 ha hb) h.1
  · have hza : a.sign ≠ .zero := by
      intro h; apply hfit; rw [toInt_zero h, Int.zero_add]; exact fits_toInt b
    have hzb : b.sign ≠ .zero := by
      intro h; apply hfit; rw [toInt_zero h, Int.add_zero]; exact fits_toInt a
    have hla := Aeu.toNat_lt a.base
    have hlb := Aeu.toNat_lt b.base
    have hab : a.sign = b.sign := by
      by_contra hne
      apply hfit
      unfold Fits toInt
      cases hsa : a.sign <;> cases hsb : b.sign <;> simp_all <;> omega
    unfold Aesi.add
    rw [if_neg hzb, if_neg hza, if_pos hab]
    obtain ⟨r, hr, -⟩ := Aeu.add_spec a.base b.base
    simp only [hr, ok_bind, sat_ok]
    obtain ⟨a1, a2, a3⟩ := canon_sign ha
    obtain ⟨b1, b2, b3⟩ := canon_sign hb
    rw [← hab] at b1 b2 b3
    refine shows_of_sign (a := a) ha rfl ?_ ?_ ?_ <;>
      (cases hs : a.sign <;> simp [hs] at a1 a2 a3 b1 b2 b3 hza <;> omega)

private theorem mul_shows (a b : Aesi n) (ha : Canon a) (hb : Canon b) :
    Sat (Aesi.mul a b) fun r => ShowsSign r (toInt a * toInt b) := by
  obtain ⟨a1, a2, a3⟩ := canon_sign ha
  obtain ⟨b1, b2, b3⟩ := canon_sign hb
  unfold Aesi.mul
  by_cases hzb : b.sign = .zero
  · rw [if_pos (by simp [Aesi.isZero, hzb])]
    refine Sat.ok ?_
    rw [b1.1 hzb, Int.mul_zero]
    exact ⟨rfl, rfl, rfl⟩
  rw [if_neg (by simp [Aesi.isZero, hzb])]
  dsimp only
  obtain ⟨r, hr, -⟩ := Aeu.mul_spec a.base b.base
  by_cases hneg : b.sign = .negative
  · rw [if_pos (by simp [Aesi.isNegative, hneg])]
    simp only [inverse_base, hr, ok_bind, sat_ok]
    have hb' := b3.1 hneg
    refine shows_of_sign (a := inverse a) (canon_inverse ha) rfl ?_ ?_ ?_ <;> rw [toInt_inverse]
    · rw [Int.mul_eq_zero]; omega
    · rw [Int.neg_pos]
      exact ⟨fun h => by by_contra h'; exact absurd (Int.mul_nonpos_of_nonneg_of_nonpos (a := toInt a) (by omega) (Int.le_of_lt hb')) (by omega),
        fun h => Int.mul_pos_of_neg_of_neg h hb'⟩
    · constructor
      · intro h; by_contra h'
        exact absurd (Int.mul_nonneg_of_nonpos_of_nonpos (a := toInt a) (by omega) (Int.le_of_lt hb')) (by omega)
      · intro h; exact Int.mul_neg_of_pos_of_neg (by omega) hb'
  · have hpos : b.sign = .positive := by cases h : b.sign <;> simp_all
    rw [if_neg (by simp [Aesi.isNegative, hneg])]
    simp only [hr, ok_bind, sat_ok]
    have hb' := b2.1 hpos
    refine shows_of_sign (a := a) ha rfl ?_ ?_ ?_
    · rw [Int.mul_eq_zero]; omega
    · constructor
      · intro h; by_contra h'
        exact absurd (Int.mul_nonpos_of_nonpos_of_nonneg (a := toInt a) (by omega) (Int.le_of_lt hb')) (by omega)
      · intro h; exact Int.mul_pos h hb'
    · constructor
      · intro h; by_contra h'
        exact absurd (Int.mul_nonneg (a := toInt a) (by omega) (Int.le_of_lt hb')) (by omega)
      · intro h; exact Int.mul_neg_of_neg_of_pos h hb'

private theorem inc_shows (hn : 0 < n) (a : Aesi n) (ha : Canon a) :
    Sat (Aesi.inc a) fun r => ShowsSign r (toInt a + 1) := by
  by_cases hfit : Fits n (toInt a + 1)
  · exact Sat.mono (Aesi.inc_spec hn a ha hfit) fun r h => shows_of_canon h.2 h.1
  · have hb := Aeu.toNat_lt a.base
    obtain ⟨a1, a2, a3⟩ := canon_sign ha
    have hpos : a.sign = .positive := by
      cases hs : a.sign with
      | positive => rfl
      | zero =>
        exfalso; apply hfit; rw [toInt_zero hs]; unfold Fits
        simp only [Int.zero_add, Int.natAbs_one]
        exact Nat.one_lt_two_pow (by omega)
      | negative =>
        exfalso; apply hfit; rw [toInt_neg hs]; unfold Fits
        have := ha (by rw [hs]; simp)
        omega
    unfold Aesi.inc
    rw [hpos]
    dsimp only
    obtain ⟨r, hr, e⟩ := Aeu.inc_spec a.base
    simp only [hr, ok_bind, sat_ok]
    have := a2.1 hpos
    exact shows_of_sign (a := a) ha hpos.symm (by omega) (by omega) (by omega)

private theorem shows_inverse {r : Aesi n} {x : Int} (h : ShowsSign r x) : ShowsSign (inverse r) (-x) := by
  obtain ⟨h1, h2, h3⟩ := h
  unfold ShowsSign Aesi.isZero Aesi.isPositive Aesi.isNegative inverse at *
  have e1 : decide (-x = 0) = decide (x = 0) := by congr 1; exact propext (by omega)
  have e2 : decide (0 < -x) = decide (x < 0) := by congr 1; exact propext (by omega)
  have e3 : decide (-x < 0) = decide (0 < x) := by congr 1; exact propext (by omega)
  rw [e1, e2, e3, ← h1, ← h2, ← h3]
  cases hs : r.sign <;> exact ⟨rfl, rfl, rfl⟩

/-- C43, every result of the operators on canonical objects, overflowing or not: `isZero`, `isPositive` and `isNegative`
tell the sign of the exact result. -/
theorem C43_sign_exact (cfg : Cfg) (hn : 0 < n) (a b : Aesi n) (ha : Canon a) (hb : Canon b) :
    (Sat (Aesi.add cfg a b) fun r => ShowsSign r (toInt a + toInt b)) ∧
    (Sat (Aesi.sub cfg a b) fun r => ShowsSign r (toInt a - toInt b)) ∧
    (Sat (Aesi.mul a b) fun r => ShowsSign r (toInt a * toInt b)) ∧
    (Sat (Aesi.inc a) fun r => ShowsSign r (toInt a + 1)) ∧
    (Sat (Aesi.dec a) fun r => ShowsSign r (toInt a - 1)) ∧
    (Sat (Aesi.div cfg a b) fun r => ShowsSign r ((toInt a).tdiv (toInt b))) ∧
    (Sat (Aesi.mod cfg a b) fun r => ShowsSign r (toInt r)) := by
  refine ⟨add_shows cfg a b ha hb, ?_, mul_shows a b ha hb, inc_shows hn a ha, ?_, ?_, ?_⟩
  · rw [sub_eq_add_inverse]
    refine Sat.mono (add_shows cfg a (inverse b) ha (canon_inverse hb)) fun r h => ?_
    rwa [toInt_inverse, ← Int.sub_eq_add_neg] at h
  · rw [dec_eq]
    refine Sat.bind (inc_shows hn (inverse a) (canon_inverse ha)) fun r h => Sat.ok ?_
    have := shows_inverse h
    rwa [toInt_inverse, show -(-toInt a + 1) = toInt a - 1 by ring] at this
  · by_cases h0 : toInt b = 0
    · unfold Aesi.div
      rw [if_pos (by simp [Aesi.isZero, (canon_sign hb).1.2 h0])]
      refine Sat.ok ?_
      rw [h0, Int.tdiv_zero]
      exact ⟨rfl, rfl, rfl⟩
    · exact Sat.mono (Aesi.div_spec cfg hn a b h0) fun r h => shows_of_canon h.2 h.1
  · by_cases h0 : toInt b = 0
    · unfold Aesi.mod
      rw [if_pos (by simp [Aesi.isZero, (canon_sign hb).1.2 h0])]
      exact Sat.ok (shows_of_canon ha rfl)
    · exact Sat.mono (Aesi.mod_spec cfg hn a b h0) fun r h => shows_of_canon h.2 rfl

private theorem tmod_zero_iff (x : Int) : x.tmod (2 ^ (32 * n)) = 0 ↔ (2 : Int) ^ (32 * n) ∣ x :=
  ⟨Int.dvd_of_tmod_eq_zero, Int.tmod_eq_zero_of_dvd⟩

private theorem zero_iff {r : Aesi n} {x : Int} (h1 : ShowsSign r x) (h2 : toInt r = x.tmod (2 ^ (32 * n))) :
    (Aesi.isZero r = true ↔ toInt r = 0) ↔ ¬ (x ≠ 0 ∧ (2 : Int) ^ (32 * n) ∣ x) := by
  rw [h1.1, h2, tmod_zero_iff, decide_eq_true_iff]
  constructor
  · rintro h ⟨h3, h4⟩; exact h3 (h.2 h4)
  · intro h
    refine ⟨fun h0 => h0 ▸ Int.dvd_zero _, fun hd => ?_⟩
    by_contra h0
    exact h ⟨h0, hd⟩

/-- C43, exactly: after `+`, `-`, `*`, `++`, `--` of canonical objects `isZero` is wrong if and only if the exact result is
a multiple of `2^bitness` other than 0. -/
theorem C43_iff (cfg : Cfg) (hn : 0 < n) (a b : Aesi n) (ha : Canon a) (hb : Canon b) :
    (Sat (Aesi.add cfg a b) fun r => (Aesi.isZero r = true ↔ toInt r = 0) ↔
      ¬ (toInt a + toInt b ≠ 0 ∧ (2 : Int) ^ (32 * n) ∣ toInt a + toInt b)) ∧
    (Sat (Aesi.sub cfg a b) fun r => (Aesi.isZero r = true ↔ toInt r = 0) ↔
      ¬ (toInt a - toInt b ≠ 0 ∧ (2 : Int) ^ (32 * n) ∣ toInt a - toInt b)) ∧
    (Sat (Aesi.mul a b) fun r => (Aesi.isZero r = true ↔ toInt r = 0) ↔
      ¬ (toInt a * toInt b ≠ 0 ∧ (2 : Int) ^ (32 * n) ∣ toInt a * toInt b)) ∧
    (Sat (Aesi.inc a) fun r => (Aesi.isZero r = true ↔ toInt r = 0) ↔
      ¬ (toInt a + 1 ≠ 0 ∧ (2 : Int) ^ (32 * n) ∣ toInt a + 1)) ∧
    (Sat (Aesi.dec a) fun r => (Aesi.isZero r = true ↔ toInt r = 0) ↔
      ¬ (toInt a - 1 ≠ 0 ∧ (2 : Int) ^ (32 * n) ∣ toInt a - 1)) := by
  obtain ⟨⟨r1, e1, s1⟩, ⟨r2, e2, s2⟩, ⟨r3, e3, s3⟩, ⟨r4, e4, s4⟩, ⟨r5, e5, s5⟩, -⟩ := C43_sign_exact cfg hn a b ha hb
  obtain ⟨⟨r1', e1', v1⟩, ⟨r2', e2', v2⟩, ⟨r3', e3', v3⟩⟩ := C70_ring_wrap cfg a b
  obtain ⟨⟨r4', e4', v4⟩, ⟨r5', e5', v5⟩⟩ := C70_inc_dec_wrap_partial hn a ha
  rw [e1] at e1'; rw [e2] at e2'; rw [e3] at e3'; rw [e4] at e4'; rw [e5] at e5'
  obtain rfl := Except.ok.inj e1'
  obtain rfl := Except.ok.inj e2'
  obtain rfl := Except.ok.inj e3'
  obtain rfl := Except.ok.inj e4'
  obtain rfl := Except.ok.inj e5'
  exact ⟨⟨_, e1, zero_iff s1 v1⟩, ⟨_, e2, zero_iff s2 v2⟩, ⟨_, e3, zero_iff s3 v3⟩, ⟨_, e4, zero_iff s4 v4⟩,
    ⟨_, e5, zero_iff s5 v5⟩⟩

/-- C43: after `%` by a built-in value the observers show the sign of `a * i`, so a canonical number that the value
divides is not seen to have become zero. -/
theorem C43_mod_builtin_exact (cfg : Cfg) (hn : 0 < n) {t : ITy} (ht : t ∈ ITy.all) (a : Aesi n) (ha : Canon a) {i : Int}
    (hr : t.InRange i) (hm : ¬ t.IsMin i) (h0 : i ≠ 0) (hfit : Fits n i) :
    Sat (modIntegral cfg t a i) fun r => ShowsSign r (toInt a * i) ∧
      ((Aesi.isZero r = true ↔ toInt r = 0) ↔ (i ∣ toInt a → toInt a = 0)) := by
  obtain ⟨r, er, hv⟩ := Aesi.modIntegral_spec cfg hn ht a hr hm h0 hfit
  refine ⟨r, er, ?_⟩
  have hs : ShowsSign r (toInt a * i) := by
    unfold modIntegral at er
    rw [if_neg h0] at er
    obtain ⟨⟨a', g⟩, e1, hg, ha'⟩ := absorbSign_spec ht a hr hm
    rw [e1] at er
    simp only [ok_bind] at er hg ha'
    cases hd : Aeu.ofUnsigned n (toULL g) with
    | error e => rw [hd] at er; simp at er
    | ok d =>
      rw [hd] at er
      simp only [ok_bind] at er
      cases hq : Aeu.mod cfg a'.base d with
      | error e => rw [hq] at er; simp at er
      | ok q =>
        rw [hq] at er
        simp only [ok_bind] at er
        obtain rfl := Except.ok.inj er
        have hc : Canon a' := by rw [ha']; split
                                 · exact canon_inverse ha
                                 · exact ha
        have hi : toInt a' = if i < 0 then - toInt a else toInt a := by
          rw [ha']; split
          · exact toInt_inverse a
          · rfl
        rcases lt_or_gt_of_ne h0 with hn' | hp'
        · rw [if_pos hn'] at hi
          refine shows_of_sign (a := a') hc rfl ?_ ?_ ?_ <;> rw [hi]
          · rw [Int.mul_eq_zero]; omega
          · constructor
            · intro h; by_contra h'
              exact absurd (Int.mul_nonpos_of_nonneg_of_nonpos (a := toInt a) (by omega) (Int.le_of_lt hn')) (by omega)
            · intro h; exact Int.mul_pos_of_neg_of_neg (by omega) hn'
          · constructor
            · intro h; by_contra h'
              exact absurd (Int.mul_nonneg_of_nonpos_of_nonpos (a := toInt a) (by omega) (Int.le_of_lt hn')) (by omega)
            · intro h; exact Int.mul_neg_of_pos_of_neg (by omega) hn'
        · rw [if_neg (by omega)] at hi
          refine shows_of_sign (a := a') hc rfl ?_ ?_ ?_ <;> rw [hi]
          · rw [Int.mul_eq_zero]; omega
          · constructor
            · intro h; by_contra h'
              exact absurd (Int.mul_nonpos_of_nonpos_of_nonneg (a := toInt a) (by omega) (Int.le_of_lt hp')) (by omega)
            · intro h; exact Int.mul_pos h hp'
          · constructor
            · intro h; by_contra h'
              exact absurd (Int.mul_nonneg (a := toInt a) (by omega) (Int.le_of_lt hp')) (by omega)
            · intro h; exact Int.mul_neg_of_neg_of_pos h hp'
  refine ⟨hs, ?_⟩
  have hz : toInt r = 0 ↔ i ∣ toInt a := by
    rw [hv]
    constructor
    · intro h
      apply Int.dvd_of_tmod_eq_zero
      split at h <;> omega
    · intro h
      rw [Int.tmod_eq_zero_of_dvd h, Int.mul_zero]
  rw [hs.1, decide_eq_true_iff, hz, Int.mul_eq_zero]
  constructor
  · intro h hd; exact (h.2 hd).resolve_right h0
  · intro h
    exact ⟨fun h' => by rw [h'.resolve_right h0]; exact Int.dvd_zero _, fun hd => Or.inl (h hd)⟩

/-- The wrong cases exist: 2^63 + 2^63 in 64 bits, and 6 % 3 with a built-in 3. -/
example : Canon (ofInt 2 (2 ^ 63)) ∧ ((2 : Int) ^ 63 + 2 ^ 63 ≠ 0 ∧ (2 : Int) ^ (32 * 2) ∣ 2 ^ 63 + 2 ^ 63) ∧
    toInt (ofInt 2 (2 ^ 63)) = 2 ^ 63 ∧ ITy.i32.InRange 3 ∧ ¬ ITy.i32.IsMin 3 ∧ Fits 2 3 ∧
    (modIntegral ⟨false, false, false⟩ .i32 (ofInt 2 6) 3).map (fun r => (toInt r, Aesi.isPositive r)) = .ok (0, true) := by
  decide +kernel

/-! ### C51 -/

variable {cap : Nat}

/-- C51, buffers too short for anything: nothing is written behind the dash, and the count is 0. -/
theorem C51_too_short (cfg : Cfg) (kind : CharKind) (base : BitVec 8) (upper : Bool) (a : Aesi n) (ha : toInt a ≠ 0)
    (buffer : Vector Int cap) (showBase : Bool) (hc : cap < if toInt a < 0 then 3 else 2) :
    Sat (Aesi.getString cfg kind base upper a buffer showBase) fun r => r.2 = 0 ∧
      r.1.toList = if toInt a < 0 ∧ 0 < cap then 45 :: buffer.toList.drop 1 else buffer.toList := by
  have hz : a.sign ≠ .zero := fun h => ha (toInt_zero h)
  have hneg : a.sign = .negative ↔ toInt a < 0 := by
    unfold toInt at ha ⊢; cases h : a.sign <;> simp [h] at ha hz ⊢ <;> omega
  unfold Aesi.getString
  rw [if_pos hz]
  by_cases hn : toInt a < 0
  · by_cases h0 : 0 < cap
    · rw [if_pos ⟨hneg.2 hn, h0⟩, if_pos ⟨hn, h0⟩, wr_ok h0]
      rw [if_pos hn] at hc
      simp only [ok_bind]
      refine Sat.mono (onTail_spec _ 1 (by omega) _ (fun l c => l = buffer.toList.drop 1 ∧ c = 0) ?_) ?_
      · intro t ht
        unfold Aeu.getString
        rw [if_pos (by omega)]
        refine Sat.ok ⟨?_, rfl⟩
        rw [ht, Vector.toList_set, List.drop_set_of_lt (by omega)]
      · rintro r ⟨tail, h1, h2, h3⟩
        refine ⟨h3, ?_⟩
        rw [h1, h2, Vector.toList_set]
        cases hb : buffer.toList with
        | nil => have : buffer.toList.length = cap := by simp
                 rw [hb] at this; simp at this; omega
        | cons x xs => simp
    · rw [if_neg (by tauto), if_neg (by tauto)]
      unfold Aeu.getString
      rw [if_pos (by omega)]
      exact Sat.ok ⟨rfl, rfl⟩
  · rw [if_neg (by tauto), if_neg (by tauto)]
    rw [if_neg hn] at hc
    unfold Aeu.getString
    rw [if_pos (by omega)]
    exact Sat.ok ⟨rfl, rfl⟩

/-- C51, `char` buffers that hold the beginning of the text but not all of it with its terminator: overrun.  With
C51_too_short, C51_positive_partial and C51_negative this decides every buffer of `char` and every number but zero
(C51_zero, C51_zero_short). -/
theorem C51_overrun (cfg : Cfg) (base : BitVec 8) (upper : Bool) (a : Aesi n) (ha : toInt a ≠ 0)
    (buffer : Vector Int cap) (showBase : Bool) (hcap : cap < 2 ^ 63)
    (hbase : (2 ≤ base.toNat ∧ base.toNat ≤ 10 ∧ 2 ≤ n) ∨ (base.toNat = 16 ∧ 0 < n)) (dash : Nat)
    (hdash : dash = if toInt a < 0 then 1 else 0) (hc : dash + 2 ≤ cap)
    (h : cap ≤ dash + ((if showBase ∧ dash + 3 < cap then basePrefix base.toNat else []) ++
        numeral upper base.toNat (toInt a).natAbs).length) :
    Aesi.getString cfg .char base upper a buffer showBase = .error .outOfBounds := by
  have hz : a.sign ≠ .zero := fun h => ha (toInt_zero h)
  have hv : (toInt a).natAbs = toNat a.base := by
    unfold toInt at ha ⊢; cases h : a.sign <;> simp [h] at ha hz ⊢
  have h0 : toNat a.base ≠ 0 := by rw [← hv]; omega
  rw [hv] at h
  have hneg : a.sign = .negative ↔ toInt a < 0 := by
    unfold toInt at ha ⊢; cases h : a.sign <;> simp [h] at ha hz ⊢ <;> omega
  unfold Aesi.getString
  rw [if_pos hz]
  by_cases hn : toInt a < 0
  · rw [if_pos hn] at hdash
    subst hdash
    rw [if_pos ⟨hneg.2 hn, by omega⟩, wr_ok (by omega)]
    simp only [ok_bind]
    unfold onTail
    dsimp only
    rw [C25_overrun cfg base upper a.base _ showBase (by omega) hbase (by omega) h0]
    · rfl
    · have e : (3 < cap - 1 ↔ 1 + 3 < cap) := by omega
      simp only [e]
      omega
  · rw [if_neg hn] at hdash
    subst hdash
    rw [if_neg (by tauto)]
    refine C25_overrun cfg base upper a.base _ showBase hcap hbase (by omega) h0 ?_
    simpa using h

/-- Cases: -1234 into five characters overruns, into two it leaves the dash. -/
example : Aesi.getString ⟨false, false, false⟩ .char 10#8 false (ofInt 2 (-1234)) (Vector.replicate 5 7) false =
      .error .outOfBounds ∧
    Aesi.getString ⟨false, false, false⟩ .char 10#8 false (ofInt 2 (-1234)) (Vector.replicate 2 7) false =
      .ok (#v[45, 7], 0) ∧
    (1 + 2 ≤ 5 ∧ 5 ≤ 1 + (numeral false 10 (toInt (ofInt 2 (-1234))).natAbs).length) := by decide +kernel

end AesiMP
