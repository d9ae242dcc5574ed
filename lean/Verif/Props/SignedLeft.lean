import Verif.Model.SignedLeft
import Verif.Props.RefineU
import Verif.Props.Gmp
import Verif.Props.RefineS
import Verif.Props.Compare

/-!
# C107: operands converted through `mpz_class`; C04: products of a const object
-/

namespace AesiMP
open Aeu
variable {n : Nat}

/-- The value of an integer modulo 2^bitness. -/
def residue (n : Nat) (i : Int) : Nat := (i % 2 ^ (32 * n)).toNat

/-- What each operator computes on the values `x` and `y`; `none` for a zero divisor. -/
def LeftOp.ideal (n x y : Nat) : LeftOp → Option Nat
  | .add => some (residue n (x + y))
  | .sub => some (residue n (x - y))
  | .mul => some (residue n (x * y))
  | .div => if y = 0 then none else some (x / y)
  | .mod => if y = 0 then none else some (x % y)
  | .xor => some (x ^^^ y)
  | .and => some (x &&& y)
  | .or => some (x ||| y)

private theorem LeftOp.ideal_bin (n x y : Nat) (op : LeftOp) : op.bin.ideal n x y = op.ideal n x y := by
  cases op <;> simp only [LeftOp.ideal, LeftOp.bin, UBin.ideal, given, wrap, residue, ne_eq, ite_not]

/-- **C107**: what `Aeu(i)` is for every signed `i`: the absolute value. -/
theorem C107_construct_exact (cfg : Cfg) (i : Int) (h : cfg.unsafeMode = false ∨ i.natAbs < 2 ^ (32 * n)) :
    Returns (Aeu.ofSigned cfg n i) (i.natAbs % 2 ^ (32 * n)) := C60_unsigned cfg i h

/-- **C107**: what `i op a` is for every signed built-in `i`: the operation on the absolute value of `i`. -/
theorem C107_left_exact (cfg : Cfg) (hn : 0 < n) (op : LeftOp) (i : Int) (a : Aeu n) (v : Nat)
    (h : cfg.unsafeMode = false ∨ i.natAbs < 2 ^ (32 * n))
    (hv : op.ideal n (i.natAbs % 2 ^ (32 * n)) (toNat a) = some v) :
    Returns (op.signedLeft cfg i a) v ∧ Returns (op.mpzLeft cfg i a) v := by
  obtain ⟨x, hx, hx'⟩ := C60_unsigned (n := n) cfg i h
  obtain ⟨r, hr, hr'⟩ := op.bin.refines cfg hn x a v (by rw [LeftOp.ideal_bin, hx']; exact hv)
  exact ⟨⟨r, by simp only [LeftOp.signedLeft, Aeu.ofSigned, hx]; exact hr, hr'⟩,
    ⟨r, by simp only [LeftOp.mpzLeft, hx]; exact hr, hr'⟩⟩

/-- **C107**: what `a op z` is for every GMP integer `z`. -/
theorem C107_right_exact (cfg : Cfg) (hn : 0 < n) (op : LeftOp) (z : Int) (a : Aeu n) (v : Nat)
    (h : cfg.unsafeMode = false ∨ z.natAbs < 2 ^ (32 * n))
    (hv : op.ideal n (toNat a) (z.natAbs % 2 ^ (32 * n)) = some v) :
    Returns (op.mpzRight cfg a z) v := by
  obtain ⟨x, hx, hx'⟩ := C60_unsigned (n := n) cfg z h
  obtain ⟨r, hr, hr'⟩ := op.bin.refines cfg hn a x v (by rw [LeftOp.ideal_bin, hx']; exact hv)
  exact ⟨r, by simp only [LeftOp.mpzRight, hx]; exact hr, hr'⟩

private theorem residue_nonneg {i : Int} (hi : 0 ≤ i) : residue n i = i.natAbs % 2 ^ (32 * n) := by
  obtain ⟨k, rfl⟩ := Int.eq_ofNat_of_zero_le hi
  simp only [residue, Int.natAbs_natCast]
  rw [show ((k : Int) % 2 ^ (32 * n)) = ((k % 2 ^ (32 * n) : Nat) : Int) by push_cast; rfl]
  exact Int.toNat_natCast _

/-- **C107** (partial: the operand is not negative): an operand that is a signed built-in value on the left, or a GMP
integer on either side, counts with its value modulo 2^bitness. -/
theorem C107_operand_partial (cfg : Cfg) (hn : 0 < n) (op : LeftOp) (i : Int) (hi : 0 ≤ i) (a : Aeu n) (v : Nat)
    (h : cfg.unsafeMode = false ∨ i.natAbs < 2 ^ (32 * n)) :
    (op.ideal n (residue n i) (toNat a) = some v →
      Returns (op.signedLeft cfg i a) v ∧ Returns (op.mpzLeft cfg i a) v) ∧
    (op.ideal n (toNat a) (residue n i) = some v → Returns (op.mpzRight cfg a i) v) := by
  rw [residue_nonneg hi]
  exact ⟨C107_left_exact cfg hn op i a v h, C107_right_exact cfg hn op i a v h⟩

/-- **C107**: a negative operand of less than half the range is never taken for its value: not when constructing, and
`i + a`, `i - a`, `a - z` are wrong for every `a`. -/
theorem C107_negative_wrong (cfg : Cfg) (i : Int) (hi : i < 0) (hlo : -2 ^ (32 * n - 1) < i) (a : Aeu n) :
    ¬ Returns (Aeu.ofSigned cfg n i) (residue n i) ∧
    ¬ Returns (LeftOp.add.signedLeft cfg i a) (residue n (i + toNat a)) ∧
    ¬ Returns (LeftOp.sub.signedLeft cfg i a) (residue n (i - toNat a)) ∧
    ¬ Returns (LeftOp.sub.mpzRight cfg a i) (residue n (toNat a - i)) := by
  by_cases hn : n = 0
  · subst hn; norm_num at hlo; omega
  have hn : 0 < n := Nat.pos_of_ne_zero hn
  obtain ⟨M, hM⟩ : ∃ M : Nat, M = 2 ^ (32 * n) := ⟨_, rfl⟩
  have hhalf : (2 : Int) * 2 ^ (32 * n - 1) = 2 ^ (32 * n) := by
    rw [← pow_succ']; congr 1; omega
  have hMi : ((M : Nat) : Int) = 2 ^ (32 * n) := by rw [hM]; push_cast; rfl
  have hfit : i.natAbs < 2 ^ (32 * n) := by rw [← hM]; omega
  have hne : ¬ (2 : Int) ^ (32 * n) ∣ 2 * i := by
    rintro ⟨k, hk⟩
    rw [← hhalf, mul_assoc] at hk
    have hk : i = 2 ^ (32 * n - 1) * k := by omega
    have hp : (0 : Int) < 2 ^ (32 * n - 1) := by positivity
    rcases lt_trichotomy k 0 with h | h | h
    · have : 2 ^ (32 * n - 1) * k ≤ 2 ^ (32 * n - 1) * (-1) := Int.mul_le_mul_of_nonneg_left (by omega) hp.le
      omega
    · subst h; omega
    · have : 0 < 2 ^ (32 * n - 1) * k := Int.mul_pos hp h
      omega
  have key : ∀ x y : Int, x - y = 2 * i ∨ y - x = 2 * i → residue n x ≠ residue n y := by
    intro x y hxy h
    have hx : (0 : Int) ≤ x % 2 ^ (32 * n) := Int.emod_nonneg _ (by positivity)
    have hy : (0 : Int) ≤ y % 2 ^ (32 * n) := Int.emod_nonneg _ (by positivity)
    have : x % 2 ^ (32 * n) = y % 2 ^ (32 * n) := by
      simp only [residue] at h; omega
    have hd := Int.emod_emod_of_dvd
    have h1 : (2 : Int) ^ (32 * n) ∣ x - y := Int.dvd_of_emod_eq_zero (Int.emod_eq_emod_iff_emod_sub_eq_zero.1 this)
    rcases hxy with e | e
    · exact hne (e ▸ h1)
    · exact hne (e ▸ (by rw [← Int.neg_sub]; exact (Int.dvd_neg).2 h1))
  have habs : (i.natAbs : Int) = -i := by omega
  have two : ∀ {x : Exec (Aeu n)} {v w : Nat}, Returns x v → Returns x w → v = w := by
    rintro x v w ⟨r, hr, h1⟩ ⟨r', hr', h2⟩
    rw [hr] at hr'
    cases hr'
    exact h1.symm.trans h2
  have hmod : i.natAbs % 2 ^ (32 * n) = i.natAbs := Nat.mod_eq_of_lt hfit
  refine ⟨fun h => ?_, fun h => ?_, fun h => ?_, fun h => ?_⟩
  · have e := two h (C107_construct_exact cfg i (.inr hfit))
    have : i.natAbs % 2 ^ (32 * n) = residue n (-i) := by rw [residue_nonneg (by omega), Int.natAbs_neg]
    exact key i (-i) (.inl (by ring)) (e.trans this)
  · have e := two h (C107_left_exact cfg hn .add i a _ (.inr hfit) rfl).1
    rw [hmod, habs] at e
    exact key _ _ (.inl (by ring)) e
  · have e := two h (C107_left_exact cfg hn .sub i a _ (.inr hfit) rfl).1
    rw [hmod, habs] at e
    exact key _ _ (.inl (by ring)) e
  · have e := two h (C107_right_exact cfg hn .sub i a _ (.inr hfit) rfl)
    rw [hmod, habs] at e
    exact key _ _ (.inr (by ring)) e

/-- **C107** is false of the code: `-3 + a` adds 3. -/
theorem C107_counterexample (cfg : Cfg) (a : Aeu 2) (ha : toNat a = 10) :
    Returns (LeftOp.add.signedLeft cfg (-3) a) 13 ∧ Returns (LeftOp.sub.mpzRight cfg a (-3)) 7 := by
  have h1 := (C107_left_exact cfg (by norm_num) .add (-3) a 13 (.inr (by norm_num)) (by rw [ha]; decide)).1
  have h2 := C107_right_exact cfg (by norm_num) .sub (-3) a 7 (.inr (by norm_num)) (by rw [ha]; decide)
  exact ⟨h1, h2⟩

/-- **C107** in full, and its negation. -/
theorem C107_full_fails : ¬ ∀ (cfg : Cfg) (op : LeftOp) (i : Int) (a : Aeu 2) (v : Nat),
    i.natAbs < 2 ^ 64 → op.ideal 2 (residue 2 i) (toNat a) = some v → Returns (op.signedLeft cfg i a) v := by
  intro h
  obtain ⟨h1, _⟩ := C107_counterexample ⟨false, false, false⟩ (ofNat 2 10) (by decide +kernel)
  obtain ⟨r, hr, h2⟩ := h ⟨false, false, false⟩ .add (-3) (ofNat 2 10) 7 (by norm_num) (by decide +kernel)
  obtain ⟨r', hr', h3⟩ := h1
  rw [hr] at hr'
  cases hr'
  omega

example : (0 : Int) ≤ 2 ^ 40 + 9 ∧ LeftOp.mod.ideal 2 (residue 2 (2 ^ 40 + 9)) 1000 = some ((2 ^ 40 + 9) % 1000) ∧
    ((do let x ← LeftOp.mod.signedLeft ⟨false, false, false⟩ (2 ^ 40 + 9) (ofNat 2 1000); .ok (toNat x)) =
      (.ok ((2 ^ 40 + 9) % 1000) : Exec Nat)) := by decide +kernel

/-- **C04**: a product of a const object and a built-in factor of any width up to 64 bits, `unsigned long long`
included, is exact modulo 2^bitness. -/
theorem C04_const_object {w : Nat} (hw : w ≤ 64) (a : Aeu n) (u : BitVec w) :
    Returns (Aeu.mulConst a u) (toNat a * u.toNat % 2 ^ (32 * n)) := by
  obtain ⟨x, hx, hx'⟩ := C22_construct hw (zero n) u
  obtain ⟨r, hr, hr'⟩ := C03_mul a x
  refine ⟨r, by simp only [Aeu.mulConst, Aeu.ofUnsigned, hx]; exact hr, ?_⟩
  rw [hr', hx']
  simp [Nat.mul_mod]

/-- So the result of `a * u` with an `unsigned long long` depends on whether `a` is const. -/
example : (do let x ← Aeu.mulConst (ofNat 4 (2 ^ 33 + 5)) (BitVec.ofNat 64 (2 ^ 63 + 2 ^ 33 + 1)); .ok (toNat x)) =
      (.ok ((2 ^ 33 + 5) * (2 ^ 63 + 2 ^ 33 + 1)) : Exec Nat) ∧
    (do let x ← Aeu.mulNarrow (ofNat 4 (2 ^ 33 + 5)) (BitVec.ofNat 64 (2 ^ 63 + 2 ^ 33 + 1)); .ok (toNat x)) ≠
      (.ok ((2 ^ 33 + 5) * (2 ^ 63 + 2 ^ 33 + 1)) : Exec Nat) := by decide +kernel

/-- **C17**: before C++20 and in CUDA code the ordering against a built-in unsigned value is numeric if the value fits
the precision (always, for 64 bits or more); in general the value counts modulo 2^bitness. -/
theorem C17_oldstyle {w : Nat} (hw : w ≤ 64) (cfg : Cfg) (a : Aeu n) (u : BitVec w) :
    Aeu.oldBuiltin (oldLt cfg) a u = .ok (decide (toNat a < u.toNat % 2 ^ (32 * n))) ∧
    Aeu.oldBuiltin (oldLe cfg) a u = .ok (decide (toNat a ≤ u.toNat % 2 ^ (32 * n))) ∧
    Aeu.oldBuiltin (oldGt cfg) a u = .ok (decide (toNat a > u.toNat % 2 ^ (32 * n))) ∧
    Aeu.oldBuiltin (oldGe cfg) a u = .ok (decide (toNat a ≥ u.toNat % 2 ^ (32 * n))) ∧
    (2 ≤ n ∨ w ≤ 32 ∧ 0 < n → u.toNat % 2 ^ (32 * n) = u.toNat) := by
  obtain ⟨x, hx, hx'⟩ := C22_construct hw (zero n) u
  obtain ⟨h1, h2, h3, h4⟩ := C16_oldstyle cfg a x
  rw [hx'] at h1 h2 h3 h4
  simp only [Aeu.oldBuiltin, Aeu.ofUnsigned, hx]
  refine ⟨h1, h2, h3, h4, fun h => Nat.mod_eq_of_lt (Nat.lt_of_lt_of_le u.isLt (Nat.pow_le_pow_right (by norm_num) ?_))⟩
  omega

example : Aeu.oldBuiltin (oldLt ⟨false, false, false⟩) (ofNat 2 7) (BitVec.ofNat 64 (2 ^ 32)) = .ok true ∧
    Aeu.oldBuiltin (oldLt ⟨false, false, false⟩) (ofNat 1 7) (BitVec.ofNat 64 (2 ^ 32)) = .ok false := by
  decide +kernel

/-- **C107**, for `Aesi`: a GMP integer that fits counts with its value, sign included, on either side. -/
theorem C107_signed_operand (cfg : Cfg) (hn : 0 < n) (op : SBin) (z : Int) (hz : Aesi.Fits n z) (a : Aesi n)
    (ha : Aesi.Canon a) (v : Int) :
    (op.ideal n (Aesi.toInt a) z = some v → ReturnsInt (op.mpzRight cfg a z) v) ∧
    (op.ideal n z (Aesi.toInt a) = some v → ReturnsInt (op.mpzLeft cfg z a) v) := by
  obtain ⟨x, hx, hx', hc⟩ := C60_signed (n := n) cfg z hz
  refine ⟨fun h => ?_, fun h => ?_⟩
  · have := op.refines cfg hn a x ha hc v (by rw [hx']; exact h)
    simp only [SBin.mpzRight, hx]; exact this
  · have := op.refines cfg hn x a hc ha v (by rw [hx']; exact h)
    simp only [SBin.mpzLeft, hx]; exact this

example : SBin.div.ideal 2 (Aesi.toInt (Aesi.ofInt 2 (-100))) (-7) = some 14 ∧ Aesi.Fits 2 (-7) ∧
    (do let x ← SBin.div.mpzRight ⟨false, false, false⟩ (Aesi.ofInt 2 (-100)) (-7); .ok (Aesi.toInt x)) =
      (.ok 14 : Exec Int) := by decide +kernel

end AesiMP
