import Verif.Model.Wide128
import Verif.Props.SignedExact
import Verif.Lemmas.Alias

/-!
# C103: 128-bit built-in operands
-/

namespace AesiMP
variable {n : Nat}
open Aeu

/-! ### Unsigned -/

/-- Construction from a type of any width takes the low 64 bits. -/
theorem Aeu.ofUnsigned_any {w : Nat} (v : BitVec w) :
    Returns (ofUnsigned n v) (v.toNat % 2 ^ 64 % 2 ^ (32 * n)) := by
  unfold ofUnsigned ofUnsignedJ
  by_cases hv : v = 0#w
  · subst hv; simp [Returns]
  · simp only [ne_eq, hv, not_false_eq_true, if_true]
    refine Sat.bind (P := fun s => toNat s.1 = v.toNat % 2 ^ 64 % 2 ^ (32 * n)) ?_ (fun s hs => Sat.ok hs)
    refine Sat.forUp (fun i (s : Aeu n × U64) => psum (dig s.1) i = v.toNat % 2 ^ 64 % 2 ^ (32 * i) ∧
      s.2.toNat = v.toNat % 2 ^ 64 / 2 ^ (32 * i)) (Nat.zero_le n) ⟨by simp [psum, Nat.mod_one], ?_⟩ ?_
      (fun s h => h.1)
    · simp only [BitVec.toNat_setWidth]
      simp
    · rintro i ⟨d, t⟩ _ hi ⟨h1, h2⟩
      simp only at h1 h2
      simp only [wr_ok hi, ok_bind, sat_ok]
      constructor
      · rw [psum, psum_set_low hi (le_refl _), dig_set_self hi, toNat_toBlock_mod, h1, h2, pow32_succ,
          Nat.mod_mul]
        ring
      · rw [toNat_div_base, h2, Nat.div_div_eq_div_mul, pow32_succ]

private theorem ofUnsigned_low (u : BitVec 128) : ofUnsigned n u = ofUnsigned n (u.setWidth 64) := by
  obtain ⟨x, hx, ex⟩ := Aeu.ofUnsigned_any (n := n) u
  obtain ⟨y, hy, ey⟩ := Aeu.ofUnsigned_any (n := n) (u.setWidth 64)
  rw [hx, hy]
  refine congrArg Except.ok (Aeu.toNat_inj ?_)
  rw [ex, ey, BitVec.toNat_setWidth, Nat.mod_mod]

private theorem addBuiltin_low (a : Aeu n) (u : BitVec 128) : addBuiltin a u = addBuiltin a (u.setWidth 64) := by
  unfold addBuiltin
  rw [show (a, BitVec.setWidth 64 u) = (fun s : Aeu n × BitVec 128 => (s.1, s.2.setWidth 64)) (a, u) from rfl,
    forUp_sim (fun s : Aeu n × BitVec 128 => (s.1, s.2.setWidth 64))
      (body := fun i (s : Aeu n × BitVec 128) => do
        let b ← rd s.1 i
        let currentSum := toU64 b + s.2.setWidth 64
        let x ← wr s.1 i (toBlock (currentSum % blockBase))
        .ok (x, (currentSum / blockBase).setWidth 128))]
  · simp only [bind_assoc, ok_bind]
  · rintro i ⟨x, u⟩
    simp only [bind_assoc, ok_bind]
    refine bind_congr fun b => bind_congr fun y => ?_
    simp

/-- C103: with an `unsigned __int128` operand every operation of an unsigned number returns what it returns
for the low 64 bits of the operand. -/
theorem C103_low_half (cfg : Cfg) (a : Aeu n) (u : BitVec 128) (v : BitVec 64) (hv : v.toNat = u.toNat % 2 ^ 64) :
    ofUnsigned n u = ofUnsigned n v ∧
      addBuiltin a u = addBuiltin a v ∧
      mulNarrow a u = mulNarrow a v ∧
      (subRight a u = subRight a v ∧ divRight cfg a u = divRight cfg a v ∧ modRight cfg a u = modRight cfg a v ∧
        xorRight a u = xorRight a v ∧ andRight a u = andRight a v ∧ orRight a u = orRight a v) ∧
      (addLeft u a = addLeft v a ∧ subLeft u a = subLeft v a ∧ mulLeft u a = mulLeft v a ∧
        divLeft cfg u a = divLeft cfg v a ∧ modLeft cfg u a = modLeft cfg v a ∧
        xorLeft u a = xorLeft v a ∧ andLeft u a = andLeft v a ∧ orLeft u a = orLeft v a) ∧
      eqU128 a u = eqU64 a v ∧ compareToU128 a u = compareToU64 a v ∧ spaceshipU128 a u = spaceshipU64 a v := by
  have e : v = u.setWidth 64 := BitVec.eq_of_toNat_eq (by rw [hv, BitVec.toNat_setWidth])
  subst e
  refine ⟨ofUnsigned_low u, addBuiltin_low a u, ?_, ⟨?_, ?_, ?_, ?_, ?_, ?_⟩, ⟨?_, ?_, ?_, ?_, ?_, ?_, ?_, ?_⟩,
    rfl, rfl, rfl⟩
  · unfold mulNarrow; simp
  all_goals
    first
      | unfold subRight | unfold divRight | unfold modRight | unfold xorRight | unfold andRight | unfold orRight
      | unfold addLeft | unfold subLeft | unfold mulLeft | unfold divLeft | unfold modLeft | unfold xorLeft
      | unfold andLeft | unfold orLeft
    rw [ofUnsigned_low u]

/-- C103: construction and comparison, exactly. -/
theorem C103_unsigned_exact (a : Aeu n) (u : BitVec 128) :
    Returns (ofUnsigned n u) (u.toNat % 2 ^ 64 % 2 ^ (32 * n)) ∧
      (2 ≤ n → eqU128 a u = .ok (decide (toNat a = u.toNat % 2 ^ 64)) ∧
        (compareToU128 a u = .ok .less ↔ toNat a < u.toNat % 2 ^ 64) ∧
        (compareToU128 a u = .ok .equal ↔ toNat a = u.toNat % 2 ^ 64) ∧
        (compareToU128 a u = .ok .greater ↔ toNat a > u.toNat % 2 ^ 64)) := by
  refine ⟨Aeu.ofUnsigned_any u, fun hn => ?_⟩
  have h := C17_compare_u64_partial hn a (u.setWidth 64)
  rw [BitVec.toNat_setWidth] at h
  exact ⟨h.1, h.2.1, h.2.2.1, h.2.2.2.1⟩

/-- C103: construction keeps the value (modulo the precision) exactly when nothing of it lies above bit 63
within the precision. -/
theorem C103_construct_iff (u : BitVec 128) :
    Returns (ofUnsigned n u) (u.toNat % 2 ^ (32 * n)) ↔ u.toNat % 2 ^ (32 * n) < 2 ^ 64 := by
  obtain ⟨x, hx, ex⟩ := Aeu.ofUnsigned_any (n := n) u
  have key : Returns (ofUnsigned n u) (u.toNat % 2 ^ (32 * n)) ↔
      u.toNat % 2 ^ 64 % 2 ^ (32 * n) = u.toNat % 2 ^ (32 * n) := by
    constructor
    · rintro ⟨y, hy, ey⟩
      rw [hx] at hy
      injection hy with hy
      rw [← ex, hy, ey]
    · intro h; exact ⟨x, hx, by rw [ex, h]⟩
  rw [key]
  by_cases hn : n ≤ 2
  · have hd : 2 ^ (32 * n) ∣ 2 ^ 64 := Nat.pow_dvd_pow 2 (by omega)
    have hlt : u.toNat % 2 ^ (32 * n) < 2 ^ 64 :=
      Nat.lt_of_lt_of_le (Nat.mod_lt _ (by positivity)) (Nat.pow_le_pow_right (by norm_num) (by omega))
    exact ⟨fun _ => hlt, fun _ => Nat.mod_mod_of_dvd _ hd⟩
  · have hd : 2 ^ 64 ∣ 2 ^ (32 * n) := Nat.pow_dvd_pow 2 (by omega)
    have hle : 2 ^ 64 ≤ 2 ^ (32 * n) := Nat.pow_le_pow_right (by norm_num) (by omega)
    have hlow : u.toNat % 2 ^ 64 % 2 ^ (32 * n) = u.toNat % 2 ^ 64 :=
      Nat.mod_eq_of_lt (Nat.lt_of_lt_of_le (Nat.mod_lt _ (by norm_num)) hle)
    rw [hlow]
    constructor
    · intro h; rw [← h]; exact Nat.mod_lt _ (by norm_num)
    · intro h
      rw [← Nat.mod_mod_of_dvd u.toNat hd, Nat.mod_eq_of_lt h]

/-- C103 (partial): an operand that fits 64 bits counts with its value: construction, comparison, addition
(the lowest block leaving room for it, C05), multiplication by a factor of at most 32 bits (C04). -/
theorem C103_unsigned_partial (hn : 2 ≤ n) (a : Aeu n) (u : BitVec 128) (hu : u.toNat < 2 ^ 64) :
    Returns (ofUnsigned n u) u.toNat ∧
      eqU128 a u = .ok (decide (toNat a = u.toNat)) ∧
      (compareToU128 a u = .ok .less ↔ toNat a < u.toNat) ∧
      (compareToU128 a u = .ok .greater ↔ toNat a > u.toNat) ∧
      (u.toNat ≤ 2 ^ 64 - 2 ^ 32 → Returns (addBuiltin a u) ((toNat a + u.toNat) % 2 ^ (32 * n))) ∧
      (u.toNat ≤ 2 ^ 32 → Returns (mulNarrow a u) (toNat a * u.toNat % 2 ^ (32 * n))) := by
  have hs : (u.setWidth 64).toNat = u.toNat := by rw [BitVec.toNat_setWidth]; exact Nat.mod_eq_of_lt hu
  have hle : 2 ^ 64 ≤ 2 ^ (32 * n) := Nat.pow_le_pow_right (by norm_num) (by omega)
  obtain ⟨h1, h2, h3, h4, h5⟩ := And.intro (C103_unsigned_exact a u).1 ((C103_unsigned_exact a u).2 hn)
  rw [Nat.mod_eq_of_lt hu] at h1 h2 h3 h4 h5
  rw [Nat.mod_eq_of_lt (by omega)] at h1
  refine ⟨h1, h2, h3, h5, fun h => ?_, fun h => ?_⟩
  · rw [addBuiltin_low]
    have := C05_add_builtin_partial (by norm_num) (le_refl 64) a (u.setWidth 64) (by omega)
    rwa [hs] at this
  · have := C04_mul_ull_partial ⟨false, false, false⟩ a (u.setWidth 64) (Or.inr (by omega))
    rw [hs] at this
    have e := (C103_low_half ⟨false, false, false⟩ a u (u.setWidth 64) (by rw [BitVec.toNat_setWidth])).2.2.1
    rw [e]
    exact this

/-- C103 (negation): an `unsigned __int128` that needs more than 64 bits is taken for another number: 2^64 is
constructed as 0, equals 0, is less than 1, adds and multiplies as 0. -/
theorem C103_counterexample :
    Returns (ofUnsigned 4 ((1 : BitVec 128) <<< 64)) 0 ∧
      eqU128 (ofNat 4 0) ((1 : BitVec 128) <<< 64) = .ok true ∧
      compareToU128 (ofNat 4 1) ((1 : BitVec 128) <<< 64) = .ok .greater ∧
      addBuiltin (ofNat 4 7) ((1 : BitVec 128) <<< 64) = .ok (ofNat 4 7) ∧
      mulNarrow (ofNat 4 7) ((1 : BitVec 128) <<< 64) = .ok (ofNat 4 0) := by
  refine ⟨⟨ofNat 4 0, by decide +kernel, by decide +kernel⟩, by decide +kernel, by decide +kernel, by decide +kernel,
    by decide +kernel⟩

/-- C103: the shifts take a 128-bit count at its value. -/
theorem C103_shifts (a : Aeu n) (u : BitVec 128) :
    (u.toNat < 32 * n → Returns (shl a u.toNat) (toNat a * 2 ^ u.toNat % 2 ^ (32 * n)) ∧
      Returns (shr a u.toNat) (toNat a / 2 ^ u.toNat)) ∧
      (32 * n ≤ u.toNat → shl a u.toNat = .ok a ∧ shr a u.toNat = .ok a) :=
  ⟨fun h => ⟨C10_shl a _ h, C11_shr a _ h⟩, fun h => ⟨C10_shl_noop a _ (Or.inl h), C11_shr_noop a _ (Or.inl h)⟩⟩

/-- C103: `integralCast` to a 128-bit type returns the low 64 bits, never negative. -/
theorem C103_cast_exact (hn : 2 ≤ n) (a : Aeu n) :
    integralCast ITy.u128 a = .ok ((toNat a % 2 ^ 64 : Nat) : Int) ∧
      integralCast ITy.i128 a = .ok ((toNat a % 2 ^ 64 : Nat) : Int) := by
  rw [C21_integralCast_partial hn, C21_integralCast_partial hn]
  have : toNat a % 2 ^ 64 < 2 ^ 64 := Nat.mod_lt _ (by norm_num)
  generalize toNat a % 2 ^ 64 = v at this
  constructor
  · refine congrArg Except.ok ?_
    have e : ITy.u128.conv v = (v : Int) % 2 ^ 128 := by
      simp only [ITy.conv, ITy.u128, Bool.false_eq_true, if_false]
    rw [e]
    omega
  · refine congrArg Except.ok ?_
    have e : ∀ w : Nat, (ITy.mk w true false).conv v = if (v : Int) % 2 ^ w < 2 ^ (w - 1) then (v : Int) % 2 ^ w
      else (v : Int) % 2 ^ w - 2 ^ w := fun w => rfl
    rw [ITy.i128, e, show 128 - 1 = 127 from rfl]
    split_ifs <;> omega

/-! ### Signed -/

open Aesi

/-- The value is one of the type `__int128` other than its minimum, or one of `unsigned __int128`. -/
def Wide (t : ITy) (i : Int) : Prop :=
  (t = ITy.i128 ∧ -(2 : Int) ^ 127 < i ∧ i < (2 : Int) ^ 127) ∨ (t = ITy.u128 ∧ 0 ≤ i ∧ i < (2 : Int) ^ 128)

private theorem wide_negate {t : ITy} {i : Int} (h : Wide t i) (hi : i < 0) :
    t.negate i = .ok (-i) ∧ t.conv (-i) = -i := by
  rcases h with ⟨rfl, h1, h2⟩ | ⟨rfl, h1, h2⟩
  · constructor
    · simp only [ITy.negate, ITy.promoted, ITy.i128, ITy.InRange]
      norm_num
      omega
    · simp only [ITy.conv, ITy.i128]
      norm_num
      omega
  · omega

private theorem toULL_abs {i : Int} (h : 0 ≤ i) : (toULL i).toNat = i.natAbs % 2 ^ 64 := by
  unfold toULL
  rw [BitVec.toNat_ofInt]
  omega

/-- C103: a signed number constructed from a 128-bit built-in has the low 64 bits of its magnitude and its
sign. -/
theorem C103_signed_exact {t : ITy} {i : Int} (h : Wide t i) :
    Sat (ofIntegral n t i) fun r =>
      sgn r = i.sign ∧ Aeu.toNat (unsignedCast r) = i.natAbs % 2 ^ 64 % 2 ^ (32 * n) := by
  unfold ofIntegral
  by_cases hneg : i < 0
  · rw [if_pos hneg, (wide_negate h hneg).1]
    obtain ⟨x, hx, ex⟩ := Aeu.ofUnsigned_any (n := n) (toULL (-i))
    simp only [ok_bind, hx]
    refine Sat.ok ⟨?_, ?_⟩
    · rw [Int.sign_eq_neg_one_of_neg hneg]; rfl
    · show Aeu.toNat x = _
      rw [ex, toULL_abs (by omega)]; simp
  · rw [if_neg hneg]
    by_cases hpos : i > 0
    · rw [if_pos hpos]
      obtain ⟨x, hx, ex⟩ := Aeu.ofUnsigned_any (n := n) (toULL i)
      simp only [ok_bind, hx]
      refine Sat.ok ⟨?_, ?_⟩
      · rw [Int.sign_eq_one_of_pos hpos]; rfl
      · show Aeu.toNat x = _
        rw [ex, toULL_abs (by omega)]; simp
    · rw [if_neg hpos]
      have : i = 0 := by omega
      subst this
      exact Sat.ok ⟨rfl, by simp [unsignedCast, Aesi.zero]⟩

/-- C103 (partial): it has the value if its magnitude fits 64 bits and the precision. -/
theorem C103_signed_partial {t : ITy} {i : Int} (h : Wide t i) (h64 : i.natAbs < 2 ^ 64) (hf : Fits n i) :
    Sat (ofIntegral n t i) fun r => toInt r = i ∧ Canon r := by
  refine Sat.mono (C103_signed_exact h) ?_
  rintro r ⟨h1, h2⟩
  unfold Fits at hf
  rw [Nat.mod_eq_of_lt h64, Nat.mod_eq_of_lt hf] at h2
  unfold unsignedCast at h2
  unfold sgn at h1
  unfold toInt Canon
  rcases lt_trichotomy i 0 with hi | hi | hi
  · rw [Int.sign_eq_neg_one_of_neg hi] at h1
    cases hs : r.sign <;> simp [hs] at h1 ⊢; omega
  · subst hi
    cases hs : r.sign <;> simp [hs] at h1 ⊢
  · rw [Int.sign_eq_one_of_pos hi] at h1
    cases hs : r.sign <;> simp [hs] at h1 ⊢; omega

/-- C103 (negation): `Aesi<128>((__int128)1 << 64)` is not the number 2^64: it claims to be positive, but all
its digits are 0; a minimum of `__int128` overflows. -/
theorem C103_signed_counterexample :
    (Sat (ofIntegral 4 ITy.i128 (2 ^ 64)) fun r =>
      isZero r = false ∧ isPositive r = true ∧ Aeu.toNat (unsignedCast r) = 0) ∧
      ofIntegral 4 ITy.i128 (-2 ^ 127) = .error .signedOverflow := by
  refine ⟨⟨⟨.positive, Aeu.zero 4⟩, by decide +kernel, by decide +kernel⟩, by decide +kernel⟩

private theorem absorb_wide {t : ITy} {i : Int} (h : Wide t i) (a : Aesi n) :
    absorbSign t a i = .ok (if i < 0 then inverse a else a, (i.natAbs : Int)) := by
  unfold absorbSign
  by_cases hneg : i < 0
  · rw [if_pos hneg, (wide_negate h hneg).1]
    simp only [ok_bind, (wide_negate h hneg).2, if_pos hneg]
    refine congrArg Except.ok (Prod.ext rfl ?_)
    show -i = _
    omega
  · rw [if_neg hneg, if_neg hneg]
    refine congrArg Except.ok (Prod.ext rfl ?_)
    show i = _
    omega

private theorem toULL_low (k : Nat) : toULL (k : Int) = toULL ((k % 2 ^ 64 : Nat) : Int) := by
  refine BitVec.eq_of_toNat_eq ?_
  rw [toULL_abs (by omega), toULL_abs (by omega), Int.natAbs_natCast, Int.natAbs_natCast, Nat.mod_mod]

/-- C103: `*`, `/`, `%` of a signed number and a 128-bit built-in return what they return for the low 64 bits of
the magnitude, the sign of the operand taken over by the number; unless those bits are all 0. -/
theorem C103_signed_low_half (cfg : Cfg) {t : ITy} {i : Int} (h : Wide t i) (h0 : i.natAbs % 2 ^ 64 ≠ 0) (a : Aesi n) :
    mulIntegral cfg t a i =
        mulIntegral cfg ITy.u64 (if i < 0 then inverse a else a) ((i.natAbs % 2 ^ 64 : Nat) : Int) ∧
      divIntegral cfg t a i =
        divIntegral cfg ITy.u64 (if i < 0 then inverse a else a) ((i.natAbs % 2 ^ 64 : Nat) : Int) ∧
      modIntegral cfg t a i =
        modIntegral cfg ITy.u64 (if i < 0 then inverse a else a) ((i.natAbs % 2 ^ 64 : Nat) : Int) := by
  have hi : i ≠ 0 := by rintro rfl; simp at h0
  have hl : ((i.natAbs % 2 ^ 64 : Nat) : Int) ≠ 0 := by exact_mod_cast h0
  have hab : ∀ b : Aesi n, absorbSign ITy.u64 b ((i.natAbs % 2 ^ 64 : Nat) : Int) =
      .ok (b, ((i.natAbs % 2 ^ 64 : Nat) : Int)) := by
    intro b; unfold absorbSign; rw [if_neg (by omega)]
  unfold mulIntegral divIntegral modIntegral
  rw [if_neg hi, if_neg hi, if_neg hi, if_neg hl, if_neg hl, if_neg hl, absorb_wide h, hab]
  simp only [ok_bind]
  rw [toULL_low i.natAbs]
  exact ⟨rfl, rfl, rfl⟩

/-- C103: a comparison of a signed number with a 128-bit built-in, exactly: signs first, then the magnitude against
the low 64 bits of the operand's; a negative operand whose low 64 bits are 2^63 overflows. -/
theorem C103_signed_compare_exact (hn : 2 ≤ n) {t : ITy} {i : Int} (h : Wide t i) (a : Aesi n) :
    compareToIntegral a i =
      if sgn a < i.sign then .ok .less
      else if i.sign < sgn a then .ok .greater
      else if i = 0 then .ok .equal
      else if i < 0 ∧ i.natAbs % 2 ^ 64 = 2 ^ 63 then .error .signedOverflow
      else if toInt a < i.sign * ((i.natAbs % 2 ^ 64 : Nat) : Int) then .ok .less
      else if toInt a = i.sign * ((i.natAbs % 2 ^ 64 : Nat) : Int) then .ok .equal
      else .ok .greater := by
  have hwide : -(2 : Int) ^ 127 < i ∧ i < (2 : Int) ^ 128 := by rcases h with ⟨_, h1, h2⟩ | ⟨_, h1, h2⟩ <;> omega
  unfold compareToIntegral
  by_cases h0 : i = 0
  · subst h0
    rw [if_pos rfl]
    unfold signOnly sgn
    cases a.sign <;> simp
  rw [if_neg h0]
  by_cases hneg : i < 0
  · rw [if_pos hneg, Int.sign_eq_neg_one_of_neg hneg]
    by_cases hs : a.sign = .negative
    · have hsg : sgn a = -1 := by unfold sgn; rw [hs]
      rw [if_pos hs, hsg, if_neg (by omega), if_neg (by omega), if_neg h0]
      have hconv : ITy.i64.conv i = if i.natAbs % 2 ^ 64 ≤ 2 ^ 63 then -((i.natAbs % 2 ^ 64 : Nat) : Int)
          else 2 ^ 64 - ((i.natAbs % 2 ^ 64 : Nat) : Int) := by
        have e : ITy.i64.conv i = if i % 2 ^ 64 < 2 ^ 63 then i % 2 ^ 64 else i % 2 ^ 64 - 2 ^ 64 := rfl
        rw [e]
        split_ifs <;> omega
      rw [hconv]
      have hlt : i.natAbs % 2 ^ 64 < 2 ^ 64 := Nat.mod_lt _ (by norm_num)
      generalize i.natAbs % 2 ^ 64 = k at hlt
      by_cases hm : k = 2 ^ 63
      · subst hm
        rw [if_pos (le_refl _), if_pos ⟨hneg, rfl⟩]
        have : ITy.i64.negate (-((2 ^ 63 : Nat) : Int)) = .error .signedOverflow := by decide +kernel
        rw [this]
        rfl
      rw [if_neg (by omega : ¬ (i < 0 ∧ k = 2 ^ 63))]
      have hng : ∀ j : Int, -(2 : Int) ^ 63 < j → j < (2 : Int) ^ 63 → ITy.i64.negate j = .ok (-j) := by
        intro j h1 h2
        simp only [ITy.negate, ITy.promoted, ITy.i64, ITy.InRange]
        norm_num
        omega
      rw [hng _ (by split_ifs <;> omega) (by split_ifs <;> omega)]
      simp only [ok_bind]
      have hu : (toULL (-(if k ≤ 2 ^ 63 then -(k : Int) else 2 ^ 64 - (k : Int)))).toNat = k := by
        unfold toULL
        rw [BitVec.toNat_ofInt]
        split_ifs <;> omega
      rw [Aeu.compareToU64_spec (by omega), hu]
      simp only [ok_bind]
      rw [toInt_neg hs]
      unfold Aeu.cmpNat
      split_ifs <;> first | rfl | omega
    · rw [if_neg hs]
      unfold sgn
      cases hs' : a.sign <;> simp [hs'] at hs ⊢
  · have hpos : 0 < i := by omega
    rw [if_neg hneg, Int.sign_eq_one_of_pos hpos]
    by_cases hs : a.sign = .positive
    · have hsg : sgn a = 1 := by unfold sgn; rw [hs]
      rw [if_pos hs, hsg, if_neg (by omega), if_neg (by omega), if_neg h0, if_neg (by omega)]
      have hu : (toULL (ITy.i64.conv i)).toNat = i.natAbs % 2 ^ 64 := by
        unfold toULL
        rw [BitVec.toNat_ofInt]
        simp only [ITy.conv, ITy.i64]
        norm_num
        split_ifs <;> omega
      rw [Aeu.compareToU64_spec (by omega), hu, toInt_pos hs]
      unfold Aeu.cmpNat
      generalize i.natAbs % 2 ^ 64 = k
      split_ifs <;> first | rfl | omega
    · rw [if_neg hs]
      unfold sgn
      cases hs' : a.sign <;> simp [hs'] at hs ⊢

/-! ### Concrete cases that meet the hypotheses -/

/-- The hypotheses of `C103_low_half` are met. -/
example := C103_low_half ⟨false, false, false⟩ (Aeu.ofNat 4 (2 ^ 100)) (2 ^ 70 + 5) 5 (by decide +kernel)

/-- The hypotheses of `C103_unsigned_partial` are met. -/
example := C103_unsigned_partial (by omega) (Aeu.ofNat 4 (2 ^ 100)) (2 ^ 60 + 5) (by decide +kernel)

/-- The hypotheses of `C103_cast_exact` are met. -/
example := C103_cast_exact (by omega) (Aeu.ofNat 4 (2 ^ 100))

/-- The hypotheses of `C103_signed_exact` are met. -/
example := C103_signed_exact (n := 4) (t := .i128) (i := -2 ^ 100 - 5) (Or.inl ⟨rfl, by decide +kernel, by decide +kernel⟩)

/-- The hypotheses of `C103_signed_partial` are met. -/
example := C103_signed_partial (n := 4) (t := .i128) (i := -2 ^ 60 - 5) (Or.inl ⟨rfl, by decide +kernel, by decide +kernel⟩) (by decide +kernel)
  (by decide +kernel)

/-- The hypotheses of `C103_signed_low_half` are met. -/
example := C103_signed_low_half ⟨false, false, false⟩ (t := .u128) (i := 2 ^ 100 + 5)
  (Or.inr ⟨rfl, by decide +kernel, by decide +kernel⟩) (by decide +kernel) (Aesi.ofInt 4 (-2 ^ 80))

/-- The hypotheses of `C103_signed_compare_exact` are met. -/
example := C103_signed_compare_exact (by omega) (t := .i128) (i := -2 ^ 100 - 5)
  (Or.inl ⟨rfl, by decide +kernel, by decide +kernel⟩) (Aesi.ofInt 4 (-2 ^ 80))

end AesiMP
