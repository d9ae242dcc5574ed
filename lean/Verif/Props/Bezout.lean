import Verif.Props.NumTheory
import Verif.Props.Access
import Mathlib.Algebra.Order.Ring.Abs
import Mathlib.Tactic.LinearCombination

/-!
# C27, C78: which Bézout coefficients the library returns

The coefficients are those of the classical extended Euclidean algorithm, an integer each, wrapped to the
precision; their size is bounded by the other operand.  Hence the usual way to get a modular inverse.
-/

namespace AesiMP
open Aeu
variable {n : Nat}

theorem xgcdAux_swap (r r' : Nat) : ∀ s t s' t' : Int,
    Nat.xgcdAux r t s r' t' s' = ((Nat.xgcdAux r s t r' s' t').1, (Nat.xgcdAux r s t r' s' t').2.2,
      (Nat.xgcdAux r s t r' s' t').2.1) := by
  induction r using Nat.strong_induction_on generalizing r' with
  | _ r ih =>
    intro s t s' t'
    rcases Nat.eq_zero_or_pos r with rfl | h
    · simp only [Nat.xgcd_zero_left]
    · rw [Nat.xgcdAux_rec h, Nat.xgcdAux_rec h]
      exact ih _ (Nat.mod_lt _ h) _ _ _ _ _

/-- The coefficient is at most half of `b`. -/
theorem xgcdAux_bound (c : Int) (r : Nat) : ∀ (r' : Nat) (s t s' t' : Int), r < r' →
    s * s' ≤ 0 → (r' : Int) * |s| + r * |s'| ≤ c → 2 * |s'| ≤ c →
    2 * |(Nat.xgcdAux r s t r' s' t').2.1| ≤ c := by
  induction r using Nat.strong_induction_on with
  | _ r ih =>
    intro r' s t s' t' hr' hs he hb
    rcases Nat.eq_zero_or_pos r with rfl | h
    · simpa [Nat.xgcd_zero_left] using hb
    · rw [Nat.xgcdAux_rec h]
      have hdm : (r' : Int) = r * (r' / r : Nat) + (r' % r : Nat) := by
        exact_mod_cast (Nat.div_add_mod r' r).symm
      have hq : (0 : Int) ≤ (r' / r : Nat) := Int.natCast_nonneg _
      have habs : |s' - (r' / r : Nat) * s| = |s'| + (r' / r : Nat) * |s| := by
        rcases le_total 0 s with h1 | h1 <;> rcases le_total 0 s' with h2 | h2
        · have : s * s' = 0 := le_antisymm hs (mul_nonneg h1 h2)
          rcases mul_eq_zero.1 this with h3 | h3 <;> subst h3
          · simp
          · rw [zero_sub, abs_neg, abs_mul, abs_of_nonneg hq]; simp
        · rw [abs_of_nonneg h1, abs_of_nonpos h2, abs_of_nonpos (by nlinarith [mul_nonneg hq h1])]; ring
        · rw [abs_of_nonpos h1, abs_of_nonneg h2, abs_of_nonneg (by nlinarith [mul_nonneg hq (neg_nonneg.2 h1)])]
          ring
        · have : s * s' = 0 := le_antisymm hs (mul_nonneg_of_nonpos_of_nonpos h1 h2)
          rcases mul_eq_zero.1 this with h3 | h3 <;> subst h3
          · simp
          · rw [zero_sub, abs_neg, abs_mul, abs_of_nonneg hq]; simp
      refine ih _ (Nat.mod_lt _ h) r _ _ _ _ (Nat.mod_lt _ h) ?_ ?_ ?_
      · have : (s' - (r' / r : Nat) * s) * s = s * s' - (r' / r : Nat) * (s * s) := by ring
        have h2 : 0 ≤ ((r' / r : Nat) : Int) * (s * s) := mul_nonneg hq (mul_self_nonneg s)
        push_cast at this h2 ⊢
        rw [this]; linarith
      · push_cast at habs ⊢
        push_cast at hdm
        rw [habs]
        refine le_of_eq_of_le ?_ he
        linear_combination -|s| * hdm
      · have h1 : 0 ≤ (r : Int) * |s'| := mul_nonneg (Int.natCast_nonneg _) (abs_nonneg _)
        have h2 : 2 * |s| ≤ (r' : Int) * |s| :=
          mul_le_mul_of_nonneg_right (by exact_mod_cast (by omega : 2 ≤ r')) (abs_nonneg _)
        linarith

private theorem aux_eq_self (a : Nat) (ha : 0 < a) (s t s' t' : Int) :
    Nat.xgcdAux a s t a s' t' = (a, s, t) := by
  rw [Nat.xgcdAux_rec ha, Nat.mod_self, Nat.xgcd_zero_left]

private theorem aux_of_gt {a b : Nat} (h : b < a) (s t s' t' : Int) :
    Nat.xgcdAux a s t b s' t' = Nat.xgcdAux b s' t' a s t := by
  rw [Nat.xgcdAux_rec (by omega), Nat.mod_eq_of_lt h]
  have : ((b : Int) / (a : Int)) = 0 := by
    rw [← Int.natCast_div, Nat.div_eq_of_lt h]; rfl
  rw [this]; norm_num

theorem gcdA_bound (a b : Nat) (ha : 0 < a) : 2 * |Nat.gcdA a b| ≤ max 2 (b : Int) := by
  unfold Nat.gcdA Nat.xgcd
  rcases lt_trichotomy a b with h | h | h
  · exact xgcdAux_bound _ a b 1 0 0 1 h (by simp) (by simp) (by simp)
  · subst h; rw [aux_eq_self a ha]; simp
  · rw [aux_of_gt h]
    exact xgcdAux_bound _ b a 0 1 1 0 h (by simp) (by simp) (by simp)

theorem gcdB_bound (a b : Nat) (ha : 0 < a) : 2 * |Nat.gcdB a b| ≤ max 2 (a : Int) := by
  unfold Nat.gcdB Nat.xgcd
  rw [xgcdAux_swap]
  rcases lt_trichotomy a b with h | h | h
  · exact xgcdAux_bound _ a b 0 1 1 0 h (by simp) (by simp) (by simp)
  · subst h; rw [aux_eq_self a ha]; simp
  · rw [aux_of_gt h]
    exact xgcdAux_bound _ b a 1 0 0 1 h (by simp) (by simp) (by simp)

private theorem loop_exact (cfg : Cfg) (hn : 0 < n) (v : Nat × Int × Int) (g q r bx bY tx ty : Aeu n)
    (BX BY TX TY : Int)
    (hv : Nat.xgcdAux (toNat r) (TX - toNat q * BX) (TY - toNat q * BY) (toNat g) BX BY = v)
    (h1 : (toNat bx : Int) ≡ BX [ZMOD (2 : Int) ^ (32 * n)]) (h2 : (toNat bY : Int) ≡ BY [ZMOD (2 : Int) ^ (32 * n)])
    (h3 : (toNat tx : Int) ≡ TX [ZMOD (2 : Int) ^ (32 * n)]) (h4 : (toNat ty : Int) ≡ TY [ZMOD (2 : Int) ^ (32 * n)]) :
    Sat (whileC (2 ^ (32 * n) + 1) (g, q, r, bx, bY, tx, ty)
      fun (gcd, quotient, remainder, bezoutX, bezoutY, tX, tY) => do
      let z ← eqNarrow remainder (0#32)
      if z then .ok (.leave (gcd, bezoutX, bezoutY)) else do
        let tGcd := gcd
        let gcd := remainder
        let t := bezoutX
        let p ← mul quotient bezoutX
        let bezoutX ← sub tX p
        let tX := t
        let t := bezoutY
        let p ← mul quotient bezoutY
        let bezoutY ← sub tY p
        let tY := t
        let qr ← divide cfg tGcd gcd
        .ok (.next (gcd, qr.1, qr.2, bezoutX, bezoutY, tX, tY)))
      fun s => (toNat s.2.1 : Int) ≡ v.2.1 [ZMOD (2 : Int) ^ (32 * n)] ∧
        (toNat s.2.2 : Int) ≡ v.2.2 [ZMOD (2 : Int) ^ (32 * n)] := by
  set W := (2 : Int) ^ (32 * n) with hW
  refine Sat.whileC (fun (s : Aeu n × Aeu n × Aeu n × Aeu n × Aeu n × Aeu n × Aeu n) =>
      ∃ BX BY TX TY : Int,
      Nat.xgcdAux (toNat s.2.2.1) (TX - toNat s.2.1 * BX) (TY - toNat s.2.1 * BY) (toNat s.1) BX BY = v ∧
      (toNat s.2.2.2.1 : Int) ≡ BX [ZMOD W] ∧ (toNat s.2.2.2.2.1 : Int) ≡ BY [ZMOD W] ∧
      (toNat s.2.2.2.2.2.1 : Int) ≡ TX [ZMOD W] ∧ (toNat s.2.2.2.2.2.2 : Int) ≡ TY [ZMOD W])
      (fun s => toNat s.2.2.1) ⟨BX, BY, TX, TY, hv, h1, h2, h3, h4⟩
      (by have := toNat_lt r; simp only; omega) ?_
  clear hv h1 h2 h3 h4
  rintro ⟨g, q, r, bx, bY, tx, ty⟩ ⟨BX, BY, TX, TY, hv, h1, h2, h3, h4⟩
  simp only at hv h1 h2 h3 h4 ⊢
  rw [eqNarrow_spec hn (by norm_num)]
  simp only [ok_bind]
  by_cases h0 : toNat r = 0
  · simp only [h0, BitVec.toNat_ofNat, Nat.zero_mod, decide_true, if_true, sat_ok, ctlP_leave]
    rw [h0, Nat.xgcd_zero_left] at hv
    rw [← hv]
    exact ⟨h1, h2⟩
  · have hbf : (decide (toNat r = (0#32).toNat)) = false := by simp [h0]
    rw [hbf]
    simp only [Bool.false_eq_true, if_false]
    obtain ⟨p1, hp1, ep1⟩ := mul_int q bx
    obtain ⟨b1, hb1', eb1⟩ := sub_int tx p1
    obtain ⟨p2, hp2, ep2⟩ := mul_int q bY
    obtain ⟨b2, hb2', eb2⟩ := sub_int ty p2
    rw [← hW] at ep1 eb1 ep2 eb2
    simp only [hp1, hb1', hp2, hb2', ok_bind]
    refine Sat.bind (divide_spec cfg hn g r h0) ?_
    rintro qr ⟨e1, e2⟩
    simp only [sat_ok, ctlP_next, e2]
    refine ⟨⟨TX - toNat q * BX, TY - toNat q * BY, BX, BY, ?_, ?_, ?_, h1, h2⟩, Nat.mod_lt _ (by omega)⟩
    · rw [← hv, Nat.xgcdAux_rec (Nat.pos_of_ne_zero h0), e1]
      push_cast
      rfl
    · exact eb1.trans (h3.sub (ep1.trans (h1.mul_left _)))
    · exact eb2.trans (h4.sub (ep2.trans (h2.mul_left _)))

private theorem init_exact (big small : Nat) (hs : 0 < small) (q r : Nat) (hr : r = big % small)
    (hq : q = big / small) :
    Nat.xgcdAux r (1 - q * 0) (0 - q * 1) small 0 1 = Nat.xgcdAux small 0 1 big 1 0 := by
  rw [Nat.xgcdAux_rec (r := small) hs, hr, hq]
  push_cast
  rfl

theorem gcdExt_exact (cfg : Cfg) (hn : 0 < n) (x y : Aeu n) (hx : toNat x ≠ 0) (hy : toNat y ≠ 0) :
    Sat (gcdExt cfg x y) fun r =>
      (toNat r.2.1 : Int) ≡ Nat.gcdA (toNat x) (toNat y) [ZMOD (2 : Int) ^ (32 * n)] ∧
      (toNat r.2.2 : Int) ≡ Nat.gcdB (toNat x) (toNat y) [ZMOD (2 : Int) ^ (32 * n)] := by
  unfold gcdExt gcdExtIn
  rw [compareTo_spec]
  obtain ⟨z, hz, ez⟩ := ofUnsigned32_zero (n := n)
  obtain ⟨o, ho, eo⟩ := ofUnsigned32_one hn
  simp only [ok_bind, hz, ho]
  have ez' : (toNat z : Int) ≡ 0 [ZMOD (2 : Int) ^ (32 * n)] := by rw [ez]; rfl
  have eo' : (toNat o : Int) ≡ 1 [ZMOD (2 : Int) ^ (32 * n)] := by rw [eo]; rfl
  by_cases hgt : cmpNat (toNat x) (toNat y) = .greater
  · simp only [hgt, if_true, ne_eq, not_true_eq_false, if_false]
    refine Sat.bind (divide_spec cfg hn x y hy) ?_
    rintro ⟨q, r⟩ ⟨h1, h2⟩
    refine Sat.bind (loop_exact cfg hn _ y q r z o o z 0 1 1 0 rfl ez' eo' eo' ez') ?_
    rintro ⟨g, a, b⟩ ⟨h3, h4⟩
    simp only at h3 h4
    rw [init_exact (toNat x) (toNat y) (by omega) _ _ h2 h1] at h3 h4
    have hlt : toNat y < toNat x := by
      unfold cmpNat at hgt; split at hgt <;> [cases hgt; (split at hgt <;> [cases hgt; omega])]
    have e : Nat.xgcdAux (toNat x) 1 0 (toNat y) 0 1 = Nat.xgcdAux (toNat y) 0 1 (toNat x) 1 0 := by
      rw [Nat.xgcdAux_rec (by omega), Nat.mod_eq_of_lt hlt]
      have : ((toNat y : Int) / (toNat x : Int)) = 0 := by
        rw [← Int.natCast_div, Nat.div_eq_of_lt hlt]; rfl
      rw [this]; norm_num
    rw [← e] at h3 h4
    exact Sat.ok ⟨h3, h4⟩
  · simp only [hgt, if_false, ne_eq, not_false_eq_true, if_true]
    refine Sat.bind (divide_spec cfg hn y x hx) ?_
    rintro ⟨q, r⟩ ⟨h1, h2⟩
    refine Sat.bind (loop_exact cfg hn _ x q r z o o z 0 1 1 0 rfl ez' eo' eo' ez') ?_
    rintro ⟨g, a, b⟩ ⟨h3, h4⟩
    simp only at h3 h4
    rw [init_exact (toNat y) (toNat x) (by omega) _ _ h2 h1, xgcdAux_swap] at h3 h4
    exact Sat.ok ⟨h4, h3⟩

/-- An unsigned value of the given precision read in two's complement. -/
def twosComplement (bits v : Nat) : Int := if v < 2 ^ (bits - 1) then v else (v : Int) - 2 ^ bits

private theorem twos_of_small (hn : 0 < n) (v : Nat) (X : Int) (hv : v < 2 ^ (32 * n))
    (hX : 2 * |X| ≤ max 2 ((v' : Nat) : Int)) (hv' : v' < 2 ^ (32 * n))
    (h : (v : Int) ≡ X [ZMOD (2 : Int) ^ (32 * n)]) : twosComplement (32 * n) v = X := by
  have hW : (2 : Nat) ^ (32 * n) = 2 * 2 ^ (32 * n - 1) := by rw [← pow_succ']; congr 1; omega
  have h4 : 2 ^ 31 ≤ 2 ^ (32 * n - 1) := Nat.pow_le_pow_right (by norm_num) (by omega)
  have hWi : (2 : Int) ^ (32 * n) = 2 * ((2 ^ (32 * n - 1) : Nat) : Int) := by exact_mod_cast hW
  have hXl := abs_le.1 (show |X| ≤ ((2 ^ (32 * n - 1) - 1 : Nat) : Int) by
    rcases max_cases 2 ((v' : Nat) : Int) with ⟨e, _⟩ | ⟨e, _⟩ <;> omega)
  have hvm : (v : Int) % 2 ^ (32 * n) = v := Int.emod_eq_of_lt (by omega) (by omega)
  have h' : (v : Int) = X % 2 ^ (32 * n) := by rw [← hvm]; exact h
  unfold twosComplement
  rcases le_or_gt 0 X with hs | hs
  · rw [Int.emod_eq_of_lt hs (by omega)] at h'
    rw [if_pos (by omega)]; exact h'
  · rw [← Int.add_emod_right, Int.emod_eq_of_lt (by omega) (by omega)] at h'
    rw [if_neg (by omega)]; omega

/-- C27: for non-zero operands the coefficients read in two's complement satisfy Bézout's identity over the
integers, not merely modulo the range, and each is at most half of the other operand (or 1): so the wrapped
values never lose the sign, whatever the operands. -/
theorem C27_bezout_exact (cfg : Cfg) (hn : 0 < n) (a b : Aeu n) (ha : toNat a ≠ 0) (hb : toNat b ≠ 0) :
    Sat (gcdExt cfg a b) fun (_, x, y) =>
      let X := twosComplement (32 * n) (toNat x)
      let Y := twosComplement (32 * n) (toNat y)
      (toNat a : Int) * X + toNat b * Y = Nat.gcd (toNat a) (toNat b) ∧
      2 * |X| ≤ max 2 (toNat b : Int) ∧ 2 * |Y| ≤ max 2 (toNat a : Int) := by
  refine Sat.mono (gcdExt_exact cfg hn a b ha hb) ?_
  rintro ⟨g, x, y⟩ ⟨h2, h3⟩
  have bA := gcdA_bound (toNat a) (toNat b) (by omega)
  have bB := gcdB_bound (toNat a) (toNat b) (by omega)
  simp only at h2 h3 ⊢
  rw [twos_of_small hn _ _ (toNat_lt x) bA (toNat_lt b) h2, twos_of_small hn _ _ (toNat_lt y) bB (toNat_lt a) h3]
  exact ⟨(Nat.gcd_eq_gcd_ab _ _).symm, bA, bB⟩

example : Sat (gcdExt ⟨false, false, false⟩ (ofNat 2 240) (ofNat 2 46)) fun (_, x, y) =>
    twosComplement 64 (toNat x) = -9 ∧ twosComplement 64 (toNat y) = 47 :=
  ⟨(ofNat 2 2, ofNat 2 (2 ^ 64 - 9), ofNat 2 47), by decide +kernel, by decide +kernel⟩

/-- What a client writes to invert `a` modulo `b`: `g = gcd(a, b, x, y)`, and when `x` came out negative
(its top bit is set) `x + b`, otherwise `x`. -/
def invMod (cfg : Cfg) (a b : Aeu n) : Exec (Aeu n) := do
  let t ← gcdExt cfg a b
  let negative ← getBit cfg t.2.1 (32 * n - 1)
  if negative then add t.2.1 b else .ok t.2.1

/-- C78: `invMod` is the inverse of `a` modulo `b`, reduced, for every `a` coprime to the modulus, even when
the modulus uses the whole width. -/
theorem C78_modular_inverse (cfg : Cfg) (hn : 0 < n) (a b : Aeu n) (h1 : 1 < toNat b)
    (hc : Nat.gcd (toNat a) (toNat b) = 1) :
    Sat (invMod cfg a b) fun r => toNat r < toNat b ∧ toNat a * toNat r % toNat b = 1 := by
  have ha : toNat a ≠ 0 := by
    intro h0; rw [h0, Nat.gcd_zero_left] at hc; omega
  obtain ⟨⟨g, x, y⟩, hr, e, hX, hY⟩ := C27_bezout_exact cfg hn a b ha (by omega)
  rw [hc] at e
  have hW : (2 : Nat) ^ (32 * n) = 2 * 2 ^ (32 * n - 1) := by rw [← pow_succ']; congr 1; omega
  have hWi : (2 : Int) ^ (32 * n) = 2 * ((2 ^ (32 * n - 1) : Nat) : Int) := by exact_mod_cast hW
  have hblt := toNat_lt b
  have hxlt := toNat_lt x
  obtain ⟨X, hXe⟩ : ∃ X, X = twosComplement (32 * n) (toNat x) := ⟨_, rfl⟩
  rw [← hXe] at e hX
  obtain ⟨Y, hYe⟩ : ∃ Y, Y = twosComplement (32 * n) (toNat y) := ⟨_, rfl⟩
  rw [← hYe] at e
  rw [max_eq_right (by omega)] at hX
  have hXl := abs_le.1 (show |X| ≤ ((toNat b / 2 : Nat) : Int) by omega)
  have key : ∀ r : Nat, (∃ k : Int, (r : Int) = X + k * toNat b) → r ≤ toNat b →
      r < toNat b ∧ toNat a * r % toNat b = 1 := by
    rintro r ⟨k, hk⟩ hle
    have h2 : toNat a * r % toNat b = 1 := by
      have h3 : ((toNat a * r : Nat) : Int) ≡ ((1 : Nat) : Int) [ZMOD toNat b] := by
        have : ((toNat a * r : Nat) : Int) = 1 + toNat b * (toNat a * k - Y) := by
          push_cast; rw [hk]; push_cast at e; linear_combination e
        rw [this]
        simp [Int.ModEq]
      rw [Int.natCast_modEq_iff] at h3
      rw [h3, Nat.mod_eq_of_lt h1]
    refine ⟨lt_of_le_of_ne hle fun h => ?_, h2⟩
    rw [h, Nat.mul_mod_left] at h2
    omega
  unfold invMod
  rw [hr]
  simp only [ok_bind]
  rw [C12_getBit cfg x _ (by omega)]
  simp only [ok_bind]
  unfold twosComplement at hXe
  by_cases hs : toNat x < 2 ^ (32 * n - 1)
  · rw [if_pos hs] at hXe
    have hbit : (toNat x).testBit (32 * n - 1) = false := Nat.testBit_lt_two_pow hs
    rw [hbit]
    exact Sat.ok (key _ ⟨0, by omega⟩ (by omega))
  · rw [if_neg hs] at hXe
    have hbit : (toNat x).testBit (32 * n - 1) = true := by
      rw [Nat.testBit_eq_decide_div_mod_eq]
      have : toNat x / 2 ^ (32 * n - 1) = 1 := by
        rw [Nat.div_eq_iff (by positivity)]; omega
      rw [this]; rfl
    rw [hbit]
    refine Sat.mono (add_spec x b) fun r hr' => ?_
    have he : toNat x + toNat b = (X + toNat b).toNat + 2 ^ (32 * n) := by omega
    rw [he, Nat.add_mod_right, Nat.mod_eq_of_lt (by omega)] at hr'
    exact key _ ⟨1, by omega⟩ (by omega)

example : Sat (invMod ⟨false, false, false⟩ (ofNat 2 17) (ofNat 2 3120)) fun r => toNat r = 2753 :=
  ⟨ofNat 2 2753, by decide +kernel, by decide +kernel⟩

/-- A modulus that uses the top bit: `2^64 - 59`, the largest 64-bit prime. -/
example : Sat (invMod ⟨false, false, false⟩ (ofNat 2 12345) (ofNat 2 (2 ^ 64 - 59))) fun r =>
    12345 * toNat r % (2 ^ 64 - 59) = 1 :=
  ⟨ofNat 2 6398457523177343035, by decide +kernel, by decide +kernel⟩

end AesiMP
