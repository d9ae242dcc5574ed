import Verif.Model.Programs
import Verif.Props.Compare
import Verif.Props.Signed
import Verif.Props.SignedText
import Verif.Props.SignedExact
import Mathlib.Algebra.Order.Ring.Abs
import Mathlib.Algebra.Order.Ring.Int
import Mathlib.Tactic.Positivity

/-!
# C90: extended Euclid written with the signed operators (the library's own check program)
-/

namespace AesiMP
open Aesi
variable {n : Nat}

private theorem eqIntegral_zero {b : Aesi n} (hb : Canon b) : eqIntegral b 0 = .ok (decide (toInt b = 0)) := by
  have h := (canon_sign hb).1
  simp only [eqIntegral, compareToIntegral, if_pos, ok_bind]
  congr 1
  cases hs : b.sign <;> simp [hs, signOnly] at h ⊢ <;> simp [h] <;> rfl

private theorem ne_spec (cfg : Cfg) {a b : Aesi n} (ha : Canon a) (hb : Canon b) :
    ne cfg a b = .ok (decide (toInt a ≠ toInt b)) := by
  simp only [ne, (C41_compare_partial cfg a b ha hb).2.1, ok_bind]
  congr 1
  by_cases h : toInt a = toInt b <;> simp [h]

private theorem ofInt32 {v : Int} (hn : 0 < n) (h1 : -1000 ≤ v) (h2 : v ≤ 1000) :
    Sat (ofIntegral n .i32 v) fun r => toInt r = v ∧ Canon r := by
  have h32 : (2 : Nat) ^ 32 ≤ 2 ^ (32 * n) := Nat.pow_le_pow_right (by norm_num) (by omega)
  refine ofIntegral_spec (by decide) ?_ ?_ ?_
  · simp [ITy.InRange, ITy.i32]; omega
  · simp [ITy.IsWideMin, ITy.IsMin, ITy.i32]; omega
  · unfold Fits; omega

private theorem ofU32 (hn : 0 < n) (v : BitVec 32) :
    Sat (ofIntegral n .u32 v.toNat) fun r => toInt r = v.toNat ∧ Canon r := by
  have h32 : (2 : Nat) ^ 32 ≤ 2 ^ (32 * n) := Nat.pow_le_pow_right (by norm_num) (by omega)
  have hv := v.isLt
  refine ofIntegral_spec (by decide) ?_ ?_ ?_
  · simp [ITy.InRange, ITy.u32]; omega
  · simp [ITy.IsWideMin, ITy.IsMin, ITy.u32]
  · unfold Fits; omega

private theorem extendedGcdIn_spec (cfg : Cfg) (hn : 0 < n) : ∀ (depth : Nat) (a b : Aesi n), Canon a → Canon b →
    0 ≤ toInt a → 0 ≤ toInt b → toInt b < depth →
    Sat (Prog.extendedGcdIn cfg depth a b) fun (g, x, y) =>
      toInt g = Int.gcd (toInt a) (toInt b) ∧ toInt a * toInt x + toInt b * toInt y = toInt g ∧
      |toInt x| ≤ max 1 (toInt b) ∧ |toInt y| ≤ max 1 (toInt a) ∧ Canon g ∧ Canon x ∧ Canon y ∧
      (toInt b = 0 → toInt x = 1 ∧ toInt y = 0) := by
  intro depth
  induction depth with
  | zero => intro a b _ _ _ h1 h2; omega
  | succ depth ih =>
    intro a b ha hb h0a h0b hd
    simp only [Prog.extendedGcdIn, eqIntegral_zero hb, ok_bind]
    by_cases hz : toInt b = 0
    · obtain ⟨x, hx, ex, cx⟩ := ofInt32 (v := 1) hn (by norm_num) (by norm_num)
      obtain ⟨y, hy, ey, cy⟩ := ofInt32 (v := 0) hn (by norm_num) (by norm_num)
      simp only [hz, decide_true, if_true, hx, hy, ok_bind, sat_ok]
      refine ⟨?_, ?_, ?_, ?_, ha, cx, cy, fun _ => ⟨ex, ey⟩⟩
      · rw [Int.gcd_zero_right]; omega
      · rw [ex]; ring
      · rw [ex]; simp
      · rw [ey]; simp
    · have hbp : 0 < toInt b := by omega
      obtain ⟨r, hr, er, cr⟩ := mod_spec cfg hn a b hz
      rw [if_neg (by omega), one_mul] at er
      have hr0 : 0 ≤ toInt r := by rw [er]; exact Int.tmod_nonneg _ h0a
      have hrb : toInt r < toInt b := by rw [er]; exact Int.tmod_lt_of_pos _ hbp
      obtain ⟨⟨g, x1, y1⟩, hrec, eg, ebez, bx, bY, cg, cx, cy, hbase⟩ := ih b r hb cr h0b hr0 (by omega)
      obtain ⟨q, hq, eq, cq⟩ := div_spec cfg hn a b hz
      have hq0 : 0 ≤ toInt q := by rw [eq]; exact Int.tdiv_nonneg h0a h0b
      have hdm : toInt a = toInt b * toInt q + toInt r := by
        rw [er, eq]; exact (Int.mul_tdiv_add_tmod _ _).symm
      have hmax : max 1 (toInt b) = toInt b := max_eq_right (by omega)
      rw [hmax] at bY
      have hqy : |toInt q * toInt y1| ≤ toInt b * toInt q := by
        rw [abs_mul, abs_of_nonneg hq0, mul_comm]
        exact mul_le_mul_of_nonneg_right bY hq0
      have hfa := toInt_natAbs_lt a
      have hfit : Fits n (toInt q * toInt y1) := by
        unfold Fits; have := Int.natCast_natAbs (toInt q * toInt y1); omega
      obtain ⟨p, hp, ep, cp⟩ := mul_spec q y1 hfit
      have hyb : |toInt x1 - toInt p| ≤ max 1 (toInt a) := by
        rw [ep]
        by_cases hrz : toInt r = 0
        · obtain ⟨e1, e2⟩ := hbase hrz
          rw [e1, e2]; simp
        · rw [max_eq_right (by omega : 1 ≤ toInt r)] at bx
          calc |toInt x1 - toInt q * toInt y1| ≤ |toInt x1| + |toInt q * toInt y1| := abs_sub _ _
            _ ≤ toInt r + toInt b * toInt q := add_le_add bx hqy
            _ = toInt a := by omega
            _ ≤ _ := le_max_right _ _
      have h32 : 1 < 2 ^ (32 * n) := Nat.one_lt_two_pow (by omega)
      have hfit2 : Fits n (toInt x1 - toInt p) := by
        unfold Fits
        have h1 := Int.natCast_natAbs (toInt x1 - toInt p)
        rcases max_choice (1 : Int) (toInt a) with h | h <;> rw [h] at hyb <;> omega
      obtain ⟨y, hy, ey, cY⟩ := Aesi.sub_spec cfg x1 p hfit2
      simp only [hz, decide_false, Bool.false_eq_true, if_false, hr, hrec, hq, hp, hy, ok_bind, sat_ok]
      refine ⟨?_, ?_, ?_, ?_, cg, cy, cY cx (cp cq cy), fun h => h.elim⟩
      · rw [eg]
        congr 1
        rw [Int.gcd_comm (toInt a), hdm, Int.gcd_mul_left_add_right]
      · rw [ey, ep, ← ebez, hdm]; ring
      · rw [hmax]; exact bY
      · rw [ey]; exact hyb

/-- C90: for every two nonnegative numbers the program's extended Euclid finishes and returns their greatest
common divisor and Bézout coefficients - exact ones, no intermediate value overflows - bounded by the other
operand. -/
theorem C90_extendedGcd (cfg : Cfg) (hn : 0 < n) (a b : Aesi n) (ha : Canon a) (hb : Canon b)
    (h0a : 0 ≤ toInt a) (h0b : 0 ≤ toInt b) :
    Sat (Prog.extendedGcd cfg a b) fun (g, x, y) =>
      toInt g = Int.gcd (toInt a) (toInt b) ∧ toInt a * toInt x + toInt b * toInt y = toInt g ∧
      |toInt x| ≤ max 1 (toInt b) ∧ |toInt y| ≤ max 1 (toInt a) ∧ Canon g ∧ Canon x ∧ Canon y := by
  have hlt := toInt_natAbs_lt b
  refine Sat.mono (extendedGcdIn_spec cfg hn _ a b ha hb h0a h0b (by have := Int.natCast_natAbs (toInt b); rw [abs_of_nonneg h0b] at this; rw [← this]; exact_mod_cast Nat.lt_succ_of_lt hlt)) ?_
  rintro ⟨g, x, y⟩ ⟨h1, h2, h3, h4, h5, h6, h7, -⟩
  exact ⟨h1, h2, h3, h4, h5, h6, h7⟩

private theorem abs_obj {a : Aesi n} (ha : Canon a) :
    ∃ s : Int, (s = 1 ∨ s = -1) ∧ toInt (if isNegative a then neg a else a) = s * toInt a ∧
      0 ≤ s * toInt a ∧ Canon (if isNegative a then neg a else a) ∧
      ∀ x : Aesi n, Canon x → Canon (if isNegative a then neg x else x) ∧
        toInt (if isNegative a then neg x else x) = s * toInt x := by
  obtain ⟨h0, h1, h2⟩ := canon_sign ha
  by_cases h : a.sign = .negative
  · have hn' : isNegative a = true := by simp [isNegative, h]
    refine ⟨-1, Or.inr rfl, ?_, ?_, ?_, ?_⟩
    · rw [if_pos hn', neg, toInt_inverse]; ring
    · have := h2.mp h; omega
    · rw [if_pos hn']; exact canon_inverse ha
    · intro x hx
      rw [if_pos hn']
      exact ⟨canon_inverse hx, by rw [neg, toInt_inverse]; ring⟩
  · have hn' : ¬ isNegative a = true := by simp [isNegative, h]
    refine ⟨1, Or.inl rfl, ?_, ?_, ?_, ?_⟩
    · rw [if_neg hn']; ring
    · have : ¬ toInt a < 0 := fun h' => h (h2.mpr h'); omega
    · rw [if_neg hn']; exact ha
    · intro x hx
      rw [if_neg hn']
      exact ⟨hx, by ring⟩

/-- C90: the program's check of Bézout's identity passes for all numbers, of any sign, whose product fits. -/
theorem C90_checkBezout (cfg : Cfg) (hn : 0 < n) (a b : Aesi n) (ha : Canon a) (hb : Canon b)
    (hfit : Fits n (toInt a * toInt b)) : Prog.checkBezout cfg a b = .ok true := by
  obtain ⟨s, hs, es, s0, sc, sx⟩ := abs_obj ha
  obtain ⟨t, ht, et, t0, tc, tx⟩ := abs_obj hb
  obtain ⟨⟨g, x, y⟩, hrun, eg, ebez, bx, bY, cg, cx, cy⟩ :=
    C90_extendedGcd cfg hn _ _ sc tc (by rw [es]; exact s0) (by rw [et]; exact t0)
  rw [es, et] at ebez
  rw [et] at bx
  rw [es] at bY
  obtain ⟨cx', ex'⟩ := sx x cx
  obtain ⟨cy', ey'⟩ := tx y cy
  have hfa := toInt_natAbs_lt a
  have hfb := toInt_natAbs_lt b
  have hs1 : |s * toInt a| = |toInt a| := by rcases hs with rfl | rfl <;> simp
  have ht1 : |t * toInt b| = |toInt b| := by rcases ht with rfl | rfl <;> simp
  have key : ∀ u v z : Int, u.natAbs < 2 ^ (32 * n) → Fits n (u * v) → |z| ≤ max 1 |v| → Fits n (u * z) := by
    intro u v z hu huv hz
    unfold Fits at *
    rw [Int.natAbs_mul] at huv ⊢
    have hz' : z.natAbs ≤ max 1 v.natAbs := by
      have h1 := Int.natCast_natAbs z
      have h2 := Int.natCast_natAbs v
      rcases max_choice (1 : Int) |v| with h | h <;> rw [h] at hz
      · exact le_max_of_le_left (by omega)
      · exact le_max_of_le_right (by omega)
    rcases max_choice 1 v.natAbs with h | h <;> rw [h] at hz'
    · exact lt_of_le_of_lt (Nat.mul_le_mul_left _ hz') (by omega)
    · exact lt_of_le_of_lt (Nat.mul_le_mul_left _ hz') huv
  rw [abs_of_nonneg t0] at ht1
  rw [abs_of_nonneg s0] at hs1
  rw [ht1] at bx
  rw [hs1] at bY
  have habs : ∀ s z : Int, (s = 1 ∨ s = -1) → |s * z| = |z| := by
    rintro s z (rfl | rfl) <;> simp
  obtain ⟨ax, hax, eax, cax⟩ := mul_spec a _ (key (toInt a) (toInt b)
    (toInt (if isNegative a then neg x else x)) hfa hfit (by rw [ex', habs _ _ hs]; exact bx))
  obtain ⟨by_, hby, eby, cby⟩ := mul_spec b _ (key (toInt b) (toInt a)
    (toInt (if isNegative b then neg y else y)) hfb (by rw [mul_comm]; exact hfit) (by rw [ey', habs _ _ ht]; exact bY))
  have hsum : toInt ax + toInt by_ = toInt g := by
    rw [eax, eby, ex', ey', ← ebez]; ring
  obtain ⟨r, hr, er, cr⟩ := add_spec cfg ax by_ (by rw [hsum]; exact fits_toInt g)
  simp only [Prog.checkBezout, hrun, hax, hby, hr, ok_bind,
    ne_spec cfg (cr (cax ha cx') (cby hb cy')) cg, er, hsum]
  simp

/-- C90: the check of `squareRoot` passes for every even power of two of the precision. -/
theorem C90_checkRoot (cfg : Cfg) (hn : 0 < n) (k : Nat) (hk : 2 * k < 32 * n) :
    Prog.checkRoot cfg n (2 * k) = .ok true := by
  obtain ⟨p, hp, ep, cp⟩ := C63_power2 cfg (2 * k) hk
  obtain ⟨r, hr, er⟩ := C63_squareRoot cfg hn p
  rw [if_neg (by rw [ep]; exact not_lt.mpr (by positivity)), ep] at er
  obtain ⟨r0, r1, r2⟩ := er
  have hr2 : toInt r = 2 ^ k := by
    rw [pow_mul', ] at r1 r2
    have h1 : toInt r ≤ 2 ^ k := le_of_sq_le_sq r1 (by positivity)
    have h2 : (2 : Int) ^ k < toInt r + 1 := lt_of_pow_lt_pow_left₀ 2 (by omega) r2
    omega
  have hsq : toInt r * toInt r = toInt p := by rw [hr2, ep]; ring
  obtain ⟨s, hs, es, cs⟩ := mul_spec r r (by rw [hsq]; exact fits_toInt p)
  have cr : Canon r := by
    rw [canon_iff]
    constructor
    · exact toInt_zero
    · intro h; rw [hr2] at h; exact absurd h (by positivity)
  simp only [Prog.checkRoot, hp, hr, hs, ok_bind, ne_spec cfg (cs cr cr) cp, es, hsq]
  simp

/-- C90: the check of `divide` passes for every dividend and nonzero divisor. -/
theorem C90_checkDivide (cfg : Cfg) (hn : 0 < n) (a b : Aesi n) (ha : Canon a) (hb : Canon b) (h0 : toInt b ≠ 0) :
    Prog.checkDivide cfg a b = .ok true := by
  obtain ⟨⟨q, r⟩, hqr, eq, er, cq, cr⟩ := divide_spec cfg hn a b (zero n) (zero n) h0
  have hid : toInt q * toInt b + toInt r = toInt a := by
    simp only at eq er
    rw [eq, er]; exact Int.tdiv_mul_add_tmod _ _
  have hf : Fits n (toInt q * toInt b) := by
    simp only at eq
    have hfa := toInt_natAbs_lt a
    unfold Fits
    rw [eq, Int.natAbs_mul, Int.natAbs_tdiv]
    exact lt_of_le_of_lt (Nat.div_mul_le_self _ _) hfa
  obtain ⟨p, hp, ep, cp⟩ := mul_spec q b hf
  obtain ⟨s, hs, es, cs⟩ := add_spec cfg p r (by rw [ep, hid]; exact fits_toInt a)
  simp only [Prog.checkDivide, hqr, hp, hs, ok_bind, ne_spec cfg (cs (cp cq hb) cr) ha, es, ep, hid]
  simp

/-- C90: the increment and decrement check passes from every start value. -/
theorem C90_checkIncDec (hn : 2 ≤ n) (start : Int) (h1 : -1000 ≤ start) (h2 : start < 1000) :
    Prog.checkIncDec n start = .ok true := by
  have h32 : (2 : Nat) ^ 32 ≤ 2 ^ (32 * n) := Nat.pow_le_pow_right (by norm_num) (by omega)
  have heq : ∀ (a : Aesi n) (i : Int), Canon a → -1000 ≤ i → i ≤ 1000 → toInt a = i → eqIntegral a i = .ok true := by
    intro a i ca hi1 hi2 ei
    rw [eqIntegral, compareToIntegral_spec hn (t := .i32) (by decide) a ca
      (by simp [ITy.InRange, ITy.i32]; omega) (by omega), ei]
    simp [cmpInt]
  obtain ⟨v, hv, ev, cv⟩ := ofInt32 (n := n) (v := start) (by omega) h1 (by omega)
  obtain ⟨w, hw, ew, cw⟩ := inc_spec (by omega) v cv (by unfold Fits; omega)
  obtain ⟨u, hu, eu, cu⟩ := dec_spec (by omega) w cw (by unfold Fits; omega)
  simp only [Prog.checkIncDec, hv, hw, hu, ok_bind, heq w (start + 1) cw (by omega) (by omega) (by omega), if_true,
    heq u start cu h1 (by omega) (by omega)]

/-- `checkSignedOps` passes at every precision of at least two blocks. -/
theorem C90_checkSignedOps (cfg : Cfg) (hn : 2 ≤ n) : Prog.checkSignedOps cfg n = .ok true := by
  obtain ⟨pos, hpos, epos, cpos⟩ := ofInt32 (n := n) (v := 42) (by omega) (by norm_num) (by norm_num)
  obtain ⟨a, ha, ea, ca⟩ := ofInt32 (n := n) (v := 1000) (by omega) (by norm_num) (by norm_num)
  obtain ⟨b, hb, eb, cb⟩ := ofInt32 (n := n) (v := -337) (by omega) (by norm_num) (by norm_num)
  have hroots : ∀ count p, p + count ≤ 11 → Prog.checkRoots cfg n count (2 * p) = .ok true := by
    intro count
    induction count with
    | zero => intro p _; rfl
    | succ count ih =>
      intro p hp
      simp only [Prog.checkRoots, C90_checkRoot cfg (by omega : 0 < n) p (by omega), ok_bind, if_true]
      exact ih (p + 1) (by omega)
  have hsign : pos.sign = .positive := (canon_sign cpos).2.1.mpr (by omega)
  simp only [Prog.checkSignedOps, hpos, ok_bind, isNegative, neg, inverse, hsign,
    C90_checkIncDec hn (-1) (by norm_num) (by norm_num), if_true, hroots 10 1 (by norm_num), ha, hb,
    C90_checkDivide cfg (by omega) a b ca cb (by omega)]
  rfl

/-! ### The whole program -/

/-- A nonnegative number below `2^k`. -/
private def Below (k : Nat) (a : Aesi n) : Prop := Canon a ∧ 0 ≤ toInt a ∧ toInt a < 2 ^ k

private theorem fits_of {k : Nat} (hk : k ≤ 32 * n) {v : Int} (h : |v| < 2 ^ k) : Fits n v := by
  unfold Fits
  have h1 := Int.natCast_natAbs v
  have h2 : v.natAbs < 2 ^ k := by rw [← h1] at h; exact_mod_cast h
  exact lt_of_lt_of_le h2 (Nat.pow_le_pow_right (by norm_num) hk)

private theorem abs_mul_lt {j k : Nat} {u v : Int} (hu : |u| < 2 ^ j) (hv : |v| < 2 ^ k) : |u * v| < 2 ^ (j + k) := by
  rw [abs_mul, pow_add]
  exact mul_lt_mul'' hu hv (abs_nonneg _) (abs_nonneg _)

private theorem vectorAt_spec {primes : List (BitVec 32)} (hp : ∀ p ∈ primes, p.toNat < 2 ^ 14) {i : Nat}
    (hi : i < primes.length) : Sat (Prog.vectorAt primes i) fun v => v.toNat < 2 ^ 14 := by
  unfold Prog.vectorAt
  rw [List.getElem?_eq_getElem hi]
  exact Sat.ok (hp _ (List.getElem_mem hi))

private theorem ofPrime (hn : 0 < n) {v : BitVec 32} (hv : v.toNat < 2 ^ 14) :
    Sat (ofIntegral n .u32 v.toNat) (Below 14) := by
  refine Sat.mono (ofU32 hn v) fun r ⟨h1, h2⟩ => ⟨h2, by omega, ?_⟩
  rw [h1]; exact_mod_cast hv

private theorem productLoop (cfg : Cfg) {primes : List (BitVec 32)} (hp : ∀ p ∈ primes, p.toNat < 2 ^ 14) (step : Nat) :
    ∀ (left pos k : Nat) (r : Aesi n), Below k r → 14 * left + k ≤ 32 * n →
      Sat (Prog.primeProductLoop cfg primes step left pos r) (Below (14 * left + k)) := by
  intro left
  induction left with
  | zero => intro pos k r hr _; simpa [Prog.primeProductLoop] using hr
  | succ left ih =>
    intro pos k r hr hk
    unfold Prog.primeProductLoop
    obtain ⟨cr, r0, r1⟩ := hr
    split
    · rename_i hpos
      obtain ⟨f, hf, ef⟩ := vectorAt_spec hp hpos
      have hf' : |(f.toNat : Int)| < 2 ^ 14 := by rw [abs_of_nonneg (by omega)]; exact_mod_cast ef
      have hlt : |toInt r * f.toNat| < 2 ^ (k + 14) := abs_mul_lt (by rwa [abs_of_nonneg r0]) hf'
      obtain ⟨r', hr', er', cr'⟩ := mulIntegral_spec cfg (t := .u32) (by decide) r (f := f.toNat)
        (by have := f.isLt; simp [ITy.InRange, ITy.u32]; omega) (by simp [ITy.IsMin, ITy.u32]) (Or.inr (by omega))
        (fits_of (by omega) hlt)
      have h0 : 0 ≤ toInt r' := by rw [er']; exact mul_nonneg r0 (by omega)
      simp only [hf, hr', ok_bind]
      have := ih (pos + step) (14 + k) r' ⟨cr' cr, h0, by
        rw [← abs_of_nonneg h0, er', add_comm]; exact hlt⟩ (by omega)
      rwa [show 14 * (left + 1) + k = 14 * left + (14 + k) by ring]
    · exact Sat.ok ⟨cr, r0, lt_of_lt_of_le r1 (pow_le_pow_right₀ (by norm_num) (by omega))⟩

private theorem product (cfg : Cfg) (hn : 12 ≤ n) {primes : List (BitVec 32)} (hp : ∀ p ∈ primes, p.toNat < 2 ^ 14)
    (offset : Nat) : Sat (Prog.primeProduct cfg n primes offset 1 12) (Below 169) := by
  obtain ⟨o, ho, eo, co⟩ := ofInt32 (n := n) (v := 1) (by omega) (by norm_num) (by norm_num)
  simp only [Prog.primeProduct, ho, ok_bind]
  exact productLoop cfg hp 1 12 offset 1 o ⟨co, by omega, by rw [eo]; norm_num⟩ (by omega)

private theorem bezout_below (cfg : Cfg) (hn : 12 ≤ n) {a b : Aesi n} (ha : Below 183 a) (hb : Below 183 b) :
    Prog.checkBezout cfg a b = .ok true ∧ Prog.checkBezout cfg (neg a) b = .ok true ∧
      Prog.checkBezout cfg a (neg b) = .ok true := by
  obtain ⟨ca, a0, a1⟩ := ha
  obtain ⟨cb, b0, b1⟩ := hb
  have h : |toInt a * toInt b| < 2 ^ (183 + 183) :=
    abs_mul_lt (by rwa [abs_of_nonneg a0]) (by rwa [abs_of_nonneg b0])
  refine ⟨C90_checkBezout cfg (by omega) a b ca cb (fits_of (by omega) h),
    C90_checkBezout cfg (by omega) _ b (canon_inverse ca) cb (fits_of (k := 183 + 183) (by omega) ?_),
    C90_checkBezout cfg (by omega) a _ ca (canon_inverse cb) (fits_of (k := 183 + 183) (by omega) ?_)⟩
  · rw [neg, toInt_inverse, neg_mul, abs_neg]; exact h
  · rw [neg, toInt_inverse, mul_neg, abs_neg]; exact h

private theorem below_mono {j k : Nat} (h : j ≤ k) {a : Aesi n} (ha : Below j a) : Below k a :=
  ⟨ha.1, ha.2.1, lt_of_lt_of_le ha.2.2 (pow_le_pow_right₀ (by norm_num) h)⟩

private theorem pairs (cfg : Cfg) (hn : 12 ≤ n) {primes : List (BitVec 32)} (hp : ∀ p ∈ primes, p.toNat < 2 ^ 14) :
    ∀ (k i : Nat), primes.length - i ≤ k → Prog.pairLoop cfg n primes i = .ok true := by
  intro k
  induction k with
  | zero =>
    intro i hi
    unfold Prog.pairLoop
    rw [dif_neg (by omega)]
  | succ k ih =>
    intro i hi
    unfold Prog.pairLoop
    split
    · rename_i h
      obtain ⟨p, hp1, ep⟩ := vectorAt_spec hp (show i < primes.length by omega)
      obtain ⟨q, hq1, eq⟩ := vectorAt_spec hp h
      obtain ⟨a, ha, ea⟩ := ofPrime (n := n) (by omega) ep
      obtain ⟨b, hb, eb⟩ := ofPrime (n := n) (by omega) eq
      simp only [hp1, hq1, ha, hb, ok_bind,
        (bezout_below cfg hn (below_mono (by norm_num) ea) (below_mono (by norm_num) eb)).1, if_true]
      exact ih _ (by omega)
    · rfl

private theorem groups (cfg : Cfg) (hn : 12 ≤ n) {primes : List (BitVec 32)} (hp : ∀ p ∈ primes, p.toNat < 2 ^ 14) :
    ∀ (k i : Nat), primes.length - i ≤ k → Prog.groupLoop cfg n primes i = .ok true := by
  intro k
  induction k with
  | zero =>
    intro i hi
    unfold Prog.groupLoop
    rw [dif_neg (by omega)]
  | succ k ih =>
    intro i hi
    unfold Prog.groupLoop
    split
    · rename_i h
      obtain ⟨p, hp1, ep⟩ := vectorAt_spec hp (show i < primes.length by omega)
      obtain ⟨s, hs, cs, s0, s1⟩ := ofPrime (n := n) (by omega) ep
      have times : ∀ x : Aesi n, Below 169 x → Sat (mul s x) (Below 183) := by
        rintro x ⟨cx, x0, x1⟩
        have hlt : |toInt s * toInt x| < 2 ^ (14 + 169) :=
          abs_mul_lt (by rwa [abs_of_nonneg s0]) (by rwa [abs_of_nonneg x0])
        refine Sat.mono (mul_spec s x (fits_of (by omega) hlt)) fun r ⟨e, c⟩ => ?_
        have h0 := mul_nonneg s0 x0
        exact ⟨c cs cx, by rw [e]; exact h0, by rw [e, ← abs_of_nonneg h0]; exact hlt⟩
      obtain ⟨pa, hpa, epa⟩ := product cfg hn hp (i + 1)
      obtain ⟨pb, hpb, epb⟩ := product cfg hn hp (i + 12 + 1)
      obtain ⟨a, ha, ea⟩ := times pa epa
      obtain ⟨b, hb, eb⟩ := times pb epb
      obtain ⟨h1, h2, h3⟩ := bezout_below cfg hn ea eb
      simp only [hp1, hs, hpa, hpb, ha, hb, h1, h2, h3, ok_bind, if_true]
      exact ih _ (by omega)
    · rfl

/-- C90: the signed check program ends with "All checks passed." for every list of numbers below `2^14` in place
of the primes up to 10000, at every precision from 384 bits (the program uses 512), in every build. -/
theorem C90_program (cfg : Cfg) (hn : 12 ≤ n) (primes : List (BitVec 32)) (hp : ∀ p ∈ primes, p.toNat < 2 ^ 14) :
    Prog.signedMain cfg n primes = .ok true := by
  simp only [Prog.signedMain, C90_checkSignedOps cfg (by omega : 2 ≤ n), pairs cfg hn hp _ 0 (Nat.le_refl _), ok_bind,
    if_true, groups cfg hn hp _ 0 (Nat.le_refl _)]

/-- The hypotheses are met by two-block operands of both signs. -/
example : Canon (ofInt 2 (-1000)) ∧ Canon (ofInt 2 337) ∧ Fits 2 (toInt (ofInt 2 (-1000)) * toInt (ofInt 2 337)) := by
  decide +kernel

/-- The check can fail: 100 divided with a wrong quotient would be reported (`1000 ≠ 999`). -/
example : Aesi.ne ⟨false, false, false⟩ (ofInt 2 1000) (ofInt 2 999) = .ok true := by decide +kernel

/-! ### Concrete cases that meet the hypotheses -/

/-- The hypotheses of `C90_extendedGcd` are met. -/
example := C90_extendedGcd ⟨false, false, true⟩ (by omega) (Aesi.ofInt 2 (2 ^ 40 + 5)) (Aesi.ofInt 2 77)
  (by decide +kernel) (by decide +kernel) (by decide +kernel) (by decide +kernel)

/-- The hypotheses of `C90_checkBezout` are met. -/
example := C90_checkBezout ⟨false, false, true⟩ (by omega) (Aesi.ofInt 2 (-(2 ^ 40 + 5))) (Aesi.ofInt 2 77)
  (by decide +kernel) (by decide +kernel) (by decide +kernel)

/-- The hypotheses of `C90_checkRoot` are met. -/
example := C90_checkRoot (n := 2) ⟨false, false, true⟩ (by omega) 31 (by omega)

/-- The hypotheses of `C90_checkDivide` are met. -/
example := C90_checkDivide ⟨false, false, true⟩ (by omega) (Aesi.ofInt 2 (-(2 ^ 40 + 5))) (Aesi.ofInt 2 (-77))
  (by decide +kernel) (by decide +kernel) (by decide +kernel)

/-- The hypotheses of `C90_checkIncDec` are met. -/
example := C90_checkIncDec (n := 2) (by omega) (-5) (by omega) (by omega)

end AesiMP
