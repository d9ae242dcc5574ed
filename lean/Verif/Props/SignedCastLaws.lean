import Verif.Props.SignedExact
import Verif.Props.SignedLaws
import Verif.Props.SignedText

/-!
# C100: signed `precisionCast` commutes with the operators

The signed counterpart of C84. `checkEqS` runs both sides and compares the results with the library's
signed `==`, which looks at the sign field first.
-/

namespace AesiMP
open Aesi
variable {n k m : Nat}

/-- Compute in precision `n`, then `precisionCast<32*k>()`. -/
def thenCastS (cfg : Cfg) (k : Nat) (e : Exec (Aesi n)) : Exec (Aesi k) := do
  let r ← e
  Aesi.precisionCast cfg k r

/-- Convert both operands to precision `k`, then compute. -/
def castThen2S (cfg : Cfg) (k : Nat) (f : Aesi k → Aesi k → Exec (Aesi k)) (a b : Aesi n) :
    Exec (Aesi k) := do
  let x ← Aesi.precisionCast cfg k a
  let y ← Aesi.precisionCast cfg k b
  f x y

/-- Convert the operand to precision `k`, then compute. -/
def castThen1S (cfg : Cfg) (k : Nat) (f : Aesi k → Exec (Aesi k)) (a : Aesi n) : Exec (Aesi k) := do
  let x ← Aesi.precisionCast cfg k a
  f x

private theorem eq_sgn {cfg : Cfg} {lhs rhs : Exec (Aesi n)} {v s : Int}
    (hl : Sat lhs fun r => toInt r = v ∧ sgn r = s) (hr : Sat rhs fun r => toInt r = v ∧ sgn r = s) :
    checkEqS cfg lhs rhs = .ok true := by
  obtain ⟨l, rfl, el, cl⟩ := hl
  obtain ⟨r, rfl, er, cr⟩ := hr
  simp only [checkEqS, ok_bind]
  rw [(C41_compare_exact cfg l r).2.1]
  simp [el, er, cl, cr]

private theorem sgn_canon {a : Aesi n} (h : Canon a) : sgn a = (toInt a).sign := by
  obtain ⟨s, b⟩ := a
  unfold Canon at h
  cases s <;> simp [sgn, toInt] at h ⊢
  · rw [Int.sign_eq_one_of_pos (by omega)]
  · rw [Int.sign_eq_one_of_pos (by omega)]

private theorem eq_canon {cfg : Cfg} {lhs rhs : Exec (Aesi n)} {v : Int}
    (hl : Sat lhs fun r => toInt r = v ∧ Canon r) (hr : Sat rhs fun r => toInt r = v ∧ Canon r) :
    checkEqS cfg lhs rhs = .ok true :=
  eq_sgn (s := v.sign) (Sat.mono hl fun r h => ⟨h.1, by rw [sgn_canon h.2, h.1]⟩)
    (Sat.mono hr fun r h => ⟨h.1, by rw [sgn_canon h.2, h.1]⟩)

/-- The cast keeps the sign field and truncates the magnitude. -/
private theorem cast_tmod (cfg : Cfg) (hn : 0 < n) (hk : 0 < k) (a : Aesi n) :
    Sat (Aesi.precisionCast cfg k a) fun r => toInt r = (toInt a).tmod (2 ^ (32 * k)) ∧ sgn r = sgn a := by
  refine Sat.mono (precisionCast_exact cfg hn hk a) fun r h => ?_
  have e2 : ((2 : Int) ^ (32 * k)) = ((2 ^ (32 * k) : Nat) : Int) := by push_cast; rfl
  have e' : ((Aeu.toNat a.base % 2 ^ (32 * k) : Nat) : Int) =
    Int.tmod (Aeu.toNat a.base) (2 ^ (32 * k)) := by rw [e2]; exact Int.ofNat_tmod _ _
  refine ⟨?_, by unfold sgn; rw [h.1]⟩
  unfold toInt
  rw [h.1]
  cases hs : a.sign <;> simp only [hs] at h ⊢
  · simp
  · rw [h.2, if_neg (by simp), e']
  · rw [h.2, if_neg (by simp), e', Int.neg_tmod]

private theorem fits_self (a : Aesi n) : Fits n (toInt a) := by
  unfold Fits toInt
  have := Aeu.toNat_lt a.base
  cases a.sign <;> simp <;> omega

private theorem fits_wide (h : n ≤ k) {v : Int} (hv : Fits n v) : Fits k v :=
  Nat.lt_of_lt_of_le hv (Nat.pow_le_pow_right (by norm_num) (by omega))

private theorem cast_wide (cfg : Cfg) (hn : 0 < n) (h : n ≤ k) (a : Aesi n) (ha : Canon a) :
    Sat (Aesi.precisionCast cfg k a) fun r => toInt r = toInt a ∧ Canon r :=
  Sat.mono (precisionCast_spec cfg hn (by omega) a (fits_wide h (fits_self a))) fun _ hr => ⟨hr.1, hr.2 ha⟩

private theorem tmod_tmod (h : k ≤ n) (v : Int) :
    (v.tmod (2 ^ (32 * n))).tmod (2 ^ (32 * k)) = v.tmod (2 ^ (32 * k)) :=
  Int.tmod_tmod_of_dvd _ (pow_dvd_pow 2 (by omega))

private theorem mul_sgn' (a b : Aesi n) : Sat (mul a b) fun r => sgn r = sgn a * sgn b := by
  obtain ⟨sa, ma⟩ := a
  obtain ⟨sb, mb⟩ := b
  cases sa <;> cases sb <;> simp only [mul, isZero, isNegative, inverse] <;> norm_num
  all_goals first
    | exact Sat.ok rfl
    | rfl
    | (refine Sat.bind (Aeu.mul_spec ma mb) fun s _ => Sat.ok rfl)

private theorem both' {e : Exec (Aesi n)} {p q : Aesi n → Prop} (h1 : Sat e p) (h2 : Sat e q) :
    Sat e fun r => p r ∧ q r := by
  obtain ⟨r, hr, h⟩ := h1
  obtain ⟨r', hr', h'⟩ := h2
  rw [hr] at hr'
  cases hr'
  exact ⟨r, hr, h, h'⟩

section
variable (cfg : Cfg) (hn : 0 < n) (hk : 0 < k) (a b : Aesi n)
include hn hk

/-! ### In both directions, for every object -/

/-- `(-a).precisionCast() == -(a.precisionCast())`. -/
theorem C100_neg : checkEqS cfg (thenCastS cfg k (.ok (neg a))) (castThen1S cfg k (fun x => .ok (neg x)) a) =
    .ok true := by
  have es : ∀ {j : Nat} (x : Aesi j), sgn (inverse x) = - sgn x := by
    rintro j ⟨s, m⟩; cases s <;> rfl
  refine eq_sgn (v := -(toInt a).tmod (2 ^ (32 * k))) (s := - sgn a) ?_ ?_
  · refine Sat.bind (Sat.ok rfl : Sat (.ok (neg a)) fun r => r = neg a) fun r hr => ?_
    refine Sat.mono (cast_tmod cfg hn hk r) fun s hs => ?_
    rw [hs.1, hs.2, hr, neg, toInt_inverse, es, Int.neg_tmod]
    exact ⟨rfl, rfl⟩
  · refine Sat.bind (cast_tmod cfg hn hk a) fun x hx => Sat.ok ?_
    rw [neg, toInt_inverse, es, hx.1, hx.2]
    exact ⟨rfl, rfl⟩

/-! ### Narrowing -/

section
variable (hkn : k ≤ n)
include hkn

/-- A product commutes with narrowing, for every two objects and through any overflow. -/
theorem C100_mul_narrow :
    checkEqS cfg (thenCastS cfg k (mul a b)) (castThen2S cfg k mul a b) = .ok true := by
  refine eq_sgn (v := (toInt a * toInt b).tmod (2 ^ (32 * k))) (s := sgn a * sgn b) ?_ ?_
  · refine Sat.bind (both' (mul_wrap a b) (mul_sgn' a b)) fun r hr => ?_
    refine Sat.mono (cast_tmod cfg hn hk r) fun s hs => ?_
    rw [hs.1, hs.2, hr.1, hr.2, tmod_tmod hkn]
    exact ⟨rfl, rfl⟩
  · refine Sat.bind (cast_tmod cfg hn hk a) fun x hx => ?_
    refine Sat.bind (cast_tmod cfg hn hk b) fun y hy => ?_
    refine Sat.mono (both' (mul_wrap x y) (mul_sgn' x y)) fun r hr => ?_
    rw [hr.1, hr.2, hx.1, hx.2, hy.1, hy.2, ← Int.mul_tmod]
    exact ⟨rfl, rfl⟩

omit hn hk hkn in
private theorem cong_tmod (v M : Int) : M ∣ v.tmod M - v := by
  have := Int.mul_tdiv_add_tmod v M
  exact ⟨-(v.tdiv M), by linarith⟩

/-- Sums, differences and products computed in either precision are congruent modulo the smaller
capacity, for every two objects and through any overflow. -/
theorem C100_ring_narrow :
    (Sat (thenCastS cfg k (add cfg a b)) fun l => Sat (castThen2S cfg k (add cfg) a b) fun r =>
      (2 : Int) ^ (32 * k) ∣ toInt l - toInt r) ∧
    (Sat (thenCastS cfg k (sub cfg a b)) fun l => Sat (castThen2S cfg k (sub cfg) a b) fun r =>
      (2 : Int) ^ (32 * k) ∣ toInt l - toInt r) := by
  have key : ∀ (e : Exec (Aesi n)) (f : Aesi k → Aesi k → Exec (Aesi k)) (v : Int),
      (Sat e fun r => toInt r = v.tmod (2 ^ (32 * n))) →
      (∀ x y : Aesi k, toInt x = (toInt a).tmod (2 ^ (32 * k)) → toInt y = (toInt b).tmod (2 ^ (32 * k)) →
        Sat (f x y) fun r => (2 : Int) ^ (32 * k) ∣ toInt r - v) →
      Sat (thenCastS cfg k e) fun l => Sat (castThen2S cfg k f a b) fun r =>
        (2 : Int) ^ (32 * k) ∣ toInt l - toInt r := by
    intro e f v he hf
    refine Sat.bind he fun r hr => ?_
    refine Sat.mono (cast_tmod cfg hn hk r) fun s hs => ?_
    refine Sat.bind (cast_tmod cfg hn hk a) fun x hx => ?_
    refine Sat.bind (cast_tmod cfg hn hk b) fun y hy => ?_
    refine Sat.mono (hf x y hx.1 hy.1) fun t ht => ?_
    rw [hs.1, hr, tmod_tmod hkn]
    have := Int.dvd_sub (cong_tmod v (2 ^ (32 * k))) ht
    rwa [show v.tmod (2 ^ (32 * k)) - v - (toInt t - v) = v.tmod (2 ^ (32 * k)) - toInt t by ring] at this
  refine ⟨key _ _ _ (add_wrap cfg a b) fun x y hx hy => Sat.mono (add_wrap cfg x y) fun r hr => ?_,
    key _ _ _ (sub_wrap cfg a b) fun x y hx hy => Sat.mono (sub_wrap cfg x y) fun r hr => ?_⟩
  all_goals
    have h1 := cong_tmod (toInt a) (2 ^ (32 * k))
    have h2 := cong_tmod (toInt b) (2 ^ (32 * k))
    rw [← hx] at h1
    rw [← hy] at h2
  · have h3 := cong_tmod (toInt x + toInt y) (2 ^ (32 * k))
    rw [← hr] at h3
    have := Int.dvd_add h3 (Int.dvd_add h1 h2)
    rwa [show toInt r - (toInt x + toInt y) + (toInt x - toInt a + (toInt y - toInt b)) =
      toInt r - (toInt a + toInt b) by ring] at this
  · have h3 := cong_tmod (toInt x - toInt y) (2 ^ (32 * k))
    rw [← hr] at h3
    have := Int.dvd_add h3 (Int.dvd_sub h1 h2)
    rwa [show toInt r - (toInt x - toInt y) + (toInt x - toInt a - (toInt y - toInt b)) =
      toInt r - (toInt a - toInt b) by ring] at this

end

/-! ### Widening -/

section
omit hk
variable (hkn : n ≤ k) (ha : Canon a) (hb : Canon b)
include hkn ha hb

private theorem wide2 {e : Exec (Aesi n)} {f : Aesi k → Aesi k → Exec (Aesi k)} {v : Int}
    (he : Sat e fun r => toInt r = v ∧ Canon r)
    (hf : ∀ x y : Aesi k, toInt x = toInt a → toInt y = toInt b → Canon x → Canon y →
      Sat (f x y) fun r => toInt r = v ∧ Canon r) :
    checkEqS cfg (thenCastS cfg k e) (castThen2S cfg k f a b) = .ok true := by
  refine eq_canon (v := v) ?_ ?_
  · refine Sat.bind he fun r hr => ?_
    refine Sat.mono (cast_wide cfg hn hkn r hr.2) fun s hs => ?_
    exact ⟨by rw [hs.1, hr.1], hs.2⟩
  · refine Sat.bind (cast_wide cfg hn hkn a ha) fun x hx => ?_
    refine Sat.bind (cast_wide cfg hn hkn b hb) fun y hy => ?_
    exact hf x y hx.1 hy.1 hx.2 hy.2

/-- Sums, differences and products that fit the smaller precision. -/
theorem C100_ring_widen :
    (Fits n (toInt a + toInt b) →
      checkEqS cfg (thenCastS cfg k (add cfg a b)) (castThen2S cfg k (add cfg) a b) = .ok true) ∧
    (Fits n (toInt a - toInt b) →
      checkEqS cfg (thenCastS cfg k (sub cfg a b)) (castThen2S cfg k (sub cfg) a b) = .ok true) ∧
    (Fits n (toInt a * toInt b) →
      checkEqS cfg (thenCastS cfg k (mul a b)) (castThen2S cfg k mul a b) = .ok true) := by
  refine ⟨fun h => wide2 (v := toInt a + toInt b) cfg hn a b hkn ha hb ?_ ?_,
    fun h => wide2 (v := toInt a - toInt b) cfg hn a b hkn ha hb ?_ ?_,
    fun h => wide2 (v := toInt a * toInt b) cfg hn a b hkn ha hb ?_ ?_⟩
  · exact Sat.mono (add_spec cfg a b h) fun r hr => ⟨hr.1, hr.2 ha hb⟩
  · intro x y hx hy cx cy
    have := add_spec cfg x y (by rw [hx, hy]; exact fits_wide hkn h)
    rw [hx, hy] at this
    exact Sat.mono this fun r hr => ⟨hr.1, hr.2 cx cy⟩
  · exact Sat.mono (sub_spec cfg a b h) fun r hr => ⟨hr.1, hr.2 ha hb⟩
  · intro x y hx hy cx cy
    have := sub_spec cfg x y (by rw [hx, hy]; exact fits_wide hkn h)
    rw [hx, hy] at this
    exact Sat.mono this fun r hr => ⟨hr.1, hr.2 cx cy⟩
  · exact Sat.mono (mul_spec a b h) fun r hr => ⟨hr.1, hr.2 ha hb⟩
  · intro x y hx hy cx cy
    have := mul_spec x y (by rw [hx, hy]; exact fits_wide hkn h)
    rw [hx, hy] at this
    exact Sat.mono this fun r hr => ⟨hr.1, hr.2 cx cy⟩

/-- Quotients and remainders by any nonzero divisor. -/
theorem C100_div_mod_widen (h : toInt b ≠ 0) :
    checkEqS cfg (thenCastS cfg k (div cfg a b)) (castThen2S cfg k (div cfg) a b) = .ok true ∧
    checkEqS cfg (thenCastS cfg k (mod cfg a b)) (castThen2S cfg k (mod cfg) a b) = .ok true := by
  refine ⟨wide2 cfg hn a b hkn ha hb (div_spec cfg hn a b h) ?_,
    wide2 cfg hn a b hkn ha hb (mod_spec cfg hn a b h) ?_⟩
  · intro x y hx hy _ _
    have := div_spec cfg (by omega : 0 < k) x y (by rw [hy]; exact h)
    rwa [hx, hy] at this
  · intro x y hx hy _ _
    have := mod_spec cfg (by omega : 0 < k) x y (by rw [hy]; exact h)
    rwa [hx, hy] at this

/-- The order and equality of two numbers do not change when both are widened. -/
theorem C100_compare_widen :
    (do let x ← Aesi.precisionCast cfg k a; let y ← Aesi.precisionCast cfg k b; Aesi.compareTo cfg x y) =
      Aesi.compareTo cfg a b ∧
    (do let x ← Aesi.precisionCast cfg k a; let y ← Aesi.precisionCast cfg k b; Aesi.eq cfg x y) =
      Aesi.eq cfg a b := by
  obtain ⟨x, hx, ex, cx⟩ := cast_wide cfg hn hkn a ha
  obtain ⟨y, hy, ey, cy⟩ := cast_wide cfg hn hkn b hb
  have h1 := C41_compare_partial cfg x y cx cy
  have h2 := C41_compare_partial cfg a b ha hb
  simp only [hx, hy, ok_bind]
  rw [h1.1, h1.2.1, h2.1, h2.2.1, ex, ey]
  exact ⟨rfl, rfl⟩

omit hb in
/-- The square root of a number widened is the square root widened. -/
theorem C100_squareRoot_widen :
    checkEqS cfg (thenCastS cfg k (Aesi.squareRoot cfg a)) (castThen1S cfg k (Aesi.squareRoot cfg) a) =
      .ok true := by
  have key : ∀ {j : Nat} (hj : 0 < j) (x : Aesi j), Canon x → Sat (Aesi.squareRoot cfg x) fun r =>
      toInt r = (if toInt x < 0 then 0 else (Nat.sqrt (toInt x).toNat : Int)) ∧ Canon r := by
    intro j hj x cx
    unfold Aesi.squareRoot
    by_cases hs : x.sign = .positive
    · rw [if_pos hs]
      have h0 := cx (by rw [hs]; decide)
      refine Sat.bind (Aeu.squareRoot_spec cfg hj x.base) fun r hr => Sat.ok ?_
      rw [toInt_pos hs, if_neg (by omega)]
      refine ⟨by simp [toInt, hr], fun _ => ?_⟩
      simp only [hr]
      have := Nat.sqrt_pos.mpr (Nat.pos_of_ne_zero h0)
      omega
    · rw [if_neg hs, ofIntegral, if_neg (by omega), if_neg (by omega)]
      refine Sat.ok ⟨?_, fun h => absurd rfl h⟩
      have : toInt x ≤ 0 := by
        unfold toInt; cases h' : x.sign <;> simp_all
      have e0 : toInt (Aesi.zero j) = 0 := by simp [toInt, Aesi.zero]
      rw [e0]
      split
      · rfl
      · rw [show toInt x = 0 by omega]; simp
  refine eq_canon (v := if toInt a < 0 then 0 else (Nat.sqrt (toInt a).toNat : Int)) ?_ ?_
  · refine Sat.bind (key hn a ha) fun r hr => ?_
    refine Sat.mono (cast_wide cfg hn hkn r hr.2) fun s hs => ?_
    exact ⟨by rw [hs.1, hr.1], hs.2⟩
  · refine Sat.bind (cast_wide cfg hn hkn a ha) fun x hx => ?_
    have := key (by omega : 0 < k) x hx.2
    rwa [hx.1] at this

end

/-- Casting twice is casting once when the intermediate precision is not the smallest of the three; in
particular widening and casting back loses nothing. For every object, zeros with a sign included. -/
theorem C100_cast_cast (hm : 0 < m) (h : k ≤ m ∨ n ≤ m) :
    checkEqS cfg (thenCastS cfg k (Aesi.precisionCast cfg m a)) (Aesi.precisionCast cfg k a) = .ok true := by
  refine eq_sgn ?_ (cast_tmod cfg hn hk a)
  refine Sat.bind (cast_tmod cfg hn hm a) fun t ht => ?_
  refine Sat.mono (cast_tmod cfg hm hk t) fun r hr => ?_
  refine ⟨?_, by rw [hr.2, ht.2]⟩
  rw [hr.1, ht.1]
  rcases h with h | h
  · exact tmod_tmod h _
  · rw [tmod_of_fits (fits_wide h (fits_self a))]

end

/-- The conditions matter: a sum of numbers of opposite signs does not commute with narrowing (2^32 + (-1)
is 2^32 - 1, but the operands narrow to 0 and -1), a quotient does not commute with narrowing, a product
that overflows does not commute with widening. -/
theorem C100_conditions :
    checkEqS lp64 (thenCastS lp64 1 (add lp64 (ofInt 2 (2 ^ 32)) (ofInt 2 (-1))))
      (castThen2S lp64 1 (add lp64) (ofInt 2 (2 ^ 32)) (ofInt 2 (-1))) = .ok false ∧
    checkEqS lp64 (thenCastS lp64 1 (div lp64 (ofInt 2 (2 ^ 32)) (ofInt 2 (-2))))
      (castThen2S lp64 1 (div lp64) (ofInt 2 (2 ^ 32)) (ofInt 2 (-2))) = .ok false ∧
    checkEqS lp64 (thenCastS lp64 2 (mul (ofInt 1 (2 ^ 31)) (ofInt 1 (-2))))
      (castThen2S lp64 2 mul (ofInt 1 (2 ^ 31)) (ofInt 1 (-2))) = .ok false := by decide +kernel

/-- The hypotheses are met. -/
example : checkEqS lp64 (thenCastS lp64 3 (div lp64 (ofInt 2 (-(2 ^ 40))) (ofInt 2 7)))
    (castThen2S lp64 3 (div lp64) (ofInt 2 (-(2 ^ 40))) (ofInt 2 7)) = .ok true :=
  (C100_div_mod_widen lp64 (by omega) _ _ (by omega) (by decide +kernel) (by decide +kernel)
    (by decide +kernel)).1

/-! ### Concrete cases that meet the hypotheses -/

/-- The hypotheses of `C100_ring_widen` are met. -/
example := C100_ring_widen (k := 3) ⟨false, false, false⟩ (by omega) (Aesi.ofInt 2 (-2 ^ 20)) (Aesi.ofInt 2 77) (by omega)
  (by decide +kernel) (by decide +kernel)

end AesiMP
