import Verif.Props.Compare
import Verif.Props.SignedTotal

/-!
# C83: laws of the signed operators

As for C58 and C81, each statement runs both sides of a law with the library's operators and compares the
results with the library's `==` (which looks at the sign field first, so equality of the integers alone
would not be enough).
-/

namespace AesiMP
open Aesi
variable {n : Nat}

/-- Run both sides and compare with the library's `operator==`. -/
def checkEqS (cfg : Cfg) (lhs rhs : Exec (Aesi n)) : Exec Bool := do
  let l ← lhs
  let r ← rhs
  Aesi.eq cfg l r

private theorem checkEqS_of {cfg : Cfg} {lhs rhs : Exec (Aesi n)} {v : Int}
    (hl : Sat lhs fun r => toInt r = v ∧ Canon r) (hr : Sat rhs fun r => toInt r = v ∧ Canon r) :
    checkEqS cfg lhs rhs = .ok true := by
  obtain ⟨l, rfl, el, cl⟩ := hl
  obtain ⟨r, rfl, er, cr⟩ := hr
  simp only [checkEqS, ok_bind]
  rw [(C41_compare_partial cfg l r cl cr).2.1]
  simp [el, er]

private theorem checkEqS_sgn {cfg : Cfg} {lhs rhs : Exec (Aesi n)} {v s : Int}
    (hl : Sat lhs fun r => toInt r = v ∧ sgn r = s) (hr : Sat rhs fun r => toInt r = v ∧ sgn r = s) :
    checkEqS cfg lhs rhs = .ok true := by
  obtain ⟨l, rfl, el, cl⟩ := hl
  obtain ⟨r, rfl, er, cr⟩ := hr
  simp only [checkEqS, ok_bind]
  rw [(C41_compare_exact cfg l r).2.1]
  simp [el, er, cl, cr]

/-- The sign the sum of two objects claims. -/
private def sumSgn (a b : Aesi n) : Int :=
  if sgn b = 0 then sgn a else if sgn a = 0 then sgn b else if sgn a = sgn b then sgn a
  else if Aeu.toNat b.base < Aeu.toNat a.base then sgn a
  else if Aeu.toNat a.base < Aeu.toNat b.base then sgn b else 0

private theorem sumSgn_comm (a b : Aesi n) : sumSgn a b = sumSgn b a := by
  unfold sumSgn
  split_ifs <;> omega

private theorem subMagnitude_sgn (cfg : Cfg) (a : Aesi n) (r : Aeu n) (other : Sign) :
    Sat (subMagnitude cfg a r other) fun x => sgn x =
      if Aeu.toNat r < Aeu.toNat a.base then sgn a
      else if Aeu.toNat a.base < Aeu.toNat r then sgn (⟨other, r⟩ : Aesi n) else 0 := by
  unfold subMagnitude
  simp only [Aeu.compareTo_spec, ok_bind, Aeu.cmpNat]
  rcases Nat.lt_trichotomy (Aeu.toNat a.base) (Aeu.toNat r) with h | h | h
  · simp only [h, if_true]
    refine Sat.bind (Aeu.sub_spec r a.base) fun s _ => Sat.ok ?_
    rw [if_neg (by omega)]; rfl
  · simp only [h, lt_self_iff_false, if_false, if_true]
    exact Sat.ok rfl
  · simp only [show ¬ Aeu.toNat a.base < Aeu.toNat r by omega, show ¬ Aeu.toNat a.base = Aeu.toNat r by omega,
      if_false]
    refine Sat.bind (Aeu.sub_spec a.base r) fun s _ => Sat.ok ?_
    rw [if_pos h]; rfl

private theorem add_sgn (cfg : Cfg) (a b : Aesi n) : Sat (add cfg a b) fun r => sgn r = sumSgn a b := by
  obtain ⟨sa, ma⟩ := a
  obtain ⟨sb, mb⟩ := b
  cases sa <;> cases sb <;> simp only [add, sumSgn, sgn] <;> norm_num
  all_goals first
    | exact Sat.ok rfl
    | (refine Sat.bind (Aeu.add_spec ma mb) fun s _ => Sat.ok rfl)
    | (refine Sat.mono (subMagnitude_sgn cfg _ mb _) fun r h => ?_; exact h)

private theorem mul_sgn (a b : Aesi n) : Sat (mul a b) fun r => sgn r = sgn a * sgn b := by
  obtain ⟨sa, ma⟩ := a
  obtain ⟨sb, mb⟩ := b
  cases sa <;> cases sb <;> simp only [mul, isZero, isNegative, inverse] <;> norm_num
  all_goals first
    | exact Sat.ok rfl
    | rfl
    | (refine Sat.bind (Aeu.mul_spec ma mb) fun s _ => Sat.ok rfl)

private theorem both {e : Exec (Aesi n)} {p q : Aesi n → Prop} (h1 : Sat e p) (h2 : Sat e q) :
    Sat e fun r => p r ∧ q r := by
  obtain ⟨r, hr, h⟩ := h1
  obtain ⟨r', hr', h'⟩ := h2
  rw [hr] at hr'
  cases hr'
  exact ⟨r, hr, h, h'⟩

section
variable (cfg : Cfg) (a b c : Aesi n)

/-! ### Laws without any condition: overflow and zeros with a sign included -/

/-- `a + b == b + a` for every two objects. -/
theorem C83_add_comm : checkEqS cfg (add cfg a b) (add cfg b a) = .ok true := by
  refine checkEqS_sgn (both (add_wrap cfg a b) (add_sgn cfg a b)) ?_
  rw [Int.add_comm, sumSgn_comm]
  exact both (add_wrap cfg b a) (add_sgn cfg b a)

/-- `a * b == b * a` for every two objects. -/
theorem C83_mul_comm : checkEqS cfg (mul a b) (mul b a) = .ok true := by
  refine checkEqS_sgn (both (mul_wrap a b) (mul_sgn a b)) ?_
  rw [Int.mul_comm, Int.mul_comm (sgn a)]
  exact both (mul_wrap b a) (mul_sgn b a)

/-- `a - b == a + (-b)` for every two objects. -/
theorem C83_sub_eq : checkEqS cfg (sub cfg a b) (add cfg a (neg b)) = .ok true := by
  rw [sub_eq_add_inverse]
  exact checkEqS_sgn (both (add_wrap cfg a _) (add_sgn cfg a _)) (both (add_wrap cfg a _) (add_sgn cfg a _))

/-- `-(-a) == a` for every object. -/
theorem C83_neg_neg : checkEqS cfg (.ok (neg (neg a))) (.ok a) = .ok true := by
  have h : neg (neg a) = a := by
    obtain ⟨s, m⟩ := a; cases s <;> rfl
  rw [h]
  exact checkEqS_sgn (Sat.ok ⟨rfl, rfl⟩) (Sat.ok ⟨rfl, rfl⟩)

/-- `a - a` is zero, and says so, for every object. -/
theorem C83_sub_self : Sat (sub cfg a a) fun r => toInt r = 0 ∧ isZero r = true := by
  have h1 := sub_wrap cfg a a
  rw [Int.sub_self, Int.zero_tmod] at h1
  have h2 := add_sgn cfg a (inverse a)
  rw [← sub_eq_add_inverse] at h2
  refine Sat.mono (both h1 h2) fun r h => ⟨h.1, ?_⟩
  have h3 := h.2
  obtain ⟨s, m⟩ := a
  obtain ⟨t, u⟩ := r
  cases s <;> cases t <;> simp [sumSgn, sgn, inverse, isZero] at h3 ⊢

/-- `a - b == -(b - a)` for every two objects. -/
theorem C83_sub_anticomm : checkEqS cfg (sub cfg a b) (do let t ← sub cfg b a; .ok (neg t)) = .ok true := by
  have h1 : Sat (sub cfg a b) fun r => toInt r = (toInt a - toInt b).tmod (2 ^ (32 * n)) ∧
      sgn r = sumSgn a (inverse b) := by
    refine both (sub_wrap cfg a b) ?_
    rw [sub_eq_add_inverse]; exact add_sgn cfg a _
  refine checkEqS_sgn h1 ?_
  have h2 : Sat (sub cfg b a) fun r => toInt r = (toInt b - toInt a).tmod (2 ^ (32 * n)) ∧
      sgn r = sumSgn b (inverse a) := by
    refine both (sub_wrap cfg b a) ?_
    rw [sub_eq_add_inverse]; exact add_sgn cfg b _
  refine Sat.bind h2 fun t ht => Sat.ok ⟨?_, ?_⟩
  · rw [neg, toInt_inverse, ht.1, ← Int.neg_tmod]; congr 1; ring
  · have e : ∀ x : Aesi n, sgn (inverse x) = - sgn x := by
      rintro ⟨s, m⟩; cases s <;> rfl
    have eb : ∀ x : Aesi n, (inverse x).base = x.base := by
      rintro ⟨s, m⟩; cases s <;> rfl
    rw [neg, e, ht.2]
    unfold sumSgn
    simp only [e, eb]
    obtain ⟨sa, ma⟩ := a
    obtain ⟨sb, mb⟩ := b
    cases sa <;> cases sb <;> simp [sgn] <;> split_ifs <;> first | rfl | omega

/-! ### Laws up to overflow -/

variable (ha : Canon a) (hb : Canon b) (hc : Canon c)
include ha hb hc

/-- `(a + b) + c == a + (b + c)` if the three sums fit. -/
theorem C83_add_assoc (h1 : Fits n (toInt a + toInt b)) (h2 : Fits n (toInt b + toInt c))
    (h3 : Fits n (toInt a + toInt b + toInt c)) :
    checkEqS cfg (do let t ← add cfg a b; add cfg t c) (do let t ← add cfg b c; add cfg a t) = .ok true := by
  refine checkEqS_of (v := toInt a + toInt b + toInt c) ?_ ?_
  · refine Sat.bind (add_spec cfg a b h1) fun t ht => ?_
    refine Sat.mono (add_spec cfg t c (by rw [ht.1]; exact h3)) fun r hr => ?_
    exact ⟨by rw [hr.1, ht.1], hr.2 (ht.2 ha hb) hc⟩
  · refine Sat.bind (add_spec cfg b c h2) fun t ht => ?_
    refine Sat.mono (add_spec cfg a t (by rw [ht.1, ← Int.add_assoc]; exact h3)) fun r hr => ?_
    exact ⟨by rw [hr.1, ht.1, Int.add_assoc], hr.2 ha (ht.2 hb hc)⟩

/-- `(a * b) * c == a * (b * c)` if the three products fit. -/
theorem C83_mul_assoc (h1 : Fits n (toInt a * toInt b)) (h2 : Fits n (toInt b * toInt c))
    (h3 : Fits n (toInt a * toInt b * toInt c)) :
    checkEqS cfg (do let t ← mul a b; mul t c) (do let t ← mul b c; mul a t) = .ok true := by
  refine checkEqS_of (v := toInt a * toInt b * toInt c) ?_ ?_
  · refine Sat.bind (mul_spec a b h1) fun t ht => ?_
    refine Sat.mono (mul_spec t c (by rw [ht.1]; exact h3)) fun r hr => ?_
    exact ⟨by rw [hr.1, ht.1], hr.2 (ht.2 ha hb) hc⟩
  · refine Sat.bind (mul_spec b c h2) fun t ht => ?_
    refine Sat.mono (mul_spec a t (by rw [ht.1, ← Int.mul_assoc]; exact h3)) fun r hr => ?_
    exact ⟨by rw [hr.1, ht.1, Int.mul_assoc], hr.2 ha (ht.2 hb hc)⟩

/-- `a * (b + c) == a * b + a * c` if the sums and products fit. -/
theorem C83_distrib (h1 : Fits n (toInt b + toInt c)) (h2 : Fits n (toInt a * toInt b))
    (h3 : Fits n (toInt a * toInt c)) (h4 : Fits n (toInt a * (toInt b + toInt c))) :
    checkEqS cfg (do let t ← add cfg b c; mul a t) (do let t ← mul a b; let u ← mul a c; add cfg t u) =
      .ok true := by
  refine checkEqS_of (v := toInt a * (toInt b + toInt c)) ?_ ?_
  · refine Sat.bind (add_spec cfg b c h1) fun t ht => ?_
    refine Sat.mono (mul_spec a t (by rw [ht.1]; exact h4)) fun r hr => ?_
    exact ⟨by rw [hr.1, ht.1], hr.2 ha (ht.2 hb hc)⟩
  · refine Sat.bind (mul_spec a b h2) fun t ht => ?_
    refine Sat.bind (mul_spec a c h3) fun u hu => ?_
    refine Sat.mono (add_spec cfg t u (by rw [ht.1, hu.1, ← Int.mul_add]; exact h4)) fun r hr => ?_
    exact ⟨by rw [hr.1, ht.1, hu.1, Int.mul_add], hr.2 (ht.2 ha hb) (hu.2 ha hc)⟩

/-- `a < b` iff `a + c < b + c`, if the sums fit. -/
theorem C83_add_order (h1 : Fits n (toInt a + toInt c)) (h2 : Fits n (toInt b + toInt c)) :
    (do let x ← add cfg a c; let y ← add cfg b c; Aesi.lt cfg x y) = Aesi.lt cfg a b := by
  obtain ⟨x, hx, ex, cx⟩ := add_spec cfg a c h1
  obtain ⟨y, hy, ey, cy⟩ := add_spec cfg b c h2
  simp only [hx, hy, ok_bind]
  rw [(C41_compare_partial cfg x y (cx ha hc) (cy hb hc)).2.2.2, (C41_compare_partial cfg a b ha hb).2.2.2,
    ex, ey]
  congr 1
  exact decide_eq_decide.mpr (by omega)

omit hc in
/-- `a == a / b * b + a % b` for every positive `b`. -/
theorem C83_div_mod (hn : 0 < n) (hpos : 0 < toInt b) : checkEqS cfg
    (do let q ← div cfg a b; let p ← mul q b; let r ← mod cfg a b; add cfg p r) (.ok a) = .ok true := by
  have fa : Fits n (toInt a) := by
    unfold Fits toInt
    have := Aeu.toNat_lt a.base
    cases a.sign <;> simp <;> omega
  refine checkEqS_of (v := toInt a) ?_ (Sat.ok ⟨rfl, ha⟩)
  have hb0 : toInt b ≠ 0 := by omega
  refine Sat.bind (div_spec cfg hn a b hb0) fun q hq => ?_
  have key := Int.tdiv_mul_add_tmod (toInt a) (toInt b)
  have hle : ((toInt a).tdiv (toInt b) * toInt b).natAbs ≤ (toInt a).natAbs := by
    rw [Int.natAbs_mul, Int.natAbs_tdiv]; exact Nat.div_mul_le_self _ _
  refine Sat.bind (mul_spec q b (by rw [hq.1]; exact Nat.lt_of_le_of_lt hle fa)) fun p hp => ?_
  refine Sat.bind (mod_spec cfg hn a b hb0) fun r hr => ?_
  rw [if_neg (by omega), Int.one_mul] at hr
  refine Sat.mono (add_spec cfg p r ?_) fun s hs => ?_
  · rw [hp.1, hr.1, hq.1, key]; exact fa
  · exact ⟨by rw [hs.1, hp.1, hr.1, hq.1, key], hs.2 (hp.2 hq.2 hb) hr.2⟩
end

/-- Associativity stops at the precision: `(max + 1) + (-1)` is not `max + (1 + (-1))`. -/
theorem C83_assoc_overflow : checkEqS lp64
    (do let t ← add lp64 (ofInt 1 (2 ^ 32 - 1)) (ofInt 1 1); add lp64 t (ofInt 1 (-1)))
    (do let t ← add lp64 (ofInt 1 1) (ofInt 1 (-1)); add lp64 (ofInt 1 (2 ^ 32 - 1)) t) = .ok false := by
  decide +kernel

/-- The hypotheses are met: mixed signs, two blocks. -/
example : checkEqS lp64 (do let t ← mul (ofInt 2 (-5)) (ofInt 2 (2 ^ 33)); mul t (ofInt 2 7))
    (do let t ← mul (ofInt 2 (2 ^ 33)) (ofInt 2 7); mul (ofInt 2 (-5)) t) = .ok true :=
  C83_mul_assoc lp64 _ _ _ (by decide +kernel) (by decide +kernel) (by decide +kernel) (by decide +kernel)
    (by decide +kernel) (by decide +kernel)

/-! ### Concrete cases that meet the hypotheses -/

/-- The hypotheses of `C83_add_assoc` are met. -/
example := C83_add_assoc ⟨false, false, false⟩ (Aesi.ofInt 2 (-2 ^ 40)) (Aesi.ofInt 2 77) (Aesi.ofInt 2 (2 ^ 50))
  (by decide +kernel) (by decide +kernel) (by decide +kernel) (by decide +kernel) (by decide +kernel) (by decide +kernel)

end AesiMP
