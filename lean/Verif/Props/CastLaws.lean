import Verif.Props.Laws

/-!
# C84: `precisionCast` commutes with the operators

Computing in one precision and converting the result, or converting the operands and computing in the
other precision, gives equal numbers (by the library's `==`): when narrowing for the ring operators and
left shift, when widening for division, modulo, gcd, square root, right shift and comparison, in both
directions for `&`, `|`, `^`.
-/

namespace AesiMP
open Aeu
variable {n k m : Nat}

/-- Compute in precision `n`, then `precisionCast<32*k>()`. -/
def thenCast (cfg : Cfg) (k : Nat) (e : Exec (Aeu n)) : Exec (Aeu k) := do
  let r ← e
  precisionCast cfg k r

/-- Convert both operands to precision `k`, then compute. -/
def castThen2 (cfg : Cfg) (k : Nat) (f : Aeu k → Aeu k → Exec (Aeu k)) (a b : Aeu n) : Exec (Aeu k) := do
  let x ← precisionCast cfg k a
  let y ← precisionCast cfg k b
  f x y

/-- Convert the operand to precision `k`, then compute. -/
def castThen1 (cfg : Cfg) (k : Nat) (f : Aeu k → Exec (Aeu k)) (a : Aeu n) : Exec (Aeu k) := do
  let x ← precisionCast cfg k a
  f x

private theorem laws2 {cfg : Cfg} {e : Exec (Aeu n)} {v : Nat} (h : Returns e v)
    {f : Aeu k → Aeu k → Exec (Aeu k)} {a b : Aeu n}
    (hf : ∀ x y : Aeu k, toNat x = toNat a % 2 ^ (32 * k) → toNat y = toNat b % 2 ^ (32 * k) →
      Sat (f x y) fun r => toNat r = v % 2 ^ (32 * k)) :
    checkEq cfg (thenCast cfg k e) (castThen2 cfg k f a b) = .ok true := by
  refine checkEq_of_nat (v := v % 2 ^ (32 * k)) ?_ ?_
  · refine Sat.bind h fun r hr => ?_
    refine Sat.mono (precisionCast_spec cfg r) fun s hs => ?_
    rw [hs, hr]
  · refine Sat.bind (precisionCast_spec cfg a) fun x hx => ?_
    refine Sat.bind (precisionCast_spec cfg b) fun y hy => ?_
    exact hf x y hx hy

private theorem laws1 {cfg : Cfg} {e : Exec (Aeu n)} {v : Nat} (h : Returns e v)
    {f : Aeu k → Exec (Aeu k)} {a : Aeu n}
    (hf : ∀ x : Aeu k, toNat x = toNat a % 2 ^ (32 * k) →
      Sat (f x) fun r => toNat r = v % 2 ^ (32 * k)) :
    checkEq cfg (thenCast cfg k e) (castThen1 cfg k f a) = .ok true := by
  refine checkEq_of_nat (v := v % 2 ^ (32 * k)) ?_ ?_
  · refine Sat.bind h fun r hr => ?_
    refine Sat.mono (precisionCast_spec cfg r) fun s hs => ?_
    rw [hs, hr]
  · refine Sat.bind (precisionCast_spec cfg a) fun x hx => ?_
    exact hf x hx

private theorem dvd_pow (hk : k ≤ n) : 2 ^ (32 * k) ∣ 2 ^ (32 * n) := pow_dvd_pow 2 (by omega)

private theorem wide_id (hk : n ≤ k) {v : Nat} (h : v < 2 ^ (32 * n)) : v % 2 ^ (32 * k) = v :=
  Nat.mod_eq_of_lt (Nat.lt_of_lt_of_le h (Nat.pow_le_pow_right (by norm_num) (by omega)))

section
variable (cfg : Cfg) (a b : Aeu n)

/-! ### Narrowing: the ring operators and left shift -/

section
variable (hk : k ≤ n)
include hk

theorem C84_add : checkEq cfg (thenCast cfg k (add a b)) (castThen2 cfg k add a b) = .ok true := by
  refine laws2 (add_spec a b) fun x y hx hy => ?_
  refine Sat.mono (add_spec x y) fun r h => ?_
  rw [h, hx, hy, ← Nat.add_mod, Nat.mod_mod_of_dvd _ (dvd_pow hk)]

theorem C84_mul : checkEq cfg (thenCast cfg k (mul a b)) (castThen2 cfg k mul a b) = .ok true := by
  refine laws2 (mul_spec a b) fun x y hx hy => ?_
  refine Sat.mono (mul_spec x y) fun r h => ?_
  rw [h, hx, hy, ← Nat.mul_mod, Nat.mod_mod_of_dvd _ (dvd_pow hk)]

theorem C84_sub : checkEq cfg (thenCast cfg k (sub a b)) (castThen2 cfg k sub a b) = .ok true := by
  refine laws2 (sub_spec a b) fun x y hx hy => ?_
  refine Sat.mono (sub_spec x y) fun r h => ?_
  have hb := toNat_lt b
  have hy' := Nat.mod_lt (toNat b) (Nat.two_pow_pos (32 * k))
  obtain ⟨t, ht⟩ := dvd_pow hk
  have hr := toNat_lt r
  rw [Nat.mod_mod_of_dvd _ (dvd_pow hk), ← Nat.mod_eq_of_lt hr]
  have key : toNat r + toNat b ≡ toNat a + (2 ^ (32 * n) - toNat b) + toNat b [MOD 2 ^ (32 * k)] := by
    rw [show toNat a + (2 ^ (32 * n) - toNat b) + toNat b = toNat a + 2 ^ (32 * n) by omega]
    have h1 : toNat r + toNat b ≡ toNat a [MOD 2 ^ (32 * k)] := by
      have h2 : toNat r + toNat y ≡ toNat x [MOD 2 ^ (32 * k)] := by
        have hyl := toNat_lt y
        have : (toNat x + (2 ^ (32 * k) - toNat y)) % 2 ^ (32 * k) + toNat y ≡
            toNat x + (2 ^ (32 * k) - toNat y) + toNat y [MOD 2 ^ (32 * k)] :=
          (Nat.mod_modEq _ _).add_right _
        rw [← h] at this
        refine this.trans ?_
        rw [show toNat x + (2 ^ (32 * k) - toNat y) + toNat y = toNat x + 2 ^ (32 * k) by omega]
        simp [Nat.ModEq]
      have h3 : toNat y ≡ toNat b [MOD 2 ^ (32 * k)] := by rw [hy]; exact Nat.mod_modEq _ _
      have h4 : toNat x ≡ toNat a [MOD 2 ^ (32 * k)] := by rw [hx]; exact Nat.mod_modEq _ _
      exact ((Nat.ModEq.refl _).add h3.symm).trans (h2.trans h4)
    refine h1.trans ?_
    rw [ht]
    simp [Nat.ModEq]
  exact Nat.ModEq.add_right_cancel' _ key

theorem C84_neg : checkEq cfg (thenCast cfg k (neg a)) (castThen1 cfg k neg a) = .ok true := by
  refine laws1 (neg_spec a) fun x hx => ?_
  refine Sat.mono (neg_spec x) fun r h => ?_
  have ha := toNat_lt a
  have hr := toNat_lt r
  have hxl := toNat_lt x
  obtain ⟨t, ht⟩ := dvd_pow hk
  rw [Nat.mod_mod_of_dvd _ (dvd_pow hk), ← Nat.mod_eq_of_lt hr]
  have key : toNat r + toNat a ≡ 2 ^ (32 * n) - toNat a + toNat a [MOD 2 ^ (32 * k)] := by
    have h4 : toNat x ≡ toNat a [MOD 2 ^ (32 * k)] := by rw [hx]; exact Nat.mod_modEq _ _
    refine ((Nat.ModEq.refl _).add h4.symm).trans ?_
    rw [Nat.sub_add_cancel ha.le, h]
    refine ((Nat.mod_modEq _ _).add_right _).trans ?_
    rw [Nat.sub_add_cancel hxl.le, ht]
    simp [Nat.ModEq]
  exact Nat.ModEq.add_right_cancel' _ key

theorem C84_shl (s : Nat) (hs : s < 32 * k) :
    checkEq cfg (thenCast cfg k (shl a s)) (castThen1 cfg k (shl · s) a) = .ok true := by
  refine laws1 (shl_spec (show s < 32 * n by omega)) fun x hx => ?_
  refine Sat.mono (shl_spec hs) fun r h => ?_
  rw [h, hx, Nat.mod_mod_of_dvd _ (dvd_pow hk), Nat.mul_mod, Nat.mod_mod, ← Nat.mul_mod]
end

/-! ### Both directions: bitwise operators -/

theorem C84_and : checkEq cfg (thenCast cfg k (Aeu.and a b)) (castThen2 cfg k Aeu.and a b) = .ok true := by
  refine laws2 (and_spec a b) fun x y hx hy => ?_
  refine Sat.mono (and_spec x y) fun r h => ?_
  rw [h, hx, hy, ← Nat.and_mod_two_pow]

theorem C84_or : checkEq cfg (thenCast cfg k (Aeu.or a b)) (castThen2 cfg k Aeu.or a b) = .ok true := by
  refine laws2 (or_spec a b) fun x y hx hy => ?_
  refine Sat.mono (or_spec x y) fun r h => ?_
  rw [h, hx, hy, ← Nat.or_mod_two_pow]

theorem C84_xor : checkEq cfg (thenCast cfg k (Aeu.xor a b)) (castThen2 cfg k Aeu.xor a b) = .ok true := by
  refine laws2 (xor_spec a b) fun x y hx hy => ?_
  refine Sat.mono (xor_spec x y) fun r h => ?_
  rw [h, hx, hy, ← Nat.xor_mod_two_pow]

/-! ### Widening: division, number theory, right shift, comparison -/

section
variable (hk : n ≤ k)
include hk

theorem C84_div (hn : 0 < n) (hb : toNat b ≠ 0) :
    checkEq cfg (thenCast cfg k (div cfg a b)) (castThen2 cfg k (div cfg) a b) = .ok true := by
  refine laws2 (div_spec cfg hn a b hb) fun x y hx hy => ?_
  rw [wide_id hk (toNat_lt _)] at hx hy
  refine Sat.mono (div_spec cfg (by omega) x y (by omega)) fun r h => ?_
  rw [h, hx, hy, wide_id hk (Nat.lt_of_le_of_lt (Nat.div_le_self _ _) (toNat_lt a))]

theorem C84_mod (hn : 0 < n) (hb : toNat b ≠ 0) :
    checkEq cfg (thenCast cfg k (mod cfg a b)) (castThen2 cfg k (mod cfg) a b) = .ok true := by
  refine laws2 (mod_spec cfg hn a b hb) fun x y hx hy => ?_
  rw [wide_id hk (toNat_lt _)] at hx hy
  refine Sat.mono (mod_spec cfg (by omega) x y (by omega)) fun r h => ?_
  rw [h, hx, hy, wide_id hk (Nat.lt_of_le_of_lt (Nat.mod_le _ _) (toNat_lt a))]

theorem C84_gcd (hn : 0 < n) :
    checkEq cfg (thenCast cfg k (gcd cfg a b)) (castThen2 cfg k (gcd cfg) a b) = .ok true := by
  obtain ⟨g, hg, eg⟩ := gcd_spec cfg hn a b
  refine laws2 (gcd_spec cfg hn a b) fun x y hx hy => ?_
  rw [wide_id hk (toNat_lt _)] at hx hy
  refine Sat.mono (gcd_spec cfg (by omega) x y) fun r h => ?_
  rw [h, hx, hy, wide_id hk (by rw [← eg]; exact toNat_lt g)]

theorem C84_squareRoot (hn : 0 < n) :
    checkEq cfg (thenCast cfg k (squareRoot cfg a)) (castThen1 cfg k (squareRoot cfg) a) = .ok true := by
  refine laws1 (squareRoot_spec cfg hn a) fun x hx => ?_
  rw [wide_id hk (toNat_lt _)] at hx
  refine Sat.mono (squareRoot_spec cfg (by omega) x) fun r h => ?_
  rw [h, hx, wide_id hk (Nat.lt_of_le_of_lt (Nat.sqrt_le_self _) (toNat_lt a))]

theorem C84_shr (s : Nat) (hs : s < 32 * n) :
    checkEq cfg (thenCast cfg k (shr a s)) (castThen1 cfg k (shr · s) a) = .ok true := by
  refine laws1 (shr_spec hs) fun x hx => ?_
  rw [wide_id hk (toNat_lt _)] at hx
  refine Sat.mono (shr_spec (show s < 32 * k by omega)) fun r h => ?_
  rw [h, hx, wide_id hk (Nat.lt_of_le_of_lt (Nat.div_le_self _ _) (toNat_lt a))]

theorem C84_compare :
    (do let x ← precisionCast cfg k a; let y ← precisionCast cfg k b; compareTo cfg x y) =
      compareTo cfg a b := by
  obtain ⟨x, hx, ex⟩ := precisionCast_spec (m := k) cfg a
  obtain ⟨y, hy, ey⟩ := precisionCast_spec (m := k) cfg b
  rw [wide_id hk (toNat_lt _)] at ex ey
  simp only [hx, hy, ok_bind, compareTo_spec, ex, ey]
end

/-- Casting twice is casting once when the intermediate precision is not the smallest of the three; in
particular widening and casting back loses nothing. -/
theorem C84_cast_cast (h : k ≤ m ∨ n ≤ m) :
    checkEq cfg (thenCast cfg k (precisionCast cfg m a)) (precisionCast cfg k a) = .ok true := by
  refine checkEq_of_nat ?_ (precisionCast_spec cfg a)
  refine Sat.bind (precisionCast_spec cfg a) fun t ht => ?_
  refine Sat.mono (precisionCast_spec cfg t) fun r hr => ?_
  rw [hr, ht]
  rcases h with h | h
  · exact Nat.mod_mod_of_dvd _ (dvd_pow h)
  · rw [wide_id h (toNat_lt a)]
end

/-- The conditions matter: a product does not commute with widening, nor a quotient with narrowing. -/
theorem C84_conditions :
    checkEq ⟨false, false, false⟩ (thenCast ⟨false, false, false⟩ 2 (mul (ofNat 1 (2 ^ 31)) (ofNat 1 2)))
      (castThen2 ⟨false, false, false⟩ 2 mul (ofNat 1 (2 ^ 31)) (ofNat 1 2)) = .ok false ∧
    checkEq ⟨false, false, false⟩
      (thenCast ⟨false, false, false⟩ 1 (div ⟨false, false, false⟩ (ofNat 2 (2 ^ 32)) (ofNat 2 2)))
      (castThen2 ⟨false, false, false⟩ 1 (div ⟨false, false, false⟩) (ofNat 2 (2 ^ 32)) (ofNat 2 2)) =
        .ok false := by decide +kernel

/-! ### Concrete cases that meet the hypotheses -/

/-- The hypotheses of `C84_shl` are met. -/
example := C84_shl (k := 1) ⟨false, false, false⟩ (Aeu.ofNat 3 (2 ^ 70 + 5)) (by omega) 31 (by omega)

/-- The hypotheses of `C84_div` are met. -/
example := C84_div (k := 3) ⟨false, false, false⟩ (Aeu.ofNat 2 (2 ^ 40 + 5)) (Aeu.ofNat 2 77) (by omega) (by omega)
  (by decide +kernel)

/-- The hypotheses of `C84_mod` are met. -/
example := C84_mod (k := 3) ⟨false, false, false⟩ (Aeu.ofNat 2 (2 ^ 40 + 5)) (Aeu.ofNat 2 77) (by omega) (by omega)
  (by decide +kernel)

/-- The hypotheses of `C84_gcd` are met. -/
example := C84_gcd (k := 3) ⟨false, false, false⟩ (Aeu.ofNat 2 (2 ^ 40 + 5)) (Aeu.ofNat 2 77) (by omega) (by omega)

/-- The hypotheses of `C84_squareRoot` are met. -/
example := C84_squareRoot (k := 3) ⟨false, false, false⟩ (Aeu.ofNat 2 (2 ^ 40 + 5)) (by omega) (by omega)

/-- The hypotheses of `C84_shr` are met. -/
example := C84_shr (k := 3) ⟨false, false, false⟩ (Aeu.ofNat 2 (2 ^ 40 + 5)) (by omega) 63 (by omega)

/-- The hypotheses of `C84_cast_cast` are met. -/
example := C84_cast_cast (k := 1) (m := 2) ⟨false, false, false⟩ (Aeu.ofNat 3 (2 ^ 70 + 5)) (Or.inl (by omega))

end AesiMP
