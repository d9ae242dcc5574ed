import Verif.Props.Algebra
import Verif.Lemmas.NumTheory

/-!
# C81: laws between the operators

As for C58, each statement runs both sides of a law with the library's operators and compares the
results with the library's `==`.
-/

namespace AesiMP
open Aeu
variable {n : Nat}

theorem xor_add_and (a : Nat) : ∀ b, (a ^^^ b) + 2 * (a &&& b) = a + b := by
  induction a using Nat.strong_induction_on with
  | _ a ih =>
    intro b
    rcases Nat.eq_zero_or_pos a with rfl | h
    · simp
    · have h1 := ih (a / 2) (by omega) (b / 2)
      have e1 : (a ^^^ b) / 2 = a / 2 ^^^ b / 2 := by
        simpa using Nat.xor_div_two_pow (a := a) (b := b) (n := 1)
      have e2 : (a &&& b) / 2 = a / 2 &&& b / 2 := by
        simpa using Nat.and_div_two_pow (a := a) (b := b) (n := 1)
      have e3 : (a ^^^ b) % 2 = a % 2 ^^^ b % 2 := by
        simpa using Nat.xor_mod_two_pow (a := a) (b := b) (n := 1)
      have e4 : (a &&& b) % 2 = a % 2 &&& b % 2 := by
        simpa using Nat.and_mod_two_pow (a := a) (b := b) (n := 1)
      have key : (a % 2 ^^^ b % 2) + 2 * (a % 2 &&& b % 2) = a % 2 + b % 2 := by
        rcases Nat.mod_two_eq_zero_or_one a with ha | ha <;>
          rcases Nat.mod_two_eq_zero_or_one b with hb | hb <;> rw [ha, hb] <;> decide
      rw [← e1, ← e2] at h1
      rw [← e3, ← e4] at key
      omega

theorem or_add_and (a : Nat) : ∀ b, (a ||| b) + (a &&& b) = a + b := by
  induction a using Nat.strong_induction_on with
  | _ a ih =>
    intro b
    rcases Nat.eq_zero_or_pos a with rfl | h
    · simp
    · have h1 := ih (a / 2) (by omega) (b / 2)
      have e1 : (a ||| b) / 2 = a / 2 ||| b / 2 := by
        simpa using Nat.or_div_two_pow (a := a) (b := b) (n := 1)
      have e2 : (a &&& b) / 2 = a / 2 &&& b / 2 := by
        simpa using Nat.and_div_two_pow (a := a) (b := b) (n := 1)
      have e3 : (a ||| b) % 2 = a % 2 ||| b % 2 := by
        simpa using Nat.or_mod_two_pow (a := a) (b := b) (n := 1)
      have e4 : (a &&& b) % 2 = a % 2 &&& b % 2 := by
        simpa using Nat.and_mod_two_pow (a := a) (b := b) (n := 1)
      have key : (a % 2 ||| b % 2) + (a % 2 &&& b % 2) = a % 2 + b % 2 := by
        rcases Nat.mod_two_eq_zero_or_one a with ha | ha <;>
          rcases Nat.mod_two_eq_zero_or_one b with hb | hb <;> rw [ha, hb] <;> decide
      rw [← e1, ← e2] at h1
      rw [← e3, ← e4] at key
      omega

theorem checkEq_of_nat {cfg : Cfg} {lhs rhs : Exec (Aeu n)} {v : Nat}
    (hl : Sat lhs fun r => toNat r = v) (hr : Sat rhs fun r => toNat r = v) :
    checkEq cfg lhs rhs = .ok true := by
  obtain ⟨l, rfl, el⟩ := hl
  obtain ⟨r, rfl, er⟩ := hr
  have : l = r := toNat_inj (by rw [el, er])
  subst this
  simp only [checkEq, ok_bind]
  rw [eq_spec]; simp

variable (cfg : Cfg) (a b : Aeu n)

/-- `a << k == a * power2(k)`. -/
theorem C81_shl_mul (k : Nat) (hk : k < 32 * n) :
    checkEq cfg (shl a k) (do let p ← power2 cfg n k; mul a p) = .ok true := by
  obtain ⟨p, hp, ep⟩ := power2_spec cfg (n := n) hk
  refine checkEq_of_nat (shl_spec hk) ?_
  simp only [hp, ok_bind]
  refine Sat.mono (mul_spec a p) fun r h => ?_
  rw [h, ep]

/-- `a >> k == a / power2(k)`. -/
theorem C81_shr_div (k : Nat) (hk : k < 32 * n) :
    checkEq cfg (shr a k) (do let p ← power2 cfg n k; div cfg a p) = .ok true := by
  obtain ⟨p, hp, ep⟩ := power2_spec cfg (n := n) hk
  refine checkEq_of_nat (shr_spec hk) ?_
  simp only [hp, ok_bind]
  refine Sat.mono (div_spec cfg (by omega) a p (by rw [ep]; exact (Nat.two_pow_pos k).ne')) fun r h => ?_
  rw [h, ep]

/-- `(a & (power2(k) - 1)) == a % power2(k)`. -/
theorem C81_mask_mod (k : Nat) (hk : k < 32 * n) :
    checkEq cfg (do let p ← power2 cfg n k; let m ← subRight p (1#32); Aeu.and a m)
      (do let p ← power2 cfg n k; mod cfg a p) = .ok true := by
  obtain ⟨p, hp, ep⟩ := power2_spec cfg (n := n) hk
  have hpos := Nat.two_pow_pos k
  obtain ⟨o, ho, eo⟩ := ofUnsigned32_one (show 0 < n by omega)
  simp only [hp, ok_bind, subRight, ho]
  obtain ⟨m, hm, em⟩ := sub_spec_le (x := p) (y := o) (by rw [ep, eo]; exact hpos)
  simp only [hm, ok_bind]
  refine checkEq_of_nat (v := toNat a % 2 ^ k) ?_ ?_
  · refine Sat.mono (and_spec a m) fun r h => ?_
    rw [h, em, ep, eo, Nat.and_two_pow_sub_one_eq_mod]
  · refine Sat.mono (mod_spec cfg (by omega) a p (by omega)) fun r h => ?_
    rw [h, ep]

/-- `~a == -a - 1`. -/
theorem C81_not_neg (hn : 0 < n) :
    checkEq cfg (Aeu.not a) (do let t ← neg a; subRight t (1#32)) = .ok true := by
  obtain ⟨o, ho, eo⟩ := ofUnsigned32_one hn
  have hlt := toNat_lt a
  have hpos := Nat.one_lt_two_pow (show 32 * n ≠ 0 by omega)
  refine checkEq_of_nat (not_spec a) ?_
  obtain ⟨t, ht, et⟩ := neg_spec a
  simp only [ht, ok_bind, subRight, ho]
  refine Sat.mono (sub_spec t o) fun r h => ?_
  rw [h, et, eo, Nat.mod_add_mod]
  rw [show 2 ^ (32 * n) - toNat a + (2 ^ (32 * n) - 1) = 2 ^ (32 * n) - 1 - toNat a + 2 ^ (32 * n) by omega,
    Nat.add_mod_right, Nat.mod_eq_of_lt (by omega)]

/-- `~~a == a`. -/
theorem C81_not_not : checkEq cfg (do let t ← Aeu.not a; Aeu.not t) (.ok a) = .ok true := by
  have hlt := toNat_lt a
  refine checkEq_of_nat (v := toNat a) ?_ (Sat.ok rfl)
  refine Sat.bind (not_spec a) fun t ht => ?_
  refine Sat.mono (not_spec t) fun r h => ?_
  rw [h, ht]; omega

/-- `(a ^ b) == (a | b) - (a & b)`. -/
theorem C81_xor : checkEq cfg (Aeu.xor a b)
    (do let o ← Aeu.or a b; let t ← Aeu.and a b; sub o t) = .ok true := by
  refine checkEq_of_nat (xor_spec a b) ?_
  obtain ⟨o, ho, eo⟩ := or_spec a b
  obtain ⟨t, ht, et⟩ := and_spec a b
  simp only [ho, ht, ok_bind]
  have h1 := xor_add_and (toNat a) (toNat b)
  have h2 := or_add_and (toNat a) (toNat b)
  refine Sat.mono (sub_spec_le (x := o) (y := t) (by omega)) fun r h => ?_
  rw [h]; omega

/-- `a + b == (a ^ b) + ((a & b) << 1)`. -/
theorem C81_half_adder (hn : 0 < n) : checkEq cfg (add a b)
    (do let x ← Aeu.xor a b; let t ← Aeu.and a b; let s ← shl t 1; add x s) = .ok true := by
  refine checkEq_of_nat (add_spec a b) ?_
  obtain ⟨x, hx, ex⟩ := xor_spec a b
  obtain ⟨t, ht, et⟩ := and_spec a b
  obtain ⟨s, hs, es⟩ := shl_spec (x := t) (show 1 < 32 * n by omega)
  simp only [hx, ht, hs, ok_bind]
  refine Sat.mono (add_spec x s) fun r h => ?_
  have h1 := xor_add_and (toNat a) (toNat b)
  rw [h, es, Nat.add_mod_mod, ex, et, ← h1, Nat.pow_one, Nat.mul_comm 2]

/-- De Morgan: `~(a & b) == (~a | ~b)`. -/
theorem C81_de_morgan : checkEq cfg (do let t ← Aeu.and a b; Aeu.not t)
    (do let x ← Aeu.not a; let y ← Aeu.not b; Aeu.or x y) = .ok true := by
  have key : ∀ x : Aeu n, 2 ^ (32 * n) - 1 - toNat x = 2 ^ (32 * n) - (toNat x + 1) := by intro x; omega
  obtain ⟨t, ht, et⟩ := and_spec a b
  obtain ⟨x, hx, ex⟩ := not_spec a
  obtain ⟨y, hy, ey⟩ := not_spec b
  obtain ⟨u, hu, eu⟩ := not_spec t
  obtain ⟨v, hv, ev⟩ := or_spec x y
  have : u = v := by
    apply toNat_inj
    rw [eu, ev, ex, ey]
    simp only [key]
    apply Nat.eq_of_testBit_eq
    intro i
    rw [Nat.testBit_or]
    rw [Nat.testBit_two_pow_sub_succ (toNat_lt t), Nat.testBit_two_pow_sub_succ (toNat_lt a),
      Nat.testBit_two_pow_sub_succ (toNat_lt b), et, Nat.testBit_and]
    cases decide (i < 32 * n) <;> cases (toNat a).testBit i <;> cases (toNat b).testBit i <;> rfl
  subst this
  simp only [ht, hu, hx, hy, hv, checkEq, ok_bind]
  rw [eq_spec]; simp

/-- `a / b * b + a % b == a`, even for `b == 0`. -/
theorem C81_div_mod (hn : 0 < n) : checkEq cfg
    (do let q ← div cfg a b; let p ← mul q b; let r ← mod cfg a b; add p r) (.ok a) = .ok true := by
  have hlt := toNat_lt a
  refine checkEq_of_nat (v := toNat a) ?_ (Sat.ok rfl)
  obtain ⟨qr, hqr, h1, h2⟩ := divide_total cfg hn a b
  simp only [div, mod, hqr, ok_bind]
  refine Sat.bind (mul_spec qr.1 b) fun p hp => ?_
  refine Sat.mono (add_spec p qr.2) fun r h => ?_
  rw [h, hp, h1, Nat.mod_add_mod]
  by_cases h0 : toNat b = 0
  · rw [h0]; simp [Nat.mod_eq_of_lt hlt]
  · rw [h2 h0, Nat.mul_comm, Nat.div_add_mod, Nat.mod_eq_of_lt hlt]

/-- `gcd(a, b) * lcm(a, b) == a * b`, also when the products wrap. -/
theorem C81_gcd_lcm (hn : 0 < n) : checkEq cfg
    (do let g ← gcd cfg a b; let l ← lcm cfg a b; mul g l) (mul a b) = .ok true := by
  refine checkEq_of_nat ?_ (mul_spec a b)
  refine Sat.bind (gcd_spec cfg hn a b) fun g hg => ?_
  refine Sat.bind (lcm_spec cfg hn a b) fun l hl => ?_
  refine Sat.mono (mul_spec g l) fun r h => ?_
  rw [h, hg, hl, Nat.mul_mod_mod, Nat.gcd_mul_lcm]

/-- `(a * a).squareRoot() == a` if the square fits. -/
theorem C81_sqrt_square (hn : 0 < n) (hfit : toNat a ^ 2 < 2 ^ (32 * n)) : checkEq cfg
    (do let s ← mul a a; squareRoot cfg s) (.ok a) = .ok true := by
  refine checkEq_of_nat (v := toNat a) ?_ (Sat.ok rfl)
  refine Sat.bind (mul_spec a a) fun s hs => ?_
  refine Sat.mono (squareRoot_spec cfg hn s) fun r h => ?_
  rw [h, hs, Nat.mod_eq_of_lt (by rw [← Nat.pow_two]; exact hfit), Nat.sqrt_eq]

/-- `(a << k) >> k == a` if the top `k` bits of `a` are clear. -/
theorem C81_shl_shr (k : Nat) (hk : k < 32 * n) (hfit : toNat a * 2 ^ k < 2 ^ (32 * n)) : checkEq cfg
    (do let s ← shl a k; shr s k) (.ok a) = .ok true := by
  refine checkEq_of_nat (v := toNat a) ?_ (Sat.ok rfl)
  refine Sat.bind (shl_spec hk) fun s hs => ?_
  refine Sat.mono (shr_spec hk) fun r h => ?_
  rw [h, hs, Nat.mod_eq_of_lt hfit, Nat.mul_div_cancel _ (Nat.two_pow_pos k)]

/-- `(a >> i).isOdd()` is `a.getBit(i)`. -/
theorem C81_shr_bit (i : Nat) (hi : i < 32 * n) :
    (do let s ← shr a i; isOdd s) = getBit cfg a i := by
  obtain ⟨s, hs, es⟩ := shr_spec (x := a) hi
  rw [getBit_spec cfg a hi, hs]
  simp only [ok_bind]
  rw [isOdd_spec (by omega), es, Nat.testBit_eq_decide_div_mod_eq]

/-- The hypotheses are met, and `checkEq` can fail. -/
example : toNat (ofNat 2 (2 ^ 32 - 1)) ^ 2 < 2 ^ (32 * 2) ∧
    toNat (ofNat 2 77) * 2 ^ 40 < 2 ^ (32 * 2) ∧
    checkEq ⟨false, false, false⟩ (shl (ofNat 2 3) 1) (.ok (ofNat 2 5)) = .ok false := by decide +kernel

/-! ### Concrete cases that meet the hypotheses -/

/-- The hypotheses of `C81_shl_mul` are met. -/
example := C81_shl_mul ⟨false, false, false⟩ (Aeu.ofNat 2 (2 ^ 40 + 5)) 33 (by omega)

/-- The hypotheses of `C81_shr_div` are met. -/
example := C81_shr_div ⟨false, false, false⟩ (Aeu.ofNat 2 (2 ^ 40 + 5)) 33 (by omega)

/-- The hypotheses of `C81_mask_mod` are met. -/
example := C81_mask_mod ⟨false, false, false⟩ (Aeu.ofNat 2 (2 ^ 40 + 5)) 33 (by omega)

/-! ### Concrete cases that meet the hypotheses -/

/-- The hypotheses of `C81_not_neg` are met. -/
example := C81_not_neg ⟨false, false, false⟩ (Aeu.ofNat 2 (2 ^ 40 + 5)) (by omega)

/-- The hypotheses of `C81_half_adder` are met. -/
example := C81_half_adder ⟨false, false, false⟩ (Aeu.ofNat 2 (2 ^ 40 + 5)) (Aeu.ofNat 2 77) (by omega)

end AesiMP
