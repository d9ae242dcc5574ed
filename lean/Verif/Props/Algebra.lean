import Verif.Lemmas.Count
import Mathlib.Data.ZMod.Basic
import Mathlib.Tactic.Ring

/-!
# C58: `Aeu` is a commutative ring under the library's own `==`

The statements only use the library's operators: each runs both sides of the law and compares the
results with the library's `operator==`, which must yield `true`.
-/

namespace AesiMP
open Aeu
variable {n : Nat}

namespace Aeu
/-- The residue class of a number (proof device; not used in the statements). -/
def val (a : Aeu n) : ZMod (2 ^ (32 * n)) := (toNat a : ZMod (2 ^ (32 * n)))

theorem val_inj {a b : Aeu n} (h : val a = val b) : a = b := by
  apply toNat_inj
  have h' := (ZMod.natCast_eq_natCast_iff _ _ _).mp h
  exact h'.eq_of_lt_of_lt (toNat_lt a) (toNat_lt b)

theorem add_val (a b : Aeu n) : Sat (add a b) fun r => val r = val a + val b := by
  refine Sat.mono (add_spec a b) fun r h => ?_
  rw [val, h, ZMod.natCast_mod]; push_cast; rfl
theorem mul_val (a b : Aeu n) : Sat (mul a b) fun r => val r = val a * val b := by
  refine Sat.mono (mul_spec a b) fun r h => ?_
  rw [val, h, ZMod.natCast_mod]; push_cast; rfl
theorem sub_val (a b : Aeu n) : Sat (sub a b) fun r => val r = val a - val b := by
  refine Sat.mono (sub_int a b) fun r h => ?_
  have := (ZMod.intCast_eq_intCast_iff (toNat r) (toNat a - toNat b) (2 ^ (32 * n))).mpr
    (by push_cast; exact h)
  push_cast at this
  exact this
theorem neg_val (a : Aeu n) : Sat (neg a) fun r => val r = - val a := by
  refine Sat.mono (neg_spec a) fun r h => ?_
  rw [val, h, ZMod.natCast_mod, Nat.cast_sub (toNat_lt a).le]
  simp [val]
theorem eq_self (cfg : Cfg) {a b : Aeu n} (h : val a = val b) : eq cfg a b = .ok true := by
  rw [val_inj h, eq_spec]; simp
theorem zero_val : val (zero n) = 0 := by rw [val, toNat_zero]; simp
end Aeu

/-- Run the two sides and compare the results with the library's `==`. -/
def checkEq (cfg : Cfg) (lhs rhs : Exec (Aeu n)) : Exec Bool := do
  let l ← lhs
  let r ← rhs
  eq cfg l r

theorem checkEq_of {cfg : Cfg} {lhs rhs : Exec (Aeu n)} {v : ZMod (2 ^ (32 * n))}
    (hl : Sat lhs fun r => val r = v) (hr : Sat rhs fun r => val r = v) :
    checkEq cfg lhs rhs = .ok true := by
  obtain ⟨l, rfl, el⟩ := hl
  obtain ⟨r, rfl, er⟩ := hr
  simp only [checkEq, ok_bind]
  exact eq_self cfg (by rw [el, er])

variable (cfg : Cfg) (a b c : Aeu n)

/-- C58: `a + b == b + a`. -/
theorem C58_add_comm : checkEq cfg (add a b) (add b a) = .ok true :=
  checkEq_of (add_val a b) (Sat.mono (add_val b a) fun r h => by rw [h, add_comm])

/-- C58: `(a + b) + c == a + (b + c)`. -/
theorem C58_add_assoc : checkEq cfg (do let t ← add a b; add t c) (do let t ← add b c; add a t) =
    .ok true :=
  checkEq_of (v := val a + val b + val c)
    (Sat.bind (add_val a b) fun t ht => Sat.mono (add_val t c) fun r h => by rw [h, ht])
    (Sat.bind (add_val b c) fun t ht => Sat.mono (add_val a t) fun r h => by rw [h, ht]; ring)

/-- C58: `a * b == b * a`. -/
theorem C58_mul_comm : checkEq cfg (mul a b) (mul b a) = .ok true :=
  checkEq_of (mul_val a b) (Sat.mono (mul_val b a) fun r h => by rw [h]; ring)

/-- C58: `(a * b) * c == a * (b * c)`. -/
theorem C58_mul_assoc : checkEq cfg (do let t ← mul a b; mul t c) (do let t ← mul b c; mul a t) =
    .ok true :=
  checkEq_of (v := val a * val b * val c)
    (Sat.bind (mul_val a b) fun t ht => Sat.mono (mul_val t c) fun r h => by rw [h, ht])
    (Sat.bind (mul_val b c) fun t ht => Sat.mono (mul_val a t) fun r h => by rw [h, ht]; ring)

/-- C58: `a * (b + c) == a * b + a * c`. -/
theorem C58_distrib : checkEq cfg (do let t ← add b c; mul a t)
    (do let t ← mul a b; let u ← mul a c; add t u) = .ok true :=
  checkEq_of (v := val a * (val b + val c))
    (Sat.bind (add_val b c) fun t ht => Sat.mono (mul_val a t) fun r h => by rw [h, ht])
    (Sat.bind (mul_val a b) fun t ht => Sat.bind (mul_val a c) fun u hu =>
      Sat.mono (add_val t u) fun r h => by rw [h, ht, hu]; ring)

/-- C58: `a + Aeu(0) == a`. -/
theorem C58_add_zero : checkEq cfg (do let z ← ofUnsigned n (0#32); add a z) (.ok a) = .ok true :=
  checkEq_of (v := val a)
    (Sat.bind (ofUnsigned32_zero (n := n)) fun z hz => Sat.mono (add_val a z) fun r h => by
      rw [h, val, val, hz]; simp)
    (Sat.ok rfl)

/-- C58: `a * Aeu(1) == a`. -/
theorem C58_mul_one (hn : 0 < n) :
    checkEq cfg (do let z ← ofUnsigned n (1#32); mul a z) (.ok a) = .ok true :=
  checkEq_of (v := val a)
    (Sat.bind (ofUnsigned32_one hn) fun z hz => Sat.mono (mul_val a z) fun r h => by
      rw [h, val, val, hz]; simp)
    (Sat.ok rfl)

/-- C58: `a + (-a) == Aeu(0)`. -/
theorem C58_add_neg : checkEq cfg (do let t ← neg a; add a t) (ofUnsigned n (0#32)) = .ok true :=
  checkEq_of (v := 0)
    (Sat.bind (neg_val a) fun t ht => Sat.mono (add_val a t) fun r h => by rw [h, ht]; ring)
    (Sat.mono (ofUnsigned32_zero (n := n)) fun r h => by rw [val, h]; simp)

/-- C58: `a - b == a + (-b)`. -/
theorem C58_sub_eq : checkEq cfg (sub a b) (do let t ← neg b; add a t) = .ok true :=
  checkEq_of (v := val a - val b) (sub_val a b)
    (Sat.bind (neg_val b) fun t ht => Sat.mono (add_val a t) fun r h => by rw [h, ht]; ring)

/-- C58: `(a - b) + b == a`. -/
theorem C58_sub_add_cancel : checkEq cfg (do let t ← sub a b; add t b) (.ok a) = .ok true :=
  checkEq_of (v := val a)
    (Sat.bind (sub_val a b) fun t ht => Sat.mono (add_val t b) fun r h => by rw [h, ht]; ring)
    (Sat.ok rfl)

/-- `==` is not trivially true. -/
theorem C58_eq_discriminates (h : a ≠ b) : checkEq cfg (.ok a) (.ok b) = .ok false := by
  simp only [checkEq, ok_bind, eq_spec]
  simp only [Except.ok.injEq, decide_eq_false_iff_not]
  exact fun h' => h (toNat_inj h')

example : checkEq ⟨false, false, false⟩ (mul (ofNat 2 (2 ^ 50 + 3)) (ofNat 2 (2 ^ 40 + 1)))
    (mul (ofNat 2 (2 ^ 40 + 1)) (ofNat 2 (2 ^ 50 + 3))) = .ok true := by decide +kernel

end AesiMP
