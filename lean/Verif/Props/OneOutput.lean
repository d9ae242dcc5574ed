import Verif.Props.AliasSigned
import Verif.Props.AliasOutputs

/-!
# C54: one object passed for quotient and remainder — exactly what it ends as
-/

namespace AesiMP
open Aeu
variable {n : Nat}

/-- Specification: long division of `num` by `d` over the bit positions below `i`, from the top, in which the
running remainder `x` and the quotient share one `w`-bit register: each subtraction also switches on the bit
of the position in the remainder. -/
def sharedLongDivision (w num d : Nat) : Nat → Nat → Nat
  | 0, x => x
  | i + 1, x =>
    let y := (2 * x + (num.testBit i).toNat) % 2 ^ w
    sharedLongDivision w num d i (if d ≤ y then (y - d) ||| 2 ^ i else y)

private theorem setBit_true (cfg : Cfg) (x : Aeu n) {i : Nat} (hi : i < 32 * n) :
    Sat (setBit cfg x i true) fun r => toNat r = toNat x ||| 2 ^ i := by
  refine Sat.mono (setBit_sat cfg x true hi) fun r hr => ?_
  refine Nat.eq_of_testBit_eq fun k => ?_
  rw [hr k, Nat.testBit_or, Nat.testBit_two_pow]
  by_cases hk : k = i
  · subst hk; simp
  · simp [hk, Ne.symm hk]

private theorem double_mod_add {M b : Nat} (hd : 2 ∣ M) (hM : 0 < M) (x : Nat) (hb : b < 2) :
    2 * x % M + b = (2 * x + b) % M := by
  obtain ⟨c, rfl⟩ := hd
  rw [Nat.mul_mod_mul_left]
  have hc0 : 0 < c := by omega
  have hlt := Nat.mod_lt x hc0
  have hdm := Nat.div_add_mod x c
  have : 2 * x + b = (2 * (x % c) + b) + (2 * c) * (x / c) := by nlinarith
  have e : (2 * (x % c) + b + 2 * c * (x / c)) % (2 * c) = 2 * (x % c) + b := by
    rw [Nat.add_mul_mod_self_left]
    exact Nat.mod_eq_of_lt (by omega)
  exact (this ▸ e).symm

/-- C54, one object `X` for both outputs, equal operands: it ends as the quotient, 1 (also when it is an
operand). -/
theorem C54_one_output_equal (cfg : Cfg) (hn : 0 < n) (h : Heap n) (N D X : Nat)
    (he : toNat (h N) = toNat (h D)) : Sat (Alias.divide cfg h N D X X) fun h' =>
      toNat (h' X) = 1 ∧ ∀ p, p ≠ X → h' p = h p := by
  simp only [Alias.divide, compareTo_spec, ok_bind, cmpNat, he, lt_irrefl, if_false, if_true]
  obtain ⟨one, h1, e1⟩ := ofUnsigned32_one hn
  simp only [h1, ok_bind, sat_ok]
  refine ⟨by rw [hput_same, e1], fun p hp => ?_⟩
  rw [hput_ne _ _ hp, hput_ne _ _ hp, hput_ne _ _ hp]

/-- C54, one output that is not the number, smaller number: it ends as the remainder (the divisor may be it). -/
theorem C54_one_output_smaller (cfg : Cfg) (h : Heap n) (N D X : Nat) (hNX : N ≠ X)
    (hlt : toNat (h N) < toNat (h D)) : Sat (Alias.divide cfg h N D X X) fun h' =>
      toNat (h' X) = toNat (h N) ∧ ∀ p, p ≠ X → h' p = h p := by
  simp only [Alias.divide, compareTo_spec, ok_bind, cmpNat, hlt, if_true, sat_ok, hput_put]
  refine ⟨?_, fun p hp => ?_⟩
  · rw [hput_same, hput_ne _ _ hNX]
  · rw [hput_ne _ _ hp]

/-- C54, one output that is the number, operands of different value: it ends as 0. -/
theorem C54_one_output_number (cfg : Cfg) (h : Heap n) (D X : Nat)
    (hne : toNat (h X) ≠ toNat (h D)) : Sat (Alias.divide cfg h X D X X) fun h' =>
      toNat (h' X) = 0 ∧ ∀ p, p ≠ X → h' p = h p := by
  simp only [Alias.divide, compareTo_spec, ok_bind, cmpNat, hne, if_false, hput_put, hput_same]
  split
  · obtain ⟨k, hk, hk1, hk2, hk3⟩ := filledBlocksNumber_nat (zero n)
    have hk0 : k = 0 := by
      by_contra hk0
      have := hk3 (by omega)
      rw [toNat_zero] at this
      have := Nat.two_pow_pos (32 * (k - 1))
      omega
    simp only [hk, ok_bind, hk0, forDown, Nat.sub_zero, forDownN, sat_ok]
    exact ⟨by rw [hput_same, toNat_zero], fun p hp => by rw [hput_ne _ _ hp]⟩
  · simp only [sat_ok]
    exact ⟨by rw [hput_same, toNat_zero], fun p hp => by rw [hput_ne _ _ hp]⟩
  · rename_i h1 h2
    exfalso
    by_cases hl : toNat (h X) < toNat (h D)
    · rw [if_pos hl] at h2; exact h2 rfl
    · rw [if_neg hl] at h1; exact h1 rfl

/-- C54, one output that is the divisor, greater number: it ends as 1, whatever the operands. -/
theorem C54_one_output_divisor (cfg : Cfg) (hn : 0 < n) (h : Heap n) (N X : Nat) (hNX : N ≠ X)
    (hgt : toNat (h X) < toNat (h N)) : Sat (Alias.divide cfg h N X X X) fun h' =>
      toNat (h' X) = 1 ∧ ∀ p, p ≠ X → h' p = h p := by
  have h1 : ¬ toNat (h N) < toNat (h X) := by omega
  have h2 : ¬ toNat (h N) = toNat (h X) := by omega
  simp only [Alias.divide, compareTo_spec, ok_bind, cmpNat, h1, h2, if_false, hput_put, hput_ne _ _ hNX]
  obtain ⟨k, hk, hk1, hk2, _⟩ := filledBlocksNumber_nat (h N)
  have hk0 : 0 < k := by
    by_contra h0
    have : k = 0 := by omega
    subst this
    simp at hk2; omega
  simp only [hk, ok_bind]
  refine Sat.forDown (fun i (H : Heap n) => (i = k * 32 ∨ toNat (H X) = 2 ^ i) ∧ ∀ p, p ≠ X → H p = h p)
    (Nat.zero_le _) ?_ ?_ ?_
  · exact ⟨Or.inl rfl, fun p hp => by rw [hput_ne _ _ hp]⟩
  · rintro i H _ hi ⟨_, hp⟩
    have hin : i < 32 * n := by omega
    obtain ⟨r1, hr1, -⟩ := shl_spec (x := H X) (show 1 < 32 * n by omega)
    simp only [hr1, ok_bind, hput_same, hput_put]
    rw [hp N hNX]
    simp only [getBit_spec cfg (h N) hin, ok_bind]
    obtain ⟨r2, hr2, -⟩ := setBit_sat cfg r1 ((toNat (h N)).testBit i) (show 0 < 32 * n by omega)
    simp only [hr2, ok_bind, hput_same, hput_put, ge_spec, le_refl, decide_true, if_true, Alias.subAssign_eq]
    obtain ⟨r3, hr3, e3⟩ := sub_spec_le (x := r2) (y := r2) le_rfl
    simp only [hr3, ok_bind, hput_same, hput_put]
    obtain ⟨r4, hr4, e4⟩ := setBit_true cfg r3 hin
    simp only [hr4, ok_bind, sat_ok]
    refine ⟨Or.inr ?_, fun p hX => ?_⟩
    · rw [hput_same, e4, e3, Nat.sub_self, Nat.zero_or]
    · rw [hput_ne _ _ hX, hp p hX]
  · rintro H ⟨hX, hp⟩
    refine ⟨?_, hp⟩
    rcases hX with hX | hX
    · omega
    · rw [hX, Nat.pow_zero]

/-- C54, one output that is no operand, greater number of `k` blocks: it ends as the register of a long
division in which quotient and remainder share it. -/
theorem C54_one_output_greater (cfg : Cfg) (hn : 0 < n) (h : Heap n) (N D X : Nat) (hNX : N ≠ X) (hDX : D ≠ X)
    (hgt : toNat (h D) < toNat (h N)) : Sat (Alias.divide cfg h N D X X) fun h' =>
      (∃ k, 0 < k ∧ 2 ^ (32 * (k - 1)) ≤ toNat (h N) ∧ toNat (h N) < 2 ^ (32 * k) ∧
        toNat (h' X) = sharedLongDivision (32 * n) (toNat (h N)) (toNat (h D)) (32 * k) 0) ∧
      ∀ p, p ≠ X → h' p = h p := by
  have h1 : ¬ toNat (h N) < toNat (h D) := by omega
  have h2 : ¬ toNat (h N) = toNat (h D) := by omega
  simp only [Alias.divide, compareTo_spec, ok_bind, cmpNat, h1, h2, if_false, hput_put, hput_ne _ _ hNX]
  obtain ⟨k, hk, hk1, hk2, hk3⟩ := filledBlocksNumber_nat (h N)
  have hk0 : 0 < k := by
    by_contra h0
    have : k = 0 := by omega
    subst this
    simp at hk2; omega
  simp only [hk, ok_bind]
  refine Sat.forDown (fun i (H : Heap n) =>
    sharedLongDivision (32 * n) (toNat (h N)) (toNat (h D)) i (toNat (H X)) =
      sharedLongDivision (32 * n) (toNat (h N)) (toNat (h D)) (32 * k) 0 ∧ ∀ p, p ≠ X → H p = h p)
    (Nat.zero_le _) ?_ ?_ ?_
  · exact ⟨by rw [hput_same, toNat_zero, Nat.mul_comm k], fun p hp => by rw [hput_ne _ _ hp]⟩
  · rintro i H _ hi ⟨hX, hp⟩
    have hin : i < 32 * n := by omega
    obtain ⟨r1, hr1, e1⟩ := shl_spec (x := H X) (show 1 < 32 * n by omega)
    simp only [hr1, ok_bind, hput_same, hput_put]
    rw [hp N hNX]
    simp only [getBit_spec cfg (h N) hin, ok_bind]
    have hd : 2 ∣ 2 ^ (32 * n) := dvd_pow_self 2 (by omega)
    have h2d : 2 ^ (0 + 1) ∣ toNat r1 := by
      rw [e1, Nat.zero_add, Nat.pow_one, Nat.dvd_mod_iff hd]
      exact ⟨_, Nat.mul_comm _ _⟩
    obtain ⟨r2, hr2, e2⟩ := setBit_of_dvd cfg r1 (show 0 < 32 * n by omega) ((toNat (h N)).testBit i) h2d
    have e2' : toNat r2 = (2 * toNat (H X) + ((toNat (h N)).testBit i).toNat) % 2 ^ (32 * n) := by
      rw [e2, e1, Nat.pow_one, Nat.pow_zero, Nat.mul_one, Nat.mul_comm (toNat (H X)) 2]
      exact double_mod_add hd (Nat.two_pow_pos _) _ (Bool.toNat_lt _)
    simp only [hr2, ok_bind, hput_same, hput_put, ge_spec]
    rw [hput_ne _ _ hDX, hp D hDX]
    rw [sharedLongDivision] at hX
    simp only [← e2'] at hX
    by_cases hge : toNat (h D) ≤ toNat r2
    · simp only [hge, decide_true, if_true, Alias.subAssign_eq, hput_same, hput_put] at hX ⊢
      rw [hput_ne _ _ hDX, hp D hDX]
      obtain ⟨r3, hr3, e3⟩ := sub_spec_le hge
      simp only [hr3, ok_bind, hput_same, hput_put]
      obtain ⟨r4, hr4, e4⟩ := setBit_true cfg r3 hin
      simp only [hr4, ok_bind, sat_ok, hput_same]
      refine ⟨by rw [e4, e3]; exact hX, fun p hpX => ?_⟩
      rw [hput_ne _ _ hpX, hp p hpX]
    · simp only [hge, decide_false, Bool.false_eq_true, if_false, sat_ok, hput_same] at hX ⊢
      exact ⟨hX, fun p hpX => by rw [hput_ne _ _ hpX, hp p hpX]⟩
  · rintro H ⟨hX, hp⟩
    exact ⟨⟨k, hk0, hk3 hk0, hk2, by rw [← hX]; rfl⟩, hp⟩

private theorem normalise_one (h : SHeap n) (p : Nat) : Sat (SAlias.normalise h p) fun h' =>
    h'.base = h.base ∧ (∀ q, Aesi.toInt (h'.obj q) = Aesi.toInt (h.obj q)) ∧ ∀ q, q ≠ p → h'.sign q = h.sign q := by
  unfold SAlias.normalise
  rw [isZero_spec]
  refine Sat.ok ?_
  by_cases hz : toNat (h.base p) = 0
  · simp only [hz, decide_true, if_true]
    refine ⟨rfl, fun q => ?_, fun q hq => ?_⟩
    · by_cases hq : q = p
      · subst hq
        simp only [SHeap.obj, SHeap.setSign, if_true, Aesi.toInt, hz]
        cases h.sign q <;> simp
      · simp only [SHeap.obj, SHeap.setSign, if_neg hq]
    · simp only [SHeap.setSign, if_neg hq]
  · simp only [hz, decide_false, Bool.false_eq_true, if_false]
    exact ⟨trivial, fun _ => trivial, fun _ _ => trivial⟩

/-- C54, signed, one object for both outputs, non-zero operands: the magnitude is the one the unsigned `divide`
leaves there, and the sign is that of the remainder, the number's sign. -/
theorem C54_signed_one_output (cfg : Cfg) (h : SHeap n) (N D X : Nat)
    (hN : h.sign N ≠ .zero) (hD : h.sign D ≠ .zero) (P : Heap n → Prop)
    (hP : Sat (Alias.divide cfg h.base N D X X) P) : Sat (SAlias.divide cfg h N D X X) fun h' =>
      P h'.base ∧ Aesi.toInt (h'.obj X) = Aesi.sgn (h.obj N) * toNat (h'.base X) ∧
      ∀ p, p ≠ X → h'.sign p = h.sign p := by
  unfold SAlias.divide
  rw [if_neg (by simp [hN, hD])]
  refine Sat.bind hP fun b hb => ?_
  simp only
  refine Sat.bind (normalise_one _ X) ?_
  intro h1 ⟨e1, e2, e3⟩
  refine Sat.mono (normalise_one h1 X) ?_
  intro h2 ⟨f1, f2, f3⟩
  have hbase : h2.base = b := by
    rw [f1, e1]
    split <;> split <;> rfl
  rw [hbase]
  refine ⟨hb, ?_, ?_⟩
  · rw [f2, e2]
    cases hs : h.sign N <;> cases hd : h.sign D <;>
      simp_all [SHeap.obj, SHeap.setSign, Aesi.toInt, Aesi.sgn]
  · intro p hp
    rw [f3 p hp, e3 p hp]
    split <;> split <;> simp [SHeap.setSign, hp]

/-! ### Concrete cases that meet the hypotheses -/

/-- 100 and 7 into one object: the shared register ends as 63, neither the quotient 14 nor the remainder 2. -/
example : sharedLongDivision 64 100 7 32 0 = 63 ∧
    (Alias.divide lp64 (fun p => ofNat 2 p) 100 7 1 1).map (fun h => toNat (h 1)) = .ok 63 := by decide +kernel

/-- `divide(a, a, x, x)`, `divide(a, b, x, x)` with `a < b`, `divide(x, b, x, x)`, `divide(a, x, x, x)`. -/
example : (Alias.divide lp64 (fun p => ofNat 2 p) 9 9 1 1).map (fun h => toNat (h 1)) = .ok 1 ∧
    (Alias.divide lp64 (fun p => ofNat 2 p) 9 12 1 1).map (fun h => toNat (h 1)) = .ok 9 ∧
    (Alias.divide lp64 (fun p => ofNat 2 p) 100 7 100 100).map (fun h => toNat (h 100)) = .ok 0 ∧
    (Alias.divide lp64 (fun p => ofNat 2 p) 100 7 7 7).map (fun h => toNat (h 7)) = .ok 1 := by decide +kernel

/-- The hypotheses of `C54_one_output_equal` are met. -/
example := C54_one_output_equal lp64 (by omega) (fun i => Aeu.ofNat 2 (2 ^ 40 + i)) 5 5 1 rfl
/-- The hypotheses of `C54_one_output_smaller` are met. -/
example := C54_one_output_smaller lp64 (fun i => Aeu.ofNat 2 (2 ^ 40 + i)) 5 6 6 (by omega) (by decide +kernel)
/-- The hypotheses of `C54_one_output_number` are met. -/
example := C54_one_output_number lp64 (fun i => Aeu.ofNat 2 (2 ^ 40 + i)) 5 6 (by decide +kernel)
/-- The hypotheses of `C54_one_output_divisor` are met. -/
example := C54_one_output_divisor lp64 (by omega) (fun i => Aeu.ofNat 2 (2 ^ 40 + i)) 6 5 (by omega)
  (by decide +kernel)
/-- The hypotheses of `C54_one_output_greater` are met. -/
example := C54_one_output_greater lp64 (by omega) (fun i => Aeu.ofNat 2 (2 ^ 40 / (i + 1))) 0 1 2 (by omega)
  (by omega) (by decide +kernel)
/-- The hypotheses of `C54_signed_one_output` are met. -/
example := C54_signed_one_output lp64
  ⟨fun i => if i = 0 then .negative else .positive, fun i => Aeu.ofNat 2 (2 ^ 40 / (i + 1))⟩ 0 1 2
  (by decide) (by decide) _ (C54_one_output_greater lp64 (by omega) (fun i => Aeu.ofNat 2 (2 ^ 40 / (i + 1))) 0 1 2
    (by omega) (by omega) (by decide +kernel))

end AesiMP
