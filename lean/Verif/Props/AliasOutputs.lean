import Verif.Props.Alias
import Verif.Props.Bezout

/-!
# C54, C64: one object passed for both outputs; the coefficients over the integers
-/

namespace AesiMP
open Aeu
variable {n : Nat}

/-- C64, over the integers: when `x` and `y` are two objects, whichever of them are also inputs, the
coefficients read in two's complement satisfy Bézout's identity for the values `a` and `b` had before
the call, without wrap-around, and are at most half the other operand. -/
theorem C64_bezout_shared_exact (cfg : Cfg) (hn : 0 < n) (h : Heap n) (a b x y : Nat) (hxy : x ≠ y)
    (ha : toNat (h a) ≠ 0) (hb : toNat (h b) ≠ 0) :
    Sat (Alias.gcdExt cfg h a b x y) fun (g, h') =>
      let X := twosComplement (32 * n) (toNat (h' x))
      let Y := twosComplement (32 * n) (toNat (h' y))
      toNat g = Nat.gcd (toNat (h a)) (toNat (h b)) ∧
      (toNat (h a) : Int) * X + toNat (h b) * Y = toNat g ∧
      2 * |X| ≤ max 2 (toNat (h b) : Int) ∧ 2 * |Y| ≤ max 2 (toNat (h a) : Int) ∧
      ∀ p, p ≠ x → p ≠ y → h' p = h p := by
  rw [Alias.gcdExt_eq cfg h a b x y hxy]
  obtain ⟨⟨g, u, v⟩, hr, h1, -⟩ := C27_bezout cfg hn (h a) (h b)
  obtain ⟨⟨g', u', v'⟩, hr', h2, h3, h4⟩ := C27_bezout_exact cfg hn (h a) (h b) ha hb
  rw [hr, Except.ok.injEq] at hr'
  injection hr' with e1 e2
  injection e2 with e2 e3
  subst e1 e2 e3
  rw [hr, ok_bind]
  refine Sat.ok ?_
  simp only at h1 h2 h3 h4 ⊢
  rw [hput_same, hput_ne _ _ hxy, hput_same]
  refine ⟨h1, by rw [h1]; exact h2, h3, h4, fun p hp hp' => ?_⟩
  rw [hput_ne _ _ hp', hput_ne _ _ hp]

example : (Alias.gcdExt lp64 (fun p => ofNat 2 p) 240 46 240 46).map
    (fun r => (toNat r.1, twosComplement 64 (toNat (r.2 240)), twosComplement 64 (toNat (r.2 46)))) =
    .ok (2, -9, 47) := by decide +kernel

theorem gcdExt_any_loop (cfg : Cfg) (hn : 0 < n) (h0 : Heap n) (x y v : Nat) (g q r tx ty : Aeu n) (h : Heap n)
    (hg : Nat.gcd (toNat g) (toNat r) = v) (hh : ∀ p, p ≠ x → p ≠ y → h p = h0 p) :
    Sat (whileC (2 ^ (32 * n) + 1) (g, q, r, h, tx, ty)
      fun (gcd, quotient, remainder, h, tX, tY) => do
      let z ← eqNarrow remainder (0#32)
      if z then .ok (.leave (gcd, h)) else do
        let tGcd := gcd
        let gcd := remainder
        let t := h x
        let p ← Aeu.mul quotient (h x)
        let d ← Aeu.sub tX p
        let h := h.put x d
        let tX := t
        let t := h y
        let p ← Aeu.mul quotient (h y)
        let d ← Aeu.sub tY p
        let h := h.put y d
        let tY := t
        let qr ← Aeu.divide cfg tGcd gcd
        .ok (.next (gcd, qr.1, qr.2, h, tX, tY)))
      fun s => toNat s.1 = v ∧ ∀ p, p ≠ x → p ≠ y → s.2 p = h0 p := by
  refine Sat.whileC (fun (s : Aeu n × Aeu n × Aeu n × Heap n × Aeu n × Aeu n) =>
      Nat.gcd (toNat s.1) (toNat s.2.2.1) = v ∧ ∀ p, p ≠ x → p ≠ y → s.2.2.2.1 p = h0 p)
      (fun s => toNat s.2.2.1) ⟨hg, hh⟩ (by have := toNat_lt r; simp only; omega) ?_
  clear hg hh
  rintro ⟨g, q, r, h, tx, ty⟩ ⟨hg, hh⟩
  simp only at hg hh ⊢
  rw [eqNarrow_spec hn (by norm_num)]
  simp only [ok_bind]
  by_cases hz : toNat r = 0
  · simp only [hz, Nat.gcd_zero_right] at hg
    simp only [hz, BitVec.toNat_ofNat, Nat.zero_mod, decide_true, if_true, sat_ok, ctlP_leave]
    exact ⟨hg, hh⟩
  · have hbf : (decide (toNat r = (0#32).toNat)) = false := by simp [hz]
    rw [hbf]
    simp only [Bool.false_eq_true, if_false]
    obtain ⟨p1, hp1, -⟩ := mul_int q (h x)
    obtain ⟨b1, hb1, -⟩ := sub_int tx p1
    obtain ⟨p2, hp2, -⟩ := mul_int q ((h.put x b1) y)
    obtain ⟨b2, hb2, -⟩ := sub_int ty p2
    simp only [hp1, hb1, hp2, hb2, ok_bind]
    refine Sat.bind (divide_spec cfg hn g r hz) ?_
    rintro qr ⟨-, h2⟩
    simp only [sat_ok, ctlP_next, h2]
    refine ⟨⟨by rw [← hg, gcd_step], fun p hp hp' => ?_⟩, Nat.mod_lt _ (by omega)⟩
    rw [hput_ne _ _ hp', hput_ne _ _ hp, hh p hp hp']

/-- C64, every sharing pattern, also one object for both coefficients: the call terminates without
undefined behaviour, returns the gcd of the values `a` and `b` had before, and writes to no object
other than `x` and `y`. -/
theorem C64_gcd_any_sharing (cfg : Cfg) (hn : 0 < n) (h : Heap n) (a b x y : Nat) :
    Sat (Alias.gcdExt cfg h a b x y) fun (g, h') =>
      toNat g = Nat.gcd (toNat (h a)) (toNat (h b)) ∧ ∀ p, p ≠ x → p ≠ y → h' p = h p := by
  unfold Alias.gcdExt
  rw [compareTo_spec]
  obtain ⟨z, hz, -⟩ := ofUnsigned32_zero (n := n)
  obtain ⟨o, ho, -⟩ := ofUnsigned32_one hn
  simp only [ok_bind, hz, ho]
  have hinit : ∀ p, p ≠ x → p ≠ y → ((h.put x z).put y o) p = h p := fun p hp hp' => by
    rw [hput_ne _ _ hp', hput_ne _ _ hp]
  by_cases hgt : cmpNat (toNat (h a)) (toNat (h b)) = .greater
  · simp only [hgt, if_true, ne_eq, not_true_eq_false, if_false]
    refine Sat.bind (divide_total cfg hn (h a) (h b)) ?_
    rintro ⟨q, r⟩ ⟨h1, -⟩
    refine Sat.bind (gcdExt_any_loop cfg hn h x y _ (h b) q r o z _ rfl hinit) ?_
    rintro ⟨g, h'⟩ ⟨h3, h4⟩
    refine Sat.ok ⟨?_, h4⟩
    simp only at h1 h3
    rw [h3, h1, gcd_step]
  · simp only [hgt, if_false, ne_eq, not_false_eq_true, if_true]
    refine Sat.bind (divide_total cfg hn (h b) (h a)) ?_
    rintro ⟨q, r⟩ ⟨h1, -⟩
    refine Sat.bind (gcdExt_any_loop cfg hn h x y _ (h a) q r o z _ rfl hinit) ?_
    rintro ⟨g, h'⟩ ⟨h3, h4⟩
    refine Sat.ok ⟨?_, fun p hp hp' => ?_⟩
    · simp only at h1 h3
      rw [h3, h1, gcd_step, Nat.gcd_comm]
    · simp only [Alias.swap, Heap.put, hp, hp', if_false]
      exact h4 p hp hp'

/-- With one object for both coefficients it ends as neither of them: only the gcd is right. -/
example : (Alias.gcdExt lp64 (fun p => ofNat 2 p) 240 46 1 1).map (fun r => (toNat r.1, toNat (r.2 1))) =
    .ok (2, 2 ^ 64 - 391) := by decide +kernel

/-- C54, every sharing pattern, also one object for quotient and remainder, and every divisor: the call
terminates without undefined behaviour and writes to no object other than its outputs. -/
theorem C54_any_sharing (cfg : Cfg) (hn : 0 < n) (h : Heap n) (N D Q R : Nat) :
    Sat (Alias.divide cfg h N D Q R) fun h' => ∀ p, p ≠ Q → p ≠ R → h' p = h p := by
  have h0 : ∀ p, p ≠ Q → p ≠ R → ((h.put Q (zero n)).put R (zero n)) p = h p := fun p hQ hR => by
    rw [hput_ne _ _ hR, hput_ne _ _ hQ]
  obtain ⟨o, ho, -⟩ := ofUnsigned32_one hn
  simp only [Alias.divide, compareTo_spec, ok_bind, ho]
  obtain ⟨k, hk, hk1, -, -⟩ := filledBlocksNumber_nat (((h.put Q (zero n)).put R (zero n)) N)
  split
  · simp only [hk, ok_bind]
    refine Sat.forDown (fun _ (H : Heap n) => ∀ p, p ≠ Q → p ≠ R → H p = h p) (Nat.zero_le _) h0 ?_ (fun _ H => H)
    rintro i H _ hi hp
    have hin : i < 32 * n := by omega
    obtain ⟨r1, hr1, -⟩ := shl_spec (x := H R) (show 1 < 32 * n by omega)
    simp only [hr1, ok_bind]
    simp only [getBit_spec cfg _ hin, ok_bind]
    obtain ⟨r2, hr2, -⟩ := setBit_sat cfg ((H.put R r1) R)
      ((toNat ((H.put R r1) N)).testBit i) (show 0 < 32 * n by omega)
    simp only [hr2, ok_bind, ge_spec]
    split
    · simp only [Alias.subAssign_eq]
      generalize (((H.put R r1).put R r2) R) = A
      generalize (((H.put R r1).put R r2) D) = B
      obtain ⟨r3, hr3, -⟩ := sub_int A B
      simp only [hr3, ok_bind]
      obtain ⟨q, hq, -⟩ := setBit_sat cfg ((((H.put R r1).put R r2).put R r3) Q) true hin
      simp only [hq, ok_bind, sat_ok]
      intro p hQ hR
      rw [hput_ne _ _ hQ, hput_ne _ _ hR, hput_ne _ _ hR, hput_ne _ _ hR, hp p hQ hR]
    · refine Sat.ok fun p hQ hR => ?_
      rw [hput_ne _ _ hR, hput_ne _ _ hR, hp p hQ hR]
  · refine Sat.ok fun p hQ hR => ?_
    rw [hput_ne _ _ hR, h0 p hQ hR]
  · refine Sat.ok fun p hQ hR => ?_
    rw [hput_ne _ _ hQ, h0 p hQ hR]

/-- One object for both outputs: for 100 = 14 * 7 + 2 it ends as 63. -/
example : (Alias.divide lp64 (fun p => ofNat 2 p) 100 7 1 1).map (fun h => toNat (h 1)) = .ok 63 := by decide +kernel

end AesiMP
