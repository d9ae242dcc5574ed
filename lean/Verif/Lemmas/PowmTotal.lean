import Verif.Lemmas.NumTheory

/-!
# `powm` for every modulus
-/

namespace AesiMP

namespace Aeu
variable {n m : Nat}

theorem powm_loop_total (cfg : Cfg) (hn : 0 < n) (e : Aeu m) (md : Aeu n) (K : Nat)
    (hK : filledBlocksNumber e = .ok K) (hKm : K ≤ m)
    (o b : Aeu n) {ι : Type} (iter : ι → Nat) (next : ι → ι) (i0 : ι) (hi0 : iter i0 = 0)
    (hnext : ∀ i, iter i < 32 * K → iter (next i) = iter i + 1) :
    Sat (whileC (32 * m + 1) (i0, o, b) fun (iteration, output, b) => do
      let f ← filledBlocksNumber e
      if f * 32 = iter iteration then .ok (.leave output) else do
        let bit ← getBit cfg e (iter iteration)
        let output ← if bit then do
            let p ← mul output b
            let qr ← divide cfg p md
            .ok qr.2
          else .ok output
        let p ← mul b b
        let qr ← divide cfg p md
        .ok (.next (next iteration, output, qr.2)))
      fun r => toNat r = sqMul (2 ^ (32 * n)) (toNat md) (toNat e) (32 * K) 0 (toNat o) (toNat b) := by
  generalize hR : sqMul (2 ^ (32 * n)) (toNat md) (toNat e) (32 * K) 0 (toNat o) (toNat b) = R
  refine Sat.whileC (fun (s : ι × Aeu n × Aeu n) => iter s.1 ≤ 32 * K ∧
      sqMul (2 ^ (32 * n)) (toNat md) (toNat e) (32 * K - iter s.1) (iter s.1) (toNat s.2.1)
        (toNat s.2.2) = R)
    (fun s => 32 * K - iter s.1) ?_ (by simp only; omega) ?_
  · simp only [hi0]
    exact ⟨by omega, hR⟩
  · rintro ⟨i, o, b⟩ ⟨h1, h2⟩
    simp only at h1 h2 ⊢
    rw [hK]
    simp only [ok_bind]
    by_cases hend : K * 32 = iter i
    · simp only [hend, if_true, sat_ok, ctlP_leave]
      rw [← hend, show 32 * K - K * 32 = 0 by omega] at h2
      exact h2
    · simp only [hend, if_false]
      have hlt : iter i < 32 * K := by omega
      rw [getBit_spec cfg e (by omega)]
      simp only [ok_bind]
      rw [show 32 * K - iter i = (32 * K - (iter i + 1)) + 1 by omega, sqMul] at h2
      have step : ∀ o' : Aeu n, toNat o' =
          (if (toNat e).testBit (iter i) then toNat o * toNat b % 2 ^ (32 * n) % toNat md else toNat o) →
          Sat (do
            let p ← mul b b
            let qr ← divide cfg p md
            (.ok (.next (next i, o', qr.2)) : Exec (Ctl (ι × Aeu n × Aeu n) (Aeu n))))
            (CtlP (fun s' => (iter s'.1 ≤ 32 * K ∧
              sqMul (2 ^ (32 * n)) (toNat md) (toNat e) (32 * K - iter s'.1) (iter s'.1)
                (toNat s'.2.1) (toNat s'.2.2) = R) ∧ 32 * K - iter s'.1 < 32 * K - iter i)
              fun r => toNat r = R) := by
        intro o' ho'
        refine Sat.bind (mul_spec b b) fun p hp => ?_
        refine Sat.bind (divide_total cfg hn p md) fun qr hqr => ?_
        simp only [sat_ok, ctlP_next, hnext i hlt]
        refine ⟨⟨by omega, ?_⟩, by omega⟩
        rw [ho', hqr.1, hp]; exact h2
      cases hbit : (toNat e).testBit (iter i)
      · simp only [Bool.false_eq_true, if_false]
        exact step o (by rw [hbit]; simp)
      · simp only [if_true]
        obtain ⟨p, hp, ep⟩ := mul_spec o b
        obtain ⟨qr, hqr, er, _⟩ := divide_total cfg hn p md
        simp only [hp, hqr, ok_bind]
        exact step qr.2 (by rw [hbit, er, ep]; simp)

theorem powm_total (cfg : Cfg) (hn : 0 < n) (x e md : Aeu n) : ∃ K, filledBlocksNumber e = .ok K ∧
    toNat e < 2 ^ (32 * K) ∧ Returns (powm cfg x e md)
      (sqMul (2 ^ (32 * n)) (toNat md) (toNat e) (32 * K) 0 1 (toNat x % toNat md)) := by
  obtain ⟨K, hK, hK1, hK2, _⟩ := filledBlocksNumber_nat e
  refine ⟨K, hK, hK2, ?_⟩
  unfold powm
  obtain ⟨o, ho, eo⟩ := ofUnsigned32_one hn
  obtain ⟨qb, hqb, eb, _⟩ := divide_total cfg hn x md
  simp only [ho, hqb, ok_bind]
  have h := powm_loop_total cfg hn e md K hK hK1 o qb.2 (fun i => i) (fun i => i + 1) 0 rfl
    (fun _ _ => rfl)
  rw [eo, eb] at h
  exact h

theorem powmT_total (cfg : Cfg) (hn : 0 < n) (x : Aeu n) (e : Aeu m) (md : Aeu n)
    (hm : 32 * m < 2 ^ 32) : ∃ K, filledBlocksNumber e = .ok K ∧
    toNat e < 2 ^ (32 * K) ∧ Returns (powmT cfg x e md)
      (if toNat x = 1 ∨ toNat x = 0 then 1 else
        sqMul (2 ^ (32 * n)) (toNat md) (toNat e) (32 * K) 0 1 (toNat x % toNat md)) := by
  obtain ⟨K, hK, hK1, hK2, _⟩ := filledBlocksNumber_nat e
  refine ⟨K, hK, hK2, ?_⟩
  unfold powmT
  rw [eqNarrow_spec hn (by norm_num), eqNarrow_spec hn (by norm_num)]
  obtain ⟨o, ho, eo⟩ := ofUnsigned32_one hn
  obtain ⟨qb, hqb, eb, _⟩ := divide_total cfg hn x md
  simp only [ho, hqb, ok_bind]
  by_cases h1 : toNat x = 1
  · simp [h1, Returns]
  by_cases h0 : toNat x = 0
  · simp [h0, Returns, eo]
  rw [show decide (toNat x = (1#32).toNat) = false by simp [h1]]
  simp only [h1, h0, or_self, BitVec.toNat_ofNat, Nat.zero_mod, decide_false, Bool.false_eq_true,
    if_false]
  have h := powm_loop_total cfg hn e md K hK hK1 o qb.2
    (fun (i : BitVec 32) => i.toNat) (fun i => i + 1#32) 0#32 rfl (by
      intro i hi
      rw [BitVec.toNat_add]
      apply Nat.mod_eq_of_lt
      simp; omega)
  rw [eo, eb] at h
  exact h

end Aeu

/-- Truncation does no harm when it is compatible with the modulus. -/
theorem sqMul_modEq {W M N : Nat} (h : ∀ y, y % W % M ≡ y [MOD N]) (e : Nat) :
    ∀ k i out b, sqMul W M e k i out b ≡ out * b ^ (e / 2 ^ i % 2 ^ k) [MOD N] := by
  intro k
  induction k with
  | zero => intro i out b; simp [sqMul, Nat.mod_one]; rfl
  | succ k ih =>
    intro i out b
    rw [sqMul]
    refine (ih _ _ _).trans ?_
    have hsplit : e / 2 ^ i % 2 ^ (k + 1) = (e.testBit i).toNat + 2 * (e / 2 ^ (i + 1) % 2 ^ k) := by
      rw [Nat.pow_succ, Nat.mul_comm, Nat.mod_mul, Nat.pow_succ, ← Nat.div_div_eq_div_mul]
      congr 1
      rw [Nat.testBit_eq_decide_div_mod_eq]
      rcases Nat.mod_two_eq_zero_or_one (e / 2 ^ i) with h | h <;> simp [h]
    rw [hsplit, Nat.pow_add b, Nat.pow_mul b, ← Nat.mul_assoc]
    refine Nat.ModEq.mul ?_ (Nat.ModEq.pow _ ?_)
    · cases e.testBit i
      · simp; rfl
      · simpa using h (out * b)
    · rw [Nat.pow_two]; exact h (b * b)

/-- The result is reduced unless nothing was multiplied. -/
theorem sqMul_lt {W M : Nat} (hM : 1 < M) (e : Nat) :
    ∀ k i out b, out < M → sqMul W M e k i out b < M := by
  intro k
  induction k with
  | zero => intro i out b h; exact h
  | succ k ih =>
    intro i out b h
    rw [sqMul]
    apply ih
    split
    · exact Nat.mod_lt _ (by omega)
    · exact h

end AesiMP
