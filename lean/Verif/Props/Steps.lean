import Verif.Lemmas.NumTheory
import Verif.Lemmas.Count
import Mathlib.Data.Nat.Fib.Basic
import Mathlib.Data.Nat.Log
import Mathlib.Tactic.NormNum.NatFib

/-!
# C79: how long the data dependent loops run

`gcdIn`, `gcdExtIn` and `squareRootIn` are the functions with a bound on the number of executions of
their loop; a run that needs more ends in the outcome `diverges`.
-/

namespace AesiMP
open Aeu
namespace Aeu
variable {n : Nat}

section
variable {σ ρ : Type}

/-- Loop rule that counts: `Inv k s` says that at most `k` iterations go on from `s`. -/
theorem whileC_count (Inv : Nat → σ → Prop) {body : σ → Exec (Ctl σ ρ)}
    (hstep : ∀ k s, Inv k s → (∃ s' k', body s = .ok (.next s') ∧ k = k' + 1 ∧ Inv k' s') ∨
      (∃ r, body s = .ok (.leave r))) :
    ∀ (k : Nat) (s : σ), Inv k s → ∃ r, whileC (k + 1) s body = .ok r := by
  intro k
  induction k with
  | zero =>
    intro s hs
    rcases hstep 0 s hs with ⟨s', k', _, hk, _⟩ | ⟨r, hr⟩
    · omega
    · exact ⟨r, by simp [whileC, hr]⟩
  | succ k ih =>
    intro s hs
    rcases hstep (k + 1) s hs with ⟨s', k', hb, hk, hi⟩ | ⟨r, hr⟩
    · obtain rfl : k' = k := by omega
      obtain ⟨r, hr⟩ := ih s' hi
      exact ⟨r, by rw [whileC, hb]; exact hr⟩
    · exact ⟨r, by simp [whileC, hr]⟩
end

/-- At most `k` divisions are left in Euclid's algorithm at the pair `(g, r)`. -/
def EuclidLeft (k g r : Nat) : Prop :=
  (r < g ∧ (r < Nat.fib (k + 1) ∨ g < Nat.fib (k + 2))) ∨ (g = 0 ∧ (r = 0 ∨ 1 ≤ k))

theorem euclidLeft_step {k g r : Nat} (h : EuclidLeft k g r) (hr : r ≠ 0) :
    ∃ k', k = k' + 1 ∧ EuclidLeft k' r (g % r) := by
  rcases h with ⟨hlt, h⟩ | ⟨hg, h⟩
  · have hmod : g % r < r := Nat.mod_lt _ (by omega)
    cases k with
    | zero =>
      exfalso
      simp only [Nat.zero_add, Nat.fib_one, Nat.fib_two] at h
      omega
    | succ k =>
      refine ⟨k, rfl, Or.inl ⟨hmod, ?_⟩⟩
      by_cases h1 : r < Nat.fib (k + 2)
      · exact Or.inr h1
      · left
        have h2 : g < Nat.fib (k + 3) := by
          rcases h with h | h
          · exact absurd h h1
          · exact h
        have h3 : Nat.fib (k + 3) = Nat.fib (k + 1) + Nat.fib (k + 2) := Nat.fib_add_two
        have h4 : g % r ≤ g - r := by
          rw [Nat.mod_eq_sub_mod (by omega)]; exact Nat.mod_le _ _
        omega
  · refine ⟨k - 1, by omega, Or.inl ⟨?_, Or.inl ?_⟩⟩
    · rw [hg, Nat.zero_mod]; omega
    · rw [hg, Nat.zero_mod]; exact Nat.fib_pos.mpr (by omega)

theorem fib_large (n : Nat) : 2 ^ (32 * n) ≤ Nat.fib (47 * n + 2) := by
  induction n with
  | zero => simp
  | succ n ih =>
    have h := Nat.fib_add (47 * n + 2) 46
    have h46 : Nat.fib 46 = 1836311903 := by norm_num
    have h47 : Nat.fib 47 = 2971215073 := by norm_num
    have hle : Nat.fib (47 * n + 2) ≤ Nat.fib (47 * n + 2 + 1) := Nat.fib_le_fib_succ
    rw [show 46 + 1 = 47 from rfl, h46, h47] at h
    have e : 47 * (n + 1) + 2 = 47 * n + 2 + 46 + 1 := by ring
    have e2 : 2 ^ (32 * (n + 1)) = 2 ^ (32 * n) * 4294967296 := by
      rw [show 32 * (n + 1) = 32 * n + 32 by ring, Nat.pow_add]
    rw [e, h, e2]
    generalize Nat.fib (47 * n + 2) = u at *
    generalize Nat.fib (47 * n + 2 + 1) = v at *
    generalize 2 ^ (32 * n) = w at *
    omega

theorem euclidLeft_init (x y : Aeu n) (hn : 0 < n) :
    EuclidLeft (47 * n) (toNat y) (toNat x % toNat y) := by
  have hb := fib_large n
  have hy := toNat_lt y
  by_cases h0 : toNat y = 0
  · exact Or.inr ⟨h0, Or.inr (by omega)⟩
  · exact Or.inl ⟨Nat.mod_lt _ (by omega), Or.inr (by omega)⟩

theorem gcdIn_ok (cfg : Cfg) (hn : 0 < n) (x y : Aeu n) : ∃ r, gcdIn cfg (47 * n + 1) x y = .ok r := by
  unfold gcdIn
  rw [compareTo_spec]
  simp only [ok_bind]
  have key : ∀ g r : Aeu n, EuclidLeft (47 * n) (toNat g) (toNat r) →
      ∃ v, whileC (47 * n + 1) (g, r) (fun (gcd, remainder) => do
          let z ← eqNarrow remainder (0#32)
          if z then .ok (.leave gcd) else do
            let tGcd := gcd
            let gcd := remainder
            let qr ← divide cfg tGcd gcd
            .ok (.next (gcd, qr.2))) = .ok v := by
    intro g r h
    refine whileC_count (fun k (s : Aeu n × Aeu n) => EuclidLeft k (toNat s.1) (toNat s.2)) ?_ _ _ h
    rintro k ⟨g, r⟩ h
    simp only at h ⊢
    rw [eqNarrow_spec hn (by norm_num)]
    simp only [ok_bind]
    by_cases h0 : toNat r = 0
    · right; exact ⟨g, by simp [h0]⟩
    · left
      obtain ⟨k', hk, hi⟩ := euclidLeft_step h h0
      obtain ⟨qr, hqr, _, h2⟩ := divide_spec cfg hn g r h0
      refine ⟨(r, qr.2), k', ?_, hk, ?_⟩
      · have hb : (decide (toNat r = (0#32).toNat)) = false := by simp [h0]
        rw [hb]; simp [hqr]
      · simp only [h2]; exact hi
  by_cases hgt : cmpNat (toNat x) (toNat y) = .greater
  · simp only [hgt, if_true]
    obtain ⟨qr, hqr, e, _⟩ := divide_total cfg hn x y
    simp only [hqr, ok_bind]
    exact key y qr.2 (by rw [e]; exact euclidLeft_init x y hn)
  · simp only [hgt, if_false]
    obtain ⟨qr, hqr, e, _⟩ := divide_total cfg hn y x
    simp only [hqr, ok_bind]
    exact key x qr.2 (by rw [e]; exact euclidLeft_init y x hn)

theorem gcdIn_mono (cfg : Cfg) {j k : Nat} (hjk : j ≤ k) (x y r : Aeu n)
    (h : gcdIn cfg j x y = .ok r) : gcdIn cfg k x y = .ok r := by
  unfold gcdIn at h ⊢
  cases hc : compareTo cfg x y with
  | error e => rw [hc] at h; simp at h
  | ok c =>
    rw [hc] at h
    simp only [ok_bind] at h ⊢
    split at h <;> rename_i hg
    · simp only [hg, if_true] at h ⊢
      cases hd : divide cfg x y with
      | error e => rw [hd] at h; simp at h
      | ok qr => rw [hd] at h; simp only [ok_bind] at h ⊢; exact whileC_mono _ _ _ h _ hjk
    · simp only [hg, if_false] at h ⊢
      cases hd : divide cfg y x with
      | error e => rw [hd] at h; simp at h
      | ok qr => rw [hd] at h; simp only [ok_bind] at h ⊢; exact whileC_mono _ _ _ h _ hjk

theorem linear_le_pow (n : Nat) : 47 * n + 1 ≤ 2 ^ (32 * n) + 1 := by
  have h : ∀ k, k < 2 ^ k := fun k => Nat.lt_two_pow_self
  rcases Nat.eq_zero_or_pos n with rfl | hn
  · simp
  · have h2 : 2 ^ (32 * n) = 2 ^ n * 2 ^ (31 * n) := by rw [← Nat.pow_add]; congr 1; ring
    have h3 : 47 ≤ 2 ^ (31 * n) :=
      le_trans (show 47 ≤ 2 ^ 31 by norm_num) (Nat.pow_le_pow_right (by norm_num) (by omega))
    have h4 := h n
    rw [h2]
    nlinarith [Nat.mul_le_mul h4.le h3]

theorem gcdExtIn_ok (cfg : Cfg) (hn : 0 < n) (x y : Aeu n) :
    ∃ r, gcdExtIn cfg (47 * n + 1) x y = .ok r := by
  unfold gcdExtIn
  rw [compareTo_spec]
  obtain ⟨z, hz, ez⟩ := ofUnsigned32_zero (n := n)
  obtain ⟨o, ho, eo⟩ := ofUnsigned32_one hn
  simp only [ok_bind, hz, ho]
  have key : ∀ g q r bx bY tx ty : Aeu n, EuclidLeft (47 * n) (toNat g) (toNat r) →
      ∃ v, whileC (47 * n + 1) (g, q, r, bx, bY, tx, ty)
        (fun (gcd, quotient, remainder, bezoutX, bezoutY, tX, tY) => do
          let z ← eqNarrow remainder (0#32)
          if z then .ok (.leave (gcd, bezoutX, bezoutY)) else do
            let tGcd := gcd
            let gcd := remainder
            let t := bezoutX
            let p ← mul quotient bezoutX
            let bezoutX ← sub tX p
            let tX := t
            let t := bezoutY
            let p ← mul quotient bezoutY
            let bezoutY ← sub tY p
            let tY := t
            let qr ← divide cfg tGcd gcd
            .ok (.next (gcd, qr.1, qr.2, bezoutX, bezoutY, tX, tY))) = .ok v := by
    intro g q r bx bY tx ty h
    refine whileC_count (fun k (s : Aeu n × Aeu n × Aeu n × Aeu n × Aeu n × Aeu n × Aeu n) =>
      EuclidLeft k (toNat s.1) (toNat s.2.2.1)) ?_ _ _ h
    rintro k ⟨g, q, r, bx, bY, tx, ty⟩ h
    simp only at h ⊢
    rw [eqNarrow_spec hn (by norm_num)]
    simp only [ok_bind]
    by_cases h0 : toNat r = 0
    · right; exact ⟨(g, bx, bY), by simp [h0]⟩
    · left
      obtain ⟨k', hk, hi⟩ := euclidLeft_step h h0
      obtain ⟨p1, hp1, _⟩ := mul_int q bx
      obtain ⟨b1, hb1, _⟩ := sub_int tx p1
      obtain ⟨p2, hp2, _⟩ := mul_int q bY
      obtain ⟨b2, hb2, _⟩ := sub_int ty p2
      obtain ⟨qr, hqr, _, h2⟩ := divide_spec cfg hn g r h0
      refine ⟨(r, qr.1, qr.2, b1, b2, bx, bY), k', ?_, hk, ?_⟩
      · have hb : (decide (toNat r = (0#32).toNat)) = false := by simp [h0]
        rw [hb]; simp [hqr, hp1, hb1, hp2, hb2]
      · simp only [h2]; exact hi
  by_cases hgt : cmpNat (toNat x) (toNat y) = .greater
  · simp only [hgt, if_true, ne_eq, not_true_eq_false, if_false]
    obtain ⟨qr, hqr, e, _⟩ := divide_total cfg hn x y
    simp only [hqr, ok_bind]
    obtain ⟨v, hv⟩ := key y qr.1 qr.2 z o o z (by rw [e]; exact euclidLeft_init x y hn)
    rw [hv]
    exact ⟨_, rfl⟩
  · simp only [hgt, if_false, ne_eq, not_false_eq_true, if_true]
    obtain ⟨qr, hqr, e, _⟩ := divide_total cfg hn y x
    simp only [hqr, ok_bind]
    obtain ⟨v, hv⟩ := key x qr.1 qr.2 z o o z (by rw [e]; exact euclidLeft_init y x hn)
    rw [hv]
    exact ⟨_, rfl⟩

theorem whileC_le {σ ρ : Type} {body : σ → Exec (Ctl σ ρ)} {j k : Nat} (hjk : j ≤ k) {s : σ} {α : Type}
    {f : ρ → Exec α} {v : α} (h : (whileC j s body >>= f) = .ok v) : (whileC k s body >>= f) = .ok v := by
  cases hw : whileC j s body with
  | error e => rw [hw] at h; simp at h
  | ok r => rw [hw] at h; rw [whileC_mono _ _ _ hw _ hjk]; exact h

theorem gcdExtIn_mono (cfg : Cfg) (hn : 0 < n) {j k : Nat} (hjk : j ≤ k) (x y : Aeu n)
    (r : Aeu n × Aeu n × Aeu n) (h : gcdExtIn cfg j x y = .ok r) : gcdExtIn cfg k x y = .ok r := by
  obtain ⟨z, hz, _⟩ := ofUnsigned32_zero (n := n)
  obtain ⟨o, ho, _⟩ := ofUnsigned32_one hn
  unfold gcdExtIn at h ⊢
  rw [compareTo_spec] at h ⊢
  simp only [ok_bind, hz, ho] at h ⊢
  by_cases hgt : cmpNat (toNat x) (toNat y) = .greater
  · simp only [hgt, if_true] at h ⊢
    obtain ⟨qr, hqr, e, _⟩ := divide_total cfg hn x y
    simp only [hqr, ok_bind] at h ⊢
    exact whileC_le hjk h
  · simp only [hgt, if_false] at h ⊢
    obtain ⟨qr, hqr, e, _⟩ := divide_total cfg hn y x
    simp only [hqr, ok_bind] at h ⊢
    exact whileC_le hjk h

/-! ### Newton's iteration -/

/-- One step never more than halves the distance to the root, rounded down. -/
theorem newton_half {a x : Nat} (hx : Nat.sqrt a < x) :
    2 * ((x + a / x) / 2 - Nat.sqrt a) ≤ x - Nat.sqrt a := by
  have h1 : a < (Nat.sqrt a + 1) * (Nat.sqrt a + 1) := Nat.lt_succ_sqrt a
  have h2 : a / x ≤ Nat.sqrt a := by
    have : a / x < Nat.sqrt a + 1 := by
      rw [Nat.div_lt_iff_lt_mul (by omega)]
      exact lt_of_lt_of_le h1 (Nat.mul_le_mul_left _ hx)
    omega
  omega

/-- The quadratic bound. -/
theorem newton_square {a x : Nat} (hx : Nat.sqrt a < x) :
    2 * x * ((x + a / x) / 2 - Nat.sqrt a) ≤ (x - Nat.sqrt a) ^ 2 + 2 * Nat.sqrt a := by
  set s := Nat.sqrt a with hs
  have h1 : a < (s + 1) * (s + 1) := Nat.lt_succ_sqrt a
  have h3 : a / x * x ≤ a := Nat.div_mul_le_self a x
  set q := a / x
  have h4 : 2 * ((x + q) / 2) ≤ x + q := Nat.mul_div_le _ _
  obtain ⟨d, rfl⟩ := Nat.exists_eq_add_of_lt hx
  set y := (s + d + 1 + q) / 2
  rcases Nat.le_total y s with h | h
  · rw [Nat.sub_eq_zero_of_le h]; simp
  · obtain ⟨e, he⟩ := Nat.exists_eq_add_of_le h
    rw [he, show s + e - s = e by omega, show s + d + 1 - s = d + 1 by omega]
    rw [he] at h4
    have h5 : (2 * (s + e)) * (s + d + 1) ≤ (s + d + 1 + q) * (s + d + 1) := Nat.mul_le_mul_right _ h4
    nlinarith

/-- At most `k` more iterations of `squareRoot` change the estimate `y`; `s` is the root and `T` with
`s < 2 ^ (2 ^ T - 1)` is fixed. -/
def NewtonLeft (T s k y : Nat) : Prop :=
  s ≤ y ∧ (y ≤ s ∨ (1 ≤ k ∧ y ≤ s + 1) ∨ (2 ≤ k ∧ y ≤ s + 3) ∨
    (∃ j, 2 ≤ j ∧ j ≤ T ∧ 3 ≤ s ∧ T + 2 ≤ k + j ∧ 2 ^ (2 ^ j - 1) * (y - s - 2) ≤ s) ∨
    (T + 1 ≤ k ∧ 2 * (y - s) ≤ s) ∨ (T + 2 ≤ k ∧ y ≤ 2 * s))

theorem newton_quad {s d e E : Nat} (hs : 3 ≤ s) (hE : 8 ≤ E) (hd : E * (d - 2) ≤ s)
    (he : 2 * s * e ≤ d ^ 2 + 2 * s) : 2 * (E * E) * (e - 2) ≤ s := by
  rcases Nat.lt_or_ge e 2 with h | h
  · rw [Nat.sub_eq_zero_of_le (by omega)]; simp
  · obtain ⟨f, rfl⟩ := Nat.exists_eq_add_of_le h
    rw [show 2 + f - 2 = f by omega]
    have hd2 : 2 ≤ d := by
      by_contra hlt
      have : d ^ 2 ≤ 1 := by
        have : d ≤ 1 := by omega
        nlinarith
      nlinarith
    obtain ⟨x, rfl⟩ := Nat.exists_eq_add_of_le hd2
    rw [show 2 + x - 2 = x by omega] at hd
    have hx : 8 * x ≤ s := le_trans (Nat.mul_le_mul_right _ hE) hd
    have h1 : 2 * s * f ≤ x ^ 2 := by nlinarith
    have h2 : E * x * (E * x) ≤ s * s := Nat.mul_le_mul hd hd
    have h3 : s * (2 * (E * E) * f) ≤ s * s := by
      calc s * (2 * (E * E) * f) = E * E * (2 * s * f) := by ring
        _ ≤ E * E * x ^ 2 := Nat.mul_le_mul_left _ h1
        _ = E * x * (E * x) := by ring
        _ ≤ s * s := h2
    exact Nat.le_of_mul_le_mul_left h3 (by omega)

theorem newtonLeft_step {a T k y : Nat} (hT : 2 ≤ T) (hb : Nat.sqrt a < 2 ^ (2 ^ T - 1))
    (h : NewtonLeft T (Nat.sqrt a) k y) (hy : Nat.sqrt a < y) :
    ∃ k', k = k' + 1 ∧ NewtonLeft T (Nat.sqrt a) k' ((y + a / y) / 2) := by
  have hlow : Nat.sqrt a ≤ (y + a / y) / 2 := by
    have := newton_lower (Nat.sqrt_le a) (show 0 < y by omega)
    omega
  have hhalf := newton_half hy
  have hsq := newton_square hy
  set s := Nat.sqrt a with hs
  set z := (y + a / y) / 2 with hz
  obtain ⟨_, h⟩ := h
  rcases h with h | ⟨hk, h⟩ | ⟨hk, h⟩ | ⟨j, hj, hjT, hs3, hk, h⟩ | ⟨hk, h⟩ | ⟨hk, h⟩
  · omega
  · exact ⟨k - 1, by omega, hlow, Or.inl (by omega)⟩
  · exact ⟨k - 1, by omega, hlow, Or.inr (Or.inl ⟨by omega, by omega⟩)⟩
  · rcases Nat.lt_or_ge j T with hlt | hge
    · refine ⟨k - 1, by omega, hlow, Or.inr (Or.inr (Or.inr (Or.inl
        ⟨j + 1, by omega, by omega, hs3, by omega, ?_⟩)))⟩
      have hE : 8 ≤ 2 ^ (2 ^ j - 1) := by
        calc 8 = 2 ^ 3 := by norm_num
          _ ≤ 2 ^ (2 ^ j - 1) := Nat.pow_le_pow_right (by norm_num) (by
            have : 2 ^ 2 ≤ 2 ^ j := Nat.pow_le_pow_right (by norm_num) hj
            omega)
      have hpos : 1 ≤ 2 ^ j := Nat.one_le_two_pow
      have e : 2 ^ (2 ^ (j + 1) - 1) = 2 * (2 ^ (2 ^ j - 1) * 2 ^ (2 ^ j - 1)) := by
        rw [← Nat.pow_add, ← Nat.pow_succ']
        congr 1
        rw [Nat.pow_succ]; omega
      rw [e]
      refine newton_quad hs3 hE h (le_trans ?_ hsq)
      exact Nat.mul_le_mul_right _ (by omega)
    · obtain rfl : j = T := by omega
      have h0 : y - s - 2 = 0 := by
        by_contra hne
        have : 2 ^ (2 ^ j - 1) * 1 ≤ 2 ^ (2 ^ j - 1) * (y - s - 2) := Nat.mul_le_mul_left _ (by omega)
        omega
      exact ⟨k - 1, by omega, hlow, Or.inr (Or.inl ⟨by omega, by omega⟩)⟩
  · rcases Nat.lt_or_ge s 3 with h3 | h3
    · exact ⟨k - 1, by omega, hlow, Or.inl (by omega)⟩
    · refine ⟨k - 1, by omega, hlow, Or.inr (Or.inr (Or.inr (Or.inl
        ⟨2, le_refl _, hT, h3, by omega, ?_⟩)))⟩
      have h5 : 2 * s * (z - s) ≤ (y - s) ^ 2 + 2 * s :=
        le_trans (Nat.mul_le_mul_right _ (by omega)) hsq
      have h6 : (2 * (y - s)) * (2 * (y - s)) ≤ s * s := Nat.mul_le_mul h h
      have h7 : s * (8 * (z - s)) ≤ s * (s + 8) := by nlinarith
      have h8 := Nat.le_of_mul_le_mul_left h7 (by omega)
      norm_num
      omega
  · exact ⟨k - 1, by omega, hlow, Or.inr (Or.inr (Or.inr (Or.inr (Or.inl ⟨by omega, by omega⟩))))⟩

theorem squareRootIn_ok (cfg : Cfg) (hn : 0 < n) (x : Aeu n) :
    ∃ r, squareRootIn cfg (Nat.clog 2 (16 * n + 1) + 3) x = .ok r := by
  unfold squareRootIn
  obtain ⟨bc, hbc', hb1, hb2⟩ := bitCount_spec hn x
  simp only [hbc', ok_bind]
  set a := toNat x with ha
  have haW : a < 2 ^ (32 * n) := toNat_lt x
  have hbc : bc ≤ 32 * n := by
    by_contra h
    have h1 := hb2 (by omega)
    have h2 : 2 ^ (32 * n) ≤ 2 ^ (bc - 1) := Nat.pow_le_pow_right (by norm_num) (by omega)
    omega
  set H := 2 ^ (16 * n) with hH
  have hW : 2 ^ (32 * n) = H * H := by rw [hH, ← Nat.pow_add]; congr 1; ring
  have hH2 : 65536 ≤ H := by
    calc 65536 = 2 ^ 16 := by norm_num
      _ ≤ 2 ^ (16 * n) := Nat.pow_le_pow_right (by norm_num) (by omega)
  obtain ⟨y, hy, ey⟩ := power2_spec cfg (n := n) (show (bc + 1) / 2 < 32 * n by omega)
  rw [hy]
  simp only [ok_bind]
  have hyH : toNat y ≤ H := by
    rw [ey]; exact Nat.pow_le_pow_right (by norm_num) (by omega)
  have hya : Nat.sqrt a ≤ toNat y := by
    have h1 : a < toNat y * toNat y := by
      rw [ey, ← Nat.pow_add]
      exact Nat.lt_of_lt_of_le hb1 (Nat.pow_le_pow_right (by norm_num) (by omega))
    exact Nat.le_of_lt (Nat.sqrt_lt.mpr h1)
  have hsH : Nat.sqrt a < H := Nat.sqrt_lt.mpr (by rw [← hW]; exact haW)
  set T := Nat.clog 2 (16 * n + 1) with hTdef
  have hT1 : 16 * n + 1 ≤ 2 ^ T := Nat.le_pow_clog (by norm_num) _
  have hT2 : 2 ≤ T := by
    by_contra h
    have : 2 ^ T ≤ 2 ^ 1 := Nat.pow_le_pow_right (by norm_num) (by omega)
    omega
  have hsT : Nat.sqrt a < 2 ^ (2 ^ T - 1) :=
    lt_of_lt_of_le hsH (Nat.pow_le_pow_right (by norm_num) (by omega))
  have hinit : NewtonLeft T (Nat.sqrt a) (T + 2) (toNat y) := by
    refine ⟨hya, ?_⟩
    rcases Nat.eq_zero_or_pos bc with h0 | h0
    · right; left
      refine ⟨by omega, ?_⟩
      rw [ey, h0]; simp
    · right; right; right; right; right
      refine ⟨le_refl _, ?_⟩
      have h1 := hb2 h0
      have h2 : 2 ^ ((bc + 1) / 2 - 1) ≤ Nat.sqrt a := by
        rw [Nat.le_sqrt, ← Nat.pow_add]
        exact le_trans (Nat.pow_le_pow_right (by norm_num) (by omega)) h1
      rw [ey]
      have h3 : (bc + 1) / 2 = (bc + 1) / 2 - 1 + 1 := by omega
      rw [h3, Nat.pow_succ]
      omega
  refine whileC_count (fun k (y : Aeu n) => toNat y ≤ H ∧ NewtonLeft T (Nat.sqrt a) k (toNat y)) ?_ (T + 2) y
    ⟨hyH, hinit⟩
  clear hinit hya hyH ey hy y
  rintro k y ⟨h2, hk⟩
  have h1 := hk.1
  by_cases hy0 : toNat y = 0
  · have ha0 : a = 0 := by
      have := Nat.lt_succ_sqrt a
      have hs0 : Nat.sqrt a = 0 := by omega
      rw [hs0] at this; simpa using this
    obtain ⟨qr, hqr, e1, _⟩ := divide_zero_zero cfg hn x y hy0 (by rw [← ha]; exact ha0)
    obtain ⟨s, hs, es⟩ := add_spec y qr.1
    obtain ⟨z, hz, ez⟩ := shr_spec (x := s) (show 1 < 32 * n by omega)
    right
    exact ⟨y, by simp [div, hqr, hs, hz, lt_spec, hy0]⟩
  · obtain ⟨q, hq, eq⟩ := div_spec cfg hn x y hy0
    rw [← ha] at eq
    obtain ⟨s, hs, es⟩ := add_spec y q
    obtain ⟨z, hz, ez⟩ := shr_spec (x := s) (show 1 < 32 * n by omega)
    have hqle : a / toNat y ≤ H + 1 := by
      have hsq := Nat.lt_succ_sqrt a
      have h4 : a / toNat y < Nat.sqrt a + 3 := by
        rw [Nat.div_lt_iff_lt_mul (by omega)]
        calc a < (Nat.sqrt a + 1) * (Nat.sqrt a + 1) := hsq
          _ ≤ (Nat.sqrt a + 3) * toNat y := by
            rcases Nat.eq_zero_or_pos (Nat.sqrt a) with h0 | h0
            · rw [h0]; omega
            · have : (Nat.sqrt a + 3) * Nat.sqrt a ≤ (Nat.sqrt a + 3) * toNat y :=
                Nat.mul_le_mul_left _ h1
              nlinarith
      omega
    have hsum : toNat y + a / toNat y < 2 ^ (32 * n) := by
      rw [hW]; nlinarith
    rw [eq, Nat.mod_eq_of_lt hsum] at es
    rw [es, Nat.pow_one] at ez
    have hlow := newton_lower (a := a) (x := toNat y) (s := Nat.sqrt a) (Nat.sqrt_le a) (by omega)
    simp only [hq, hs, hz, ok_bind, lt_spec]
    by_cases hlt : toNat z < toNat y
    · left
      obtain ⟨k', hk', hi⟩ := newtonLeft_step hT2 hsT hk (by omega)
      refine ⟨z, k', by simp [hlt], hk', by omega, ?_⟩
      rw [ez]; exact hi
    · right
      exact ⟨y, by simp [hlt]⟩

theorem squareRootIn_mono (cfg : Cfg) {j k : Nat} (hjk : j ≤ k) (x r : Aeu n)
    (h : squareRootIn cfg j x = .ok r) : squareRootIn cfg k x = .ok r := by
  unfold squareRootIn at h ⊢
  cases hc : bitCount x with
  | error e => rw [hc] at h; simp at h
  | ok c =>
    rw [hc] at h
    simp only [ok_bind] at h ⊢
    cases hp : power2 cfg n ((c + 1) / 2) with
    | error e => rw [hp] at h; simp at h
    | ok y => rw [hp] at h; simp only [ok_bind] at h ⊢; exact whileC_mono _ _ _ h _ hjk

theorem clog_le_pow (n : Nat) (hn : 0 < n) : Nat.clog 2 (16 * n + 1) + 3 ≤ 2 ^ (32 * n) + 1 := by
  have h1 : Nat.clog 2 (16 * n + 1) ≤ 16 * n + 1 := by
    rw [Nat.clog_le_iff_le_pow (by norm_num)]
    exact Nat.lt_two_pow_self.le
  have h2 := linear_le_pow n
  omega

end Aeu

open Aeu
variable {n : Nat}

/-- C79, gcd: the loop condition of `gcd` is tested at most `47 n + 1` times (so there are at most `47 n`
further divisions after the first): a run limited to that many tests already gives the result, and the
result is the greatest common divisor. -/
theorem C79_gcd (cfg : Cfg) (hn : 0 < n) (a b : Aeu n) (tests : Nat) (h : 47 * n + 1 ≤ tests) :
    gcdIn cfg tests a b = gcd cfg a b ∧ Returns (gcdIn cfg tests a b) (Nat.gcd (toNat a) (toNat b)) := by
  obtain ⟨r, hr⟩ := gcdIn_ok cfg hn a b
  have h1 : gcd cfg a b = .ok r := gcdIn_mono cfg (linear_le_pow n) a b r hr
  have h2 := gcdIn_mono cfg h a b r hr
  have h3 := gcd_spec cfg hn a b
  rw [h1] at h3
  exact ⟨by rw [h1, h2], by rw [h2]; exact h3⟩

/-- C79, extended gcd. -/
theorem C79_gcdExt (cfg : Cfg) (hn : 0 < n) (a b : Aeu n) (tests : Nat) (h : 47 * n + 1 ≤ tests) :
    ∃ r, gcdExtIn cfg tests a b = .ok r ∧ gcdExt cfg a b = .ok r := by
  obtain ⟨r, hr⟩ := gcdExtIn_ok cfg hn a b
  exact ⟨r, gcdExtIn_mono cfg hn h a b r hr, gcdExtIn_mono cfg hn (linear_le_pow n) a b r hr⟩

/-- C79, squareRoot: the loop body runs at most `⌈log2 (16 n + 1)⌉ + 3` times. -/
theorem C79_squareRoot (cfg : Cfg) (hn : 0 < n) (a : Aeu n) (rounds : Nat)
    (h : Nat.clog 2 (16 * n + 1) + 3 ≤ rounds) :
    squareRootIn cfg rounds a = squareRoot cfg a ∧
    Returns (squareRootIn cfg rounds a) (Nat.sqrt (toNat a)) := by
  obtain ⟨r, hr⟩ := squareRootIn_ok cfg hn a
  have h1 : squareRoot cfg a = .ok r := squareRootIn_mono cfg (clog_le_pow n hn) a r hr
  have h2 := squareRootIn_mono cfg h a r hr
  have h3 := squareRoot_spec cfg hn a
  rw [h1] at h3
  exact ⟨by rw [h1, h2], by rw [h2]; exact h3⟩

/-- The bounds at 512 bits: 753 tests, 12 rounds. -/
example : 47 * 16 + 1 = 753 ∧ Nat.clog 2 (16 * 16 + 1) + 3 = 12 := by decide +kernel

/-- A limit that is too small is noticed, and the bounds are close to the truth: of the 48 tests allowed
for one block, the largest Fibonacci numbers of 32 bits need 45; of the 9 rounds allowed for two blocks,
the root of `2^62 + 5` needs 6. -/
example : gcdIn ⟨false, false, false⟩ 45 (ofNat 1 2971215073) (ofNat 1 1836311903) = .ok (ofNat 1 1) ∧
    gcdIn ⟨false, false, false⟩ 44 (ofNat 1 2971215073) (ofNat 1 1836311903) = .error .diverges := by
  decide +kernel
example : squareRootIn ⟨false, false, false⟩ 6 (ofNat 2 (2 ^ 62 + 5)) = .ok (ofNat 2 (2 ^ 31)) ∧
    squareRootIn ⟨false, false, false⟩ 5 (ofNat 2 (2 ^ 62 + 5)) = .error .diverges ∧
    Nat.clog 2 (16 * 2 + 1) + 3 = 9 := by
  decide +kernel

end AesiMP
