import Verif.Lemmas.Div
import Mathlib.Data.Int.ModEq
import Mathlib.Data.Nat.GCD.Basic
import Mathlib.Tactic.LinearCombination

/-! # gcd, lcm, powm, squareRoot -/

namespace AesiMP
open Aeu
namespace Aeu
variable {n m : Nat}

theorem gcd_step (a b : Nat) : Nat.gcd b (a % b) = Nat.gcd a b := by
  rw [Nat.gcd_comm a b, Nat.gcd_rec b a, Nat.gcd_comm]

theorem gcd_spec (cfg : Cfg) (hn : 0 < n) (x y : Aeu n) :
    Returns (gcd cfg x y) (Nat.gcd (toNat x) (toNat y)) := by
  unfold gcd gcdIn
  rw [compareTo_spec]
  simp only [ok_bind]
  have hloop : ∀ (g : Aeu n) (d : Exec (Aeu n × Aeu n)) (v : Nat),
      Sat d (fun qr => Nat.gcd (toNat g) (toNat qr.2) = v) →
      Sat (do
        let qr ← d
        whileC (2 ^ (32 * n) + 1) (g, qr.2) fun (gcd, remainder) => do
          let z ← eqNarrow remainder (0#32)
          if z then .ok (.leave gcd) else do
            let tGcd := gcd
            let gcd := remainder
            let qr ← divide cfg tGcd gcd
            .ok (.next (gcd, qr.2))) (fun r => toNat r = v) := by
    intro g d v hd
    refine Sat.bind hd ?_
    rintro ⟨q, r⟩ hr
    simp only at hr
    refine Sat.whileC (fun (s : Aeu n × Aeu n) => Nat.gcd (toNat s.1) (toNat s.2) = v)
      (fun s => toNat s.2) hr (by have := toNat_lt r; simp only; omega) ?_
    rintro ⟨g, r⟩ hg
    simp only at hg ⊢
    rw [eqNarrow_spec hn (by norm_num)]
    simp only [ok_bind]
    by_cases h0 : toNat r = 0
    · simp only [h0, Nat.gcd_zero_right] at hg
      simp [h0, hg]
    · have hb : (decide (toNat r = (0#32).toNat)) = false := by simp [h0]
      rw [hb]
      simp only [Bool.false_eq_true, if_false]
      refine Sat.bind (divide_spec cfg hn g r h0) ?_
      rintro qr ⟨_, h2⟩
      simp only [sat_ok, ctlP_next, h2]
      refine ⟨?_, Nat.mod_lt _ (by omega)⟩
      rw [← hg, gcd_step]
  by_cases hgt : cmpNat (toNat x) (toNat y) = .greater
  · simp only [hgt, if_true]
    apply hloop
    refine Sat.mono (divide_total cfg hn x y) ?_
    rintro qr ⟨h, _⟩
    rw [h, gcd_step]
  · simp only [hgt, if_false]
    apply hloop
    refine Sat.mono (divide_total cfg hn y x) ?_
    rintro qr ⟨h, _⟩
    rw [h, gcd_step, Nat.gcd_comm]

/-- lcm, in Lean's `a / g * b` form. -/
theorem lcm_spec (cfg : Cfg) (hn : 0 < n) (x y : Aeu n) :
    Returns (lcm cfg x y) (Nat.lcm (toNat x) (toNat y) % 2 ^ (32 * n)) := by
  unfold lcm
  obtain ⟨g, hg, eg⟩ := gcd_spec cfg hn x y
  simp only [hg, ok_bind, div]
  by_cases h0 : toNat g = 0
  · rw [h0] at eg
    obtain ⟨hx, hy⟩ := Nat.gcd_eq_zero_iff.mp eg.symm
    obtain ⟨qr, hqr, e1, e2⟩ := divide_zero_zero cfg hn x g h0 hx
    simp only [hqr, ok_bind]
    obtain ⟨r, hr, e⟩ := mul_spec qr.1 y
    refine ⟨r, hr, ?_⟩
    rw [e, hx, hy]; simp
  · obtain ⟨qr, hqr, e1, e2⟩ := divide_spec cfg hn x g h0
    simp only [hqr, ok_bind]
    obtain ⟨r, hr, e⟩ := mul_spec qr.1 y
    refine ⟨r, hr, ?_⟩
    rw [e, e1, eg, Nat.lcm, Nat.div_mul_right_comm (Nat.gcd_dvd_left _ _)]

/-- Loop relation of the extended algorithm: in terms of residues modulo `W`. -/
def BezInv (W : Int) (big small : Int) (g r q bx by' tx ty : Int) : Prop :=
  big * bx + small * by' ≡ g [ZMOD W] ∧
  big * (tx - q * bx) + small * (ty - q * by') ≡ r [ZMOD W]

theorem sub_int (x y : Aeu n) : Sat (sub x y) fun r =>
    (toNat r : Int) ≡ toNat x - toNat y [ZMOD (2 : Int) ^ (32 * n)] := by
  obtain ⟨r, hr, e⟩ := sub_spec x y
  refine ⟨r, hr, ?_⟩
  simp only
  rw [e]
  have hy := toNat_lt y
  rw [Int.natCast_mod]
  push_cast [Nat.cast_sub (le_of_lt hy)]
  refine (Int.mod_modEq _ _).trans ?_
  exact Int.ModEq.symm (Int.modEq_iff_dvd.mpr ⟨1, by ring⟩)

theorem mul_int (x y : Aeu n) : Sat (mul x y) fun r =>
    (toNat r : Int) ≡ toNat x * toNat y [ZMOD (2 : Int) ^ (32 * n)] := by
  obtain ⟨r, hr, e⟩ := mul_spec x y
  refine ⟨r, hr, ?_⟩
  simp only
  rw [e]
  push_cast
  exact Int.mod_modEq _ _

theorem gcdExt_loop (cfg : Cfg) (hn : 0 < n) (big small : Int) (v : Nat) (g q r bx bY tx ty : Aeu n)
    (hg : Nat.gcd (toNat g) (toNat r) = v)
    (hb : BezInv ((2 : Int) ^ (32 * n)) big small (toNat g) (toNat r) (toNat q) (toNat bx) (toNat bY)
      (toNat tx) (toNat ty)) :
    Sat (whileC (2 ^ (32 * n) + 1) (g, q, r, bx, bY, tx, ty)
      fun (gcd, quotient, remainder, bezoutX, bezoutY, tX, tY) => do
      let z ← eqNarrow remainder (0#32)
      if z then .ok (.leave (gcd, bezoutX, bezoutY)) else do
        let tGcd := gcd
        let gcd := remainder
        let t := bezoutX
        let p ← mul quotient bezoutX
        let bezoutX ← sub tX p
        let tX := t
        let t := bezoutY
        let p ← mul quotient bezoutY
        let bezoutY ← sub tY p
        let tY := t
        let qr ← divide cfg tGcd gcd
        .ok (.next (gcd, qr.1, qr.2, bezoutX, bezoutY, tX, tY)))
      fun s => toNat s.1 = v ∧
        big * toNat s.2.1 + small * toNat s.2.2 ≡ v [ZMOD (2 : Int) ^ (32 * n)] := by
  set W := (2 : Int) ^ (32 * n) with hW
  refine Sat.whileC (fun (s : Aeu n × Aeu n × Aeu n × Aeu n × Aeu n × Aeu n × Aeu n) =>
      Nat.gcd (toNat s.1) (toNat s.2.2.1) = v ∧
      BezInv W big small (toNat s.1) (toNat s.2.2.1) (toNat s.2.1) (toNat s.2.2.2.1)
        (toNat s.2.2.2.2.1) (toNat s.2.2.2.2.2.1) (toNat s.2.2.2.2.2.2))
      (fun s => toNat s.2.2.1) ⟨hg, hb⟩ (by have := toNat_lt r; simp only; omega) ?_
  clear hg hb
  rintro ⟨g, q, r, bx, bY, tx, ty⟩ ⟨hg, hb⟩
  simp only at hg hb ⊢
  rw [eqNarrow_spec hn (by norm_num)]
  simp only [ok_bind]
  by_cases h0 : toNat r = 0
  · simp only [h0, Nat.gcd_zero_right] at hg
    simp only [h0, BitVec.toNat_ofNat, Nat.zero_mod, decide_true, if_true, sat_ok, ctlP_leave]
    refine ⟨hg, ?_⟩
    rw [← hg]
    exact hb.1
  · have hbf : (decide (toNat r = (0#32).toNat)) = false := by simp [h0]
    rw [hbf]
    simp only [Bool.false_eq_true, if_false]
    obtain ⟨hb1, hb2⟩ := hb
    obtain ⟨p1, hp1, ep1⟩ := mul_int q bx
    obtain ⟨b1, hb1', eb1⟩ := sub_int tx p1
    obtain ⟨p2, hp2, ep2⟩ := mul_int q bY
    obtain ⟨b2, hb2', eb2⟩ := sub_int ty p2
    rw [← hW] at ep1 eb1 ep2 eb2
    simp only [hp1, hb1', hp2, hb2', ok_bind]
    refine Sat.bind (divide_spec cfg hn g r h0) ?_
    rintro qr ⟨h1, h2⟩
    simp only [sat_ok, ctlP_next, h2]
    refine ⟨⟨?_, ?_, ?_⟩, Nat.mod_lt _ (by omega)⟩
    · rw [← hg, gcd_step]
    · have ex : (toNat b1 : Int) ≡ toNat tx - toNat q * toNat bx [ZMOD W] :=
        eb1.trans (Int.ModEq.sub_left _ ep1)
      have ey : (toNat b2 : Int) ≡ toNat ty - toNat q * toNat bY [ZMOD W] :=
        eb2.trans (Int.ModEq.sub_left _ ep2)
      exact ((ex.mul_left big).add (ey.mul_left small)).trans hb2
    · have ex : (toNat b1 : Int) ≡ toNat tx - toNat q * toNat bx [ZMOD W] :=
        eb1.trans (Int.ModEq.sub_left _ ep1)
      have ey : (toNat b2 : Int) ≡ toNat ty - toNat q * toNat bY [ZMOD W] :=
        eb2.trans (Int.ModEq.sub_left _ ep2)
      have er : big * toNat b1 + small * toNat b2 ≡ toNat r [ZMOD W] :=
        ((ex.mul_left big).add (ey.mul_left small)).trans hb2
      rw [h1]
      have hdm : ((toNat g % toNat r : Nat) : Int) =
          toNat g - (toNat g / toNat r : Nat) * toNat r := by
        have := Nat.div_add_mod (toNat g) (toNat r)
        have := congrArg (Nat.cast : Nat → Int) this
        push_cast at this ⊢
        linear_combination this
      rw [hdm]
      have := hb1.sub (er.mul_left ((toNat g / toNat r : Nat) : Int))
      refine Int.ModEq.trans ?_ this
      have e : big * ((toNat bx : Int) - ↑(toNat g / toNat r) * ↑(toNat b1)) +
        small * (↑(toNat bY) - ↑(toNat g / toNat r) * ↑(toNat b2)) =
        big * ↑(toNat bx) + small * ↑(toNat bY) -
          ↑(toNat g / toNat r) * (big * ↑(toNat b1) + small * ↑(toNat b2)) := by ring
      rw [e]

theorem bez_init (cfg : Cfg) (hn : 0 < n) (big small : Aeu n) (bx bY tx ty : Aeu n)
    (hbx : toNat bx = 0) (hby : toNat bY = 1) (htx : toNat tx = 1) (hty : toNat ty = 0) :
    Sat (divide cfg big small) fun qr =>
      Nat.gcd (toNat small) (toNat qr.2) = Nat.gcd (toNat big) (toNat small) ∧
      BezInv ((2 : Int) ^ (32 * n)) (toNat big) (toNat small) (toNat small) (toNat qr.2) (toNat qr.1)
        (toNat bx) (toNat bY) (toNat tx) (toNat ty) := by
  refine Sat.mono (divide_total cfg hn big small) ?_
  rintro qr ⟨h, hq⟩
  refine ⟨by rw [h, gcd_step], ?_, ?_⟩
  · rw [hbx, hby]; simp
  · rw [hbx, hby, htx, hty, h]
    by_cases h0 : toNat small = 0
    · simp [h0]
    · rw [hq h0]
      have := Nat.div_add_mod (toNat big) (toNat small)
      have := congrArg (Nat.cast : Nat → Int) this
      push_cast at this ⊢
      have e : (toNat big : Int) * (1 - ↑(toNat big) / ↑(toNat small) * 0) +
        ↑(toNat small) * (0 - ↑(toNat big) / ↑(toNat small) * 1) = ↑(toNat big) % ↑(toNat small) := by
        linear_combination -this
      rw [e]

theorem gcdExt_spec (cfg : Cfg) (hn : 0 < n) (x y : Aeu n) :
    Sat (gcdExt cfg x y) fun r => toNat r.1 = Nat.gcd (toNat x) (toNat y) ∧
      (toNat x : Int) * toNat r.2.1 + toNat y * toNat r.2.2 ≡ Nat.gcd (toNat x) (toNat y)
        [ZMOD (2 : Int) ^ (32 * n)] := by
  unfold gcdExt gcdExtIn
  rw [compareTo_spec]
  obtain ⟨z, hz, ez⟩ := ofUnsigned32_zero (n := n)
  obtain ⟨o, ho, eo⟩ := ofUnsigned32_one hn
  simp only [ok_bind, hz, ho]
  by_cases hgt : cmpNat (toNat x) (toNat y) = .greater
  · simp only [hgt, if_true, ne_eq, not_true_eq_false, if_false]
    refine Sat.bind (bez_init cfg hn x y z o o z ez eo eo ez) ?_
    rintro ⟨q, r⟩ ⟨h1, h2⟩
    refine Sat.bind (gcdExt_loop cfg hn _ _ _ y q r z o o z h1 h2) ?_
    rintro ⟨g, a, b⟩ ⟨h3, h4⟩
    exact Sat.ok ⟨h3, h4⟩
  · simp only [hgt, if_false, ne_eq, not_false_eq_true, if_true]
    refine Sat.bind (bez_init cfg hn y x z o o z ez eo eo ez) ?_
    rintro ⟨q, r⟩ ⟨h1, h2⟩
    refine Sat.bind (gcdExt_loop cfg hn _ _ _ x q r z o o z h1 h2) ?_
    rintro ⟨g, a, b⟩ ⟨h3, h4⟩
    simp only [swap, sat_ok]
    rw [Nat.gcd_comm, Int.add_comm]
    exact ⟨h3, h4⟩

/-! ### powm -/

theorem mod_sq_lt {M W a b : Nat} (hM : (M - 1) * (M - 1) < W) (ha : a < M) (hb : b < M) : a * b < W :=
  Nat.lt_of_le_of_lt (Nat.mul_le_mul (by omega) (by omega)) hM

/-- A modular product computed by `*` and `divide`. -/
theorem mulmod_spec (cfg : Cfg) (hn : 0 < n) (a b md : Aeu n) (hmd : toNat md ≠ 0)
    (hfit : toNat a * toNat b < 2 ^ (32 * n)) :
    Sat (do
      let p ← mul a b
      let qr ← divide cfg p md
      .ok qr.2) fun r => toNat r = toNat a * toNat b % toNat md := by
  obtain ⟨p, hp, ep⟩ := mul_spec a b
  rw [Nat.mod_eq_of_lt hfit] at ep
  simp only [hp, ok_bind]
  refine Sat.bind (divide_spec cfg hn p md hmd) ?_
  rintro qr ⟨_, h⟩
  refine Sat.ok ?_
  rw [h, ep]

theorem mod_two_pow_succ' (e i : Nat) :
    e % 2 ^ (i + 1) = e % 2 ^ i + 2 ^ i * (e.testBit i).toNat := by
  rw [Nat.testBit_eq_decide_div_mod_eq, Nat.pow_succ, Nat.mod_mul]
  congr 2
  rcases Nat.mod_two_eq_zero_or_one (e / 2 ^ i) with h | h <;> simp [h]

/-- Square and multiply: the loop shared by both `powm` overloads.  `k` is the bit length of the
exponent rounded up to blocks. -/
theorem pow_step (base e i M b : Nat) (hb : b ≡ base ^ 2 ^ i [MOD M]) (o : Nat)
    (ho : o ≡ base ^ (e % 2 ^ i) [MOD M]) :
    (if e.testBit i then o * b else o) ≡ base ^ (e % 2 ^ (i + 1)) [MOD M] ∧
    b * b ≡ base ^ 2 ^ (i + 1) [MOD M] := by
  constructor
  · rw [mod_two_pow_succ']
    cases h : e.testBit i
    · simpa using ho
    · simp only [if_true, Bool.toNat_true, Nat.mul_one]
      rw [Nat.pow_add]
      exact ho.mul hb
  · rw [Nat.pow_succ 2 i, Nat.pow_mul, Nat.pow_two]
    exact hb.mul hb

/-- `powm(base, power, modulo)` for every modulus whose squared maximal residue fits. -/
theorem powm_loop_spec (cfg : Cfg) (hn : 0 < n) (e : Aeu m) (md : Aeu n) (base : Nat) (K : Nat)
    (hK : filledBlocksNumber e = .ok K) (hKm : K ≤ m) (heK : toNat e < 2 ^ (32 * K))
    (hmd : 0 < toNat md) (hfit : (toNat md - 1) * (toNat md - 1) < 2 ^ (32 * n))
    (o b : Aeu n) (ho : toNat o = 1) (hb : toNat b = base % toNat md)
    {ι : Type} (iter : ι → Nat) (next : ι → ι) (i0 : ι) (hi0 : iter i0 = 0)
    (hnext : ∀ i, iter i < 32 * K → iter (next i) = iter i + 1) :
    Sat (whileC (32 * m + 1) (i0, o, b) fun (iteration, output, b) => do
      let f ← filledBlocksNumber e
      if f * 32 = iter iteration then .ok (.leave output) else do
        let bit ← getBit cfg e (iter iteration)
        let output ← if bit then do
            let p ← mul output b
            let qr ← divide cfg p md
            .ok qr.2
          else .ok output
        let p ← mul b b
        let qr ← divide cfg p md
        .ok (.next (next iteration, output, qr.2)))
      fun r => toNat r = if toNat e = 0 then 1 else base ^ toNat e % toNat md := by
  set M := toNat md with hM
  refine Sat.whileC (fun (s : ι × Aeu n × Aeu n) => iter s.1 ≤ 32 * K ∧
      toNat s.2.2 = base ^ 2 ^ (iter s.1) % M ∧
      toNat s.2.1 ≡ base ^ (toNat e % 2 ^ (iter s.1)) [MOD M] ∧
      (toNat s.2.1 = 1 ∨ toNat s.2.1 < M) ∧
      (toNat e % 2 ^ (iter s.1) = 0 → toNat s.2.1 = 1) ∧
      (toNat e % 2 ^ (iter s.1) ≠ 0 → toNat s.2.1 < M))
    (fun s => 32 * K - iter s.1) ?_ (by simp only; omega) ?_
  · simp only [hi0, ho, hb, Nat.pow_zero, Nat.mod_one]
    simp
    rfl
  · rintro ⟨i, o, b⟩ ⟨h1, h2, h3, h4, h5, h6⟩
    simp only at h1 h2 h3 h4 h5 h6 ⊢
    rw [hK]
    simp only [ok_bind]
    by_cases hend : K * 32 = iter i
    · simp only [hend, if_true, sat_ok, ctlP_leave]
      rw [← hend, Nat.mul_comm, Nat.mod_eq_of_lt heK] at h3 h5 h6
      split
      · rename_i h0; exact h5 h0
      · rename_i h0
        rw [← Nat.mod_eq_of_lt (h6 h0)]; exact h3
    · simp only [hend, if_false]
      have hlt : iter i < 32 * K := by omega
      have hbM : toNat b < M := by rw [h2]; exact Nat.mod_lt _ hmd
      rw [getBit_spec cfg e (by omega)]
      simp only [ok_bind]
      have hbb : toNat b ≡ base ^ 2 ^ iter i [MOD M] := by rw [h2]; exact Nat.mod_modEq _ _
      obtain ⟨s1, s2⟩ := pow_step base (toNat e) (iter i) M (toNat b) hbb (toNat o) h3
      have hob : toNat o * toNat b < 2 ^ (32 * n) := by
        rcases h4 with h | h
        · rw [h, Nat.one_mul]; exact toNat_lt b
        · exact mod_sq_lt hfit h hbM
      obtain ⟨sq, hsq, esq⟩ := mulmod_spec cfg hn b b md (by omega) (mod_sq_lt hfit hbM hbM)
      have hsq' : ∀ (out : Aeu n), (do
          let p ← mul b b
          let qr ← divide cfg p md
          (.ok (.next (next i, out, qr.2)) : Exec (Ctl (ι × Aeu n × Aeu n) (Aeu n)))) =
          .ok (.next (next i, out, sq)) := by
        intro out
        cases hpp : mul b b with
        | error e => rw [hpp] at hsq; simp at hsq
        | ok p =>
          rw [hpp] at hsq
          simp only [ok_bind] at hsq ⊢
          cases hqq : divide cfg p md with
          | error e => rw [hqq] at hsq; simp at hsq
          | ok qr =>
            rw [hqq] at hsq
            simp only [ok_bind, Except.ok.injEq] at hsq ⊢
            rw [hsq]
      simp only [hsq']
      obtain ⟨out, heq, hout⟩ : ∃ out, (if (toNat e).testBit (iter i) = true then do
            let p ← mul o b
            let qr ← divide cfg p md
            (.ok (.next (next i, qr.2, sq)) : Exec (Ctl (ι × Aeu n × Aeu n) (Aeu n)))
          else .ok (.next (next i, o, sq))) = .ok (.next (next i, out, sq)) ∧
          toNat out = if (toNat e).testBit (iter i) then toNat o * toNat b % M else toNat o := by
        cases hbit : (toNat e).testBit (iter i)
        · exact ⟨o, by simp⟩
        · obtain ⟨p, hp, ep⟩ := mul_spec o b
          rw [Nat.mod_eq_of_lt hob] at ep
          obtain ⟨qr, hqr, _, er⟩ := divide_spec cfg hn p md (by omega)
          exact ⟨qr.2, by simp [hp, hqr], by simp [er, ep, ← hM]⟩
      · rw [heq]
        simp only [sat_ok, ctlP_next, hnext i hlt]
        rw [esq]
        refine ⟨⟨by omega, s2, ?_, ?_, ?_, ?_⟩, by omega⟩
        · rw [hout]
          cases hbit : (toNat e).testBit (iter i)
          · simpa [hbit] using s1
          · simp only [hbit, if_true] at s1 ⊢
            exact (Nat.mod_modEq _ _).trans s1
        · rw [hout]; split
          · right; exact Nat.mod_lt _ hmd
          · exact h4
        · intro h0
          rw [mod_two_pow_succ'] at h0
          cases hbit : (toNat e).testBit (iter i)
          · rw [hbit] at h0 hout
            simp only [Bool.false_eq_true, if_false] at hout
            rw [hout]; exact h5 (by omega)
          · rw [hbit] at h0
            have := Nat.two_pow_pos (iter i)
            simp only [Bool.toNat_true] at h0
            omega
        · intro h0
          rw [mod_two_pow_succ'] at h0
          cases hbit : (toNat e).testBit (iter i)
          · rw [hbit] at h0 hout
            simp only [Bool.false_eq_true, if_false, Bool.toNat_false, Nat.mul_zero, Nat.add_zero] at hout h0
            rw [hout]; exact h6 h0
          · rw [hbit] at hout
            simp only [if_true] at hout
            rw [hout]; exact Nat.mod_lt _ hmd

theorem powm_spec (cfg : Cfg) (hn : 0 < n) (x e md : Aeu n) (hmd : 0 < toNat md)
    (hfit : (toNat md - 1) * (toNat md - 1) < 2 ^ (32 * n)) :
    Returns (powm cfg x e md) (if toNat e = 0 then 1 else toNat x ^ toNat e % toNat md) := by
  unfold powm
  obtain ⟨o, ho, eo⟩ := ofUnsigned32_one hn
  obtain ⟨qb, hqb, _, eb⟩ := divide_spec cfg hn x md (by omega)
  obtain ⟨K, hK, hK1, hK2, _⟩ := filledBlocksNumber_nat e
  simp only [ho, hqb, ok_bind]
  exact powm_loop_spec cfg hn e md (toNat x) K hK hK1 hK2 hmd hfit o qb.2 eo eb
    (fun i => i) (fun i => i + 1) 0 rfl (fun _ _ => rfl)

theorem powmT_spec (cfg : Cfg) (hn : 0 < n) (x : Aeu n) (e : Aeu m) (md : Aeu n) (hmd : 0 < toNat md)
    (hm : 32 * m < 2 ^ 32)
    (hfit : (toNat md - 1) * (toNat md - 1) < 2 ^ (32 * n)) :
    Returns (powmT cfg x e md) (if toNat x = 1 ∨ toNat x = 0 ∨ toNat e = 0 then 1
      else toNat x ^ toNat e % toNat md) := by
  unfold powmT
  rw [eqNarrow_spec hn (by norm_num), eqNarrow_spec hn (by norm_num)]
  obtain ⟨o, ho, eo⟩ := ofUnsigned32_one hn
  obtain ⟨qb, hqb, _, eb⟩ := divide_spec cfg hn x md (by omega)
  obtain ⟨K, hK, hK1, hK2, _⟩ := filledBlocksNumber_nat e
  simp only [ho, hqb, ok_bind]
  by_cases h1 : toNat x = 1
  · simp [h1, Returns]
  by_cases h0 : toNat x = 0
  · simp [h0, Returns, eo]
  simp only [h1, h0, false_or]
  have e1 : decide (toNat x = (1#32).toNat) = false := by simp [h1]
  have e0 : decide (toNat x = (0#32).toNat) = false := by simp [h0]
  rw [show decide (toNat x = (1#32).toNat) = false from e1]
  simp only [BitVec.toNat_ofNat, Nat.zero_mod, decide_false, Bool.false_eq_true, if_false, h0]
  refine powm_loop_spec cfg hn e md (toNat x) K hK hK1 hK2 hmd hfit o qb.2 eo eb
    (fun (i : BitVec 32) => i.toNat) (fun i => i + 1#32) 0#32 rfl ?_
  intro i hi
  rw [BitVec.toNat_add]
  apply Nat.mod_eq_of_lt
  simp; omega

end Aeu
end AesiMP
