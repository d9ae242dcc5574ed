import Verif.Props.TestsBits
import Verif.Props.NumTheory
import Verif.Props.Complete

/-! # C95: the randomised tests of comparison, parity, roots, casts and number theory, for every draw -/

namespace AesiMP
open Aeu
variable {n : Nat}

private theorem nat_of_drawn' {k : Nat} {x : Int} (h : Drawn k x) : ∃ v : Nat, x = v ∧ v < 2 ^ k := by
  refine ⟨x.toNat, by have := h.1; omega, ?_⟩
  have h1 := h.2
  have h0 := h.1
  have : ((x.toNat : Nat) : Int) < ((2 ^ k : Nat) : Int) := by push_cast; omega
  exact_mod_cast this

private theorem drawnS_of_nat {k j v : Nat} (h : v < 2 ^ k) (hk : k ≤ j) : DrawnS j (v : Int) := by
  unfold DrawnS
  rw [Int.natAbs_natCast]
  exact lt_of_lt_of_le h (Nat.pow_le_pow_right (by norm_num) hk)

private theorem ofMpz_nat (cfg : Cfg) {k v : Nat} (h : v < 2 ^ k) (hk : k ≤ 32 * n) :
    Sat (Aeu.ofMpz cfg n (v : Int)) fun a => toNat a = v := by
  obtain ⟨a, h1, h2⟩ := ofMpz_drawn (n := n) cfg (by omega) (drawnS_of_nat h hk)
  exact ⟨a, h1, by have : (toNat a : Int) = v := h2; exact_mod_cast this⟩

private theorem eqMpz_nat (cfg : Cfg) (a : Aeu n) {k v : Nat} (h : v < 2 ^ k) (hk : k ≤ 32 * n) :
    Aeu.eqMpz cfg a (v : Int) = .ok (decide (toNat a = v)) := by
  rw [eqMpz_neg cfg a (drawnS_of_nat h hk), Int.natAbs_natCast]

/-- The tests of `<`, `<=`, `>`, `>=`, `==` pass for every draw. -/
theorem C95_comparisons (cfg : Cfg) {l r : Int} :
    (Drawn (32 * n - 20) l → Drawn (32 * n - 20) r → Tests.comparisonsU cfg n l r = .ok true) ∧
    (DrawnS (32 * n - 20) l → DrawnS (32 * n - 20) r → Tests.comparisonsS cfg n l r = .ok true) := by
  constructor
  · intro hl hr
    obtain ⟨a, ha, ha'⟩ := ofMpz_drawn (n := n) cfg hl.1 (hl.signed.le (by omega))
    obtain ⟨b, hb, hb'⟩ := ofMpz_drawn (n := n) cfg hr.1 (hr.signed.le (by omega))
    obtain ⟨e1, -, e2, e3, e4, e5⟩ := C16_compare cfg a b
    have ha' : (toNat a : Int) = l := ha'
    have hb' : (toNat b : Int) = r := hb'
    subst ha' hb'
    unfold Tests.comparisonsU
    rw [ha, ok_bind, hb, ok_bind, e2, ok_bind, e3, ok_bind, e4, ok_bind, e5, ok_bind, e1, ok_bind]
    simp
  · intro hl hr
    obtain ⟨a, ha, ha', hac⟩ := C60_signed (n := n) cfg l (hl.fits (by omega))
    obtain ⟨b, hb, hb', hbc⟩ := C60_signed (n := n) cfg r (hr.fits (by omega))
    obtain ⟨-, e1, -, e2⟩ := C41_compare_partial cfg a b hac hbc
    obtain ⟨-, e3, e4, e5⟩ := C41_operators_partial cfg a b hac hbc
    unfold Tests.comparisonsS
    rw [ha, ok_bind, hb, ok_bind, e2, ok_bind, e3, ok_bind, e4, ok_bind, e5, ok_bind, e1, ok_bind, ha', hb']
    simp

/-- The parity tests pass for every draw. -/
theorem C95_parity (cfg : Cfg) (hn : 1 ≤ n) {value : Int} (h : Drawn (32 * n - 10) value) :
    Tests.oddEvenU cfg n value = .ok true ∧ Tests.oddEvenS cfg n value = .ok true := by
  obtain ⟨v, rfl, hv⟩ := nat_of_drawn' h
  have key : ∀ x : Aeu n, toNat x = v → isEven x = .ok (decide ((v : Int) % 2 = 0)) ∧
      isOdd x = .ok (decide ((v : Int) % 2 = 1)) := by
    intro x hx
    obtain ⟨-, h1, h2⟩ := C15_zero_parity (by omega) x
    rw [h1, h2, hx]
    constructor <;> congr 1 <;> rw [decide_eq_decide] <;> omega
  constructor
  · obtain ⟨a, ha, ha'⟩ := ofMpz_nat (n := n) cfg hv (by omega)
    obtain ⟨e1, e2⟩ := key a ha'
    unfold Tests.oddEvenU
    rw [ha, ok_bind, e1, ok_bind, e2, ok_bind]
    simp
  · obtain ⟨a, ha, ha', -⟩ := C60_signed (n := n) cfg (v : Int) (h.fits (by omega))
    have hb : toNat a.base = v := by
      obtain ⟨b, h1, h2⟩ := C60_unsigned (n := n) cfg (v : Int) (Or.inr (h.fits (by omega)))
      unfold Aesi.ofMpz at ha
      by_cases h0 : (v : Int) = 0
      · rw [if_pos h0] at ha
        have := Except.ok.inj ha
        subst this
        simp only [toNat_zero]
        omega
      · rw [if_neg h0, h1, ok_bind, if_neg (by omega)] at ha
        have := Except.ok.inj ha
        subst this
        simp only
        rw [h2, Int.natAbs_natCast, Nat.mod_eq_of_lt]
        exact lt_of_lt_of_le hv (Nat.pow_le_pow_right (by norm_num) (by omega))
    obtain ⟨e1, e2⟩ := key a.base hb
    unfold Tests.oddEvenS Aesi.isEven Aesi.isOdd
    rw [ha, ok_bind, e1, ok_bind, e2, ok_bind]
    simp

/-- The square root tests pass for every draw, with the sign the iteration number gives. -/
theorem C95_squareRoot (cfg : Cfg) (hn : 2 ≤ n) {value : Int} :
    (Drawn (32 * n - 20) value → Tests.sqrtU cfg n value = .ok true) ∧
    (Drawn (32 * n - 20) value → Tests.sqrtS cfg n true value = .ok true) ∧
    (Drawn (32 * n - 20) (-value) → Tests.sqrtS cfg n false value = .ok true) := by
  have root : ∀ {v r : Nat}, r ^ 2 ≤ v → v < (r + 1) ^ 2 → r = Nat.sqrt v := by
    intro v r h1 h2
    exact (Nat.eq_sqrt.mpr ⟨by rw [← pow_two]; exact h1, by rw [← pow_two]; exact h2⟩)
  refine ⟨fun h => ?_, fun h => ?_, fun h => ?_⟩
  · obtain ⟨v, rfl, hv⟩ := nat_of_drawn' h
    obtain ⟨a, ha, ha'⟩ := ofMpz_nat (n := n) cfg hv (by omega)
    obtain ⟨r, hr, hr1, hr2⟩ := C32_squareRoot cfg (by omega) a
    rw [ha'] at hr1 hr2
    unfold Tests.sqrtU
    rw [ha, ok_bind, hr, ok_bind, Int.toNat_natCast,
      eqMpz_nat cfg r (lt_of_le_of_lt (Nat.sqrt_le_self v) hv) (by omega), root hr1 hr2]
    simp
  · obtain ⟨v, rfl, hv⟩ := nat_of_drawn' h
    obtain ⟨a, ha, ha', hac⟩ := C60_signed (n := n) cfg (v : Int) (h.fits (by omega))
    obtain ⟨r, hr, hr1⟩ := C63_squareRoot cfg (by omega) a
    have ha' : Aesi.toInt a = v := ha'
    rw [ha', if_neg (by omega)] at hr1
    obtain ⟨h0, h1, h2⟩ := hr1
    obtain ⟨k, hk⟩ := Int.eq_ofNat_of_zero_le h0
    rw [hk] at h1 h2
    have e : k = Nat.sqrt v := root (by exact_mod_cast h1) (by exact_mod_cast h2)
    have hrc : Aesi.Canon r := by
      by_cases hv0 : v = 0
      · subst hv0
        have : a = ⟨.zero, Aeu.zero n⟩ := by
          have := ha
          simp [Aesi.ofMpz] at this
          exact this.symm
        subst this
        have : r = ⟨.zero, Aeu.zero n⟩ := (Except.ok.inj (hr : Aesi.squareRoot cfg _ = .ok r)).symm
        subst this
        exact fun hh => absurd rfl hh
      · intro _ hz
        have : k = 0 := by
          rcases r with ⟨s, b⟩
          cases s <;> simp only [Aesi.toInt] at hk hz <;> omega
        subst this
        norm_num at h2
        omega
    unfold Tests.sqrtS
    rw [ha, ok_bind, hr, ok_bind, if_pos rfl, Int.toNat_natCast, C65_signed_partial cfg r hrc _ ?_, hk, e]
    · simp
    · exact DrawnS.fits (k := 32 * n - 20) (drawnS_of_nat (lt_of_le_of_lt (Nat.sqrt_le_self v) hv) le_rfl) (by omega)
  · have hneg := h.1
    obtain ⟨a, ha, ha', hac⟩ := C60_signed (n := n) cfg value (by
      have := h.fits (n := n) (by omega); unfold Aesi.Fits at *; rwa [Int.natAbs_neg] at this)
    have : a.sign ≠ .positive := by
      intro hp
      have hne := hac (by rw [hp]; simp)
      rcases a with ⟨s, b⟩
      simp only at hp hne
      subst hp
      simp only [Aesi.toInt] at ha'
      omega
    unfold Tests.sqrtS Aesi.squareRoot
    rw [ha, ok_bind, if_neg this]
    rfl

/-- The unsigned cast test passes for every draw. -/
theorem C95_cast_unsigned (hn : 2 ≤ n) (junk : Aeu n) (value : BitVec 64) (value' : BitVec 32) :
    Tests.integralCastU n junk value value' = .ok true := by
  obtain ⟨a, ha, -, ha'⟩ := C22_construct_exact hn (by norm_num) junk value
  obtain ⟨b, hb, hb', -⟩ := C22_construct_exact hn (by norm_num) junk (value'.setWidth 64)
  have h32 : integralCast ITy.u32 b = .ok ((toNat b % 2 ^ 32 : Nat) : Int) := C21_unsigned_partial hn 32 (by norm_num) b
  have e64 : integralCast ITy.u64 a = .ok (value.toNat : Int) := ha'
  have := value'.isLt
  unfold Tests.integralCastU
  rw [ha, ok_bind, e64, ok_bind, hb, ok_bind, h32, ok_bind, hb', BitVec.toNat_setWidth,
    Nat.mod_eq_of_lt (show value'.toNat < 2 ^ 64 by omega), Nat.mod_eq_of_lt this]
  simp

/-- The signed cast test passes for every pair of draws except `INT64_MIN` in the first place and `INT32_MIN` in
the second, which are undefined behaviour. -/
theorem C95_cast_signed_exact (hn : 2 ≤ n) {value value' : Int} (h : ITy.i64.InRange value)
    (h' : ITy.i32.InRange value') :
    Tests.integralCastS n value value' =
      if value = -(2 : Int) ^ 63 ∨ value' = -(2 : Int) ^ 31 then .error .signedOverflow else .ok true := by
  have hp : (2 : Nat) ^ 64 ≤ 2 ^ (32 * n) := Nat.pow_le_pow_right (by norm_num) (by omega)
  by_cases h1 : value = -(2 : Int) ^ 63
  · rw [if_pos (Or.inl h1)]
    unfold Tests.integralCastS
    rw [Aesi.ofIntegral_wideMin (n := n) (t := ITy.i64) (by simp [ITy.all]) (by rw [h1]; decide)]
    rfl
  · simp only [ITy.InRange, ITy.i64, ITy.i32] at h h'
    norm_num at h h' h1
    obtain ⟨a, ha, ha', hac⟩ := Aesi.ofIntegral_spec (n := n) (t := ITy.i64) (by simp [ITy.all]) (v := value)
      (by simp only [ITy.InRange, ITy.i64]; norm_num; omega)
      (by rintro ⟨⟨-, hh⟩, -⟩; simp only [ITy.i64] at hh; norm_num at hh; omega) (by unfold Aesi.Fits; omega)
    obtain ⟨b, hb, hb', hbc⟩ := Aesi.ofIntegral_spec (n := n) (t := ITy.i64) (by simp [ITy.all]) (v := value')
      (by simp only [ITy.InRange, ITy.i64]; norm_num; omega)
      (by rintro ⟨⟨-, hh⟩, -⟩; simp only [ITy.i64] at hh; norm_num at hh; omega) (by unfold Aesi.Fits; omega)
    have c1 : Aesi.integralCast ITy.i64 a = .ok value := by
      rw [← ha']
      refine C48_cast_partial hn (by simp [ITy.all]) a ?_ ?_
      · rw [ha']; simp only [ITy.InRange, ITy.i64]; norm_num; omega
      · rw [ha']; simp only [ITy.i64]; norm_num; omega
    unfold Tests.integralCastS
    rw [ha, ok_bind, c1, ok_bind, hb, ok_bind]
    by_cases h2 : value' = -(2 : Int) ^ 31
    · rw [if_pos (Or.inr h2)]
      rw [C48_cast_exact hn (by simp [ITy.all]), if_pos]
      · rfl
      · rw [hb', h2]; decide
    · rw [if_neg (by norm_num; norm_num at h2; exact ⟨h1, h2⟩)]
      have c2 : Aesi.integralCast ITy.i32 b = .ok value' := by
        rw [← hb']
        norm_num at h2
        refine C48_cast_partial hn (by simp [ITy.all]) b ?_ ?_
        · rw [hb']; simp only [ITy.InRange, ITy.i32]; norm_num; omega
        · rw [hb']; simp only [ITy.i32]; norm_num; omega
      rw [c2, ok_bind]
      simp

/-! ### Number theory -/

/-- `TEST(NumberTheory, PowerByModulo)` passes for every draw with a nonzero modulus, except power 0 with
modulus 1. -/
theorem C95_powm_exact (cfg : Cfg) {base power modulo : Int} (hb : Drawn (16 * 16 - 10) base)
    (hp : Drawn (16 * 16 - 10) power) (hm : Drawn (16 * 16 - 10) modulo) (h0 : modulo ≠ 0) :
    Tests.powmTest cfg 16 base power modulo = .ok (decide (¬ (power = 0 ∧ modulo = 1))) := by
  obtain ⟨b, rfl, kb⟩ := nat_of_drawn' hb
  obtain ⟨p, rfl, kp⟩ := nat_of_drawn' hp
  obtain ⟨m, rfl, km⟩ := nat_of_drawn' hm
  obtain ⟨x, hx, hx'⟩ := ofMpz_nat (n := 16) cfg kb (by norm_num)
  obtain ⟨y, hy, hy'⟩ := ofMpz_nat (n := 16) cfg kp (by norm_num)
  obtain ⟨z, hz, hz'⟩ := ofMpz_nat (n := 16) cfg km (by norm_num)
  have hx' : toNat x = b := hx'
  have hy' : toNat y = p := hy'
  have hz' : toNat z = m := hz'
  have hm0 : 0 < m := by omega
  have hmod : b ^ p % m < 2 ^ (16 * 16 - 10) := lt_trans (Nat.mod_lt _ hm0) km
  have e : ((b : Int) ^ p % (m : Int)) = ((b ^ p % m : Nat) : Int) := by push_cast; rfl
  have fit : (toNat z - 1) ^ 2 < 2 ^ (32 * 16) := by
    rw [hz']
    calc (m - 1) ^ 2 < (2 ^ (16 * 16 - 10)) ^ 2 := Nat.pow_lt_pow_left (by omega) (by norm_num)
      _ ≤ 2 ^ (32 * 16) := by rw [← Nat.pow_mul]; exact Nat.pow_le_pow_right (by norm_num) (by norm_num)
  unfold Tests.powmTest
  rw [hx, ok_bind, hy, ok_bind, hz, ok_bind, Int.toNat_natCast, e]
  by_cases hne : p = 0 ∧ m = 1
  · obtain ⟨r, hr, hr'⟩ := C29_counterexample cfg (by norm_num) x y z (by rw [hy', hne.1]) (by rw [hz', hne.2])
    rw [hr, ok_bind, eqMpz_nat cfg r hmod (by norm_num), hr']
    obtain ⟨rfl, rfl⟩ := hne
    simp [Nat.mod_one]
  · obtain ⟨r, hr, hr'⟩ := C29_powm_partial cfg (by norm_num) x y z (by omega) fit (by rw [hy', hz']; exact hne)
    rw [hr, ok_bind, eqMpz_nat cfg r hmod (by norm_num), hr', hx', hy', hz']
    have : ¬ ((p : Int) = 0 ∧ (m : Int) = 1) := by omega
    simp only [this, not_false_eq_true, decide_true]

/-- `TEST(NumberTheory, PowerByModuloDifferentPrecision)` passes exactly for the draws with a nonzero modulus where
neither the base is 0 with a positive power, nor the modulus is 1 with base 0, base 1 or power 0. -/
theorem C95_powm_different_exact (cfg : Cfg) {base power modulo : Int} (hb : Drawn 250 base)
    (hp : Drawn 1000 power) (hm : Drawn 250 modulo) (h0 : modulo ≠ 0) :
    Tests.powmDifferentTest cfg 16 32 base power modulo =
      .ok (decide (¬ (base = 0 ∧ 0 < power) ∧ ¬ (modulo = 1 ∧ (base ≤ 1 ∨ power = 0)))) := by
  obtain ⟨b, rfl, kb⟩ := nat_of_drawn' hb
  obtain ⟨p, rfl, kp⟩ := nat_of_drawn' hp
  obtain ⟨m, rfl, km⟩ := nat_of_drawn' hm
  obtain ⟨x, hx, hx'⟩ := ofMpz_nat (n := 16) cfg kb (by norm_num)
  obtain ⟨y, hy, hy'⟩ := ofMpz_nat (n := 32) cfg kp (by norm_num)
  obtain ⟨z, hz, hz'⟩ := ofMpz_nat (n := 16) cfg km (by norm_num)
  have hx' : toNat x = b := hx'
  have hy' : toNat y = p := hy'
  have hz' : toNat z = m := hz'
  have hm0 : 0 < m := by omega
  have hmod : b ^ p % m < 2 ^ 250 := lt_trans (Nat.mod_lt _ hm0) km
  obtain ⟨w, hw, hw'⟩ := ofMpz_nat (n := 16) cfg hmod (by norm_num)
  have hw' : toNat w = b ^ p % m := hw'
  have e : ((b : Int) ^ p % (m : Int)) = ((b ^ p % m : Nat) : Int) := by push_cast; rfl
  have fit : (toNat z - 1) ^ 2 < 2 ^ (32 * 16) := by
    rw [hz']
    calc (m - 1) ^ 2 < (2 ^ 250) ^ 2 := Nat.pow_lt_pow_left (by omega) (by norm_num)
      _ ≤ 2 ^ (32 * 16) := by rw [← Nat.pow_mul]; exact Nat.pow_le_pow_right (by norm_num) (by norm_num)
  obtain ⟨r, hr, hr'⟩ := C30_powm_exact cfg (by norm_num) x y z (by omega) (by norm_num) fit
  rw [hx', hy', hz'] at hr'
  unfold Tests.powmDifferentTest
  rw [hx, ok_bind, hz, ok_bind, Int.toNat_natCast, e, hw, ok_bind, hy, ok_bind, hr, ok_bind,
    (C16_compare cfg r w).1, hr', hw']
  refine congrArg Except.ok ?_
  rw [decide_eq_decide]
  clear hr hr' hw hw' hx hy hz fit e hmod
  by_cases hm1 : m = 1
  · subst hm1
    rw [Nat.mod_one]
    split
    · rename_i h
      constructor
      · intro hh; omega
      · rintro ⟨-, hh⟩; omega
    · rename_i h
      constructor
      · intro _; omega
      · intro _; rfl
  · rcases Nat.eq_zero_or_pos p with rfl | hp0
    · rw [if_pos (by omega), Nat.pow_zero, Nat.mod_eq_of_lt (by omega)]
      constructor
      · intro _; omega
      · intro _; rfl
    · by_cases hb0 : b = 0
      · subst hb0
        rw [if_pos (by omega), Nat.zero_pow hp0, Nat.zero_mod]
        constructor
        · intro hh; omega
        · rintro ⟨hh, -⟩; omega
      · by_cases hb1 : b = 1
        · subst hb1
          rw [if_pos (by omega), Nat.one_pow, Nat.mod_eq_of_lt (by omega)]
          constructor
          · intro _; omega
          · intro _; rfl
        · rw [if_neg (by omega)]
          constructor
          · intro _; omega
          · intro _; rfl

/-- The tests of `lcm` and `gcd` pass for every draw, zeros included. -/
theorem C95_lcm_gcd (cfg : Cfg) :
    (∀ {left right : Int}, Drawn (16 * 16 - 10) left → Drawn (16 * 16 - 10) right →
      Tests.lcmTest cfg 16 left right = .ok true) ∧
    (∀ {common left right : Int}, Drawn (16 * 8 - 10) common → Drawn (16 * 24 - 10) left → Drawn (16 * 24 - 10) right →
      Tests.gcdTest cfg 16 common left right = .ok true) := by
  constructor
  · intro l r hl hr
    obtain ⟨l, rfl, kl⟩ := nat_of_drawn' hl
    obtain ⟨r, rfl, kr⟩ := nat_of_drawn' hr
    obtain ⟨x, hx, hx'⟩ := ofMpz_nat (n := 16) cfg kl (by norm_num)
    obtain ⟨y, hy, hy'⟩ := ofMpz_nat (n := 16) cfg kr (by norm_num)
    have hx' : toNat x = l := hx'
    have hy' : toNat y = r := hy'
    have hfit : Nat.lcm l r < 2 ^ (32 * 16) := by
      rcases Nat.eq_zero_or_pos (l * r) with h | h
      · have : Nat.lcm l r = 0 := by unfold Nat.lcm; rw [h, Nat.zero_div]
        rw [this]; exact Nat.two_pow_pos _
      · refine lt_of_le_of_lt (Nat.div_le_self (l * r) (Nat.gcd l r)) ?_
        calc l * r < 2 ^ (16 * 16 - 10) * 2 ^ (16 * 16 - 10) := Nat.mul_lt_mul'' kl kr
          _ ≤ 2 ^ (32 * 16) := by rw [← Nat.pow_add]; exact Nat.pow_le_pow_right (by norm_num) (by norm_num)
    obtain ⟨z, hz, hz'⟩ := C28_lcm_mod cfg (by norm_num) x y
    unfold Tests.lcmTest
    rw [hx, ok_bind, hy, ok_bind, hz, ok_bind, show Int.lcm (l : Int) (r : Int) = Nat.lcm l r from rfl,
      eqMpz_nat cfg z hfit le_rfl, hz', hx', hy', Nat.mod_eq_of_lt hfit]
    simp
  · intro c l r hc hl hr
    obtain ⟨c, rfl, kc⟩ := nat_of_drawn' hc
    obtain ⟨l, rfl, kl⟩ := nat_of_drawn' hl
    obtain ⟨r, rfl, kr⟩ := nat_of_drawn' hr
    have fit : ∀ {v : Nat}, v < 2 ^ (16 * 24 - 10) → c * v < 2 ^ (16 * 8 - 10 + (16 * 24 - 10)) := fun {v} hv => by
      rw [Nat.pow_add]; exact Nat.mul_lt_mul'' kc hv
    obtain ⟨x, hx, hx'⟩ := ofMpz_nat (n := 16) cfg (fit kl) (by norm_num)
    obtain ⟨y, hy, hy'⟩ := ofMpz_nat (n := 16) cfg (fit kr) (by norm_num)
    have hx' : toNat x = c * l := hx'
    have hy' : toNat y = c * r := hy'
    have hfit : Nat.gcd (c * l) (c * r) < 2 ^ (32 * 16) := by
      rw [← hx']
      rcases Nat.eq_zero_or_pos (toNat x) with h | h
      · rw [h, Nat.gcd_zero_left]
        exact lt_of_lt_of_le (fit kr) (Nat.pow_le_pow_right (by norm_num) (by norm_num))
      · exact lt_of_le_of_lt (Nat.gcd_le_left _ h) (toNat_lt x)
    obtain ⟨z, hz, hz'⟩ := C26_gcd_value cfg (by norm_num) x y
    unfold Tests.gcdTest
    rw [show (c : Int) * l = ((c * l : Nat) : Int) by push_cast; rfl,
      show (c : Int) * r = ((c * r : Nat) : Int) by push_cast; rfl, hx, ok_bind, hy, ok_bind, hz, ok_bind,
      show Int.gcd ((c * l : Nat) : Int) ((c * r : Nat) : Int) = Nat.gcd (c * l) (c * r) from rfl,
      eqMpz_nat cfg z hfit le_rfl, hz', hx', hy']
    simp

/-- Draws for which the shipped tests fail or are undefined. -/
theorem C95_flaky : Tests.powmTest lp64 16 5 0 1 = .ok false ∧
    Tests.powmDifferentTest lp64 16 32 0 3 7 = .ok false ∧
    Tests.integralCastS 4 (-(2 : Int) ^ 63) 5 = .error .signedOverflow ∧
    Tests.integralCastS 4 5 (-(2 : Int) ^ 31) = .error .signedOverflow := by
  refine ⟨?_, ?_, ?_, ?_⟩
  · rw [C95_powm_exact lp64 (by unfold Drawn; decide +kernel) (by unfold Drawn; decide +kernel)
      (by unfold Drawn; decide +kernel) (by decide)]
    rfl
  · rw [C95_powm_different_exact lp64 (by unfold Drawn; decide +kernel) (by unfold Drawn; decide +kernel)
      (by unfold Drawn; decide +kernel) (by decide)]
    rfl
  · decide +kernel
  · decide +kernel

-- non-trivial draws meet the hypotheses
example : Drawn (16 * 16 - 10) (2 ^ 245 + 12345) ∧ Drawn 250 (2 ^ 249 + 77) ∧ DrawnS (32 * 8 - 20) (-(2 ^ 235 + 9)) ∧
    ITy.i64.InRange (-(2 : Int) ^ 63 + 1) ∧ Tests.comparisonsS lp64 2 (-0x9abcdef1234) 0x77 = .ok true ∧
    Tests.sqrtS lp64 2 true 0x9abcdef1234 = .ok true ∧ Tests.gcdTest lp64 2 6 35 21 = .ok true ∧
    Tests.lcmTest lp64 2 35 21 = .ok true ∧ Tests.powmTest lp64 2 35 21 97 = .ok true := by
  unfold Drawn DrawnS
  decide +kernel

/-! ### Concrete cases that meet the hypotheses -/

example := (C95_comparisons (n := 4) ⟨false, false, false⟩ (l := 2 ^ 70) (r := -5)).2 (by decide) (by decide)

/-- The hypotheses of `C95_parity` are met. -/
example := C95_parity (n := 4) ⟨false, false, false⟩ (by omega) (value := 2 ^ 70) (by decide +kernel)
example := (C95_squareRoot (n := 4) ⟨false, false, false⟩ (by omega) (value := -2 ^ 70)).2.2 (by decide +kernel)

/-- The hypotheses of `C95_cast_unsigned` are met. -/
example := C95_cast_unsigned (n := 4) (by omega) (Aeu.ofNat 4 77) (2 ^ 60) (2 ^ 30)

/-- The hypotheses of `C95_cast_signed_exact` are met. -/
example := C95_cast_signed_exact (n := 4) (by omega) (value := -2 ^ 60) (value' := -2 ^ 31) (by decide) (by decide)

/-- The hypotheses of `C95_powm_exact` are met. -/
example := C95_powm_exact ⟨false, false, false⟩ (base := 2 ^ 70) (power := 2 ^ 80 + 3) (modulo := 2 ^ 90 + 1)
  (by decide +kernel) (by decide +kernel) (by decide +kernel) (by decide)

/-- The hypotheses of `C95_powm_different_exact` are met. -/
example := C95_powm_different_exact ⟨false, false, false⟩ (base := 2 ^ 70) (power := 2 ^ 80 + 3) (modulo := 2 ^ 90 + 1)
  (by decide +kernel) (by decide +kernel) (by decide +kernel) (by decide)
example := (C95_lcm_gcd ⟨false, false, false⟩).2 (common := 77) (left := 2 ^ 80 + 3) (right := 2 ^ 90 + 1)
  (by decide +kernel) (by decide +kernel) (by decide +kernel)

end AesiMP
