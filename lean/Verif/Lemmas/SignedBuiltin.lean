import Verif.Lemmas.Signed

/-!
# Signed numbers and built-in operands: lemmas
-/

namespace AesiMP

namespace ITy

/-- The value is the minimum of its signed type. -/
def IsMin (t : ITy) (v : Int) : Prop := t.signed = true ∧ v = -(2 : Int) ^ (t.width - 1)

/-- The value is the minimum of `int` or of a wider signed type: its negation overflows. -/
def IsWideMin (t : ITy) (v : Int) : Prop := t.IsMin v ∧ 32 ≤ t.width

instance (t : ITy) (v : Int) : Decidable (t.IsMin v) := by unfold IsMin; infer_instance
instance (t : ITy) (v : Int) : Decidable (t.IsWideMin v) := by unfold IsWideMin; infer_instance

theorem mem_all {t : ITy} (h : t ∈ all) : t = i8 ∨ t = i16 ∨ t = i32 ∨ t = i64 ∨ t = u8 ∨ t = u16 ∨
    t = u32 ∨ t = u64 ∨ t = bool := by
  simpa [all] using h

theorem inRange_bounds {t : ITy} (ht : t ∈ all) {v : Int} (h : t.InRange v) :
    -(2 : Int) ^ 63 ≤ v ∧ v < 2 ^ 64 ∧ (v < 0 → t.signed = true) := by
  rcases mem_all ht with rfl | rfl | rfl | rfl | rfl | rfl | rfl | rfl | rfl <;>
    simp [InRange, i8, i16, i32, i64, u8, u16, u32, u64, bool] at h ⊢ <;> omega

theorem negate_spec {t : ITy} (ht : t ∈ all) {v : Int} (h : t.InRange v) (hneg : v < 0)
    (hm : ¬ t.IsWideMin v) : t.negate v = .ok (-v) := by
  rcases mem_all ht with rfl | rfl | rfl | rfl | rfl | rfl | rfl | rfl | rfl <;>
    simp [InRange, IsWideMin, IsMin, i8, i16, i32, i64, u8, u16, u32, u64, bool] at h hm <;>
    simp [negate, promoted, InRange, i8, i16, i32, i64] <;> omega

theorem negate_wideMin {t : ITy} (ht : t ∈ all) {v : Int} (hm : t.IsWideMin v) :
    t.negate v = .error .signedOverflow := by
  rcases mem_all ht with rfl | rfl | rfl | rfl | rfl | rfl | rfl | rfl | rfl <;>
    simp [IsWideMin, IsMin, i8, i16, i32, i64, u8, u16, u32, u64, bool] at hm <;> subst hm <;>
    decide

/-- `static_cast<Integral>(-v)` is `-v` unless `v` is the minimum. -/
theorem conv_neg {t : ITy} (ht : t ∈ all) {v : Int} (h : t.InRange v) (hneg : v < 0)
    (hm : ¬ t.IsMin v) : t.conv (-v) = -v := by
  rcases mem_all ht with rfl | rfl | rfl | rfl | rfl | rfl | rfl | rfl | rfl <;>
    simp [InRange, IsMin, i8, i16, i32, i64, u8, u16, u32, u64, bool] at h hm <;>
    first
    | omega
    | (simp only [conv, i8, i16, i32, i64, Bool.false_eq_true, if_false, if_true]
       norm_num
       split_ifs <;> omega)

theorem conv_self {t : ITy} (ht : t ∈ all) {v : Int} (h : t.InRange v) : t.conv v = v := by
  rcases mem_all ht with rfl | rfl | rfl | rfl | rfl | rfl | rfl | rfl | rfl <;>
    simp [InRange, i8, i16, i32, i64, u8, u16, u32, u64, bool] at h <;>
    simp only [conv, i8, i16, i32, i64, u8, u16, u32, u64, bool, Bool.false_eq_true, if_false, if_true] <;>
    norm_num <;> (try split_ifs) <;> omega

end ITy

theorem toULL_toNat {v : Int} (h0 : 0 ≤ v) (h : v < 2 ^ 64) : (toULL v).toNat = v.toNat := by
  unfold toULL
  rw [BitVec.toNat_ofInt, Int.emod_eq_of_lt h0 (by simpa using h)]

theorem toULL_conv (v : Int) : toULL (ITy.i64.conv v) = toULL v := by
  unfold toULL
  apply BitVec.eq_of_toNat_eq
  rw [BitVec.toNat_ofInt, BitVec.toNat_ofInt]
  congr 1
  simp only [ITy.conv, ITy.i64, Bool.false_eq_true, if_false, if_true]
  norm_num
  split_ifs <;> omega

namespace Aesi
open Aeu (toNat Returns cmpNat)
variable {n m : Nat}

theorem ofIntegral_spec {t : ITy} (ht : t ∈ ITy.all) {v : Int} (hr : t.InRange v)
    (hm : ¬ t.IsWideMin v) (hfit : Fits n v) :
    Sat (ofIntegral n t v) fun r => toInt r = v ∧ Canon r := by
  unfold Fits at hfit
  obtain ⟨hb1, hb2, hb3⟩ := ITy.inRange_bounds ht hr
  unfold ofIntegral
  by_cases h1 : v < 0
  · rw [if_pos h1, ITy.negate_spec ht hr h1 hm]
    simp only [ok_bind]
    obtain ⟨r, hr', e⟩ := Aeu.ofUnsigned_spec (n := n) (le_refl 64) (toULL (-v))
    rw [toULL_toNat (by omega) (by omega), Nat.mod_eq_of_lt (by omega)] at e
    simp only [hr', ok_bind, sat_ok]
    exact ⟨by simp only [toInt, e]; omega, fun _ => by simp only; omega⟩
  · rw [if_neg h1]
    by_cases h2 : v > 0
    · rw [if_pos h2]
      obtain ⟨r, hr', e⟩ := Aeu.ofUnsigned_spec (n := n) (le_refl 64) (toULL v)
      rw [toULL_toNat (by omega) (by omega), Nat.mod_eq_of_lt (by omega)] at e
      simp only [hr', ok_bind, sat_ok]
      exact ⟨by simp only [toInt, e]; omega, fun _ => by simp only; omega⟩
    · rw [if_neg h2]
      exact Sat.ok ⟨by simp [toInt, zero]; omega, fun h => absurd rfl h⟩

theorem ofIntegral_wideMin {t : ITy} (ht : t ∈ ITy.all) {v : Int} (hm : t.IsWideMin v) :
    ofIntegral n t v = .error .signedOverflow := by
  have hv : v < 0 := by
    rcases ITy.mem_all ht with rfl | rfl | rfl | rfl | rfl | rfl | rfl | rfl | rfl <;>
    simp [ITy.IsWideMin, ITy.IsMin, ITy.i8, ITy.i16, ITy.i32, ITy.i64, ITy.u8, ITy.u16, ITy.u32, ITy.u64,
      ITy.bool] at hm <;> omega
  unfold ofIntegral
  rw [if_pos hv, ITy.negate_wideMin ht hm]
  rfl

/-- The sign step. -/
theorem absorbSign_spec {t : ITy} (ht : t ∈ ITy.all) (a : Aesi n) {f : Int} (hr : t.InRange f)
    (hm : ¬ t.IsMin f) : Sat (absorbSign t a f) fun r =>
      r.2 = (f.natAbs : Int) ∧ r.1 = if f < 0 then inverse a else a := by
  unfold absorbSign
  by_cases h : f < 0
  · rw [if_pos h, ITy.negate_spec ht hr h (fun hw => hm hw.1)]
    simp only [ok_bind, sat_ok, ITy.conv_neg ht hr h hm, if_pos h, and_true]
    omega
  · rw [if_neg h]
    exact Sat.ok ⟨by simp only; omega, by rw [if_neg h]⟩

theorem mulULL_spec (cfg : Cfg) (x : Aeu n) (f : U64) (h : cfg.u64IsULL = true ∨ f.toNat ≤ 2 ^ 32) :
    Returns (Aeu.mulULL cfg x f) (toNat x * f.toNat % 2 ^ (32 * n)) := by
  unfold Aeu.mulULL
  by_cases hc : cfg.u64IsULL = true
  · rw [if_pos hc]; exact Aeu.mulU64_spec x f
  · rw [if_neg hc]; exact Aeu.mulNarrow_spec x f (by rcases h with h | h; exact absurd h hc; exact h)

theorem mulIntegral_spec (cfg : Cfg) {t : ITy} (ht : t ∈ ITy.all) (a : Aesi n) {f : Int}
    (hr : t.InRange f) (hm : ¬ t.IsMin f) (hc : cfg.u64IsULL = true ∨ f.natAbs ≤ 2 ^ 32)
    (hfit : Fits n (toInt a * f)) :
    Sat (mulIntegral cfg t a f) fun r => toInt r = toInt a * f ∧ (Canon a → Canon r) := by
  unfold Fits at hfit
  obtain ⟨hb1, hb2, hb3⟩ := ITy.inRange_bounds ht hr
  unfold mulIntegral
  by_cases h0 : f = 0
  · rw [if_pos h0]
    exact Sat.ok ⟨by simp [toInt, h0], fun _ h => absurd rfl h⟩
  rw [if_neg h0]
  refine Sat.bind (absorbSign_spec ht a hr hm) ?_
  rintro ⟨a', g⟩ ⟨hg, ha'⟩
  simp only at hg ha' ⊢
  have hgn : (toULL g).toNat = f.natAbs := by
    rw [hg, toULL_toNat (by omega) (by omega)]; exact Int.toNat_natCast _
  obtain ⟨r, hr', e⟩ := mulULL_spec cfg a'.base (toULL g) (by rw [hgn]; exact hc)
  simp only [hr', ok_bind, sat_ok]
  have hbase : a'.base = a.base := by rw [ha']; split <;> rfl
  rw [hgn, hbase] at e
  rw [Int.natAbs_mul] at hfit
  by_cases ha : a.sign = .zero
  · have hz : a'.sign = .zero := by rw [ha']; split <;> simp [inverse, ha]
    exact ⟨by rw [toInt_zero ha]; simp [toInt, hz], fun _ h => absurd hz h⟩
  have h1 : (toInt a).natAbs = toNat a.base := by
    unfold toInt; cases h : a.sign <;> simp_all
  rw [h1] at hfit
  rw [Nat.mod_eq_of_lt hfit] at e
  constructor
  · have key : toInt { a' with base := r } = (if f < 0 then -1 else 1) * (toInt a * f.natAbs) := by
      rw [ha']
      unfold toInt inverse
      by_cases hf : f < 0 <;> cases hsa : a.sign <;> simp [hf, hsa, e]
    rw [key]
    by_cases hf : f < 0
    · rw [if_pos hf, show ((f.natAbs : Nat) : Int) = -f by omega]; ring
    · rw [if_neg hf, show ((f.natAbs : Nat) : Int) = f by omega]; ring
  · intro hca _
    have := Nat.mul_ne_zero (hca ha) (show f.natAbs ≠ 0 by omega)
    simp only; omega

theorem natAbs_cast_sign (f : Int) : ((f.natAbs : Nat) : Int) = if f < 0 then -f else f := by
  split <;> omega

theorem divIntegral_spec (cfg : Cfg) (hn : 0 < n) {t : ITy} (ht : t ∈ ITy.all) (a : Aesi n) {f : Int}
    (hr : t.InRange f) (hm : ¬ t.IsMin f) (h0 : f ≠ 0) (hfit : Fits n f) :
    Sat (divIntegral cfg t a f) fun r => toInt r = (toInt a).tdiv f ∧ Canon r := by
  unfold Fits at hfit
  obtain ⟨hb1, hb2, hb3⟩ := ITy.inRange_bounds ht hr
  unfold divIntegral
  rw [if_neg h0]
  refine Sat.bind (absorbSign_spec ht a hr hm) ?_
  rintro ⟨a', g⟩ ⟨hg, ha'⟩
  simp only at hg ha' ⊢
  have hgn : (toULL g).toNat = f.natAbs := by
    rw [hg, toULL_toNat (by omega) (by omega)]; exact Int.toNat_natCast _
  obtain ⟨d, hd, ed⟩ := Aeu.ofUnsigned_spec (n := n) (le_refl 64) (toULL g)
  rw [hgn, Nat.mod_eq_of_lt hfit] at ed
  obtain ⟨r, hr', e⟩ := Aeu.div_spec cfg hn a'.base d (by omega)
  simp only [hd, hr', ok_bind]
  refine Sat.mono (normalise_spec _) ?_
  rintro c ⟨h1, h2, _⟩
  refine ⟨?_, h2⟩
  have hbase : a'.base = a.base := by rw [ha']; split <;> rfl
  rw [hbase, ed] at e
  have key : toInt { a' with base := r } = (if f < 0 then -1 else 1) * ((toInt a).tdiv f.natAbs) := by
    rw [ha']
    unfold toInt inverse
    by_cases hf : f < 0 <;> cases hsa : a.sign <;> simp [hf, hsa, e, Int.neg_tdiv]
  rw [h1, key, natAbs_cast_sign]
  by_cases hf : f < 0
  · simp only [hf, if_true, Int.tdiv_neg]; ring
  · simp only [hf, if_false]; ring

theorem modIntegral_spec (cfg : Cfg) (hn : 0 < n) {t : ITy} (ht : t ∈ ITy.all) (a : Aesi n) {f : Int}
    (hr : t.InRange f) (hm : ¬ t.IsMin f) (h0 : f ≠ 0) (hfit : Fits n f) :
    Sat (modIntegral cfg t a f) fun r => toInt r = (if f < 0 then -1 else 1) * (toInt a).tmod f := by
  unfold Fits at hfit
  obtain ⟨hb1, hb2, hb3⟩ := ITy.inRange_bounds ht hr
  unfold modIntegral
  rw [if_neg h0]
  refine Sat.bind (absorbSign_spec ht a hr hm) ?_
  rintro ⟨a', g⟩ ⟨hg, ha'⟩
  simp only at hg ha' ⊢
  have hgn : (toULL g).toNat = f.natAbs := by
    rw [hg, toULL_toNat (by omega) (by omega)]; exact Int.toNat_natCast _
  obtain ⟨d, hd, ed⟩ := Aeu.ofUnsigned_spec (n := n) (le_refl 64) (toULL g)
  rw [hgn, Nat.mod_eq_of_lt hfit] at ed
  obtain ⟨r, hr', e⟩ := Aeu.mod_spec cfg hn a'.base d (by omega)
  simp only [hd, hr', ok_bind, sat_ok]
  have hbase : a'.base = a.base := by rw [ha']; split <;> rfl
  rw [hbase, ed] at e
  have key : toInt { a' with base := r } = (if f < 0 then -1 else 1) * ((toInt a).tmod f.natAbs) := by
    have e' : ((toNat r : Nat) : Int) = Int.tmod (toNat a.base) (f.natAbs : Nat) := by
      rw [e]; exact Int.ofNat_tmod _ _
    rw [ha']
    unfold toInt inverse
    by_cases hf : f < 0 <;> cases hsa : a.sign <;>
      simp only [hf, hsa, if_true, if_false, e', Int.neg_tmod, Int.zero_tmod] <;> ring
  rw [key, natAbs_cast_sign]
  by_cases hf : f < 0
  · simp only [hf, if_true, Int.tmod_neg]
  · simp only [hf, if_false]

theorem compareToIntegral_spec (hn : 2 ≤ n) {t : ITy} (ht : t ∈ ITy.all) (a : Aesi n) (ha : Canon a)
    {i : Int} (hr : t.InRange i) (hm : i ≠ -(2 : Int) ^ 63) :
    compareToIntegral a i = .ok (cmpInt (toInt a) i) := by
  obtain ⟨hb1, hb2, hb3⟩ := ITy.inRange_bounds ht hr
  unfold compareToIntegral
  unfold Canon at ha
  by_cases h0 : i = 0
  · rw [if_pos h0]
    unfold cmpInt signOnly toInt
    cases hs : a.sign <;> simp [hs] at ha ⊢ <;> (try split_ifs) <;> first | rfl | omega
  rw [if_neg h0]
  by_cases hneg : i < 0
  · rw [if_pos hneg]
    by_cases hs : a.sign = .negative
    · rw [if_pos hs]
      have hconv : ITy.i64.conv i = i := ITy.conv_self (by simp [ITy.all]) (by
        simp [ITy.InRange, ITy.i64]; omega)
      rw [hconv, ITy.negate_spec (t := ITy.i64) (by simp [ITy.all]) (by
        simp [ITy.InRange, ITy.i64]; omega) hneg (by
        simp [ITy.IsWideMin, ITy.IsMin, ITy.i64]; omega)]
      simp only [ok_bind]
      rw [Aeu.compareToU64_spec (by omega), toULL_toNat (by omega) (by omega)]
      simp only [ok_bind]
      congr 1
      rw [toInt_neg hs]
      unfold cmpNat cmpInt
      split_ifs <;> first | rfl | omega
    · rw [if_neg hs]
      unfold cmpInt toInt
      cases hs' : a.sign <;> simp [hs'] at hs ⊢ <;> split_ifs <;> first | rfl | omega
  · rw [if_neg hneg]
    by_cases hs : a.sign = .positive
    · rw [if_pos hs, toULL_conv, Aeu.compareToU64_spec (by omega), toULL_toNat (by omega) (by omega)]
      congr 1
      rw [toInt_pos hs]
      unfold cmpNat cmpInt
      split_ifs <;> first | rfl | omega
    · rw [if_neg hs]
      unfold cmpInt toInt
      cases hs' : a.sign <;> simp [hs'] at hs ⊢ <;> split_ifs <;> first | rfl | omega

theorem integralCast_spec (hn : 2 ≤ n) {t : ITy} (ht : t ∈ ITy.all) (a : Aesi n)
    (hr : t.InRange (toInt a)) (hm : ¬ t.IsWideMin (toInt a)) : integralCast t a = .ok (toInt a) := by
  unfold integralCast
  have hcast : ∀ x : Aeu n, Aeu.integralCast t x = .ok (t.conv ((toNat x % 2 ^ 64 : Nat) : Int)) := by
    intro x
    obtain ⟨v, hv, e⟩ := Aeu.low64_spec (by omega) x
    simp [Aeu.integralCast, hv, e]
  rw [hcast]
  obtain ⟨hb1, hb2, hb3⟩ := ITy.inRange_bounds ht hr
  cases hs : a.sign with
  | zero => simp [toInt_zero hs]
  | positive =>
    rw [toInt_pos hs] at hr hb2 ⊢
    rw [if_neg (by simp), if_neg (by simp), Nat.mod_eq_of_lt (by omega), ITy.conv_self ht hr]
  | negative =>
    rw [toInt_neg hs] at hr hb1 hb3 hm ⊢
    rw [if_neg (by simp), Nat.mod_eq_of_lt (by omega)]
    generalize toNat a.base = k at *
    by_cases hk : k = 0
    · subst hk
      rcases ITy.mem_all ht with rfl | rfl | rfl | rfl | rfl | rfl | rfl | rfl | rfl <;> decide
    · have hsg := hb3 (by omega)
      rw [if_pos ⟨hsg, rfl⟩]
      simp only [ok_bind]
      rcases ITy.mem_all ht with rfl | rfl | rfl | rfl | rfl | rfl | rfl | rfl | rfl <;>
        first
        | exact absurd hsg (by decide)
        | skip
      · by_cases h128 : k = 128
        · subst h128; decide
        · simp [ITy.InRange, ITy.i8] at hr
          rw [ITy.conv_self (t := ITy.i8) (by simp [ITy.all]) (by simp [ITy.InRange, ITy.i8]; omega)]
          simp only [ITy.times, ITy.promoted, ITy.i8]
          norm_num
          simp only [ITy.InRange, ITy.i32]
          norm_num
          rw [if_pos (by omega)]
          simp only [ok_bind]
          congr 1
          exact ITy.conv_self (t := ITy.i8) (by simp [ITy.all]) (by simp [ITy.InRange, ITy.i8]; omega)
      · by_cases h128 : k = 32768
        · subst h128; decide
        · simp [ITy.InRange, ITy.i16] at hr
          rw [ITy.conv_self (t := ITy.i16) (by simp [ITy.all]) (by simp [ITy.InRange, ITy.i16]; omega)]
          simp only [ITy.times, ITy.promoted, ITy.i16]
          norm_num
          simp only [ITy.InRange, ITy.i32]
          norm_num
          rw [if_pos (by omega)]
          simp only [ok_bind]
          congr 1
          exact ITy.conv_self (t := ITy.i16) (by simp [ITy.all]) (by simp [ITy.InRange, ITy.i16]; omega)
      · simp [ITy.IsWideMin, ITy.IsMin, ITy.i32] at hm
        simp [ITy.InRange, ITy.i32] at hr
        rw [ITy.conv_self (t := ITy.i32) (by simp [ITy.all]) (by simp [ITy.InRange, ITy.i32]; omega)]
        simp only [ITy.times, ITy.promoted, ITy.i32]
        norm_num
        simp only [ITy.InRange]
        norm_num
        rw [if_pos (by omega)]
        simp only [ok_bind]
        congr 1
        exact ITy.conv_self (t := ITy.i32) (by simp [ITy.all]) (by simp [ITy.InRange, ITy.i32]; omega)
      · simp [ITy.IsWideMin, ITy.IsMin, ITy.i64] at hm
        simp [ITy.InRange, ITy.i64] at hr
        rw [ITy.conv_self (t := ITy.i64) (by simp [ITy.all]) (by simp [ITy.InRange, ITy.i64]; omega)]
        simp only [ITy.times, ITy.promoted, ITy.i64]
        norm_num
        simp only [ITy.InRange]
        norm_num
        rw [if_pos (by omega)]
        simp only [ok_bind]
        congr 1
        exact ITy.conv_self (t := ITy.i64) (by simp [ITy.all]) (by simp [ITy.InRange, ITy.i64]; omega)

/-- What `precisionCast` computes: the sign, and the magnitude modulo `2^newBitness`. -/
theorem precisionCast_exact (cfg : Cfg) (hn : 0 < n) (hm : 0 < m) (a : Aesi n) :
    Sat (precisionCast cfg m a) fun r => r.sign = a.sign ∧
      toNat r.base = if a.sign = .zero then 0 else toNat a.base % 2 ^ (32 * m) := by
  unfold precisionCast
  by_cases h0 : a.sign = .zero
  · rw [if_neg (by simp [h0])]
    exact Sat.ok ⟨by simp [zero, h0], by simp [zero, h0]⟩
  rw [if_pos h0]
  have hone : Sat (ofIntegral m .i32 1) fun r => r.sign = .positive ∧ toNat r.base = 1 := by
    obtain ⟨r, hr', e⟩ := Aeu.ofUnsigned_spec (n := m) (le_refl 64) (toULL 1)
    refine ⟨⟨.positive, r⟩, ?_, rfl, ?_⟩
    · simp [ofIntegral, hr']
    · have h1 : (toULL 1).toNat = 1 := by decide
      rw [e, h1, Nat.mod_eq_of_lt]
      exact Nat.one_lt_two_pow (by omega)
  refine Sat.bind hone ?_
  rintro ⟨s, one⟩ ⟨rfl, hone⟩
  simp only at hone ⊢
  have hmin : (if m > n then n else m) = min n m := by simp only [Nat.min_def]; split <;> split <;> omega
  rw [hmin]
  have hd1 : ∀ j, 0 < j → Aeu.dig one j = 0 := by
    intro j hj
    rw [← Aeu.toNat_digit, hone, Nat.div_eq_of_lt (Nat.one_lt_two_pow (by omega))]
  refine Sat.bind (Sat.forUp (fun i (s : Aeu m) => (∀ j, j < i → Aeu.dig s j = Aeu.dig a.base j) ∧
      ∀ j, i ≤ j → 0 < j → Aeu.dig s j = 0) (Nat.zero_le _)
    (Q := fun s => toNat s = toNat a.base % 2 ^ (32 * m)) ?_ ?_ ?_) ?_
  · exact ⟨fun j hj => absurd hj (by omega), fun j _ hj => hd1 j hj⟩
  · rintro i s _ hi ⟨h1, h2⟩
    have hin : i < n := by omega
    have him : i < m := by omega
    simp only [Aeu.getBlock_spec cfg a.base hin, Aeu.setBlock_spec cfg s _ him, ok_bind, sat_ok]
    constructor
    · intro j hj
      by_cases hji : j = i
      · subst hji; rw [Aeu.dig_set_self him, Aeu.dig_of_lt hin]
      · rw [Aeu.dig_set_ne him hji, h1 j (by omega)]
    · intro j hj hj0
      rw [Aeu.dig_set_ne him (by omega), h2 j (by omega) hj0]
  · rintro s ⟨h1, h2⟩
    rw [← Aeu.toNat_ofNat (n := m)]
    congr 1
    apply Aeu.ext_dig
    intro i hi
    rw [Aeu.dig_ofNat, if_pos hi, Aeu.toNat_digit]
    by_cases him : i < min n m
    · exact h1 i him
    · rw [h2 i (by omega) (by omega), Aeu.dig_of_ge (by omega)]
  · intro s hs
    refine Sat.ok ?_
    by_cases hneg : a.sign = .negative
    · rw [if_pos hneg]
      exact ⟨by simp [inverse, hneg], by simp [inverse, h0, hs]⟩
    · rw [if_neg hneg]
      have hp : a.sign = .positive := by revert h0 hneg; cases a.sign <;> simp
      exact ⟨hp.symm, by simp [h0, hs]⟩

theorem precisionCast_spec (cfg : Cfg) (hn : 0 < n) (hm : 0 < m) (a : Aesi n)
    (hfit : Fits m (toInt a)) :
    Sat (precisionCast cfg m a) fun r => toInt r = toInt a ∧ (Canon a → Canon r) := by
  refine Sat.mono (precisionCast_exact cfg hn hm a) ?_
  rintro r ⟨h1, h2⟩
  unfold Fits toInt at hfit
  by_cases h0 : a.sign = .zero
  · exact ⟨by rw [toInt_zero h0, toInt_zero (h1.trans h0)], fun _ h => absurd (h1.trans h0) h⟩
  rw [if_neg h0, Nat.mod_eq_of_lt (by cases hs : a.sign <;> simp_all)] at h2
  constructor
  · unfold toInt; rw [h1, h2]
  · intro hc _
    rw [h2]; exact hc h0

end Aesi
end AesiMP
