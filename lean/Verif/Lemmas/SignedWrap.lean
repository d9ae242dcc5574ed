import Verif.Lemmas.SignedBuiltin

/-!
# Signed operations beyond the precision
-/

namespace AesiMP
namespace Aesi
open Aeu (toNat Returns)
variable {n m : Nat}

/-- `2^bitness`. -/
private theorem natTmod (x y : Nat) : (x : Int).tmod (y : Int) = ((x % y : Nat) : Int) := by
  rw [Int.ofNat_tmod]

theorem tmod_modEq (x y : Int) : x.tmod y ≡ x [ZMOD y] := by
  rw [Int.modEq_iff_dvd]
  exact ⟨x.tdiv y, by have := Int.mul_tdiv_add_tmod x y; omega⟩

theorem tmod_of_fits {v : Int} (h : Fits n v) : v.tmod (2 ^ (32 * n)) = v := by
  unfold Fits at h
  have e : ((2 : Int) ^ (32 * n)) = ((2 ^ (32 * n) : Nat) : Int) := by push_cast; rfl
  rw [e]
  rcases Int.natAbs_eq v with hv | hv
  · rw [hv, natTmod, Nat.mod_eq_of_lt h]
  · rw [hv, Int.neg_tmod, natTmod, Nat.mod_eq_of_lt h]

theorem add_wrap (cfg : Cfg) (a b : Aesi n) :
    Sat (add cfg a b) fun r => toInt r = (toInt a + toInt b).tmod (2 ^ (32 * n)) := by
  by_cases hfit : Fits n (toInt a + toInt b)
  · exact Sat.mono (add_spec cfg a b hfit) fun r h => by rw [h.1, tmod_of_fits hfit]
  · have ha := Aeu.toNat_lt a.base
    have hb := Aeu.toNat_lt b.base
    have hza : a.sign ≠ .zero := by
      intro h; apply hfit; rw [toInt_zero h, Int.zero_add]; exact fits_toInt b
    have hzb : b.sign ≠ .zero := by
      intro h; apply hfit; rw [toInt_zero h, Int.add_zero]; exact fits_toInt a
    have hab : a.sign = b.sign := by
      by_contra hne
      apply hfit
      unfold Fits toInt
      cases hsa : a.sign <;> cases hsb : b.sign <;> simp_all <;> omega
    unfold add
    rw [if_neg hzb, if_neg hza, if_pos hab]
    obtain ⟨r, hr, e⟩ := Aeu.add_spec a.base b.base
    simp only [hr, ok_bind, sat_ok]
    have e2 : ((2 : Int) ^ (32 * n)) = ((2 ^ (32 * n) : Nat) : Int) := by push_cast; rfl
    rw [e2]
    unfold toInt
    rw [← hab]
    cases hs : a.sign with
    | zero => exact absurd hs hza
    | positive => simp only [e]; rw [← Nat.cast_add, natTmod]
    | negative =>
      simp only [e]
      rw [← Int.neg_add, ← Nat.cast_add, Int.neg_tmod, natTmod]

theorem sub_wrap (cfg : Cfg) (a b : Aesi n) :
    Sat (sub cfg a b) fun r => toInt r = (toInt a - toInt b).tmod (2 ^ (32 * n)) := by
  rw [sub_eq_add_inverse]
  refine Sat.mono (add_wrap cfg a (inverse b)) fun r h => ?_
  rw [h, toInt_inverse, Int.sub_eq_add_neg]

theorem mul_wrap (a b : Aesi n) :
    Sat (mul a b) fun r => toInt r = (toInt a * toInt b).tmod (2 ^ (32 * n)) := by
  unfold mul isZero isNegative
  by_cases hb : b.sign = .zero
  · rw [if_pos (by simp [hb])]
    exact Sat.ok (by rw [toInt_zero hb]; simp [toInt])
  rw [if_neg (by simp [hb])]
  have hbase : (if (b.sign == Sign.negative) = true then inverse a else a).base = a.base := by
    split <;> rfl
  dsimp only
  rw [hbase]
  obtain ⟨r, hr, e⟩ := Aeu.mul_spec a.base b.base
  simp only [hr, ok_bind, sat_ok]
  have e2 : ((2 : Int) ^ (32 * n)) = ((2 ^ (32 * n) : Nat) : Int) := by push_cast; rfl
  rw [e2]
  have key : ((toNat a.base : Int) * toNat b.base).tmod ((2 ^ (32 * n) : Nat) : Int) = toNat r := by
    rw [e, ← Nat.cast_mul, natTmod]
  unfold toInt inverse
  cases hsa : a.sign <;> cases hsb : b.sign <;>
    first
    | exact absurd hsb hb
    | simp [hsa, Int.neg_mul, Int.mul_neg, Int.neg_tmod]
  all_goals first | exact key.symm | (have := key; push_cast at this; simp [this])

theorem inc_wrap (hn : 0 < n) (a : Aesi n) (ha : Canon a) :
    Sat (inc a) fun r => toInt r = (toInt a + 1).tmod (2 ^ (32 * n)) := by
  by_cases hfit : Fits n (toInt a + 1)
  · exact Sat.mono (inc_spec hn a ha hfit) fun r h => by rw [h.1, tmod_of_fits hfit]
  · have hb := Aeu.toNat_lt a.base
    have hpos : a.sign = .positive := by
      cases hs : a.sign with
      | positive => rfl
      | zero =>
        exfalso; apply hfit; rw [toInt_zero hs]; unfold Fits
        simp only [Int.zero_add, Int.natAbs_one]
        exact Nat.one_lt_two_pow (by omega)
      | negative =>
        exfalso; apply hfit; rw [toInt_neg hs]; unfold Fits
        have := ha (by rw [hs]; simp)
        omega
    have hv : toNat a.base + 1 = 2 ^ (32 * n) := by
      unfold Fits at hfit; rw [toInt_pos hpos] at hfit; omega
    unfold inc
    rw [hpos]
    dsimp only
    obtain ⟨r, hr, e⟩ := Aeu.inc_spec a.base
    simp only [hr, ok_bind, sat_ok]
    rw [toInt_pos hpos]
    have e2 : ((2 : Int) ^ (32 * n)) = ((2 ^ (32 * n) : Nat) : Int) := by push_cast; rfl
    rw [e2, ← Nat.cast_succ, Nat.succ_eq_add_one, natTmod, ← e]
    simp [toInt]

theorem dec_wrap (hn : 0 < n) (a : Aesi n) (ha : Canon a) :
    Sat (dec a) fun r => toInt r = (toInt a - 1).tmod (2 ^ (32 * n)) := by
  rw [dec_eq]
  refine Sat.bind (inc_wrap hn (inverse a) (canon_inverse ha)) fun r h => Sat.ok ?_
  rw [toInt_inverse, h, toInt_inverse, ← Int.neg_tmod]
  congr 1; ring

/-- Congruence modulo `2^bitness` for `++`, whatever the object (also a "positive" or "negative"
zero). -/
theorem inc_mod (hn : 0 < n) (a : Aesi n) :
    Sat (inc a) fun r => toInt r ≡ toInt a + 1 [ZMOD 2 ^ (32 * n)] := by
  by_cases ha : Canon a
  · refine Sat.mono (inc_wrap hn a ha) fun r h => ?_
    rw [h]; exact tmod_modEq _ _
  · unfold Canon at ha
    push Not at ha
    obtain ⟨h1, h2⟩ := ha
    unfold inc
    cases hs : a.sign with
    | zero => exact absurd hs h1
    | positive =>
      dsimp only
      obtain ⟨r, hr, e⟩ := Aeu.inc_spec a.base
      simp only [hr, ok_bind, sat_ok]
      rw [h2, Nat.zero_add, Nat.mod_eq_of_lt (Nat.one_lt_two_pow (by omega))] at e
      simp [toInt, hs, e, h2]
    | negative =>
      dsimp only
      obtain ⟨r, hr, e⟩ := Aeu.dec_spec a.base
      simp only [hr, ok_bind]
      refine Sat.mono (normalise_spec _) fun q hq => ?_
      rw [hq.1]
      rw [h2, Nat.zero_add, Nat.mod_eq_of_lt (Nat.sub_lt (by positivity) (by norm_num))] at e
      simp only [toInt, hs, e, h2]
      rw [Nat.cast_sub Nat.one_le_two_pow]
      push_cast
      rw [Int.modEq_iff_dvd]
      exact ⟨1, by ring⟩

theorem dec_mod (hn : 0 < n) (a : Aesi n) :
    Sat (dec a) fun r => toInt r ≡ toInt a - 1 [ZMOD 2 ^ (32 * n)] := by
  rw [dec_eq]
  refine Sat.bind (inc_mod hn (inverse a)) fun r h => Sat.ok ?_
  have := h.neg
  rw [toInt_inverse] at this
  rw [toInt_inverse]
  rwa [show -(-toInt a + 1) = toInt a - 1 by ring] at this

theorem ofIntegral_wrap {t : ITy} (ht : t ∈ ITy.all) {v : Int} (hr : t.InRange v)
    (hm : ¬ t.IsWideMin v) :
    Sat (ofIntegral n t v) fun r => toInt r = v.tmod (2 ^ (32 * n)) := by
  obtain ⟨hb1, hb2, hb3⟩ := ITy.inRange_bounds ht hr
  have e2 : ((2 : Int) ^ (32 * n)) = ((2 ^ (32 * n) : Nat) : Int) := by push_cast; rfl
  unfold ofIntegral
  by_cases h1 : v < 0
  · rw [if_pos h1, ITy.negate_spec ht hr h1 hm]
    simp only [ok_bind]
    obtain ⟨r, hr', e⟩ := Aeu.ofUnsigned_spec (n := n) (le_refl 64) (toULL (-v))
    rw [toULL_toNat (by omega) (by omega)] at e
    simp only [hr', ok_bind, sat_ok]
    obtain ⟨k, rfl⟩ : ∃ k : Nat, v = -(k : Int) := ⟨v.natAbs, by omega⟩
    rw [e2, Int.neg_tmod, natTmod]
    simp only [toInt, e]
    simp
  · rw [if_neg h1]
    by_cases h2 : v > 0
    · rw [if_pos h2]
      obtain ⟨r, hr', e⟩ := Aeu.ofUnsigned_spec (n := n) (le_refl 64) (toULL v)
      rw [toULL_toNat (by omega) (by omega)] at e
      simp only [hr', ok_bind, sat_ok]
      obtain ⟨k, rfl⟩ : ∃ k : Nat, v = (k : Int) := ⟨v.natAbs, by omega⟩
      rw [e2, natTmod]
      simp only [toInt, e]
      simp
    · rw [if_neg h2]
      obtain rfl : v = 0 := by omega
      exact Sat.ok (by simp [toInt, zero])

theorem mulIntegral_wrap (cfg : Cfg) {t : ITy} (ht : t ∈ ITy.all) (a : Aesi n) {f : Int}
    (hr : t.InRange f) (hm : ¬ t.IsMin f) (hf : cfg.u64IsULL = true ∨ f.natAbs ≤ 2 ^ 32) :
    Sat (mulIntegral cfg t a f) fun r => toInt r = (toInt a * f).tmod (2 ^ (32 * n)) := by
  obtain ⟨hb1, hb2, hb3⟩ := ITy.inRange_bounds ht hr
  have e2 : ((2 : Int) ^ (32 * n)) = ((2 ^ (32 * n) : Nat) : Int) := by push_cast; rfl
  unfold mulIntegral
  by_cases h0 : f = 0
  · rw [if_pos h0]; subst h0; exact Sat.ok (by simp [toInt])
  rw [if_neg h0]
  refine Sat.bind (absorbSign_spec ht a hr hm) ?_
  rintro ⟨b, g⟩ ⟨hg, hb⟩
  simp only at hg hb
  subst hg
  dsimp only
  have hu : (toULL (f.natAbs : Int)).toNat = f.natAbs := by
    rw [toULL_toNat (by omega) (by omega)]; omega
  refine Sat.bind (mulULL_spec cfg b.base _ (by rw [hu]; exact hf)) ?_
  intro r e
  refine Sat.ok ?_
  rw [hu] at e
  have hbb : b.base = a.base := by rw [hb]; split <;> rfl
  rw [hbb] at e
  have key : ((toNat a.base : Int) * (f.natAbs : Int)).tmod ((2 ^ (32 * n) : Nat) : Int) = toNat r := by
    rw [e, ← Nat.cast_mul, natTmod]
  rw [e2]
  by_cases hneg : f < 0
  · rw [if_pos hneg] at hb
    obtain ⟨g, hg⟩ : ∃ g : Int, (f.natAbs : Int) = g := ⟨_, rfl⟩
    have hfa : f = -g := by omega
    rw [hg] at key
    rw [hfa, hb]
    unfold toInt inverse
    cases hs : a.sign <;> simp [Int.neg_tmod, key] <;> (push_cast at key; simp [key])
  · rw [if_neg hneg] at hb
    obtain ⟨g, hg⟩ : ∃ g : Int, (f.natAbs : Int) = g := ⟨_, rfl⟩
    have hfa : f = g := by omega
    rw [hg] at key
    rw [hfa, hb]
    unfold toInt
    cases hs : a.sign <;> simp [Int.neg_tmod, key] <;> (push_cast at key; simp [key])

end Aesi
end AesiMP
