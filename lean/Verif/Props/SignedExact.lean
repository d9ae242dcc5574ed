import Verif.Props.SignedTotal
import Verif.Props.Compare
import Verif.Props.Gmp
import Verif.Props.Program
import Verif.Props.Mixed

/-!
# Signed numbers: the outcome of the partial operations for every object and operand

C38-C40, C47-C50, C65 hold with restrictions; the theorems here determine what happens without them.
-/

namespace AesiMP
variable {n m : Nat}
open Aesi

/-! ### C39, C40 for every divisor, the non-canonical zeros included -/

private theorem base_ite (c : Prop) [Decidable c] (a : Aesi n) : (if c then inverse a else a).base = a.base := by
  split <;> rfl

/-- C39, exactly, for every pair of objects: the truncated remainder (`a` itself when `b` represents 0),
negated when `b` claims the negative sign. -/
theorem C39_mod_every (cfg : Cfg) (hn : 0 < n) (a b : Aesi n) :
    Sat (mod cfg a b) fun r =>
      toInt r = if sgn b < 0 then -((toInt a).tmod (toInt b)) else (toInt a).tmod (toInt b) := by
  by_cases hb : b.sign = .zero
  · rw [mod, if_pos (by simp [isZero, hb])]
    refine Sat.ok ?_
    rw [toInt_zero hb, Int.tmod_zero]
    simp [sgn, hb]
  · unfold mod isZero isNegative
    rw [if_neg (by simp [hb])]
    dsimp only
    rw [base_ite]
    obtain ⟨r, hr, e, _⟩ := Aeu.divide_total cfg hn a.base b.base
    simp only [Aeu.mod, hr, ok_bind]
    refine Sat.mono (normalise_spec _) ?_
    rintro c ⟨h1, _, _⟩
    rw [h1]
    unfold toInt inverse sgn
    cases hsa : a.sign <;> cases hsb : b.sign <;> simp_all [Int.neg_tmod, Int.tmod_neg] <;>
      exact Int.ofNat_tmod ..

/-- C38: the quotient exists for every pair of objects. -/
theorem C38_div_total (cfg : Cfg) (hn : 0 < n) (a b : Aesi n) : ∃ r, div cfg a b = .ok r := by
  by_cases hb : b.sign = .zero
  · exact ⟨_, by rw [div, if_pos (by simp [isZero, hb])]⟩
  · unfold div isZero isNegative
    rw [if_neg (by simp [hb])]
    dsimp only
    rw [base_ite]
    obtain ⟨r, hr, _⟩ := Aeu.divide_total cfg hn a.base b.base
    simp only [Aeu.div, hr, ok_bind]
    obtain ⟨c, hc, _⟩ := normalise_spec (⟨(if (b.sign == Sign.negative) = true then inverse a else a).sign,
      r.1⟩ : Aesi n)
    exact ⟨c, hc⟩

/-- C40 for every pair of objects: the remainder is that of the integers, 0 if `b` claims to be zero. -/
theorem C40_divide_every (cfg : Cfg) (hn : 0 < n) (a b q0 r0 : Aesi n) :
    Sat (divide cfg a b q0 r0) fun (_, r) =>
      toInt r = if sgn b = 0 then 0 else (toInt a).tmod (toInt b) := by
  unfold divide
  by_cases h : a.sign = .zero ∨ b.sign = .zero
  · rw [if_pos h]
    refine Sat.ok ?_
    simp only [toInt]
    rcases h with h | h
    · simp [h]
    · simp [sgn, h]
  · rw [if_neg h]
    obtain ⟨qr, hr, e, _⟩ := Aeu.divide_total cfg hn a.base b.base
    simp only [hr, ok_bind]
    refine Sat.bind (normalise_spec _) fun q _ => ?_
    refine Sat.bind (normalise_spec _) ?_
    rintro c ⟨h1, _, _⟩
    refine Sat.ok ?_
    simp only [h1]
    unfold toInt sgn
    push Not at h
    cases hsa : a.sign <;> cases hsb : b.sign <;> simp_all [Int.neg_tmod, Int.tmod_neg] <;>
      exact Int.ofNat_tmod ..

example : (mod lp64 (ofInt 2 7) ⟨.negative, Aeu.ofNat 2 0⟩).map toInt = .ok (-7) := by decide +kernel

/-! ### C47, C48 for every value -/

/-- C47, exactly: construction from a built-in fails (negation overflows) for the minimum of `int` and of
wider signed types; otherwise the result is the value reduced to the precision. -/
theorem C47_construct_exact {t : ITy} (ht : t ∈ ITy.all) {i : Int} (hr : t.InRange i) :
    if t.signed = true ∧ 32 ≤ t.width ∧ i = -(2 : Int) ^ (t.width - 1)
    then ofIntegral n t i = .error .signedOverflow
    else Sat (ofIntegral n t i) fun r => toInt r = i.tmod (2 ^ (32 * n)) := by
  split
  · rename_i h; exact ofIntegral_wideMin ht ⟨⟨h.1, h.2.2⟩, h.2.1⟩
  · rename_i h; exact ofIntegral_wrap ht hr fun hw => h ⟨hw.1.1, hw.2, hw.1.2⟩

private theorem cast_any (hn : 2 ≤ n) (t : ITy) (x : Aeu n) :
    Aeu.integralCast t x = .ok (t.conv ((Aeu.toNat x % 2 ^ 64 : Nat) : Int)) := by
  obtain ⟨v, hv, e⟩ := Aeu.low64_spec (show 1 < n by omega) x
  simp [Aeu.integralCast, hv, e]

private theorem cast_pos {t : ITy} (ht : t ∈ ITy.all) (k : Nat) :
    (Except.ok (t.conv ((k % 2 ^ 64 : Nat) : Int)) : Exec Int) =
      .ok (t.conv (if t.signed = true then (k : Int) else ((((k : Int).natAbs % 2 ^ 64 : Nat)) : Int))) := by
  congr 1
  rcases ITy.mem_all ht with rfl | rfl | rfl | rfl | rfl | rfl | rfl | rfl | rfl <;>
      simp [ITy.conv, ITy.i8, ITy.i16, ITy.i32, ITy.i64, ITy.u8, ITy.u16, ITy.u32, ITy.u64, ITy.bool] <;>
      omega

private theorem cast_neg {t : ITy} (ht : t ∈ ITy.all) (k : Nat) (h : t.signed = true) :
    (do
      let v ← (Except.ok (t.conv ((k % 2 ^ 64 : Nat) : Int)) : Exec Int)
      let p ← t.times v (-1)
      Except.ok (t.conv p)) =
      if t.signed = true ∧ 32 ≤ t.width ∧ (-(k : Int)) < 0 ∧ (-(k : Int)).natAbs % 2 ^ t.width = 2 ^ (t.width - 1)
      then .error .signedOverflow
      else .ok (t.conv (if t.signed = true then (-(k : Int)) else (((-(k : Int)).natAbs % 2 ^ 64 : Nat) : Int))) := by
  rw [ok_bind]
  rcases ITy.mem_all ht with rfl | rfl | rfl | rfl | rfl | rfl | rfl | rfl | rfl
  all_goals first | exact absurd h (by decide) | skip
  · (simp [ITy.conv, ITy.times, ITy.promoted, ITy.InRange, ITy.i8, ITy.i16, ITy.i32, ITy.i64] <;>
      (try split_ifs) <;> (try simp only [ok_bind, Except.ok.injEq]) <;> (try split_ifs) <;>
      first | rfl | omega | (exfalso; omega))
  · (simp [ITy.conv, ITy.times, ITy.promoted, ITy.InRange, ITy.i8, ITy.i16, ITy.i32, ITy.i64] <;>
      (try split_ifs) <;> (try simp only [ok_bind, Except.ok.injEq]) <;> (try split_ifs) <;>
      first | rfl | omega | (exfalso; omega))
  · (simp [ITy.conv, ITy.times, ITy.promoted, ITy.InRange, ITy.i8, ITy.i16, ITy.i32, ITy.i64] <;>
      (try split_ifs) <;> (try simp only [ok_bind, Except.ok.injEq]) <;> (try split_ifs) <;>
      first | rfl | omega | (exfalso; omega))
  · (simp [ITy.conv, ITy.times, ITy.promoted, ITy.InRange, ITy.i8, ITy.i16, ITy.i32, ITy.i64] <;>
      (try split_ifs) <;> (try simp only [ok_bind, Except.ok.injEq]) <;> (try split_ifs) <;>
      first | rfl | omega | (exfalso; omega))

/-- C48, exactly, for every object and type: a negative number whose magnitude, reduced to a signed type
of at least 32 bits, is the magnitude of that type's minimum overflows; otherwise the value (for a signed
type) or the magnitude modulo 2^64 (for an unsigned type or `bool`) is converted as by `static_cast`. -/
theorem C48_cast_exact (hn : 2 ≤ n) {t : ITy} (ht : t ∈ ITy.all) (a : Aesi n) :
    integralCast t a =
      if t.signed = true ∧ 32 ≤ t.width ∧ toInt a < 0 ∧ (toInt a).natAbs % 2 ^ t.width = 2 ^ (t.width - 1)
      then .error .signedOverflow
      else .ok (t.conv (if t.signed = true then toInt a else (((toInt a).natAbs % 2 ^ 64 : Nat) : Int))) := by
  unfold integralCast
  rw [cast_any hn]
  cases hs : a.sign with
  | zero =>
    rw [toInt_zero hs, if_pos rfl, if_neg (by omega)]
    simp [ITy.conv]
  | positive =>
    rw [toInt_pos hs, if_neg (by simp), if_neg (by simp), if_neg (by omega)]
    exact cast_pos ht _
  | negative =>
    rw [toInt_neg hs, if_neg (by simp)]
    have := cast_neg ht (Aeu.toNat a.base)
    by_cases h : t.signed = true
    · rw [if_pos ⟨h, rfl⟩]
      exact this h
    · simp [h]

/-- C48: where it does not overflow, the result is the C++ conversion of the value (for a signed type) or of the
magnitude modulo 2^64 (for an unsigned type or `bool`). -/
theorem C48_cast_converted (hn : 2 ≤ n) {t : ITy} (ht : t ∈ ITy.all) (a : Aesi n)
    (h : ¬ (t.signed = true ∧ 32 ≤ t.width ∧ toInt a < 0 ∧ (toInt a).natAbs % 2 ^ t.width = 2 ^ (t.width - 1))) :
    Sat (integralCast t a) fun r =>
      t.Converted (if t.signed = true then toInt a else (((toInt a).natAbs % 2 ^ 64 : Nat) : Int)) r := by
  rw [C48_cast_exact hn ht, if_neg h]
  refine .ok (ITy.converted_conv ?_ _)
  rcases ITy.mem_all ht with rfl | rfl | rfl | rfl | rfl | rfl | rfl | rfl | rfl <;> decide

example : integralCast ITy.bool (ofInt 3 (-2)) = .ok 1 := by decide +kernel

example : integralCast ITy.i32 (ofInt 3 (-(2 ^ 70 + 5))) = .ok (-5) ∧
    integralCast ITy.i32 (ofInt 3 (-(2 ^ 70 + 2 ^ 31))) = .error .signedOverflow ∧
    integralCast ITy.u8 (ofInt 3 (-259)) = .ok 3 := by decide +kernel

/-! ### C49 for every built-in operand -/

/-- The magnitude with which a built-in operand of `*=`, `/=`, `%=` takes part: its own, except that the
minimum of a type narrower than `int`, negated and converted back to its type, stays negative and is then
converted to 64 unsigned bits. -/
def usedMagnitude (t : ITy) (i : Int) : Nat :=
  if t.signed = true ∧ t.width < 32 ∧ i = -(2 : Int) ^ (t.width - 1) then 2 ^ 64 - 2 ^ (t.width - 1)
  else i.natAbs

private theorem absorb_exact {t : ITy} (ht : t ∈ ITy.all) (a : Aesi n) {f : Int} (hr : t.InRange f)
    (hm : ¬ t.IsWideMin f) : Sat (absorbSign t a f) fun r =>
      (toULL r.2).toNat = usedMagnitude t f ∧ r.1 = if f < 0 then inverse a else a := by
  by_cases h : t.IsMin f
  · have hw : t.width < 32 := by
      by_contra hw; exact hm ⟨h, by omega⟩
    unfold ITy.IsMin at h
    have hf : f = -(2 : Int) ^ (t.width - 1) := h.2
    subst hf
    rcases ITy.mem_all ht with rfl | rfl | rfl | rfl | rfl | rfl | rfl | rfl | rfl
    all_goals first | exact absurd h.1 (by decide) | exact absurd hw (by decide) | skip
    all_goals exact ⟨_, rfl, by dsimp only; decide +kernel, rfl⟩
  · refine Sat.mono (absorbSign_spec ht a hr h) ?_
    rintro r ⟨h1, h2⟩
    obtain ⟨hb1, hb2, hb3⟩ := ITy.inRange_bounds ht hr
    refine ⟨?_, h2⟩
    rw [usedMagnitude, if_neg (fun hh => h ⟨hh.1, hh.2.2⟩), h1, toULL_toNat (by omega) (by omega)]
    omega

private theorem absorb_wideMin {t : ITy} (ht : t ∈ ITy.all) (a : Aesi n) {f : Int} (hm : t.IsWideMin f) :
    absorbSign t a f = .error .signedOverflow := by
  have hv : f < 0 := by rw [hm.1.2]; have := Int.pow_pos (n := 2) (m := t.width - 1) (by norm_num); omega
  rw [absorbSign, if_pos hv, ITy.negate_wideMin ht hm]
  rfl

/-- C49 is false for the minimum of `int` and of every wider type, whatever the object: the negation
overflows. -/
theorem C49_wide_min (cfg : Cfg) {t : ITy} (ht : t ∈ ITy.all) (hm : t.signed = true ∧ 32 ≤ t.width)
    (a : Aesi n) :
    mulIntegral cfg t a (-(2 : Int) ^ (t.width - 1)) = .error .signedOverflow ∧
    divIntegral cfg t a (-(2 : Int) ^ (t.width - 1)) = .error .signedOverflow ∧
    modIntegral cfg t a (-(2 : Int) ^ (t.width - 1)) = .error .signedOverflow ∧
    addRight cfg t a (-(2 : Int) ^ (t.width - 1)) = .error .signedOverflow ∧
    subRight cfg t a (-(2 : Int) ^ (t.width - 1)) = .error .signedOverflow := by
  have hw : t.IsWideMin (-(2 : Int) ^ (t.width - 1)) := ⟨⟨hm.1, rfl⟩, hm.2⟩
  have h0 : -(2 : Int) ^ (t.width - 1) ≠ 0 := by
    have := Int.pow_pos (n := 2) (m := t.width - 1) (by norm_num); omega
  refine ⟨?_, ?_, ?_, ?_, ?_⟩
  · rw [mulIntegral, if_neg h0, absorb_wideMin ht a hw]; rfl
  · rw [divIntegral, if_neg h0, absorb_wideMin ht a hw]; rfl
  · rw [modIntegral, if_neg h0, absorb_wideMin ht a hw]; rfl
  · rw [addRight, ofIntegral_wideMin ht hw]; rfl
  · rw [subRight, ofIntegral_wideMin ht hw]; rfl

/-- C49, exactly, for every object and every other built-in operand: `%=`. -/
theorem C49_mod_exact (cfg : Cfg) (hn : 0 < n) {t : ITy} (ht : t ∈ ITy.all) (a : Aesi n) {i : Int}
    (hr : t.InRange i) (hm : ¬ (t.signed = true ∧ 32 ≤ t.width ∧ i = -(2 : Int) ^ (t.width - 1))) :
    Sat (modIntegral cfg t a i) fun r =>
      toInt r = i.sign * (toInt a).tmod ((usedMagnitude t i % 2 ^ (32 * n) : Nat) : Int) := by
  unfold modIntegral
  by_cases h0 : i = 0
  · rw [if_pos h0]; subst h0; exact Sat.ok (by simp [toInt])
  rw [if_neg h0]
  refine Sat.bind (absorb_exact ht a hr fun h => hm ⟨h.1.1, h.2, h.1.2⟩) ?_
  rintro ⟨b, g⟩ ⟨hg, hb⟩
  dsimp only at hg hb ⊢
  refine Sat.bind (Aeu.ofUnsigned_spec (n := n) (le_refl 64) (toULL g)) fun d hd => ?_
  rw [hg] at hd
  have hbb : b.base = a.base := by rw [hb]; split <;> rfl
  obtain ⟨r, hr', e, _⟩ := Aeu.divide_total cfg hn b.base d
  simp only [Aeu.mod, hr', ok_bind, sat_ok]
  rw [hbb, hd] at e
  generalize usedMagnitude t i % 2 ^ (32 * n) = u at *
  have e' : ((Aeu.toNat r.2 : Nat) : Int) = Int.tmod (Aeu.toNat a.base) (u : Nat) := by
    rw [e]; exact Int.ofNat_tmod _ _
  by_cases hneg : i < 0
  · rw [if_pos hneg] at hb
    rw [hb, Int.sign_eq_neg_one_of_neg hneg]
    unfold toInt inverse
    cases hs : a.sign <;> simp [Int.neg_tmod, e']
  · rw [if_neg hneg] at hb
    rw [hb, Int.sign_eq_one_of_pos (by omega)]
    unfold toInt
    cases hs : a.sign <;> simp [Int.neg_tmod, e']

/-- C49, exactly: `/=` (when the operand is not 0 modulo `2^bitness`, which can only fail for 32-bit
numbers). -/
theorem C49_div_exact (cfg : Cfg) (hn : 0 < n) {t : ITy} (ht : t ∈ ITy.all) (a : Aesi n) {i : Int}
    (hr : t.InRange i) (hm : ¬ (t.signed = true ∧ 32 ≤ t.width ∧ i = -(2 : Int) ^ (t.width - 1)))
    (hu : usedMagnitude t i % 2 ^ (32 * n) ≠ 0) :
    Sat (divIntegral cfg t a i) fun r =>
      toInt r = i.sign * (toInt a).tdiv ((usedMagnitude t i % 2 ^ (32 * n) : Nat) : Int) ∧ Canon r := by
  unfold divIntegral
  by_cases h0 : i = 0
  · rw [if_pos h0]; subst h0; exact Sat.ok ⟨by simp [toInt], fun h => absurd rfl h⟩
  rw [if_neg h0]
  refine Sat.bind (absorb_exact ht a hr fun h => hm ⟨h.1.1, h.2, h.1.2⟩) ?_
  rintro ⟨b, g⟩ ⟨hg, hb⟩
  dsimp only at hg hb ⊢
  refine Sat.bind (Aeu.ofUnsigned_spec (n := n) (le_refl 64) (toULL g)) fun d hd => ?_
  rw [hg] at hd
  have hbb : b.base = a.base := by rw [hb]; split <;> rfl
  obtain ⟨r, hr', e⟩ := Aeu.div_spec cfg hn b.base d (by omega)
  simp only [hr', ok_bind]
  refine Sat.mono (normalise_spec _) ?_
  rintro c ⟨h1, h2, _⟩
  refine ⟨?_, h2⟩
  rw [hbb, hd] at e
  rw [h1]
  generalize usedMagnitude t i % 2 ^ (32 * n) = u at *
  have e' : ((Aeu.toNat r : Nat) : Int) = Int.tdiv (Aeu.toNat a.base) (u : Nat) := by
    rw [e]; exact Int.ofNat_tdiv _ _
  by_cases hneg : i < 0
  · rw [if_pos hneg] at hb
    rw [hb, Int.sign_eq_neg_one_of_neg hneg]
    unfold toInt inverse
    cases hs : a.sign <;> simp [Int.neg_tdiv, e']
  · rw [if_neg hneg] at hb
    rw [hb, Int.sign_eq_one_of_pos (by omega)]
    unfold toInt
    cases hs : a.sign <;> simp [Int.neg_tdiv, e']

/-- C49: `/=` by a built-in operand is total off the wide minima. -/
theorem C49_div_total (cfg : Cfg) (hn : 0 < n) {t : ITy} (ht : t ∈ ITy.all) (a : Aesi n) {i : Int}
    (hr : t.InRange i) (hm : ¬ (t.signed = true ∧ 32 ≤ t.width ∧ i = -(2 : Int) ^ (t.width - 1))) :
    ∃ r, divIntegral cfg t a i = .ok r := by
  unfold divIntegral
  by_cases h0 : i = 0
  · exact ⟨_, by rw [if_pos h0]⟩
  rw [if_neg h0]
  obtain ⟨b, hb, _⟩ := absorb_exact ht a hr fun h => hm ⟨h.1.1, h.2, h.1.2⟩
  obtain ⟨d, hd, _⟩ := Aeu.ofUnsigned_spec (n := n) (le_refl 64) (toULL b.2)
  obtain ⟨r, hr', e⟩ := Aeu.divide_total cfg hn b.1.base d
  obtain ⟨c, hc, _⟩ := normalise_spec (⟨b.1.sign, r.1⟩ : Aesi n)
  exact ⟨c, by simp only [hb, hd, ok_bind, Aeu.div, hr']; exact hc⟩

/-- C49, exactly: `*=` where `unsigned long long` is `uint64_t`, or the precision is at most 64 bits. -/
theorem C49_mul_exact (cfg : Cfg) {t : ITy} (ht : t ∈ ITy.all) (a : Aesi n) {i : Int}
    (hr : t.InRange i) (hm : ¬ (t.signed = true ∧ 32 ≤ t.width ∧ i = -(2 : Int) ^ (t.width - 1)))
    (hc : cfg.u64IsULL = true ∨ n ≤ 2 ∨ usedMagnitude t i ≤ 2 ^ 32) :
    Sat (mulIntegral cfg t a i) fun r =>
      toInt r = (i.sign * (toInt a * usedMagnitude t i)).tmod (2 ^ (32 * n)) := by
  have e2 : ((2 : Int) ^ (32 * n)) = ((2 ^ (32 * n) : Nat) : Int) := by push_cast; rfl
  unfold mulIntegral
  by_cases h0 : i = 0
  · rw [if_pos h0]; subst h0; exact Sat.ok (by simp [toInt])
  rw [if_neg h0]
  refine Sat.bind (absorb_exact ht a hr fun h => hm ⟨h.1.1, h.2, h.1.2⟩) ?_
  rintro ⟨b, g⟩ ⟨hg, hb⟩
  dsimp only at hg hb ⊢
  have hbb : b.base = a.base := by rw [hb]; split <;> rfl
  have hmul : Aeu.Returns (Aeu.mulULL cfg b.base (toULL g))
      (Aeu.toNat b.base * (toULL g).toNat % 2 ^ (32 * n)) := by
    rcases hc with hc | hc | hc
    · exact mulULL_spec cfg _ _ (.inl hc)
    · exact C04_mul_ull_small hc cfg _ _
    · exact mulULL_spec cfg _ _ (.inr (by rw [hg]; exact hc))
  refine Sat.bind hmul fun r e => Sat.ok ?_
  rw [hbb, hg] at e
  generalize usedMagnitude t i = u at *
  have key : ((Aeu.toNat a.base : Int) * (u : Int)).tmod (2 ^ (32 * n)) = Aeu.toNat r := by
    rw [e2, e, ← Nat.cast_mul]; exact (Int.ofNat_tmod _ _).symm
  by_cases hneg : i < 0
  · rw [if_pos hneg] at hb
    rw [hb, Int.sign_eq_neg_one_of_neg hneg]
    unfold toInt inverse
    cases hs : a.sign <;> simp [Int.neg_tmod, key]
  · rw [if_neg hneg] at hb
    rw [hb, Int.sign_eq_one_of_pos (by omega)]
    unfold toInt
    cases hs : a.sign <;> simp [Int.neg_tmod, key]

/-- C49: `*=` by a built-in operand is total off the wide minima. -/
theorem C49_mul_total (cfg : Cfg) {t : ITy} (ht : t ∈ ITy.all) (a : Aesi n) {i : Int}
    (hr : t.InRange i) (hm : ¬ (t.signed = true ∧ 32 ≤ t.width ∧ i = -(2 : Int) ^ (t.width - 1))) :
    ∃ r, mulIntegral cfg t a i = .ok r := by
  unfold mulIntegral
  by_cases h0 : i = 0
  · exact ⟨_, by rw [if_pos h0]⟩
  rw [if_neg h0]
  obtain ⟨b, hb, _⟩ := absorb_exact ht a hr fun h => hm ⟨h.1.1, h.2, h.1.2⟩
  have : ∃ r, Aeu.mulULL cfg b.1.base (toULL b.2) = .ok r := by
    unfold Aeu.mulULL
    split
    · obtain ⟨r, h, _⟩ := Aeu.mulU64_spec b.1.base (toULL b.2); exact ⟨r, h⟩
    · obtain ⟨r, h, _⟩ := Aeu.mulNarrow_lossy (le_refl 64) b.1.base (toULL b.2); exact ⟨r, h⟩
  obtain ⟨r, hr'⟩ := this
  exact ⟨{ b.1 with base := r }, by simp only [hb, hr', ok_bind]⟩

example : usedMagnitude ITy.i8 (-128) = 2 ^ 64 - 128 ∧ usedMagnitude ITy.i16 (-7) = 7 := by decide
example : (modIntegral lp64 ITy.i8 (ofInt 3 1000) (-128)).map toInt = .ok (-1000) := by decide +kernel

/-! ### C65, signed, exactly -/

/-- C65: `a == z` for every `z` in the default build: the sign of `z` counts, its bits from `2^bitness` on
do not, and a zero that claims a sign never equals `z = 0`. -/
theorem C65_signed_exact (cfg : Cfg) (hs : cfg.unsafeMode = false) (a : Aesi n) (z : Int) :
    Aesi.eqMpz cfg a z =
      .ok (decide (sgn a = z.sign ∧ toInt a = z.sign * (z.natAbs % 2 ^ (32 * n) : Nat))) := by
  unfold Aesi.eqMpz Aesi.ofMpz
  by_cases h0 : z = 0
  · rw [if_pos h0, ok_bind, (C41_compare_exact cfg a _).2.1]
    subst h0
    congr 1
  · rw [if_neg h0]
    obtain ⟨b, hb, e⟩ := C60_unsigned (n := n) cfg z (.inl hs)
    rw [hb, ok_bind]
    by_cases hn : z < 0
    · rw [if_pos hn, ok_bind, (C41_compare_exact cfg a _).2.1]
      simp [sgn, toInt, e, Int.sign_eq_neg_one_of_neg hn]
    · rw [if_neg hn, ok_bind, (C41_compare_exact cfg a _).2.1]
      simp [sgn, toInt, e, Int.sign_eq_one_of_pos (show 0 < z by omega)]

example : Aesi.eqMpz lp64 (ofInt 2 (-5)) (-(2 ^ 64 + 5)) = .ok true := by decide +kernel

/-! ### C50, exactly -/

/-- C50: `==` and `compareTo` across precisions for every pair of objects: the left operand is first
reduced to the precision of the right one, keeping its sign, and then compared as in C41. -/
theorem C50_across_exact (cfg : Cfg) (hn : 0 < n) (hm : 0 < m) (a : Aesi n) (b : Aesi m) :
    eqAcross cfg a b =
      .ok (decide (sgn a = sgn b ∧ (toInt a).tmod (2 ^ (32 * m)) = toInt b)) ∧
    compareToAcross cfg a b = .ok (
      if sgn a < sgn b ∨ sgn a = sgn b ∧ (toInt a).tmod (2 ^ (32 * m)) < toInt b then .less
      else if sgn a = sgn b ∧ (toInt a).tmod (2 ^ (32 * m)) = toInt b then .equal else .greater) := by
  obtain ⟨c, hc, h1, h2⟩ := precisionCast_exact cfg hn hm a
  have e2 : ((2 : Int) ^ (32 * m)) = ((2 ^ (32 * m) : Nat) : Int) := by push_cast; rfl
  have hs : sgn c = sgn a := by unfold sgn; rw [h1]
  have hv : toInt c = (toInt a).tmod (2 ^ (32 * m)) := by
    have e' : ((Aeu.toNat a.base % 2 ^ (32 * m) : Nat) : Int) =
      Int.tmod (Aeu.toNat a.base) (2 ^ (32 * m)) := by rw [e2]; exact Int.ofNat_tmod _ _
    unfold toInt
    rw [h1]
    cases hsa : a.sign with
    | zero => simp
    | positive => simp [h2, hsa, e']
    | negative => simp [h2, hsa, Int.neg_tmod, e']
  obtain ⟨k1, k2, _⟩ := C41_compare_exact cfg c b
  rw [eqAcross, compareToAcross, hc, ok_bind, ok_bind, k1, k2, hs, hv]
  exact ⟨rfl, rfl⟩

/-! ### Concrete cases that meet the hypotheses -/

/-- The hypotheses of `C39_mod_every` are met. -/
example := C39_mod_every ⟨false, false, false⟩ (by omega) (Aesi.ofInt 2 (-2 ^ 40)) (Aesi.ofInt 2 (-77))

/-- The hypotheses of `C47_construct_exact` are met. -/
example := C47_construct_exact (n := 1) (t := .i64) (by decide) (i := -2 ^ 40) (by decide)

/-- The hypotheses of `C49_wide_min` are met. -/
example := C49_wide_min ⟨false, false, false⟩ (t := .i64) (by decide) (by decide) (Aesi.ofInt 2 (-2 ^ 40))

/-- The hypotheses of `C49_mod_exact` are met. -/
example := C49_mod_exact ⟨false, false, false⟩ (by omega) (t := .i64) (by decide) (Aesi.ofInt 1 (-2 ^ 30)) (i := 2 ^ 40)
  (by decide) (by decide)

/-- The hypotheses of `C49_div_exact` are met. -/
example := C49_div_exact ⟨false, false, false⟩ (by omega) (t := .i64) (by decide) (Aesi.ofInt 1 (-2 ^ 30))
  (i := 2 ^ 40 + 5) (by decide) (by decide) (by decide +kernel)

/-- The hypotheses of `C49_div_total` are met. -/
example := C49_div_total ⟨false, false, false⟩ (by omega) (t := .i64) (by decide) (Aesi.ofInt 1 (-2 ^ 30)) (i := 2 ^ 40)
  (by decide) (by decide)

/-- The hypotheses of `C50_across_exact` are met. -/
example := C50_across_exact ⟨false, false, false⟩ (by omega) (by omega) (Aesi.ofInt 3 (-2 ^ 70)) (Aesi.ofInt 2 (-2 ^ 40))

end AesiMP
