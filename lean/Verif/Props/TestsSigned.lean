import Verif.Props.TestsArith
import Verif.Props.Compare
import Verif.Props.RefineS

/-! # C93: the randomised arithmetic tests of `Aesi`, for every draw -/

namespace AesiMP
open Aesi
variable {n : Nat}

theorem Drawn.fits {k : Nat} {v : Int} (h : Drawn k v) (hk : k ≤ 32 * n) : Fits n v := h.signed.le hk
theorem DrawnS.fits {k : Nat} {v : Int} (h : DrawnS k v) (hk : k ≤ 32 * n) : Fits n v := h.le hk

theorem compositeS_ok (cfg : Cfg) {op : Aesi n → Aesi n → Exec (Aesi n)}
    {assignOp : SHeap n → Nat → Nat → Exec (SHeap n)} {opZ : Int → Int → Int} {l r : Int}
    (hl : Fits n l) (hr : Fits n r) (hz : Fits n (opZ l r))
    (hop : ∀ a b : Aesi n, toInt a = l → toInt b = r → Canon a → Canon b →
      Sat (op a b) fun x => toInt x = opZ l r ∧ Canon x)
    (hassign : ∀ (h : SHeap n) (p q : Nat),
      assignOp h p q = (do let x ← op (h.obj p) (h.obj q); .ok (h.put p x))) :
    Tests.compositeS cfg op assignOp opZ l r = .ok true := by
  obtain ⟨a, ha, ha', hac⟩ := C60_signed (n := n) cfg l hl
  obtain ⟨b, hb, hb', hbc⟩ := C60_signed (n := n) cfg r hr
  obtain ⟨x, hx, hx', hxc⟩ := hop a b ha' hb' hac hbc
  unfold Tests.compositeS
  rw [ha, ok_bind, hb, ok_bind, hx, ok_bind, C65_signed_partial cfg x hxc _ hz, ok_bind, hassign]
  rw [show (SHeap.obj ⟨fun p => if p = 0 then a.sign else b.sign, fun p => if p = 0 then a.base else b.base⟩ 0 : Aesi n) = a
      from rfl,
    show (SHeap.obj ⟨fun p => if p = 0 then a.sign else b.sign, fun p => if p = 0 then a.base else b.base⟩ 1 : Aesi n) = b
      from rfl, hx, ok_bind, ok_bind, SAlias.put_obj, if_pos rfl, C65_signed_partial cfg x hxc _ hz, ok_bind, hx']
  simp

theorem builtinS_ok (cfg : Cfg) {op : Aesi n → Int → Exec (Aesi n)} {opZ : Int → Int → Int} {value i : Int}
    (hv : Fits n value) (hz : Fits n (opZ value i))
    (hop : ∀ a : Aesi n, toInt a = value → Canon a → Sat (op a i) fun x => toInt x = opZ value i ∧ Canon x) :
    Tests.builtinS cfg op opZ value i = .ok true := by
  obtain ⟨a, ha, ha', hac⟩ := C60_signed (n := n) cfg value hv
  obtain ⟨x, hx, hx', hxc⟩ := hop a ha' hac
  unfold Tests.builtinS
  simp only [ha, ok_bind, hx, C65_signed_partial cfg x hxc _ hz, hx']
  simp

theorem builtinTwiceS_ok (cfg : Cfg) {op : Aesi n → Int → Exec (Aesi n)} {opZ : Int → Int → Int} {value i : Int}
    (hv : Fits n value) (hz : Fits n (opZ (opZ value i) i))
    (hop : ∀ a : Aesi n, toInt a = value ∨ toInt a = opZ value i → Canon a →
      Sat (op a i) fun x => toInt x = opZ (toInt a) i ∧ Canon x) :
    Tests.builtinTwiceS cfg op opZ value i = .ok true := by
  obtain ⟨a, ha, ha', hac⟩ := C60_signed (n := n) cfg value hv
  obtain ⟨x, hx, hx', hxc⟩ := hop a (Or.inl ha') hac
  rw [ha'] at hx'
  obtain ⟨y, hy, hy', hyc⟩ := hop x (Or.inr hx') hxc
  rw [hx'] at hy'
  unfold Tests.builtinTwiceS
  simp only [ha, ok_bind, hx, hy, C65_signed_partial cfg y hyc _ hz, hy']
  simp

private theorem fits_add {k : Nat} {x y : Int} (hx : DrawnS k x) (hy : DrawnS k y) (hk : k + 1 ≤ 32 * n) :
    Fits n (x + y) := by
  refine DrawnS.fits (k := k + 1) ?_ hk
  unfold DrawnS at *
  rw [Nat.pow_succ]
  omega

private theorem fits_sub {k : Nat} {x y : Int} (hx : DrawnS k x) (hy : DrawnS k y) (hk : k + 1 ≤ 32 * n) :
    Fits n (x - y) := by
  refine DrawnS.fits (k := k + 1) ?_ hk
  unfold DrawnS at *
  rw [Nat.pow_succ]
  omega

private theorem fits_mul {j k : Nat} {x y : Int} (hx : DrawnS j x) (hy : DrawnS k y) (hk : j + k ≤ 32 * n) :
    Fits n (x * y) := by
  refine DrawnS.fits (k := j + k) ?_ hk
  unfold DrawnS at *
  rw [Int.natAbs_mul, Nat.pow_add]
  exact Nat.mul_lt_mul'' hx hy

private theorem fits_tdiv {k : Nat} {x : Int} (y : Int) (hx : DrawnS k x) (hk : k ≤ 32 * n) : Fits n (x.tdiv y) := by
  refine DrawnS.fits (k := k) ?_ hk
  unfold DrawnS at *
  rw [Int.natAbs_tdiv]
  exact lt_of_le_of_lt (Nat.div_le_self _ _) hx

private theorem fits_tmod {k : Nat} {x : Int} (y : Int) (hx : DrawnS k x) (hk : k ≤ 32 * n) : Fits n (x.tmod y) := by
  refine DrawnS.fits (k := k) ?_ hk
  unfold DrawnS at *
  rw [Int.natAbs_tmod]
  exact lt_of_le_of_lt (Nat.mod_le _ _) hx

private theorem i64_draw {i : Int} (h : ITy.i64.InRange i) : DrawnS 64 i := by
  unfold DrawnS
  simp only [ITy.InRange, ITy.i64] at h
  norm_num at h
  omega

private theorem u64_draw {i : Int} (h : ITy.u64.InRange i) : 0 ≤ i ∧ DrawnS 64 i := by
  unfold DrawnS
  simp only [ITy.InRange, ITy.u64] at h
  norm_num at h
  omega

private theorem u32_draw {i : Int} (h : ITy.u32.InRange i) : 0 ≤ i ∧ DrawnS 32 i := by
  unfold DrawnS
  simp only [ITy.InRange, ITy.u32] at h
  norm_num at h
  omega

/-- `TEST(Signed_Addition, Huge)`: the composite part passes for every draw and every choice of signs; the
built-in part for every draw of a `long` except `LONG_MIN`, whose negation overflows. -/
theorem C93_addition (cfg : Cfg) {n : Nat} :
    (∀ {l r : Int}, 7 ≤ n → DrawnS (16 * n - 110) l → DrawnS (16 * n - 110) r →
      Tests.compositeS (n := n) cfg (Aesi.add cfg) (SAlias.addAssign cfg) (· + ·) l r = .ok true) ∧
    (∀ {value i : Int}, 7 ≤ n → Drawn (32 * n - 200) value → ITy.i64.InRange i →
      Tests.builtinS (n := n) cfg (Aesi.addRight cfg ITy.i64) (· + ·) value i =
        if i = -(2 : Int) ^ 63 then .error .signedOverflow else .ok true) := by
  constructor
  · intro l r hn hl hr
    have hs : Fits n (l + r) := fits_add hl hr (by omega)
    refine compositeS_ok cfg (hl.fits (by omega)) (hr.fits (by omega)) hs ?_ fun h p q => SAlias.addAssign_eq cfg h p q
    rintro a b rfl rfl hac hbc
    exact Sat.mono (Aesi.add_spec cfg a b hs) fun x h => ⟨h.1, h.2 hac hbc⟩
  · intro value i hn hv hi
    split
    · subst i
      obtain ⟨a, ha, -⟩ := C60_signed (n := n) cfg value (hv.fits (by omega))
      have := (C49_wide_min (n := n) cfg (t := ITy.i64) (by simp [ITy.all]) (by decide) a).2.2.2.1
      simp only [ITy.i64] at this
      unfold Tests.builtinS
      rw [ha, ok_bind]
      simp only [ITy.i64]
      rw [show (63 : Nat) = 64 - 1 from rfl, this]
      rfl
    · rename_i hm
      have hi' := i64_draw hi
      have hs : Fits n (value + i) :=
        fits_add (k := 32 * n - 1) (hv.signed.le (by omega)) (hi'.le (by omega)) (by omega)
      refine builtinS_ok cfg (hv.fits (by omega)) hs ?_
      rintro a rfl hac
      obtain ⟨b, hb, hb', hbc⟩ := Aesi.ofIntegral_spec (n := n) (t := ITy.i64) (by simp [ITy.all]) hi
        (by rintro ⟨⟨-, h⟩, -⟩; exact hm h) (hi'.fits (by omega))
      unfold Aesi.addRight
      rw [hb, ok_bind]
      rw [← hb'] at hs ⊢
      exact Sat.mono (Aesi.add_spec cfg a b hs) fun x h => ⟨h.1, h.2 hac hbc⟩

/-- `TEST(Signed_Subtraction, Huge)`, likewise. -/
theorem C93_subtraction (cfg : Cfg) {n : Nat} :
    (∀ {l r : Int}, 4 ≤ n → DrawnS (32 * n - 110) l → DrawnS (32 * n - 110) r →
      Tests.compositeS (n := n) cfg (Aesi.sub cfg) (SAlias.subAssign cfg) (· - ·) l r = .ok true) ∧
    (∀ {value i : Int}, 7 ≤ n → Drawn (32 * n - 200) value → ITy.i64.InRange i →
      Tests.builtinTwiceS (n := n) cfg (Aesi.subRight cfg ITy.i64) (· - ·) value i =
        if i = -(2 : Int) ^ 63 then .error .signedOverflow else .ok true) := by
  constructor
  · intro l r hn hl hr
    have hs : Fits n (l - r) := fits_sub hl hr (by omega)
    refine compositeS_ok cfg (hl.fits (by omega)) (hr.fits (by omega)) hs ?_ fun h p q => SAlias.subAssign_eq cfg h p q
    rintro a b rfl rfl hac hbc
    exact Sat.mono (Aesi.sub_spec cfg a b hs) fun x h => ⟨h.1, h.2 hac hbc⟩
  · intro value i hn hv hi
    split
    · subst i
      obtain ⟨a, ha, -⟩ := C60_signed (n := n) cfg value (hv.fits (by omega))
      have := (C49_wide_min (n := n) cfg (t := ITy.i64) (by simp [ITy.all]) (by decide) a).2.2.2.2
      simp only [ITy.i64] at this
      unfold Tests.builtinTwiceS
      rw [ha, ok_bind]
      simp only [ITy.i64]
      rw [show (63 : Nat) = 64 - 1 from rfl, this]
      rfl
    · rename_i hm
      have hi' := i64_draw hi
      have h1 : DrawnS (32 * n - 2 + 1) (value - i) := by
        have h1 := hv.signed.le (show 32 * n - 200 ≤ 32 * n - 2 by omega)
        have h2 := hi'.le (show 64 ≤ 32 * n - 2 by omega)
        unfold DrawnS at *
        rw [Nat.pow_succ]; omega
      have hs1 : Fits n (value - i) := h1.fits (by omega)
      have hs2 : Fits n (value - i - i) := fits_sub (k := 32 * n - 2 + 1) h1 (hi'.le (by omega)) (by omega)
      refine builtinTwiceS_ok cfg (hv.fits (by omega)) hs2 ?_
      intro a ha hac
      have hs : Fits n (toInt a - i) := by
        rcases ha with ha | ha <;> rw [ha]
        · exact hs1
        · exact hs2
      obtain ⟨b, hb, hb', hbc⟩ := Aesi.ofIntegral_spec (n := n) (t := ITy.i64) (by simp [ITy.all]) hi
        (by rintro ⟨⟨-, h⟩, -⟩; exact hm h) (hi'.fits (by omega))
      unfold Aesi.subRight
      rw [hb, ok_bind]
      rw [← hb'] at hs ⊢
      exact Sat.mono (Aesi.sub_spec cfg a b hs) fun x h => ⟨h.1, h.2 hac hbc⟩

/-- `TEST(Signed_Multiplication, Huge)`: both parts pass for every draw. -/
theorem C93_multiplication (cfg : Cfg) {n : Nat} :
    (∀ {l r : Int}, 7 ≤ n → DrawnS (16 * n - 110) l → DrawnS (16 * n - 110) r →
      Tests.compositeS (n := n) cfg Aesi.mul SAlias.mulAssign (· * ·) l r = .ok true) ∧
    (∀ {value i : Int}, 7 ≤ n → Drawn (32 * n - 200) value → ITy.u32.InRange i →
      Tests.builtinTwiceS (n := n) cfg (Aesi.mulIntegral cfg ITy.u32) (· * ·) value i = .ok true) := by
  constructor
  · intro l r hn hl hr
    have hs : Fits n (l * r) := fits_mul hl hr (by omega)
    refine compositeS_ok cfg (hl.fits (by omega)) (hr.fits (by omega)) hs ?_ fun h p q => SAlias.mulAssign_eq h p q
    rintro a b rfl rfl hac hbc
    exact Sat.mono (Aesi.mul_spec a b hs) fun x h => ⟨h.1, h.2 hac hbc⟩
  · intro value i hn hv hi
    obtain ⟨h0, hi'⟩ := u32_draw hi
    have hs2 : Fits n (value * i * i) := by
      rw [mul_assoc]
      refine fits_mul (j := 32 * n - 200) (k := 64) hv.signed ?_ (by omega)
      unfold DrawnS at *
      rw [Int.natAbs_mul, show (2 : Nat) ^ 64 = 2 ^ 32 * 2 ^ 32 by norm_num]
      exact Nat.mul_lt_mul'' hi' hi'
    have hs1 : Fits n (value * i) := fits_mul hv.signed hi' (by omega)
    refine builtinTwiceS_ok cfg (hv.fits (by omega)) hs2 ?_
    intro a ha hac
    have hs : Fits n (toInt a * i) := by
      rcases ha with ha | ha <;> rw [ha]
      · exact hs1
      · exact hs2
    exact Sat.mono (Aesi.mulIntegral_spec cfg (t := ITy.u32) (by simp [ITy.all]) a hi
      (by rintro ⟨h, -⟩; exact absurd h (by decide)) (Or.inr (le_of_lt hi')) hs) fun x h => ⟨h.1, h.2 hac⟩

/-- `TEST(Signed_Division, Huge)`: both parts pass for every draw with a non-zero divisor, for all four
combinations of signs; the detour the test takes for negative dividends is not needed. -/
theorem C93_division (cfg : Cfg) {n : Nat} :
    (∀ (firstPositive : Bool) {l r : Int}, 7 ≤ n → DrawnS (32 * n - 110) l → DrawnS (16 * n - 110) r → r ≠ 0 →
      Tests.divisionS cfg n firstPositive l r = .ok true) ∧
    (∀ {value i : Int}, 7 ≤ n → Drawn (32 * n - 200) value → ITy.u64.InRange i → i ≠ 0 →
      Tests.builtinS (n := n) cfg (Aesi.divIntegral cfg ITy.u64) Int.tdiv value i = .ok true) := by
  constructor
  · intro first l r hn hl hr hr0
    have hs : Fits n (l.tdiv r) := fits_tdiv r hl (by omega)
    have he : (if first then l.tdiv r else -1 * ((l * -1).tdiv r)) = l.tdiv r := by
      split
      · rfl
      · rw [mul_neg_one, Int.neg_tdiv]; ring
    have := compositeS_ok (n := n) cfg (opZ := Int.tdiv) (hl.fits (by omega)) (hr.fits (by omega)) hs
      (op := Aesi.div cfg) (assignOp := SAlias.divAssign cfg)
      (by rintro a b rfl rfl - -; exact Aesi.div_spec cfg (by omega) a b hr0)
      fun h p q => SAlias.divAssign_eq cfg h p q
    unfold Tests.divisionS
    simp only [he]
    exact this
  · intro value i hn hv hi h0
    obtain ⟨-, hi'⟩ := u64_draw hi
    refine builtinS_ok cfg (hv.fits (by omega)) (fits_tdiv i hv.signed (by omega)) ?_
    rintro a rfl -
    exact Aesi.divIntegral_spec cfg (by omega) (by simp [ITy.all]) a hi
      (by rintro ⟨h, -⟩; exact absurd h (by decide)) h0 (hi'.fits (by omega))

/-- `TEST(Signed_Modulo, Huge)`: the composite part passes for every draw with a non-zero divisor; the
built-in part passes exactly when the drawn modulus does not divide the drawn value, or the value is zero:
a zero remainder modulo a built-in number is not equal to zero (C43). -/
theorem C93_modulo_exact (cfg : Cfg) {n : Nat} :
    (∀ {l r : Int}, 7 ≤ n → Drawn (32 * n - 110) l → Drawn (16 * n - 110) r → r ≠ 0 →
      Tests.compositeS (n := n) cfg (Aesi.mod cfg) (SAlias.modAssign cfg) Int.tmod l r = .ok true) ∧
    (∀ {value i : Int}, 7 ≤ n → Drawn (32 * n - 200) value → ITy.u64.InRange i → i ≠ 0 →
      Tests.moduloBuiltinS cfg n value i = .ok (decide (value = 0 ∨ ¬ i ∣ value))) := by
  constructor
  · intro l r hn hl hr hr0
    have hs : Fits n (l.tmod r) := fits_tmod r hl.signed (by omega)
    refine compositeS_ok cfg (hl.fits (by omega)) (hr.fits (by omega)) hs ?_ fun h p q => SAlias.modAssign_eq cfg h p q
    rintro a b rfl rfl - -
    refine Sat.mono (Aesi.mod_spec cfg (by omega) a b hr0) fun x h => ⟨?_, h.2⟩
    rw [h.1, if_neg (by have := hr.1; omega), one_mul]
  · intro value i hn hv hi h0
    obtain ⟨hi0, hi'⟩ := u64_draw hi
    have hs : Fits n (value.tmod i) := fits_tmod i hv.signed (by omega)
    have step : ∀ a : Aesi n, ∃ x, Aesi.modIntegral cfg ITy.u64 a i = .ok x ∧ toInt x = (toInt a).tmod i ∧
        x.sign = a.sign := by
      intro a
      obtain ⟨x, hx, hx'⟩ := Aesi.modIntegral_spec cfg (by omega) (t := ITy.u64) (by simp [ITy.all]) a hi
        (by rintro ⟨h, -⟩; exact absurd h (by decide)) h0 (hi'.fits (n := n) (by omega))
      refine ⟨x, hx, by rw [hx', if_neg (by omega), one_mul], ?_⟩
      unfold Aesi.modIntegral Aesi.absorbSign at hx
      rw [if_neg h0, if_neg (by omega), ok_bind] at hx
      cases h1 : Aeu.ofUnsigned n (toULL i) with
      | error e => simp only [h1] at hx; cases hx
      | ok d =>
        simp only [h1, ok_bind] at hx
        cases h2 : Aeu.mod cfg a.base d with
        | error e => simp only [h2] at hx; cases hx
        | ok w => simp only [h2, ok_bind] at hx; cases hx; rfl
    obtain ⟨a, ha, ha', hac⟩ := C60_signed (n := n) cfg value (hv.fits (by omega))
    obtain ⟨x, hx, hx', hxs⟩ := step a
    obtain ⟨y, hy, hy', hys⟩ := step x
    rw [ha'] at hx'
    rw [hx', Int.tmod_tmod] at hy'
    have key : ∀ w : Aesi n, w.sign = a.sign → toInt w = value.tmod i →
        Aesi.eqMpz cfg w (value.tmod i) = .ok (decide (value = 0 ∨ ¬ i ∣ value)) := by
      intro w hw hw'
      by_cases hd : value.tmod i = 0
      · have hdv : i ∣ value := Int.dvd_of_tmod_eq_zero hd
        unfold Aesi.eqMpz Aesi.ofMpz
        rw [hd, if_pos rfl, ok_bind, (C41_compare_exact cfg w _).2.1]
        congr 1
        rw [decide_eq_decide]
        have hsg : sgn w = 0 ↔ value = 0 := by
          rw [← ha', ← Aesi.canon_iff.1 hac, ← hw]
          unfold sgn
          cases w.sign <;> simp
        have h00 : sgn (⟨.zero, Aeu.zero n⟩ : Aesi n) = 0 ∧ toInt (⟨.zero, Aeu.zero n⟩ : Aesi n) = 0 := ⟨rfl, rfl⟩
        rw [h00.1, h00.2, hsg, hw', hd]
        tauto
      · rw [C65_signed_partial cfg w (canon_of_ne (by rw [hw']; exact hd)) _ hs]
        have hdv : ¬ i ∣ value := fun h => hd (Int.tmod_eq_zero_of_dvd h)
        simp [hw', hdv]
    unfold Tests.moduloBuiltinS
    simp only [ha, ok_bind, hx, hy, key x hxs hx', key y (hys.trans hxs) hy', Bool.and_self]

/-- `TEST(Signed_Addition, Increment)` passes for every draw and both signs. -/
theorem C93_increment (cfg : Cfg) (hn : 4 ≤ n) {l : Int} (hl : DrawnS (32 * n - 110) l) (increments : Nat)
    (hi : increments < 100) : Tests.incrementS cfg n l increments = .ok true := by
  have fits : ∀ z : Int, l ≤ z → z ≤ l + 200 → Fits n z := by
    intro z h1 h2
    unfold Fits
    unfold DrawnS at hl
    have h2 : (2 : Nat) ^ (32 * n) = 2 ^ (32 * n - 110) * 2 ^ 110 := by rw [← pow_add]; congr 1; omega
    have h3 : 1 ≤ (2 : Nat) ^ (32 * n - 110) := Nat.one_le_two_pow
    rw [h2]
    have : z.natAbs ≤ l.natAbs + 200 := by omega
    have h4 : (2 : Nat) ^ (32 * n - 110) * 1000 ≤ 2 ^ (32 * n - 110) * 2 ^ 110 := Nat.mul_le_mul_left _ (by norm_num)
    omega
  obtain ⟨a, ha, ha', hac⟩ := C60_signed (n := n) cfg l (hl.fits (by omega))
  unfold Tests.incrementS
  rw [ha, ok_bind]
  suffices Sat (forUp 0 increments (a, true) fun j (value, good) => do
      let (value, old) ← Aesi.postInc value
      let e1 ← Aesi.eqMpz cfg old (l + 2 * j)
      let value ← Aesi.inc value
      let e2 ← Aesi.eqMpz cfg value (l + 2 * j + 2)
      .ok (value, good && e1 && e2)) fun s => toInt s.1 = l + 2 * increments ∧ Canon s.1 ∧ s.2 = true by
    obtain ⟨s, hs, h1, hc, h2⟩ := this
    rw [hs, ok_bind, C65_signed_partial cfg _ hc _ (fits _ (by omega) (by omega)), h1, h2]
    simp [mul_comm]
  refine Sat.forUp (fun j s => toInt s.1 = l + 2 * j ∧ Canon s.1 ∧ s.2 = true) (Nat.zero_le _)
    ⟨by simpa using ha', hac, rfl⟩ ?_ fun s h => h
  rintro j ⟨x, good⟩ - hj ⟨hx, hxc, hgood⟩
  simp only at hx hxc hgood
  subst hgood
  obtain ⟨y, hy, hy', hyc⟩ := Aesi.inc_spec (by omega) x hxc (fits _ (by omega) (by omega))
  obtain ⟨w, hw, hw', hwc⟩ := Aesi.inc_spec (by omega) y hyc (fits _ (by omega) (by omega))
  refine ⟨(w, true), ?_, by push_cast; omega, hwc, rfl⟩
  simp only [Aesi.postInc, hy, ok_bind, hw]
  rw [C65_signed_partial cfg x hxc _ (fits _ (by omega) (by omega)),
    C65_signed_partial cfg w hwc _ (fits _ (by omega) (by omega))]
  simp only [ok_bind]
  rw [decide_eq_true hx, decide_eq_true (by omega)]
  rfl

/-- `TEST(Signed_Subtraction, Decrement)` passes for every draw and both signs. -/
theorem C93_decrement (cfg : Cfg) (hn : 4 ≤ n) {l : Int} (hl : DrawnS (32 * n - 110) l) (decrements : Nat)
    (hi : decrements < 100) : Tests.decrementS cfg n l decrements = .ok true := by
  have fits : ∀ z : Int, l - 200 ≤ z → z ≤ l → Fits n z := by
    intro z h1 h2
    unfold Fits
    unfold DrawnS at hl
    have h2 : (2 : Nat) ^ (32 * n) = 2 ^ (32 * n - 110) * 2 ^ 110 := by rw [← pow_add]; congr 1; omega
    have h3 : 1 ≤ (2 : Nat) ^ (32 * n - 110) := Nat.one_le_two_pow
    rw [h2]
    have : z.natAbs ≤ l.natAbs + 200 := by omega
    have h4 : (2 : Nat) ^ (32 * n - 110) * 1000 ≤ 2 ^ (32 * n - 110) * 2 ^ 110 := Nat.mul_le_mul_left _ (by norm_num)
    omega
  obtain ⟨a, ha, ha', hac⟩ := C60_signed (n := n) cfg l (hl.fits (by omega))
  unfold Tests.decrementS
  rw [ha, ok_bind]
  suffices Sat (forUp 0 decrements (a, true) fun j (value, good) => do
      let (value, old) ← Aesi.postDec value
      let e1 ← Aesi.eqMpz cfg old (l - 2 * j)
      let value ← Aesi.dec value
      let e2 ← Aesi.eqMpz cfg value (l - 2 * j - 2)
      .ok (value, good && e1 && e2)) fun s => toInt s.1 = l - 2 * decrements ∧ Canon s.1 ∧ s.2 = true by
    obtain ⟨s, hs, h1, hc, h2⟩ := this
    rw [hs, ok_bind, C65_signed_partial cfg _ hc _ (fits _ (by omega) (by omega)), h1, h2]
    simp [mul_comm]
  refine Sat.forUp (fun j s => toInt s.1 = l - 2 * j ∧ Canon s.1 ∧ s.2 = true) (Nat.zero_le _)
    ⟨by simpa using ha', hac, rfl⟩ ?_ fun s h => h
  rintro j ⟨x, good⟩ - hj ⟨hx, hxc, hgood⟩
  simp only at hx hxc hgood
  subst hgood
  obtain ⟨y, hy, hy', hyc⟩ := Aesi.dec_spec (by omega) x hxc (fits _ (by omega) (by omega))
  obtain ⟨w, hw, hw', hwc⟩ := Aesi.dec_spec (by omega) y hyc (fits _ (by omega) (by omega))
  refine ⟨(w, true), ?_, by push_cast; omega, hwc, rfl⟩
  simp only [Aesi.postDec, hy, ok_bind, hw]
  rw [C65_signed_partial cfg x hxc _ (fits _ (by omega) (by omega)),
    C65_signed_partial cfg w hwc _ (fits _ (by omega) (by omega))]
  simp only [ok_bind]
  rw [decide_eq_true hx, decide_eq_true (by omega)]
  rfl

/-- The signed tests are flaky too: possible draws on which the modulo test fails and on which the addition
test has undefined behaviour. -/
theorem C93_flaky : Drawn (32 * 8 - 200) 12 ∧ ITy.u64.InRange 4 ∧ Tests.moduloBuiltinS lp64 8 12 4 = .ok false ∧
    ITy.i64.InRange (-(2 : Int) ^ 63) ∧
    Tests.builtinS (n := 8) lp64 (Aesi.addRight lp64 ITy.i64) (· + ·) 12 (-(2 : Int) ^ 63) = .error .signedOverflow := by
  have h0 : Drawn (32 * 8 - 200) 12 := by constructor <;> norm_num
  have h1 : ITy.u64.InRange 4 := by decide
  have h2 : ITy.i64.InRange (-(2 : Int) ^ 63) := by decide
  refine ⟨h0, h1, ?_, h2, (C93_addition lp64).2 (by norm_num) h0 h2⟩
  rw [(C93_modulo_exact lp64).2 (by norm_num) h0 h1 (by norm_num)]
  rfl

example : Tests.compositeS (n := 8) lp64 (Aesi.add lp64) (SAlias.addAssign lp64) (· + ·) (2 ^ 17) (-(2 ^ 17 + 5)) = .ok true :=
  (C93_addition lp64).1 (by norm_num) (by norm_num [DrawnS]) (by norm_num [DrawnS])

example : Tests.divisionS lp64 16 false (-(2 ^ 300 + 1)) (2 ^ 100 + 7) = .ok true :=
  (C93_division lp64).1 false (by norm_num) (by unfold DrawnS; decide +kernel) (by norm_num [DrawnS]) (by norm_num)

example : Tests.moduloBuiltinS lp64 8 13 4 = .ok true := by
  rw [(C93_modulo_exact lp64).2 (by norm_num) (by constructor <;> norm_num) (by decide) (by norm_num)]
  rfl

/-! ### Concrete cases that meet the hypotheses -/

example := (C93_subtraction ⟨false, false, false⟩ (n := 8)).1 (l := 2 ^ 70) (r := -2 ^ 80) (by omega) (by decide)
  (by decide)
example := (C93_multiplication ⟨false, false, false⟩ (n := 8)).1 (l := 2 ^ 10) (r := -77) (by omega) (by decide)
  (by decide)

/-- The hypotheses of `C93_increment` are met. -/
example := C93_increment (n := 4) ⟨false, false, false⟩ (by omega) (l := -77) (by decide) 50 (by omega)

end AesiMP
