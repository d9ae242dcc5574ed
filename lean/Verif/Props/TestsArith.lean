import Verif.Model.Tests
import Verif.Props.Gmp
import Verif.Props.Signed
import Verif.Props.SignedExact
import Verif.Props.Mixed
import Verif.Props.Alias

/-!
# C92, C93: the randomised arithmetic tests, for every draw

`Drawn k v` says that `v` is a possible result of `Generation::getRandom(k)`.  The theorems range over all
draws and over all precisions for which the bit lengths in the test make sense.
-/

namespace AesiMP
open Aeu
variable {n : Nat}

/-- `v` can be returned by `Generation::getRandom(bits)` (`mpz_urandomb`, test/generation.h:40-44). -/
def Drawn (bits : Nat) (v : Int) : Prop := 0 ≤ v ∧ v < 2 ^ bits

/-- `v` is such a number with a sign. -/
def DrawnS (bits : Nat) (v : Int) : Prop := v.natAbs < 2 ^ bits

instance (bits : Nat) (v : Int) : Decidable (Drawn bits v) := by unfold Drawn; infer_instance
instance (bits : Nat) (v : Int) : Decidable (DrawnS bits v) := by unfold DrawnS; infer_instance

theorem Drawn.signed {k : Nat} {v : Int} (h : Drawn k v) : DrawnS k v := by
  obtain ⟨h0, h1⟩ := h
  obtain ⟨a, rfl⟩ := Int.eq_ofNat_of_zero_le h0
  unfold DrawnS
  rw [Int.natAbs_natCast]
  exact_mod_cast h1

theorem DrawnS.le {j k : Nat} {v : Int} (h : DrawnS j v) (hjk : j ≤ k) : DrawnS k v :=
  lt_of_lt_of_le h (Nat.pow_le_pow_right (by norm_num) hjk)

theorem ofMpz_drawn (cfg : Cfg) {v : Int} (h0 : 0 ≤ v) (h : DrawnS (32 * n) v) :
    Sat (Aeu.ofMpz cfg n v) fun a => (toNat a : Int) = v := by
  obtain ⟨a, h1, h2⟩ := C60_unsigned (n := n) cfg v (Or.inr h)
  refine ⟨a, h1, ?_⟩
  show (toNat a : Int) = v
  rw [h2, Nat.mod_eq_of_lt h]
  omega

theorem eqMpz_neg (cfg : Cfg) (a : Aeu n) {z : Int} (h : DrawnS (32 * n) z) :
    Aeu.eqMpz cfg a z = .ok (decide (toNat a = z.natAbs)) := by
  obtain ⟨r, h1, h2⟩ := C60_unsigned (n := n) cfg z (Or.inr h)
  unfold Aeu.eqMpz
  rw [h1, ok_bind, C18_eq_across, h2, Nat.mod_eq_of_lt h]

/-- The generic argument for the unsigned composite tests. -/
theorem compositeU_eq (cfg : Cfg) {op : Aeu n → Aeu n → Exec (Aeu n)}
    {assignOp : Heap n → Nat → Nat → Exec (Heap n)} {opZ : Int → Int → Int} {l r : Int} {v : Nat}
    (hl0 : 0 ≤ l) (hr0 : 0 ≤ r) (hl : DrawnS (32 * n) l) (hr : DrawnS (32 * n) r)
    (hz : DrawnS (32 * n) (opZ l r))
    (hop : ∀ a b : Aeu n, (toNat a : Int) = l → (toNat b : Int) = r → Returns (op a b) v)
    (hassign : ∀ (h : Heap n), (toNat (h 0) : Int) = l → (toNat (h 1) : Int) = r →
      Sat (assignOp h 0 1) fun h' => toNat (h' 0) = v) :
    Tests.compositeU cfg op assignOp opZ l r = .ok (decide (v = (opZ l r).natAbs)) := by
  obtain ⟨a, ha, ha'⟩ := ofMpz_drawn (n := n) cfg hl0 hl
  obtain ⟨b, hb, hb'⟩ := ofMpz_drawn (n := n) cfg hr0 hr
  obtain ⟨x, hx, hx'⟩ := hop a b ha' hb'
  obtain ⟨h, hh, hh'⟩ := hassign (fun p => if p = 0 then a else b) (by simpa using ha') (by simpa using hb')
  unfold Tests.compositeU
  rw [ha, ok_bind, hb, ok_bind, hx, ok_bind, eqMpz_neg cfg x hz, ok_bind, hh, ok_bind,
    eqMpz_neg cfg _ hz, ok_bind, hx', hh', Bool.and_self]

theorem builtinU_eq (cfg : Cfg) {op : Aeu n → BitVec 32 → Exec (Aeu n)} {opZ : Int → Int → Int} {value : Int}
    {u : BitVec 32} {v : Nat} (h0 : 0 ≤ value) (hv : DrawnS (32 * n) value)
    (hz : DrawnS (32 * n) (opZ value u.toNat))
    (hop : ∀ a : Aeu n, (toNat a : Int) = value → Returns (op a u) v) :
    Tests.builtinU cfg op opZ value u = .ok (decide (v = (opZ value u.toNat).natAbs)) := by
  obtain ⟨a, ha, ha'⟩ := ofMpz_drawn (n := n) cfg h0 hv
  obtain ⟨x, hx, hx'⟩ := hop a ha'
  unfold Tests.builtinU
  simp only [ha, ok_bind, hx, eqMpz_neg cfg x hz, hx', Bool.and_self]

private theorem drawnS_add {k : Nat} {x y : Int} (hx : DrawnS k x) (hy : DrawnS k y) : DrawnS (k + 1) (x + y) := by
  unfold DrawnS at *
  rw [Nat.pow_succ]
  omega

private theorem drawnS_sub {k : Nat} {x y : Int} (hx : DrawnS k x) (hy : DrawnS k y) : DrawnS (k + 1) (x - y) := by
  unfold DrawnS at *
  rw [Nat.pow_succ]
  omega

private theorem drawnS_mul {j k : Nat} {x y : Int} (hx : DrawnS j x) (hy : DrawnS k y) : DrawnS (j + k) (x * y) := by
  unfold DrawnS at *
  rw [Int.natAbs_mul, Nat.pow_add]
  exact Nat.mul_lt_mul'' hx hy

private theorem drawnS_tdiv {k : Nat} {x : Int} (y : Int) (hx : DrawnS k x) : DrawnS k (x.tdiv y) := by
  unfold DrawnS at *
  rw [Int.natAbs_tdiv]
  exact lt_of_le_of_lt (Nat.div_le_self _ _) hx

private theorem drawnS_tmod {k : Nat} {x : Int} (y : Int) (hx : DrawnS k x) : DrawnS k (x.tmod y) := by
  unfold DrawnS at *
  rw [Int.natAbs_tmod]
  exact lt_of_le_of_lt (Nat.mod_le _ _) hx

private theorem natAbs_tdiv_cast (a b : Nat) : ((a : Int).tdiv b).natAbs = a / b := by
  rw [← Int.ofNat_tdiv]; rfl

private theorem natAbs_tmod_cast (a b : Nat) : ((a : Int).tmod b).natAbs = a % b := by
  rw [← Int.ofNat_tmod]; rfl

private theorem nat_of {x : Int} (h : 0 ≤ x) : ∃ k : Nat, x = k := ⟨x.toNat, by omega⟩

/-! ## Unsigned -/

/-- `TEST(Unsigned_Addition, Huge)`: both parts pass for every draw. -/
theorem C92_addition (cfg : Cfg) {n : Nat} :
    (∀ {l r : Int}, 2 ≤ n → Drawn (16 * n - 32) l → Drawn (16 * n - 32) r →
      Tests.compositeU (n := n) cfg Aeu.add Alias.addAssign (· + ·) l r = .ok true) ∧
    (∀ {value : Int} (add : BitVec 32), 7 ≤ n → Drawn (32 * n - 200) value →
      Tests.builtinU (n := n) cfg Aeu.addBuiltin (· + ·) value add = .ok true) := by
  constructor
  · intro l r hn hl hr
    have hs : DrawnS (32 * n) (l + r) := (drawnS_add hl.signed hr.signed).le (by omega)
    rw [compositeU_eq cfg (v := (l + r).natAbs) hl.1 hr.1 (hl.signed.le (by omega)) (hr.signed.le (by omega)) hs]
    · simp
    · intro a b ha hb
      obtain ⟨x, hx, hx'⟩ := C01_add a b
      refine ⟨x, hx, ?_⟩
      unfold DrawnS at hs
      rw [hx', show toNat a + toNat b = (l + r).natAbs by omega, Nat.mod_eq_of_lt hs]
    · intro h ha hb
      obtain ⟨x, hx, hx', -⟩ := C53_add h 0 1
      refine ⟨x, hx, ?_⟩
      unfold DrawnS at hs
      show toNat (x 0) = _
      rw [hx', show toNat (h 0) + toNat (h 1) = (l + r).natAbs by omega, Nat.mod_eq_of_lt hs]
  · intro value u hn hv
    have hu : DrawnS 32 (u.toNat : Int) := by unfold DrawnS; rw [Int.natAbs_natCast]; exact u.isLt
    have hs : DrawnS (32 * n) (value + (u.toNat : Int)) :=
      (drawnS_add (k := 32 * n - 1) (hv.signed.le (by omega)) (hu.le (by omega))).le (by omega)
    rw [builtinU_eq cfg (v := (value + (u.toNat : Int)).natAbs) hv.1 (hv.signed.le (by omega)) hs]
    · simp
    · intro a ha
      obtain ⟨x, hx, hx'⟩ := C05_add_builtin_narrow (by norm_num) (le_refl 32) a u
      refine ⟨x, hx, ?_⟩
      unfold DrawnS at hs
      rw [hx', show toNat a + u.toNat = (value + (u.toNat : Int)).natAbs by omega, Nat.mod_eq_of_lt hs]

private theorem sub_flaky {N : Nat} {l r : Int} {v : Nat} (hr0 : 0 ≤ r) (hl0 : 0 ≤ l)
    (hl : l < 2 ^ N) (hr : r < 2 ^ (N - 1)) (hN : 0 < N)
    (hv : (v : Int) = (l - r) % (2 : Int) ^ N) : (v = (l - r).natAbs) ↔ r ≤ l := by
  obtain ⟨k, rfl⟩ : ∃ k, N = k + 1 := ⟨N - 1, by omega⟩
  rw [Nat.add_sub_cancel] at hr
  have h2 : (2 : Int) ^ (k + 1) = 2 * 2 ^ k := by rw [pow_succ]; ring
  by_cases h : r ≤ l
  · rw [Int.emod_eq_of_lt (by omega) (by omega)] at hv
    omega
  · have : (l - r) % (2 : Int) ^ (k + 1) = l - r + 2 ^ (k + 1) := by
      rw [← Int.add_emod_right (l - r), Int.emod_eq_of_lt (by omega) (by omega)]
    rw [this] at hv
    omega

/-- `TEST(Unsigned_Subtraction, Huge)` passes exactly for the draws whose difference is not negative: the
two draws are independent, so the test fails now and then although the library is right (C02, C65). -/
theorem C92_subtraction_exact (cfg : Cfg) {n : Nat} :
    (∀ {l r : Int}, 1 ≤ n → Drawn (32 * n - 5) l → Drawn (32 * n - 32) r →
      Tests.compositeU (n := n) cfg Aeu.sub Alias.subAssign (· - ·) l r = .ok (decide (r ≤ l))) ∧
    (∀ {value : Int} (sub : BitVec 32), 2 ≤ n → Drawn (32 * n - 10) value →
      Tests.builtinU (n := n) cfg Aeu.subRight (· - ·) value sub = .ok (decide ((sub.toNat : Int) ≤ value))) := by
  constructor
  · intro l r hn hl hr
    have hs : DrawnS (32 * n) (l - r) :=
      (drawnS_sub (k := 32 * n - 1) (hl.signed.le (by omega)) (hr.signed.le (by omega))).le (by omega)
    have key : ∀ v : Nat, (v : Int) = (l - r) % (2 : Int) ^ (32 * n) → ((v = (l - r).natAbs) ↔ r ≤ l) := fun v hv =>
      sub_flaky hr.1 hl.1 (lt_of_lt_of_le hl.2 (pow_le_pow_right₀ (by norm_num) (by omega)))
        (lt_of_lt_of_le hr.2 (pow_le_pow_right₀ (by norm_num) (by omega))) (by omega) hv
    have hnn : (0 : Int) ≤ (l - r) % (2 : Int) ^ (32 * n) := Int.emod_nonneg _ (by positivity)
    rw [compositeU_eq cfg (v := ((l - r) % (2 : Int) ^ (32 * n)).toNat) hl.1 hr.1 (hl.signed.le (by omega))
      (hr.signed.le (by omega)) hs]
    · simp only [key _ (Int.toNat_of_nonneg hnn)]
    · intro a b ha hb
      obtain ⟨x, hx, hx'⟩ := C02_sub a b
      refine ⟨x, hx, ?_⟩
      rw [ha, hb] at hx'
      omega
    · intro h ha hb
      obtain ⟨x, hx, hx', -⟩ := C53_sub h 0 1
      refine ⟨x, hx, ?_⟩
      show toNat (x 0) = _
      rw [ha, hb] at hx'
      omega
  · intro l u hn hl
    have hu : Drawn 32 (u.toNat : Int) := ⟨by omega, by exact_mod_cast u.isLt⟩
    have hs : DrawnS (32 * n) (l - (u.toNat : Int)) :=
      (drawnS_sub (k := 32 * n - 1) (hl.signed.le (by omega)) (hu.signed.le (by omega))).le (by omega)
    have key : ∀ v : Nat, (v : Int) = (l - (u.toNat : Int)) % (2 : Int) ^ (32 * n) →
        ((v = (l - (u.toNat : Int)).natAbs) ↔ (u.toNat : Int) ≤ l) := fun v hv =>
      sub_flaky hu.1 hl.1 (lt_of_lt_of_le hl.2 (pow_le_pow_right₀ (by norm_num) (by omega)))
        (lt_of_lt_of_le hu.2 (pow_le_pow_right₀ (by norm_num) (by omega))) (by omega) hv
    have hnn : (0 : Int) ≤ (l - (u.toNat : Int)) % (2 : Int) ^ (32 * n) := Int.emod_nonneg _ (by positivity)
    rw [builtinU_eq cfg (v := ((l - (u.toNat : Int)) % (2 : Int) ^ (32 * n)).toNat) hl.1 (hl.signed.le (by omega)) hs]
    · simp only [key _ (Int.toNat_of_nonneg hnn)]
    · intro a ha
      obtain ⟨b, hb, hb'⟩ := C22_construct (n := n) (by norm_num : 32 ≤ 64) (zero n) u
      have hb2 : toNat b = u.toNat := by
        rw [hb', Nat.mod_eq_of_lt (lt_of_lt_of_le u.isLt (Nat.pow_le_pow_right (by norm_num) (by omega)))]
      obtain ⟨x, hx, hx'⟩ := C02_sub a b
      refine ⟨x, ?_, ?_⟩
      · unfold Aeu.subRight Aeu.ofUnsigned
        rw [hb, ok_bind, hx]
      · rw [ha, hb2] at hx'
        omega

/-- `TEST(Unsigned_Multiplication, Huge)`: both parts pass for every draw. -/
theorem C92_multiplication (cfg : Cfg) {n : Nat} :
    (∀ {l r : Int}, 2 ≤ n → Drawn (16 * n - 10) l → Drawn (16 * n - 20) r →
      Tests.compositeU (n := n) cfg Aeu.mul Alias.mulAssign (· * ·) l r = .ok true) ∧
    (∀ {value : Int} (factor : BitVec 32), 7 ≤ n → Drawn (32 * n - 200) value →
      Tests.builtinU (n := n) cfg Aeu.mulNarrow (· * ·) value factor = .ok true) := by
  constructor
  · intro l r hn hl hr
    have hs : DrawnS (32 * n) (l * r) := (drawnS_mul hl.signed hr.signed).le (by omega)
    have hs' : (l * r).natAbs < 2 ^ (32 * n) := hs
    rw [compositeU_eq cfg (v := (l * r).natAbs) hl.1 hr.1 (hl.signed.le (by omega)) (hr.signed.le (by omega)) hs]
    · simp
    · rintro a b rfl rfl
      obtain ⟨x, hx, hx'⟩ := C03_mul a b
      refine ⟨x, hx, ?_⟩
      rw [Int.natAbs_mul, Int.natAbs_natCast, Int.natAbs_natCast] at hs' ⊢
      rw [hx', Nat.mod_eq_of_lt hs']
    · rintro h rfl rfl
      obtain ⟨x, hx, hx', -⟩ := C53_mul h 0 1
      refine ⟨x, hx, ?_⟩
      show toNat (x 0) = _
      rw [Int.natAbs_mul, Int.natAbs_natCast, Int.natAbs_natCast] at hs' ⊢
      rw [hx', Nat.mod_eq_of_lt hs']
  · intro value u hn hv
    have hu : DrawnS 32 (u.toNat : Int) := by unfold DrawnS; rw [Int.natAbs_natCast]; exact u.isLt
    have hs : DrawnS (32 * n) (value * (u.toNat : Int)) := (drawnS_mul hv.signed hu).le (by omega)
    have hs' : (value * (u.toNat : Int)).natAbs < 2 ^ (32 * n) := hs
    rw [builtinU_eq cfg (v := (value * (u.toNat : Int)).natAbs) hv.1 (hv.signed.le (by omega)) hs]
    · simp
    · rintro a rfl
      obtain ⟨x, hx, hx'⟩ := C04_mul_narrow (le_refl 32) a u
      refine ⟨x, hx, ?_⟩
      rw [Int.natAbs_mul, Int.natAbs_natCast, Int.natAbs_natCast] at hs' ⊢
      rw [hx', Nat.mod_eq_of_lt hs']

private theorem ofUnsigned_draw (hn : 1 ≤ n) (u : BitVec 32) :
    ∃ b, Aeu.ofUnsigned n u = .ok b ∧ toNat b = u.toNat := by
  obtain ⟨b, hb, hb'⟩ := C22_construct (n := n) (by norm_num : 32 ≤ 64) (zero n) u
  exact ⟨b, hb, by
    rw [hb', Nat.mod_eq_of_lt (lt_of_lt_of_le u.isLt (Nat.pow_le_pow_right (by norm_num) (by omega)))]⟩

/-- `TEST(Unsigned_Division, Huge)`: both parts pass for every draw with a non-zero divisor. -/
theorem C92_division (cfg : Cfg) {n : Nat} :
    (∀ {l r : Int}, 2 ≤ n → Drawn (32 * n - 5) l → Drawn (16 * n - 32) r → r ≠ 0 →
      Tests.compositeU (n := n) cfg (Aeu.div cfg) (Alias.divAssign cfg) Int.tdiv l r = .ok true) ∧
    (∀ {value : Int} {divisor : BitVec 32}, 1 ≤ n → Drawn (32 * n - 10) value → divisor ≠ 0#32 →
      Tests.builtinU (n := n) cfg (Aeu.divRight cfg) Int.tdiv value divisor = .ok true) := by
  constructor
  · intro l r hn hl hr hr0
    have hs : DrawnS (32 * n) (l.tdiv r) := drawnS_tdiv r (hl.signed.le (by omega))
    rw [compositeU_eq cfg (v := (l.tdiv r).natAbs) hl.1 hr.1 (hl.signed.le (by omega)) (hr.signed.le (by omega)) hs]
    · simp
    · rintro a b rfl rfl
      obtain ⟨x, hx, hx'⟩ := C06_div cfg (by omega) a b (by exact_mod_cast hr0)
      exact ⟨x, hx, hx'.trans (natAbs_tdiv_cast _ _).symm⟩
    · rintro h rfl rfl
      obtain ⟨x, hx, hx', -⟩ := C53_div cfg (by omega) h 0 1 (by exact_mod_cast hr0)
      exact ⟨x, hx, hx'.trans (natAbs_tdiv_cast _ _).symm⟩
  · intro value u hn hv hu0
    have hs : DrawnS (32 * n) (value.tdiv (u.toNat : Int)) := drawnS_tdiv _ (hv.signed.le (by omega))
    rw [builtinU_eq cfg (v := (value.tdiv (u.toNat : Int)).natAbs) hv.1 (hv.signed.le (by omega)) hs]
    · simp
    · rintro a rfl
      obtain ⟨b, hb, hb'⟩ := ofUnsigned_draw hn u
      obtain ⟨x, hx, hx'⟩ := C06_div cfg (by omega) a b
        (by rw [hb']; intro h; exact hu0 (BitVec.eq_of_toNat_eq (by simpa using h)))
      refine ⟨x, ?_, by rw [hx', hb', natAbs_tdiv_cast]⟩
      unfold Aeu.divRight
      rw [hb, ok_bind, hx]

/-- `TEST(Unsigned_Modulo, Huge)`: both parts pass for every draw with a non-zero divisor. -/
theorem C92_modulo (cfg : Cfg) {n : Nat} :
    (∀ {l r : Int}, 2 ≤ n → Drawn (32 * n - 5) l → Drawn (16 * n - 32) r → r ≠ 0 →
      Tests.compositeU (n := n) cfg (Aeu.mod cfg) (Alias.modAssign cfg) Int.tmod l r = .ok true) ∧
    (∀ {value : Int} {modulo : BitVec 32}, 7 ≤ n → Drawn (32 * n - 200) value → modulo ≠ 0#32 →
      Tests.builtinU (n := n) cfg (Aeu.modRight cfg) Int.tmod value modulo = .ok true) := by
  constructor
  · intro l r hn hl hr hr0
    have hs : DrawnS (32 * n) (l.tmod r) := drawnS_tmod r (hl.signed.le (by omega))
    rw [compositeU_eq cfg (v := (l.tmod r).natAbs) hl.1 hr.1 (hl.signed.le (by omega)) (hr.signed.le (by omega)) hs]
    · simp
    · rintro a b rfl rfl
      obtain ⟨x, hx, hx'⟩ := C06_mod cfg (by omega) a b (by exact_mod_cast hr0)
      exact ⟨x, hx, hx'.trans (natAbs_tmod_cast _ _).symm⟩
    · rintro h rfl rfl
      obtain ⟨x, hx, hx', -⟩ := C53_mod cfg (by omega) h 0 1 (by exact_mod_cast hr0)
      exact ⟨x, hx, hx'.trans (natAbs_tmod_cast _ _).symm⟩
  · intro value u hn hv hu0
    have hs : DrawnS (32 * n) (value.tmod (u.toNat : Int)) := drawnS_tmod _ (hv.signed.le (by omega))
    rw [builtinU_eq cfg (v := (value.tmod (u.toNat : Int)).natAbs) hv.1 (hv.signed.le (by omega)) hs]
    · simp
    · rintro a rfl
      obtain ⟨b, hb, hb'⟩ := ofUnsigned_draw (n := n) (by omega) u
      obtain ⟨x, hx, hx'⟩ := C06_mod cfg (by omega) a b
        (by rw [hb']; intro h; exact hu0 (BitVec.eq_of_toNat_eq (by simpa using h)))
      refine ⟨x, ?_, by rw [hx', hb', natAbs_tmod_cast]⟩
      unfold Aeu.modRight
      rw [hb, ok_bind, hx]

/-- `TEST(Unsigned_Addition, Increment)` passes for every draw and every number of increments
(the program draws fewer than 100). -/
theorem C92_increment (cfg : Cfg) (hn : 4 ≤ n) {l : Int} (hl : Drawn (32 * n - 110) l) (increments : Nat)
    (hi : increments < 100) : Tests.incrementU cfg n l increments = .ok true := by
  have hb : l + 200 < 2 ^ (32 * n) := by
    have h1 := hl.2
    have h2 : (2 : Int) ^ (32 * n) = 2 ^ (32 * n - 110) * 2 ^ 110 := by
      rw [← pow_add]; congr 1; omega
    have h3 : (1 : Int) ≤ 2 ^ (32 * n - 110) := one_le_pow₀ (by norm_num)
    rw [h2]
    nlinarith
  obtain ⟨a, ha, ha'⟩ := ofMpz_drawn (n := n) cfg hl.1 (hl.signed.le (by omega))
  have hl0 := hl.1
  have step : ∀ (x : Aeu n), (toNat x : Int) + 1 < 2 ^ (32 * n) → ∃ y, Aeu.inc x = .ok y ∧ toNat y = toNat x + 1 := by
    intro x hx
    obtain ⟨y, hy, hy'⟩ := C08_inc x
    exact ⟨y, hy, by rw [hy', Nat.mod_eq_of_lt (by exact_mod_cast hx)]⟩
  unfold Tests.incrementU
  rw [ha, ok_bind]
  suffices Sat (forUp 0 increments (a, true) fun j (value, good) => do
      let (value, old) ← Aeu.postInc value
      let e1 ← Aeu.eqMpz cfg old (l + 2 * j)
      let value ← Aeu.inc value
      let e2 ← Aeu.eqMpz cfg value (l + 2 * j + 2)
      .ok (value, good && e1 && e2)) fun s => (toNat s.1 : Int) = l + 2 * increments ∧ s.2 = true by
    obtain ⟨s, hs, h1, h2⟩ := this
    rw [hs, ok_bind, C65_unsigned_partial cfg _ _ (by omega) (by omega), h1, h2]
    simp [mul_comm]
  refine Sat.forUp (fun j s => (toNat s.1 : Int) = l + 2 * j ∧ s.2 = true) (Nat.zero_le _) ⟨by simpa using ha', rfl⟩
    ?_ fun s h => h
  rintro j ⟨x, good⟩ - hj ⟨hx, hgood⟩
  simp only at hx hgood
  subst hgood
  obtain ⟨y, hy, hy'⟩ := step x (by omega)
  obtain ⟨w, hw, hw'⟩ := step y (by omega)
  refine ⟨(w, true), ?_, by push_cast; omega, rfl⟩
  simp only [Aeu.postInc, hy, ok_bind, hw]
  rw [C65_unsigned_partial cfg _ _ (by omega) (by omega), C65_unsigned_partial cfg _ _ (by omega) (by omega)]
  simp only [ok_bind]
  rw [decide_eq_true hx, decide_eq_true (by omega)]
  rfl

/-- `TEST(Unsigned_Subtraction, Decrement)` passes exactly when the draw is not smaller than the number of
decrements (twice the loop count). -/
theorem C92_decrement_exact (cfg : Cfg) (hn : 4 ≤ n) {l : Int} (hl : Drawn (32 * n - 110) l) (decrements : Nat)
    (hi : decrements < 100) :
    Tests.decrementU cfg n l decrements = .ok (decide (2 * (decrements : Int) ≤ l)) := by
  have hb : l + 200 < 2 ^ (32 * n) ∧ (2 : Int) ^ 20 ≤ 2 ^ (32 * n) := by
    have h1 := hl.2
    have h2 : (2 : Int) ^ (32 * n) = 2 ^ (32 * n - 110) * 2 ^ 110 := by
      rw [← pow_add]; congr 1; omega
    have h3 : (1 : Int) ≤ 2 ^ (32 * n - 110) := one_le_pow₀ (by norm_num)
    rw [h2]
    constructor <;> nlinarith
  obtain ⟨hb, hb20⟩ := hb
  have hl0 := hl.1
  obtain ⟨a, ha, ha'⟩ := ofMpz_drawn (n := n) cfg hl.1 (hl.signed.le (by omega))
  have small : ∀ z : Int, -200 ≤ z → z ≤ l → DrawnS (32 * n) z := by
    intro z h1 h2
    unfold DrawnS
    refine Int.ofNat_lt.1 ?_
    simp only [Nat.cast_pow, Nat.cast_ofNat]
    omega
  have wrap : ∀ z : Int, -200 ≤ z → z ≤ l → z % (2 : Int) ^ (32 * n) = if 0 ≤ z then z else z + 2 ^ (32 * n) := by
    intro z h1 h2
    split
    · exact Int.emod_eq_of_lt (by omega) (by omega)
    · rw [← Int.add_emod_right z, Int.emod_eq_of_lt (by omega) (by omega)]
  have good : ∀ (x : Aeu n) (z : Int), -200 ≤ z → z ≤ l → (toNat x : Int) = z % (2 : Int) ^ (32 * n) →
      Aeu.eqMpz cfg x z = .ok (decide (0 ≤ z)) := by
    intro x z h1 h2 h3
    rw [eqMpz_neg cfg x (small z h1 h2)]
    rw [wrap z h1 h2] at h3
    congr 1
    rw [decide_eq_decide]
    split at h3 <;> omega
  have step : ∀ (x : Aeu n) (z : Int), (toNat x : Int) = z % (2 : Int) ^ (32 * n) →
      ∃ y, Aeu.dec x = .ok y ∧ (toNat y : Int) = (z - 1) % (2 : Int) ^ (32 * n) := by
    intro x z hx
    obtain ⟨y, hy, hy'⟩ := C08_dec x
    exact ⟨y, hy, by rw [hy', hx, Int.emod_sub_emod]⟩
  unfold Tests.decrementU
  rw [ha, ok_bind]
  suffices Sat (forUp 0 decrements (a, true) fun j (value, good) => do
      let (value, old) ← Aeu.postDec value
      let e1 ← Aeu.eqMpz cfg old (l - 2 * j)
      let value ← Aeu.dec value
      let e2 ← Aeu.eqMpz cfg value (l - 2 * j - 2)
      .ok (value, good && e1 && e2)) fun s =>
        (toNat s.1 : Int) = (l - 2 * decrements) % (2 : Int) ^ (32 * n) ∧ s.2 = decide (2 * (decrements : Int) ≤ l) by
    obtain ⟨s, hs, h1, h2⟩ := this
    rw [hs, ok_bind, good s.1 _ (by omega) (by omega) (by rw [h1, mul_comm]), h2]
    simp only [ok_bind]
    congr 1
    rw [Bool.eq_iff_iff]
    simp only [Bool.and_eq_true, decide_eq_true_eq]
    omega
  refine Sat.forUp (fun j s => (toNat s.1 : Int) = (l - 2 * j) % (2 : Int) ^ (32 * n) ∧
    s.2 = decide (2 * (j : Int) ≤ l)) (Nat.zero_le _) ⟨?_, ?_⟩ ?_ fun s h => h
  · rw [ha', Int.emod_eq_of_lt] <;> omega
  · simpa using hl0
  rintro j ⟨x, ok⟩ - hj ⟨hx, hok⟩
  simp only at hx hok
  obtain ⟨y, hy, hy'⟩ := step x _ hx
  obtain ⟨w, hw, hw'⟩ := step y _ hy'
  have hw2 : (toNat w : Int) = (l - 2 * j - 2) % (2 : Int) ^ (32 * n) := by
    rw [hw']; congr 1; ring
  refine ⟨(w, decide (2 * ((j + 1 : Nat) : Int) ≤ l)), ?_, ?_, rfl⟩
  · simp only [Aeu.postDec, hy, ok_bind, hw]
    rw [good x _ (by omega) (by omega) hx, good w _ (by omega) (by omega) hw2, hok]
    simp only [ok_bind]
    congr 2
    rw [Bool.eq_iff_iff]
    simp only [Bool.and_eq_true, decide_eq_true_eq, Nat.cast_add, Nat.cast_one]
    constructor
    · rintro ⟨-, h⟩; omega
    · intro h; refine ⟨⟨?_, ?_⟩, ?_⟩ <;> omega
  · show (toNat w : Int) = _
    rw [hw2]; congr 1; push_cast; ring

/-- The unsigned arithmetic tests are flaky: a possible draw makes the subtraction test fail, and one makes
the decrement test fail. -/
theorem C92_flaky : Drawn (32 * 8 - 5) 0 ∧ Drawn (32 * 8 - 32) 1 ∧
    Tests.compositeU (n := 8) lp64 Aeu.sub Alias.subAssign (· - ·) 0 1 = .ok false ∧
    Drawn (32 * 8 - 110) 5 ∧ Tests.decrementU lp64 8 5 3 = .ok false := by
  have h0 : Drawn (32 * 8 - 5) 0 := by constructor <;> norm_num
  have h1 : Drawn (32 * 8 - 32) 1 := by constructor <;> norm_num
  have h5 : Drawn (32 * 8 - 110) 5 := by constructor <;> norm_num
  exact ⟨h0, h1, (C92_subtraction_exact lp64).1 (by norm_num) h0 h1, h5,
    C92_decrement_exact lp64 (by norm_num) h5 3 (by norm_num)⟩

example : Tests.compositeU (n := 8) lp64 Aeu.mul Alias.mulAssign (· * ·) (2 ^ 100 + 7) (2 ^ 90 + 3) = .ok true :=
  (C92_multiplication lp64).1 (by norm_num) (by constructor <;> norm_num) (by constructor <;> norm_num)

example : Tests.compositeU (n := 8) lp64 Aeu.add Alias.addAssign (· + ·) (2 ^ 90 + 7) (2 ^ 90 + 3) = .ok true :=
  (C92_addition lp64).1 (by norm_num) (by constructor <;> norm_num) (by constructor <;> norm_num)

example : Tests.incrementU lp64 8 (2 ^ 140 - 3) 50 = .ok true :=
  C92_increment lp64 (by norm_num) (by constructor <;> norm_num) 50 (by norm_num)

example : Tests.builtinU (n := 8) lp64 (Aeu.divRight lp64) Int.tdiv (2 ^ 240 + 1) 7#32 = .ok true :=
  (C92_division lp64).2 (by norm_num) (by constructor <;> norm_num) (by decide)

example : Tests.builtinU (n := 8) lp64 (Aeu.modRight lp64) Int.tmod (2 ^ 50 + 1) 7#32 = .ok true :=
  (C92_modulo lp64).2 (by norm_num) (by constructor <;> norm_num) (by decide)

/-! ### Concrete cases that meet the hypotheses -/

example := (C92_subtraction_exact ⟨false, false, false⟩ (n := 4)).1 (l := 2 ^ 70) (r := 2 ^ 80) (by omega)
  (by decide +kernel) (by decide +kernel)

/-- The hypotheses of `C92_decrement_exact` are met. -/
example := C92_decrement_exact (n := 4) ⟨false, false, false⟩ (by omega) (l := 77) (by decide +kernel) 50 (by omega)

end AesiMP
