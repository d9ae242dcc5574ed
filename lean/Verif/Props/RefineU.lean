import Verif.SpecClient
import Verif.Props.Access
import Verif.Props.Arith
import Verif.Props.Mixed
import Verif.Props.NumTheory
import Verif.Props.Text
import Verif.Props.Gmp

/-!
# Refinement, part 1: every unsigned expression computes the number the specification gives it

Used by `Props/Refine.lean` (C77).
-/

namespace AesiMP
open Aeu
variable {n : Nat}

/-- The numbers the client's objects hold. -/
def World.ideal (st : World) : Ideal where
  u k a := toNat (st.u k a)
  s k a := Aesi.toInt (st.s k a)
  last := st.last
  os := st.os
  sink := st.sink
  src := st.src

theorem given_eq_some {α : Type} {p : Prop} [Decidable p] {v w : α} : given p v = some w ↔ p ∧ v = w := by
  unfold given; split <;> simp_all

theorem wrap_nat (n v : Nat) : wrap n (v : Int) = v % 2 ^ (32 * n) := by
  unfold wrap
  have : ((v : Int) % (2 : Int) ^ (32 * n)) = ((v % 2 ^ (32 * n) : Nat) : Int) := by push_cast; rfl
  rw [this]; exact Int.toNat_natCast _

theorem wrap_of_sat {e : Exec (Aeu n)} {z : Int}
    (h : Sat e fun r => (toNat r : Int) = z % (2 : Int) ^ (32 * n)) : Returns e (wrap n z) := by
  obtain ⟨r, hr, h⟩ := h
  exact ⟨r, hr, by unfold wrap; rw [← h]; exact (Int.toNat_natCast _).symm⟩

theorem returns_add {e : Exec (Aeu n)} {a b : Nat} (h : Returns e ((a + b) % 2 ^ (32 * n))) :
    Returns e (wrap n ((a : Int) + b)) := by rw [← Int.natCast_add, wrap_nat]; exact h

theorem returns_mul {e : Exec (Aeu n)} {a b : Nat} (h : Returns e (a * b % 2 ^ (32 * n))) :
    Returns e (wrap n ((a : Int) * b)) := by rw [← Int.natCast_mul, wrap_nat]; exact h

/-- Two numbers that differ in one digit. -/
theorem digit_replace {b : Nat} (hb : 1 < b) : ∀ (i x y d : Nat),
    (∀ k, x / b ^ k % b = if k = i then d else y / b ^ k % b) → x + y / b ^ i % b * b ^ i = y + d * b ^ i
  | 0, x, y, d, h => by
      have h0 := h 0
      have hs : x / b = y / b := by
        have hl : ∀ z k, z / b / b ^ k = z / b ^ (k + 1) := fun z k => by
          rw [Nat.div_div_eq_div_mul, pow_succ, mul_comm]
        have key : ∀ m u v : Nat, u < m → v < m → (∀ k, u / b ^ k % b = v / b ^ k % b) → u = v := by
          intro m
          induction m with
          | zero => intro u v hu; omega
          | succ m ih =>
            intro u v hu hv h
            have e0 := h 0
            simp only [pow_zero, Nat.div_one] at e0
            rcases Nat.eq_zero_or_pos u with hu0 | hu0
            · rcases Nat.eq_zero_or_pos v with hv0 | hv0
              · omega
              · have := ih (u / b) (v / b) (by subst hu0; simp; have := Nat.div_lt_self hv0 hb; omega)
                  (by have := Nat.div_lt_self hv0 hb; omega) (fun k => by rw [hl, hl]; exact h (k + 1))
                rw [← Nat.div_add_mod u b, ← Nat.div_add_mod v b, this, e0]
            · rcases Nat.eq_zero_or_pos v with hv0 | hv0
              · have := ih (u / b) (v / b) (by have := Nat.div_lt_self hu0 hb; omega)
                  (by subst hv0; simp; have := Nat.div_lt_self hu0 hb; omega)
                  (fun k => by rw [hl, hl]; exact h (k + 1))
                rw [← Nat.div_add_mod u b, ← Nat.div_add_mod v b, this, e0]
              · have := ih (u / b) (v / b) (by have := Nat.div_lt_self hu0 hb; omega)
                  (by have := Nat.div_lt_self hv0 hb; omega) (fun k => by rw [hl, hl]; exact h (k + 1))
                rw [← Nat.div_add_mod u b, ← Nat.div_add_mod v b, this, e0]
        refine key (x / b + y / b + 1) _ _ (Nat.lt_succ_of_le (Nat.le_add_right ..))
          (Nat.lt_succ_of_le (Nat.le_add_left ..)) fun k => ?_
        rw [hl, hl, h (k + 1), if_neg (by omega)]
      simp only [pow_zero, Nat.div_one, mul_one, ↓reduceIte] at h0 ⊢
      have e1 := Nat.div_add_mod x b
      have e2 := Nat.div_add_mod y b
      rw [hs] at e1
      omega
  | i + 1, x, y, d, h => by
      have hl : ∀ z k, z / b / b ^ k = z / b ^ (k + 1) := fun z k => by
        rw [Nat.div_div_eq_div_mul, pow_succ, mul_comm]
      have ih := digit_replace hb i (x / b) (y / b) d fun k => by
        rw [hl, hl, h (k + 1)]; simp
      have h0 := h 0
      simp only [pow_zero, Nat.div_one, Nat.right_eq_add, Nat.add_eq_zero_iff, one_ne_zero, and_false,
        ↓reduceIte] at h0
      rw [hl] at ih
      have e1 := Nat.div_add_mod x b
      have e2 := Nat.div_add_mod y b
      have : b * (x / b + y / b ^ (i + 1) % b * b ^ i) = b * (y / b + d * b ^ i) := by rw [ih]
      have e3 : y / b ^ (i + 1) % b * b ^ (i + 1) = b * (y / b ^ (i + 1) % b * b ^ i) := by
        conv_lhs => rw [pow_succ b i, ← mul_assoc, mul_comm]
        rw [pow_succ]
      have e4 : d * b ^ (i + 1) = b * (d * b ^ i) := by rw [pow_succ]; ring
      rw [e3, e4]
      rw [Nat.mul_add, Nat.mul_add] at this
      omega

theorem putDigit_of {b : Nat} (hb : 1 < b) {i x y d : Nat}
    (h : ∀ k, x / b ^ k % b = if k = i then d else y / b ^ k % b) : x = putDigit b y i d := by
  have := digit_replace hb i x y d h
  unfold putDigit digitAt
  omega

theorem returns_setBit (cfg : Cfg) (x : Aeu n) {i : Nat} (v : Bool) (hi : i < 32 * n) :
    Returns (Aeu.setBit cfg x i v) (putDigit 2 (toNat x) i v.toNat) := by
  obtain ⟨r, hr, h⟩ := setBit_sat cfg x v hi
  refine ⟨r, hr, putDigit_of (by norm_num) fun k => ?_⟩
  have h' := h k
  rw [Nat.testBit_eq_decide_div_mod_eq, Nat.testBit_eq_decide_div_mod_eq] at h'
  have e1 := Nat.mod_lt (toNat r / 2 ^ k) (show 0 < 2 by norm_num)
  have e2 := Nat.mod_lt (toNat x / 2 ^ k) (show 0 < 2 by norm_num)
  by_cases hk : k = i
  · rw [if_pos hk] at h' ⊢
    cases v <;> simp_all
  · rw [if_neg hk] at h' ⊢
    have h'' := decide_eq_decide.1 h'
    omega

theorem returns_setByte (cfg : Cfg) (x : Aeu n) {i : Nat} (v : BitVec 8) (hi : i < 4 * n) :
    Returns (Aeu.setByte cfg x i v) (putDigit 256 (toNat x) i v.toNat) := by
  obtain ⟨r, hr, h⟩ := setByte_spec cfg x v hi
  exact ⟨r, hr, putDigit_of (by norm_num) h⟩

theorem returns_setBlock (cfg : Cfg) (x : Aeu n) {i : Nat} (v : Block) (hi : i < n) :
    Returns (Aeu.setBlock cfg x i v) (putDigit (2 ^ 32) (toNat x) i v.toNat) := by
  rw [setBlock_spec cfg x v hi]
  refine ⟨_, rfl, ?_⟩
  have h := toNat_set (x := x) (v := v) hi
  rw [← toNat_digit x i] at h
  unfold putDigit digitAt
  rw [← pow_mul]
  exact Nat.eq_sub_of_add_eq h

theorem UBin.refines (cfg : Cfg) (hn : 0 < n) (a b : Aeu n) (op : UBin) (v : Nat)
    (h : op.ideal n (toNat a) (toNat b) = some v) : Returns (op.run cfg a b) v := by
  cases op <;> simp only [UBin.ideal, given_eq_some, Option.some.injEq] at h <;> simp only [UBin.run]
  · subst h; exact returns_add (C01_add a b)
  · subst h; exact wrap_of_sat (C02_sub a b)
  · subst h; exact returns_mul (C03_mul a b)
  · obtain ⟨hb, rfl⟩ := h; exact C06_div cfg hn a b hb
  · obtain ⟨hb, rfl⟩ := h; exact C06_mod cfg hn a b hb
  · subst h; exact C09_xor a b
  · subst h; exact C09_and a b
  · subst h; exact C09_or a b
  · subst h; exact C26_gcd_value cfg hn a b
  · subst h; rw [wrap_nat]; exact C28_lcm_mod cfg hn a b

theorem UMix.refines (cfg : Cfg) (hn : 0 < n) {w : Nat} (a : Aeu n) (u : BitVec w) (op : UMix) (v : Nat)
    (h : op.ideal n w (toNat a) u.toNat = some v) : Returns (op.run cfg a u) v := by
  unfold UMix.ideal at h
  split at h
  swap
  · cases h
  rename_i hw
  obtain ⟨hw0, hw⟩ := hw
  cases op <;> simp only [given_eq_some, Option.some.injEq] at h <;> simp only [UMix.run]
  · obtain ⟨hc, rfl⟩ := h
    refine returns_add ?_
    rcases Nat.lt_or_ge 2 n with h3 | h2
    · exact (C05_add_builtin_iff h3 hw0 hw a u).2 (by omega)
    · exact C05_add_builtin_small h2 hw0 hw a u
  · obtain ⟨hu, rfl⟩ := h; exact wrap_of_sat (C66_right cfg hn hw u a hu).1
  · obtain ⟨hu, rfl⟩ := h; exact returns_mul (C04_mul_narrow hu a u)
  · obtain ⟨⟨hu, h0⟩, rfl⟩ := h; exact (C66_right cfg hn hw u a hu).2.1 h0
  · obtain ⟨⟨hu, h0⟩, rfl⟩ := h; exact (C66_right cfg hn hw u a hu).2.2.1 h0
  · obtain ⟨hu, rfl⟩ := h; exact (C66_right cfg hn hw u a hu).2.2.2.1
  · obtain ⟨hu, rfl⟩ := h; exact (C66_right cfg hn hw u a hu).2.2.2.2.1
  · obtain ⟨hu, rfl⟩ := h; exact (C66_right cfg hn hw u a hu).2.2.2.2.2
  · subst h; exact returns_add (C66_left_ring hw u a).1
  · subst h; exact wrap_of_sat (C66_left_ring hw u a).2.1
  · subst h; exact returns_mul (C66_left_ring hw u a).2.2
  · obtain ⟨⟨hu, h0⟩, rfl⟩ := h; exact (C66_left_rest cfg hn hw u a hu).1 h0
  · obtain ⟨⟨hu, h0⟩, rfl⟩ := h; exact (C66_left_rest cfg hn hw u a hu).2.1 h0
  · obtain ⟨hu, rfl⟩ := h; exact (C66_left_rest cfg hn hw u a hu).2.2.1
  · obtain ⟨hu, rfl⟩ := h; exact (C66_left_rest cfg hn hw u a hu).2.2.2.1
  · obtain ⟨hu, rfl⟩ := h; exact (C66_left_rest cfg hn hw u a hu).2.2.2.2

theorem natAbs_toInt {a : Aesi n} (h : Aesi.toInt a ≠ 0) : toNat a.base = (Aesi.toInt a).natAbs := by
  unfold Aesi.toInt at *
  cases hs : a.sign <;> simp_all

private theorem ofMpz_value (cfg : Cfg) {z : Int} (h0 : 0 ≤ z) (h1 : z < 2 ^ (32 * n)) :
    Returns (Aeu.ofMpz cfg n z) z.toNat := by
  have hz : z.natAbs < 2 ^ (32 * n) := by
    have : ((z.natAbs : Nat) : Int) < ((2 ^ (32 * n) : Nat) : Int) := by push_cast; rw [abs_of_nonneg h0]; exact h1
    exact Int.ofNat_lt.1 this
  have := C60_unsigned (n := n) cfg z (.inr hz)
  rw [Nat.mod_eq_of_lt hz] at this
  rwa [show z.toNat = z.natAbs by omega]

theorem UExpr.refines (env : Env) (st : World) (hn : 0 < n) (e : UExpr n) (v : Nat)
    (h : e.ideal env st.ideal = some v) : Returns (e.run env st) v := by
  cases e <;> simp only [UExpr.ideal, given_eq_some, Option.some.injEq, World.ideal] at h <;>
    simp only [UExpr.run]
  case builtin k u =>
    obtain ⟨hk, rfl⟩ := h
    rw [wrap_nat]; exact C22_construct hk _ u
  case text kind chars =>
    obtain ⟨hc, rfl⟩ := h
    rw [wrap_nat]
    cases kind
    · exact C23_narrow_partial env.alnum chars fun p hp _ => hc rfl _ (List.getElem_mem hp)
    · exact C23_wide env.alnum chars
  case mpz z =>
    obtain ⟨hz, rfl⟩ := h
    have := C60_unsigned (n := n) env.cfg z (.inr hz)
    rwa [Nat.mod_eq_of_lt hz] at this
  case reg a => exact ⟨_, rfl, h⟩
  case plus a => exact ⟨_, rfl, h⟩
  case neg a => subst h; exact wrap_of_sat (C02_neg _)
  case not a => subst h; exact C09_not_value _
  case inc a => subst h; exact returns_add (C08_inc _)
  case dec a => subst h; exact wrap_of_sat (C08_dec _)
  case bin op a b => exact op.refines env.cfg hn _ _ v h
  case shl a k =>
    obtain ⟨hk, rfl⟩ := h
    have : wrap n ((toNat (st.u n a) : Int) * 2 ^ k) = toNat (st.u n a) * 2 ^ k % 2 ^ (32 * n) := by
      rw [← wrap_nat]; push_cast; rfl
    rw [this]; exact C10_shl _ k hk
  case shr a k => obtain ⟨hk, rfl⟩ := h; exact C11_shr _ k hk
  case mix op a k u => exact op.refines env.cfg hn _ u v h
  case mulU64 a u => subst h; exact returns_mul (C04_mul_uint64 _ u)
  case mulULL a u => obtain ⟨hu, rfl⟩ := h; exact returns_mul (C04_mul_ull_partial env.cfg _ u hu)
  case mulConst a k u =>
    obtain ⟨hk, rfl⟩ := h
    obtain ⟨x, hx, hv⟩ := Aeu.ofUnsigned_spec (n := n) hk u
    simp only [Aeu.mulConst, hx, ok_bind]
    obtain ⟨r, hr, h'⟩ := C03_mul (st.u n a) x
    refine returns_mul ⟨r, hr, ?_⟩
    rw [h', hv, Nat.mul_mod_mod]
  case mpzL op z a =>
    split at h
    swap
    · cases h
    rename_i hz
    obtain ⟨x, hx, hv⟩ := ofMpz_value env.cfg hz.1 hz.2
    simp only [hx, ok_bind]
    exact op.refines env.cfg hn x _ v (by rw [hv]; exact h)
  case mpzR op a z =>
    split at h
    swap
    · cases h
    rename_i hz
    obtain ⟨x, hx, hv⟩ := ofMpz_value env.cfg hz.1 hz.2
    simp only [hx, ok_bind]
    exact op.refines env.cfg hn _ x v (by rw [hv]; exact h)
  case powm b e m =>
    obtain ⟨⟨hm, hf⟩, rfl⟩ := given_eq_some.1 h
    exact C29_powm_partial env.cfg hn _ _ _ (by omega) hf (by omega)
  case powmT k b e m =>
    obtain ⟨⟨hk, hm, hf, hb⟩, rfl⟩ := given_eq_some.1 h
    exact C30_powm_partial env.cfg hn _ _ _ (by omega) hk hf (by omega) (by omega)
  case squareRoot a =>
    subst h
    obtain ⟨r, hr, h1, h2⟩ := C32_squareRoot env.cfg hn (st.u n a)
    exact ⟨r, hr, Nat.eq_sqrt'.2 ⟨h1, h2⟩⟩
  case power2 k => obtain ⟨hk, rfl⟩ := h; exact C31_power2 env.cfg k hk
  case setBit a i b => obtain ⟨hi, rfl⟩ := h; exact returns_setBit env.cfg _ b hi
  case setByte a i b => obtain ⟨hi, rfl⟩ := h; exact returns_setByte env.cfg _ b hi
  case setBlock a i b => obtain ⟨hi, rfl⟩ := h; exact returns_setBlock env.cfg _ b hi
  case cast k a => subst h; rw [wrap_nat]; exact C20_precisionCast env.cfg _
  case magnitude a =>
    obtain ⟨h0, rfl⟩ := given_eq_some.1 h
    exact ⟨_, rfl, natAbs_toInt h0⟩

end AesiMP
