import Verif.Model.Benchmarks
import Verif.Props.ReadBack
import Verif.Props.Powm
import Verif.Props.Arith
import Verif.Props.NumTheory
import Verif.Lemmas.PowmTotal

/-!
# C114: the numbers the benchmark programs compute

The benchmarks time this library against GMP and Crypto++ on the same literals.  A comparison is meaningful only if all
three compute the same number.  For five of the seven operations they do, in every configuration and for every number of
rounds the framework chooses; the multiplication is cut off at 4192 bits, and the modular power is a different number.
-/

namespace AesiMP
open Aeu Client

set_option exponentiation.threshold 10000

/-- Reading a literal `"0x..."`. -/
theorem C114_literal (kind : CharKind) (alnum : Int → Bool) (hl : LocaleOk alnum) (m v : Nat) :
    Returns (ofChars kind alnum m ⟨(hexLiteral v).toArray, rfl⟩) (v % 2 ^ (32 * m)) :=
  readsLiteral kind alnum hl m v

private theorem rounds_spec (body : Exec (Aeu n)) (v : Nat) (h : Returns body v) (k : Nat) (hk : 0 < k) (start : Aeu n) :
    Returns (rounds body k start) v := by
  obtain ⟨r, hr, hv⟩ := h
  have key : ∀ k (s : Aeu n), rounds body k s = .ok (if k = 0 then s else r) := by
    intro k
    induction k with
    | zero => intro s; simp [rounds]
    | succ k ih =>
      intro s
      have : rounds body (k + 1) s = rounds body k r := by
        rw [rounds]
        conv_lhs => arg 1; rw [hr]
        rfl
      rw [this, ih]
      simp
  refine ⟨r, ?_, hv⟩
  rw [key, if_neg (by omega)]

/-- The loop of a benchmark yields what one call yields, for any two literals. -/
theorem C114_binary (alnum : Int → Bool) (hl : LocaleOk alnum) (op : Aeu n → Aeu n → Exec (Aeu n))
    (f : Nat → Nat → Nat) (left right k : Nat) (hk : 0 < k) (hleft : left < 2 ^ (32 * n)) (hright : right < 2 ^ (32 * n))
    (h : ∀ a b : Aeu n, toNat a = left → toNat b = right → Returns (op a b) (f left right)) :
    Returns (benchBinary alnum op left right k) (f left right) := by
  obtain ⟨a, ha, hva⟩ := C114_literal .char alnum hl n left
  obtain ⟨b, hb, hvb⟩ := C114_literal .char alnum hl n right
  rw [Nat.mod_eq_of_lt hleft] at hva
  rw [Nat.mod_eq_of_lt hright] at hvb
  unfold benchBinary
  rw [ha, hb]
  exact rounds_spec _ _ (h a b hva hvb) k hk _

/-- `addition_Aesi`: the sum. -/
theorem C114_addition (alnum : Int → Bool) (hl : LocaleOk alnum) (k : Nat) (hk : 0 < k) :
    Returns (additionAesi alnum k) (additionData + additionData) := by
  refine C114_binary alnum hl add (· + ·) _ _ k hk (by decide +kernel) (by decide +kernel) fun a b ha hb => ?_
  have := C01_add a b
  rw [ha, hb, Nat.mod_eq_of_lt (by decide +kernel)] at this
  exact this

/-- `subtraction_Aesi`: the difference. -/
theorem C114_subtraction (alnum : Int → Bool) (hl : LocaleOk alnum) (k : Nat) (hk : 0 < k) :
    Returns (subtractionAesi alnum k) (divisionLeft - divisionRight) ∧ divisionRight ≤ divisionLeft := by
  have hle : divisionRight ≤ divisionLeft := by decide +kernel
  refine ⟨?_, hle⟩
  refine C114_binary alnum hl sub (· - ·) _ _ k hk (by decide +kernel) (by decide +kernel) fun a b ha hb => ?_
  obtain ⟨r, hr, hv⟩ := C02_sub a b
  refine ⟨r, hr, ?_⟩
  have hlt : divisionLeft < 2 ^ (32 * 256) := by decide +kernel
  rw [ha, hb, Int.emod_eq_of_lt (by omega) (by
    have : ((2 : Int) ^ (32 * 256)) = ((2 ^ (32 * 256) : Nat) : Int) := by norm_cast
    rw [this]; omega)] at hv
  omega

/-- `division_Aesi`: the quotient. -/
theorem C114_division (cfg : Cfg) (alnum : Int → Bool) (hl : LocaleOk alnum) (k : Nat) (hk : 0 < k) :
    Returns (divisionAesi cfg alnum k) (divisionLeft / divisionRight) := by
  refine C114_binary alnum hl (div cfg) (· / ·) _ _ k hk (by decide +kernel) (by decide +kernel) fun a b ha hb => ?_
  have := C06_div cfg (by norm_num) a b (by rw [hb]; decide +kernel)
  rw [ha, hb] at this
  exact this

/-- `modulo_Aesi`: the remainder. -/
theorem C114_modulo (cfg : Cfg) (alnum : Int → Bool) (hl : LocaleOk alnum) (k : Nat) (hk : 0 < k) :
    Returns (moduloAesi cfg alnum k) (divisionLeft % divisionRight) := by
  refine C114_binary alnum hl (mod cfg) (· % ·) _ _ k hk (by decide +kernel) (by decide +kernel) fun a b ha hb => ?_
  have := C06_mod cfg (by norm_num) a b (by rw [hb]; decide +kernel)
  rw [ha, hb] at this
  exact this

/-- `gcd_Aesi`: the greatest common divisor. -/
theorem C114_gcd (cfg : Cfg) (alnum : Int → Bool) (hl : LocaleOk alnum) (k : Nat) (hk : 0 < k) :
    Returns (gcdAesi cfg alnum k) (Nat.gcd multiplicationLeft multiplicationRight) := by
  refine C114_binary alnum hl (gcd cfg) Nat.gcd _ _ k hk (by decide +kernel) (by decide +kernel) fun a b ha hb => ?_
  have := C26_gcd_value cfg (by norm_num) a b
  rw [ha, hb] at this
  exact this

/-- `multiplication_Aesi`: the low 4192 bits of the product, which has 5998 bits. -/
theorem C114_multiplication_partial (alnum : Int → Bool) (hl : LocaleOk alnum) (k : Nat) (hk : 0 < k) :
    Returns (multiplicationAesi alnum k) (multiplicationLeft * multiplicationRight % 2 ^ 4192) := by
  rw [show (4192 : Nat) = 32 * 131 from rfl]
  refine C114_binary alnum hl mul (fun x y => x * y % 2 ^ (32 * 131)) _ _ k hk (by decide +kernel) (by decide +kernel)
    fun a b ha hb => ?_
  have := C03_mul a b
  rw [ha, hb] at this
  exact this

/-- So it never computes the product the other libraries compute. -/
theorem C114_multiplication_counterexample (alnum : Int → Bool) (hl : LocaleOk alnum) (k : Nat) (hk : 0 < k) :
    ¬ Returns (multiplicationAesi alnum k) (multiplicationLeft * multiplicationRight) := by
  obtain ⟨r, hr, hv⟩ := C114_multiplication_partial alnum hl k hk
  rintro ⟨r', hr', hv'⟩
  rw [hr] at hr'
  cases hr'
  have : multiplicationLeft * multiplicationRight % 2 ^ 4192 ≠ multiplicationLeft * multiplicationRight := by decide +kernel
  exact this (hv.symm.trans hv')

/-- Bits beyond the exponent change nothing. -/
private theorem sqMul_more (W M e : Nat) : ∀ k i out b j, e < 2 ^ (i + k) → sqMul W M e (k + j) i out b = sqMul W M e k i out b := by
  intro k
  induction k with
  | zero =>
    intro i out b j
    induction j generalizing i b with
    | zero => intro; rfl
    | succ j ih =>
      intro h
      have hb : e.testBit i = false := Nat.testBit_lt_two_pow (by simpa using h)
      have hs : sqMul W M e (j + 1) i out b = sqMul W M e j (i + 1) out (b * b % W % M) := by
        rw [sqMul]; simp [hb]
      rw [Nat.zero_add, hs]
      have := ih (i + 1) (b * b % W % M) (lt_trans h (by rw [Nat.add_zero, Nat.add_zero]; exact Nat.pow_lt_pow_right (by omega) (by omega)))
      rw [Nat.zero_add] at this
      simpa [sqMul] using this
  | succ k ih =>
    intro i out b j h
    rw [Nat.succ_add, sqMul, sqMul]
    exact ih _ _ _ _ (by rwa [Nat.add_assoc, Nat.add_comm 1 k])

private theorem sqMul_bits (W M e k l : Nat) (hk : e < 2 ^ k) (hl : e < 2 ^ l) (b : Nat) :
    sqMul W M e k 0 1 b = sqMul W M e l 0 1 b := by
  rcases Nat.le_total k l with h | h
  · obtain ⟨j, rfl⟩ := Nat.exists_eq_add_of_le h
    exact (sqMul_more W M e k 0 1 b j (by simpa using hk)).symm
  · obtain ⟨j, rfl⟩ := Nat.exists_eq_add_of_le h
    exact sqMul_more W M e l 0 1 b j (by simpa using hl)

/-- Square and multiply without truncation is the power. -/
private theorem sqMul_power {M : Nat} (hM : 1 < M) (e k b : Nat) (hk : e < 2 ^ k) :
    sqMul M M e k 0 1 (b % M) = b ^ e % M := by
  have h1 := sqMul_modEq (W := M) (M := M) (N := M) (fun y => by unfold Nat.ModEq; simp) e k 0 1 (b % M)
  have h2 := sqMul_lt (W := M) hM e k 0 1 (b % M) hM
  rw [Nat.pow_zero, Nat.div_one, Nat.mod_eq_of_lt hk, Nat.one_mul] at h1
  have h3 : (b % M) ^ e ≡ b ^ e [MOD M] := Nat.ModEq.pow _ (Nat.mod_modEq b M)
  have := h1.trans h3
  rwa [Nat.ModEq, Nat.mod_eq_of_lt h2] at this

/-- `powm_Aesi`: square and multiply in which every product is cut off at 512 bits. -/
theorem C114_powm_partial (cfg : Cfg) (alnum : Int → Bool) (hl : LocaleOk alnum) (k : Nat) (hk : 0 < k) :
    Returns (powmAesi cfg alnum k) (sqMul (2 ^ 512) powmModulo powmPower 512 0 1 (powmBase % powmModulo)) := by
  obtain ⟨a, ha, hva⟩ := C114_literal .char alnum hl 16 powmBase
  obtain ⟨e, he, hve⟩ := C114_literal .char alnum hl 16 powmPower
  obtain ⟨m, hm, hvm⟩ := C114_literal .char alnum hl 16 powmModulo
  rw [Nat.mod_eq_of_lt (by decide +kernel)] at hva hve hvm
  unfold powmAesi
  rw [ha, he, hm]
  obtain ⟨bits, hbits, h⟩ := C69_powm_exact cfg (by norm_num) a e m
  rw [hva, hve, hvm] at h
  rw [hve] at hbits
  rw [sqMul_bits _ _ _ bits 512 hbits (by decide +kernel)] at h
  exact rounds_spec _ _ h k hk _

/-- So it never computes the power the other libraries compute. -/
theorem C114_powm_counterexample (cfg : Cfg) (alnum : Int → Bool) (hl : LocaleOk alnum) (k : Nat) (hk : 0 < k) :
    ¬ Returns (powmAesi cfg alnum k) (powmBase ^ powmPower % powmModulo) := by
  obtain ⟨r, hr, hv⟩ := C114_powm_partial cfg alnum hl k hk
  rintro ⟨r', hr', hv'⟩
  rw [hr] at hr'
  cases hr'
  rw [← sqMul_power (by decide +kernel) powmPower 512 powmBase (by decide +kernel)] at hv'
  have : sqMul (2 ^ 512) powmModulo powmPower 512 0 1 (powmBase % powmModulo) ≠
      sqMul powmModulo powmModulo powmPower 512 0 1 (powmBase % powmModulo) := by decide +kernel
  exact this (hv.symm.trans hv')

/-- The hypotheses are met by the standard locale. -/
example : LocaleOk asciiAlnum ∧ (0 : Nat) < 1000 := ⟨fun _ h => h, by norm_num⟩

end AesiMP
