import Verif.Model.Primes
import Verif.Props.Protocols
import Verif.Props.Arith
import Verif.Props.Signed

/-! # C99: primality tests, perfect squares and the Chinese remainder theorem -/

namespace AesiMP
open Aeu
variable {n : Nat}

theorem two_lt (hn : 0 < n) : 2 ^ 32 ≤ 2 ^ (32 * n) := Nat.pow_le_pow_right (by norm_num) (by omega)

/-- C99: `root * root == a` holds exactly for perfect squares. -/
theorem C99_square (cfg : Cfg) (hn : 0 < n) (a : Aeu n) :
    Sat (Client.isSquare cfg a) fun b => b = true ↔ ∃ k, k * k = toNat a := by
  obtain ⟨r, hr, h1, h2⟩ := C32_squareRoot cfg hn a
  have hlt := toNat_lt a
  obtain ⟨s, hs, hs'⟩ := C03_mul r r
  rw [Nat.mod_eq_of_lt (by rw [← sq]; omega)] at hs'
  unfold Client.isSquare
  rw [hr, ok_bind, hs, ok_bind, (C16_compare cfg s a).1]
  refine Sat.ok ?_
  rw [decide_eq_true_iff, hs']
  constructor
  · exact fun h => ⟨_, h⟩
  · rintro ⟨k, hk⟩
    rw [← hk] at h1 h2 ⊢
    have : toNat r = k := by
      have h3 : toNat r ≤ k := by nlinarith
      have h4 : k < toNat r + 1 := by nlinarith
      omega
    rw [this]

private theorem of_two (hn : 0 < n) (c : BitVec 32) : Returns (ofUnsigned n c) c.toNat := by
  obtain ⟨o, ho, eo⟩ := ofUnsigned_spec (n := n) (by norm_num) c
  refine ⟨o, ho, ?_⟩
  rw [eo, Nat.mod_eq_of_lt (lt_of_lt_of_le c.isLt (two_lt hn))]

private theorem trial_loop (cfg : Cfg) (hn : 0 < n) (a root : Aeu n) (ha : 2 ≤ toNat a)
    (h1 : toNat root ^ 2 ≤ toNat a) (h2 : toNat a < (toNat root + 1) ^ 2) (hr : toNat root + 1 < 2 ^ (32 * n)) :
    ∀ (fuel : Nat) (d : Aeu n), 2 ≤ toNat d → toNat d ≤ toNat root + 1 ∨ toNat d = 2 →
      (∀ e, 2 ≤ e → e < toNat d → ¬ e ∣ toNat a) → toNat root + 1 - toNat d < fuel →
      Client.trialLoop cfg a root fuel d = .ok (decide (toNat a).Prime) := by
  intro fuel
  induction fuel with
  | zero => intro d _ _ _ h; omega
  | succ fuel ih =>
    intro d hd2 hd hno hfuel
    have hsqrt : toNat root = Nat.sqrt (toNat a) := by
      rw [Nat.eq_sqrt, ← sq, ← sq]; exact ⟨h1, h2⟩
    rw [Client.trialLoop, (C16_compare cfg d root).2.2.2.1, ok_bind]
    by_cases hle : toNat d ≤ toNat root
    · rw [decide_eq_true hle]
      obtain ⟨r, hr', er⟩ := C06_mod cfg hn a d (by omega)
      simp only [if_true, hr', ok_bind, (C15_zero_parity hn r).1, er]
      by_cases hdiv : toNat a % toNat d = 0
      · have hnp : ¬ (toNat a).Prime := by
          intro hp
          rcases (Nat.dvd_prime hp).mp (Nat.dvd_of_mod_eq_zero hdiv) with h | h
          · omega
          · have : toNat d * toNat d ≤ toNat a := by
              rw [sq] at h1; exact le_trans (Nat.mul_le_mul hle hle) h1
            nlinarith
        simp [hdiv, hnp]
      · obtain ⟨e, he, ee⟩ := C08_inc d
        rw [Nat.mod_eq_of_lt (by omega)] at ee
        simp only [hdiv, decide_false, Bool.false_eq_true, if_false, he, ok_bind]
        refine ih e (by omega) (Or.inl (by omega)) (fun k hk hke => ?_) (by omega)
        by_cases hkd : k = toNat d
        · rw [hkd]; exact fun h => hdiv (Nat.mod_eq_zero_of_dvd h)
        · exact hno k hk (by omega)
    · rw [decide_eq_false hle]
      have hp : (toNat a).Prime := by
        rw [Nat.prime_def_le_sqrt]
        refine ⟨ha, fun k hk hks => hno k hk ?_⟩
        rw [← hsqrt] at hks; omega
      simp [hp]

/-- C99, trial division: `true` exactly for primes, for every value of every precision. -/
theorem C99_trial_division (cfg : Cfg) (hn : 0 < n) (a : Aeu n) {fuel : Nat} (hf : 2 ^ (16 * n) ≤ fuel) :
    Client.isPrime cfg fuel a = .ok (decide (toNat a).Prime) := by
  have hbig := two_lt hn
  obtain ⟨two, ht, ht'⟩ := of_two hn (2#32)
  rw [show (2#32).toNat = 2 from rfl] at ht'
  unfold Client.isPrime
  rw [ht, ok_bind, (C16_compare cfg a two).2.2.1, ok_bind, ht']
  by_cases h : toNat a < 2
  · have : ¬ (toNat a).Prime := fun hp => by have := hp.two_le; omega
    simp [h, this]
  · obtain ⟨root, hr, h1, h2⟩ := C32_squareRoot cfg hn a
    simp only [h, decide_false, Bool.false_eq_true, if_false, hr, ok_bind]
    have hroot : toNat root < 2 ^ (16 * n) := by
      by_contra hc
      have := Nat.pow_le_pow_left (Nat.le_of_not_lt hc) 2
      rw [← Nat.pow_mul, show 16 * n * 2 = 32 * n by ring] at this
      have := toNat_lt a
      omega
    have hlt : 2 ^ (16 * n) < 2 ^ (32 * n) := Nat.pow_lt_pow_right (by norm_num) (by omega)
    refine trial_loop cfg hn a root (by omega) h1 h2 (by omega) fuel two (by omega) (Or.inr ht') ?_ (by omega)
    intro e h3 h4; omega

private theorem split_loop (hn : 0 < n) : ∀ (fuel : Nat) (d : Aeu n) (s : Nat), 0 < toNat d → toNat d < 2 ^ fuel →
    ∃ (d' : Aeu n) (k : Nat), Client.splitLoop (fuel + 1) d s = .ok (d', s + k) ∧ toNat d = 2 ^ k * toNat d' ∧
      toNat d' % 2 = 1 := by
  intro fuel
  induction fuel with
  | zero => intro d s h0 h; rw [Nat.pow_zero] at h; omega
  | succ fuel ih =>
    intro d s h0 h
    rw [Client.splitLoop, (C15_zero_parity hn d).2.2, ok_bind]
    by_cases he : toNat d % 2 = 0
    · obtain ⟨x, hx, ex⟩ := C11_shr d 1 (by omega)
      rw [pow_one] at ex
      rw [pow_succ] at h
      obtain ⟨d', k, h1, h2, h3⟩ := ih x (s + 1) (by omega) (by omega)
      refine ⟨d', k + 1, ?_, ?_, h3⟩
      · simp only [he, decide_true, if_true, hx, ok_bind, h1]
        rw [show s + 1 + k = s + (k + 1) by omega]
      · rw [pow_succ', Nat.mul_assoc, ← h2, ex]; omega
    · exact ⟨d, 0, by simp [he], by simp, by omega⟩

private theorem split_unique {s d k e : Nat} (h : 2 ^ s * d = 2 ^ k * e) (hd : d % 2 = 1) (he : e % 2 = 1) :
    s = k ∧ d = e := by
  induction s generalizing k with
  | zero =>
    cases k with
    | zero => simpa using h
    | succ k =>
      rw [pow_zero, one_mul, pow_succ', Nat.mul_assoc] at h
      omega
  | succ s ih =>
    cases k with
    | zero =>
      rw [pow_zero, one_mul, pow_succ', Nat.mul_assoc] at h
      omega
    | succ k =>
      rw [pow_succ', pow_succ', Nat.mul_assoc, Nat.mul_assoc] at h
      have := ih (Nat.eq_of_mul_eq_mul_left (by norm_num) h)
      omega

private theorem square_loop (cfg : Cfg) (hn : 0 < n) (p minusOne : Aeu n) (hp : 1 < toNat p)
    (hm : toNat minusOne = toNat p - 1) (hfit : (toNat p - 1) ^ 2 < 2 ^ (32 * n)) :
    ∀ (k : Nat) (x : Aeu n), toNat x < toNat p → Sat (Client.squareLoop cfg p minusOne k x) fun b =>
      (b = true ↔ ∃ j, 1 ≤ j ∧ j ≤ k ∧ toNat x ^ 2 ^ j % toNat p = toNat p - 1) := by
  intro k
  induction k with
  | zero =>
    intro x _
    refine Sat.ok ?_
    simp only [Bool.false_eq_true, false_iff, not_exists]
    intro j h; omega
  | succ k ih =>
    intro x hx
    obtain ⟨y, hy, ey⟩ := C03_mul x x
    have hle : toNat x * toNat x ≤ (toNat p - 1) ^ 2 := by
      rw [sq]; exact Nat.mul_le_mul (by omega) (by omega)
    rw [Nat.mod_eq_of_lt (by omega)] at ey
    obtain ⟨z, hz, ez⟩ := C06_mod cfg hn y p (by omega)
    have hzlt : toNat z < toNat p := by rw [ez]; exact Nat.mod_lt _ (by omega)
    have hz2 : ∀ j, toNat z ^ 2 ^ j % toNat p = toNat x ^ 2 ^ (j + 1) % toNat p := by
      intro j
      rw [ez, ey, ← Nat.pow_mod, ← sq, ← Nat.pow_mul, ← pow_succ']
    rw [Client.squareLoop, hy, ok_bind, hz, ok_bind, (C16_compare cfg z minusOne).1, ok_bind, hm]
    by_cases he : toNat z = toNat p - 1
    · rw [decide_eq_true he, if_pos rfl]
      refine Sat.ok ⟨fun _ => ⟨1, le_refl _, by omega, ?_⟩, fun _ => rfl⟩
      rw [← hz2 0, pow_zero, pow_one, Nat.mod_eq_of_lt hzlt, he]
    · rw [decide_eq_false he, if_neg (by simp)]
      refine (ih z hzlt).mono fun b hb => hb.trans ⟨?_, ?_⟩
      · rintro ⟨j, h1, h2, h3⟩
        exact ⟨j + 1, by omega, by omega, by rw [← hz2 j]; exact h3⟩
      · rintro ⟨j, h1, h2, h3⟩
        obtain ⟨j, rfl⟩ : ∃ i, j = i + 1 := ⟨j - 1, by omega⟩
        rw [← hz2 j] at h3
        refine ⟨j, ?_, by omega, h3⟩
        rcases Nat.eq_zero_or_pos j with rfl | h
        · rw [pow_zero, pow_one, Nat.mod_eq_of_lt hzlt] at h3; exact absurd h3 he
        · exact h

/-- C99, Miller-Rabin: for every odd modulus from 3 on whose products fit and every base the program decides exactly
whether the modulus is a strong probable prime to that base: `p - 1 = 2^s * d`, `d` odd, and `a^d = 1` or
`a^(2^j * d) = -1` for some `j < s`, modulo `p`. -/
theorem C99_miller_rabin (cfg : Cfg) (hn : 0 < n) (p a : Aeu n) (hp : 1 < toNat p)
    (hfit : (toNat p - 1) ^ 2 < 2 ^ (32 * n)) {s d : Nat} (hsd : toNat p - 1 = 2 ^ s * d) (hd : d % 2 = 1)
    (hs : 0 < s) {fuel : Nat} (hf : 32 * n < fuel) :
    Sat (Client.millerRabin cfg fuel p a) fun b =>
      (b = true ↔ toNat a ^ d % toNat p = 1 ∨ ∃ j, j < s ∧ toNat a ^ (2 ^ j * d) % toNat p = toNat p - 1) := by
  obtain ⟨fuel, rfl⟩ : ∃ f, fuel = f + 1 := ⟨fuel - 1, by omega⟩
  obtain ⟨one, h1, e1⟩ := of_two hn (1#32)
  rw [show (1#32).toNat = 1 from rfl] at e1
  obtain ⟨m, hm, em⟩ := sub_spec_le (x := p) (y := one) (by omega)
  rw [e1] at em
  have hpl := toNat_lt p
  obtain ⟨d', k, hk, ek, ok⟩ := split_loop hn fuel m 0 (by omega)
    (lt_of_lt_of_le (by omega) (Nat.pow_le_pow_right (by norm_num) (show 32 * n ≤ fuel by omega)))
  obtain ⟨rfl, rfl⟩ := split_unique (hsd.symm.trans (em.symm.trans ek)) hd ok
  obtain ⟨x, hx, ex⟩ := C29_powm_partial cfg hn a d' p (by omega) hfit (by omega)
  have hxlt : toNat x < toNat p := by rw [ex]; exact Nat.mod_lt _ (by omega)
  have hpow : ∀ j, toNat x ^ 2 ^ j % toNat p = toNat a ^ (2 ^ j * toNat d') % toNat p := by
    intro j
    rw [ex, ← Nat.pow_mod, ← Nat.pow_mul, Nat.mul_comm]
  unfold Client.millerRabin
  rw [h1, ok_bind, hm, ok_bind, hk, ok_bind]
  simp only [hx, ok_bind, (C16_compare cfg x one).1, (C16_compare cfg x m).1, e1, em, Nat.zero_add]
  by_cases hx1 : toNat x = 1
  · rw [decide_eq_true hx1, if_pos rfl]
    exact Sat.ok ⟨fun _ => Or.inl (ex ▸ hx1), fun _ => rfl⟩
  · rw [decide_eq_false hx1, if_neg (by simp)]
    by_cases hxm : toNat x = toNat p - 1
    · rw [decide_eq_true hxm, if_pos rfl]
      refine Sat.ok ⟨fun _ => Or.inr ⟨0, hs, ?_⟩, fun _ => rfl⟩
      rw [← hpow 0, pow_zero, pow_one, Nat.mod_eq_of_lt hxlt, hxm]
    · rw [decide_eq_false hxm, if_neg (by simp)]
      refine (square_loop cfg hn p m hp em hfit (s - 1) x hxlt).mono fun b hb => hb.trans ⟨?_, ?_⟩
      · rintro ⟨j, h2, h3, h4⟩
        exact Or.inr ⟨j, by omega, by rw [← hpow j]; exact h4⟩
      · rintro (h | ⟨j, h2, h3⟩)
        · exact absurd (ex.trans h) hx1
        · rw [← hpow j] at h3
          refine ⟨j, ?_, by omega, h3⟩
          rcases Nat.eq_zero_or_pos j with rfl | h
          · rw [pow_zero, pow_one, Nat.mod_eq_of_lt hxlt] at h3; exact absurd h3 hxm
          · exact h

private theorem strong_prime {p : Nat} (hp : p.Prime) (y : ZMod p) : ∀ s, y ^ 2 ^ s = 1 → y = 1 ∨ ∃ j, j < s ∧ y ^ 2 ^ j = -1 := by
  have := Fact.mk hp
  intro s
  induction s with
  | zero => intro h; rw [pow_zero, pow_one] at h; exact Or.inl h
  | succ s ih =>
    intro h
    rw [pow_succ, pow_mul] at h
    rw [sq, mul_self_eq_one_iff] at h
    rcases h with h | h
    · rcases ih h with h' | ⟨j, hj, h'⟩
      · exact Or.inl h'
      · exact Or.inr ⟨j, by omega, h'⟩
    · exact Or.inr ⟨s, by omega, h⟩

/-- C99: the Miller-Rabin program never calls an odd prime composite, whatever base it is given that the prime does
not divide. -/
theorem C99_miller_rabin_prime (cfg : Cfg) (hn : 0 < n) (p a : Aeu n) (hp : (toNat p).Prime) (h2 : toNat p ≠ 2)
    (hfit : (toNat p - 1) ^ 2 < 2 ^ (32 * n)) (ha : ¬ toNat p ∣ toNat a) {fuel : Nat} (hf : 32 * n < fuel) :
    Client.millerRabin cfg fuel p a = .ok true := by
  have hp1 := hp.one_lt
  have hodd : toNat p % 2 = 1 := hp.eq_two_or_odd.resolve_left h2
  obtain ⟨s, d, hsd', hsd⟩ := Nat.exists_eq_two_pow_mul_odd (n := toNat p - 1) (by omega)
  have hs : 0 < s := by
    rcases Nat.eq_zero_or_pos s with rfl | h
    · rw [pow_zero, one_mul] at hsd
      have := Nat.odd_iff.mp hsd'; omega
    · exact h
  obtain ⟨b, hb, hb'⟩ := C99_miller_rabin cfg hn p a hp1 hfit hsd (Nat.odd_iff.mp hsd') hs hf
  rw [hb, hb'.mpr]
  have := Fact.mk hp
  have h0 : ((toNat a : ℕ) : ZMod (toNat p)) ≠ 0 := by
    rw [Ne, ZMod.natCast_eq_zero_iff]; exact ha
  have h := ZMod.pow_card_sub_one_eq_one h0
  rw [hsd, Nat.mul_comm, pow_mul] at h
  rcases strong_prime hp _ s h with h | ⟨j, hj, h⟩
  · left
    have h' : toNat a ^ d ≡ 1 [MOD toNat p] := by
      rw [← ZMod.natCast_eq_natCast_iff]; push_cast; exact h
    rw [h', Nat.mod_eq_of_lt hp1]
  · right
    refine ⟨j, hj, ?_⟩
    have h' : toNat a ^ (2 ^ j * d) ≡ toNat p - 1 [MOD toNat p] := by
      rw [← ZMod.natCast_eq_natCast_iff, Nat.cast_sub (by omega)]; push_cast
      rw [Nat.mul_comm, pow_mul, h]; simp
    rw [h', Nat.mod_eq_of_lt (by omega)]

/-- C99, Chinese remainders: for coprime moduli whose product fits (and the second of which is not greater than the
square root of the range) the program returns the number below the product with the two remainders. -/
theorem C99_chinese_remainder (cfg : Cfg) (hn : 0 < n) (r1 m1 r2 m2 : Aeu n) (h1 : toNat r1 < toNat m1)
    (h2 : toNat r2 < toNat m2) (hm : 1 < toNat m2) (hc : Nat.gcd (toNat m1) (toNat m2) = 1)
    (hfit : toNat m1 * toNat m2 ≤ 2 ^ (32 * n)) (hsq : (toNat m2 - 1) ^ 2 < 2 ^ (32 * n)) :
    Sat (Client.chineseRemainder cfg r1 m1 r2 m2) fun x => toNat x < toNat m1 * toNat m2 ∧
      toNat x % toNat m1 = toNat r1 ∧ toNat x % toNat m2 = toNat r2 := by
  obtain ⟨i, hi, hi1, hi2⟩ := C78_modular_inverse cfg hn m1 m2 hm hc
  obtain ⟨t, ht, et⟩ := C06_mod cfg hn r1 m2 (by omega)
  have htlt : toNat t < toNat m2 := by rw [et]; exact Nat.mod_lt _ (by omega)
  have hm2 : 2 * toNat m2 ≤ 2 ^ (32 * n) := by
    have hbig := two_lt hn
    rcases Nat.lt_or_ge (toNat m2) 4 with h | h
    · omega
    · have : 2 * toNat m2 ≤ (toNat m2 - 1) ^ 2 + 1 := by
        obtain ⟨k, hk⟩ : ∃ k, toNat m2 = k + 4 := ⟨toNat m2 - 4, by omega⟩
        rw [hk, show k + 4 - 1 = k + 3 by omega]; nlinarith
      omega
  obtain ⟨u1, hu1, eu1⟩ := C01_add r2 m2
  rw [Nat.mod_eq_of_lt (by omega)] at eu1
  obtain ⟨u2, hu2, eu2⟩ := sub_spec_le (x := u1) (y := t) (by omega)
  obtain ⟨u3, hu3, eu3⟩ := C06_mod cfg hn u2 m2 (by omega)
  have hu3lt : toNat u3 < toNat m2 := by rw [eu3]; exact Nat.mod_lt _ (by omega)
  obtain ⟨u4, hu4, eu4⟩ := C03_mul u3 i
  have hle : toNat u3 * toNat i ≤ (toNat m2 - 1) ^ 2 := by
    rw [sq]; exact Nat.mul_le_mul (by omega) (by omega)
  rw [Nat.mod_eq_of_lt (by omega)] at eu4
  obtain ⟨u5, hu5, eu5⟩ := C06_mod cfg hn u4 m2 (by omega)
  have hu5lt : toNat u5 < toNat m2 := by rw [eu5]; exact Nat.mod_lt _ (by omega)
  obtain ⟨u6, hu6, eu6⟩ := C03_mul m1 u5
  have hle2 : toNat m1 * toNat u5 + toNat m1 ≤ toNat m1 * toNat m2 := by
    rw [← Nat.mul_succ]; exact Nat.mul_le_mul_left _ hu5lt
  rw [Nat.mod_eq_of_lt (by omega)] at eu6
  obtain ⟨x, hx, ex⟩ := C01_add r1 u6
  rw [Nat.mod_eq_of_lt (by omega), eu6] at ex
  unfold Client.chineseRemainder
  simp only [hi, ht, hu1, hu2, hu3, hu4, hu5, hu6, ok_bind, hx]
  refine Sat.ok ⟨by omega, ?_, ?_⟩
  · rw [ex, Nat.add_mul_mod_self_left, Nat.mod_eq_of_lt h1]
  · have key : toNat r1 + toNat m1 * toNat u5 ≡ toNat r2 [MOD toNat m2] := by
      rw [← ZMod.natCast_eq_natCast_iff]
      have hinv : (toNat m1 : ZMod (toNat m2)) * (toNat i : ZMod (toNat m2)) = 1 := by
        have : toNat m1 * toNat i ≡ 1 [MOD toNat m2] := by
          unfold Nat.ModEq; rw [hi2, Nat.mod_eq_of_lt hm]
        rw [← ZMod.natCast_eq_natCast_iff] at this
        exact_mod_cast this
      have e5 : (toNat u5 : ZMod (toNat m2)) = toNat u3 * toNat i := by
        rw [eu5, ZMod.natCast_mod, eu4]; push_cast; rfl
      have e3 : (toNat u3 : ZMod (toNat m2)) = toNat r2 - toNat r1 := by
        rw [eu3, ZMod.natCast_mod, eu2, Nat.cast_sub (by omega), eu1, et, ZMod.natCast_mod]
        push_cast; simp
      push_cast
      rw [e5, e3]
      linear_combination (toNat r2 - toNat r1 : ZMod (toNat m2)) * hinv
    rw [ex, key, Nat.mod_eq_of_lt h2]

/-! ### The hypotheses are met -/

example : Client.isSquare lp64 (ofNat 2 144) = .ok true ∧ Client.isSquare lp64 (ofNat 2 145) = .ok false := by
  decide +kernel
example : Client.isPrime lp64 (2 ^ 16) (ofNat 1 97) = .ok true ∧ Client.isPrime lp64 (2 ^ 16) (ofNat 1 91) = .ok false := by
  decide +kernel
/-- 561 is a Carmichael number: Fermat's test accepts it to base 2, Miller-Rabin does not. -/
example : (fermat lp64 (ofNat 2 2) (ofNat 2 561)).map toNat = .ok 1 ∧
    Client.millerRabin lp64 65 (ofNat 2 561) (ofNat 2 2) = .ok false ∧
    Client.millerRabin lp64 65 (ofNat 2 563) (ofNat 2 2) = .ok true := by decide +kernel
example : (563 : Nat).Prime ∧ (563 : Nat) - 1 = 2 ^ 1 * 281 := by norm_num
example : (Client.chineseRemainder lp64 (ofNat 2 2) (ofNat 2 3) (ofNat 2 3) (ofNat 2 5)).map toNat = .ok 8 := by
  decide +kernel

/-! ### Concrete cases that meet the hypotheses -/

/-- The hypotheses of `C99_square` are met. -/
example := C99_square ⟨false, false, false⟩ (by omega) (Aeu.ofNat 2 (2 ^ 40))

/-- The hypotheses of `C99_trial_division` are met. -/
example := C99_trial_division ⟨false, false, false⟩ (by omega) (Aeu.ofNat 2 (2 ^ 40 + 15)) (fuel := 2 ^ 33) (by omega)

/-- The hypotheses of `C99_miller_rabin` are met. -/
example := C99_miller_rabin ⟨false, false, false⟩ (by omega) (Aeu.ofNat 2 561) (Aeu.ofNat 2 50) (by decide +kernel)
  (by decide +kernel) (s := 4) (d := 35) (by decide +kernel) (by omega) (by omega) (fuel := 65) (by omega)

/-- The hypotheses of `C99_miller_rabin_prime` are met. -/
example := C99_miller_rabin_prime ⟨false, false, false⟩ (by omega) (Aeu.ofNat 2 257) (Aeu.ofNat 2 50)
  (by rw [show (Aeu.ofNat 2 257).toNat = 257 from by decide +kernel]; norm_num) (by decide +kernel) (by decide +kernel)
  (by decide +kernel) (fuel := 65) (by omega)

end AesiMP
