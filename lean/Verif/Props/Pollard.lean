import Verif.Model.Programs
import Verif.Props.Complete
import Verif.Props.Powm
import Mathlib.FieldTheory.Finite.Basic
import Mathlib.Tactic.NormNum.Prime

/-!
# C89: the factorisation program shipped with the library
-/

namespace AesiMP
open Aeu
variable {n m : Nat}

/-- The product of the factors. -/
def prodOf (fs : List U64) : Nat := (fs.map BitVec.toNat).prod

private theorem bits_iff (hm : 0 < m) (x : Aeu m) (limit : Nat) :
    Sat (bitCount x) fun k => (k > limit ↔ 2 ^ limit ≤ toNat x) := by
  refine Sat.mono (bitCount_spec hm x) fun k ⟨h1, h2⟩ => ?_
  constructor
  · intro hk
    exact Nat.le_trans (Nat.pow_le_pow_right (by norm_num) (by omega)) (h2 (by omega))
  · intro hx
    by_contra hk
    have := Nat.pow_le_pow_right (show 0 < 2 by norm_num) (show k ≤ limit by omega)
    omega

private theorem sub_one (x : Aeu n) : Sat (subRight x (1#32)) fun r => 1 ≤ toNat x → toNat r = toNat x - 1 := by
  obtain ⟨o, ho, eo⟩ := ofUnsigned_spec (n := n) (by norm_num) (1#32)
  simp only [subRight, ho, ok_bind]
  by_cases h : 1 ≤ toNat x
  · have hlt := toNat_lt x
    have ho1 : toNat o = 1 := by
      rw [eo, show (1#32).toNat = 1 from rfl]
      rcases Nat.eq_zero_or_pos n with rfl | hn
      · simp at hlt; omega
      · exact Nat.mod_eq_of_lt (Nat.one_lt_two_pow (by omega))
    refine Sat.mono (sub_spec_le (x := x) (y := o) (by omega)) fun r hr _ => by rw [hr, ho1]
  · refine Sat.mono (sub_spec x o) fun r _ h' => absurd h' h

private theorem more_than_one (hn : 0 < n) (c : Aeu n) :
    spaceshipNarrow c (1#32) = .ok (if 1 < toNat c then .greater else if toNat c = 1 then .equal else .less) := by
  unfold spaceshipNarrow
  rw [compareToNarrow_spec hn (by norm_num)]
  simp only [ok_bind, cmpNat, show (1#32).toNat = 1 from rfl]
  by_cases h1 : toNat c < 1
  · rw [if_pos h1, if_neg (by omega), if_neg (by omega)]; rfl
  · by_cases h2 : toNat c = 1
    · rw [if_neg h1, if_pos h2, if_neg (by omega), if_pos h2]; rfl
    · rw [if_neg h1, if_neg h2, if_pos (by omega)]; rfl

/-- C89: whatever the program returns divides the number and is greater than 1 - for every number, every
list of primes (any list of factors), every precision; and it always finishes. -/
theorem C89_divisor (cfg : Cfg) (hn : 0 < n) (hm : 0 < m) (hm' : 32 * m < 2 ^ 32) (limit : Nat) (number : Aeu n)
    (factors : List U64) :
    Sat (Prog.factorize cfg m limit number factors) fun r =>
      ∀ c, r = some c → 1 < toNat c ∧ toNat c ∣ toNat number := by
  have loop : ∀ (fs : List U64) (base : Aeu n) (power : Aeu m),
      Sat (Prog.factorizeLoop cfg limit number fs base power) fun r =>
        ∀ c, r = some c → 1 < toNat c ∧ toNat c ∣ toNat number := by
    intro fs
    induction fs with
    | nil => intro base power; exact Sat.ok (by intro c h; cases h)
    | cons f fs ih =>
      intro base power
      obtain ⟨p1, hp1, -⟩ := mulU64_spec power f
      obtain ⟨k, hk, -⟩ := bitCount_spec hm p1
      simp only [Prog.factorizeLoop, hp1, hk, ok_bind]
      split
      · obtain ⟨b1, hb1⟩ := C69_powmT_total cfg hn hm' base p1 number
        obtain ⟨one, hone, -⟩ := ofUnsigned_spec (n := m) (by norm_num) (1#32)
        obtain ⟨d, hd, -⟩ := sub_one b1
        obtain ⟨g, hg, eg⟩ := gcd_spec cfg hn d number
        simp only [hb1, hone, hd, hg, ok_bind, more_than_one hn]
        by_cases h1 : 1 < toNat g
        · rw [if_pos h1, if_pos rfl]
          refine Sat.ok ?_
          intro c hc
          cases hc
          exact ⟨h1, by rw [eg]; exact Nat.gcd_dvd_right _ _⟩
        · rw [if_neg h1, if_neg (by split <;> simp)]
          exact ih _ _
      · exact ih _ _
  unfold Prog.factorize
  obtain ⟨two, htwo, -⟩ := ofUnsigned_spec (n := n) (by norm_num) (2#32)
  obtain ⟨one, hone, -⟩ := ofUnsigned_spec (n := m) (by norm_num) (1#32)
  simp only [htwo, hone, ok_bind]
  exact loop factors two one

/-- State of the loop: `base` is `2^A` modulo the number, `power` is `B`. -/
private structure Inv (N limit A B : Nat) (base : Aeu n) (power : Aeu m) : Prop where
  base_eq : toNat base ≡ 2 ^ A [MOD N]
  power_eq : toNat power = B
  small : B < 2 ^ limit

private theorem gcd_pred_congr {N x y : Nat} (hx : 1 ≤ x) (hy : 1 ≤ y) (h : x ≡ y [MOD N]) :
    Nat.gcd (x - 1) N = Nat.gcd (y - 1) N := by
  have h1 : x - 1 ≡ y - 1 [MOD N] := by
    have e1 : x = x - 1 + 1 := by omega
    have e2 : y = y - 1 + 1 := by omega
    rw [e1, e2] at h
    exact Nat.ModEq.add_right_cancel' 1 h
  exact h1.gcd_eq

/-- One round of the loop. -/
private theorem round (cfg : Cfg) (hn : 0 < n) (hm : 0 < m) (hm' : 32 * m < 2 ^ 32) {limit : Nat}
    (hl : limit + 64 ≤ 32 * m) (number : Aeu n) (hN : 1 < toNat number) (hodd : toNat number % 2 = 1)
    (hfit : (toNat number - 1) * (toNat number - 1) < 2 ^ (32 * n)) {A B : Nat} {base : Aeu n} {power : Aeu m}
    (hi : Inv (toNat number) limit A B base power) (hl0 : 0 < limit) (f : U64) (fs : List U64) :
    (B * f.toNat < 2 ^ limit ∧ ∃ power' : Aeu m, Inv (toNat number) limit A (B * f.toNat) base power' ∧
      Prog.factorizeLoop cfg limit number (f :: fs) base power =
        Prog.factorizeLoop cfg limit number fs base power') ∨
    (2 ^ limit ≤ B * f.toNat ∧ ∃ c, toNat c = Nat.gcd (2 ^ (A * (B * f.toNat)) - 1) (toNat number) ∧
      (1 < toNat c → Prog.factorizeLoop cfg limit number (f :: fs) base power = .ok (some c)) ∧
      (¬ 1 < toNat c → ∃ (base' : Aeu n) (power' : Aeu m), Inv (toNat number) limit (A * (B * f.toNat)) 1 base' power' ∧
        Prog.factorizeLoop cfg limit number (f :: fs) base power =
          Prog.factorizeLoop cfg limit number fs base' power')) := by
  obtain ⟨hbase, hpow, hsm⟩ := hi
  obtain ⟨p1, hp1, ep1⟩ := mulU64_spec power f
  have hlt : B * f.toNat < 2 ^ (32 * m) := by
    have hf : f.toNat < 2 ^ 64 := f.isLt
    calc B * f.toNat < 2 ^ limit * 2 ^ 64 := by
          rcases Nat.eq_zero_or_pos B with rfl | hB
          · simp
          · exact Nat.mul_lt_mul'' hsm hf
      _ = 2 ^ (limit + 64) := by rw [pow_add]
      _ ≤ 2 ^ (32 * m) := Nat.pow_le_pow_right (by norm_num) hl
  rw [hpow, Nat.mod_eq_of_lt hlt] at ep1
  obtain ⟨k, hk, ek⟩ := bits_iff hm p1 limit
  rw [ep1] at ek
  by_cases hflush : 2 ^ limit ≤ B * f.toNat
  · right
    refine ⟨hflush, ?_⟩
    have hcop : Nat.Coprime 2 (toNat number) := by
      rw [Nat.coprime_two_left, Nat.odd_iff]; exact hodd
    have hunit : ∀ E x, x ≡ 2 ^ E [MOD toNat number] → x ≠ 0 := by
      rintro E x hx rfl
      have hd : toNat number ∣ 2 ^ E := (Nat.modEq_zero_iff_dvd).mp hx.symm
      have h1 := Nat.Coprime.eq_one_of_dvd (hcop.symm.pow_right E) hd
      omega
    have hB0 : B * f.toNat ≠ 0 := by
      have := Nat.one_le_two_pow (n := limit); omega
    obtain ⟨b1, hb1, eb1⟩ := powmT_spec cfg hn base p1 number (by omega) hm' hfit
    have hb1m : toNat b1 ≡ 2 ^ (A * (B * f.toNat)) [MOD toNat number] := by
      rw [eb1, ep1]
      have h0 := hunit A _ hbase
      have hp : toNat base ^ (B * f.toNat) ≡ 2 ^ (A * (B * f.toNat)) [MOD toNat number] := by
        have := hbase.pow (B * f.toNat); rwa [← pow_mul] at this
      by_cases h1 : toNat base = 1
      · rw [if_pos (.inl h1)]
        rw [h1, one_pow] at hp
        exact hp
      · rw [if_neg (by rintro (h | h | h); exacts [h1 h, h0 h, hB0 h])]
        exact (Nat.mod_modEq _ _).trans hp
    have hb1pos := hunit _ _ hb1m
    obtain ⟨one, hone, eone⟩ := ofUnsigned_spec (n := m) (by norm_num) (1#32)
    have hone1 : toNat one = 1 := by
      rw [eone]
      exact Nat.mod_eq_of_lt (by
        have : 2 ^ 1 ≤ 2 ^ (32 * m) := Nat.pow_le_pow_right (by norm_num) (by omega)
        simp; omega)
    obtain ⟨d, hd, ed⟩ := sub_one b1
    obtain ⟨g, hg, eg⟩ := gcd_spec cfg hn d number
    have hge : toNat g = Nat.gcd (2 ^ (A * (B * f.toNat)) - 1) (toNat number) := by
      rw [eg, ed (by omega)]
      exact gcd_pred_congr (by omega) Nat.one_le_two_pow hb1m
    have hrun : Prog.factorizeLoop cfg limit number (f :: fs) base power =
        if (if 1 < toNat g then StrongOrdering.greater else if toNat g = 1 then .equal else .less) = .greater
        then .ok (some g) else Prog.factorizeLoop cfg limit number fs b1 one := by
      simp only [Prog.factorizeLoop, hp1, hk, ok_bind]
      rw [if_pos (ek.mpr hflush)]
      simp only [hb1, hone, hd, hg, ok_bind, more_than_one hn]
    refine ⟨g, hge, fun h1 => ?_, fun h1 => ⟨b1, one, ⟨hb1m, hone1, ?_⟩, ?_⟩⟩
    · rw [hrun, if_pos h1, if_pos rfl]
    · exact Nat.one_lt_two_pow (by omega)
    · rw [hrun, if_neg h1, if_neg (by split <;> simp)]
  · left
    refine ⟨by omega, p1, ⟨hbase, ep1, by omega⟩, ?_⟩
    simp only [Prog.factorizeLoop, hp1, hk, ok_bind]
    rw [if_neg fun h => hflush (ek.mp h)]

private theorem start (hn : 0 < n) (hm : 0 < m) {limit : Nat} (hl0 : 0 < limit) (N : Nat) (cfg : Cfg) (number : Aeu n)
    (factors : List U64) : ∃ (base : Aeu n) (power : Aeu m), Inv N limit 1 1 base power ∧
      Prog.factorize cfg m limit number factors = Prog.factorizeLoop cfg limit number factors base power := by
  obtain ⟨two, htwo, etwo⟩ := ofUnsigned_spec (n := n) (by norm_num) (2#32)
  obtain ⟨one, hone, eone⟩ := ofUnsigned_spec (n := m) (by norm_num) (1#32)
  have h4 : 2 ^ 2 ≤ 2 ^ (32 * n) := Nat.pow_le_pow_right (by norm_num) (by omega)
  have h2 : 2 ^ 1 ≤ 2 ^ (32 * m) := Nat.pow_le_pow_right (by norm_num) (by omega)
  refine ⟨two, one, ⟨?_, ?_, Nat.one_lt_two_pow (by omega)⟩, ?_⟩
  · rw [etwo, show (2#32).toNat = 2 from rfl, Nat.mod_eq_of_lt (by omega)]; rfl
  · rw [eone, show (1#32).toNat = 1 from rfl, Nat.mod_eq_of_lt (by omega)]
  · unfold Prog.factorize; simp only [htwo, hone, ok_bind]

/-- C89, the method: for an odd number whose square fits, the result is `gcd(2^E - 1, number)` with `E` the
product of the factors read so far. -/
theorem C89_method (cfg : Cfg) (hn : 0 < n) (hm : 0 < m) (hm' : 32 * m < 2 ^ 32) {limit : Nat} (hl0 : 0 < limit)
    (hl : limit + 64 ≤ 32 * m) (number : Aeu n) (hN : 1 < toNat number) (hodd : toNat number % 2 = 1)
    (hfit : (toNat number - 1) * (toNat number - 1) < 2 ^ (32 * n)) (factors : List U64) :
    Sat (Prog.factorize cfg m limit number factors) fun r =>
      ∀ c, r = some c → ∃ used, used <+: factors ∧ toNat c = Nat.gcd (2 ^ prodOf used - 1) (toNat number) := by
  have loop : ∀ (fs : List U64) (A B : Nat) (base : Aeu n) (power : Aeu m), Inv (toNat number) limit A B base power →
      Sat (Prog.factorizeLoop cfg limit number fs base power) fun r =>
        ∀ c, r = some c → ∃ used, used <+: fs ∧
          toNat c = Nat.gcd (2 ^ (A * B * prodOf used) - 1) (toNat number) := by
    intro fs
    induction fs with
    | nil => intro A B base power _; exact Sat.ok (by intro c h; cases h)
    | cons f fs ih =>
      intro A B base power hi
      rcases round cfg hn hm hm' hl number hN hodd hfit hi hl0 f fs with
        ⟨-, power', hi', hrun⟩ | ⟨-, c, hc, hyes, hno⟩
      · rw [hrun]
        refine Sat.mono (ih _ _ _ _ hi') fun r hr c hc => ?_
        obtain ⟨used, h1, h2⟩ := hr c hc
        exact ⟨f :: used, (List.cons_prefix_cons).mpr ⟨rfl, h1⟩, by
          rw [h2]; simp [prodOf, mul_assoc]⟩
      · by_cases h1 : 1 < toNat c
        · rw [hyes h1]
          refine Sat.ok ?_
          intro c' hc'
          cases hc'
          exact ⟨[f], by simp, by rw [hc]; simp [prodOf, mul_assoc]⟩
        · obtain ⟨base', power', hi', hrun⟩ := hno h1
          rw [hrun]
          refine Sat.mono (ih _ _ _ _ hi') fun r hr c hc => ?_
          obtain ⟨used, h1, h2⟩ := hr c hc
          exact ⟨f :: used, (List.cons_prefix_cons).mpr ⟨rfl, h1⟩, by
            rw [h2]; simp [prodOf, mul_assoc]⟩
  obtain ⟨base, power, hi, hrun⟩ := start (m := m) hn hm hl0 (toNat number) cfg number factors
  rw [hrun]
  refine Sat.mono (loop factors 1 1 base power hi) fun r hr c hc => ?_
  simpa using hr c hc

/-- C89, it finds a factor: let an odd prime `p` divide the (odd) number.  If `p - 1` divides the product of the
factors read up to some point and the factors after it are enough to reach the next test, a factor is
returned - no later than that test. -/
theorem C89_finds (cfg : Cfg) (hn : 0 < n) (hm : 0 < m) (hm' : 32 * m < 2 ^ 32) {limit : Nat} (hl0 : 0 < limit)
    (hl : limit + 64 ≤ 32 * m) (number : Aeu n) (hN : 1 < toNat number) (hodd : toNat number % 2 = 1)
    (hfit : (toNat number - 1) * (toNat number - 1) < 2 ^ (32 * n)) (first later rest : List U64)
    (hpos : ∀ f ∈ first ++ later, 0 < f.toNat) (p : Nat) (hp : p.Prime) (hpN : p ∣ toNat number)
    (hsmooth : p - 1 ∣ prodOf first) (henough : 2 ^ limit ≤ prodOf later) :
    Sat (Prog.factorize cfg m limit number (first ++ later ++ rest)) fun r =>
      ∃ c, r = some c ∧ 1 < toNat c ∧ toNat c ∣ toNat number := by
  have hp2 : p ≠ 2 := by
    rintro rfl
    have := Nat.mod_eq_zero_of_dvd hpN
    omega
  have hdvd : ∀ E, p - 1 ∣ E → p ∣ Nat.gcd (2 ^ E - 1) (toNat number) := by
    rintro E ⟨k, rfl⟩
    refine Nat.dvd_gcd ?_ hpN
    have hf := Fact.mk hp
    have h1 : (2 ^ ((p - 1) * k) : Nat) ≡ 1 [MOD p] := by
      rw [← ZMod.natCast_eq_natCast_iff]
      push_cast
      rw [pow_mul, ZMod.pow_card_sub_one_eq_one, one_pow]
      intro h
      have h2 : ((2 : Nat) : ZMod p) = 0 := by exact_mod_cast h
      rw [ZMod.natCast_eq_zero_iff] at h2
      exact hp2 ((Nat.prime_dvd_prime_iff_eq hp Nat.prime_two).mp h2)
    exact (Nat.modEq_iff_dvd' Nat.one_le_two_pow).mp h1.symm
  have hbig : ∀ c : Aeu n, p ∣ toNat c → toNat c ∣ toNat number → 1 < toNat c := by
    intro c h1 h2
    have h0 : toNat c ≠ 0 := by rintro h; rw [h] at h2; have := Nat.eq_zero_of_zero_dvd h2; omega
    exact Nat.lt_of_lt_of_le hp.one_lt (Nat.le_of_dvd (by omega) h1)
  -- the factors after the point
  have loop2 : ∀ (gs : List U64) (A B : Nat) (base : Aeu n) (power : Aeu m),
      Inv (toNat number) limit A B base power → p - 1 ∣ A * B → 2 ^ limit ≤ B * prodOf gs →
      ∃ c, Prog.factorizeLoop cfg limit number (gs ++ rest) base power = .ok (some c) := by
    intro gs
    induction gs with
    | nil =>
      intro A B base power hi _ h
      simp [prodOf] at h
      have := hi.small
      omega
    | cons f gs ih =>
      intro A B base power hi hd h
      have hd' : p - 1 ∣ A * (B * f.toNat) := by rw [← mul_assoc]; exact Dvd.dvd.mul_right hd _
      rcases round cfg hn hm hm' hl number hN hodd hfit hi hl0 f (gs ++ rest) with
        ⟨-, power', hi', hrun⟩ | ⟨-, c, hc, hyes, -⟩
      · rw [List.cons_append, hrun]
        refine ih _ _ _ _ hi' hd' ?_
        simpa [prodOf, mul_assoc] using h
      · refine ⟨c, hyes (hbig c ?_ ?_)⟩
        · rw [hc]; exact hdvd _ hd'
        · rw [hc]; exact Nat.gcd_dvd_right _ _
  have loop1 : ∀ (fs : List U64), (∀ f ∈ fs, 0 < f.toNat) → ∀ (A B : Nat) (base : Aeu n) (power : Aeu m),
      Inv (toNat number) limit A B base power → 0 < B → p - 1 ∣ A * B * prodOf fs →
      ∃ c, Prog.factorizeLoop cfg limit number (fs ++ later ++ rest) base power = .ok (some c) := by
    intro fs
    induction fs with
    | nil =>
      intro _ A B base power hi hB hd
      refine loop2 later A B base power hi (by simpa [prodOf] using hd) ?_
      calc 2 ^ limit ≤ prodOf later := henough
        _ ≤ B * prodOf later := Nat.le_mul_of_pos_left _ hB
    | cons f fs ih =>
      intro hpos A B base power hi hB hd
      have hf := hpos f (by simp)
      have hpos' : ∀ g ∈ fs, 0 < g.toNat := fun g hg => hpos g (by simp [hg])
      have hd' : p - 1 ∣ A * (B * f.toNat) * prodOf fs := by
        have e : A * (B * f.toNat) * prodOf fs = A * B * prodOf (f :: fs) := by
          simp [prodOf]; ring
        rw [e]; exact hd
      rcases round cfg hn hm hm' hl number hN hodd hfit hi hl0 f (fs ++ later ++ rest) with
        ⟨-, power', hi', hrun⟩ | ⟨-, c, hc, hyes, hno⟩
      · simp only [List.cons_append]
        rw [hrun]
        exact ih hpos' _ _ _ _ hi' (Nat.mul_pos hB hf) hd'
      · by_cases h1 : 1 < toNat c
        · exact ⟨c, hyes h1⟩
        · obtain ⟨base', power', hi', hrun⟩ := hno h1
          simp only [List.cons_append]
          rw [hrun]
          exact ih hpos' _ _ _ _ hi' Nat.one_pos (by simpa using hd')
  obtain ⟨base, power, hi, hrun⟩ := start (m := m) hn hm hl0 (toNat number) cfg number (first ++ later ++ rest)
  obtain ⟨c, hc⟩ := loop1 first (fun f hf => hpos f (by simp [hf])) 1 1 base power hi Nat.one_pos (by simpa using hsmooth)
  obtain ⟨r, hr, hdiv⟩ := C89_divisor cfg hn hm hm' limit number (first ++ later ++ rest)
  rw [hrun, hc] at hr
  cases hr
  rw [hrun, hc]
  exact Sat.ok ⟨c, rfl, hdiv c rfl⟩

/-- 91 = 7 * 13 with the test after every 4 bits: `p - 1 = 6` divides the first factor. -/
example : Sat (Prog.factorize lp64 4 4 (ofNat 2 91) ([6#64] ++ [16#64] ++ [])) fun r =>
    ∃ c, r = some c ∧ 1 < toNat c ∧ toNat c ∣ toNat (ofNat 2 91) :=
  C89_finds lp64 (by norm_num) (by norm_num) (by norm_num) (by norm_num) (by norm_num) (ofNat 2 91)
    (by decide +kernel) (by decide +kernel) (by decide +kernel) _ _ _ (by simp) 7 (by norm_num)
    (by decide +kernel) (by decide +kernel) (by decide +kernel)

/-- The precisions of the program: 512 and 4096 bits, limit 3072; every odd number below `2^256`. -/
example (number : Aeu 16) (h : toNat number < 2 ^ 256) :
    (3072 + 64 ≤ 32 * 128) ∧ (toNat number - 1) * (toNat number - 1) < 2 ^ (32 * 16) := by
  refine ⟨by norm_num, ?_⟩
  calc (toNat number - 1) * (toNat number - 1) < 2 ^ 256 * 2 ^ 256 := Nat.mul_lt_mul'' (by omega) (by omega)
    _ = 2 ^ (32 * 16) := by rw [← pow_add]

/-! ### Concrete cases that meet the hypotheses -/

/-- The hypotheses of `C89_divisor` are met. -/
example := C89_divisor (m := 4) ⟨false, false, false⟩ (by omega) (by omega) (by omega) 64 (Aeu.ofNat 2 3233) [2, 3, 5]

/-- The hypotheses of `C89_method` are met. -/
example := C89_method (m := 4) ⟨false, false, false⟩ (by omega) (by omega) (by omega) (limit := 64) (by omega) (by omega)
  (Aeu.ofNat 2 3233) (by decide +kernel) (by decide +kernel) (by decide +kernel) [2, 3, 5]

end AesiMP
