import Verif.Model.Gmp
import Verif.Props.Signed

/-!
# Properties C60, C65: GMP interoperability

The default build has `cfg.unsafeMode = false` (`AESI_UNSAFE` not defined).
-/

namespace AesiMP
open Aeu
variable {n : Nat}

/-- The number of words `mpz_export` stores. -/
private def words (z : Int) : Nat := if z = 0 then 0 else (Nat.log2 z.natAbs + 1 + 31) / 32

private theorem words_top (z : Int) {i : Nat} (hi : words z ≤ i) : z.natAbs / 2 ^ (32 * i) = 0 := by
  unfold words at hi
  apply Nat.div_eq_of_lt
  by_cases h0 : z = 0
  · subst h0; exact Nat.two_pow_pos _
  · rw [if_neg h0] at hi
    have hne : z.natAbs ≠ 0 := by omega
    exact (Nat.log2_lt hne).mp (by omega)

private theorem words_fit (z : Int) (hz : z.natAbs < 2 ^ (32 * n)) : words z ≤ n := by
  unfold words
  by_cases h0 : z = 0
  · rw [if_pos h0]; omega
  · rw [if_neg h0]
    have := (Nat.log2_lt (k := 32 * n) (show z.natAbs ≠ 0 by omega)).mpr hz
    omega

private theorem mpzExport_spec {cap : Nat} (buffer : Vector Block cap) (z : Int) (hcap : words z ≤ cap) :
    Sat (mpzExport buffer z) fun r => r.2 = words z ∧
      ∀ i (hi : i < cap), i < words z → r.1[i] = BitVec.ofNat 32 (z.natAbs / 2 ^ (32 * i)) := by
  unfold mpzExport
  refine Sat.bind (Sat.forUp (Q := fun b : Vector Block cap => ∀ j (hj : j < cap), j < words z →
    b[j] = BitVec.ofNat 32 (z.natAbs / 2 ^ (32 * j)))
    (fun i (b : Vector Block cap) => ∀ j (hj : j < cap), j < i →
    b[j] = BitVec.ofNat 32 (z.natAbs / 2 ^ (32 * j))) (Nat.zero_le _) (fun j _ h => absurd h (by omega))
    (fun i b _ hi hb => ?_) (fun b hb => hb)) fun b hb => Sat.ok ⟨rfl, hb⟩
  have hi' : i < cap := Nat.lt_of_lt_of_le hi hcap
  rw [wr_ok hi']
  refine Sat.ok fun j hj hji => ?_
  rw [Vector.getElem_set]
  split
  · rename_i e; rw [e]
  · exact hb j hj (by omega)

private theorem ofMpz_spec (cfg : Cfg) (z : Int) (h : cfg.unsafeMode = false ∨ z.natAbs < 2 ^ (32 * n)) :
    Returns (Aeu.ofMpz cfg n z) (z.natAbs % 2 ^ (32 * n)) := by
  have hcap : words z ≤ 1 + (mpzSizeInBase2 z - 1) / 4 * 8 := by
    unfold words mpzSizeInBase2
    by_cases h0 : z = 0
    · simp [h0]
    · simp only [h0, if_false]; omega
  unfold Aeu.ofMpz
  refine Sat.bind (mpzExport_spec (Vector.replicate _ 0#32) z hcap) ?_
  rintro ⟨buf, cnt⟩ ⟨h1, h2⟩
  simp only at h1 h2 ⊢
  subst h1
  refine Sat.forUp (fun i (x : Aeu n) => ∀ j, dig x j =
    if j < i ∧ j < n then z.natAbs / 2 ^ (32 * j) % 4294967296 else 0) (Nat.zero_le _)
    (fun j => by simp) (fun i x _ hi hx => ?_) (fun x hx => ?_)
  · have hi' := Nat.lt_of_lt_of_le hi hcap
    rw [rd_ok hi', ok_bind, h2 i hi' hi]
    by_cases hin : i < n
    · rw [setBlock_spec cfg x _ hin]
      refine Sat.ok fun j => ?_
      rw [dig_set hin]
      split
      · rename_i e; subst e
        rw [if_pos ⟨by omega, hin⟩, BitVec.toNat_ofNat]
      · rename_i e; rw [hx j]
        congr 1
        simp only [eq_iff_iff]; omega
    · have hs : cfg.unsafeMode = false := h.resolve_right fun hz => by
        have := words_fit (n := n) z hz; omega
      rw [setBlock_ge cfg hs x _ (by omega)]
      refine Sat.ok fun j => ?_
      rw [hx j]
      congr 1
      simp only [eq_iff_iff]; omega
  · rw [← toNat_ofNat]
    congr 1
    refine ext_dig fun j hj => ?_
    rw [hx j, dig_ofNat, if_pos hj]
    by_cases hw : j < words z
    · rw [if_pos ⟨hw, hj⟩]
    · rw [if_neg (by omega), words_top z (by omega), Nat.zero_mod]

/-- C60: `Aeu(z)` represents `|z| mod 2^bitness` in the default build, and in the unchecked build too
when `|z|` fits; the export buffer is not overrun. -/
theorem C60_unsigned (cfg : Cfg) (z : Int) (h : cfg.unsafeMode = false ∨ z.natAbs < 2 ^ (32 * n)) :
    Returns (Aeu.ofMpz cfg n z) (z.natAbs % 2 ^ (32 * n)) := ofMpz_spec cfg z h

/-- C60: `Aesi(z)` represents `z` whenever it fits, and its sign is right. -/
theorem C60_signed (cfg : Cfg) (z : Int) (h : Aesi.Fits n z) :
    Sat (Aesi.ofMpz cfg n z) fun r => Aesi.toInt r = z ∧ Aesi.Canon r := by
  unfold Aesi.ofMpz
  split
  · rename_i h0; subst h0
    exact Sat.ok ⟨rfl, fun h => absurd rfl h⟩
  · rename_i h0
    refine Sat.bind (ofMpz_spec cfg z (.inr h)) fun b hb => ?_
    rw [Nat.mod_eq_of_lt h] at hb
    split
    · refine Sat.ok ⟨?_, fun _ => ?_⟩
      · simp only [Aesi.toInt, hb]; omega
      · simp only [hb]; omega
    · refine Sat.ok ⟨?_, fun _ => ?_⟩
      · simp only [Aesi.toInt, hb]; omega
      · simp only [hb]; omega

/-- C60: for a `z` that does not fit, `Aesi(z)` keeps the sign and truncates the magnitude. -/
theorem C60_signed_truncates (cfg : Cfg) (hs : cfg.unsafeMode = false) (z : Int) :
    Sat (Aesi.ofMpz cfg n z) fun r => Aesi.toInt r = z.sign * (z.natAbs % 2 ^ (32 * n) : Nat) := by
  unfold Aesi.ofMpz
  split
  · rename_i h0; subst h0
    exact Sat.ok (by simp [Aesi.toInt])
  · rename_i h0
    refine Sat.bind (ofMpz_spec cfg z (.inl hs)) fun b hb => ?_
    split
    · rename_i hneg
      exact Sat.ok (by simp only [Aesi.toInt, hb, Int.sign_eq_neg_one_of_neg hneg]; ring)
    · exact Sat.ok (by simp only [Aesi.toInt, hb, Int.sign_eq_one_of_pos (by omega : 0 < z)]; ring)

example : Aeu.ofMpz lp64 2 (-(2 ^ 64 + 2 ^ 33 + 5)) = .ok (ofNat 2 (2 ^ 33 + 5)) ∧
    Aesi.ofMpz lp64 2 (-(2 ^ 33 + 5)) = .ok (Aesi.ofInt 2 (-(2 ^ 33 + 5))) ∧ lp64.unsafeMode = false ∧
    Aeu.ofMpz lp64 2 0 = .ok (ofNat 2 0) := by decide +kernel

/-- In the unchecked build a `z` that does not fit writes past the object. -/
theorem C60_unchecked_overrun : Aeu.ofMpz ⟨true, true, false⟩ 1 (2 ^ 32) = .error .outOfBounds := by
  decide +kernel

/-! ### C65 -/

/-- C65, unsigned, partial: `a == z` for a GMP integer `0 ≤ z < 2^bitness`.
Missing: other `z`, see `C65_unsigned_exact`. -/
theorem C65_unsigned_partial (cfg : Cfg) (a : Aeu n) (z : Int) (h0 : 0 ≤ z) (h : z < 2 ^ (32 * n)) :
    Aeu.eqMpz cfg a z = .ok (decide ((toNat a : Int) = z)) := by
  have hz : z.natAbs < 2 ^ (32 * n) := by
    have : (z.natAbs : Int) < ((2 ^ (32 * n) : Nat) : Int) := by
      rw [Int.natAbs_of_nonneg h0]; exact_mod_cast h
    exact_mod_cast this
  obtain ⟨r, hr, e⟩ := ofMpz_spec (n := n) cfg z (.inr hz)
  rw [Nat.mod_eq_of_lt hz] at e
  rw [Aeu.eqMpz, hr, ok_bind, eq_spec, e]
  congr 2
  simp only [eq_iff_iff]; omega

/-- What `a == z` is for every `z` in the default build: the sign of `z` and its bits from `2^bitness`
on are ignored. -/
theorem C65_unsigned_exact (cfg : Cfg) (hs : cfg.unsafeMode = false) (a : Aeu n) (z : Int) :
    Aeu.eqMpz cfg a z = .ok (decide (toNat a = z.natAbs % 2 ^ (32 * n))) := by
  obtain ⟨r, hr, e⟩ := ofMpz_spec (n := n) cfg z (.inl hs)
  rw [Aeu.eqMpz, hr, ok_bind, eq_spec, e]

/-- C65 is false as stated: `Aeu(5) == mpz_class(-5)` and `Aeu<64>(5) == mpz_class(2^64 + 5)`. -/
theorem C65_counterexample : Aeu.eqMpz lp64 (ofNat 2 5) (-5) = .ok true ∧
    Aeu.eqMpz lp64 (ofNat 2 5) (2 ^ 64 + 5) = .ok true ∧
    Aesi.eqMpz lp64 (Aesi.ofInt 2 5) (2 ^ 64 + 5) = .ok true := by decide +kernel

/-- C65, signed, partial: `a == z` when `z` fits.  Missing: other `z` (`C65_counterexample`), objects
holding a non-canonical zero (C41). -/
theorem C65_signed_partial (cfg : Cfg) (a : Aesi n) (ha : Aesi.Canon a) (z : Int) (h : Aesi.Fits n z) :
    Aesi.eqMpz cfg a z = .ok (decide (Aesi.toInt a = z)) := by
  obtain ⟨r, hr, e, hc⟩ := C60_signed (n := n) cfg z h
  rw [Aesi.eqMpz, hr, ok_bind, (C41_compare_partial cfg a r ha hc).2.1, e]

example : Aesi.eqMpz lp64 (Aesi.ofInt 2 (-5)) (-5) = .ok true ∧ Aesi.Canon (Aesi.ofInt 2 (-5)) ∧
    Aesi.eqMpz lp64 (Aesi.ofInt 2 (-5)) 5 = .ok false ∧ Aesi.Fits 2 5 := by decide +kernel

end AesiMP
