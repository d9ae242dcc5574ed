import Verif.Model.GmpMemory
import Verif.Props.SignedLeft
import Verif.Props.SignedExact
import Mathlib.Data.Nat.Size

/-!
# C109: GMP operands when memory may run out
-/

namespace AesiMP
open Aeu
variable {n : Nat}

/-- The bytes the conversion of `z` asks for; `Nat.size` is the number of binary digits. -/
def requested (z : Int) : Nat := 4 + 32 * ((Nat.size z.natAbs - 1) / 4)

private theorem size_log2 {k : Nat} (h : k ≠ 0) : Nat.size k = Nat.log2 k + 1 := by
  apply Nat.le_antisymm
  · exact Nat.size_le.2 Nat.lt_log2_self
  · exact Nat.lt_size.2 (Nat.log2_self_le h)

private theorem requested_eq (z : Int) : 4 * (1 + (mpzSizeInBase2 z - 1) / 4 * 8) = requested z := by
  unfold mpzSizeInBase2 requested
  split
  · subst z; simp
  · rename_i h
    rw [size_log2 (by simpa using h)]
    omega

private theorem ofMpzM_eq (cfg : Cfg) (grants : Nat → Bool) (z : Int) :
    Aeu.ofMpzM cfg grants n z =
      if grants (requested z) then (do let r ← Aeu.ofMpz cfg n z; .ok (.value r)) else .ok .badAlloc := by
  simp only [Aeu.ofMpzM, requested_eq]

/-- **C109**: the constructor from a GMP integer makes one request, for `requested z` bytes; if it is granted the object
is what C60 says, else the caller receives `std::bad_alloc`.  For every pattern of granted requests. -/
theorem C109_construct (cfg : Cfg) (grants : Nat → Bool) (z : Int)
    (h : cfg.unsafeMode = false ∨ z.natAbs < 2 ^ (32 * n)) :
    (grants (requested z) = true → ∃ x : Aeu n, Aeu.ofMpzM cfg grants n z = .ok (.value x) ∧
      toNat x = z.natAbs % 2 ^ (32 * n)) ∧
    (grants (requested z) = false → Aeu.ofMpzM cfg grants n z = .ok .badAlloc) := by
  rw [ofMpzM_eq]
  refine ⟨fun hg => ?_, fun hg => by simp [hg]⟩
  obtain ⟨x, hx, hx'⟩ := C60_unsigned (n := n) cfg z h
  exact ⟨x, by simp only [hg, if_true, hx]; rfl, hx'⟩

/-- **C109**: the same for `Aesi`; zero is constructed without asking for memory. -/
theorem C109_construct_signed (cfg : Cfg) (grants : Nat → Bool) (z : Int) (hz : Aesi.Fits n z) :
    (z = 0 ∨ grants (requested z) = true → ∃ x : Aesi n, Aesi.ofMpzM cfg grants n z = .ok (.value x) ∧
      Aesi.toInt x = z ∧ Aesi.Canon x) ∧
    (z ≠ 0 → grants (requested z) = false → Aesi.ofMpzM cfg grants n z = .ok .badAlloc) := by
  obtain ⟨x, hx, hx', hc⟩ := C60_signed (n := n) cfg z hz
  unfold Aesi.ofMpz at hx
  unfold Aesi.ofMpzM
  rw [ofMpzM_eq]
  by_cases h0 : z = 0
  · rw [if_pos h0] at hx ⊢
    refine ⟨fun _ => ⟨x, ?_, hx', hc⟩, fun h => absurd h0 h⟩
    cases hx; rfl
  · rw [if_neg h0] at hx ⊢
    refine ⟨fun hg => ⟨x, ?_, hx', hc⟩, fun _ hg => by simp [hg, Alloc.andThen, bind, Except.bind]⟩
    rw [if_pos (hg.resolve_left h0)]
    cases hb : Aeu.ofMpz cfg n z with
    | error e => rw [hb] at hx; simp [bind, Except.bind] at hx
    | ok b =>
      rw [hb] at hx
      simp only [bind, Except.bind, Alloc.andThen] at hx ⊢
      rw [hx]

/-- **C109**: `a op= z`: if the memory is refused the caller receives `std::bad_alloc` and `a` is what it was. -/
theorem C109_assign_refused (cfg : Cfg) (grants : Nat → Bool) (op : LeftOp) (a : Aeu n) (z : Int)
    (hg : grants (requested z) = false) : op.assignM cfg grants a z = .ok (.badAlloc, a) := by
  simp [LeftOp.assignM, ofMpzM_eq, hg, bind, Except.bind]

/-- **C109**: `a op= z`: if the memory is granted `a` becomes the result. -/
theorem C109_assign (cfg : Cfg) (hn : 0 < n) (grants : Nat → Bool) (op : LeftOp) (a : Aeu n) (z : Int) (v : Nat)
    (h : cfg.unsafeMode = false ∨ z.natAbs < 2 ^ (32 * n)) (hg : grants (requested z) = true)
    (hv : op.ideal n (toNat a) (z.natAbs % 2 ^ (32 * n)) = some v) :
    ∃ r : Aeu n, op.assignM cfg grants a z = .ok (.value (), r) ∧ toNat r = v := by
  obtain ⟨x, hx, hx'⟩ := C60_unsigned (n := n) cfg z h
  obtain ⟨r, hr, hr'⟩ := C107_right_exact cfg hn op z a v h hv
  refine ⟨r, ?_, hr'⟩
  simp only [LeftOp.mpzRight, hx, ok_bind] at hr
  simp only [LeftOp.assignM, ofMpzM_eq, hg, if_true, hx, ok_bind, hr]

/-- **C109**: `a op= z` for an `Aesi`. -/
theorem C109_assign_signed (cfg : Cfg) (hn : 0 < n) (grants : Nat → Bool) (op : SBin) (a : Aesi n) (z v : Int)
    (ha : Aesi.Canon a) (hz : Aesi.Fits n z) (hv : op.ideal n (Aesi.toInt a) z = some v) :
    (z = 0 ∨ grants (requested z) = true → ∃ r : Aesi n, op.assignM cfg grants a z = .ok (.value (), r) ∧
      Aesi.toInt r = v ∧ Aesi.Canon r) ∧
    (z ≠ 0 → grants (requested z) = false → op.assignM cfg grants a z = .ok (.badAlloc, a)) := by
  obtain ⟨h1, h2⟩ := C109_construct_signed (n := n) cfg grants z hz
  refine ⟨fun hg => ?_, fun h0 hg => ?_⟩
  · obtain ⟨x, hx, hx', hc⟩ := h1 hg
    obtain ⟨r, hr, hr'⟩ := op.refines cfg hn a x ha hc v (by rw [hx']; exact hv)
    exact ⟨r, by simp only [SBin.assignM, hx, ok_bind, hr], hr'⟩
  · simp only [SBin.assignM, h2 h0 hg, ok_bind]

/-- **C109**: `a == z` on an `Aeu`: the answer if the memory is granted; otherwise the program ends, since the operator
is declared `noexcept`. -/
theorem C109_compare_exact (cfg : Cfg) (grants : Nat → Bool) (a : Aeu n) (z : Int) (h0 : 0 ≤ z)
    (h : z < 2 ^ (32 * n)) :
    Aeu.eqMpzM cfg grants a z =
      .ok (if grants (requested z) then .value (decide ((toNat a : Int) = z)) else .terminated) := by
  have he := C65_unsigned_partial cfg a z h0 h
  unfold Aeu.eqMpz at he
  unfold Aeu.eqMpzM
  rw [ofMpzM_eq]
  by_cases hg : grants (requested z) = true
  · rw [if_pos hg, if_pos hg]
    cases hb : Aeu.ofMpz cfg n z with
    | error e => rw [hb] at he; simp [bind, Except.bind] at he
    | ok b =>
      rw [hb] at he
      simp only [bind, Except.bind, Alloc.andThen] at he ⊢
      rw [he]; rfl
  · rw [if_neg hg, if_neg hg]; rfl

/-- **C109**: the same for an `Aesi`. -/
theorem C109_compare_signed_exact (cfg : Cfg) (grants : Nat → Bool) (a : Aesi n) (ha : Aesi.Canon a) (z : Int)
    (hz : Aesi.Fits n z) :
    Aesi.eqMpzM cfg grants a z =
      .ok (if z = 0 ∨ grants (requested z) = true then .value (decide (Aesi.toInt a = z)) else .terminated) := by
  have he := C65_signed_partial cfg a ha z hz
  unfold Aesi.eqMpz Aesi.ofMpz at he
  unfold Aesi.eqMpzM Aesi.ofMpzM
  rw [ofMpzM_eq]
  by_cases h0 : z = 0
  · rw [if_pos h0] at he ⊢
    rw [if_pos (.inl h0)]
    simp only [bind, Except.bind, Alloc.andThen] at he ⊢
    rw [he]; rfl
  · rw [if_neg h0] at he ⊢
    by_cases hg : grants (requested z) = true
    · rw [if_pos hg, if_pos (.inr hg)]
      cases hb : Aeu.ofMpz cfg n z with
      | error e => rw [hb] at he; simp [bind, Except.bind] at he
      | ok b =>
        rw [hb] at he
        by_cases hneg : z < 0
        · simp only [bind, Except.bind, Alloc.andThen, if_pos hneg] at he ⊢
          rw [he]; rfl
        · simp only [bind, Except.bind, Alloc.andThen, if_neg hneg] at he ⊢
          rw [he]; rfl
    · rw [if_neg hg, if_neg (by simp [h0, hg])]; rfl

/-- **C109**: `i op a` with a signed built-in `i` (converted through GMP inside the operator, which is `noexcept`). -/
theorem C109_left_exact (cfg : Cfg) (hn : 0 < n) (grants : Nat → Bool) (op : LeftOp) (i : Int) (a : Aeu n) (v : Nat)
    (h : cfg.unsafeMode = false ∨ i.natAbs < 2 ^ (32 * n))
    (hv : op.ideal n (i.natAbs % 2 ^ (32 * n)) (toNat a) = some v) :
    (grants (requested i) = true → ∃ r : Aeu n, op.signedLeftM cfg grants i a = .ok (.value r) ∧ toNat r = v) ∧
    (grants (requested i) = false → op.signedLeftM cfg grants i a = .ok .terminated) := by
  refine ⟨fun hg => ?_, fun hg => ?_⟩
  · obtain ⟨x, hx, hx'⟩ := C60_unsigned (n := n) cfg i h
    obtain ⟨r, hr, hr'⟩ := (C107_left_exact cfg hn op i a v h hv).1
    refine ⟨r, ?_, hr'⟩
    simp only [LeftOp.signedLeft, Aeu.ofSigned, hx, ok_bind] at hr
    simp only [LeftOp.signedLeftM, ofMpzM_eq, hg, if_true, hx, ok_bind, Alloc.andThen, hr, Alloc.noexcept]
  · simp [LeftOp.signedLeftM, ofMpzM_eq, hg, Alloc.andThen, Alloc.noexcept, bind, Except.bind]

/-- The property in full: no statement with a GMP operand ends the program because memory was refused. -/
def C109_full : Prop :=
  ∀ (n : Nat) (cfg : Cfg) (grants : Nat → Bool) (a : Aeu n) (z : Int), 0 ≤ z → z < 2 ^ (32 * n) →
    Aeu.eqMpzM cfg grants a z ≠ .ok .terminated

/-- It fails for every comparison: whatever is compared, there is a shortage of memory in which the program ends. -/
theorem C109_counterexample (cfg : Cfg) (a : Aeu n) (z : Int) (h0 : 0 ≤ z) (h : z < 2 ^ (32 * n)) :
    Aeu.eqMpzM cfg (fun _ => false) a z = .ok .terminated := by
  rw [C109_compare_exact cfg _ a z h0 h]; rfl

theorem C109_full_fails : ¬ C109_full := fun h =>
  h 2 ⟨false, false, false⟩ (fun _ => false) (ofNat 2 5) 5 (by norm_num) (by norm_num)
    (C109_counterexample _ _ 5 (by norm_num) (by norm_num))

/-- What holds: conversions and assignments never end the program. -/
theorem C109_reported_partial (cfg : Cfg) (grants : Nat → Bool) (op : LeftOp) (sop : SBin) (a : Aeu n) (b : Aesi n)
    (z : Int) :
    Aeu.ofMpzM cfg grants n z ≠ .ok .terminated ∧ Aesi.ofMpzM cfg grants n z ≠ .ok .terminated ∧
    (∀ r, op.assignM cfg grants a z ≠ .ok (.terminated, r)) ∧
    (∀ r, sop.assignM cfg grants b z ≠ .ok (.terminated, r)) := by
  have h1 : Aeu.ofMpzM cfg grants n z ≠ .ok .terminated := by
    rw [ofMpzM_eq]
    split
    · cases Aeu.ofMpz cfg n z <;> simp [bind, Except.bind]
    · simp
  have h2 : Aesi.ofMpzM cfg grants n z ≠ .ok .terminated := by
    unfold Aesi.ofMpzM Alloc.andThen
    split
    · simp
    · revert h1
      cases hr : Aeu.ofMpzM cfg grants n z with
      | error e => simp [bind, Except.bind]
      | ok r =>
        cases r
        · simp only [bind, Except.bind]; split <;> simp
        · simp [bind, Except.bind]
        · simp
  refine ⟨h1, h2, fun r => ?_, fun r => ?_⟩
  · unfold LeftOp.assignM
    revert h1
    cases hr : Aeu.ofMpzM cfg grants n z with
    | error e => simp [bind, Except.bind]
    | ok s =>
      cases s
      · simp only [bind, Except.bind]
        cases op.bin.run cfg a _ <;> simp
      · simp [bind, Except.bind]
      · simp
  · unfold SBin.assignM
    revert h2
    cases hr : Aesi.ofMpzM cfg grants n z with
    | error e => simp [bind, Except.bind]
    | ok s =>
      cases s
      · simp only [bind, Except.bind]
        cases sop.run cfg b _ <;> simp
      · simp [bind, Except.bind]
      · simp

/-- How much is asked for: 8 bytes for each *bit* of the number, 64 times what its digits occupy. -/
theorem C109_overallocation (z : Int) (hz : z ≠ 0) :
    8 * Nat.size z.natAbs ≤ requested z + 28 ∧ requested z + 4 ≤ 8 * Nat.size z.natAbs := by
  have : 0 < Nat.size z.natAbs := Nat.size_pos.2 (by omega)
  unfold requested
  omega

/-! ### Concrete cases -/

/-- 2^20 (21 bits) asks for 164 bytes where 4 would do; with 100 bytes `a += z` throws and `a == z` ends the program. -/
example : requested (2 ^ 20) = 164 ∧
    LeftOp.add.assignM ⟨false, false, false⟩ (fun b => b ≤ 100) (ofNat 2 7) (2 ^ 20) = .ok (.badAlloc, ofNat 2 7) ∧
    LeftOp.add.assignM ⟨false, false, false⟩ (fun b => b ≤ 164) (ofNat 2 7) (2 ^ 20) =
      .ok (.value (), ofNat 2 (2 ^ 20 + 7)) ∧
    Aeu.eqMpzM ⟨false, false, false⟩ (fun b => b ≤ 100) (ofNat 2 7) (2 ^ 20) = .ok .terminated ∧
    Aesi.eqMpzM ⟨false, false, false⟩ (fun _ => false) (Aesi.ofInt 2 7) 0 = .ok (.value false) := by
  refine ⟨?_, by decide +kernel, by decide +kernel, by decide +kernel, by decide +kernel⟩
  rw [← requested_eq]; decide +kernel

example : SBin.add.ideal 2 (Aesi.toInt (Aesi.ofInt 2 (-7))) 3 = some (-4) ∧ Aesi.Canon (Aesi.ofInt 2 (-7)) ∧
    Aesi.Fits 2 3 ∧ LeftOp.sub.ideal 2 (toNat (ofNat 2 7)) (Int.natAbs 5 % 2 ^ 64) = some 2 := by decide +kernel

end AesiMP
