import Verif.Model.Programs
import Verif.Props.Alias
import Verif.Props.Arith
import Verif.Props.Signed
import Mathlib.Data.Nat.Factorial.Basic

/-!
# C91: the CUDA smoke kernels and the factorial program
-/

namespace AesiMP
variable {n : Nat}

section Unsigned
open Aeu

/-- C91: the unsigned kernel leaves `(a + b) * b` modulo `2^bitness` in the output and touches nothing else,
also when `a` and `b` are the same object or the output is `a`. -/
theorem C91_unsigned_kernel (h : Heap n) (a b out : Nat) (hb : out ≠ b) :
    Sat (Prog.unsignedKernel h a b out) fun h' =>
      toNat (h' out) = (toNat (h a) + toNat (h b)) * toNat (h b) % 2 ^ (32 * n) ∧ ∀ p, p ≠ out → h' p = h p := by
  obtain ⟨s, hs, es⟩ := C01_add (h a) (h b)
  obtain ⟨h', hr, e1, e2⟩ := C53_mul (h.put out s) out b
  simp only [Prog.unsignedKernel, hs, hr, ok_bind, sat_ok]
  refine ⟨?_, fun p hp => ?_⟩
  · rw [e1, hput_same, hput_ne _ _ (Ne.symm hb), es, Nat.mod_mul_mod]
  · rw [e2 p hp, hput_ne _ _ hp]

/-- C91: with the output in the place of `b` the second line sees the new value: the square of the sum. -/
theorem C91_unsigned_kernel_alias (h : Heap n) (a b : Nat) :
    Sat (Prog.unsignedKernel h a b b) fun h' =>
      toNat (h' b) = (toNat (h a) + toNat (h b)) ^ 2 % 2 ^ (32 * n) ∧ ∀ p, p ≠ b → h' p = h p := by
  obtain ⟨s, hs, es⟩ := C01_add (h a) (h b)
  obtain ⟨h', hr, e1, e2⟩ := C53_mul (h.put b s) b b
  simp only [Prog.unsignedKernel, hs, hr, ok_bind, sat_ok]
  refine ⟨?_, fun p hp => ?_⟩
  · rw [e1, hput_same, es, pow_two, ← Nat.mul_mod]
  · rw [e2 p hp, hput_ne _ _ hp]

/-- C91: the factorial loop computes `k!`, modulo `2^bitness`. -/
theorem C91_factorial (k : Nat) (hk : k < 2 ^ 32) :
    Returns (Prog.factorial n k) (k.factorial % 2 ^ (32 * n)) := by
  obtain ⟨o, ho, eo⟩ := ofUnsigned_spec (n := n) (by norm_num) (1#32)
  simp only [Prog.factorial, ho, ok_bind]
  rw [show (1#32).toNat = 1 from rfl] at eo
  rcases Nat.lt_or_ge k 1 with h | h
  · obtain rfl : k = 0 := by omega
    exact Sat.ok (by rw [eo]; rfl)
  · refine Sat.forUp (fun i f => toNat f = (i - 1).factorial % 2 ^ (32 * n)) (by omega) ?_ ?_ ?_
    · rw [eo]; rfl
    · intro i f h1 h2 hf
      refine Sat.mono (C04_mul_narrow (by norm_num) f (BitVec.ofNat 32 i)) fun r hr => ?_
      rw [hr, hf, BitVec.toNat_ofNat, Nat.mod_eq_of_lt (show i < 2 ^ 32 by omega), Nat.mod_mul_mod, mul_comm,
        Nat.mul_factorial_pred (by omega)]
      rfl
    · intro s hs; simpa using hs

/-- C91: the program's 50! needs 215 bits and is exact in 512. -/
theorem C91_factorial_50 : Returns (Prog.factorial 16 50) (Nat.factorial 50) := by
  have h := C91_factorial (n := 16) 50 (by norm_num)
  rwa [Nat.mod_eq_of_lt (by decide +kernel)] at h

example : (Prog.factorial 2 20).map toNat = .ok 2432902008176640000 := by decide +kernel
example : (Prog.unsignedKernel (fun p => if p = 0 then ofNat 4 100 else ofNat 4 200) 0 1 2).map (fun h => toNat (h 2)) =
    .ok 60000 := by decide +kernel

end Unsigned

section Signed
open Aesi

/-- C91: the signed kernel, when the results fit. -/
theorem C91_signed_kernel (cfg : Cfg) (h : SHeap n) (a b out : Nat) (hb : out ≠ b)
    (h1 : Fits n (toInt (h.obj a) + toInt (h.obj b)))
    (h2 : Fits n ((toInt (h.obj a) + toInt (h.obj b)) * toInt (h.obj b))) :
    Sat (Prog.signedKernel cfg h a b out) fun h' =>
      toInt (h'.obj out) = (toInt (h.obj a) + toInt (h.obj b)) * toInt (h.obj b) ∧
      ∀ p, p ≠ out → h'.obj p = h.obj p := by
  obtain ⟨s, hs, es⟩ := C36_add cfg (h.obj a) (h.obj b) h1
  have hso : (h.put out s).obj out = s := by simp [SHeap.put, SHeap.obj, SHeap.setSign, SHeap.setBase, Heap.put]
  have hne : ∀ p, p ≠ out → (h.put out s).obj p = h.obj p := by
    intro p hp; simp [SHeap.put, SHeap.obj, SHeap.setSign, SHeap.setBase, Heap.put, hp]
  obtain ⟨h', hr, e1, e2⟩ := C53_signed_mul (h.put out s) out b (by rw [hso, hne b (Ne.symm hb), es]; exact h2)
  simp only [Prog.signedKernel, hs, hr, ok_bind, sat_ok]
  refine ⟨?_, fun p hp => ?_⟩
  · rw [e1, hso, hne b (Ne.symm hb), es]
  · rw [e2 p hp, hne p hp]

/-- C91: the signed kernel whose output is its second input: the square of the sum. -/
theorem C91_signed_kernel_alias (cfg : Cfg) (h : SHeap n) (a b : Nat)
    (h1 : Fits n (toInt (h.obj a) + toInt (h.obj b)))
    (h2 : Fits n ((toInt (h.obj a) + toInt (h.obj b)) ^ 2)) :
    Sat (Prog.signedKernel cfg h a b b) fun h' =>
      toInt (h'.obj b) = (toInt (h.obj a) + toInt (h.obj b)) ^ 2 ∧ ∀ p, p ≠ b → h'.obj p = h.obj p := by
  obtain ⟨s, hs, es⟩ := C36_add cfg (h.obj a) (h.obj b) h1
  have hso : (h.put b s).obj b = s := by simp [SHeap.put, SHeap.obj, SHeap.setSign, SHeap.setBase, Heap.put]
  have hne : ∀ p, p ≠ b → (h.put b s).obj p = h.obj p := by
    intro p hp; simp [SHeap.put, SHeap.obj, SHeap.setSign, SHeap.setBase, Heap.put, hp]
  obtain ⟨h', hr, e1, e2⟩ := C53_signed_mul (h.put b s) b b (by rw [hso, es, ← pow_two]; exact h2)
  simp only [Prog.signedKernel, hs, hr, ok_bind, sat_ok]
  refine ⟨?_, fun p hp => ?_⟩
  · rw [e1, hso, es, pow_two]
  · rw [e2 p hp, hne p hp]

example : (Prog.signedKernel ⟨false, false, false⟩
    ⟨fun p => if p = 0 then .negative else .positive, fun p => if p = 0 then Aeu.ofNat 4 50 else Aeu.ofNat 4 75⟩ 0 1 2).map
    (fun h => toInt (h.obj 2)) = .ok 1875 := by decide +kernel

example : (Prog.signedKernel ⟨false, false, false⟩
    ⟨fun p => if p = 0 then .negative else .positive, fun p => if p = 0 then Aeu.ofNat 4 50 else Aeu.ofNat 4 75⟩ 0 1 1).map
    (fun h => toInt (h.obj 1)) = .ok 625 := by decide +kernel

end Signed
end AesiMP
