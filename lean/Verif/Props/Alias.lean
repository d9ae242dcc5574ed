import Verif.Lemmas.Alias
import Verif.Props.Arith
import Verif.Props.Access
import Verif.Props.NumTheory
import Verif.Props.Signed

/-!
# Properties C52–C54, C64: the same object passed more than once

`h p` (`h.obj p`) is the object at address `p`; two arguments are the same object exactly when their
addresses are equal.  In C53 the addresses `a` and `b` are arbitrary, so `a = b` is included.
-/

namespace AesiMP
open Aeu
variable {n : Nat}

/-! ### C53, unsigned -/

/-- A computation whose only effect is to assign its result to `a`. -/
private theorem sat_put {e : Exec (Aeu n)} {P : Aeu n → Prop} (he : Sat e P) (h : Heap n) (a : Nat) :
    Sat (do let r ← e; .ok (h.put a r)) fun h' => P (h' a) ∧ ∀ p, p ≠ a → h' p = h p :=
  Sat.bind he fun r hr => Sat.ok ⟨by rw [hput_same]; exact hr, fun p hp => hput_ne h r hp⟩

/-- C53: `a += b`. -/
theorem C53_add (h : Heap n) (a b : Nat) : Sat (Alias.addAssign h a b) fun h' =>
    toNat (h' a) = (toNat (h a) + toNat (h b)) % 2 ^ (32 * n) ∧ ∀ p, p ≠ a → h' p = h p := by
  rw [Alias.addAssign_eq]; exact sat_put (C01_add (h a) (h b)) h a

/-- C53: `a -= b`. -/
theorem C53_sub (h : Heap n) (a b : Nat) : Sat (Alias.subAssign h a b) fun h' =>
    (toNat (h' a) : Int) = ((toNat (h a) : Int) - toNat (h b)) % (2 : Int) ^ (32 * n) ∧
      ∀ p, p ≠ a → h' p = h p := by
  rw [Alias.subAssign_eq]; exact sat_put (C02_sub (h a) (h b)) h a

/-- C53: `a *= b`. -/
theorem C53_mul (h : Heap n) (a b : Nat) : Sat (Alias.mulAssign h a b) fun h' =>
    toNat (h' a) = toNat (h a) * toNat (h b) % 2 ^ (32 * n) ∧ ∀ p, p ≠ a → h' p = h p := by
  rw [Alias.mulAssign_eq]; exact sat_put (C03_mul (h a) (h b)) h a

/-- C53: `a /= b`. -/
theorem C53_div (cfg : Cfg) (hn : 0 < n) (h : Heap n) (a b : Nat) (hb : toNat (h b) ≠ 0) :
    Sat (Alias.divAssign cfg h a b) fun h' =>
      toNat (h' a) = toNat (h a) / toNat (h b) ∧ ∀ p, p ≠ a → h' p = h p :=
  sat_put (C06_div cfg hn (h a) (h b) hb) h a

/-- C53: `a %= b`. -/
theorem C53_mod (cfg : Cfg) (hn : 0 < n) (h : Heap n) (a b : Nat) (hb : toNat (h b) ≠ 0) :
    Sat (Alias.modAssign cfg h a b) fun h' =>
      toNat (h' a) = toNat (h a) % toNat (h b) ∧ ∀ p, p ≠ a → h' p = h p :=
  sat_put (C06_mod cfg hn (h a) (h b) hb) h a

/-- C53: `a &= b`. -/
theorem C53_and (h : Heap n) (a b : Nat) : Sat (Alias.bitwiseAssign (· &&& ·) h a b) fun h' =>
    toNat (h' a) = toNat (h a) &&& toNat (h b) ∧ ∀ p, p ≠ a → h' p = h p := by
  rw [Alias.bitwiseAssign_eq]; exact sat_put (C09_and (h a) (h b)) h a

/-- C53: `a |= b`. -/
theorem C53_or (h : Heap n) (a b : Nat) : Sat (Alias.bitwiseAssign (· ||| ·) h a b) fun h' =>
    toNat (h' a) = toNat (h a) ||| toNat (h b) ∧ ∀ p, p ≠ a → h' p = h p := by
  rw [Alias.bitwiseAssign_eq]; exact sat_put (C09_or (h a) (h b)) h a

/-- C53: `a ^= b`. -/
theorem C53_xor (h : Heap n) (a b : Nat) : Sat (Alias.bitwiseAssign (· ^^^ ·) h a b) fun h' =>
    toNat (h' a) = toNat (h a) ^^^ toNat (h b) ∧ ∀ p, p ≠ a → h' p = h p := by
  rw [Alias.bitwiseAssign_eq]; exact sat_put (C09_xor (h a) (h b)) h a

private theorem self_copy {f : Heap n → Nat → Nat → Exec (Heap n)} {g : Aeu n → Aeu n → Exec (Aeu n)}
    (hf : ∀ h a b, f h a b = (do let r ← g (h a) (h b); .ok (h.put a r))) (h : Heap n) {a c : Nat}
    (hc : c ≠ a) : (f h a a).map (· a) = (f (h.put c (h a)) a c).map (· a) := by
  rw [hf, hf, hput_same, hput_ne _ _ hc.symm]
  cases g (h a) (h a) with
  | error e => rfl
  | ok r => show Except.ok _ = Except.ok _; dsimp only; rw [hput_same, hput_same]

/-- C53, literally: `a op= a` leaves in `a` what `a op= c` leaves, `c` being another object that holds
a copy of `a` — the undefined executions and the division of 0 by 0 included. -/
theorem C53_self_is_copy (cfg : Cfg) (h : Heap n) {a c : Nat} (hc : c ≠ a) :
    ((Alias.addAssign h a a).map (· a) = (Alias.addAssign (h.put c (h a)) a c).map (· a)) ∧
    ((Alias.subAssign h a a).map (· a) = (Alias.subAssign (h.put c (h a)) a c).map (· a)) ∧
    ((Alias.mulAssign h a a).map (· a) = (Alias.mulAssign (h.put c (h a)) a c).map (· a)) ∧
    ((Alias.divAssign cfg h a a).map (· a) = (Alias.divAssign cfg (h.put c (h a)) a c).map (· a)) ∧
    ((Alias.modAssign cfg h a a).map (· a) = (Alias.modAssign cfg (h.put c (h a)) a c).map (· a)) ∧
    (∀ f, (Alias.bitwiseAssign f h a a).map (· a) =
      (Alias.bitwiseAssign f (h.put c (h a)) a c).map (· a)) :=
  ⟨self_copy Alias.addAssign_eq h hc, self_copy Alias.subAssign_eq h hc,
    self_copy Alias.mulAssign_eq h hc, self_copy (f := Alias.divAssign cfg) (fun _ _ _ => rfl) h hc,
    self_copy (f := Alias.modAssign cfg) (fun _ _ _ => rfl) h hc,
    fun f => self_copy (Alias.bitwiseAssign_eq f) h hc⟩

/-- The heap used by the examples: the address is the value, apart from two multi-block objects. -/
private def H0 : Heap 2 := fun p => if p = 100 then ofNat 2 (2 ^ 40 + 7) else if p = 101 then ofNat 2 (2 ^ 63 + 1)
  else ofNat 2 p

example : (Alias.addAssign H0 101 101).map (· 101) = .ok (ofNat 2 2) ∧
    (Alias.subAssign H0 101 101).map (· 101) = .ok (ofNat 2 0) ∧
    (Alias.mulAssign H0 100 100).map (· 100) = .ok (ofNat 2 (14 * 2 ^ 40 + 49)) ∧
    (Alias.bitwiseAssign (· ^^^ ·) H0 100 100).map (· 100) = .ok (ofNat 2 0) := by decide +kernel
example : (Alias.divAssign lp64 H0 100 100).map (· 100) = .ok (ofNat 2 1) ∧
    (Alias.modAssign lp64 H0 100 100).map (· 100) = .ok (ofNat 2 0) ∧ toNat (H0 100) ≠ 0 := by
  decide +kernel

/-! ### C53, signed -/

section Signed
open Aesi (toInt Fits Canon)

private theorem ssat_put {e : Exec (Aesi n)} {P : Aesi n → Prop} (he : Sat e P) (h : SHeap n) (a : Nat) :
    Sat (do let r ← e; .ok (h.put a r)) fun h' => P (h'.obj a) ∧ ∀ p, p ≠ a → h'.obj p = h.obj p :=
  Sat.bind he fun r hr => Sat.ok ⟨by rw [SAlias.put_obj, if_pos rfl]; exact hr,
    fun p hp => by rw [SAlias.put_obj, if_neg hp]⟩

/-- C53: `a += b`. -/
theorem C53_signed_add (cfg : Cfg) (h : SHeap n) (a b : Nat)
    (hf : Fits n (toInt (h.obj a) + toInt (h.obj b))) : Sat (SAlias.addAssign cfg h a b) fun h' =>
      toInt (h'.obj a) = toInt (h.obj a) + toInt (h.obj b) ∧ ∀ p, p ≠ a → h'.obj p = h.obj p := by
  rw [SAlias.addAssign_eq]; exact ssat_put (C36_add cfg _ _ hf) h a

/-- C53: `a -= b`. -/
theorem C53_signed_sub (cfg : Cfg) (h : SHeap n) (a b : Nat)
    (hf : Fits n (toInt (h.obj a) - toInt (h.obj b))) : Sat (SAlias.subAssign cfg h a b) fun h' =>
      toInt (h'.obj a) = toInt (h.obj a) - toInt (h.obj b) ∧ ∀ p, p ≠ a → h'.obj p = h.obj p := by
  rw [SAlias.subAssign_eq]; exact ssat_put (C36_sub cfg _ _ hf) h a

/-- C53: `a *= b`. -/
theorem C53_signed_mul (h : SHeap n) (a b : Nat)
    (hf : Fits n (toInt (h.obj a) * toInt (h.obj b))) : Sat (SAlias.mulAssign h a b) fun h' =>
      toInt (h'.obj a) = toInt (h.obj a) * toInt (h.obj b) ∧ ∀ p, p ≠ a → h'.obj p = h.obj p := by
  rw [SAlias.mulAssign_eq]; exact ssat_put (C37_mul _ _ hf) h a

/-- C53: `a /= b`. -/
theorem C53_signed_div (cfg : Cfg) (hn : 0 < n) (h : SHeap n) (a b : Nat) (hb : toInt (h.obj b) ≠ 0) :
    Sat (SAlias.divAssign cfg h a b) fun h' =>
      toInt (h'.obj a) = (toInt (h.obj a)).tdiv (toInt (h.obj b)) ∧ ∀ p, p ≠ a → h'.obj p = h.obj p := by
  rw [SAlias.divAssign_eq]; exact ssat_put (C38_div cfg hn _ _ hb) h a

/-- C53: `a %= b` (with the sign the code gives the remainder, see C39); `a %= a` is 0. -/
theorem C53_signed_mod (cfg : Cfg) (hn : 0 < n) (h : SHeap n) (a b : Nat) (hb : toInt (h.obj b) ≠ 0) :
    Sat (SAlias.modAssign cfg h a b) fun h' =>
      (toInt (h'.obj a) = if toInt (h.obj b) < 0 then -((toInt (h.obj a)).tmod (toInt (h.obj b)))
        else (toInt (h.obj a)).tmod (toInt (h.obj b))) ∧ ∀ p, p ≠ a → h'.obj p = h.obj p := by
  rw [SAlias.modAssign_eq]
  exact ssat_put (Sat.mono (C39_mod_exact cfg hn _ _ hb) fun _ h => h.2) h a

private theorem sself_copy {f : SHeap n → Nat → Nat → Exec (SHeap n)}
    {g : Aesi n → Aesi n → Exec (Aesi n)}
    (hf : ∀ h a b, f h a b = (do let r ← g (h.obj a) (h.obj b); .ok (h.put a r))) (h : SHeap n)
    {a c : Nat} (hc : c ≠ a) :
    (f h a a).map (·.obj a) = (f (h.put c (h.obj a)) a c).map (·.obj a) := by
  rw [hf, hf, SAlias.put_obj, SAlias.put_obj, if_pos rfl, if_neg hc.symm]
  cases g (h.obj a) (h.obj a) with
  | error e => rfl
  | ok r =>
    show Except.ok _ = Except.ok _
    dsimp only
    rw [SAlias.put_obj, SAlias.put_obj, if_pos rfl, if_pos rfl]

/-- C53, literally, for `Aesi` (overflowing results, zero divisors and non-canonical zeros included). -/
theorem C53_signed_self_is_copy (cfg : Cfg) (h : SHeap n) {a c : Nat} (hc : c ≠ a) :
    ((SAlias.addAssign cfg h a a).map (·.obj a) =
      (SAlias.addAssign cfg (h.put c (h.obj a)) a c).map (·.obj a)) ∧
    ((SAlias.subAssign cfg h a a).map (·.obj a) =
      (SAlias.subAssign cfg (h.put c (h.obj a)) a c).map (·.obj a)) ∧
    ((SAlias.mulAssign h a a).map (·.obj a) =
      (SAlias.mulAssign (h.put c (h.obj a)) a c).map (·.obj a)) ∧
    ((SAlias.divAssign cfg h a a).map (·.obj a) =
      (SAlias.divAssign cfg (h.put c (h.obj a)) a c).map (·.obj a)) ∧
    ((SAlias.modAssign cfg h a a).map (·.obj a) =
      (SAlias.modAssign cfg (h.put c (h.obj a)) a c).map (·.obj a)) :=
  ⟨sself_copy (SAlias.addAssign_eq cfg) h hc, sself_copy (SAlias.subAssign_eq cfg) h hc,
    sself_copy SAlias.mulAssign_eq h hc, sself_copy (SAlias.divAssign_eq cfg) h hc,
    sself_copy (SAlias.modAssign_eq cfg) h hc⟩

/-- The heap of the signed examples. -/
private def S0 : SHeap 2 := ⟨fun p => if p = 0 then .zero else if p = 1 then .negative else .positive, fun p =>
  if p = 0 then ofNat 2 0 else if p = 1 then ofNat 2 (2 ^ 31 + 3) else ofNat 2 (100 * p)⟩

example : (SAlias.addAssign lp64 S0 1 1).map (·.obj 1) = .ok (Aesi.ofInt 2 (-(2 ^ 32 + 6))) ∧
    Fits 2 (toInt (S0.obj 1) + toInt (S0.obj 1)) ∧
    (SAlias.subAssign lp64 S0 1 1).map (fun h => toInt (h.obj 1)) = .ok 0 ∧
    (SAlias.mulAssign S0 1 1).map (·.obj 1) = .ok (Aesi.ofInt 2 ((2 ^ 31 + 3) ^ 2)) := by decide +kernel
example : (SAlias.divAssign lp64 S0 1 1).map (·.obj 1) = .ok (Aesi.ofInt 2 1) ∧
    (SAlias.modAssign lp64 S0 1 1).map (·.obj 1) = .ok (Aesi.ofInt 2 0) ∧ toInt (S0.obj 1) ≠ 0 := by
  decide +kernel

end Signed

/-! ### C52 with shared arguments -/

/-- C52: `a.swap(b)` exchanges the two objects and touches nothing else; `a.swap(a)` changes nothing. -/
theorem C52_swap_any (h : Heap n) (s : SHeap n) (a b : Nat) :
    (Alias.swap h a b a = h b ∧ Alias.swap h a b b = h a ∧
      ∀ p, p ≠ a → p ≠ b → Alias.swap h a b p = h p) ∧
    ((SAlias.swap s a b).obj a = s.obj b ∧ (SAlias.swap s a b).obj b = s.obj a ∧
      ∀ p, p ≠ a → p ≠ b → (SAlias.swap s a b).obj p = s.obj p) := by
  refine ⟨⟨?_, ?_, fun p h1 h2 => ?_⟩, ?_, ?_, fun p h1 h2 => ?_⟩
  · rw [Alias.swap_eq, hput_same]
  · rw [Alias.swap_eq]
    by_cases hab : b = a
    · rw [hab, hput_same]
    · rw [hput_ne _ _ hab, hput_same]
  · rw [Alias.swap_eq, hput_ne _ _ h1, hput_ne _ _ h2]
  · rw [SAlias.swap_obj, if_pos rfl]
  · rw [SAlias.swap_obj]
    by_cases hab : b = a
    · rw [if_pos hab, hab]
    · rw [if_neg hab, if_pos rfl]
  · rw [SAlias.swap_obj, if_neg h1, if_neg h2]

example : Alias.swap H0 100 7 7 = ofNat 2 (2 ^ 40 + 7) ∧ Alias.swap H0 100 100 100 = H0 100 := by
  decide +kernel

/-! ### C54 -/

/-- C54, partial: outputs distinct from the inputs and from each other (number and divisor may be one
object).  Missing: an output that is an input, where the property is false — what happens then is
`C54_equal`, `C54_smaller`, `C54_number_shared`, `C54_divisor_is_remainder`,
`C54_divisor_is_quotient`. -/
theorem C54_divide_partial (cfg : Cfg) (hn : 0 < n) (h : Heap n) (N D Q R : Nat)
    (hNQ : N ≠ Q) (hNR : N ≠ R) (hDQ : D ≠ Q) (hDR : D ≠ R) (hQR : Q ≠ R) (hD : toNat (h D) ≠ 0) :
    Sat (Alias.divide cfg h N D Q R) fun h' =>
      toNat (h N) = toNat (h' Q) * toNat (h D) + toNat (h' R) ∧ toNat (h' R) < toNat (h D) ∧
        ∀ p, p ≠ Q → p ≠ R → h' p = h p := by
  rw [Alias.divide_eq cfg h N D Q R hNQ hNR hDQ hDR hQR]
  refine Sat.bind (C06_divide cfg hn (h N) (h D) hD) ?_
  rintro ⟨q, r⟩ ⟨h1, h2⟩
  refine Sat.ok ⟨?_, ?_, fun p hp hp' => ?_⟩
  · rw [hput_same, hput_ne _ _ hQR, hput_same]; exact h1
  · rw [hput_same]; exact h2
  · rw [hput_ne _ _ hp', hput_ne _ _ hp]

/-- C54 holds under every sharing when the operands have equal values: `divide(a, a, a, r)` etc. -/
theorem C54_equal (cfg : Cfg) (hn : 0 < n) (h : Heap n) (N D Q R : Nat) (hQR : Q ≠ R)
    (he : toNat (h N) = toNat (h D)) : Sat (Alias.divide cfg h N D Q R) fun h' =>
      toNat (h' Q) = 1 ∧ toNat (h' R) = 0 ∧ ∀ p, p ≠ Q → p ≠ R → h' p = h p :=
  Alias.divide_equal cfg hn h N D Q R hQR he

/-- C54 holds when the number is smaller than the divisor and is not an output (the divisor may be). -/
theorem C54_smaller (cfg : Cfg) (h : Heap n) (N D Q R : Nat) (hNQ : N ≠ Q) (hNR : N ≠ R)
    (hQR : Q ≠ R) (hlt : toNat (h N) < toNat (h D)) : Sat (Alias.divide cfg h N D Q R) fun h' =>
      toNat (h' Q) = 0 ∧ toNat (h' R) = toNat (h N) ∧ ∀ p, p ≠ Q → p ≠ R → h' p = h p :=
  Alias.divide_less cfg h N D Q R hNQ hNR hQR hlt

/-- C54 is false whenever the number is an output and differs from the divisor: both outputs are 0. -/
theorem C54_number_shared (cfg : Cfg) (h : Heap n) (N D Q R : Nat) (hN : N = Q ∨ N = R)
    (hQR : Q ≠ R) (hne : toNat (h N) ≠ toNat (h D)) : Sat (Alias.divide cfg h N D Q R) fun h' =>
      toNat (h' Q) = 0 ∧ toNat (h' R) = 0 ∧ ∀ p, p ≠ Q → p ≠ R → h' p = h p :=
  Alias.divide_number_shared cfg h N D Q R hN hQR hne

/-- C54 is false whenever the remainder overwrites a smaller divisor: the remainder is 0 and the
quotient is all ones over the number's blocks. -/
theorem C54_divisor_is_remainder (cfg : Cfg) (hn : 0 < n) (h : Heap n) (N Q R : Nat) (hNQ : N ≠ Q)
    (hNR : N ≠ R) (hQR : Q ≠ R) (hgt : toNat (h R) < toNat (h N)) :
    Sat (Alias.divide cfg h N R Q R) fun h' => toNat (h' R) = 0 ∧
      (∃ k, 0 < k ∧ 2 ^ (32 * (k - 1)) ≤ toNat (h N) ∧ toNat (h N) < 2 ^ (32 * k) ∧
        toNat (h' Q) = 2 ^ (32 * k) - 1) ∧ ∀ p, p ≠ Q → p ≠ R → h' p = h p := by
  refine Sat.mono (Alias.divide_divisor_is_remainder cfg hn h N Q R hNQ hNR hQR hgt) ?_
  rintro h' ⟨h1, ⟨k, hk, hq⟩, h3⟩
  refine ⟨h1, ⟨k, ?_⟩, h3⟩
  obtain ⟨k', hk', _, h5, h6⟩ := filledBlocksNumber_nat (h N)
  have : k = k' := by rw [hk] at hk'; simpa using hk'
  subst this
  have hk0 : 0 < k := by
    by_contra h0
    have : k = 0 := by omega
    rw [this] at h5; simp at h5; omega
  exact ⟨hk0, h6 hk0, h5, hq⟩

/-- C54 is false whenever the quotient overwrites a smaller divisor: with `t` the weight of the top bit
of the number's highest block, the quotient is `t` (`t + 1` if that bit is set) and the remainder the
number modulo `t`. -/
theorem C54_divisor_is_quotient (cfg : Cfg) (hn : 0 < n) (h : Heap n) (N Q R : Nat) (hNQ : N ≠ Q)
    (hNR : N ≠ R) (hQR : Q ≠ R) (hgt : toNat (h Q) < toNat (h N)) :
    Sat (Alias.divide cfg h N Q Q R) fun h' =>
      (∃ k, 0 < k ∧ 2 ^ (32 * (k - 1)) ≤ toNat (h N) ∧ toNat (h N) < 2 ^ (32 * k) ∧
        toNat (h' Q) = 2 ^ (32 * k - 1) + (if 2 ^ (32 * k - 1) ≤ toNat (h N) then 1 else 0) ∧
        toNat (h' R) = toNat (h N) % 2 ^ (32 * k - 1)) ∧ ∀ p, p ≠ Q → p ≠ R → h' p = h p := by
  refine Sat.mono (Alias.divide_divisor_is_quotient cfg hn h N Q R hNQ hNR hQR hgt) ?_
  rintro h' ⟨⟨k, hk0, hk, hq, hr⟩, h3⟩
  obtain ⟨k', hk', _, h5, h6⟩ := filledBlocksNumber_nat (h N)
  have : k = k' := by rw [hk] at hk'; simpa using hk'
  subst this
  exact ⟨⟨k, hk0, h6 hk0, h5, hq, hr⟩, h3⟩

/-- C54, signed, partial: as `C54_divide_partial`. -/
theorem C54_signed_partial (cfg : Cfg) (hn : 0 < n) (h : SHeap n) (N D Q R : Nat)
    (hNQ : N ≠ Q) (hNR : N ≠ R) (hDQ : D ≠ Q) (hDR : D ≠ R) (hQR : Q ≠ R)
    (hD : Aesi.toInt (h.obj D) ≠ 0) : Sat (SAlias.divide cfg h N D Q R) fun h' =>
      Aesi.toInt (h'.obj Q) * Aesi.toInt (h.obj D) + Aesi.toInt (h'.obj R) = Aesi.toInt (h.obj N) ∧
      |Aesi.toInt (h'.obj R)| < |Aesi.toInt (h.obj D)| ∧
      0 ≤ Aesi.toInt (h'.obj R) * Aesi.toInt (h.obj N) ∧ ∀ p, p ≠ Q → p ≠ R → h'.obj p = h.obj p := by
  rw [SAlias.divide_eq cfg h N D Q R hNQ hNR hDQ hDR hQR]
  refine Sat.bind (C40_divide cfg hn (h.obj N) (h.obj D) (h.obj Q) (h.obj R) hD) ?_
  rintro ⟨q, r⟩ ⟨h1, h2, h3⟩
  refine Sat.ok ⟨?_, ?_, ?_, fun p hp hp' => ?_⟩
  · simp only [SAlias.put_obj, if_pos, if_neg hQR]; exact h1
  · simp only [SAlias.put_obj, if_pos]; exact h2
  · simp only [SAlias.put_obj, if_pos]; exact h3
  · simp only [SAlias.put_obj, if_neg hp, if_neg hp']

example : (Alias.divide lp64 H0 100 3 5 6).map (fun h => (h 5, h 6)) =
    .ok (ofNat 2 ((2 ^ 40 + 7) / 3), ofNat 2 ((2 ^ 40 + 7) % 3)) := by decide +kernel

/-- C54 is false as stated: with 17 and 5, `divide(a, b, a, r)`, `divide(a, b, q, a)`,
`divide(a, b, b, r)` and `divide(a, b, q, b)` are all wrong, for `Aeu` and for `Aesi`. -/
theorem C54_counterexample :
    (Alias.divide lp64 H0 17 5 17 1).map (fun h => (toNat (h 17), toNat (h 1))) = .ok (0, 0) ∧
    (Alias.divide lp64 H0 17 5 1 17).map (fun h => (toNat (h 1), toNat (h 17))) = .ok (0, 0) ∧
    (Alias.divide lp64 H0 17 5 5 1).map (fun h => (toNat (h 5), toNat (h 1))) = .ok (2 ^ 31, 17) ∧
    (Alias.divide lp64 H0 17 5 1 5).map (fun h => (toNat (h 1), toNat (h 5))) = .ok (2 ^ 32 - 1, 0) ∧
    (SAlias.divide lp64 S0 17 5 17 2).map (fun h => (Aesi.toInt (h.obj 17), Aesi.toInt (h.obj 2))) =
      .ok (0, 0) := by decide +kernel

/-! ### C64 -/

/-- C64: `gcd(a, b, x, y)` is right also when `x` or `y` is the same object as `a` or `b`, provided `x`
and `y` are two objects: the returned number is the gcd of the values before the call, and the new
values of `x`, `y` are Bézout coefficients for them. -/
theorem C64_bezout_shared (cfg : Cfg) (hn : 0 < n) (h : Heap n) (a b x y : Nat) (hxy : x ≠ y) :
    Sat (Alias.gcdExt cfg h a b x y) fun (g, h') =>
      toNat g = Nat.gcd (toNat (h a)) (toNat (h b)) ∧
      (toNat (h a) * toNat (h' x) + toNat (h b) * toNat (h' y)) % 2 ^ (32 * n) = toNat g ∧
      ∀ p, p ≠ x → p ≠ y → h' p = h p := by
  rw [Alias.gcdExt_eq cfg h a b x y hxy]
  refine Sat.bind (C27_bezout cfg hn (h a) (h b)) ?_
  rintro ⟨g, u, v⟩ ⟨h1, h2⟩
  refine Sat.ok ⟨h1, ?_, fun p hp hp' => ?_⟩
  · rw [hput_same, hput_ne _ _ hxy, hput_same]; exact h2
  · rw [hput_ne _ _ hp', hput_ne _ _ hp]

example : (Alias.gcdExt lp64 H0 17 5 17 5).map (fun r => (toNat r.1, toNat (r.2 17), toNat (r.2 5))) =
    .ok (1, 2 ^ 64 - 2, 7) ∧ (17 * (2 ^ 64 - 2) + 5 * 7) % 2 ^ 64 = 1 := by decide +kernel

/-! ### Concrete cases that meet the hypotheses -/

/-- The hypotheses of `C53_signed_add` are met. -/
example := C53_signed_add ⟨false, false, false⟩ (SHeap.mk (fun i => if i = 0 then .positive else .negative)
  (fun i => Aeu.ofNat 2 (2 ^ 40 + i))) 0 1 (by decide +kernel)

/-- The hypotheses of `C54_divide_partial` are met. -/
example := C54_divide_partial ⟨false, false, false⟩ (by omega) (fun i => Aeu.ofNat 2 (2 ^ 40 / (i + 1))) 0 1 2 3
  (by omega) (by omega) (by omega) (by omega) (by omega) (by decide +kernel)

/-- The hypotheses of `C54_equal` are met. -/
example := C54_equal ⟨false, false, false⟩ (by omega) (fun _ => Aeu.ofNat 2 (2 ^ 40)) 0 1 0 1 (by omega)
  (by decide +kernel)

/-- The hypotheses of `C54_smaller` are met. -/
example := C54_smaller ⟨false, false, false⟩ (fun i => Aeu.ofNat 2 (2 ^ 40 * i + 7)) 0 1 1 2 (by omega) (by omega)
  (by omega) (by decide +kernel)

end AesiMP
