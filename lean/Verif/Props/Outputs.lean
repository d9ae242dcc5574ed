import Verif.Props.AliasOutputs
import Verif.Props.Interchange

/-!
# C87: what an output argument held before the call does not matter
-/

namespace AesiMP
open Aeu Aesi
variable {n : Nat}

/-- The heaps hold the same object at every address in question. -/
def AgreeOn {n : Nat} (S : Nat → Prop) (h h' : Heap n) : Prop := ∀ p, S p → h p = h' p

private theorem AgreeOn.put {S : Nat → Prop} {h h' : Heap n} (hS : AgreeOn S h h') (p : Nat) (v : Aeu n) :
    AgreeOn S (h.put p v) (h'.put p v) := by
  intro q hq
  simp only [Heap.put]
  split
  · rfl
  · exact hS q hq

/-- After a write the address itself agrees. -/
private theorem AgreeOn.put_new {S : Nat → Prop} {h h' : Heap n} (hS : AgreeOn S h h') (p : Nat) (v : Aeu n) :
    AgreeOn (fun q => S q ∨ q = p) (h.put p v) (h'.put p v) := by
  intro q hq
  simp only [Heap.put]
  split
  · rfl
  · rename_i hne
    exact hS q (hq.resolve_right hne)

/-- Two runs related by `P`: both fail alike, or both return related results. -/
def RelExec {α β : Type} (P : α → β → Prop) (e : Exec α) (e' : Exec β) : Prop :=
  (∃ u, e = .error u ∧ e' = .error u) ∨ ∃ r r', e = .ok r ∧ e' = .ok r' ∧ P r r'

theorem RelExec.bind {α β α' β' : Type} {P : α → α' → Prop} {Q : β → β' → Prop}
    {e : Exec α} {e' : Exec α'} {f : α → Exec β} {f' : α' → Exec β'} (h : RelExec P e e')
    (hf : ∀ r r', P r r' → RelExec Q (f r) (f' r')) : RelExec Q (e >>= f) (e' >>= f') := by
  rcases h with ⟨u, rfl, rfl⟩ | ⟨r, r', rfl, rfl, hp⟩
  · exact .inl ⟨u, rfl, rfl⟩
  · exact hf r r' hp

theorem RelExec.same {α β β' : Type} {Q : β → β' → Prop} {e e' : Exec α} (he : e = e')
    {f : α → Exec β} {f' : α → Exec β'} (hf : ∀ r, RelExec Q (f r) (f' r)) :
    RelExec Q (e >>= f) (e' >>= f') := by
  subst he
  refine RelExec.bind (P := fun r r' => r = r') ?_ ?_
  · cases e with
    | error u => exact .inl ⟨u, rfl, rfl⟩
    | ok r => exact .inr ⟨r, r, rfl, rfl, rfl⟩
  · rintro r _ rfl; exact hf r

theorem RelExec.ok {α β : Type} {P : α → β → Prop} {r : α} {r' : β} (h : P r r') :
    RelExec P (.ok r) (.ok r') := .inr ⟨r, r', rfl, rfl, h⟩

theorem forDown_rel {σ : Type} (P : σ → σ → Prop) (body : Nat → σ → Exec σ)
    (hb : ∀ i s s', P s s' → RelExec P (body i s) (body i s')) (k : Nat) :
    ∀ s s', P s s' → RelExec P (forDown k 0 s body) (forDown k 0 s' body) := by
  induction k with
  | zero => exact fun s s' h => RelExec.ok h
  | succ k ih =>
    intro s s' h
    rw [forDown_top, forDown_top]
    exact RelExec.bind (hb k s s' h) ih

/-- The division reads nothing but its two inputs, whatever the sharing. -/
theorem divide_depends (cfg : Cfg) (h h' : Heap n) (N D Q R : Nat) (hN : h N = h' N) (hD : h D = h' D) :
    RelExec (AgreeOn fun p => p = N ∨ p = D ∨ p = Q ∨ p = R) (Alias.divide cfg h N D Q R)
      (Alias.divide cfg h' N D Q R) := by
  unfold Alias.divide
  refine RelExec.same (by rw [hN, hD]) fun ratio => ?_
  have h0 : AgreeOn (fun p => p = N ∨ p = D) h h' := by
    rintro p (rfl | rfl)
    · exact hN
    · exact hD
  have h1 : AgreeOn (fun p => p = N ∨ p = D ∨ p = Q ∨ p = R) ((h.put Q (zero n)).put R (zero n))
      ((h'.put Q (zero n)).put R (zero n)) := by
    intro p hp
    refine (h0.put_new Q (zero n)).put_new R (zero n) p ?_
    tauto
  have hN1 := h1 N (.inl rfl)
  cases ratio with
  | greater =>
    simp only
    refine RelExec.same (by rw [hN1]) fun f => ?_
    refine forDown_rel _ _ ?_ _ _ _ h1
    intro i s s' hs
    refine RelExec.same (by rw [hs R (by tauto)]) fun r1 => ?_
    have hs1 := hs.put R r1
    refine RelExec.same (by rw [hs1 N (by tauto)]) fun bit => ?_
    refine RelExec.same (by rw [hs1 R (by tauto)]) fun r2 => ?_
    have hs2 := hs1.put R r2
    refine RelExec.same (by rw [hs2 R (by tauto), hs2 D (by tauto)]) fun g => ?_
    cases g with
    | false => exact RelExec.ok hs2
    | true =>
      simp only [if_true]
      refine RelExec.bind (P := AgreeOn fun p => p = N ∨ p = D ∨ p = Q ∨ p = R) ?_ fun t t' ht => ?_
      · unfold Alias.subAssign
        refine RelExec.same (by rw [hs2 D (by tauto)]) fun m => ?_
        refine RelExec.same (by rw [hs2 R (by tauto)]) fun x => ?_
        exact RelExec.ok (hs2.put R _)
      · refine RelExec.same (by rw [ht Q (by tauto)]) fun q => ?_
        exact RelExec.ok (ht.put Q q)
  | less =>
    simp only
    rw [hN1]
    exact RelExec.ok (h1.put R _)
  | equal =>
    simp only
    exact RelExec.same rfl fun one => RelExec.ok (h1.put Q one)
  | equivalent =>
    simp only
    exact RelExec.same rfl fun one => RelExec.ok (h1.put Q one)

/-! ## C87 -/

/-- C87, unsigned `divide(number, divisor, quotient, remainder)`: the values it leaves in the outputs depend
on the two inputs only, not on what the outputs held - for every way in which the four references may
coincide (an output that is an input is equal in both memories by hypothesis). -/
theorem C87_divide (cfg : Cfg) (hn : 0 < n) (h h' : Heap n) (N D Q R : Nat) (hN : h N = h' N) (hD : h D = h' D) :
    ∃ g g', Alias.divide cfg h N D Q R = .ok g ∧ Alias.divide cfg h' N D Q R = .ok g' ∧
      g Q = g' Q ∧ g R = g' R := by
  obtain ⟨g, hg, -⟩ := C54_any_sharing cfg hn h N D Q R
  rcases divide_depends cfg h h' N D Q R hN hD with ⟨u, hu, -⟩ | ⟨r, r', hr, hr', hag⟩
  · rw [hg] at hu; cases hu
  · exact ⟨r, r', hr, hr', hag Q (by tauto), hag R (by tauto)⟩

/-- C87, `gcd(first, second, bezoutX, bezoutY)`. -/
theorem C87_gcd (cfg : Cfg) (hn : 0 < n) (h h' : Heap n) (a b x y : Nat) (hxy : x ≠ y) (ha : h a = h' a)
    (hb : h b = h' b) :
    ∃ d g g', Alias.gcdExt cfg h a b x y = .ok (d, g) ∧ Alias.gcdExt cfg h' a b x y = .ok (d, g') ∧
      g x = g' x ∧ g y = g' y := by
  obtain ⟨r, hr, -⟩ := C27_bezout cfg hn (h a) (h b)
  refine ⟨r.1, (h.put x r.2.1).put y r.2.2, (h'.put x r.2.1).put y r.2.2, ?_, ?_, ?_, ?_⟩
  · rw [Alias.gcdExt_eq cfg h a b x y hxy, hr]; rfl
  · rw [Alias.gcdExt_eq cfg h' a b x y hxy, ← ha, ← hb, hr]; rfl
  · simp [Heap.put, hxy]
  · simp [Heap.put]

/-- C87, `readBinary`: the object read into is overwritten completely, also when the stream ends early or
has failed before. -/
theorem C87_read (host : Host) (old old' : Aeu n) (is : IStream) (bigEndian : Bool) :
    readBinary host old is bigEndian = readBinary host old' is bigEndian := by
  have hz : (old.map fun _ => (0 : Block)) = old'.map fun _ => (0 : Block) := by
    ext i hi; simp
  unfold readBinary
  rw [hz]

/-- C87, signed `divide`: the outputs end with equal integers whatever they held before; unless one operand
is zero they are identical.  The sign an output had is never read, so `Aesi q, r;`, whose signs are
indeterminate, are valid outputs. -/
theorem C87_divide_signed_partial (cfg : Cfg) (hn : 0 < n) (a b q0 r0 q1 r1 : Aesi n) :
    (∃ q r q' r', Aesi.divide cfg a b q0 r0 = .ok (q, r) ∧ Aesi.divide cfg a b q1 r1 = .ok (q', r') ∧
      Aesi.eq cfg q q' = .ok true ∧ Aesi.eq cfg r r' = .ok true ∧
      (toInt a ≠ 0 → toInt b ≠ 0 → q = q' ∧ r = r')) ∧
    ∀ s t, Aesi.divide cfg a b { q0 with sign := s } { r0 with sign := t } = Aesi.divide cfg a b q0 r0 := by
  refine ⟨?_, fun s t => rfl⟩
  have hsame : ∀ x : Aesi n, Aesi.eq cfg x x = .ok true := fun x => (eq_iff_same cfg x x).mpr (Same.refl x)
  by_cases hz : a.sign = .zero ∨ b.sign = .zero
  · refine ⟨{ q0 with sign := .zero }, { r0 with sign := .zero }, { q1 with sign := .zero },
      { r1 with sign := .zero }, ?_, ?_, ?_, ?_, fun ha hb => ?_⟩
    · unfold Aesi.divide; rw [if_pos hz]
    · unfold Aesi.divide; rw [if_pos hz]
    · exact (eq_iff_same cfg _ _).mpr (same_zero rfl rfl)
    · exact (eq_iff_same cfg _ _).mpr (same_zero rfl rfl)
    · rcases hz with hz | hz
      · exact absurd (by simp [toInt, hz]) ha
      · exact absurd (by simp [toInt, hz]) hb
  · obtain ⟨⟨q, r⟩, hqr, -⟩ := C40_divide_every cfg hn a b q0 r0
    have he : Aesi.divide cfg a b q1 r1 = Aesi.divide cfg a b q0 r0 := by
      unfold Aesi.divide; rw [if_neg hz, if_neg hz]
    exact ⟨q, r, q, r, hqr, he.trans hqr, hsame q, hsame r, fun _ _ => ⟨rfl, rfl⟩⟩

/-- C87 is false for the digits of a signed zero: `divide(0, 5, q, r)` leaves in `q` and `r` the digits they
had, so `q.isOdd()` and `r.unsignedCast()` answer by the old contents. -/
theorem C87_counterexample :
    (Aesi.divide lp64 (ofInt 2 0) (ofInt 2 5) (ofInt 2 7) (ofInt 2 3)).map
      (fun x => (toInt x.1, Aesi.isOdd x.1, toInt x.2, toNat (Aesi.unsignedCast x.2))) =
      .ok (0, .ok true, 0, 3) ∧
    (Aesi.divide lp64 (ofInt 2 0) (ofInt 2 5) (ofInt 2 0) (ofInt 2 0)).map
      (fun x => (toInt x.1, Aesi.isOdd x.1, toInt x.2, toNat (Aesi.unsignedCast x.2))) =
      .ok (0, .ok false, 0, 0) := by decide +kernel

/-- The digits an output keeps are exactly those it had. -/
theorem C87_stale_exact (cfg : Cfg) (a b q0 r0 : Aesi n) (h : sgn a = 0 ∨ sgn b = 0) :
    Sat (Aesi.divide cfg a b q0 r0) fun (q, r) =>
      toInt q = 0 ∧ toInt r = 0 ∧ Aesi.unsignedCast q = Aesi.unsignedCast q0 ∧
      Aesi.unsignedCast r = Aesi.unsignedCast r0 := by
  have hs : ∀ x : Aesi n, sgn x = 0 → x.sign = .zero := by
    intro x; unfold sgn; cases x.sign <;> simp
  unfold Aesi.divide
  rw [if_pos (h.imp (hs a) (hs b))]
  exact Sat.ok ⟨rfl, rfl, rfl, rfl⟩

/-- Two memories that differ in the outputs (7 and 9, or 0 and 0); dividing 17 by 5. -/
example : ∃ g g', Alias.divide lp64 (fun p => ofNat 2 (if p = 0 then 17 else if p = 1 then 5 else 7 + p)) 0 1 2 3 = .ok g ∧
    Alias.divide lp64 (fun p => ofNat 2 (if p = 0 then 17 else if p = 1 then 5 else 0)) 0 1 2 3 = .ok g' ∧
    g 2 = g' 2 ∧ g 3 = g' 3 := C87_divide lp64 (by norm_num) _ _ 0 1 2 3 rfl rfl

/-- The remainder is also the divisor: 17 by 5 with the quotient object at 9 or at 0. -/
example : ∃ g g', Alias.divide lp64 (fun p => ofNat 2 (if p = 0 then 17 else if p = 1 then 5 else 9)) 0 1 2 1 = .ok g ∧
    Alias.divide lp64 (fun p => ofNat 2 (if p = 0 then 17 else if p = 1 then 5 else 0)) 0 1 2 1 = .ok g' ∧
    g 2 = g' 2 ∧ g 1 = g' 1 := C87_divide lp64 (by norm_num) _ _ 0 1 2 1 rfl rfl

/-! ### Concrete cases that meet the hypotheses -/

/-- The hypotheses of `C87_gcd` are met. -/
example := C87_gcd ⟨false, false, false⟩ (by omega) (fun i => Aeu.ofNat 2 (2 ^ 40 + i))
  (fun i => if i < 2 then Aeu.ofNat 2 (2 ^ 40 + i) else Aeu.ofNat 2 9) 0 1 2 3 (by omega) rfl rfl

end AesiMP
