import Verif.Props.TracePrint

/-!
# C117 for signed numbers
-/

namespace AesiMP
open Aeu Counted
variable {n : Nat}

namespace WorkS
open Aesi

theorem nonzero_base {a : Aesi n} (h : toInt a ≠ 0) :
    (toInt a).natAbs = toNat a.base ∧ a.sign ≠ .zero ∧ toNat a.base ≠ 0 := by
  unfold toInt at h ⊢
  cases hs : a.sign <;> simp [hs] at h ⊢ <;> omega

theorem tail_next {x : Aeu n} (hn : 2 ≤ n) (t : List Touch) :
    Work.AtTop n ((Work.isZero x).trace ++ t) := by
  obtain ⟨p, hp, -, ht⟩ := Work.isZero_test (show 0 < n by omega) x
  rw [ht]
  unfold Work.scan
  rw [show n - p = (n - p - 1) + 1 by omega, Work.down, show p + (n - p - 1) = n - 1 by omega]
  exact Or.inr ⟨_, _, le_refl _, rfl⟩

theorem tail_low {x : Aeu n} (hn : 2 ≤ n) {t : List Touch} (ht : Work.LowFirst t) :
    Work.LowFirst ((Work.isZero x).trace ++ t) := by
  obtain ⟨p, hp, -, h⟩ := Work.isZero_test (show 0 < n by omega) x
  rw [h]
  exact Work.LowFirst.reads (Work.scan_reads n p) ht

theorem normalise_trace (a : Aesi n) (hn : 2 ≤ n) : (normalise a).trace = (Work.isZero a.base).trace := by
  obtain ⟨p, -, hr, -⟩ := Work.isZero_test (show 0 < n by omega) a.base
  unfold normalise
  rw [trace_bind _ _ hr]
  exact List.append_nil _

theorem divide_ok (cfg : Cfg) (hn : 2 ≤ n) (a b : Aeu n) (hb : toNat b ≠ 0) :
    ∃ q r, (Work.divide cfg a b).run = .ok (q, r) ∧ toNat q = toNat a / toNat b := by
  obtain ⟨⟨q, r⟩, h, h1⟩ := divide_spec cfg (show 0 < n by omega) a b hb
  exact ⟨q, r, by rw [Work.run_divide, h], h1.1⟩

/-- A division followed by a test for zero and what may come behind it. -/
theorem divide_tells (cfg : Cfg) (hn : 2 ≤ n) (a b a' b' : Aeu n) (hb : toNat b ≠ 0) (hb' : toNat b' ≠ 0)
    (x x' : Aeu n) {t t' : List Touch} (ht : Work.LowFirst t) (ht' : Work.LowFirst t')
    (h : (Work.divide cfg a b).trace ++ ((Work.isZero x).trace ++ t) =
      (Work.divide cfg a' b').trace ++ ((Work.isZero x').trace ++ t')) :
    toNat a / toNat b = toNat a' / toNat b' := by
  obtain ⟨-, q, r, r', h1, h2⟩ := Work.trace_divide_split cfg hn a b a' b' (tail_next hn t).next (tail_next hn t').next
    (Or.inl ⟨tail_next hn t, tail_low hn ht⟩) (Or.inl ⟨tail_next hn t', tail_low hn ht'⟩) h
  obtain ⟨q1, r1, e1, v1⟩ := divide_ok cfg hn a b hb
  obtain ⟨q2, r2, e2, v2⟩ := divide_ok cfg hn a' b' hb'
  rw [h1] at e1
  rw [h2] at e2
  cases e1
  cases e2
  rw [← v1, ← v2]

theorem divide_trace (cfg : Cfg) (hn : 2 ≤ n) (a b q0 r0 : Aesi n) (ha : toInt a ≠ 0) (hb : toInt b ≠ 0) :
    ∃ q r : Aeu n, (divide cfg a b q0 r0).trace =
      (Work.divide cfg a.base b.base).trace ++ ((Work.isZero q).trace ++ (Work.isZero r).trace) := by
  obtain ⟨-, sa, -⟩ := nonzero_base ha
  obtain ⟨-, sb, nb⟩ := nonzero_base hb
  obtain ⟨q, r, e, -⟩ := divide_ok cfg hn a.base b.base nb
  refine ⟨q, r, ?_⟩
  unfold divide
  rw [if_neg (by simp [sa, sb]), trace_bind _ _ e]
  congr 1
  have run : ∀ x : Aesi n, ∃ y, (normalise x).run = .ok y := by
    intro x
    obtain ⟨p, -, hr, -⟩ := Work.isZero_test (show 0 < n by omega) x.base
    exact ⟨_, by unfold normalise; rw [run_bind, hr]; rfl⟩
  generalize hs : (if a.sign = Sign.positive then if b.sign = Sign.positive then (Sign.positive, Sign.positive)
    else (Sign.negative, Sign.positive) else if b.sign = Sign.positive then (Sign.negative, Sign.negative)
    else (Sign.positive, Sign.negative)) = s
  obtain ⟨y, hy⟩ := run ⟨s.1, q⟩
  obtain ⟨z, hz⟩ := run ⟨s.2, r⟩
  rw [trace_bind _ _ hy, trace_bind _ _ hz, normalise_trace _ hn, normalise_trace _ hn]
  simp only [List.append_nil]
  exact congrArg _ (List.append_nil _)

theorem div_trace (cfg : Cfg) (hn : 2 ≤ n) (a b : Aesi n) (hb : toInt b ≠ 0) :
    ∃ q : Aeu n, (div cfg a b).trace = (Work.divide cfg a.base b.base).trace ++ ((Work.isZero q).trace ++ []) := by
  obtain ⟨-, sb, nb⟩ := nonzero_base hb
  obtain ⟨q, r, e, -⟩ := divide_ok cfg hn a.base b.base nb
  refine ⟨q, ?_⟩
  unfold div
  rw [if_neg (by simp [Aesi.isZero, sb])]
  have hd : ∀ x : Aesi n, x.base = a.base → (Work.div cfg x.base b.base).run = .ok q ∧
      (Work.div cfg x.base b.base).trace = (Work.divide cfg a.base b.base).trace := by
    intro x hx
    rw [hx]
    unfold Work.div
    rw [trace_bind _ _ e, run_bind, e]
    exact ⟨rfl, List.append_nil _⟩
  obtain ⟨h1, h2⟩ := hd (if isNegative b then inverse a else a) (by split <;> rfl)
  rw [trace_bind _ _ h1, h2, normalise_trace _ hn, List.append_nil]

theorem mod_trace (cfg : Cfg) (hn : 2 ≤ n) (a b : Aesi n) (hb : toInt b ≠ 0) :
    ∃ q : Aeu n, (mod cfg a b).trace = (Work.divide cfg a.base b.base).trace ++ ((Work.isZero q).trace ++ []) := by
  obtain ⟨-, sb, nb⟩ := nonzero_base hb
  obtain ⟨q, r, e, -⟩ := divide_ok cfg hn a.base b.base nb
  refine ⟨r, ?_⟩
  unfold mod
  rw [if_neg (by simp [Aesi.isZero, sb])]
  have hd : ∀ x : Aesi n, x.base = a.base → (Work.mod cfg x.base b.base).run = .ok r ∧
      (Work.mod cfg x.base b.base).trace = (Work.divide cfg a.base b.base).trace := by
    intro x hx
    rw [hx]
    unfold Work.mod
    rw [trace_bind _ _ e, run_bind, e]
    exact ⟨rfl, List.append_nil _⟩
  obtain ⟨h1, h2⟩ := hd (if isNegative b then inverse a else a) (by split <;> rfl)
  rw [trace_bind _ _ h1, h2, normalise_trace _ hn, List.append_nil]

end WorkS

open WorkS Aesi in
/-- C117: the block accesses of a signed division of nonzero numbers (`/`, `%`, `divide`) tell the size of the quotient. -/
theorem C117_signed_quotient (cfg : Cfg) (hn : 2 ≤ n) (a b a' b' q0 r0 q0' r0' : Aesi n) (ha : toInt a ≠ 0)
    (hb : toInt b ≠ 0) (ha' : toInt a' ≠ 0) (hb' : toInt b' ≠ 0)
    (h : (WorkS.divide cfg a b q0 r0).trace = (WorkS.divide cfg a' b' q0' r0').trace ∨
      (WorkS.div cfg a b).trace = (WorkS.div cfg a' b').trace ∨
      (WorkS.mod cfg a b).trace = (WorkS.mod cfg a' b').trace) :
    ((toInt a).tdiv (toInt b)).natAbs = ((toInt a').tdiv (toInt b')).natAbs := by
  rw [Int.natAbs_tdiv, Int.natAbs_tdiv, (nonzero_base ha).1, (nonzero_base hb).1, (nonzero_base ha').1,
    (nonzero_base hb').1]
  have nb := (nonzero_base hb).2.2
  have nb' := (nonzero_base hb').2.2
  rcases h with h | h | h
  · obtain ⟨q, r, e⟩ := divide_trace cfg hn a b q0 r0 ha hb
    obtain ⟨q', r', e'⟩ := divide_trace cfg hn a' b' q0' r0' ha' hb'
    rw [e, e'] at h
    have low : ∀ x : Aeu n, Work.LowFirst (Work.isZero x).trace := fun x => by
      simpa using tail_low (x := x) hn Work.LowFirst.nil
    exact divide_tells cfg hn _ _ _ _ nb nb' q q' (low r) (low r') h
  · obtain ⟨q, e⟩ := div_trace cfg hn a b hb
    obtain ⟨q', e'⟩ := div_trace cfg hn a' b' hb'
    rw [e, e'] at h
    exact divide_tells cfg hn _ _ _ _ nb nb' q q' Work.LowFirst.nil Work.LowFirst.nil h
  · obtain ⟨q, e⟩ := mod_trace cfg hn a b hb
    obtain ⟨q', e'⟩ := mod_trace cfg hn a' b' hb'
    rw [e, e'] at h
    exact divide_tells cfg hn _ _ _ _ nb nb' q q' Work.LowFirst.nil Work.LowFirst.nil h

open WorkS Aesi in
/-- C117: signed numbers other than zero written to a stream in decimal or octal with the same accesses agree, sign aside,
in all digits but the last. -/
theorem C117_signed_stream (cfg : Cfg) (hn : 2 ≤ n) {bufferSize : Nat} (hs : 0 < bufferSize) (os : OStream)
    (h16 : os.basefield ≠ .hex) (a a' : Aesi n) (ha : toInt a ≠ 0) (ha' : toInt a' ≠ 0)
    (h : (WorkS.streamOut cfg bufferSize os a).trace = (WorkS.streamOut cfg bufferSize os a').trace) :
    (toInt a).natAbs / (if os.basefield = .oct then 8 else 10) =
      (toInt a').natAbs / (if os.basefield = .oct then 8 else 10) := by
  have hb : streamBase os.basefield ≠ 16#32 := by
    cases he : os.basefield with
    | hex => exact absurd he h16
    | oct => simp [streamBase]
    | other => simp [streamBase]
  have tr : ∀ x : Aesi n, toInt x ≠ 0 →
      (WorkS.streamOut cfg bufferSize os x).trace = (Work.streamOut cfg bufferSize os x.base).trace := by
    intro x hx
    unfold WorkS.streamOut
    rw [if_pos (nonzero_base hx).2.1]
    have e : (if x.sign = Sign.negative then os.putText [45] else os).basefield = os.basefield := by
      split <;> rfl
    simp only
    rw [Work.streamOut_trace cfg (by omega) _ (by rw [e]; exact hb), Work.streamOut_trace cfg (by omega) _ hb, e]
  rw [tr a ha, tr a' ha'] at h
  rw [(nonzero_base ha).1, (nonzero_base ha').1]
  exact C117_stream cfg hn hs os h16 _ _ h

namespace WorkS
open Aesi

theorem subMagnitude_trace (cfg : Cfg) (a : Aesi n) (b : Aeu n) (s : Sign) :
    (subMagnitude cfg a b s).trace = (Work.compareTo cfg a.base b).trace ++
      if toNat a.base = toNat b then [] else (Work.sub (zero n) (zero n)).trace := by
  have hc : (Work.compareTo cfg a.base b).run = .ok (cmpNat (toNat a.base) (toNat b)) := by
    rw [Work.run_compareTo, Aeu.compareTo_spec]
  unfold subMagnitude
  rw [trace_bind _ _ hc]
  congr 1
  unfold cmpNat
  have sub : ∀ (x y : Aeu n) (f : Aeu n → Aesi n), (Work.sub x y >>= fun r => pure (f r) : Counted (Aesi n)).trace =
      (Work.sub (zero n) (zero n)).trace := by
    intro x y f
    obtain ⟨h1, ⟨v, h2⟩, -⟩ := Work.same_sub x y (zero n) (zero n)
    rw [trace_bind _ _ h2, h1]
    exact List.append_nil _
  by_cases h1 : toNat a.base < toNat b
  · rw [if_pos h1, if_neg (by omega)]
    exact sub _ _ _
  · rw [if_neg h1]
    by_cases h2 : toNat a.base = toNat b
    · rw [if_pos h2, if_pos h2]
      rfl
    · rw [if_neg h2, if_neg h2]
      exact sub _ _ _

theorem add_trace (cfg : Cfg) (a b : Aesi n) (h : toInt a * toInt b < 0) :
    (add cfg a b).trace = (Work.compareTo cfg a.base b.base).trace ++
      if toNat a.base = toNat b.base then [] else (Work.sub (zero n) (zero n)).trace := by
  have ha : toInt a ≠ 0 := fun e => by rw [e] at h; simp at h
  have hb : toInt b ≠ 0 := fun e => by rw [e] at h; simp at h
  obtain ⟨-, sa, -⟩ := nonzero_base ha
  obtain ⟨-, sb, -⟩ := nonzero_base hb
  have hne : a.sign ≠ b.sign := by
    intro e
    unfold toInt at h
    rw [e] at h
    cases hs : b.sign <;> simp only [hs] at h
    · simp at h
    · exact absurd h (not_lt.mpr (by positivity))
    · rw [neg_mul_neg] at h
      exact absurd h (not_lt.mpr (by positivity))
  unfold add
  rw [if_neg sb, if_neg sa, if_neg hne]
  split <;> exact subMagnitude_trace cfg a b.base _

end WorkS

open WorkS Aesi in
/-- C117: a sum of numbers of opposite signs: the accesses tell exactly the highest block in which the sizes of the
two differ. -/
theorem C117_signed_sum (cfg : Cfg) (hn : 0 < n) (a b a' b' : Aesi n) (hab : toInt a * toInt b < 0)
    (hab' : toInt a' * toInt b' < 0) :
    (WorkS.add cfg a b).trace = (WorkS.add cfg a' b').trace ↔ ∀ i,
      ((toInt a).natAbs / 2 ^ (32 * i) = (toInt b).natAbs / 2 ^ (32 * i) ↔
        (toInt a').natAbs / 2 ^ (32 * i) = (toInt b').natAbs / 2 ^ (32 * i)) := by
  have nz : ∀ x y : Aesi n, toInt x * toInt y < 0 → (toInt x).natAbs = toNat x.base ∧ (toInt y).natAbs = toNat y.base := by
    intro x y h
    exact ⟨(nonzero_base fun e => by rw [e] at h; simp at h).1, (nonzero_base fun e => by rw [e] at h; simp at h).1⟩
  rw [(nz a b hab).1, (nz a b hab).2, (nz a' b' hab').1, (nz a' b' hab').2, add_trace cfg a b hab,
    add_trace cfg a' b' hab']
  have head : ∃ t, (Work.sub (zero n) (zero n)).trace = ⟨false, 0⟩ :: ⟨true, 0⟩ :: t := by
    obtain ⟨t, ht⟩ := Work.neg_head hn (zero n)
    obtain ⟨-, ⟨v, hv⟩, -⟩ := Work.same_neg (zero n) (zero n)
    unfold Work.sub
    rw [trace_bind _ _ hv, ht]
    exact ⟨_, rfl⟩
  have fresh : ∀ p : Prop, [Decidable p] → Work.Fresh n (if p then [] else (Work.sub (zero n) (zero n)).trace) := by
    intro p _
    split
    · exact Or.inl rfl
    · exact Or.inr (Or.inr (Or.inr (Or.inl (by obtain ⟨t, ht⟩ := head; exact ⟨t, ht⟩))))
  constructor
  · intro h i
    have hX := Work.cmp_split cfg a.base b.base a'.base b'.base (fresh _) (fresh _) h
    have hc : (Work.compareTo cfg a.base b.base).trace = (Work.compareTo cfg a'.base b'.base).trace := by
      rw [hX] at h
      exact List.append_cancel_right h
    rcases Nat.eq_zero_or_pos i with rfl | hi
    · obtain ⟨t, ht⟩ := head
      simp only [Nat.mul_zero, pow_zero, Nat.div_one]
      by_cases h1 : toNat a.base = toNat b.base <;> by_cases h2 : toNat a'.base = toNat b'.base
      · simp [h1, h2]
      · rw [if_pos h1, if_neg h2, ht] at hX; simp at hX
      · rw [if_neg h1, if_pos h2, ht] at hX; simp at hX
      · simp [h1, h2]
    · exact (Work.trace_compareTo_iff cfg _ _ _ _).1 hc i hi
  · intro h
    have h0 : toNat a.base = toNat b.base ↔ toNat a'.base = toNat b'.base := by simpa using h 0
    rw [(Work.trace_compareTo_iff cfg a.base b.base a'.base b'.base).2 fun i _ => h i]
    by_cases h1 : toNat a.base = toNat b.base
    · rw [if_pos h1, if_pos (h0.1 h1)]
    · rw [if_neg h1, if_neg (fun e => h1 (h0.2 e))]

/-! ### Cases -/

/-- The accesses tell -7 / 2 from 9 / -2. -/
example (cfg : Cfg) : (WorkS.div cfg (Aesi.ofInt 2 (-7)) (Aesi.ofInt 2 2)).trace ≠
    (WorkS.div cfg (Aesi.ofInt 2 9) (Aesi.ofInt 2 (-2))).trace := fun h => by
  have v : Aesi.toInt (Aesi.ofInt 2 (-7)) = -7 ∧ Aesi.toInt (Aesi.ofInt 2 2) = 2 ∧ Aesi.toInt (Aesi.ofInt 2 9) = 9 ∧
    Aesi.toInt (Aesi.ofInt 2 (-2)) = -2 := by decide +kernel
  have := C117_signed_quotient cfg (by omega) _ _ _ _ (Aesi.ofInt 2 0) (Aesi.ofInt 2 0) (Aesi.ofInt 2 0) (Aesi.ofInt 2 0)
    (by rw [v.1]; decide) (by rw [v.2.1]; decide) (by rw [v.2.2.1]; decide) (by rw [v.2.2.2]; decide) (.inr (.inl h))
  rw [v.1, v.2.1, v.2.2.1, v.2.2.2] at this
  exact absurd this (by decide)

/-- 5 + (-3) and -9 + 2^31 differ in block 0, 7 + (-7) nowhere. -/
example (cfg : Cfg) : (WorkS.add cfg (Aesi.ofInt 1 5) (Aesi.ofInt 1 (-3))).trace ≠ (WorkS.add cfg (Aesi.ofInt 1 7) (Aesi.ofInt 1 (-7))).trace :=
    fun h => by
  have v : Aesi.toInt (Aesi.ofInt 1 5) = 5 ∧ Aesi.toInt (Aesi.ofInt 1 (-3)) = -3 ∧ Aesi.toInt (Aesi.ofInt 1 7) = 7 ∧
    Aesi.toInt (Aesi.ofInt 1 (-7)) = -7 := by decide +kernel
  have := (C117_signed_sum cfg (by omega) _ _ _ _ (by rw [v.1, v.2.1]; decide) (by rw [v.2.2.1, v.2.2.2]; decide)).1 h 0
  rw [v.1, v.2.1, v.2.2.1, v.2.2.2] at this
  exact absurd this (by decide)

example : (WorkS.add lp64 (Aesi.ofInt 2 5) (Aesi.ofInt 2 (-3))).trace = (WorkS.add lp64 (Aesi.ofInt 2 (-9)) (Aesi.ofInt 2 (2 ^ 31))).trace := by
  decide +kernel

example : (WorkS.streamOut lp64 8 ⟨.other, false, false, .right, 32, 0, []⟩ (Aesi.ofInt 2 (-125))).trace = (WorkS.streamOut lp64 8 ⟨.other, false, false, .right, 32, 0, []⟩ (Aesi.ofInt 2 126)).trace := by
  decide +kernel

end AesiMP
