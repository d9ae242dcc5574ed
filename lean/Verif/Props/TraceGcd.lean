import Verif.Props.TracePower

/-!
# C117: the blocks a gcd touches tell its operands up to their common divisor
-/

namespace AesiMP
open Aeu Counted

namespace Work
variable {n : Nat}

/-- The accesses of the comparison with zero. -/
theorem zero_test (hn : 0 < n) (r : Aeu n) : ∃ p, p < n ∧
    (eqNarrow r (0#32)).run = .ok (decide (toNat r = 0)) ∧
    (eqNarrow r (0#32)).trace = scan n p ++ (if p = 0 then [⟨false, 0⟩] else []) := by
  obtain ⟨k, hk, hkn, -, -⟩ := filled_run r
  refine ⟨k - 1, by omega, ?_, ?_⟩
  · rw [run_eqNarrow, eqNarrow_spec hn (by norm_num)]; rfl
  · have hr : (Counted.rd r 0).run = .ok r[0] := by
      rw [run_rd]; simp only [AesiMP.rd]; rw [dif_pos hn]
    unfold eqNarrow
    rw [trace_bind _ _ hk, filled_scan hn r hk]
    by_cases h : k ≤ 1
    · rw [if_pos h, if_pos (by omega), trace_bind _ _ hr]; rfl
    · rw [if_neg h, if_neg (by omega)]; rfl

/-- What follows the comparison with zero can be told from it. -/
theorem zero_split_le (hn : 2 ≤ n) {p p' : Nat} (hp' : p' < n) (hpp : p ≤ p') {X X' : List Touch} (hX' : AtTop n X')
    (h : scan n p ++ (if p = 0 then [⟨false, 0⟩] else []) ++ X =
      scan n p' ++ (if p' = 0 then [⟨false, 0⟩] else []) ++ X') : X = X' := by
  rcases Nat.eq_or_lt_of_le hpp with rfl | hlt
  · exact List.append_cancel_left h
  · rw [if_neg (show ¬ p' = 0 by omega), List.append_nil, scan_append (show p ≤ p' by omega) (by omega),
      List.append_assoc, List.append_assoc, List.append_cancel_left_eq] at h
    obtain ⟨t, ht⟩ := down_head hlt
    rw [ht] at h
    rcases hX' with rfl | ⟨j, t', hj, rfl⟩
    · simp at h
    · simp only [List.cons_append, List.cons.injEq, Touch.mk.injEq, true_and] at h
      omega

theorem zero_split (hn : 2 ≤ n) (r r' : Aeu n) {X X' : List Touch} (hX : AtTop n X) (hX' : AtTop n X')
    (h : (eqNarrow r (0#32)).trace ++ X = (eqNarrow r' (0#32)).trace ++ X') : X = X' := by
  obtain ⟨p, hp, -, ht⟩ := zero_test (show 0 < n by omega) r
  obtain ⟨p', hp', -, ht'⟩ := zero_test (show 0 < n by omega) r'
  rw [ht, ht'] at h
  rcases Nat.le_total p p' with hle | hle
  · exact zero_split_le hn hp' hle hX' h
  · exact (zero_split_le hn hp hle hX h.symm).symm

/-- One round of Euclid's algorithm. -/
def gcdRound (cfg : Cfg) : Aeu n × Aeu n → Counted (Ctl (Aeu n × Aeu n) (Aeu n)) := fun (gcd, remainder) => do
  let z ← eqNarrow remainder (0#32)
  if z then pure (.leave gcd) else do
    let tGcd := gcd
    let gcd := remainder
    let qr ← divide cfg tGcd gcd
    pure (.next (gcd, qr.2))

theorem gcd_end (cfg : Cfg) (hn : 0 < n) (g r : Aeu n) (h : toNat r = 0) (f : Nat) :
    (Counted.whileC (f + 1) (g, r) (gcdRound cfg)).trace = (eqNarrow r (0#32)).trace := by
  obtain ⟨p, -, hz, -⟩ := zero_test hn r
  rw [decide_eq_true h] at hz
  have hr : (gcdRound cfg (g, r)).run = .ok (.leave g) := by
    unfold gcdRound
    simp only [run_bind, hz, ok_bind, if_true]; rfl
  have ht : (gcdRound cfg (g, r)).trace = (eqNarrow r (0#32)).trace := by
    unfold gcdRound
    simp only
    rw [trace_bind _ _ hz, if_pos rfl]
    exact List.append_nil _
  rw [whileC_succ, trace_bind _ _ hr, ht]
  exact List.append_nil _

theorem gcd_next (cfg : Cfg) (hn : 0 < n) (g r : Aeu n) (h : toNat r ≠ 0) {q : Aeu n × Aeu n}
    (hq : (divide cfg g r).run = .ok q) (f : Nat) :
    (Counted.whileC (f + 1) (g, r) (gcdRound cfg)).trace = (eqNarrow r (0#32)).trace ++ ((divide cfg g r).trace ++
      (Counted.whileC f (r, q.2) (gcdRound cfg)).trace) := by
  obtain ⟨p, -, hz, -⟩ := zero_test hn r
  rw [decide_eq_false h] at hz
  have hr : (gcdRound cfg (g, r)).run = .ok (.next (r, q.2)) := by
    unfold gcdRound
    simp only [run_bind, hz, ok_bind, Bool.false_eq_true, if_false, hq]; rfl
  have ht : (gcdRound cfg (g, r)).trace = (eqNarrow r (0#32)).trace ++ (divide cfg g r).trace := by
    unfold gcdRound
    simp only
    rw [trace_bind _ _ hz, if_neg (by simp), trace_bind _ _ hq]
    congr 1; exact List.append_nil _
  rw [whileC_succ, trace_bind _ _ hr, ht, List.append_assoc]

theorem gcd_top (cfg : Cfg) (hn : 2 ≤ n) (f : Nat) (g r : Aeu n) :
    AtTop n (Counted.whileC f (g, r) (gcdRound cfg)).trace := by
  cases f with
  | zero => exact Or.inl rfl
  | succ f =>
    obtain ⟨p, hp, -, ht⟩ := zero_test (show 0 < n by omega) r
    obtain ⟨t, hs⟩ := scan_head hp
    by_cases h : toNat r = 0
    · rw [gcd_end cfg (by omega) g r h, ht, hs]
      exact AtTop.of_top ⟨_, by simp only [List.cons_append]; rfl⟩
    · obtain ⟨q, hq⟩ := divide_run cfg (show 0 < n by omega) g r
      rw [gcd_next cfg (by omega) g r h hq, ht, hs]
      exact AtTop.of_top ⟨_, by simp only [List.cons_append]; rfl⟩

theorem divide_eq (cfg : Cfg) (hn : 0 < n) (a b : Aeu n) (hb : toNat b ≠ 0) {q : Aeu n × Aeu n}
    (hq : (divide cfg a b).run = .ok q) : toNat a = toNat q.1 * toNat b + toNat q.2 ∧ toNat q.2 < toNat b := by
  have h := divide_spec cfg hn a b hb
  rw [run_divide] at hq
  rw [hq, sat_ok] at h
  rw [h.1, h.2]
  exact ⟨by rw [Nat.mul_comm]; exact (Nat.div_add_mod _ _).symm, Nat.mod_lt _ (by omega)⟩

/-- The accesses of the loop tell the ratio of its numbers. -/
theorem gcd_tell (cfg : Cfg) (hn : 2 ≤ n) : ∀ f (g r g' r' : Aeu n), toNat r < f → toNat r' < f →
    toNat r < toNat g → toNat r' < toNat g' →
    (Counted.whileC f (g, r) (gcdRound cfg)).trace = (Counted.whileC f (g', r') (gcdRound cfg)).trace →
    toNat g * toNat r' = toNat g' * toNat r
  | 0, g, r, g', r', h1, _, _, _, _ => absurd h1 (by omega)
  | f + 1, g, r, g', r', h1, h2, l1, l2, h => by
    have dtop : ∀ (x y : Aeu n) (Z : List Touch), ∃ t, (divide cfg x y).trace ++ Z = ⟨false, n - 1⟩ :: t := fun x y Z => by
      obtain ⟨t, ht⟩ := divide_head cfg hn x y Z
      exact ⟨_, ht⟩
    by_cases z : toNat r = 0 <;> by_cases z' : toNat r' = 0
    · rw [z, z', Nat.mul_zero, Nat.mul_zero]
    · obtain ⟨q', hq'⟩ := divide_run cfg (show 0 < n by omega) g' r'
      rw [gcd_end cfg (by omega) g r z, gcd_next cfg (by omega) g' r' z' hq'] at h
      have := zero_split hn r r' (X := []) (Or.inl rfl) (AtTop.of_top (dtop _ _ _)) (by rw [List.append_nil]; exact h)
      obtain ⟨t, ht⟩ := dtop g' r' (Counted.whileC f (r', q'.2) (gcdRound cfg)).trace
      rw [ht] at this; cases this
    · obtain ⟨q, hq⟩ := divide_run cfg (show 0 < n by omega) g r
      rw [gcd_end cfg (by omega) g' r' z', gcd_next cfg (by omega) g r z hq] at h
      have := zero_split hn r r' (X' := []) (AtTop.of_top (dtop _ _ _)) (Or.inl rfl) (h.trans (List.append_nil _).symm)
      obtain ⟨t, ht⟩ := dtop g r (Counted.whileC f (r, q.2) (gcdRound cfg)).trace
      rw [ht] at this; cases this
    · obtain ⟨q, hq⟩ := divide_run cfg (show 0 < n by omega) g r
      obtain ⟨q', hq'⟩ := divide_run cfg (show 0 < n by omega) g' r'
      rw [gcd_next cfg (by omega) g r z hq, gcd_next cfg (by omega) g' r' z' hq'] at h
      have h := zero_split hn r r' (AtTop.of_top (dtop _ _ _)) (AtTop.of_top (dtop _ _ _)) h
      obtain ⟨hY, x, y, y', e1, e2⟩ := trace_divide_split cfg hn g r g' r' (gcd_top cfg hn f r q.2).next
        (gcd_top cfg hn f r' q'.2).next (Or.inr (rest_ne_nil cfg hn g r (by omega)))
        (Or.inr (rest_ne_nil cfg hn g' r' (by omega))) h
      have i1 := Except.ok.inj (hq.symm.trans e1)
      have i2 := Except.ok.inj (hq'.symm.trans e2)
      obtain ⟨d1, d2⟩ := divide_eq cfg (by omega) g r z hq
      obtain ⟨d1', d2'⟩ := divide_eq cfg (by omega) g' r' z' hq'
      have ih := gcd_tell cfg hn f r q.2 r' q'.2 (by omega) (by omega) d2 d2' hY
      have hqq : toNat q.1 = toNat q'.1 := by rw [i1, i2]
      rw [d1, d1', hqq, Nat.add_mul, Nat.add_mul, Nat.mul_comm (toNat q.2), ← ih]
      ring
/-! ### The extended algorithm -/

theorem trace_bind_nil {α β : Type} (x : Counted α) (f : α → Counted β) (h : ∀ a, (f a).trace = []) :
    (x >>= f).trace = x.trace := by
  show (Counted.bind x f).trace = _
  unfold Counted.bind
  split
  · rw [h]; exact List.append_nil _
  · rfl

/-- The state of the extended algorithm: gcd, quotient, remainder, the two coefficients and their predecessors. -/
abbrev ExtState (n : Nat) := Aeu n × Aeu n × Aeu n × Aeu n × Aeu n × Aeu n × Aeu n

/-- One round of the extended algorithm. -/
def gcdExtRound (cfg : Cfg) : ExtState n → Counted (Ctl (ExtState n) (Aeu n × Aeu n × Aeu n)) :=
  fun (gcd, quotient, remainder, bezoutX, bezoutY, tX, tY) => do
    let z ← eqNarrow remainder (0#32)
    if z then pure (.leave (gcd, bezoutX, bezoutY)) else do
      let tGcd := gcd
      let gcd := remainder
      let t := bezoutX
      let p ← mul quotient bezoutX
      let bezoutX ← sub tX p
      let tX := t
      let t := bezoutY
      let p ← mul quotient bezoutY
      let bezoutY ← sub tY p
      let tY := t
      let qr ← divide cfg tGcd gcd
      pure (.next (gcd, qr.1, qr.2, bezoutX, bezoutY, tX, tY))

theorem sub_run (x y : Aeu n) : ∃ d, (sub x y).run = .ok d := by
  obtain ⟨d, h, -⟩ := Aeu.sub_spec x y
  exact ⟨d, by rw [run_sub]; exact h⟩

theorem ext_end (cfg : Cfg) (hn : 0 < n) (g q r x y tx ty : Aeu n) (h : toNat r = 0) (f : Nat) :
    (Counted.whileC (f + 1) (g, q, r, x, y, tx, ty) (gcdExtRound cfg)).trace = (eqNarrow r (0#32)).trace := by
  obtain ⟨p, -, hz, -⟩ := zero_test hn r
  rw [decide_eq_true h] at hz
  have hr : (gcdExtRound cfg (g, q, r, x, y, tx, ty)).run = .ok (.leave (g, x, y)) := by
    unfold gcdExtRound
    simp only [run_bind, hz, ok_bind, if_true]; rfl
  have ht : (gcdExtRound cfg (g, q, r, x, y, tx, ty)).trace = (eqNarrow r (0#32)).trace := by
    unfold gcdExtRound
    simp only
    rw [trace_bind _ _ hz, if_pos rfl]
    exact List.append_nil _
  rw [whileC_succ, trace_bind _ _ hr, ht]
  exact List.append_nil _

theorem ext_next (cfg : Cfg) (hn : 0 < n) (q x y tx ty : Aeu n) : ∃ (x' y' : Aeu n) (P : List Touch),
    (∀ Z, ∃ t, P ++ Z = ⟨false, n - 1⟩ :: t) ∧ ∀ (g r : Aeu n) (d : Aeu n × Aeu n), toNat r ≠ 0 →
      (divide cfg g r).run = .ok d → ∀ f,
      (Counted.whileC (f + 1) (g, q, r, x, y, tx, ty) (gcdExtRound cfg)).trace = (eqNarrow r (0#32)).trace ++ (P ++
        ((divide cfg g r).trace ++ (Counted.whileC f (r, d.1, d.2, x', y', x, y) (gcdExtRound cfg)).trace)) := by
  obtain ⟨p1, hp1, -⟩ := mul_run q x
  obtain ⟨x', hx'⟩ := sub_run tx p1
  obtain ⟨p2, hp2, -⟩ := mul_run q y
  obtain ⟨y', hy'⟩ := sub_run ty p2
  refine ⟨x', y', (mul q x).trace ++ ((sub tx p1).trace ++ ((mul q y).trace ++ (sub ty p2).trace)), fun Z => ?_,
    fun g r d h hd f => ?_⟩
  · obtain ⟨k, hk, hkn, -, -⟩ := filled_run q
    obtain ⟨l, hl, hln, -, -⟩ := filled_run x
    rw [mul_trace hn q x hk hl]
    obtain ⟨t, ht⟩ := scan_head (n := n) (p := k - 1) (by omega)
    rw [ht]
    exact ⟨_, by simp only [List.cons_append]; rfl⟩
  · obtain ⟨p, -, hz, -⟩ := zero_test hn r
    rw [decide_eq_false h] at hz
    have hr : (gcdExtRound cfg (g, q, r, x, y, tx, ty)).run = .ok (.next (r, d.1, d.2, x', y', x, y)) := by
      unfold gcdExtRound
      simp only [run_bind, hz, ok_bind, Bool.false_eq_true, if_false, hp1, hx', hp2, hy', hd]; rfl
    have ht : (gcdExtRound cfg (g, q, r, x, y, tx, ty)).trace = (eqNarrow r (0#32)).trace ++ ((mul q x).trace ++
        ((sub tx p1).trace ++ ((mul q y).trace ++ ((sub ty p2).trace ++ (divide cfg g r).trace)))) := by
      unfold gcdExtRound
      simp only
      rw [trace_bind _ _ hz, if_neg (by simp), trace_bind _ _ hp1, trace_bind _ _ hx', trace_bind _ _ hp2,
        trace_bind _ _ hy', trace_bind _ _ hd]
      congr 5; exact List.append_nil _
    rw [whileC_succ, trace_bind _ _ hr, ht]
    simp only [List.append_assoc]

theorem ext_top (cfg : Cfg) (hn : 2 ≤ n) (f : Nat) (g q r x y tx ty : Aeu n) :
    AtTop n (Counted.whileC f (g, q, r, x, y, tx, ty) (gcdExtRound cfg)).trace := by
  cases f with
  | zero => exact Or.inl rfl
  | succ f =>
    obtain ⟨p, hp, -, ht⟩ := zero_test (show 0 < n by omega) r
    obtain ⟨t, hs⟩ := scan_head hp
    by_cases h : toNat r = 0
    · rw [ext_end cfg (by omega) g q r x y tx ty h, ht, hs]
      exact AtTop.of_top ⟨_, by simp only [List.cons_append]; rfl⟩
    · obtain ⟨d, hd⟩ := divide_run cfg (show 0 < n by omega) g r
      obtain ⟨x', y', P, -, hP⟩ := ext_next cfg (show 0 < n by omega) q x y tx ty
      rw [hP g r d h hd, ht, hs]
      exact AtTop.of_top ⟨_, by simp only [List.cons_append]; rfl⟩

/-- The coefficients follow from the quotients, which the divisions reveal. -/
theorem ext_tell (cfg : Cfg) (hn : 2 ≤ n) : ∀ f (q x y tx ty g r g' r' : Aeu n), toNat r < f → toNat r' < f →
    toNat r < toNat g → toNat r' < toNat g' →
    (Counted.whileC f (g, q, r, x, y, tx, ty) (gcdExtRound cfg)).trace =
      (Counted.whileC f (g', q, r', x, y, tx, ty) (gcdExtRound cfg)).trace →
    toNat g * toNat r' = toNat g' * toNat r
  | 0, _, _, _, _, _, g, r, g', r', h1, _, _, _, _ => absurd h1 (by omega)
  | f + 1, q, x, y, tx, ty, g, r, g', r', h1, h2, l1, l2, h => by
    obtain ⟨x', y', P, hPt, hP⟩ := ext_next cfg (show 0 < n by omega) q x y tx ty
    obtain ⟨d, hd⟩ := divide_run cfg (show 0 < n by omega) g r
    obtain ⟨d', hd'⟩ := divide_run cfg (show 0 < n by omega) g' r'
    by_cases z : toNat r = 0 <;> by_cases z' : toNat r' = 0
    · rw [z, z', Nat.mul_zero, Nat.mul_zero]
    · rw [ext_end cfg (by omega) g q r x y tx ty z, hP g' r' d' z' hd'] at h
      have := zero_split hn r r' (X := []) (Or.inl rfl) (AtTop.of_top (hPt _)) (by rw [List.append_nil]; exact h)
      obtain ⟨t, ht⟩ := hPt ((divide cfg g' r').trace ++
        (Counted.whileC f (r', d'.1, d'.2, x', y', x, y) (gcdExtRound cfg)).trace)
      rw [ht] at this; cases this
    · rw [ext_end cfg (by omega) g' q r' x y tx ty z', hP g r d z hd] at h
      have := zero_split hn r r' (X' := []) (AtTop.of_top (hPt _)) (Or.inl rfl) (h.trans (List.append_nil _).symm)
      obtain ⟨t, ht⟩ := hPt ((divide cfg g r).trace ++
        (Counted.whileC f (r, d.1, d.2, x', y', x, y) (gcdExtRound cfg)).trace)
      rw [ht] at this; cases this
    · rw [hP g r d z hd, hP g' r' d' z' hd'] at h
      have h := List.append_cancel_left (zero_split hn r r' (AtTop.of_top (hPt _)) (AtTop.of_top (hPt _)) h)
      obtain ⟨hY, u, v, v', e1, e2⟩ := trace_divide_split cfg hn g r g' r' (ext_top cfg hn f r d.1 d.2 x' y' x y).next
        (ext_top cfg hn f r' d'.1 d'.2 x' y' x y).next (Or.inr (rest_ne_nil cfg hn g r (by omega)))
        (Or.inr (rest_ne_nil cfg hn g' r' (by omega))) h
      have i1 := Except.ok.inj (hd.symm.trans e1)
      have i2 := Except.ok.inj (hd'.symm.trans e2)
      obtain ⟨d1, d2⟩ := divide_eq cfg (by omega) g r z hd
      obtain ⟨d1', d2'⟩ := divide_eq cfg (by omega) g' r' z' hd'
      have hqq : d.1 = d'.1 := by rw [i1, i2]
      rw [hqq] at hY
      have ih := ext_tell cfg hn f d'.1 x' y' x y r d.2 r' d'.2 (by omega) (by omega) d2 d2' hY
      rw [d1, d1', hqq, Nat.add_mul, Nat.add_mul, Nat.mul_comm (toNat d.2), ← ih]
      ring
end Work

open Work
variable {n : Nat}

/-- C117: whoever sees which blocks `gcd` touches knows its operands (up to their order) divided by their gcd: two calls
that touch the same blocks in the same order have operands in the same proportion. -/
theorem C117_gcd (cfg : Cfg) (hn : 2 ≤ n) (a b a' b' : Aeu n) (ha : toNat a ≠ 0) (hb : toNat b ≠ 0)
    (ha' : toNat a' ≠ 0) (hb' : toNat b' ≠ 0) (h : (Work.gcd cfg a b).trace = (Work.gcd cfg a' b').trace) :
    max (toNat a) (toNat b) * min (toNat a') (toNat b') = max (toNat a') (toNat b') * min (toNat a) (toNat b) := by
  have key : ∀ x y : Aeu n, toNat x ≠ 0 → toNat y ≠ 0 → ∃ (g s : Aeu n) (q : Aeu n × Aeu n),
      toNat g = max (toNat x) (toNat y) ∧ toNat s = min (toNat x) (toNat y) ∧ (Work.divide cfg g s).run = .ok q ∧
      (Work.gcd cfg x y).trace = (Work.compareTo cfg x y).trace ++ ((Work.divide cfg g s).trace ++
        (Counted.whileC (2 ^ (32 * n) + 1) (s, q.2) (gcdRound cfg)).trace) := by
    intro x y hx hy
    have hc : (Work.compareTo cfg x y).run = .ok (cmpNat (toNat x) (toNat y)) := by rw [run_compareTo, compareTo_spec]
    by_cases hg : cmpNat (toNat x) (toNat y) = .greater
    · obtain ⟨q, hq⟩ := divide_run cfg (show 0 < n by omega) x y
      have hlt : toNat y < toNat x := by
        unfold cmpNat at hg
        split at hg
        · cases hg
        · split at hg
          · cases hg
          · omega
      refine ⟨x, y, q, by omega, by omega, hq, ?_⟩
      unfold Work.gcd Work.gcdIn
      rw [trace_bind _ _ hc]
      simp only [hg, if_true]
      rw [trace_bind _ _ hq]
      rfl
    · obtain ⟨q, hq⟩ := divide_run cfg (show 0 < n by omega) y x
      have hle : toNat x ≤ toNat y := by
        by_contra hlt
        apply hg
        unfold cmpNat
        rw [if_neg (by omega), if_neg (by omega)]
      refine ⟨y, x, q, by omega, by omega, hq, ?_⟩
      unfold Work.gcd Work.gcdIn
      rw [trace_bind _ _ hc]
      simp only [hg, if_false]
      rw [trace_bind _ _ hq]
      rfl
  obtain ⟨g, s, q, hg, hs, hq, ht⟩ := key a b ha hb
  obtain ⟨g', s', q', hg', hs', hq', ht'⟩ := key a' b' ha' hb'
  rw [ht, ht'] at h
  have fresh : ∀ (x y : Aeu n) (Z : List Touch), Fresh n ((Work.divide cfg x y).trace ++ Z) := fun x y Z => by
    obtain ⟨t, ht⟩ := divide_head cfg hn x y Z
    exact Or.inr (Or.inr (Or.inl ⟨n - 1, _, le_refl _, ht⟩))
  have h := cmp_split cfg a b a' b' (fresh _ _ _) (fresh _ _ _) h
  obtain ⟨hY, x, y, y', e1, e2⟩ := trace_divide_split cfg hn g s g' s' (gcd_top cfg hn _ s q.2).next
    (gcd_top cfg hn _ s' q'.2).next (Or.inr (rest_ne_nil cfg hn g s (by omega)))
    (Or.inr (rest_ne_nil cfg hn g' s' (by omega))) h
  have i1 := Except.ok.inj (hq.symm.trans e1)
  have i2 := Except.ok.inj (hq'.symm.trans e2)
  obtain ⟨d1, d2⟩ := divide_eq cfg (by omega) g s (by omega) hq
  obtain ⟨d1', d2'⟩ := divide_eq cfg (by omega) g' s' (by omega) hq'
  have b1 := toNat_lt q.2
  have b2 := toNat_lt q'.2
  have ih := gcd_tell cfg hn _ s q.2 s' q'.2 (by omega) (by omega) d2 d2' hY
  have hqq : toNat q.1 = toNat q'.1 := by rw [i1, i2]
  rw [← hg, ← hs, ← hg', ← hs', d1, d1', hqq, Nat.add_mul, Nat.add_mul, Nat.mul_comm (toNat q.2), ← ih]
  ring

/-- C117: the same for the extended `gcd`, by which modular inverses are computed. -/
theorem C117_gcd_extended (cfg : Cfg) (hn : 2 ≤ n) (a b a' b' : Aeu n) (ha : toNat a ≠ 0) (hb : toNat b ≠ 0)
    (ha' : toNat a' ≠ 0) (hb' : toNat b' ≠ 0) (h : (Work.gcdExt cfg a b).trace = (Work.gcdExt cfg a' b').trace) :
    max (toNat a) (toNat b) * min (toNat a') (toNat b') = max (toNat a') (toNat b') * min (toNat a) (toNat b) := by
  obtain ⟨one, h1, -⟩ := ofUnsigned32_one (n := n) (by omega)
  have ho : (Work.ofUnsigned n (1#32)).run = .ok one := by rw [run_ofUnsigned]; exact h1
  have key : ∀ x y : Aeu n, toNat x ≠ 0 → toNat y ≠ 0 → ∃ (g s : Aeu n) (q : Aeu n × Aeu n),
      toNat g = max (toNat x) (toNat y) ∧ toNat s = min (toNat x) (toNat y) ∧ (Work.divide cfg g s).run = .ok q ∧
      (Work.gcdExt cfg x y).trace = (Work.compareTo cfg x y).trace ++ ((Work.divide cfg g s).trace ++
        ((Work.ofUnsigned n (1#32)).trace ++ ((Work.ofUnsigned n (1#32)).trace ++
        (Counted.whileC (2 ^ (32 * n) + 1) (s, q.1, q.2, zero n, one, one, zero n) (gcdExtRound cfg)).trace))) := by
    intro x y hx hy
    have hc : (Work.compareTo cfg x y).run = .ok (cmpNat (toNat x) (toNat y)) := by rw [run_compareTo, compareTo_spec]
    have hz : (Work.ofUnsigned n (0#32)).run = .ok (zero n) := by unfold Work.ofUnsigned; simp
    have hzt : (Work.ofUnsigned n (0#32)).trace = [] := by unfold Work.ofUnsigned; simp; rfl
    by_cases hg : cmpNat (toNat x) (toNat y) = .greater
    · obtain ⟨q, hq⟩ := divide_run cfg (show 0 < n by omega) x y
      have hlt : toNat y < toNat x := by
        unfold cmpNat at hg
        split at hg
        · cases hg
        · split at hg
          · cases hg
          · omega
      refine ⟨x, y, q, by omega, by omega, hq, ?_⟩
      unfold Work.gcdExt Work.gcdExtIn
      rw [trace_bind _ _ hc]
      simp only [hg, if_true]
      rw [trace_bind _ _ hq, trace_bind _ _ hz, trace_bind _ _ ho, trace_bind _ _ ho, trace_bind _ _ hz,
        trace_bind_nil, hzt, List.nil_append, List.nil_append]
      · rfl
      · rintro ⟨g, u, v⟩; simp; rfl
    · obtain ⟨q, hq⟩ := divide_run cfg (show 0 < n by omega) y x
      have hle : toNat x ≤ toNat y := by
        by_contra hlt
        apply hg
        unfold cmpNat
        rw [if_neg (by omega), if_neg (by omega)]
      refine ⟨y, x, q, by omega, by omega, hq, ?_⟩
      unfold Work.gcdExt Work.gcdExtIn
      rw [trace_bind _ _ hc]
      simp only [hg, if_false]
      rw [trace_bind _ _ hq, trace_bind _ _ hz, trace_bind _ _ ho, trace_bind _ _ ho, trace_bind _ _ hz,
        trace_bind_nil, hzt, List.nil_append, List.nil_append]
      · rfl
      · rintro ⟨g, u, v⟩; simp [hg]; rfl
  obtain ⟨g, s, q, hg, hs, hq, ht⟩ := key a b ha hb
  obtain ⟨g', s', q', hg', hs', hq', ht'⟩ := key a' b' ha' hb'
  rw [ht, ht'] at h
  have fresh : ∀ (x y : Aeu n) (Z : List Touch), Fresh n ((Work.divide cfg x y).trace ++ Z) := fun x y Z => by
    obtain ⟨t, ht⟩ := divide_head cfg hn x y Z
    exact Or.inr (Or.inr (Or.inl ⟨n - 1, _, le_refl _, ht⟩))
  have h := cmp_split cfg a b a' b' (fresh _ _ _) (fresh _ _ _) h
  have next : ∀ Z, Next n ((Work.ofUnsigned n (1#32)).trace ++ Z) := fun Z => by
    obtain ⟨t, ht⟩ := one_head (show 0 < n by omega)
    rw [ht]; exact Or.inl ⟨0, _, by simp only [List.cons_append]; rfl⟩
  obtain ⟨hY, x, y, y', e1, e2⟩ := trace_divide_split cfg hn g s g' s' (next _) (next _)
    (Or.inr (rest_ne_nil cfg hn g s (by omega))) (Or.inr (rest_ne_nil cfg hn g' s' (by omega))) h
  have hY := List.append_cancel_left (List.append_cancel_left hY)
  have i1 := Except.ok.inj (hq.symm.trans e1)
  have i2 := Except.ok.inj (hq'.symm.trans e2)
  obtain ⟨d1, d2⟩ := divide_eq cfg (by omega) g s (by omega) hq
  obtain ⟨d1', d2'⟩ := divide_eq cfg (by omega) g' s' (by omega) hq'
  have b1 := toNat_lt q.2
  have b2 := toNat_lt q'.2
  have hqq : q.1 = q'.1 := by rw [i1, i2]
  rw [hqq] at hY
  have ih := ext_tell cfg hn _ q'.1 _ _ _ _ s q.2 s' q'.2 (by omega) (by omega) d2 d2' hY
  rw [← hg, ← hs, ← hg', ← hs', d1, d1', hqq, Nat.add_mul, Nat.add_mul, Nat.mul_comm (toNat q.2), ← ih]
  ring

/-- Operands in the same proportion, coprime, with one in common: the other one is the same. -/
private theorem coprime_same {a a' b : Nat} (hb : 1 < b) (h1 : Nat.gcd a b = 1) (h2 : Nat.gcd a' b = 1)
    (hp : max a b * min a' b = max a' b * min a b) : a = a' := by
  have g1 : Nat.Coprime (max a b) (min a b) := by
    rcases Nat.le_total a b with hl | hl
    · rw [max_eq_right hl, min_eq_left hl]; exact Nat.Coprime.symm h1
    · rw [max_eq_left hl, min_eq_right hl]; exact h1
  have g2 : Nat.Coprime (max a' b) (min a' b) := by
    rcases Nat.le_total a' b with hl | hl
    · rw [max_eq_right hl, min_eq_left hl]; exact Nat.Coprime.symm h2
    · rw [max_eq_left hl, min_eq_right hl]; exact h2
  have e1 : max a b = max a' b := by
    refine Nat.dvd_antisymm ?_ ?_
    · exact g1.dvd_of_dvd_mul_right (hp ▸ Dvd.intro _ rfl)
    · exact g2.dvd_of_dvd_mul_right (hp ▸ Dvd.intro _ rfl)
  have e2 : min a b = min a' b := by
    rw [e1] at hp
    exact (Nat.eq_of_mul_eq_mul_left (by omega) hp).symm
  omega

/-- C117: a secret number tested for being coprime to a known one, or inverted modulo it, is revealed by the blocks the
call touches. -/
theorem C117_gcd_secret (cfg : Cfg) (hn : 2 ≤ n) (a a' b : Aeu n) (hb : 1 < toNat b)
    (h1 : Nat.gcd (toNat a) (toNat b) = 1) (h2 : Nat.gcd (toNat a') (toNat b) = 1)
    (h : (Work.gcd cfg a b).trace = (Work.gcd cfg a' b).trace ∨
      (Work.gcdExt cfg a b).trace = (Work.gcdExt cfg a' b).trace) : toNat a = toNat a' := by
  have ha : toNat a ≠ 0 := fun h0 => by rw [h0, Nat.gcd_zero_left] at h1; omega
  have ha' : toNat a' ≠ 0 := fun h0 => by rw [h0, Nat.gcd_zero_left] at h2; omega
  rcases h with h | h
  · exact coprime_same hb h1 h2 (C117_gcd cfg hn a b a' b ha (by omega) ha' (by omega) h)
  · exact coprime_same hb h1 h2 (C117_gcd_extended cfg hn a b a' b ha (by omega) ha' (by omega) h)

/-- 3 and 5 are coprime to 7; the gcds touch blocks differently. -/
example (cfg : Cfg) : (Work.gcd cfg (ofNat 2 3) (ofNat 2 7)).trace ≠ (Work.gcd cfg (ofNat 2 5) (ofNat 2 7)).trace := by
  intro h
  have e : toNat (ofNat 2 3) = 3 ∧ toNat (ofNat 2 5) = 5 ∧ toNat (ofNat 2 7) = 7 := by decide +kernel
  have := C117_gcd_secret cfg (by omega) _ _ _ (by rw [e.2.2]; omega) (by rw [e.1, e.2.2]; rfl) (by rw [e.2.1, e.2.2]; rfl)
    (Or.inl h)
  omega

end AesiMP
