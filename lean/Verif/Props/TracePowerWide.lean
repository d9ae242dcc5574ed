import Verif.Props.TracePower

/-!
# C117: the blocks a modular exponentiation touches tell its exponent, exponents of a larger precision
-/

namespace AesiMP
open Aeu Counted

namespace Work
variable {n m : Nat}

/-! ### Products and tests -/

/-- The list begins like a product: two scans, then the lines, or (zero times zero) the comparison of a division. -/
def Prod (n : Nat) (X : List Touch) : Prop :=
  ∃ a c M, a < n ∧ c < n ∧ X = scan n a ++ (scan n c ++ M) ∧
    ((∃ t, M = ⟨false, 0⟩ :: ⟨false, 0⟩ :: t) ∨ a = 0)

theorem product_prod (cfg : Cfg) (hn : 2 ≤ n) (x y p d : Aeu n) (Z : List Touch) :
    Prod n ((mul x y).trace ++ ((divide cfg p d).trace ++ Z)) := by
  obtain ⟨k, hk, hkn, -, -⟩ := filled_run x
  obtain ⟨l, hl, hln, -, -⟩ := filled_run y
  rw [mul_trace (by omega) x y hk hl]
  simp only [List.append_assoc]
  refine ⟨k - 1, l - 1, _, by omega, by omega, rfl, ?_⟩
  by_cases h0 : k = 0 ∧ l = 0
  · exact Or.inr (by omega)
  · obtain ⟨t, ht⟩ := prod_head (by omega) x y hkn hln h0
    rw [ht]
    exact Or.inl ⟨_, by simp only [List.cons_append]; rfl⟩

theorem Prod.top {X : List Touch} (h : Prod n X) : Top n X := by
  obtain ⟨a, c, M, ha, -, rfl, -⟩ := h
  exact scan_top ha _

theorem prod_not_shifted (hn : 2 ≤ n) {X X' : List Touch} (hX : Prod n X) (hX' : Prod n X') :
    X' ≠ ⟨false, n - 1⟩ :: X := by
  obtain ⟨a, c, M, ha, hc, rfl, -⟩ := hX
  obtain ⟨a', c', M', ha', hc', rfl, hM'⟩ := hX'
  intro h
  obtain ⟨ta, hta⟩ := scan_head ha
  obtain ⟨tc, htc⟩ := scan_head hc
  rcases Nat.lt_or_ge a' (n - 1) with hlt | hge
  · obtain ⟨t, ht⟩ := down_two (show a' + 1 < n by omega)
    rw [show scan n a' = down a' (n - a') from rfl, ht, hta] at h
    simp only [List.cons_append, List.cons.injEq, Touch.mk.injEq, true_and] at h
    omega
  · have e : a' = n - 1 := by omega
    subst e
    rw [show scan n (n - 1) = [⟨false, n - 1⟩] by
      unfold scan; rw [show n - (n - 1) = 0 + 1 by omega]; simp [down]] at h
    simp only [List.cons_append, List.nil_append, List.cons.injEq, true_and] at h
    obtain ⟨t, rfl⟩ := hM'.resolve_right (by omega)
    rcases Nat.lt_or_ge a c' with h1 | h1
    · rw [scan_append (show a ≤ c' by omega) (by omega), List.append_assoc, List.append_cancel_left_eq] at h
      obtain ⟨u, hu⟩ := down_head h1
      have h2 := h
      rw [hu] at h2
      simp only [List.cons_append, List.cons.injEq, Touch.mk.injEq, true_and] at h2
      have e1 : c' = 1 := by omega
      have e2 : a = 0 := by omega
      subst e1; subst e2
      rw [show (1 : Nat) - 0 = 0 + 1 from rfl, htc] at h
      simp only [down, List.cons_append, List.nil_append, List.cons.injEq, Touch.mk.injEq, true_and] at h
      omega
    · rw [scan_append h1 (by omega), List.append_assoc, List.append_cancel_left_eq, htc] at h
      rcases Nat.eq_or_lt_of_le h1 with h2 | h2
      · subst h2
        rw [Nat.sub_self] at h
        simp only [down, List.cons_append, List.nil_append, List.cons.injEq, Touch.mk.injEq, true_and] at h
        omega
      · obtain ⟨u, hu⟩ := down_head h2
        rw [hu] at h
        simp only [List.cons_append, List.cons.injEq, Touch.mk.injEq, true_and] at h
        omega

theorem wide_test_split_le (hn : 2 ≤ n) {p p' j : Nat} (hpp : p ≤ p') (hp' : p' < m) (hj : j ≤ p) {X X' : List Touch}
    (hX : Prod n X) (hX' : Prod n X') (h : scan m p ++ ⟨false, j⟩ :: X = scan m p' ++ ⟨false, j⟩ :: X') : X = X' := by
  rw [scan_append hpp (by omega), List.append_assoc, List.append_cancel_left_eq] at h
  rcases Nat.eq_or_lt_of_le hpp with he | hlt
  · subst he
    rw [Nat.sub_self] at h
    simp only [down, List.nil_append, List.cons.injEq, true_and] at h
    exact h
  · obtain ⟨t, ht⟩ := down_head hlt
    have h2 := h
    rw [ht] at h2
    simp only [List.cons_append, List.cons.injEq, Touch.mk.injEq, true_and] at h2
    have e : p' = p + 1 := by omega
    subst e
    rw [show p + 1 - p = 0 + 1 by omega] at h
    simp only [down, List.cons_append, List.nil_append, List.cons.injEq, Touch.mk.injEq, true_and] at h
    have hj' : j = p := by omega
    subst hj'
    obtain ⟨x', hx'⟩ := hX'.top
    have h3 := h.2
    rw [hx'] at h3
    simp only [List.cons.injEq, Touch.mk.injEq, true_and] at h3
    refine absurd h.2.symm ?_
    rw [h3.1]
    exact prod_not_shifted hn hX hX'

theorem wide_test_split (hn : 2 ≤ n) {p p' j : Nat} (hp : p < m) (hp' : p' < m) (hj : j ≤ p) (hj' : j ≤ p')
    {X X' : List Touch} (hX : Prod n X) (hX' : Prod n X')
    (h : scan m p ++ ⟨false, j⟩ :: X = scan m p' ++ ⟨false, j⟩ :: X') : X = X' := by
  rcases Nat.le_total p p' with hpp | hpp
  · exact wide_test_split_le hn hpp hp' hj hX hX' h
  · exact (wide_test_split_le hn hpp hp hj' hX' hX h.symm).symm

theorem down_lt (lo : Nat) : ∀ len, ∀ x ∈ down lo len, x.index < lo + len
  | 0 => fun x hx => by simp [down] at hx
  | len + 1 => fun x hx => by
    rcases List.mem_cons.mp hx with rfl | hx
    · show lo + len < lo + (len + 1); omega
    · have := down_lt lo len x hx; omega

theorem down_nodup (lo : Nat) : ∀ len, (down lo len).Nodup
  | 0 => List.nodup_nil
  | len + 1 => List.nodup_cons.mpr ⟨fun h => absurd (down_lt lo len _ h) (by simp), down_nodup lo len⟩

theorem wide_end_not_test {p p' j : Nat} {X : List Touch} (hX : Prod n X) :
    scan m p ≠ scan m p' ++ ⟨false, j⟩ :: X := by
  intro h
  have hd : (scan m p).Nodup := down_nodup _ _
  rw [h] at hd
  have hd := (List.nodup_cons.mp (List.nodup_append.mp hd).2.1).2
  obtain ⟨a, c, M, ha, hc, rfl, -⟩ := hX
  obtain ⟨ta, hta⟩ := scan_head ha
  obtain ⟨tc, htc⟩ := scan_head hc
  rw [hta, htc] at hd
  exact (List.nodup_cons.mp hd).1 (by simp)

/-! ### The loop of `powm<m>` -/

/-- One round of the loop of `powm<m>`. -/
def powRoundT (cfg : Cfg) (power : Aeu m) (modulo : Aeu n) :
    BitVec 32 × Aeu n × Aeu n → Counted (Ctl (BitVec 32 × Aeu n × Aeu n) (Aeu n)) := fun (iteration, output, b) => do
  let f ← filledBlocksNumber power
  if f * 32 = iteration.toNat then pure (.leave output) else do
    let bit ← getBit cfg power iteration.toNat
    let output ← if bit then do
        let p ← mul output b
        let qr ← divide cfg p modulo
        pure qr.2
      else pure output
    let p ← mul b b
    let qr ← divide cfg p modulo
    pure (.next (iteration + 1#32, output, qr.2))

theorem wide_end (cfg : Cfg) (hm : 0 < m) (e : Aeu m) (d out b : Aeu n) {K : Nat}
    (hK : (filledBlocksNumber e).run = .ok K) (hw : K * 32 < 2 ^ 32) (f : Nat) :
    (Counted.whileC (f + 1) (BitVec.ofNat 32 (K * 32), out, b) (powRoundT cfg e d)).trace = scan m (K - 1) := by
  have ht : (BitVec.ofNat 32 (K * 32)).toNat = K * 32 := by rw [BitVec.toNat_ofNat]; exact Nat.mod_eq_of_lt hw
  have hr : (powRoundT cfg e d (BitVec.ofNat 32 (K * 32), out, b)).run = .ok (.leave out) := by
    unfold powRoundT
    simp only [run_bind, hK, ok_bind, ht, if_true]; rfl
  have htr : (powRoundT cfg e d (BitVec.ofNat 32 (K * 32), out, b)).trace = scan m (K - 1) := by
    unfold powRoundT
    simp only
    rw [trace_bind _ _ hK, if_pos ht.symm, filled_scan hm e hK]
    exact List.append_nil _
  rw [whileC_succ, trace_bind _ _ hr, htr]
  exact List.append_nil _

theorem wide_next (cfg : Cfg) (hn : 0 < n) (hm : 0 < m) (e : Aeu m) (d out b : Aeu n) {K i : Nat}
    (hK : (filledBlocksNumber e).run = .ok K) (hKn : K ≤ m) (hi : i < K * 32) (hw : K * 32 < 2 ^ 32) :
    ∃ p1 q1 p2 q2, (mul out b).run = .ok p1 ∧ (divide cfg p1 d).run = .ok q1 ∧
      (mul b b).run = .ok p2 ∧ (divide cfg p2 d).run = .ok q2 ∧ ∀ f,
      (Counted.whileC (f + 1) (BitVec.ofNat 32 i, out, b) (powRoundT cfg e d)).trace = scan m (K - 1) ++ ⟨false, i / 32⟩ ::
        ((if (toNat e).testBit i then (mul out b).trace ++ (divide cfg p1 d).trace else []) ++
          ((mul b b).trace ++ ((divide cfg p2 d).trace ++
            (Counted.whileC f (BitVec.ofNat 32 (i + 1), if (toNat e).testBit i then q1.2 else out, q2.2)
              (powRoundT cfg e d)).trace))) := by
  obtain ⟨p1, hp1, -⟩ := mul_run out b
  obtain ⟨p2, hp2, -⟩ := mul_run b b
  obtain ⟨q1, hq1⟩ := divide_run cfg hn p1 d
  obtain ⟨q2, hq2⟩ := divide_run cfg hn p2 d
  refine ⟨p1, q1, p2, q2, hp1, hq1, hp2, hq2, fun f => ?_⟩
  have hti : (BitVec.ofNat 32 i).toNat = i := by rw [BitVec.toNat_ofNat]; exact Nat.mod_eq_of_lt (by omega)
  have hsucc : BitVec.ofNat 32 i + 1#32 = BitVec.ofNat 32 (i + 1) := (BitVec.ofNat_add i 1).symm
  have hg : (getBit cfg e i).run = .ok ((toNat e).testBit i) := by rw [run_getBit, getBit_spec cfg e (by omega)]
  have hgt : (getBit cfg e i).trace = [⟨false, i / 32⟩] := getBit_trace cfg e (by omega)
  have hr : (powRoundT cfg e d (BitVec.ofNat 32 i, out, b)).run =
      .ok (.next (BitVec.ofNat 32 (i + 1), if (toNat e).testBit i then q1.2 else out, q2.2)) := by
    unfold powRoundT
    simp only [run_bind, hK, ok_bind, run_ite, hti, if_neg (show ¬ K * 32 = i by omega), hg]
    by_cases hb : (toNat e).testBit i = true
    · simp only [hb, if_true, hp1, ok_bind, hq1, hp2, hq2, run_pure, hsucc]
    · simp only [hb, if_false, Bool.false_eq_true, ok_bind, hp2, hq2, run_pure, hsucc]
  have ht : (powRoundT cfg e d (BitVec.ofNat 32 i, out, b)).trace = scan m (K - 1) ++ ⟨false, i / 32⟩ ::
        ((if (toNat e).testBit i then (mul out b).trace ++ (divide cfg p1 d).trace else []) ++
          ((mul b b).trace ++ (divide cfg p2 d).trace)) := by
    unfold powRoundT
    simp only [hti]
    rw [trace_bind _ _ hK, if_neg (by omega), trace_bind _ _ hg, hgt, filled_scan hm e hK]
    by_cases hb : (toNat e).testBit i = true
    · simp only [hb, if_true]
      rw [trace_bind _ _ hp1, trace_bind _ _ hq1, trace_bind _ _ (a := q1.2) rfl, trace_bind _ _ hp2, trace_bind _ _ hq2]
      have z : ∀ {α : Type} (a : α), (pure a : Counted α).trace = [] := fun _ => rfl
      simp only [z, List.append_assoc, List.cons_append, List.nil_append, List.append_nil]
    · simp only [hb, if_false, Bool.false_eq_true]
      rw [trace_bind _ _ (a := out) rfl, trace_bind _ _ hp2, trace_bind _ _ hq2]
      simp only [List.cons_append, List.nil_append]
      congr 2
      show [] ++ ((mul b b).trace ++ ((divide cfg p2 d).trace ++ [])) = _
      simp
  rw [whileC_succ, trace_bind _ _ hr, ht]
  simp only [List.append_assoc, List.cons_append]

/-- The loop writes block 0 first, if it writes at all. -/
theorem wide_low (cfg : Cfg) (hn : 2 ≤ n) (hm : 0 < m) (e : Aeu m) (d : Aeu n) {K : Nat}
    (hK : (filledBlocksNumber e).run = .ok K) (hKn : K ≤ m) (hw : K * 32 < 2 ^ 32) : ∀ f i (out b : Aeu n), i ≤ K * 32 →
      LowFirst (Counted.whileC f (BitVec.ofNat 32 i, out, b) (powRoundT cfg e d)).trace ∧
      (f = 0 ∨ Top m (Counted.whileC f (BitVec.ofNat 32 i, out, b) (powRoundT cfg e d)).trace)
  | 0, i, out, b, _ => ⟨LowFirst.nil, Or.inl rfl⟩
  | f + 1, i, out, b, hi => by
    rcases Nat.eq_or_lt_of_le hi with rfl | hlt
    · rw [wide_end cfg hm e d out b hK hw f]
      have := LowFirst.reads (down_reads (K - 1) (m - (K - 1))) LowFirst.nil
      rw [List.append_nil] at this
      exact ⟨this, Or.inr (scan_head (by omega))⟩
    · obtain ⟨p1, q1, p2, q2, hp1, hq1, hp2, hq2, ht⟩ := wide_next cfg (by omega) hm e d out b hK hKn hlt hw
      rw [ht f]
      obtain ⟨t, hs⟩ := scan_head (n := m) (p := K - 1) (by omega)
      refine ⟨LowFirst.reads (down_reads _ _) (LowFirst.read ?_), Or.inr ?_⟩
      · have hrec := fun o b' => (wide_low cfg hn hm e d hK hKn hw f (i + 1) o b' (by omega)).1
        split
        · rw [List.append_assoc]
          exact lowFirst_product cfg hn out b p1 d hp1 (lowFirst_product cfg hn b b p2 d hp2 (hrec _ _))
        · rw [List.nil_append]
          exact lowFirst_product cfg hn b b p2 d hp2 (hrec _ _)
      · rw [hs]; exact ⟨_, by simp only [List.cons_append]; rfl⟩

/-- The accesses of the loop tell the bits of the exponent. -/
theorem wide_tell (cfg : Cfg) (hn : 2 ≤ n) (hnm : n < m) (hw : 32 * m < 2 ^ 32) (e e' : Aeu m) (d : Aeu n) {K K' : Nat}
    (hK : (filledBlocksNumber e).run = .ok K) (hK' : (filledBlocksNumber e').run = .ok K') (hKn : K ≤ m) (hKn' : K' ≤ m)
    (he : toNat e < 2 ^ (32 * K)) (he' : toNat e' < 2 ^ (32 * K')) : ∀ f i (out b : Aeu n), i ≤ K * 32 → i ≤ K' * 32 →
      32 * m + 1 ≤ i + f →
      (Counted.whileC f (BitVec.ofNat 32 i, out, b) (powRoundT cfg e d)).trace =
        (Counted.whileC f (BitVec.ofNat 32 i, out, b) (powRoundT cfg e' d)).trace →
      ∀ j, i ≤ j → (toNat e).testBit j = (toNat e').testBit j
  | 0, i, out, b, h1, h2, h3 => by omega
  | f + 1, i, out, b, h1, h2, h3 => fun h j hj => by
    have top2 : ∀ (c : Bool) (x y p q : Aeu n) (Z : List Touch),
        Prod n ((if c = true then (mul x y).trace ++ (divide cfg p d).trace else []) ++
          ((mul y y).trace ++ ((divide cfg q d).trace ++ Z))) := fun c x y p q Z => by
      cases c with
      | true => rw [if_pos rfl, List.append_assoc]; exact product_prod cfg hn x y p d _
      | false => simp only [Bool.false_eq_true, if_false, List.nil_append]; exact product_prod cfg hn y y q d _
    rcases Nat.eq_or_lt_of_le h1 with e1 | l1 <;> rcases Nat.eq_or_lt_of_le h2 with e2 | l2
    · have z1 : (toNat e).testBit j = false := Nat.testBit_lt_two_pow
        (lt_of_lt_of_le he (Nat.pow_le_pow_right (by norm_num) (by omega)))
      have z2 : (toNat e').testBit j = false := Nat.testBit_lt_two_pow
        (lt_of_lt_of_le he' (Nat.pow_le_pow_right (by norm_num) (by omega)))
      rw [z1, z2]
    · obtain ⟨p1, q1, p2, q2, -, -, -, -, ht⟩ :=
        wide_next cfg (by omega) (by omega) e' d out b hK' hKn' l2 (by omega)
      have := wide_end cfg (show 0 < m by omega) e d out b hK (by omega) f
      rw [← e1] at this
      rw [this, ht f] at h
      exact absurd h (wide_end_not_test (top2 _ _ _ _ _ _))
    · obtain ⟨p1, q1, p2, q2, -, -, -, -, ht⟩ :=
        wide_next cfg (by omega) (by omega) e d out b hK hKn l1 (by omega)
      have := wide_end cfg (show 0 < m by omega) e' d out b hK' (by omega) f
      rw [← e2] at this
      rw [this, ht f] at h
      exact absurd h.symm (wide_end_not_test (top2 _ _ _ _ _ _))
    · obtain ⟨p1, q1, p2, q2, hp1, hq1, hp2, hq2, ht⟩ :=
        wide_next cfg (by omega) (by omega) e d out b hK hKn l1 (by omega)
      obtain ⟨p1', q1', p2', q2', hp1', hq1', hp2', hq2', ht'⟩ :=
        wide_next cfg (by omega) (by omega) e' d out b hK' hKn' l2 (by omega)
      have x1 : p1 = p1' := Except.ok.inj (hp1.symm.trans hp1')
      have x2 : p2 = p2' := Except.ok.inj (hp2.symm.trans hp2')
      subst x1; subst x2
      have x3 : q1 = q1' := Except.ok.inj (hq1.symm.trans hq1')
      have x4 : q2 = q2' := Except.ok.inj (hq2.symm.trans hq2')
      subst x3; subst x4
      rw [ht f, ht' f] at h
      have hX := wide_test_split hn (by omega) (by omega) (show i / 32 ≤ K - 1 by omega) (show i / 32 ≤ K' - 1 by omega)
        (top2 _ _ _ _ _ _) (top2 _ _ _ _ _ _) h
      -- one execution has the product here, the other has not
      have differ : ∀ (c c' : Aeu m) (k k' : Nat) (o o' : Aeu n), (filledBlocksNumber c).run = .ok k → k ≤ m →
          i + 1 ≤ k * 32 → (filledBlocksNumber c').run = .ok k' → k' ≤ m → i + 1 ≤ k' * 32 →
          (mul out b).trace ++ (divide cfg p1 d).trace ++ ((mul b b).trace ++ ((divide cfg p2 d).trace ++
            (Counted.whileC f (BitVec.ofNat 32 (i + 1), o, q2.2) (powRoundT cfg c d)).trace)) ≠
          (mul b b).trace ++ ((divide cfg p2 d).trace ++
            (Counted.whileC f (BitVec.ofNat 32 (i + 1), o', q2.2) (powRoundT cfg c' d)).trace) := by
        intro c c' k k' o o' hk hkm hik hk' hkm' hik' heq
        rw [List.append_assoc] at heq
        have dtop : ∀ (x y : Aeu n) (Z : List Touch), Top n ((divide cfg x y).trace ++ Z) := fun x y Z => by
          obtain ⟨t, ht⟩ := divide_head cfg hn x y Z
          exact ⟨_, ht⟩
        have heq := mul_split hn out b b (dtop _ _ _) (dtop _ _ _) heq
        have low1 : LowFirst ((mul b b).trace ++ ((divide cfg p2 d).trace ++
            (Counted.whileC f (BitVec.ofNat 32 (i + 1), o, q2.2) (powRoundT cfg c d)).trace)) :=
          lowFirst_product cfg hn b b p2 d hp2
            (wide_low cfg hn (by omega) c d hk hkm (by omega) f (i + 1) o q2.2 hik).1
        have low2 := wide_low cfg hn (by omega) c' d hk' hkm' (by omega) f (i + 1) o' q2.2 hik'
        obtain ⟨u, hu⟩ := low2.2.resolve_left (by omega)
        have at2 : AtTop n (Counted.whileC f (BitVec.ofNat 32 (i + 1), o', q2.2) (powRoundT cfg c' d)).trace :=
          Or.inr ⟨m - 1, u, by omega, hu⟩
        have top := (product_prod cfg hn b b p2 d
          (Counted.whileC f (BitVec.ofNat 32 (i + 1), o, q2.2) (powRoundT cfg c d)).trace).top
        have heq := (trace_divide_split cfg hn p1 d p2 d (AtTop.of_top top).next at2.next
          (Or.inl ⟨AtTop.of_top top, low1⟩) (Or.inl ⟨at2, low2.1⟩) heq).1
        obtain ⟨v, hv⟩ := top
        rw [hv, hu] at heq
        simp only [List.cons.injEq, Touch.mk.injEq, true_and] at heq
        omega
      by_cases b1 : (toNat e).testBit i = true <;> by_cases b2 : (toNat e').testBit i = true
      · simp only [b1, b2, if_true, List.append_cancel_left_eq] at hX
        rcases Nat.eq_or_lt_of_le hj with rfl | hlt
        · rw [b1, b2]
        · exact wide_tell cfg hn hnm hw e e' d hK hK' hKn hKn' he he' f (i + 1) _ _ (by omega) (by omega) (by omega) hX j hlt
      · simp only [b1, b2, if_true, if_false, Bool.false_eq_true, List.nil_append] at hX
        exact absurd hX (differ e e' K K' _ _ hK hKn (by omega) hK' hKn' (by omega))
      · simp only [b1, b2, if_true, if_false, Bool.false_eq_true, List.nil_append] at hX
        exact absurd hX.symm (differ e' e K' K _ _ hK' hKn' (by omega) hK hKn (by omega))
      · simp only [b1, b2, if_false, Bool.false_eq_true, List.nil_append, List.append_cancel_left_eq] at hX
        rcases Nat.eq_or_lt_of_le hj with rfl | hlt
        · rw [Bool.eq_false_iff.mpr b1, Bool.eq_false_iff.mpr b2]
        · exact wide_tell cfg hn hnm hw e e' d hK hK' hKn hKn' he he' f (i + 1) _ _ (by omega) (by omega) (by omega) hX j hlt

end Work

open Work
variable {n m : Nat}

/-- C117: the same for `powm<m>` with an exponent of a larger precision, unless the base is 0 or 1. -/
theorem C117_exponent_wide (cfg : Cfg) (hn : 2 ≤ n) (hnm : n < m) (hw : 32 * m < 2 ^ 32) (base d : Aeu n) (e e' : Aeu m)
    (hb : 2 ≤ toNat base) (h : (Work.powmT cfg base e d).trace = (Work.powmT cfg base e' d).trace) :
    toNat e = toNat e' := by
  obtain ⟨one, h1, -⟩ := ofUnsigned32_one (n := n) (by omega)
  have hr : (Work.ofUnsigned n (1#32)).run = .ok one := by rw [run_ofUnsigned]; exact h1
  obtain ⟨qb, hq⟩ := divide_run cfg (show 0 < n by omega) base d
  have t1 : (Work.eqNarrow base (1#32)).run = .ok false := by
    rw [run_eqNarrow, eqNarrow_spec (by omega) (by omega)]
    simp; omega
  have t0 : (Work.eqNarrow base (0#32)).run = .ok false := by
    rw [run_eqNarrow, eqNarrow_spec (by omega) (by omega)]
    simp; omega
  have ht : ∀ x : Aeu m, ∃ P, (Work.powmT cfg base x d).trace = P ++
      (Counted.whileC (32 * m + 1) (BitVec.ofNat 32 0, one, qb.2) (powRoundT cfg x d)).trace ∧
      P = (Work.eqNarrow base (1#32)).trace ++ ((Work.eqNarrow base (0#32)).trace ++ ((Work.ofUnsigned n (1#32)).trace ++
        (Work.divide cfg base d).trace)) := by
    intro x
    refine ⟨_, ?_, rfl⟩
    unfold Work.powmT
    rw [trace_bind _ _ t1]
    simp only [Bool.false_eq_true, if_false]
    rw [trace_bind _ _ t0]
    simp only [Bool.false_eq_true, if_false]
    rw [trace_bind _ _ hr, trace_bind _ _ hq]
    simp only [List.append_assoc]
    rfl
  obtain ⟨P, hP, hp⟩ := ht e
  obtain ⟨P', hP', hp'⟩ := ht e'
  rw [hP, hP', hp, hp'] at h
  have h := List.append_cancel_left h
  obtain ⟨K, hK, hKn, hv, -⟩ := filled_run e
  obtain ⟨K', hK', hKn', hv', -⟩ := filled_run e'
  exact Nat.eq_of_testBit_eq fun j => wide_tell cfg hn hnm hw e e' d hK hK' hKn hKn' hv hv' (32 * m + 1) 0 one qb.2
    (by omega) (by omega) (by omega) h j (by omega)

/-- For the bases 0 and 1 `powm<m>` does not look at the exponent. -/
theorem C117_exponent_hidden (cfg : Cfg) (hn : 0 < n) (base d : Aeu n) (e e' : Aeu m) (hb : toNat base ≤ 1) :
    (Work.powmT cfg base e d).trace = (Work.powmT cfg base e' d).trace := by
  unfold Work.powmT
  have t1 : (Work.eqNarrow base (1#32)).run = .ok (decide (toNat base = 1)) := by
    rw [run_eqNarrow, eqNarrow_spec (by omega) (by omega)]
    simp
  have t0 : (Work.eqNarrow base (0#32)).run = .ok (decide (toNat base = 0)) := by
    rw [run_eqNarrow, eqNarrow_spec (by omega) (by omega)]
    simp
  rw [trace_bind _ _ t1, trace_bind _ _ t1]
  by_cases h1 : toNat base = 1
  · simp only [h1, decide_true, if_true]
  · have h0 : toNat base = 0 := by omega
    simp only [h1, decide_false, Bool.false_eq_true, if_false]
    rw [trace_bind _ _ t0, trace_bind _ _ t0]
    simp only [h0, decide_true, if_true]

/-- The exponents 5 and 6 of 96 bits, base and modulus of 64 bits. -/
example (cfg : Cfg) : (Work.powmT cfg (ofNat 2 3) (ofNat 3 5) (ofNat 2 7)).trace ≠
    (Work.powmT cfg (ofNat 2 3) (ofNat 3 6) (ofNat 2 7)).trace := fun h => by
  have h3 : toNat (ofNat 2 3) = 3 := by decide +kernel
  have h1 := C117_exponent_wide cfg (by omega) (by omega) (by omega) _ _ _ _ (by omega) h
  have h2 : toNat (ofNat 3 5) = 5 ∧ toNat (ofNat 3 6) = 6 := by decide +kernel
  omega

end AesiMP
