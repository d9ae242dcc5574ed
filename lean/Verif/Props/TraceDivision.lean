import Verif.Props.Trace

/-!
# C117: the blocks a division touches tell its quotient
-/

namespace AesiMP
open Aeu Counted

namespace Counted
variable {α β : Type}

theorem trace_bind_prefix (x : Counted α) (f : α → Counted β) : ∃ t, (x >>= f).trace = x.trace ++ t := by
  cases h : x.run with
  | ok a => exact ⟨_, trace_bind x f h⟩
  | error e =>
    refine ⟨[], ?_⟩
    show (Counted.bind x f).trace = _
    unfold Counted.bind
    rw [h]; simp

end Counted

namespace Work
variable {n : Nat}

/-- What can follow a comparison: nothing, a write, a read of the top block (or of a block beyond it, in an object of a
larger precision), the read and write of block 0 by which a subtraction begins, or the reads of blocks 1 and 0 by which
a conversion to a built-in begins. -/
def Fresh (n : Nat) (t : List Touch) : Prop :=
  t = [] ∨ (∃ i t', t = ⟨true, i⟩ :: t') ∨ (∃ j t', n - 1 ≤ j ∧ t = ⟨false, j⟩ :: t') ∨
    (∃ t', t = ⟨false, 0⟩ :: ⟨true, 0⟩ :: t') ∨ ∃ t', t = ⟨false, 1⟩ :: ⟨false, 0⟩ :: t'

private theorem not_fresh {j : Nat} (hj : j < n - 1) {t : List Touch} :
    ¬ Fresh n (⟨false, j⟩ :: ⟨false, j⟩ :: t) := by
  rintro (h | ⟨i, t', h⟩ | ⟨i, t', hi, h⟩ | ⟨t', h⟩ | ⟨t', h⟩)
  · simp at h
  · simp at h
  · simp only [List.cons.injEq, Touch.mk.injEq, true_and] at h; omega
  · simp at h
  · simp only [List.cons.injEq, Touch.mk.injEq, true_and] at h; omega

theorem cmp_split (cfg : Cfg) (a b a' b' : Aeu n) {X X' : List Touch} (hX : Fresh n X) (hX' : Fresh n X') :
    (compareTo cfg a b).trace ++ X = (compareTo cfg a' b').trace ++ X' → X = X' := by
  rw [trace_compareTo, trace_compareTo]
  have key : ∀ k, k ≤ n → (cmpLoop cfg a b k).trace ++ X = (cmpLoop cfg a' b' k).trace ++ X' → X = X' := by
    intro k
    induction k with
    | zero =>
      intro _ h
      have e : ∀ x y : Aeu n, (cmpLoop cfg x y 0).trace = [] := fun _ _ => rfl
      rwa [e, e, List.nil_append, List.nil_append] at h
    | succ k ih =>
      intro hk h
      rw [cmpLoop_succ cfg a b (by omega), cmpLoop_succ cfg a' b' (by omega)] at h
      simp only [List.cons_append, List.cons.injEq, true_and] at h
      have z : ∀ x y : Aeu n, k = 0 → (cmpLoop cfg x y k).trace = [] := fun x y h0 => by subst h0; rfl
      by_cases h1 : a[k] = b[k] <;> by_cases h2 : a'[k] = b'[k]
      · simp only [h1, h2, ne_eq, not_true_eq_false, if_false] at h
        exact ih (by omega) h
      · simp only [h1, h2, ne_eq, not_true_eq_false, if_false, not_false_eq_true, if_true, List.nil_append] at h
        by_cases h0 : k = 0
        · rw [z a b h0] at h; exact h
        · obtain ⟨j, rfl⟩ : ∃ j, k = j + 1 := ⟨k - 1, by omega⟩
          rw [cmpLoop_succ cfg a b (by omega)] at h
          rw [← h] at hX'
          exact absurd hX' (not_fresh (by omega))
      · simp only [h1, h2, ne_eq, not_true_eq_false, if_false, not_false_eq_true, if_true, List.nil_append] at h
        by_cases h0 : k = 0
        · rw [z a' b' h0] at h; exact h
        · obtain ⟨j, rfl⟩ : ∃ j, k = j + 1 := ⟨k - 1, by omega⟩
          rw [cmpLoop_succ cfg a' b' (by omega)] at h
          rw [h] at hX
          exact absurd hX (not_fresh (by omega))
      · simp only [h1, h2, ne_eq, not_false_eq_true, if_true, List.nil_append] at h
        exact h
  exact key n (le_refl n)

theorem shl_head (hn : 2 ≤ n) (a : Aeu n) :
    ∃ t, (shl a 1).trace = ⟨false, n - 1⟩ :: ⟨false, n - 2⟩ :: ⟨true, n - 1⟩ :: t := by
  unfold shl
  rw [if_neg (by omega)]
  obtain ⟨v, hv⟩ : ∃ v, shl64 1#64 (32 - 1 % 32) = .ok v := ⟨_, by simp only [shl64]; rw [if_pos (by norm_num)]⟩
  simp only
  rw [trace_bind _ _ (a := v) (by rw [run_lift]; exact hv)]
  obtain ⟨t, ht⟩ := trace_bind_prefix (Counted.forDown n (1 / 32 + (if 1 % 32 ≠ 0 then 1 else 0)) a
    fun i value => do
      let a ← Counted.rd value (i - 1 / 32)
      let hiPart ← Counted.lift (shl32 (a &&& toBlock (v - 1#64)) (1 % 32))
      let b ← Counted.rd value (i - 1 / 32 - (if 1 % 32 ≠ 0 then 1 else 0))
      let loPart ← Counted.lift (shr32 (b &&& ~~~ toBlock (v - 1#64)) ((32 - 1 % 32) % 32))
      Counted.wr value i (hiPart ||| loPart)) fun value => do
    let b0 ← Counted.rd value 0
    let low ← Counted.lift (shl32 (b0 &&& toBlock (v - 1#64)) (1 % 32))
    let value ← Counted.wr value (1 / 32) low
    Counted.forUp 0 (1 / 32) value fun i value => Counted.wr value i 0#32
  rw [ht]
  unfold Counted.forDown
  have hk : n - (1 / 32 + (if 1 % 32 ≠ 0 then 1 else 0)) = (n - 2) + 1 := by simp; omega
  rw [hk, Counted.forDownN]
  obtain ⟨t2, h2⟩ := trace_bind_prefix (do
      let a' ← Counted.rd a (1 / 32 + (if 1 % 32 ≠ 0 then 1 else 0) + (n - 2) - 1 / 32)
      let hiPart ← Counted.lift (shl32 (a' &&& toBlock (v - 1#64)) (1 % 32))
      let b ← Counted.rd a (1 / 32 + (if 1 % 32 ≠ 0 then 1 else 0) + (n - 2) - 1 / 32 - (if 1 % 32 ≠ 0 then 1 else 0))
      let loPart ← Counted.lift (shr32 (b &&& ~~~ toBlock (v - 1#64)) ((32 - 1 % 32) % 32))
      Counted.wr a (1 / 32 + (if 1 % 32 ≠ 0 then 1 else 0) + (n - 2)) (hiPart ||| loPart)) fun s' =>
    Counted.forDownN (1 / 32 + (if 1 % 32 ≠ 0 then 1 else 0)) (fun i value => do
      let a ← Counted.rd value (i - 1 / 32)
      let hiPart ← Counted.lift (shl32 (a &&& toBlock (v - 1#64)) (1 % 32))
      let b ← Counted.rd value (i - 1 / 32 - (if 1 % 32 ≠ 0 then 1 else 0))
      let loPart ← Counted.lift (shr32 (b &&& ~~~ toBlock (v - 1#64)) ((32 - 1 % 32) % 32))
      Counted.wr value i (hiPart ||| loPart)) (n - 2) s'
  rw [h2]
  have e : 1 / 32 + (if 1 % 32 ≠ 0 then 1 else 0) + (n - 2) - 1 / 32 = n - 1 := by simp; omega
  have e' : n - 1 - (if 1 % 32 ≠ 0 then 1 else 0) = n - 2 := by simp; omega
  have e'' : 1 / 32 + (if 1 % 32 ≠ 0 then 1 else 0) + (n - 2) = n - 1 := by simp; omega
  have hr : ∀ j (hj : j < n), (Counted.rd a j).run = .ok a[j] := fun j hj => by
    rw [run_rd]; simp only [AesiMP.rd]; rw [dif_pos hj]
  have hl : ∀ x : Block, (Counted.lift (shl32 x (1 % 32))).run = .ok (x <<< 1) := fun x => by
    rw [run_lift]; simp only [shl32]; rw [if_pos (by norm_num)]
  have hl' : ∀ x : Block, (Counted.lift (shr32 x ((32 - 1 % 32) % 32))).run = .ok (x >>> 31) := fun x => by
    rw [run_lift]; simp only [shr32]; rw [if_pos (by norm_num)]
  rw [e, e', e'', trace_bind _ _ (hr (n - 1) (by omega)), trace_bind _ _ (hl _),
    trace_bind _ _ (hr (n - 2) (by omega)), trace_bind _ _ (hl' _)]
  exact ⟨t2 ++ t, by simp [Counted.lift, Counted.rd, Counted.wr]⟩

theorem neg_head (hn : 0 < n) (a : Aeu n) : ∃ t, (neg a).trace = ⟨false, 0⟩ :: ⟨true, 0⟩ :: t := by
  unfold neg
  obtain ⟨t, ht⟩ := trace_bind_prefix (makeComplement a) fun r => (pure r.1 : Counted (Aeu n))
  rw [ht]
  unfold makeComplement Counted.forUp
  obtain ⟨k, rfl⟩ : ∃ k, n = k + 1 := ⟨n - 1, by omega⟩
  rw [show k + 1 - 0 = k + 1 by omega, Counted.forUpN]
  obtain ⟨t1, h1⟩ := trace_bind_prefix (do
      let b ← Counted.rd a 0
      let sum := blockBase - 1#64 - toU64 b + 1#64
      let line ← Counted.wr a 0 (toBlock (sum % blockBase))
      pure (line, sum / blockBase)) fun s' => Counted.forUpN (fun i (line, carryOut) => do
    let b ← Counted.rd line i
    let sum := blockBase - 1#64 - toU64 b + carryOut
    let line ← Counted.wr line i (toBlock (sum % blockBase))
    pure (line, sum / blockBase)) k (0 + 1) s'
  have hr : AesiMP.rd a 0 = .ok a[0] := by simp only [AesiMP.rd]; rw [dif_pos (by omega)]
  refine ⟨t1 ++ t, ?_⟩
  simp only at h1 ⊢
  rw [h1, trace_bind _ _ (a := a[0]) (by rw [run_rd]; exact hr)]
  obtain ⟨t2, h2⟩ := trace_bind_prefix (Counted.wr a 0 (toBlock ((blockBase - 1#64 - toU64 a[0] + 1#64) % blockBase)))
    fun line => (pure (line, (blockBase - 1#64 - toU64 a[0] + 1#64) / blockBase) : Counted (Aeu (k + 1) × U64))
  obtain ⟨w, hw⟩ := (Takes.wr a (toBlock ((blockBase - 1#64 - toU64 a[0] + 1#64) % blockBase))
    (show 0 < k + 1 by omega)).2
  rw [trace_bind _ _ hw]
  show [_] ++ ([_] ++ []) ++ t1 ++ t = _
  simp

/-- One round of the division loop. -/
def round (cfg : Cfg) (number divisor : Aeu n) (i : Nat) : Aeu n × Aeu n → Counted (Aeu n × Aeu n) :=
  fun (quotient, remainder) => do
      let remainder ← shl remainder 1
      let bit ← getBit cfg number i
      let remainder ← setBit cfg remainder 0 bit
      let g ← ge cfg remainder divisor
      if g then do
        let remainder ← sub remainder divisor
        let quotient ← setBit cfg quotient i true
        pure (quotient, remainder)
      else pure (quotient, remainder)

/-- What one round does: a fixed beginning, a comparison, then a subtraction and a bit or nothing. -/
theorem round_spec (cfg : Cfg) (hn : 0 < n) (a b q r : Aeu n) {i : Nat} (hi : i < 32 * n) :
    ∃ r1 r2 q3 r3 g bit, (shl r 1).run = .ok r1 ∧ (getBit cfg a i).run = .ok bit ∧
      (setBit cfg r1 0 bit).run = .ok r2 ∧ (sub r2 b).run = .ok r3 ∧ (setBit cfg q i true).run = .ok q3 ∧
      (round cfg a b i (q, r)).run = .ok (if g = true then (q3, r3) else (q, r2)) ∧
      (round cfg a b i (q, r)).trace = (shl r 1).trace ++ ((getBit cfg a i).trace ++ ((setBit cfg r1 0 bit).trace ++
        ((compareTo cfg r2 b).trace ++ if g = true then (sub r2 b).trace ++ (setBit cfg q i true).trace else []))) := by
  obtain ⟨r1, h1⟩ := (same_shl r r 1).2.1
  obtain ⟨bit, h2⟩ := (same_getBit cfg a a hi).2.1
  obtain ⟨r2, h3⟩ := (same_setBit cfg r1 r1 (show 0 < 32 * n by omega) bit bit).2.1
  obtain ⟨r3, h5⟩ := (same_sub r2 b r2 b).2.1
  obtain ⟨q3, h6⟩ := (same_setBit cfg q q hi true true).2.1
  obtain ⟨c, hc⟩ : ∃ c, (compareTo cfg r2 b).run = .ok c := ⟨_, by rw [run_compareTo, compareTo_spec]⟩
  have h4 : (ge cfg r2 b).run = .ok (toOrdering c != .less) := by
    unfold ge; rw [run_bind, hc, ok_bind]; rfl
  have h4' : (ge cfg r2 b).trace = (compareTo cfg r2 b).trace := by
    unfold ge; rw [trace_bind _ _ hc]; exact List.append_nil _
  refine ⟨r1, r2, q3, r3, toOrdering c != .less, bit, h1, h2, h3, h5, h6, ?_, ?_⟩
  · unfold round
    simp only [run_bind, h1, ok_bind, h2, h3, h4, run_ite, h5, h6, run_pure]
    split <;> rfl
  · unfold round
    simp only
    rw [trace_bind _ _ h1, trace_bind _ _ h2, trace_bind _ _ h3, trace_bind _ _ h4, h4']
    congr 4
    by_cases hg : (toOrdering c != .less) = true
    · rw [if_pos hg, if_pos hg, trace_bind _ _ h5, trace_bind _ _ h6]
      congr 1; exact List.append_nil _
    · rw [if_neg hg, if_neg hg]; rfl

/-- What can follow the rounds: nothing, or a read of the top block, or of a block beyond it. -/
def AtTop (n : Nat) (t : List Touch) : Prop := t = [] ∨ ∃ j t', n - 1 ≤ j ∧ t = ⟨false, j⟩ :: t'

theorem AtTop.of_top {t : List Touch} (h : ∃ t', t = ⟨false, n - 1⟩ :: t') : AtTop n t := by
  obtain ⟨t', rfl⟩ := h
  exact Or.inr ⟨_, _, le_refl _, rfl⟩

/-- The same, or a write, or the reads of blocks 1 and 0 by which a conversion to a built-in begins. -/
def Next (n : Nat) (t : List Touch) : Prop :=
  (∃ i t', t = ⟨true, i⟩ :: t') ∨ AtTop n t ∨ ∃ t', t = ⟨false, 1⟩ :: ⟨false, 0⟩ :: t'

theorem AtTop.next {t : List Touch} (h : AtTop n t) : Next n t := Or.inr (Or.inl h)

theorem Next.fresh {t : List Touch} (h : Next n t) : Fresh n t := by
  rcases h with h | (h | h) | h
  · exact Or.inr (Or.inl h)
  · exact Or.inl h
  · exact Or.inr (Or.inr (Or.inl h))
  · exact Or.inr (Or.inr (Or.inr (Or.inr h)))

theorem rounds_tell (cfg : Cfg) (hn : 2 ≤ n) (a b a' b' : Aeu n) : ∀ k, k ≤ 32 * n →
    ∀ q r r' : Aeu n, (∃ v, (Counted.forDownN 0 (round cfg a b) k (q, r)).run = .ok v) ∧
      (k = 0 ∨ ∃ t, (Counted.forDownN 0 (round cfg a b) k (q, r)).trace =
        ⟨false, n - 1⟩ :: ⟨false, n - 2⟩ :: ⟨true, n - 1⟩ :: t) ∧
      ∀ Y Y', Next n Y → Next n Y' → (Counted.forDownN 0 (round cfg a b) k (q, r)).trace ++ Y =
          (Counted.forDownN 0 (round cfg a' b') k (q, r')).trace ++ Y' →
        Y = Y' ∧ ∃ x y y', (Counted.forDownN 0 (round cfg a b) k (q, r)).run = .ok (x, y) ∧
          (Counted.forDownN 0 (round cfg a' b') k (q, r')).run = .ok (x, y')
  | 0, _, q, r, r' => ⟨⟨_, rfl⟩, Or.inl rfl, fun _ _ _ _ h => ⟨h, q, r, r', rfl, rfl⟩⟩
  | k + 1, hk, q, r, r' => by
    obtain ⟨r1, r2, q3, r3, g, bit, h1, h2, h3, h5, h6, hrun, htr⟩ :=
      round_spec cfg (by omega) a b q r (i := 0 + k) (by omega)
    obtain ⟨r1', r2', q3', r3', g', bit', h1', h2', h3', h5', h6', hrun', htr'⟩ :=
      round_spec cfg (by omega) a' b' q r' (i := 0 + k) (by omega)
    have eq3 : q3 = q3' := Except.ok.inj (h6.symm.trans h6')
    subst eq3
    simp only [Counted.forDownN]
    rw [trace_bind _ _ hrun, trace_bind _ _ hrun', run_bind, run_bind, hrun, hrun', ok_bind, ok_bind]
    refine ⟨?_, Or.inr ?_, fun Y Y' hYt hYt' h => ?_⟩
    · split
      · exact (rounds_tell cfg hn a b a' b' k (by omega) _ _ r').1
      · exact (rounds_tell cfg hn a b a' b' k (by omega) _ _ r').1
    · obtain ⟨t, ht⟩ := shl_head hn r
      rw [htr, ht]
      exact ⟨_, by simp only [List.cons_append]; rfl⟩
    · rw [htr, htr', (same_shl r r' 1).1, (same_getBit cfg a a' (show 0 + k < 32 * n by omega)).1,
        (same_setBit cfg r1 r1' (show 0 < 32 * n by omega) bit bit').1] at h
      simp only [List.append_assoc, List.append_cancel_left_eq] at h
      have fr : ∀ (c d s u x : Aeu n) (b : Bool) (Z : List Touch), Next n Z →
          Fresh n ((if b = true then (sub c d).trace ++
          (setBit cfg q (0 + k) true).trace else []) ++
          ((Counted.forDownN 0 (round cfg s u) k (if b = true then (q3, x) else (q, c))).trace ++ Z)) := by
        intro c d s u x b Z hZ
        cases b with
        | true =>
          refine Or.inr (Or.inr (Or.inr (Or.inl ?_)))
          obtain ⟨t, ht⟩ := neg_head (by omega : 0 < n) d
          obtain ⟨t', ht'⟩ := trace_bind_prefix (neg d) fun m => add c m
          have e : (sub c d).trace = ⟨false, 0⟩ :: ⟨true, 0⟩ :: (t ++ t') := by
            rw [show sub c d = neg d >>= fun m => add c m from rfl, ht', ht]; rfl
          rw [if_pos rfl, e]
          exact ⟨_, by simp only [List.cons_append]; rfl⟩
        | false =>
          simp only [Bool.false_eq_true, if_false, List.nil_append]
          rcases (rounds_tell cfg hn s u s u k (by omega) q c c).2.1 with rfl | ⟨t, ht⟩
          · exact hZ.fresh
          · rw [ht]
            exact Or.inr (Or.inr (Or.inl ⟨n - 1, _, le_refl _, by simp only [List.cons_append]; rfl⟩))
      have hX := cmp_split cfg r2 b r2' b' (fr r2 b a b r3 g Y hYt) (fr r2' b' a' b' r3' g' Y' hYt') h
      have nosub : ∀ (c d s u x : Aeu n) (t Z : List Touch), Next n Z → (sub c d).trace ++ t ≠
          (Counted.forDownN 0 (round cfg s u) k (q, x)).trace ++ Z := by
        intro c d s u x t Z hZ he
        obtain ⟨t1, ht1⟩ := neg_head (by omega : 0 < n) d
        obtain ⟨t', ht'⟩ := trace_bind_prefix (neg d) fun m => add c m
        have e : (sub c d).trace = ⟨false, 0⟩ :: ⟨true, 0⟩ :: (t1 ++ t') := by
          rw [show sub c d = neg d >>= fun m => add c m from rfl, ht', ht1]; rfl
        rw [e] at he
        rcases (rounds_tell cfg hn s u s u k (by omega) q x x).2.1 with h0 | ⟨t2, ht2⟩
        · subst h0
          have : (Counted.forDownN 0 (round cfg s u) 0 (q, x)).trace = [] := rfl
          rw [this] at he
          rcases hZ with ⟨i, z, rfl⟩ | (rfl | ⟨i, z, hi, rfl⟩) | ⟨z, rfl⟩
          · simp at he
          · simp at he
          · simp only [List.cons_append, List.nil_append, List.cons.injEq, Touch.mk.injEq, true_and] at he
            omega
          · simp at he
        · rw [ht2] at he
          simp only [List.cons_append, List.cons.injEq, Touch.mk.injEq, true_and] at he
          omega
      cases g <;> cases g'
      · simp only [Bool.false_eq_true, if_false, List.nil_append] at hX ⊢
        exact (rounds_tell cfg hn a b a' b' k (by omega) q r2 r2').2.2 Y Y' hYt hYt' hX
      · simp only [Bool.false_eq_true, if_false, if_true, List.nil_append, List.append_assoc] at hX
        exact absurd hX.symm (nosub _ _ _ _ _ _ _ hYt)
      · simp only [Bool.false_eq_true, if_false, if_true, List.nil_append, List.append_assoc] at hX
        exact absurd hX (nosub _ _ _ _ _ _ _ hYt')
      · simp only [if_true] at hX ⊢
        rw [(same_sub r2 b r2' b').1] at hX
        simp only [List.append_assoc, List.append_cancel_left_eq] at hX
        exact (rounds_tell cfg hn a b a' b' k (by omega) q3 r3 r3').2.2 Y Y' hYt hYt' hX

/-! ### The length, then the rounds -/

/-- The scan of `filledBlocksNumber` over the blocks below `k`. -/
def fillLoop (a : Aeu n) (k : Nat) : Counted (Ctl Unit Nat) :=
  Counted.forDownCN 0 (fun i (_ : Unit) => do
    let b ← Counted.rd a i
    if b ≠ 0#32 then pure (Ctl.leave (i + 1)) else pure (Ctl.next ())) k ()

theorem fillLoop_succ (x : Aeu n) {j : Nat} (hj : j < n) :
    (fillLoop x (j + 1)).trace = ⟨false, j⟩ :: (if x[j] ≠ 0#32 then [] else (fillLoop x j).trace) ∧
    (fillLoop x (j + 1)).run = (if x[j] ≠ 0#32 then .ok (.leave (j + 1)) else (fillLoop x j).run) := by
  have hx : (Counted.rd x (0 + j)).run = .ok x[j] := by
    rw [run_rd, Nat.zero_add]; simp only [AesiMP.rd]; rw [dif_pos hj]
  unfold fillLoop
  rw [Counted.forDownCN]
  by_cases hz : x[j] ≠ 0#32
  · have e : (do
        let b ← Counted.rd x (0 + j)
        if b ≠ 0#32 then pure (Ctl.leave (0 + j + 1)) else pure (Ctl.next ()) : Counted (Ctl Unit Nat)).run =
        .ok (Ctl.leave (0 + j + 1)) := by rw [run_bind, hx, ok_bind, if_pos hz]; rfl
    refine ⟨?_, ?_⟩
    · rw [trace_bind _ _ e, trace_bind _ _ hx, if_pos hz, if_pos hz, Nat.zero_add]; rfl
    · rw [run_bind, e, ok_bind, if_pos hz, Nat.zero_add]; rfl
  · have e : (do
        let b ← Counted.rd x (0 + j)
        if b ≠ 0#32 then pure (Ctl.leave (0 + j + 1)) else pure (Ctl.next ()) : Counted (Ctl Unit Nat)).run =
        .ok (Ctl.next ()) := by rw [run_bind, hx, ok_bind, if_neg hz]; rfl
    refine ⟨?_, ?_⟩
    · rw [trace_bind _ _ e, trace_bind _ _ hx, if_neg hz, if_neg hz, Nat.zero_add]; rfl
    · rw [run_bind, e, ok_bind, if_neg hz]

theorem fill_split (a a' : Aeu n) {X X' : List Touch} (hX : ∃ t, X = ⟨false, n - 1⟩ :: t)
    (hX' : ∃ t, X' = ⟨false, n - 1⟩ :: t) : ∀ k, k ≤ n → (∃ i, ∃ h : i < n, i < k ∧ a[i] ≠ 0#32) →
      (∃ i, ∃ h : i < n, i < k ∧ a'[i] ≠ 0#32) →
      (fillLoop a k).trace ++ X = (fillLoop a' k).trace ++ X' →
      X = X' ∧ (fillLoop a k).run = (fillLoop a' k).run
  | 0, _, ⟨_, _, h, _⟩, _, _ => absurd h (by omega)
  | k + 1, hk, ⟨i, hi, hik, hne⟩, ⟨i', hi', hik', hne'⟩, h => by
    obtain ⟨t1, r1⟩ := fillLoop_succ a (show k < n by omega)
    obtain ⟨t2, r2⟩ := fillLoop_succ a' (show k < n by omega)
    rw [t1, t2] at h
    simp only [List.cons_append, List.cons.injEq, true_and] at h
    have clash : ∀ (x : Aeu n) (Y Y' : List Touch), (∃ t, Y = ⟨false, n - 1⟩ :: t) → k ≠ 0 →
        Y ≠ (fillLoop x k).trace ++ Y' := by
      rintro x Y Y' ⟨t, rfl⟩ h0 he
      obtain ⟨j, rfl⟩ : ∃ j, k = j + 1 := ⟨k - 1, by omega⟩
      rw [(fillLoop_succ x (show j < n by omega)).1] at he
      simp only [List.cons_append, List.cons.injEq, Touch.mk.injEq, true_and] at he
      omega
    rw [r1, r2]
    by_cases h1 : a[k] ≠ 0#32 <;> by_cases h2 : a'[k] ≠ 0#32
    · rw [if_pos h1, if_pos h2] at h ⊢
      exact ⟨h, rfl⟩
    · rw [if_pos h1, if_neg h2, List.nil_append] at h
      have hlt : i' < k := by
        rcases Nat.lt_succ_iff_lt_or_eq.mp hik' with hlt | rfl
        · exact hlt
        · exact absurd hne' h2
      exact absurd h (clash a' X X' hX (by omega))
    · rw [if_neg h1, if_pos h2, List.nil_append] at h
      have hlt : i < k := by
        rcases Nat.lt_succ_iff_lt_or_eq.mp hik with hlt | rfl
        · exact hlt
        · exact absurd hne h1
      exact absurd h.symm (clash a X' X hX' (by omega))
    · rw [if_neg h1, if_neg h2] at h ⊢
      refine fill_split a a' hX hX' k (by omega) ⟨i, hi, ?_, hne⟩ ⟨i', hi', ?_, hne'⟩ h
      · rcases Nat.lt_succ_iff_lt_or_eq.mp hik with hlt | rfl
        · exact hlt
        · exact absurd hne h1
      · rcases Nat.lt_succ_iff_lt_or_eq.mp hik' with hlt | rfl
        · exact hlt
        · exact absurd hne' h2

theorem filled_fillLoop (a : Aeu n) : (filledBlocksNumber a).trace = (fillLoop a n).trace ∧
    (filledBlocksNumber a).run = (fillLoop a n).run >>= fun r => .ok (match r with | .next _ => 0 | .leave k => k) := by
  have hd : filledBlocksNumber a = fillLoop a n >>= fun r =>
      match r with
      | .next _ => pure 0
      | .leave k => pure k := rfl
  obtain ⟨k, hk, -⟩ := filledBlocksNumber_nat a
  rw [hd]
  cases h : (fillLoop a n).run with
  | error e =>
    have : (filledBlocksNumber a).run = .ok k := by rw [run_filledBlocksNumber, hk]
    rw [hd, run_bind, h] at this
    simp at this
  | ok c =>
    rw [trace_bind _ _ h, run_bind, h, ok_bind, ok_bind]
    cases c with
    | next u => exact ⟨List.append_nil _, rfl⟩
    | leave k => exact ⟨List.append_nil _, rfl⟩

theorem block_ne (a : Aeu n) (h : toNat a ≠ 0) : ∃ i, ∃ hi : i < n, i < n ∧ a[i] ≠ 0#32 := by
  by_contra hc
  push Not at hc
  have : a = zero n := by
    refine Vector.ext fun i hi => ?_
    rw [hc i hi hi]; simp [zero]
  rw [this, toNat_zero] at h
  exact h rfl

/-- What a division touches after its first comparison. -/
def rest (cfg : Cfg) (a b : Aeu n) : Counted (Aeu n × Aeu n) :=
  match cmpNat (toNat a) (toNat b) with
  | .greater => do
    let f ← filledBlocksNumber a
    Counted.forDownN 0 (round cfg a b) (f * 32) (zero n, zero n)
  | .less => pure (zero n, a)
  | _ => do
    let one ← ofUnsigned n (1#32)
    pure (one, zero n)

theorem divide_rest (cfg : Cfg) (a b : Aeu n) :
    (divide cfg a b).trace = (compareTo cfg a b).trace ++ (rest cfg a b).trace ∧
    (divide cfg a b).run = (rest cfg a b).run := by
  have hc : (compareTo cfg a b).run = .ok (cmpNat (toNat a) (toNat b)) := by rw [run_compareTo, compareTo_spec]
  have hd : ∃ F : Comparison → Counted (Aeu n × Aeu n), divide cfg a b = compareTo cfg a b >>= F ∧
      F (cmpNat (toNat a) (toNat b)) = rest cfg a b := by
    refine ⟨_, rfl, ?_⟩
    unfold rest
    cases cmpNat (toNat a) (toNat b) <;> rfl
  obtain ⟨F, h1, h2⟩ := hd
  rw [h1, trace_bind _ _ hc, run_bind, hc, ok_bind, h2]
  exact ⟨rfl, rfl⟩

theorem one_head (hn : 0 < n) : ∃ t, (ofUnsigned n (1#32)).trace = ⟨true, 0⟩ :: t := by
  unfold ofUnsigned
  rw [if_pos (by decide)]
  obtain ⟨t, ht⟩ := trace_bind_prefix (Counted.forUp 0 n (zero n, (1#32).setWidth 64) fun i (blocks, tValue) => do
      let blocks ← Counted.wr blocks i (toBlock (tValue % blockBase))
      pure (blocks, tValue / blockBase)) fun r => (pure r.1 : Counted (Aeu n))
  rw [ht]
  unfold Counted.forUp
  obtain ⟨k, rfl⟩ : ∃ k, n = k + 1 := ⟨n - 1, by omega⟩
  rw [show k + 1 - 0 = k + 1 by omega, Counted.forUpN]
  obtain ⟨t1, h1⟩ := trace_bind_prefix (do
      let blocks ← Counted.wr (zero (k + 1)) 0 (toBlock ((1#32).setWidth 64 % blockBase))
      pure (blocks, (1#32).setWidth 64 / blockBase)) fun s' => Counted.forUpN (fun i (blocks, tValue) => do
      let blocks ← Counted.wr blocks i (toBlock (tValue % blockBase))
      pure (blocks, tValue / blockBase)) k (0 + 1) s'
  obtain ⟨t2, h2⟩ := trace_bind_prefix (Counted.wr (zero (k + 1)) 0 (toBlock ((1#32).setWidth 64 % blockBase)))
    fun blocks => (pure (blocks, (1#32).setWidth 64 / blockBase) : Counted (Aeu (k + 1) × U64))
  refine ⟨t2 ++ t1 ++ t, ?_⟩
  simp only at h1 h2 ⊢
  rw [h1, h2]
  show [_] ++ t2 ++ t1 ++ t = _
  simp

/-- The three ways a division goes on. -/
theorem rest_cases (cfg : Cfg) (hn : 2 ≤ n) (a b : Aeu n) :
    ((rest cfg a b).trace = [] ∧ (rest cfg a b).run = .ok (zero n, a)) ∨
    ((rest cfg a b).trace = (ofUnsigned n (1#32)).trace ∧ ∃ one, (ofUnsigned n (1#32)).run = .ok one ∧
      (rest cfg a b).run = .ok (one, zero n)) ∨
    (toNat a ≠ 0 ∧ ∃ K, 0 < K ∧ K ≤ n ∧ (filledBlocksNumber a).run = .ok K ∧
      (rest cfg a b).trace = (filledBlocksNumber a).trace ++
        (Counted.forDownN 0 (round cfg a b) (K * 32) (zero n, zero n)).trace ∧
      (rest cfg a b).run = (Counted.forDownN 0 (round cfg a b) (K * 32) (zero n, zero n)).run) := by
  unfold rest
  cases hc : cmpNat (toNat a) (toNat b) with
  | less => exact Or.inl ⟨rfl, rfl⟩
  | greater =>
    refine Or.inr (Or.inr ?_)
    have hpos : toNat a ≠ 0 := by
      unfold cmpNat at hc
      split at hc
      · cases hc
      · split at hc
        · cases hc
        · omega
    obtain ⟨k, hk, h1, h2, h3⟩ := filledBlocksNumber_nat a
    have hr : (filledBlocksNumber a).run = .ok k := by rw [run_filledBlocksNumber, hk]
    refine ⟨hpos, k, ?_, h1, hr, ?_, ?_⟩
    · by_contra h0
      have : k = 0 := by omega
      subst this
      simp at h2; omega
    · rw [trace_bind _ _ hr]
    · rw [run_bind, hr, ok_bind]
  | _ =>
    refine Or.inr (Or.inl ?_)
    obtain ⟨one, h1, -⟩ := ofUnsigned32_one (n := n) (by omega)
    have hr : (ofUnsigned n (1#32)).run = .ok one := by rw [run_ofUnsigned]; exact h1
    refine ⟨?_, one, hr, ?_⟩
    · rw [trace_bind _ _ hr]; exact List.append_nil _
    · rw [run_bind, hr, ok_bind]; rfl

/-- The first write, if any, is to block 0. -/
def LowFirst (t : List Touch) : Prop :=
  ∀ s i u, t = s ++ ⟨true, i⟩ :: u → (∀ x ∈ s, x.writes = false) → i = 0

theorem LowFirst.nil : LowFirst [] := fun s i u h _ => by simp at h

theorem LowFirst.read {j : Nat} {t : List Touch} (h : LowFirst t) : LowFirst (⟨false, j⟩ :: t) := by
  intro s i u he hs
  cases s with
  | nil => simp at he
  | cons x s =>
    simp only [List.cons_append, List.cons.injEq] at he
    exact h s i u he.2 fun y hy => hs y (List.mem_cons_of_mem _ hy)

theorem LowFirst.write {t : List Touch} : LowFirst (⟨true, 0⟩ :: t) := by
  intro s i u he hs
  cases s with
  | nil => simp only [List.nil_append, List.cons.injEq, Touch.mk.injEq, true_and] at he; exact he.1.symm
  | cons x s =>
    simp only [List.cons_append, List.cons.injEq] at he
    have := hs x (List.mem_cons_self ..)
    rw [← he.1] at this
    simp at this

theorem LowFirst.reads {r t : List Touch} (hr : ∀ x ∈ r, x.writes = false) (h : LowFirst t) : LowFirst (r ++ t) := by
  induction r with
  | nil => exact h
  | cons x r ih =>
    obtain ⟨w, j⟩ := x
    have hw : w = false := hr ⟨w, j⟩ (List.mem_cons_self ..)
    subst hw
    exact (ih fun y hy => hr y (List.mem_cons_of_mem _ hy)).read

theorem fillLoop_reads (a : Aeu n) : ∀ k, k ≤ n → ∀ x ∈ (fillLoop a k).trace, x.writes = false
  | 0, _ => fun x hx => by
    have : (fillLoop a 0).trace = [] := rfl
    rw [this] at hx; simp at hx
  | k + 1, hk => fun x hx => by
    rw [(fillLoop_succ a (show k < n by omega)).1] at hx
    rcases List.mem_cons.mp hx with rfl | hx
    · rfl
    · split at hx
      · simp at hx
      · exact fillLoop_reads a k (by omega) x hx

theorem rest_fresh (cfg : Cfg) (hn : 2 ≤ n) (a b : Aeu n) {Y : List Touch} (hY : Next n Y) :
    Fresh n ((rest cfg a b).trace ++ Y) := by
  rcases rest_cases cfg hn a b with ⟨h, -⟩ | ⟨h, -⟩ | ⟨h0, K, hK, hKn, -, h, -⟩
  · rw [h]; exact hY.fresh
  · obtain ⟨t, ht⟩ := one_head (show 0 < n by omega)
    rw [h, ht]
    exact Or.inr (Or.inl ⟨0, _, by simp only [List.cons_append]; rfl⟩)
  · rw [h, (filled_fillLoop a).1]
    obtain ⟨j, rfl⟩ : ∃ j, n = j + 1 := ⟨n - 1, by omega⟩
    rw [(fillLoop_succ a (show j < j + 1 by omega)).1]
    exact Or.inr (Or.inr (Or.inl ⟨j + 1 - 1, _, le_refl _, by simp only [List.cons_append]; rfl⟩))

/-- No write comes first. -/
def ReadFirst (t : List Touch) : Prop := ∀ i t', t ≠ ⟨true, i⟩ :: t'

theorem AtTop.readFirst {t : List Touch} (h : AtTop n t) : ReadFirst t := by
  rcases h with rfl | ⟨j, t', -, rfl⟩ <;> intro i t' <;> simp

theorem trace_divide_split_gen (cfg : Cfg) (hn : 2 ≤ n) (a b a' b' : Aeu n) {Y Y' : List Touch} (hY : Next n Y)
    (hY' : Next n Y') (hW : ReadFirst Y ∧ LowFirst Y ∨ (rest cfg a b).trace ≠ [])
    (hW' : ReadFirst Y' ∧ LowFirst Y' ∨ (rest cfg a' b').trace ≠ [])
    (h : (divide cfg a b).trace ++ Y = (divide cfg a' b').trace ++ Y') :
    Y = Y' ∧ ∃ x y y', (divide cfg a b).run = .ok (x, y) ∧ (divide cfg a' b').run = .ok (x, y') := by
  rw [(divide_rest cfg a b).1, (divide_rest cfg a' b').1, List.append_assoc, List.append_assoc] at h
  have hX := cmp_split cfg a b a' b' (rest_fresh cfg hn a b hY) (rest_fresh cfg hn a' b' hY') h
  rw [(divide_rest cfg a b).2, (divide_rest cfg a' b').2]
  have head : ∀ (x : Aeu n) (Y : List Touch), ∃ t, (filledBlocksNumber x).trace ++ Y = ⟨false, n - 1⟩ :: t := by
    intro x Y
    rw [(filled_fillLoop x).1]
    obtain ⟨j, rfl⟩ : ∃ j, n = j + 1 := ⟨n - 1, by omega⟩
    rw [(fillLoop_succ x (show j < j + 1 by omega)).1]
    exact ⟨_, by simp only [List.cons_append]; rfl⟩
  obtain ⟨u, hu⟩ := one_head (show 0 < n by omega)
  have hd : ∀ (c d : Aeu n) (L : Nat), 0 < L → L ≤ n →
      ∃ t, (Counted.forDownN 0 (round cfg c d) (L * 32) (zero n, zero n)).trace =
        ⟨false, n - 1⟩ :: ⟨false, n - 2⟩ :: ⟨true, n - 1⟩ :: t := by
    intro c d L h1 h2
    rcases (rounds_tell cfg hn c d c d (L * 32) (by omega) (zero n) (zero n) (zero n)).2.1 with h | h
    · omega
    · exact h
  have high : ∀ (c d : Aeu n) (L : Nat) (Z : List Touch), 0 < L → L ≤ n →
      ¬ LowFirst ((filledBlocksNumber c).trace ++
        (Counted.forDownN 0 (round cfg c d) (L * 32) (zero n, zero n)).trace ++ Z) := by
    intro c d L Z h1 h2 hl
    obtain ⟨t, ht⟩ := hd c d L h1 h2
    rw [(filled_fillLoop c).1, ht] at hl
    have := hl ((fillLoop c n).trace ++ [⟨false, n - 1⟩, ⟨false, n - 2⟩]) (n - 1) (t ++ Z) (by simp) (by
      intro x hx
      rcases List.mem_append.mp hx with hx | hx
      · exact fillLoop_reads c n (le_refl n) x hx
      · simp only [List.mem_cons, List.not_mem_nil, or_false] at hx
        rcases hx with rfl | rfl <;> rfl)
    omega
  rcases rest_cases cfg hn a b with ⟨t1, r1⟩ | ⟨t1, one, o1, r1⟩ | ⟨h0, K, hK, hKn, f1, t1, r1⟩ <;>
    rcases rest_cases cfg hn a' b' with ⟨t2, r2⟩ | ⟨t2, one', o2, r2⟩ | ⟨h0', K', hK', hKn', f2, t2, r2⟩ <;>
    rw [t1, t2] at hX
  · exact ⟨hX, _, _, _, r1, r2⟩
  · rw [hu] at hX
    exact absurd hX ((hW.resolve_right (by rw [t1]; simp)).1 _ _)
  · have hW := (hW.resolve_right (by rw [t1]; simp)).2
    rw [List.nil_append] at hX
    rw [hX] at hW
    exact absurd hW (high a' b' K' Y' hK' hKn')
  · rw [hu] at hX
    exact absurd hX.symm ((hW'.resolve_right (by rw [t2]; simp)).1 _ _)
  · have : one = one' := Except.ok.inj (o1.symm.trans o2)
    subst this
    exact ⟨List.append_cancel_left hX, _, _, _, r1, r2⟩
  · rw [hu, List.append_assoc] at hX
    obtain ⟨t, ht⟩ := head a' ((Counted.forDownN 0 (round cfg a' b') (K' * 32) (zero n, zero n)).trace ++ Y')
    rw [ht] at hX; simp at hX
  · have hW' := (hW'.resolve_right (by rw [t2]; simp)).2
    rw [List.nil_append] at hX
    rw [← hX] at hW'
    exact absurd hW' (high a b K Y hK hKn)
  · rw [hu, List.append_assoc] at hX
    obtain ⟨t, ht⟩ := head a ((Counted.forDownN 0 (round cfg a b) (K * 32) (zero n, zero n)).trace ++ Y)
    rw [ht] at hX; simp at hX
  · rw [(filled_fillLoop a).1, (filled_fillLoop a').1, List.append_assoc, List.append_assoc] at hX
    have hd' : ∀ (c d : Aeu n) (L : Nat) (Z : List Touch), 0 < L → L ≤ n →
        ∃ t, (Counted.forDownN 0 (round cfg c d) (L * 32) (zero n, zero n)).trace ++ Z = ⟨false, n - 1⟩ :: t := by
      intro c d L Z h1 h2
      obtain ⟨t, ht⟩ := hd c d L h1 h2
      rw [ht]; exact ⟨_, by simp only [List.cons_append]; rfl⟩
    obtain ⟨hY2, hF⟩ := fill_split a a' (hd' a b K Y hK hKn) (hd' a' b' K' Y' hK' hKn') n (le_refl n) (block_ne a h0)
      (block_ne a' h0') hX
    have hKK : K = K' := by
      rw [(filled_fillLoop a).2] at f1
      rw [(filled_fillLoop a').2, ← hF, f1] at f2
      exact Except.ok.inj f2
    subst hKK
    rw [r1, r2]
    exact (rounds_tell cfg hn a b a' b' (K * 32) (by omega) (zero n) (zero n) (zero n)).2.2 Y Y' hY hY' hY2

theorem trace_divide_split (cfg : Cfg) (hn : 2 ≤ n) (a b a' b' : Aeu n) {Y Y' : List Touch} (hY : Next n Y)
    (hY' : Next n Y') (hW : AtTop n Y ∧ LowFirst Y ∨ (rest cfg a b).trace ≠ [])
    (hW' : AtTop n Y' ∧ LowFirst Y' ∨ (rest cfg a' b').trace ≠ [])
    (h : (divide cfg a b).trace ++ Y = (divide cfg a' b').trace ++ Y') :
    Y = Y' ∧ ∃ x y y', (divide cfg a b).run = .ok (x, y) ∧ (divide cfg a' b').run = .ok (x, y') :=
  trace_divide_split_gen cfg hn a b a' b' hY hY' (hW.imp_left fun h => ⟨h.1.readFirst, h.2⟩)
    (hW'.imp_left fun h => ⟨h.1.readFirst, h.2⟩) h

theorem rest_ne_nil (cfg : Cfg) (hn : 2 ≤ n) (a b : Aeu n) (h : toNat b ≤ toNat a) : (rest cfg a b).trace ≠ [] := by
  intro h0
  rcases rest_cases cfg hn a b with ⟨-, hr⟩ | ⟨ht, -⟩ | ⟨-, K, -, -, -, ht, -⟩
  · unfold rest at h0
    have hc : cmpNat (toNat a) (toNat b) ≠ .less := by
      unfold cmpNat; split
      · omega
      · split <;> simp
    cases hk : cmpNat (toNat a) (toNat b) with
    | less => exact hc hk
    | greater =>
      rw [hk] at h0
      obtain ⟨k, hf, -⟩ := filledBlocksNumber_nat a
      have hr : (filledBlocksNumber a).run = .ok k := by rw [run_filledBlocksNumber, hf]
      simp only at h0
      rw [trace_bind _ _ hr, (filled_fillLoop a).1] at h0
      obtain ⟨j, rfl⟩ : ∃ j, n = j + 1 := ⟨n - 1, by omega⟩
      rw [(fillLoop_succ a (show j < j + 1 by omega)).1] at h0
      simp at h0
    | _ =>
      rw [hk] at h0
      obtain ⟨one, h1, -⟩ := ofUnsigned32_one (n := n) (by omega)
      have hr : (ofUnsigned n (1#32)).run = .ok one := by rw [run_ofUnsigned]; exact h1
      obtain ⟨t, ht⟩ := one_head (show 0 < n by omega)
      simp only at h0
      rw [trace_bind _ _ hr, ht] at h0
      simp at h0
  · obtain ⟨t, h1⟩ := one_head (show 0 < n by omega)
    rw [ht, h1] at h0; simp at h0
  · rw [ht, (filled_fillLoop a).1] at h0
    obtain ⟨j, rfl⟩ : ∃ j, n = j + 1 := ⟨n - 1, by omega⟩
    rw [(fillLoop_succ a (show j < j + 1 by omega)).1] at h0
    simp at h0

theorem trace_divide_tells (cfg : Cfg) (hn : 2 ≤ n) (a b a' b' : Aeu n)
    (h : (divide cfg a b).trace = (divide cfg a' b').trace) :
    ∃ x y y', (divide cfg a b).run = .ok (x, y) ∧ (divide cfg a' b').run = .ok (x, y') :=
  (trace_divide_split cfg hn a b a' b' (Or.inr (Or.inl (Or.inl rfl))) (Or.inr (Or.inl (Or.inl rfl)))
    (Or.inl ⟨Or.inl rfl, LowFirst.nil⟩) (Or.inl ⟨Or.inl rfl, LowFirst.nil⟩) (by rw [h])).2

end Work

open Work
variable {n : Nat}

/-- C117: whoever sees which blocks a division touches knows its quotient: two divisions that touch the same blocks in
the same order have the same quotient. -/
theorem C117_division (cfg : Cfg) (hn : 2 ≤ n) (a b a' b' : Aeu n)
    (h : (Work.divide cfg a b).trace = (Work.divide cfg a' b').trace) : Aeu.div cfg a b = Aeu.div cfg a' b' := by
  obtain ⟨x, y, y', h1, h2⟩ := trace_divide_tells cfg hn a b a' b' h
  rw [run_divide] at h1 h2
  simp only [Aeu.div, h1, h2, ok_bind]

/-- C117, as numbers: for a divisor other than zero. -/
theorem C117_quotient (cfg : Cfg) (hn : 2 ≤ n) (a b a' b' : Aeu n) (hb : toNat b ≠ 0) (hb' : toNat b' ≠ 0)
    (h : (Work.divide cfg a b).trace = (Work.divide cfg a' b').trace) :
    toNat a / toNat b = toNat a' / toNat b' := by
  obtain ⟨x, y, y', h1, h2⟩ := trace_divide_tells cfg hn a b a' b' h
  rw [run_divide] at h1 h2
  have s1 := divide_spec cfg (by omega) a b hb
  have s2 := divide_spec cfg (by omega) a' b' hb'
  rw [h1, sat_ok] at s1
  rw [h2, sat_ok] at s2
  rw [← s1.1, ← s2.1]

/-- The hypothesis of `C117_division` is met by different operands: 10 / 3 and 11 / 3 touch the same blocks; and the
conclusion is not idle: 10 / 3 and 9 / 2 do not. -/
theorem C117_varies :
    (Work.divide ⟨false, false, false⟩ (ofNat 2 10) (ofNat 2 3)).trace =
      (Work.divide ⟨false, false, false⟩ (ofNat 2 11) (ofNat 2 3)).trace ∧
    (Work.divide ⟨false, false, false⟩ (ofNat 2 10) (ofNat 2 3)).trace ≠
      (Work.divide ⟨false, false, false⟩ (ofNat 2 9) (ofNat 2 2)).trace ∧
    (Work.powm ⟨false, false, false⟩ (ofNat 1 7) (ofNat 1 1) (ofNat 1 10)).trace ≠
      (Work.powm ⟨false, false, false⟩ (ofNat 1 7) (ofNat 1 3) (ofNat 1 10)).trace ∧
    (Work.mul (ofNat 2 5) (ofNat 2 7)).trace = (Work.mul (ofNat 2 8) (ofNat 2 9)).trace ∧
    (Work.mul (ofNat 2 5) (ofNat 2 7)).trace ≠ (Work.mul (ofNat 2 (2 ^ 32)) (ofNat 2 7)).trace := by decide +kernel

/-- `C117_product` on two pairs of the same lengths. -/
example : (Work.mul (ofNat 2 5) (ofNat 2 7)).trace = (Work.mul (ofNat 2 8) (ofNat 2 9)).trace :=
  C117_product _ _ _ _
    (fun i => by
      have h : toNat (ofNat 2 5) = 5 ∧ toNat (ofNat 2 8) = 8 := by decide +kernel
      rw [h.1, h.2]
      rcases Nat.eq_zero_or_pos i with rfl | hi
      · simp
      · have : 2 ^ 32 ≤ 2 ^ (32 * i) := Nat.pow_le_pow_right (by norm_num) (by omega)
        omega)
    (fun i => by
      have h : toNat (ofNat 2 7) = 7 ∧ toNat (ofNat 2 9) = 9 := by decide +kernel
      rw [h.1, h.2]
      rcases Nat.eq_zero_or_pos i with rfl | hi
      · simp
      · have : 2 ^ 32 ≤ 2 ^ (32 * i) := Nat.pow_le_pow_right (by norm_num) (by omega)
        omega)

end AesiMP
