import Verif.Props.WorkText

/-!
# C117: which blocks a call touches

`Counted.trace` is the list of the block accesses of a call, in order, each with the index of the block and whether
it is written; `C116` shows that the recorded functions are the modelled ones.
-/

namespace AesiMP
open Aeu Counted

namespace Counted
variable {α β γ δ σ ρ : Type}

/-- The two executions touch the same blocks in the same order, and neither ends in undefined behaviour. -/
def Same (x : Counted α) (y : Counted β) : Prop :=
  x.trace = y.trace ∧ (∃ v, x.run = .ok v) ∧ ∃ v, y.run = .ok v

theorem trace_bind (x : Counted α) (f : α → Counted β) {a : α} (h : x.run = .ok a) :
    (x >>= f).trace = x.trace ++ (f a).trace := by
  show (Counted.bind x f).trace = _
  unfold Counted.bind
  rw [h]

theorem Same.pure (a : α) (b : β) : Same (pure a : Counted α) (pure b : Counted β) := ⟨rfl, ⟨a, rfl⟩, ⟨b, rfl⟩⟩
theorem Same.lift {e : Exec α} {e' : Exec β} (h : ∃ v, e = .ok v) (h' : ∃ v, e' = .ok v) :
    Same (lift e) (lift e') := ⟨rfl, h, h'⟩
theorem Same.rd {n : Nat} (b : Vector α n) (c : Vector β n) {i : Nat} (h : i < n) : Same (rd b i) (rd c i) :=
  ⟨rfl, (Takes.rd b h).2, (Takes.rd c h).2⟩
theorem Same.wr {n : Nat} (b : Vector α n) (c : Vector β n) {i : Nat} (v : α) (w : β) (h : i < n) :
    Same (wr b i v) (wr c i w) := ⟨rfl, (Takes.wr b v h).2, (Takes.wr c w h).2⟩

theorem Same.bind {x : Counted α} {y : Counted β} {f : α → Counted γ} {g : β → Counted δ} (h : Same x y)
    (hfg : ∀ a b, x.run = .ok a → y.run = .ok b → Same (f a) (g b)) : Same (x >>= f) (y >>= g) := by
  obtain ⟨ht, ⟨a, ha⟩, ⟨b, hb⟩⟩ := h
  obtain ⟨h1, ⟨c, hc⟩, ⟨d, hd⟩⟩ := hfg a b ha hb
  refine ⟨by rw [trace_bind x f ha, trace_bind y g hb, ht, h1], ⟨c, ?_⟩, ⟨d, ?_⟩⟩
  · rw [run_bind, ha]; exact hc
  · rw [run_bind, hb]; exact hd

theorem Same.forUp {lo hi : Nat} {s : σ} {s' : ρ} {f : Nat → σ → Counted σ} {g : Nat → ρ → Counted ρ}
    (h : ∀ i s s', i < hi → Same (f i s) (g i s')) : Same (Counted.forUp lo hi s f) (Counted.forUp lo hi s' g) := by
  unfold Counted.forUp
  generalize hk : hi - lo = k
  induction k generalizing lo s s' with
  | zero => exact Same.pure _ _
  | succ k ih => exact (h lo s s' (by omega)).bind fun a b _ _ => ih (lo := lo + 1) (by omega)

theorem Same.forDown {lo hi : Nat} {s : σ} {s' : ρ} {f : Nat → σ → Counted σ} {g : Nat → ρ → Counted ρ}
    (h : ∀ i s s', lo ≤ i → i < hi → Same (f i s) (g i s')) :
    Same (Counted.forDown hi lo s f) (Counted.forDown hi lo s' g) := by
  unfold Counted.forDown
  have : ∀ k, lo + k ≤ max hi lo → ∀ s s', Same (forDownN lo f k s) (forDownN lo g k s') := by
    intro k
    induction k with
    | zero => intro _ s s'; exact Same.pure _ _
    | succ k ih =>
      intro hk s s'
      exact (h (lo + k) s s' (by omega) (by omega)).bind fun a b _ _ => ih (by omega) a b
  exact this _ (by omega) s s'

theorem Same.symm {x : Counted α} {y : Counted β} (h : Same x y) : Same y x := ⟨h.1.symm, h.2.2, h.2.1⟩

end Counted

namespace Work
variable {n m : Nat}

theorem same_addLine (a b a' b' : Aeu n) : Same (addLine a b) (addLine a' b') :=
  Same.forUp fun i s s' hi => (Same.rd _ _ hi).bind fun _ _ _ _ => (Same.rd _ _ hi).bind fun _ _ _ _ =>
    (Same.wr _ _ _ _ hi).bind fun _ _ _ _ => Same.pure _ _

theorem same_neg (a a' : Aeu n) : Same (neg a) (neg a') :=
  (Same.forUp fun i s s' hi => (Same.rd _ _ hi).bind fun _ _ _ _ => (Same.wr _ _ _ _ hi).bind fun _ _ _ _ =>
    Same.pure _ _).bind fun _ _ _ _ => Same.pure _ _

theorem same_add (a b a' b' : Aeu n) : Same (add a b) (add a' b') :=
  (same_addLine a b a' b').bind fun _ _ _ _ => Same.pure _ _

theorem same_sub (a b a' b' : Aeu n) : Same (sub a b) (sub a' b') :=
  (same_neg b b').bind fun _ _ _ _ => same_add _ _ _ _

theorem same_not (a a' : Aeu n) : Same (not a) (not a') :=
  Same.forUp fun i s s' hi => (Same.rd _ _ hi).bind fun _ _ _ _ => Same.wr _ _ _ _ hi

theorem same_bitwise (f g : Block → Block → Block) (a b a' b' : Aeu n) :
    Same (bitwiseLoop f a b) (bitwiseLoop g a' b') :=
  Same.forUp fun i s s' hi => (Same.rd _ _ hi).bind fun _ _ _ _ => (Same.rd _ _ hi).bind fun _ _ _ _ =>
    Same.wr _ _ _ _ hi

theorem same_addBuiltin {w w' : Nat} (a a' : Aeu n) (u : BitVec w) (u' : BitVec w') :
    Same (addBuiltin a u) (addBuiltin a' u') :=
  (Same.forUp fun i s s' hi => (Same.rd _ _ hi).bind fun _ _ _ _ => (Same.wr _ _ _ _ hi).bind fun _ _ _ _ =>
    Same.pure _ _).bind fun _ _ _ _ => Same.pure _ _

theorem same_mulNarrow {w w' : Nat} (a a' : Aeu n) (u : BitVec w) (u' : BitVec w') :
    Same (mulNarrow a u) (mulNarrow a' u') :=
  (Same.forUp fun i s s' hi => (Same.rd _ _ hi).bind fun _ _ _ _ => (Same.wr _ _ _ _ hi).bind fun _ _ _ _ =>
    Same.pure _ _).bind fun _ _ _ _ => Same.pure _ _

private theorem shl64_ok (x : U64) {k : Nat} (h : k < 64) : ∃ v, shl64 x k = .ok v :=
  ⟨_, by simp only [shl64]; rw [if_pos h]⟩
private theorem shl32_ok (x : Block) {k : Nat} (h : k < 32) : ∃ v, shl32 x k = .ok v :=
  ⟨_, by simp only [shl32]; rw [if_pos h]⟩
private theorem shr32_ok (x : Block) {k : Nat} (h : k < 32) : ∃ v, shr32 x k = .ok v :=
  ⟨_, by simp only [shr32]; rw [if_pos h]⟩

theorem same_shl (a a' : Aeu n) (s : Nat) : Same (shl a s) (shl a' s) := by
  unfold shl
  by_cases hs : 32 * n ≤ s ∨ s = 0
  · rw [if_pos hs, if_pos hs]; exact Same.pure _ _
  · rw [if_neg hs, if_neg hs]
    simp only [not_or, not_le] at hs
    refine (Same.lift (shl64_ok _ (by omega)) (shl64_ok _ (by omega))).bind fun _ _ _ _ =>
      (Same.forDown fun i v v' hlo hi => ?_).bind fun v v' _ _ =>
      (Same.rd v v' (show 0 < n by omega)).bind fun _ _ _ _ =>
      (Same.lift (shl32_ok _ (by omega)) (shl32_ok _ (by omega))).bind fun _ _ _ _ =>
      (Same.wr v v' _ _ (show s / 32 < n by omega)).bind fun _ _ _ _ =>
      Same.forUp fun i v v' hi => Same.wr _ _ _ _ (by omega)
    exact (Same.rd v v' (by omega)).bind fun _ _ _ _ =>
      (Same.lift (shl32_ok _ (by omega)) (shl32_ok _ (by omega))).bind fun _ _ _ _ =>
      (Same.rd v v' (by omega)).bind fun _ _ _ _ =>
      (Same.lift (shr32_ok _ (by omega)) (shr32_ok _ (by omega))).bind fun _ _ _ _ => Same.wr v v' _ _ hi

theorem same_shr (a a' : Aeu n) (s : Nat) : Same (shr a s) (shr a' s) := by
  unfold shr
  by_cases hs : 32 * n ≤ s ∨ s = 0
  · rw [if_pos hs, if_pos hs]; exact Same.pure _ _
  · rw [if_neg hs, if_neg hs]
    simp only [not_or, not_le] at hs
    refine (Same.lift (shl64_ok _ (by omega)) (shl64_ok _ (by omega))).bind fun _ _ _ _ =>
      (Same.forUp fun i v v' hi => ?_).bind fun v v' _ _ =>
      (Same.rd v v' (show n - 1 < n by omega)).bind fun _ _ _ _ =>
      (Same.lift (shr32_ok _ (by omega)) (shr32_ok _ (by omega))).bind fun _ _ _ _ =>
      (Same.wr v v' _ _ (show n - 1 - s / 32 < n by omega)).bind fun _ _ _ _ =>
      Same.forUp fun i v v' hi => Same.wr _ _ _ _ hi
    have hi' : i + s / 32 + (if s % 32 ≠ 0 then 1 else 0) < n := by split at hi <;> split <;> omega
    exact (Same.rd v v' hi').bind fun _ _ _ _ =>
      (Same.lift (shl32_ok _ (by omega)) (shl32_ok _ (by omega))).bind fun _ _ _ _ =>
      (Same.rd v v' (by omega)).bind fun _ _ _ _ =>
      (Same.lift (shr32_ok _ (by omega)) (shr32_ok _ (by omega))).bind fun _ _ _ _ => Same.wr v v' _ _ (by omega)

private theorem cassert_ok (cfg : Cfg) {b : Bool} (h : b = true) : ∃ v, cassert cfg b = .ok v := by
  subst h; exact ⟨(), by simp [cassert]⟩

theorem same_getBit (cfg : Cfg) (a a' : Aeu n) {i : Nat} (hi : i < 32 * n) :
    Same (getBit cfg a i) (getBit cfg a' i) := by
  have hq : i / 32 < n := by omega
  have hr : i % 32 < 32 := by omega
  have hc := cassert_ok cfg (decide_eq_true (p := i / 32 < n ∧ i % 32 < 32) ⟨hq, hr⟩)
  unfold getBit
  rw [if_neg (by omega), if_neg (by omega)]
  exact (Same.lift hc hc).bind fun _ _ _ _ => (Same.lift (shl32_ok _ hr) (shl32_ok _ hr)).bind fun _ _ _ _ =>
    (Same.rd a a' hq).bind fun _ _ _ _ => Same.pure _ _

theorem same_setBit (cfg : Cfg) (a a' : Aeu n) {i : Nat} (hi : i < 32 * n) (v v' : Bool) :
    Same (setBit cfg a i v) (setBit cfg a' i v') := by
  have hq : i / 32 < n := by omega
  have hr : i % 32 < 32 := by omega
  have hc := cassert_ok cfg (decide_eq_true (p := i / 32 < n ∧ i % 32 < 32) ⟨hq, hr⟩)
  unfold setBit
  rw [if_neg (by omega), if_neg (by omega)]
  refine (Same.lift hc hc).bind fun _ _ _ _ => (Same.lift (shl32_ok _ hr) (shl32_ok _ hr)).bind fun _ _ _ _ =>
    (Same.rd a a' hq).bind fun _ _ _ _ => ?_
  cases v <;> cases v' <;> exact Same.wr a a' _ _ hq

/-! ### Length -/

private def scanned : Ctl Unit Nat → Nat
  | .next _ => 0
  | .leave k => k

/-- The scan for the length reads down to the highest block that is not zero. -/
theorem same_filled (a a' : Aeu n) (h : Aeu.filledBlocksNumber a = Aeu.filledBlocksNumber a') :
    Same (filledBlocksNumber a) (filledBlocksNumber a') := by
  obtain ⟨k, hk, -⟩ := filledBlocksNumber_nat a
  have hk' := h ▸ hk
  refine ⟨?_, ⟨k, by rw [run_filledBlocksNumber, hk]⟩, ⟨k, by rw [run_filledBlocksNumber, hk']⟩⟩
  have key : ∀ j, j ≤ n → ∀ c c' : Ctl Unit Nat,
      AesiMP.forDownCN 0 (fun i _ => do
        let b ← AesiMP.rd a i
        if b ≠ 0#32 then .ok (.leave (i + 1)) else .ok (.next ())) j () = .ok c →
      AesiMP.forDownCN 0 (fun i _ => do
        let b ← AesiMP.rd a' i
        if b ≠ 0#32 then .ok (.leave (i + 1)) else .ok (.next ())) j () = .ok c' →
      scanned c = scanned c' →
      (Counted.forDownCN 0 (fun i (_ : Unit) => do
        let b ← Counted.rd a i
        if b ≠ 0#32 then pure (.leave (i + 1)) else pure (.next ())) j ()).trace =
      (Counted.forDownCN 0 (fun i (_ : Unit) => do
        let b ← Counted.rd a' i
        if b ≠ 0#32 then pure (.leave (i + 1)) else pure (.next ())) j ()).trace := by
    intro j
    induction j with
    | zero => intros; rfl
    | succ j ih =>
      intro hj c c' hc hc' he
      have low : ∀ (x : Aeu n) (j : Nat) (c : Ctl Unit Nat), AesiMP.forDownCN 0 (fun i _ => do
          let b ← AesiMP.rd x i
          if b ≠ 0#32 then .ok (.leave (i + 1)) else .ok (.next ())) j () = .ok c →
          scanned c ≤ j := by
        intro x j
        induction j with
        | zero => intro c hc; simp only [AesiMP.forDownCN, Except.ok.injEq] at hc; subst hc; simp [scanned]
        | succ j ih =>
          intro c hc
          simp only [AesiMP.forDownCN] at hc
          cases hb : AesiMP.rd x (0 + j) with
          | error e => rw [hb] at hc; simp at hc
          | ok b =>
            rw [hb, ok_bind] at hc
            by_cases hz : b ≠ 0#32
            · rw [if_pos hz] at hc
              simp only [ok_bind, Except.ok.injEq] at hc; subst hc; simp [scanned]
            · rw [if_neg hz] at hc
              simp only [ok_bind] at hc
              have := ih c hc
              omega
      have hr : AesiMP.rd a (0 + j) = .ok (a[j]'(by omega)) := by
        simp only [Nat.zero_add, AesiMP.rd]; rw [dif_pos (show j < n by omega)]
      have hr' : AesiMP.rd a' (0 + j) = .ok (a'[j]'(by omega)) := by
        simp only [Nat.zero_add, AesiMP.rd]; rw [dif_pos (show j < n by omega)]
      simp only [AesiMP.forDownCN, hr, hr', ok_bind] at hc hc'
      have step : ∀ (x : Aeu n), AesiMP.rd x (0 + j) = .ok (x[j]'(by omega)) →
          (Counted.forDownCN 0 (fun i (_ : Unit) => do
            let b ← Counted.rd x i
            if b ≠ 0#32 then pure (Ctl.leave (i + 1)) else pure (Ctl.next ())) (j + 1) ()).trace =
          ⟨false, 0 + j⟩ :: (if (x[j]'(by omega)) ≠ 0#32 then [] else
            (Counted.forDownCN 0 (fun i (_ : Unit) => do
              let b ← Counted.rd x i
              if b ≠ 0#32 then pure (Ctl.leave (i + 1)) else pure (Ctl.next ())) j ()).trace) := by
        intro x hx
        rw [Counted.forDownCN]
        by_cases hz : (x[j]'(by omega)) ≠ 0#32
        · rw [if_pos hz, trace_bind _ _ (a := Ctl.leave (0 + j + 1))
            (by rw [run_bind, run_rd, hx, ok_bind, if_pos hz]; rfl), trace_bind _ _ (a := x[j]'(by omega)) hx,
            if_pos hz]
          rfl
        · rw [if_neg hz, trace_bind _ _ (a := Ctl.next ())
            (by rw [run_bind, run_rd, hx, ok_bind, if_neg hz]; rfl), trace_bind _ _ (a := x[j]'(by omega)) hx,
            if_neg hz]
          rfl
      rw [step a hr, step a' hr']
      congr 1
      by_cases h1 : (a[j]'(by omega)) ≠ 0#32 <;> by_cases h2 : (a'[j]'(by omega)) ≠ 0#32
      · rw [if_pos h1, if_pos h2]
      · rw [if_pos h1] at hc; rw [if_neg h2] at hc'
        simp only [ok_bind, Except.ok.injEq] at hc hc'
        subst hc
        have := low a' j c' hc'
        simp only [scanned] at he this ⊢
        omega
      · rw [if_neg h1] at hc; rw [if_pos h2] at hc'
        simp only [ok_bind, Except.ok.injEq] at hc hc'
        subst hc'
        have := low a j c hc
        simp only [scanned] at he this ⊢
        omega
      · rw [if_neg h1] at hc; rw [if_neg h2] at hc'
        simp only [ok_bind] at hc hc'
        rw [if_neg h1, if_neg h2]
        exact ih (by omega) c c' hc hc' he
  unfold Aeu.filledBlocksNumber AesiMP.forDownC at hk hk'
  unfold filledBlocksNumber Counted.forDownC
  cases h1 : AesiMP.forDownCN 0 (fun i _ => do
        let b ← AesiMP.rd a i
        if b ≠ 0#32 then .ok (.leave (i + 1)) else .ok (.next ())) (n - 0) () with
  | error e => rw [h1] at hk; simp at hk
  | ok c =>
    cases h2 : AesiMP.forDownCN 0 (fun i _ => do
        let b ← AesiMP.rd a' i
        if b ≠ 0#32 then .ok (.leave (i + 1)) else .ok (.next ())) (n - 0) () with
    | error e => rw [h2] at hk'; simp at hk'
    | ok c' =>
      rw [h1, ok_bind] at hk
      rw [h2, ok_bind] at hk'
      have e1 : scanned c = k := by
        cases c <;> simpa [scanned] using hk
      have e2 : scanned c' = k := by
        cases c' <;> simpa [scanned] using hk'
      have := key (n - 0) (by omega) c c' h1 h2 (e1.trans e2.symm)
      have run1 : (Counted.forDownCN 0 (fun i (_ : Unit) => do
        let b ← Counted.rd a i
        if b ≠ 0#32 then pure (Ctl.leave (i + 1)) else pure (Ctl.next ())) (n - 0) ()).run = .ok c := by
        rw [← h1]; exact run_forDownC (lo := 0) (hi := n) fun i s => by simp
      have run2 : (Counted.forDownCN 0 (fun i (_ : Unit) => do
        let b ← Counted.rd a' i
        if b ≠ 0#32 then pure (Ctl.leave (i + 1)) else pure (Ctl.next ())) (n - 0) ()).run = .ok c' := by
        rw [← h2]; exact run_forDownC (lo := 0) (hi := n) fun i s => by simp
      rw [trace_bind _ _ run1, trace_bind _ _ run2, this]
      congr 1
      cases c <;> cases c' <;> rfl

theorem same_mulRow (b b' : Aeu n) (i : Nat) (t t' : U64) {d d' : Nat → Counted U64} (l : Nat)
    (h : ∀ j, j < l → Same (d j) (d' j)) : Same (mulRow b i t d l) (mulRow b' i t' d' l) :=
  Same.forUp fun j s s' hj => (h j (by omega)).bind fun _ _ _ _ =>
    (Same.rd _ _ (show i + j < n by omega)).bind fun _ _ _ _ =>
    (Same.wr _ _ _ _ (show i + j < n by omega)).bind fun _ _ _ _ => Same.pure _ _

theorem same_multiplyLines (a b a' b' : Aeu n) (k l : Nat) (hk : k ≤ n) (hl : l ≤ n) :
    Same (multiplyLines a k b l) (multiplyLines a' k b' l) := by
  refine Same.forUp fun i s s' hi => (Same.rd _ _ (show i < n by omega)).bind fun _ _ _ _ =>
    (same_mulRow s s' i _ _ l fun j hj => ?_).bind fun r r' _ _ => ?_
  · exact (Same.rd _ _ (show j < n by omega)).bind fun _ _ _ _ => Same.pure _ _
  · obtain ⟨b, c⟩ := r
    obtain ⟨b', c'⟩ := r'
    by_cases h : l < n ∧ l + i < n
    · simp only [if_pos h]
      exact (Same.rd _ _ h.2).bind fun _ _ _ _ => Same.wr _ _ _ _ h.2
    · simp only [if_neg h]; exact Same.pure _ _

theorem same_mul (a b a' b' : Aeu n) (ha : Aeu.filledBlocksNumber a = Aeu.filledBlocksNumber a')
    (hb : Aeu.filledBlocksNumber b = Aeu.filledBlocksNumber b') : Same (mul a b) (mul a' b') := by
  refine (same_filled a a' ha).bind fun k k' hk hk' => (same_filled b b' hb).bind fun l l' hl hl' => ?_
  have e1 : k = k' := by
    rw [run_filledBlocksNumber] at hk hk'; rw [ha, hk'] at hk; exact (Except.ok.inj hk).symm
  have e2 : l = l' := by
    rw [run_filledBlocksNumber] at hl hl'; rw [hb, hl'] at hl; exact (Except.ok.inj hl).symm
  subst e1; subst e2
  have h1 := filled_le a hk
  have h2 := filled_le b hl
  by_cases h : k > l
  · simp only [if_pos h]; exact same_multiplyLines _ _ _ _ k l h1 h2
  · simp only [if_neg h]; exact same_multiplyLines _ _ _ _ l k h2 h1

/-! ### Comparison -/

/-- The loop of `compareTo` over the blocks below `k`. -/
def cmpLoop (cfg : Cfg) (a b : Aeu n) (k : Nat) : Counted (Ctl Unit Comparison) :=
  Counted.forDownCN 0 (fun i _ => do
    let thisBlock ← Counted.rd a i
    let otherBlock ← getBlock cfg b i
    if thisBlock ≠ otherBlock then
      pure (.leave (if thisBlock > otherBlock then Comparison.greater else .less))
    else pure (.next ())) k ()

private theorem getBlock_run (cfg : Cfg) (b : Aeu n) {j : Nat} (hj : j < n) :
    (getBlock cfg b j).run = .ok b[j] ∧ (getBlock cfg b j).trace = [⟨false, j⟩] := by
  unfold getBlock
  rw [if_neg (by omega)]
  refine ⟨?_, rfl⟩
  rw [run_rd]; simp only [AesiMP.rd]; rw [dif_pos hj]

theorem cmpLoop_succ (cfg : Cfg) (a b : Aeu n) {j : Nat} (hj : j < n) :
    (cmpLoop cfg a b (j + 1)).trace =
      ⟨false, j⟩ :: ⟨false, j⟩ :: (if a[j] ≠ b[j] then [] else (cmpLoop cfg a b j).trace) := by
  have hr : (Counted.rd a (0 + j)).run = .ok a[j] := by
    rw [run_rd, Nat.zero_add]; simp only [AesiMP.rd]; rw [dif_pos hj]
  have hg := getBlock_run cfg b hj
  unfold cmpLoop
  rw [Counted.forDownCN]
  by_cases hz : a[j] ≠ b[j]
  · rw [if_pos hz, trace_bind _ _ (a := Ctl.leave (if a[j] > b[j] then Comparison.greater else .less))
      (by rw [run_bind, hr, ok_bind, run_bind, Nat.zero_add, hg.1, ok_bind, if_pos hz]; rfl),
      trace_bind _ _ hr, trace_bind _ _ (a := b[j]) (by rw [Nat.zero_add]; exact hg.1), if_pos hz, Nat.zero_add,
      hg.2]
    rfl
  · rw [if_neg hz, trace_bind _ _ (a := Ctl.next ())
      (by rw [run_bind, hr, ok_bind, run_bind, Nat.zero_add, hg.1, ok_bind, if_neg hz]; rfl),
      trace_bind _ _ hr, trace_bind _ _ (a := b[j]) (by rw [Nat.zero_add]; exact hg.1), if_neg hz, Nat.zero_add,
      hg.2]
    rfl

private theorem cmpLoop_eq (cfg : Cfg) (a b a' b' : Aeu n) : ∀ k, (hk : k ≤ n) →
    ((cmpLoop cfg a b k).trace = (cmpLoop cfg a' b' k).trace ↔ ∀ i, 1 ≤ i → i < k →
      ((∀ j (hj : j < k), i ≤ j → a[j] = b[j]) ↔ (∀ j (hj : j < k), i ≤ j → a'[j] = b'[j])))
  | 0, _ => by simp [cmpLoop, Counted.forDownCN]
  | k + 1, hk => by
    rw [cmpLoop_succ cfg a b (by omega), cmpLoop_succ cfg a' b' (by omega)]
    simp only [List.cons.injEq, true_and]
    have ih := cmpLoop_eq cfg a b a' b' k (by omega)
    have ne : k ≠ 0 → ∀ x y : Aeu n, (cmpLoop cfg x y k).trace ≠ [] := fun h0 x y => by
      obtain ⟨k, rfl⟩ : ∃ k', k = k' + 1 := ⟨k - 1, by omega⟩
      rw [cmpLoop_succ cfg x y (by omega)]; simp
    by_cases h1 : a[k] = b[k] <;> by_cases h2 : a'[k] = b'[k]
    · simp only [h1, h2, ne_eq, not_true_eq_false, if_false]
      rw [ih]
      have up : ∀ x y : Aeu n, x[k] = y[k] → ∀ i, (∀ j (hj : j < k + 1), i ≤ j → x[j] = y[j]) ↔
          (∀ j (hj : j < k), i ≤ j → x[j] = y[j]) := fun x y hxy i =>
        ⟨fun h j hj hij => h j (by omega) hij, fun h j hj hij => by
          rcases Nat.lt_succ_iff_lt_or_eq.mp hj with hlt | rfl
          · exact h j hlt hij
          · exact hxy⟩
      constructor
      · intro h i hi hik
        rw [up a b h1, up a' b' h2]
        rcases Nat.lt_succ_iff_lt_or_eq.mp hik with hlt | rfl
        · exact h i hi hlt
        · exact ⟨fun _ j hj hij => by omega, fun _ j hj hij => by omega⟩
      · intro h i hi hik
        have := h i hi (by omega)
        rwa [up a b h1, up a' b' h2] at this
    · simp only [h1, h2, ne_eq, not_true_eq_false, if_false, not_false_eq_true, if_true]
      by_cases h0 : k = 0
      · subst h0
        exact ⟨fun _ i hi hik => by omega, fun _ => rfl⟩
      · refine ⟨fun h => absurd h (ne h0 a b), fun h => ?_⟩
        have := (h k (by omega) (by omega)).mp fun j hj hij => by
          have : j = k := by omega
          subst this; exact h1
        exact absurd (this k (by omega) (le_refl _)) h2
    · simp only [h1, h2, ne_eq, not_true_eq_false, if_false, not_false_eq_true, if_true]
      by_cases h0 : k = 0
      · subst h0
        exact ⟨fun _ i hi hik => by omega, fun _ => rfl⟩
      · refine ⟨fun h => absurd h.symm (ne h0 a' b'), fun h => ?_⟩
        have := (h k (by omega) (by omega)).mpr fun j hj hij => by
          have : j = k := by omega
          subst this; exact h2
        exact absurd (this k (by omega) (le_refl _)) h1
    · simp only [h1, h2, ne_eq, not_false_eq_true, if_true, true_iff]
      exact fun i hi hik => ⟨fun h => absurd (h k (by omega) (by omega)) h1,
        fun h => absurd (h k (by omega) (by omega)) h2⟩

theorem trace_compareTo (cfg : Cfg) (a b : Aeu n) : (compareTo cfg a b).trace = (cmpLoop cfg a b n).trace := by
  have hex : ∃ c, (cmpLoop cfg a b n).run = .ok c := by
    have hrun : (compareTo cfg a b).run = Aeu.compareTo cfg a b := run_compareTo cfg a b
    rw [compareTo_spec] at hrun
    unfold compareTo at hrun
    rw [run_bind] at hrun
    have e : (Counted.forDownC (if n < n then n else n) 0 () fun i _ => do
      let thisBlock ← Counted.rd a i
      let otherBlock ← getBlock cfg b i
      if thisBlock ≠ otherBlock then
        pure (.leave (if thisBlock > otherBlock then Comparison.greater else .less))
      else pure (.next ())).run = (cmpLoop cfg a b n).run := by
      simp only [lt_irrefl, if_false]; rfl
    rw [e] at hrun
    cases h : (cmpLoop cfg a b n).run with
    | error e => rw [h] at hrun; simp at hrun
    | ok c => exact ⟨c, rfl⟩
  obtain ⟨c, hc⟩ := hex
  have hc' : (Counted.forDownC (if n < n then n else n) 0 () fun i _ => do
      let thisBlock ← Counted.rd a i
      let otherBlock ← getBlock cfg b i
      if thisBlock ≠ otherBlock then
        pure (.leave (if thisBlock > otherBlock then Comparison.greater else .less))
      else pure (.next ())).run = .ok c := by
    rw [← hc]; simp only [lt_irrefl, if_false]; rfl
  unfold compareTo
  rw [trace_bind _ _ hc']
  have : (Counted.forDownC (if n < n then n else n) 0 () fun i _ => do
      let thisBlock ← Counted.rd a i
      let otherBlock ← getBlock cfg b i
      if thisBlock ≠ otherBlock then
        pure (.leave (if thisBlock > otherBlock then Comparison.greater else .less))
      else pure (.next ())).trace = (cmpLoop cfg a b n).trace := by
    simp only [lt_irrefl, if_false]; rfl
  rw [this]
  cases c with
  | leave c => simp only; exact List.append_nil _
  | next u => simp only [ne_eq, not_true_eq_false, if_false]; exact List.append_nil _

private theorem div_eq_iff_blocks (a b : Aeu n) (i : Nat) :
    toNat a / 2 ^ (32 * i) = toNat b / 2 ^ (32 * i) ↔ ∀ j (_ : j < n), i ≤ j → a[j] = b[j] := by
  constructor
  · intro h j hj hij
    refine getElem_of_dig hj (Nat.eq_of_testBit_eq fun t => ?_)
    rw [dig_testBit hj, dig_testBit hj]
    by_cases ht : t < 32
    · have hb := congrArg (fun v => v.testBit (32 * (j - i) + t)) h
      simp only [Nat.testBit_div_two_pow] at hb
      rw [show 32 * (j - i) + t + 32 * i = 32 * j + t by omega, testBit_toNat a j t ht, testBit_toNat b j t ht,
        dig_testBit hj, dig_testBit hj] at hb
      exact hb
    · simp [BitVec.getLsbD_of_ge _ _ (not_lt.mp ht)]
  · intro h
    refine Nat.eq_of_testBit_eq fun t => ?_
    simp only [Nat.testBit_div_two_pow]
    by_cases ht : t + 32 * i < 32 * n
    · rw [testBit_toNat', testBit_toNat']
      have hj : (t + 32 * i) / 32 < n := by omega
      rw [dig_testBit hj, dig_testBit hj, h _ hj (by omega)]
    · rw [testBit_toNat_ge a (by omega), testBit_toNat_ge b (by omega)]

/-- The length in blocks, as a property of the value. -/
private theorem filled_eq_of (a a' : Aeu n) (h : ∀ i, toNat a < 2 ^ (32 * i) ↔ toNat a' < 2 ^ (32 * i)) :
    Aeu.filledBlocksNumber a = Aeu.filledBlocksNumber a' := by
  obtain ⟨k, hk, h1, h2, h3⟩ := filledBlocksNumber_nat a
  obtain ⟨k', hk', h1', h2', h3'⟩ := filledBlocksNumber_nat a'
  have e : k = k' := by
    have x := (filled_le_iff (j := k') h2 h3).mpr ((h k').mpr h2')
    have y := (filled_le_iff (j := k) h2' h3').mpr ((h k).mp h2)
    omega
  rw [hk, hk', e]

theorem same_mul_of (a b a' b' : Aeu n) (ha : ∀ i, toNat a < 2 ^ (32 * i) ↔ toNat a' < 2 ^ (32 * i))
    (hb : ∀ i, toNat b < 2 ^ (32 * i) ↔ toNat b' < 2 ^ (32 * i)) : Same (mul a b) (mul a' b') :=
  same_mul a b a' b' (filled_eq_of a a' ha) (filled_eq_of b b' hb)

theorem trace_compareTo_iff (cfg : Cfg) (a b a' b' : Aeu n) :
    (compareTo cfg a b).trace = (compareTo cfg a' b').trace ↔ ∀ i, 1 ≤ i →
      (toNat a / 2 ^ (32 * i) = toNat b / 2 ^ (32 * i) ↔ toNat a' / 2 ^ (32 * i) = toNat b' / 2 ^ (32 * i)) := by
  rw [trace_compareTo, trace_compareTo, cmpLoop_eq cfg a b a' b' n (le_refl n)]
  constructor
  · intro h i hi
    rw [div_eq_iff_blocks, div_eq_iff_blocks]
    by_cases hin : i < n
    · exact h i hi hin
    · exact ⟨fun _ j hj hij => by omega, fun _ j hj hij => by omega⟩
  · intro h i hi hin
    have := h i hi
    rwa [div_eq_iff_blocks, div_eq_iff_blocks] at this

end Work

open Work
variable {n : Nat}

/-- C117: which blocks are touched, in which order, by sums, differences, negation, complement, `^ & |`, shifts, bit
access and the addition or multiplication of a built-in value does not depend on the values. -/
theorem C117_same (cfg : Cfg) (a b a' b' : Aeu n) (f : Block → Block → Block) {w : Nat} (u u' : BitVec w) (s i : Nat)
    (hi : i < 32 * n) (v v' : Bool) :
    (Work.add a b).trace = (Work.add a' b').trace ∧
    (Work.sub a b).trace = (Work.sub a' b').trace ∧
    (Work.neg a).trace = (Work.neg a').trace ∧
    (Work.not a).trace = (Work.not a').trace ∧
    (Work.bitwiseLoop f a b).trace = (Work.bitwiseLoop f a' b').trace ∧
    (Work.shl a s).trace = (Work.shl a' s).trace ∧
    (Work.shr a s).trace = (Work.shr a' s).trace ∧
    (Work.getBit cfg a i).trace = (Work.getBit cfg a' i).trace ∧
    (Work.setBit cfg a i v).trace = (Work.setBit cfg a' i v').trace ∧
    (Work.addBuiltin a u).trace = (Work.addBuiltin a' u').trace ∧
    (Work.mulNarrow a u).trace = (Work.mulNarrow a' u').trace :=
  ⟨(same_add a b a' b').1, (same_sub a b a' b').1, (same_neg a a').1, (same_not a a').1,
   (same_bitwise f f a b a' b').1, (same_shl a a' s).1, (same_shr a a' s).1, (same_getBit cfg a a' hi).1,
   (same_setBit cfg a a' hi v v').1, (same_addBuiltin a a' u u').1, (same_mulNarrow a a' u u').1⟩

/-- C117: the blocks a multiplication touches depend on the lengths of the factors (in blocks) only. -/
theorem C117_product (a b a' b' : Aeu n) (ha : ∀ i, toNat a < 2 ^ (32 * i) ↔ toNat a' < 2 ^ (32 * i))
    (hb : ∀ i, toNat b < 2 ^ (32 * i) ↔ toNat b' < 2 ^ (32 * i)) :
    (Work.mul a b).trace = (Work.mul a' b').trace := (same_mul_of a b a' b' ha hb).1

/-- C117: the blocks a comparison touches tell exactly the position of the highest block in which the operands
differ (block 0 not distinguished from no difference), nothing else. -/
theorem C117_comparison (cfg : Cfg) (a b a' b' : Aeu n) :
    (Work.compareTo cfg a b).trace = (Work.compareTo cfg a' b').trace ↔ ∀ i, 1 ≤ i →
      (toNat a / 2 ^ (32 * i) = toNat b / 2 ^ (32 * i) ↔ toNat a' / 2 ^ (32 * i) = toNat b' / 2 ^ (32 * i)) :=
  trace_compareTo_iff cfg a b a' b'

end AesiMP
