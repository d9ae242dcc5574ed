import Verif.Props.CudaShared

/-!
# C104: exactly the exchanges that lose nothing
-/

namespace AesiMP
open CudaShared
variable {n k T : Nat}

private theorem get_setBlock {heap : Fin k → Aesi n} {p q : Fin k} {i : Nat} (h : i < n) (b : Block) {j : Nat}
    (hj : j < n) : (setBlock heap p i h b q).base[j] = if q = p ∧ j = i then b else (heap q).base[j] := by
  unfold setBlock
  by_cases hq : q = p
  · subst hq
    simp only [if_true, true_and]
    rw [Vector.getElem_set]
    by_cases hji : j = i
    · subst hji; simp
    · rw [if_neg (Ne.symm hji), if_neg hji]
  · simp [hq]

private theorem base_setSign {heap : Fin k → Aesi n} {p q : Fin k} (s : Sign) :
    (setSign heap p s q).base = (heap q).base := by
  unfold setSign
  by_cases hq : q = p
  · subst hq; simp
  · simp [hq]

/-- Block 0 of every object. -/
private def low (hn : 0 < n) (s : State n k T) (p : Fin k) : Block := (s.heap p).base[0]

private theorem run_append (s : State n k T) (a b : List (Fin T)) : run s (a ++ b) = run (run s a) b :=
  List.foldl_append ..

private theorem run_one (s : State n k T) (t : Fin T) : run s [t] = step s t := rfl

private theorem run_succ (s : State n k T) (t : Fin T) (m : Nat) :
    run s (List.replicate (m + 1) t) = run (step s t) (List.replicate m t) := rfl

/-- Thread `t` is about to begin the first of `calls`. -/
private def Ready (s : State n k T) (t : Fin T) (calls : List (Call k)) : Prop :=
  (s.th t).calls = calls ∧ (s.th t).i = 0 ∧ (s.th t).phase = .load

/-- `s'` follows from `s` by steps of `t` only. -/
private def Same (t : Fin T) (s s' : State n k T) : Prop := ∀ t', t' ≠ t → s'.th t' = s.th t'

private theorem same_run (t : Fin T) (s : State n k T) (m : Nat) : Same t s (run s (List.replicate m t)) := by
  induction m generalizing s with
  | zero => exact fun _ _ => rfl
  | succ m ih =>
    intro t' h
    rw [run_succ, ih (step s t) t' h]
    simp only [step, if_neg h]

private theorem st_load {s : State n k T} {t : Fin T} {c : Call k} {rest : List (Call k)} {i : Nat} {r : Block}
    {sr : Sign} (h : s.th t = ⟨c :: rest, i, .load, r, sr⟩) (hi : i < n) :
    (step s t).heap = s.heap ∧ (step s t).th t = ⟨c :: rest, i, .exch, (s.heap c.arg).base[i], sr⟩ := by
  unfold step; dsimp only; rw [h]; simp only [if_true, stepThread, dif_pos hi, and_self]

private theorem st_exch {s : State n k T} {t : Fin T} {c : Call k} (hc : c.exchange = true) {rest : List (Call k)}
    {i : Nat} {r : Block} {sr : Sign} (h : s.th t = ⟨c :: rest, i, .exch, r, sr⟩) (hi : i < n) :
    (step s t).heap = setBlock s.heap c.target i hi r ∧
      (step s t).th t = ⟨c :: rest, i, .store, (s.heap c.target).base[i], sr⟩ := by
  unfold step; dsimp only; rw [h]; simp only [if_true, stepThread, dif_pos hi, hc, and_self]

private theorem st_store {s : State n k T} {t : Fin T} {c : Call k} {rest : List (Call k)} {i : Nat} {r : Block}
    {sr : Sign} (h : s.th t = ⟨c :: rest, i, .store, r, sr⟩) (hi : i < n) :
    (step s t).heap = setBlock s.heap c.arg i hi r ∧ (step s t).th t = ⟨c :: rest, i + 1, .load, r, sr⟩ := by
  unfold step; dsimp only; rw [h]; simp only [if_true, stepThread, dif_pos hi, and_self]

private theorem st_three {s : State n k T} {t : Fin T} {c : Call k} (hc : c.exchange = true) {rest : List (Call k)}
    {i : Nat} (h1 : (s.th t).calls = c :: rest) (h2 : (s.th t).phase = .load) (h3 : (s.th t).i = i) (hi : i < n) :
    ((step (step (step s t) t) t).th t).calls = c :: rest ∧ ((step (step (step s t) t) t).th t).phase = .load ∧
    ((step (step (step s t) t) t).th t).i = i + 1 ∧
    (step (step (step s t) t) t).heap = setBlock (setBlock s.heap c.target i hi (s.heap c.arg).base[i]) c.arg i hi
      (s.heap c.target).base[i] := by
  have h : s.th t = ⟨c :: rest, i, .load, (s.th t).reg, (s.th t).sreg⟩ := by
    generalize s.th t = th at *
    obtain ⟨a, b, d, e, f⟩ := th
    simp only at h1 h2 h3
    subst h1 h2 h3
    rfl
  obtain ⟨a1, a2⟩ := st_load h hi
  obtain ⟨b1, b2⟩ := st_exch hc a2 hi
  obtain ⟨d1, d2⟩ := st_store b2 hi
  rw [d2, d1, b1, a1]
  exact ⟨rfl, rfl, rfl, rfl⟩

private def callSteps (n : Nat) (c : Call k) : Nat := 3 * n + if c.signed then 2 else 1

/-- After block 0: the rest of the call does not touch block 0. -/
private theorem tail_run (hn : 0 < n) (t : Fin T) (c : Call k) (hc : c.exchange = true) (rest : List (Call k)) :
    ∀ (d : Nat) (s : State n k T), (s.th t).calls = c :: rest → (s.th t).phase = .load → 0 < (s.th t).i →
      (s.th t).i + d = n →
      Ready (run s (List.replicate (3 * d + if c.signed then 2 else 1) t)) t rest ∧
      ∀ p, low hn (run s (List.replicate (3 * d + if c.signed then 2 else 1) t)) p = low hn s p := by
  intro d
  induction d with
  | zero =>
    intro s h1 h2 h3 h4
    have hi : ¬ (s.th t).i < n := by omega
    by_cases hs : c.signed = true
    · simp only [hs, if_true, Nat.mul_zero, Nat.zero_add]
      have e1 : step s t = { heap := s.heap, th := fun j' => if j' = t then
          { s.th t with sreg := (s.heap c.arg).sign, phase := .exch } else s.th j' } := by
        simp only [step, stepThread, h1, hi, dif_neg, not_false_iff, hs, if_true, h2]
      have e2 : run s (List.replicate 2 t) = step (step s t) t := rfl
      rw [e2, e1]
      simp only [step, stepThread, if_true, h1, hi, dif_neg, not_false_iff, hs]
      refine ⟨⟨by simp, by simp, by simp⟩, fun p => ?_⟩
      simp only [low, base_setSign]
    · simp only [hs, Nat.mul_zero, Nat.zero_add]
      have e2 : run s (List.replicate 1 t) = step s t := rfl
      rw [if_neg (by simp), e2]
      simp only [step, stepThread, h1, hi, dif_neg, not_false_iff, hs]
      exact ⟨⟨by simp, by simp, by simp⟩, fun p => rfl⟩
  | succ d ih =>
    intro s h1 h2 h3 h4
    have hi : (s.th t).i < n := by omega
    have e : run s (List.replicate (3 * (d + 1) + if c.signed then 2 else 1) t) =
        run (step (step (step s t) t) t) (List.replicate (3 * d + if c.signed then 2 else 1) t) := by
      rw [show 3 * (d + 1) + (if c.signed then 2 else 1) = (3 * d + (if c.signed then 2 else 1)) + 1 + 1 + 1 by omega]
      rfl
    rw [e]
    have key : ((step (step (step s t) t) t).th t).calls = c :: rest ∧
        ((step (step (step s t) t) t).th t).phase = .load ∧
        ((step (step (step s t) t) t).th t).i = (s.th t).i + 1 ∧
        ∀ p, low hn (step (step (step s t) t) t) p = low hn s p := by
      obtain ⟨g1, g2, g3, g4⟩ := st_three hc h1 h2 rfl hi
      refine ⟨g1, g2, g3, fun p => ?_⟩
      have hne : ¬ (0 : Nat) = (s.th t).i := by omega
      simp only [low, g4]
      rw [get_setBlock hi _ hn, if_neg (fun h => hne h.2), get_setBlock hi _ hn, if_neg (fun h => hne h.2)]
    obtain ⟨k1, k2, k3, k4⟩ := key
    obtain ⟨a1, a2⟩ := ih _ k1 k2 (by omega) (by omega)
    exact ⟨a1, fun p => (a2 p).trans (k4 p)⟩

private theorem call_run (hn : 0 < n) (t : Fin T) (c : Call k) (hc : c.exchange = true)
    (rest : List (Call k)) (s : State n k T) (h : Ready s t (c :: rest)) :
    Ready (run s (List.replicate (callSteps n c) t)) t rest ∧
    ∀ p, low hn (run s (List.replicate (callSteps n c) t)) p = low hn s (Equiv.swap c.target c.arg p) := by
  obtain ⟨h1, h2, h3⟩ := h
  have e : run s (List.replicate (callSteps n c) t) =
      run (step (step (step s t) t) t) (List.replicate (3 * (n - 1) + if c.signed then 2 else 1) t) := by
    rw [show callSteps n c = (3 * (n - 1) + (if c.signed then 2 else 1)) + 1 + 1 + 1 by
      simp only [callSteps]; omega]
    rfl
  have key : ((step (step (step s t) t) t).th t).calls = c :: rest ∧
      ((step (step (step s t) t) t).th t).phase = .load ∧
      ((step (step (step s t) t) t).th t).i = 1 ∧
      ∀ p, low hn (step (step (step s t) t) t) p = low hn s (Equiv.swap c.target c.arg p) := by
    obtain ⟨g1, g2, g3, g4⟩ := st_three hc h1 h3 h2 hn
    refine ⟨g1, g2, g3, fun p => ?_⟩
    simp only [low, g4]
    rw [get_setBlock hn _ hn, get_setBlock hn _ hn]
    simp only [and_true]
    by_cases hpa : p = c.arg
    · subst hpa
      rw [if_pos rfl, Equiv.swap_apply_right]
    · rw [if_neg hpa]
      by_cases hpt : p = c.target
      · subst hpt; rw [if_pos rfl, Equiv.swap_apply_left]
      · rw [if_neg hpt, Equiv.swap_apply_of_ne_of_ne hpt hpa]
  obtain ⟨k1, k2, k3, k4⟩ := key
  rw [e]
  obtain ⟨a1, a2⟩ := tail_run hn t c hc rest (n - 1) _ k1 k2 (by omega) (by omega)
  exact ⟨a1, fun p => (a2 p).trans (k4 p)⟩

/-- A thread does several calls in a row: the lowest blocks are permuted, in a way that depends on the calls only. -/
private theorem calls_run (hn : 0 < n) (t : Fin T) (pre : List (Call k)) (hx : ∀ c ∈ pre, c.exchange = true) :
    ∃ (m : Nat) (π : Equiv.Perm (Fin k)), ∀ (rest : List (Call k)) (s : State n k T), Ready s t (pre ++ rest) →
      Ready (run s (List.replicate m t)) t rest ∧ ∀ p, low hn (run s (List.replicate m t)) p = low hn s (π p) := by
  induction pre with
  | nil => exact ⟨0, Equiv.refl _, fun rest s h => ⟨h, fun _ => rfl⟩⟩
  | cons c pre ih =>
    obtain ⟨m, π, ih⟩ := ih (fun c h => hx c (by simp [h]))
    refine ⟨callSteps n c + m, π.trans (Equiv.swap c.target c.arg), fun rest s h => ?_⟩
    obtain ⟨a1, a2⟩ := call_run hn t c (hx c (by simp)) (pre ++ rest) s h
    obtain ⟨b1, b2⟩ := ih rest _ a1
    rw [← List.replicate_append_replicate, run_append]
    exact ⟨b1, fun p => by rw [b2, a2]; rfl⟩

/-! ### Once the lowest blocks are all zero they stay zero -/

private def Zero (hn : 0 < n) (s : State n k T) : Prop :=
  (∀ p, low hn s p = 0) ∧ ∀ t, (s.th t).i = 0 → (s.th t).phase ≠ .load → (s.th t).reg = 0

private theorem zero_step (hn : 0 < n) (s : State n k T) (t : Fin T) (h : Zero hn s) : Zero hn (step s t) := by
  obtain ⟨h1, h2⟩ := h
  have hoth : ∀ t', t' ≠ t → (step s t).th t' = s.th t' := fun t' e => by simp only [step, if_neg e]
  have hme : (step s t).th t = (stepThread s.heap (s.th t)).2 := by simp only [step, if_true]
  suffices hs : (∀ p, ((stepThread s.heap (s.th t)).1 p).base[0] = 0) ∧
      ((stepThread s.heap (s.th t)).2.i = 0 → (stepThread s.heap (s.th t)).2.phase ≠ .load →
        (stepThread s.heap (s.th t)).2.reg = 0) by
    refine ⟨hs.1, fun t' => ?_⟩
    by_cases e : t' = t
    · subst e; rw [hme]; exact hs.2
    · rw [hoth t' e]; exact h2 t'
  have h2 := h2 t
  generalize s.th t = th at h2 ⊢
  obtain ⟨tc, ti, tp, tr, ts⟩ := th
  cases tc with
  | nil => exact ⟨h1, h2⟩
  | cons c rest =>
    by_cases hi : ti < n
    · cases tp with
      | load =>
        simp only [stepThread, hi, dif_pos]
        refine ⟨h1, fun e _ => ?_⟩
        replace e : ti = 0 := e
        subst e
        exact h1 c.arg
      | exch =>
        have hw : ∀ p, (setBlock s.heap c.target ti hi tr p).base[0] = 0 := by
          intro p
          rw [get_setBlock hi _ hn]
          split
          · next h => exact h2 h.2.symm (by simp)
          · exact h1 p
        simp only [stepThread, hi, dif_pos]
        split
        · refine ⟨hw, fun e _ => ?_⟩
          replace e : ti = 0 := e
          subst e
          exact h1 c.target
        · exact ⟨hw, fun e => absurd e (by simp)⟩
      | store =>
        simp only [stepThread, hi, dif_pos]
        refine ⟨fun p => ?_, fun e => absurd e (by simp)⟩
        rw [get_setBlock hi _ hn]
        split
        · next h => exact h2 h.2.symm (by simp)
        · exact h1 p
    · have hti : ti ≠ 0 := by omega
      simp only [stepThread, hi, dif_neg, not_false_iff]
      split
      · cases tp with
        | load => exact ⟨h1, fun e => absurd e hti⟩
        | exch => exact ⟨fun p => by simp only [base_setSign]; exact h1 p, fun _ e => absurd rfl e⟩
        | store => exact ⟨fun p => by simp only [base_setSign]; exact h1 p, fun _ e => absurd rfl e⟩
      · exact ⟨h1, fun _ e => absurd rfl e⟩

private theorem zero_run (hn : 0 < n) (s : State n k T) (h : Zero hn s) (l : List (Fin T)) : Zero hn (run s l) :=
  List.foldlRecOn (motive := Zero hn) l step h (fun s hs t _ => zero_step hn s t hs)

/-! ### The losing schedule -/

private theorem lose (hn : 0 < n) (calls : Fin T → List (Call k)) (hx : ∀ t, ∀ c ∈ calls t, c.exchange = true)
    (t t' : Fin T) (htt : t' ≠ t) (c : Call k) (hc : c ∈ calls t) (hself : c.target ≠ c.arg)
    (c' : Call k) (hc' : c' ∈ calls t') (hself' : c'.target ≠ c'.arg) (hshare : c'.target = c.arg ∨ c'.arg = c.arg) :
    ∃ (heap : Fin k → Aesi n) (l : List (Fin T)) (q : Fin k), (heap q).base[0] = 1 ∧
      Zero hn (run (start heap calls) l) := by
  obtain ⟨pre, post, hpre⟩ := List.append_of_mem hc
  obtain ⟨pre', post', hpre'⟩ := List.append_of_mem hc'
  obtain ⟨m, π, hm⟩ := calls_run (T := T) hn t pre (fun d h => hx t d (by rw [hpre]; simp [h]))
  obtain ⟨m', π', hm'⟩ := calls_run (T := T) hn t' pre' (fun d h => hx t' d (by rw [hpre']; simp [h]))
  -- the partner of the shared object in the call of the other thread
  obtain ⟨w, hw, hwz⟩ : ∃ w, Equiv.swap c'.target c'.arg c.arg = w ∧ w ≠ c.arg := by
    rcases hshare with h | h
    · exact ⟨_, by rw [← h, Equiv.swap_apply_left], fun e => hself' (by rw [h, e])⟩
    · exact ⟨_, by rw [← h, Equiv.swap_apply_right], fun e => hself' (by rw [h, e])⟩
  obtain ⟨heap, hheap⟩ : ∃ heap : Fin k → Aesi n, heap = fun p =>
    (⟨.positive, Vector.replicate n (if p = π (π' w) then 1 else 0)⟩ : Aesi n) := ⟨_, rfl⟩
  have h0 : ∀ p, low hn (start heap calls) p = if p = π (π' w) then 1 else 0 := by
    intro p; simp [low, start, hheap]
  obtain ⟨a1, a2⟩ := hm (c :: post) (start heap calls) ⟨hpre, rfl, rfl⟩
  have a3 := same_run t (start heap calls) m
  generalize hs1 : run (start heap calls) (List.replicate m t) = s1 at a1 a2 a3
  obtain ⟨b1, b2⟩ := hm' (c' :: post') s1 (by
    unfold Ready
    rw [a3 t' htt]
    exact ⟨hpre', rfl, rfl⟩)
  have b3 := same_run t' s1 m'
  generalize hs2 : run s1 (List.replicate m' t') = s2 at b1 b2 b3
  have low2 : ∀ p, low hn s2 p = if p = w then 1 else 0 := by
    intro p
    rw [b2, a2, h0]
    simp only [EmbeddingLike.apply_eq_iff_eq]
  -- thread `t` loads
  have d0 : s2.th t = ⟨c :: post, 0, .load, (s2.th t).reg, (s2.th t).sreg⟩ := by
    rw [b3 t (Ne.symm htt)]
    obtain ⟨g1, g2, g3⟩ := a1
    generalize s1.th t = th at *
    obtain ⟨x1, x2, x3, x4, x5⟩ := th
    simp only at g1 g2 g3
    subst g1 g2 g3
    rfl
  obtain ⟨d1, d2⟩ := st_load d0 hn
  have d3 : (step s2 t).th t' = s2.th t' := by simp only [step, if_neg htt]
  -- thread `t'` does its call
  obtain ⟨e1, e2⟩ := call_run hn t' c' (hx t' c' hc') post' (step s2 t) (by
    unfold Ready; rw [d3]; exact b1)
  have e3 := same_run t' (step s2 t) (callSteps n c')
  generalize hs3 : run (step s2 t) (List.replicate (callSteps n c') t') = s3 at e1 e2 e3
  have low3 : ∀ p, low hn s3 p = if p = c.arg then 1 else 0 := by
    intro p
    have : low hn (step s2 t) (Equiv.swap c'.target c'.arg p) = low hn s2 (Equiv.swap c'.target c'.arg p) := by
      simp only [low, d1]
    rw [e2, this, low2, ← hw]
    simp only [EmbeddingLike.apply_eq_iff_eq]
  -- thread `t` goes on
  have f0 : s3.th t = ⟨c :: post, 0, .exch, (s2.heap c.arg).base[0], (s2.th t).sreg⟩ := by
    rw [e3 t (Ne.symm htt), d2]
  have hreg : (s2.heap c.arg).base[0] = 0 := by
    have := low2 c.arg
    rw [if_neg (Ne.symm hwz)] at this
    exact this
  rw [hreg] at f0
  obtain ⟨f1, f2⟩ := st_exch (hx t c hc) f0 hn
  have hta := hself
  have hreg2 : (s3.heap c.target).base[0] = 0 := by
    have := low3 c.target
    rw [if_neg hta] at this
    exact this
  rw [hreg2] at f2
  obtain ⟨g1, g2⟩ := st_store f2 hn
  refine ⟨heap, List.replicate m t ++ List.replicate m' t' ++ [t] ++ List.replicate (callSteps n c') t' ++ [t, t],
    π (π' w), by simp [hheap], ?_⟩
  have hrun : run (start heap calls)
      (List.replicate m t ++ List.replicate m' t' ++ [t] ++ List.replicate (callSteps n c') t' ++ [t, t]) =
      step (step s3 t) t := by
    rw [run_append, run_append, run_append, run_append, hs1, hs2, run_one, hs3]; rfl
  rw [hrun]
  refine ⟨fun p => ?_, fun u hu hp => ?_⟩
  · simp only [low, g1, f1]
    rw [get_setBlock hn _ hn, get_setBlock hn _ hn]
    simp only [and_true]
    by_cases hpa : p = c.arg
    · rw [if_pos hpa]
    · rw [if_neg hpa]
      split
      · rfl
      · have := low3 p
        rw [if_neg hpa] at this
        exact this
  · by_cases hut : u = t
    · subst hut; rw [g2] at hu; simp at hu
    · exfalso
      have : (step (step s3 t) t).th u = s3.th u := by simp only [step, if_neg hut]
      rw [this] at hp
      by_cases hut' : u = t'
      · subst hut'; exact hp e1.2.2
      · rw [e3 u hut'] at hp
        have : (step s2 t).th u = s2.th u := by simp only [step, if_neg hut]
        rw [this, b3 u hut', a3 u hut] at hp
        exact hp rfl

/-- The same for a thread that exchanges an object with itself while another one exchanges it. -/
private theorem loseSelf (hn : 0 < n) (calls : Fin T → List (Call k)) (hx : ∀ t, ∀ c ∈ calls t, c.exchange = true)
    (t t' : Fin T) (htt : t' ≠ t) (c : Call k) (hc : c ∈ calls t) (hself : c.target = c.arg)
    (c' : Call k) (hc' : c' ∈ calls t') (hself' : c'.target ≠ c'.arg) (hshare : c'.target = c.arg ∨ c'.arg = c.arg) :
    ∃ (heap : Fin k → Aesi n) (l : List (Fin T)) (q : Fin k), (heap q).base[0] = 1 ∧
      Zero hn (run (start heap calls) l) := by
  obtain ⟨pre, post, hpre⟩ := List.append_of_mem hc
  obtain ⟨pre', post', hpre'⟩ := List.append_of_mem hc'
  obtain ⟨m, π, hm⟩ := calls_run (T := T) hn t pre (fun d h => hx t d (by rw [hpre]; simp [h]))
  obtain ⟨m', π', hm'⟩ := calls_run (T := T) hn t' pre' (fun d h => hx t' d (by rw [hpre']; simp [h]))
  -- the partner of the shared object in the call of the other thread
  obtain ⟨w, hw, hwz⟩ : ∃ w, Equiv.swap c'.target c'.arg c.arg = w ∧ w ≠ c.arg := by
    rcases hshare with h | h
    · exact ⟨_, by rw [← h, Equiv.swap_apply_left], fun e => hself' (by rw [h, e])⟩
    · exact ⟨_, by rw [← h, Equiv.swap_apply_right], fun e => hself' (by rw [h, e])⟩
  obtain ⟨heap, hheap⟩ : ∃ heap : Fin k → Aesi n, heap = fun p =>
    (⟨.positive, Vector.replicate n (if p = π (π' w) then 1 else 0)⟩ : Aesi n) := ⟨_, rfl⟩
  have h0 : ∀ p, low hn (start heap calls) p = if p = π (π' w) then 1 else 0 := by
    intro p; simp [low, start, hheap]
  obtain ⟨a1, a2⟩ := hm (c :: post) (start heap calls) ⟨hpre, rfl, rfl⟩
  have a3 := same_run t (start heap calls) m
  generalize hs1 : run (start heap calls) (List.replicate m t) = s1 at a1 a2 a3
  obtain ⟨b1, b2⟩ := hm' (c' :: post') s1 (by
    unfold Ready
    rw [a3 t' htt]
    exact ⟨hpre', rfl, rfl⟩)
  have b3 := same_run t' s1 m'
  generalize hs2 : run s1 (List.replicate m' t') = s2 at b1 b2 b3
  have low2 : ∀ p, low hn s2 p = if p = w then 1 else 0 := by
    intro p
    rw [b2, a2, h0]
    simp only [EmbeddingLike.apply_eq_iff_eq]
  -- thread `t` loads
  have d0 : s2.th t = ⟨c :: post, 0, .load, (s2.th t).reg, (s2.th t).sreg⟩ := by
    rw [b3 t (Ne.symm htt)]
    obtain ⟨g1, g2, g3⟩ := a1
    generalize s1.th t = th at *
    obtain ⟨x1, x2, x3, x4, x5⟩ := th
    simp only at g1 g2 g3
    subst g1 g2 g3
    rfl
  obtain ⟨d1, d2⟩ := st_load d0 hn
  have hreg : (s2.heap c.arg).base[0] = 0 := by
    have := low2 c.arg
    rw [if_neg (Ne.symm hwz)] at this
    exact this
  rw [hreg] at d2
  obtain ⟨x1, x2⟩ := st_exch (hx t c hc) d2 hn
  have low2' : ∀ p, low hn (step (step s2 t) t) p = if p = w then 1 else 0 := by
    intro p
    simp only [low, x1]
    rw [get_setBlock hn _ hn]
    split
    · next h => rw [h.1, hself, if_neg (Ne.symm hwz)]
    · rw [d1]; exact low2 p
  have d3 : (step (step s2 t) t).th t' = s2.th t' := by simp only [step, if_neg htt]
  -- thread `t'` does its call
  obtain ⟨e1, e2⟩ := call_run hn t' c' (hx t' c' hc') post' (step (step s2 t) t) (by
    unfold Ready; rw [d3]; exact b1)
  have e3 := same_run t' (step (step s2 t) t) (callSteps n c')
  generalize hs3 : run (step (step s2 t) t) (List.replicate (callSteps n c') t') = s3 at e1 e2 e3
  have low3 : ∀ p, low hn s3 p = if p = c.arg then 1 else 0 := by
    intro p
    rw [e2, low2', ← hw]
    simp only [EmbeddingLike.apply_eq_iff_eq]
  -- thread `t` goes on
  have f2 : s3.th t = ⟨c :: post, 0, .store, 0, (s2.th t).sreg⟩ := by
    rw [e3 t (Ne.symm htt), x2, d1]
    have : (s2.heap c.target).base[0] = 0 := by rw [hself]; exact hreg
    rw [this]
  obtain ⟨g1, g2⟩ := st_store f2 hn
  refine ⟨heap, List.replicate m t ++ List.replicate m' t' ++ [t, t] ++ List.replicate (callSteps n c') t' ++ [t],
    π (π' w), by simp [hheap], ?_⟩
  have hrun : run (start heap calls)
      (List.replicate m t ++ List.replicate m' t' ++ [t, t] ++ List.replicate (callSteps n c') t' ++ [t]) =
      step s3 t := by
    rw [run_append, run_append, run_append, run_append, hs1, hs2]
    show run (run (step (step s2 t) t) _) [t] = _
    rw [hs3]; rfl
  rw [hrun]
  refine ⟨fun p => ?_, fun u hu hp => ?_⟩
  · simp only [low, g1]
    rw [get_setBlock hn _ hn]
    simp only [and_true]
    split
    · rfl
    · next h =>
      have := low3 p
      rw [if_neg h] at this
      exact this
  · by_cases hut : u = t
    · subst hut; rw [g2] at hu; simp at hu
    · exfalso
      have : (step s3 t).th u = s3.th u := by simp only [step, if_neg hut]
      rw [this] at hp
      by_cases hut' : u = t'
      · subst hut'; exact hp e1.2.2
      · rw [e3 u hut'] at hp
        have : (step (step s2 t) t).th u = s2.th u := by simp only [step, if_neg hut]
        rw [this, b3 u hut', a3 u hut] at hp
        exact hp rfl

private theorem le_sum_of_mem {l : List Nat} {a : Nat} (h : a ∈ l) : a ≤ l.sum := by
  induction l with
  | nil => simp at h
  | cons b l ih =>
    rw [List.sum_cons]
    rcases List.mem_cons.1 h with rfl | h
    · omega
    · have := ih h; omega

/-- **C104**: exchanges lose nothing under every schedule and for every content of the memory exactly if no object that
a thread names as an argument is named by another thread, unless both calls exchange the object with itself. -/
theorem C104_conserved_iff (hn : 0 < n) (calls : Fin T → List (Call k))
    (hx : ∀ t, ∀ c ∈ calls t, c.exchange = true) :
    (∀ (heap : Fin k → Aesi n) (schedule : List (Fin T)), (∀ t, ((run (start heap calls) schedule).th t).calls = []) →
      Conserved heap (run (start heap calls) schedule).heap) ↔
    ∀ t, ∀ c ∈ calls t, ∀ t', t' ≠ t → ∀ c' ∈ calls t', c'.target = c.arg ∨ c'.arg = c.arg →
      c.target = c.arg ∧ c'.target = c'.arg := by
  refine ⟨fun h t c hc t' htt c' hc' hshare => ?_,
    fun h heap schedule => C104_conserved_partial heap calls schedule hx h⟩
  by_contra hno
  obtain ⟨heap, l, q, hq, hz⟩ : ∃ (heap : Fin k → Aesi n) (l : List (Fin T)) (q : Fin k), (heap q).base[0] = 1 ∧
      Zero hn (run (start heap calls) l) := by
    by_cases h1 : c.target = c.arg
    · exact loseSelf hn calls hx t t' htt c hc h1 c' hc' (fun h2 => hno ⟨h1, h2⟩) hshare
    · by_cases h2 : c'.target = c'.arg
      · exact loseSelf hn calls hx t' t (Ne.symm htt) c' hc' h2 c hc h1
          (.inr (by rcases hshare with h | h <;> simp_all))
      · exact lose hn calls hx t t' htt c hc h1 c' hc' h2 hshare
  obtain ⟨B, hB⟩ : ∃ B, ∀ t, (calls t).length * (3 * n + 2) ≤ B :=
    ⟨_, fun t => le_sum_of_mem (List.mem_map.2 ⟨t, List.mem_finRange t, rfl⟩)⟩
  have hlast : ∀ t, B ≤ (((List.finRange T).map fun t => List.replicate B t).flatten).count t := by
    intro t
    rw [List.count_flatten, List.map_map]
    have hm : B ∈ ((List.finRange T).map (List.count t ∘ fun t => List.replicate B t)) :=
      List.mem_map.2 ⟨t, List.mem_finRange t, by simp⟩
    exact le_sum_of_mem hm
  have hend := fun t => C104_wait_free heap calls (l ++ ((List.finRange T).map fun t => List.replicate B t).flatten) t
    ((hB t).trans ((hlast t).trans (by rw [List.count_append]; omega)))
  obtain ⟨σ, hσ⟩ := h heap _ hend 0 hn
  have h1 := hσ (σ.symm q)
  rw [Equiv.apply_symm_apply, hq, run_append] at h1
  have h2 := (zero_run hn _ hz ((List.finRange T).map fun t => List.replicate B t).flatten).1 (σ.symm q)
  simp only [low] at h2
  rw [h2] at h1
  exact absurd h1 (by decide)

/-- Threads that exchange objects 1 and 2 with object 0 lose nothing; if thread 1 names object 1 too, they can. -/
private def bring (q : Fin 3) : Fin 2 → List (Call 3) := fun t =>
  [[⟨true, true, 0, 1⟩, ⟨true, false, 0, 1⟩], [⟨true, false, 0, q⟩]].getD t.1 []

private def Apart (calls : Fin 2 → List (Call 3)) : Prop :=
  ∀ t, ∀ c ∈ calls t, ∀ t', t' ≠ t → ∀ c' ∈ calls t', c'.target = c.arg ∨ c'.arg = c.arg →
    c.target = c.arg ∧ c'.target = c'.arg

private instance (calls : Fin 2 → List (Call 3)) : Decidable (Apart calls) := by unfold Apart; infer_instance

/-- Both threads exchange object 2 with itself. -/
private def selves : Fin 2 → List (Call 3) := fun t =>
  [[⟨true, true, 0, 1⟩, ⟨true, false, 2, 2⟩], [⟨true, false, 2, 2⟩]].getD t.1 []

example : (∀ t, ∀ c ∈ bring 2 t, c.exchange = true) ∧ Apart (bring 2) ∧ ¬ Apart (bring 1) ∧ Apart selves := by
  decide +kernel

end AesiMP
