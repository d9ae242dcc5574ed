import Verif.Model.CudaShared
import Verif.SpecInt
import Verif.Lemmas.Value
import Mathlib.Data.List.Induction
import Mathlib.Logic.Equiv.Basic

/-!
# C104: concurrent sets and exchanges between shared objects
-/

namespace AesiMP
open CudaShared
variable {n k T : Nat}

/-! ### Steps -/

private theorem run_snoc (s : State n k T) (sched : List (Fin T)) (j : Fin T) :
    run s (sched ++ [j]) = step (run s sched) j := by
  simp [run]

private theorem run_ind {P : List (Fin T) → State n k T → Prop} {s : State n k T} (h0 : P [] s)
    (hstep : ∀ sched j, P sched (run s sched) → P (sched ++ [j]) (step (run s sched) j)) (sched : List (Fin T)) :
    P sched (run s sched) := by
  induction sched using List.reverseRecOn with
  | nil => exact h0
  | append_singleton l j ih => rw [run_snoc]; exact hstep l j ih

private theorem setBlock_get {heap : Fin k → Aesi n} {p q : Fin k} {i : Nat} (h : i < n) (b : Block) {j : Nat}
    (hj : j < n) : (setBlock heap p i h b q).base[j] = if q = p ∧ j = i then b else (heap q).base[j] := by
  unfold setBlock
  by_cases hq : q = p
  · subst hq
    simp only [if_true, true_and]
    rw [Vector.getElem_set]
    by_cases hji : j = i
    · subst hji; simp
    · rw [if_neg (Ne.symm hji), if_neg hji]
  · simp [hq]

private theorem setBlock_sign {heap : Fin k → Aesi n} {p q : Fin k} {i : Nat} (h : i < n) (b : Block) :
    (setBlock heap p i h b q).sign = (heap q).sign := by
  unfold setBlock
  by_cases hq : q = p
  · subst hq; simp
  · simp [hq]

private theorem setSign_base {heap : Fin k → Aesi n} {p q : Fin k} (s : Sign) :
    (setSign heap p s q).base = (heap q).base := by
  unfold setSign
  by_cases hq : q = p
  · subst hq; simp
  · simp [hq]

private theorem setSign_sign {heap : Fin k → Aesi n} {p q : Fin k} (s : Sign) :
    (setSign heap p s q).sign = if q = p then s else (heap q).sign := by
  unfold setSign
  by_cases hq : q = p
  · subst hq; simp
  · simp [hq]

/-! ### Where blocks and signs come from -/

/-- The block at position `i` is one that some object of `S` had there at the start. -/
private def FromBlock (S : Fin k → Prop) (heap0 : Fin k → Aesi n) (i : Nat) (hi : i < n) (b : Block) : Prop :=
  ∃ q, S q ∧ b = (heap0 q).base[i]

private def FromSign (S : Fin k → Prop) (heap0 : Fin k → Aesi n) (s : Sign) : Prop := ∃ q, S q ∧ s = (heap0 q).sign

private structure ThreadOk (S : Fin k → Prop) (heap0 : Fin k → Aesi n) (calls : List (Call k)) (t : Thread k) :
    Prop where
  sub : ∀ c ∈ t.calls, c ∈ calls
  exch : ∀ c rest, t.calls = c :: rest → ∀ hi : t.i < n, t.phase = .exch → S c.target →
    FromBlock S heap0 t.i hi t.reg
  store : ∀ c rest, t.calls = c :: rest → ∀ hi : t.i < n, t.phase = .store →
    c.exchange = true ∧ (S c.arg → FromBlock S heap0 t.i hi t.reg)
  sign : ∀ c rest, t.calls = c :: rest → ¬ t.i < n → t.phase ≠ .load → S c.target → FromSign S heap0 t.sreg

private structure HeapOk (S : Fin k → Prop) (heap0 heap : Fin k → Aesi n) : Prop where
  block : ∀ p, S p → ∀ i (hi : i < n), FromBlock S heap0 i hi (heap p).base[i]
  sign : ∀ p, S p → FromSign S heap0 (heap p).sign

private theorem threadOk_fresh {S : Fin k → Prop} {heap0 : Fin k → Aesi n} {calls rest : List (Call k)} {i : Nat}
    {reg : Block} {sreg : Sign} (h : ∀ c ∈ rest, c ∈ calls) :
    ThreadOk S heap0 calls ⟨rest, i, .load, reg, sreg⟩ :=
  ⟨h, fun _ _ _ _ h => by simp at h, fun _ _ _ _ h => by simp at h, fun _ _ _ _ h => by simp at h⟩

private theorem stepThread_ok {S : Fin k → Prop} {heap0 heap : Fin k → Aesi n} {calls : List (Call k)} {t : Thread k}
    (hS : ∀ c ∈ calls, (S c.target → S c.arg) ∧ (c.exchange = true → S c.arg → S c.target))
    (hh : HeapOk S heap0 heap) (ht : ThreadOk S heap0 calls t) :
    HeapOk S heap0 (stepThread heap t).1 ∧ ThreadOk S heap0 calls (stepThread heap t).2 := by
  obtain ⟨tc, ti, tp, tr, ts⟩ := t
  unfold stepThread
  cases tc with
  | nil => exact ⟨hh, ht⟩
  | cons c rest =>
    have hc := hS c (ht.sub c (by simp))
    have hsub := ht.sub
    dsimp only at hsub ⊢
    have hrest : ∀ c' ∈ rest, c' ∈ calls := fun c' h' => hsub c' (by simp [h'])
    by_cases hi : ti < n
    · rw [dif_pos hi]
      cases tp with
      | load =>
        refine ⟨hh, hsub, ?_, ?_, ?_⟩
        · intro c' rest' he hi' _ hs
          simp only [List.cons.injEq] at he
          obtain ⟨rfl, rfl⟩ := he
          exact hh.block _ (hc.1 hs) ti hi
        · intro _ _ _ _ h; simp at h
        · intro _ _ _ h; exact absurd hi h
      | exch =>
        have hb := ht.exch c rest rfl hi rfl
        have hheap : HeapOk S heap0 (setBlock heap c.target ti hi tr) := by
          refine ⟨fun p hp j hj => ?_, fun p hp => ?_⟩
          · rw [setBlock_get hi tr hj]
            split
            · rename_i h; obtain ⟨rfl, rfl⟩ := h; exact hb hp
            · exact hh.block p hp j hj
          · rw [setBlock_sign]; exact hh.sign p hp
        dsimp only
        split
        · rename_i hx
          refine ⟨hheap, hsub, ?_, ?_, ?_⟩
          · intro _ _ _ _ h; simp at h
          · intro c' rest' he hi' _
            simp only [List.cons.injEq] at he
            obtain ⟨rfl, rfl⟩ := he
            exact ⟨hx, fun hs => hh.block _ (hc.2 hx hs) ti hi⟩
          · intro _ _ _ h; exact absurd hi h
        · exact ⟨hheap, threadOk_fresh hsub⟩
      | store =>
        have hb := ht.store c rest rfl hi rfl
        refine ⟨⟨fun p hp j hj => ?_, fun p hp => ?_⟩, threadOk_fresh hsub⟩
        · rw [setBlock_get hi tr hj]
          split
          · rename_i h; obtain ⟨rfl, rfl⟩ := h; exact hb.2 hp
          · exact hh.block p hp j hj
        · rw [setBlock_sign]; exact hh.sign p hp
    · rw [dif_neg hi]
      split
      · have hfin : tp ≠ .load → HeapOk S heap0 (setSign heap c.target ts) := by
          intro hp
          refine ⟨fun p hp j hj => ?_, fun q hq => ?_⟩
          · have := setSign_base (heap := heap) (p := c.target) (q := p) ts
            simp only [this]
            exact hh.block p hp j hj
          · rw [setSign_sign]
            split
            · rename_i h; subst h; exact ht.sign c rest rfl hi hp hq
            · exact hh.sign q hq
        cases tp with
        | load =>
          refine ⟨hh, hsub, ?_, ?_, ?_⟩
          · intro _ _ _ h; exact absurd h hi
          · intro _ _ _ h; exact absurd h hi
          · intro c' rest' he _ _ hs
            simp only [List.cons.injEq] at he
            obtain ⟨rfl, rfl⟩ := he
            exact hh.sign _ (hc.1 hs)
        | exch => exact ⟨hfin (by simp), threadOk_fresh hrest⟩
        | store => exact ⟨hfin (by simp), threadOk_fresh hrest⟩
      · exact ⟨hh, threadOk_fresh hrest⟩

/-- C104: under every schedule, at every moment, every block (the sign) of every object is that block (the sign) of
some object at the start: nothing is torn or invented.  `S` may be any group of objects into which no call
carries a value from outside; values inside the group come from the group. -/
theorem C104_never_torn (heap : Fin k → Aesi n) (calls : Fin T → List (Call k)) (S : Fin k → Prop)
    (hS : ∀ t, ∀ c ∈ calls t, (S c.target → S c.arg) ∧ (c.exchange = true → S c.arg → S c.target))
    (schedule : List (Fin T)) (p : Fin k) (hp : S p) :
    (∀ i (hi : i < n), ∃ q, S q ∧ ((run (start heap calls) schedule).heap p).base[i] = (heap q).base[i]) ∧
      ∃ q, S q ∧ ((run (start heap calls) schedule).heap p).sign = (heap q).sign := by
  have := run_ind (P := fun _ s => HeapOk S heap s.heap ∧ ∀ t, ThreadOk S heap (calls t) (s.th t))
    (s := start heap calls) ⟨⟨fun p hp i hi => ⟨p, hp, rfl⟩, fun p hp => ⟨p, hp, rfl⟩⟩,
      fun t => threadOk_fresh (fun c h => h)⟩ (by
      rintro sched j ⟨h1, h2⟩
      have := stepThread_ok (hS j) h1 (h2 j)
      refine ⟨this.1, fun t => ?_⟩
      unfold step
      dsimp only
      split
      · rename_i h; subst h; exact this.2
      · exact h2 t) schedule
  exact ⟨this.1.block p hp, this.1.sign p hp⟩

/-! ### Objects nobody writes -/

/-- C104: an object that is the target of no call and the argument of no exchange keeps its value. -/
theorem C104_read_only (heap : Fin k → Aesi n) (calls : Fin T → List (Call k)) (p : Fin k)
    (hp : ∀ t, ∀ c ∈ calls t, c.target ≠ p ∧ (c.exchange = true → c.arg ≠ p)) (schedule : List (Fin T)) :
    (run (start heap calls) schedule).heap p = heap p := by
  have := C104_never_torn heap calls (fun q => q = p) (fun t c hc => by
    constructor
    · intro h; exact absurd h (hp t c hc).1
    · intro hx h; exact absurd h ((hp t c hc).2 hx)) schedule p rfl
  obtain ⟨h1, q, rfl, h2⟩ := this
  have hb : ((run (start heap calls) schedule).heap q).base = (heap q).base := by
    ext i hi
    obtain ⟨r, rfl, hr⟩ := h1 i hi
    rw [hr]
  cases hx : (run (start heap calls) schedule).heap q
  cases hy : heap q
  rw [hx, hy] at h2 hb
  simp_all

/-! ### Wait-freedom -/

/-- An upper bound of the steps a thread still needs. -/
private def weight (n : Nat) (t : Thread k) : Nat :=
  match t.calls with
  | [] => 0
  | _ :: rest =>
    (3 * (n - t.i) + 2 - (match t.phase with | .load => 0 | .exch => 1 | .store => if t.i < n then 2 else 1)) +
      rest.length * (3 * n + 2)

private theorem weight_fresh_le {rest : List (Call k)} {reg : Block} {sreg : Sign} :
    weight n (⟨rest, 0, .load, reg, sreg⟩ : Thread k) ≤ rest.length * (3 * n + 2) := by
  cases rest with
  | nil => simp [weight]
  | cons c r =>
    simp only [weight, List.length_cons, Nat.sub_zero, Nat.add_mul]
    omega

private theorem weight_step (heap : Fin k → Aesi n) (t : Thread k) :
    weight n (stepThread heap t).2 ≤ weight n t - 1 := by
  obtain ⟨tc, ti, tp, tr, ts⟩ := t
  unfold stepThread
  cases tc with
  | nil => simp [weight]
  | cons c rest =>
    dsimp only
    by_cases hi : ti < n
    · rw [dif_pos hi]
      cases tp with
      | load => simp only [weight]; omega
      | exch =>
        dsimp only
        split
        · simp only [weight, if_pos hi]; omega
        · simp only [weight]; omega
      | store => simp only [weight, if_pos hi]; omega
    · rw [dif_neg hi]
      have hw := weight_fresh_le (n := n) (rest := rest) (reg := tr) (sreg := ts)
      split
      · cases tp with
        | load => simp only [weight]; omega
        | exch => refine le_trans hw ?_; simp only [weight]; omega
        | store => refine le_trans hw ?_; simp only [weight, if_neg hi]; omega
      · refine le_trans hw ?_
        cases tp <;> simp only [weight, if_neg hi] <;> omega

/-- C104: every call ends within `3n + 2` steps of its own thread, whatever the other threads do. -/
theorem C104_wait_free (heap : Fin k → Aesi n) (calls : Fin T → List (Call k)) (schedule : List (Fin T))
    (t : Fin T) (h : (calls t).length * (3 * n + 2) ≤ schedule.count t) :
    ((run (start heap calls) schedule).th t).calls = [] := by
  have key := run_ind (s := start heap calls)
    (P := fun sched s => weight n (s.th t) ≤ (calls t).length * (3 * n + 2) - sched.count t) (by
      simpa [start] using weight_fresh_le (n := n) (rest := calls t) (reg := 0#32) (sreg := .zero)) (by
      intro sched j ih
      rw [List.count_append]
      unfold step
      dsimp only
      split
      · rename_i h; subst h
        have := weight_step (run (start heap calls) sched).heap ((run (start heap calls) sched).th t)
        simp only [List.count_singleton_self]
        omega
      · rename_i h
        rw [List.count_singleton, if_neg (by simpa using Ne.symm h)]
        omega) schedule
  have h0 : weight n ((run (start heap calls) schedule).th t) = 0 := by omega
  unfold weight at h0
  split at h0
  · assumption
  · exfalso
    split at h0
    · omega
    · omega
    · split at h0 <;> omega

/-! ### Objects only one thread writes -/

/-- What a call does when nothing else runs: the target becomes the argument; for an exchange the argument
becomes the old target, except for its sign. -/
def CudaShared.Call.apply (c : Call k) (heap : Fin k → Aesi n) : Fin k → Aesi n := fun p =>
  { sign := if c.signed = true ∧ p = c.target then (heap c.arg).sign else (heap p).sign
    base := if p = c.target then (heap c.arg).base
      else if c.exchange = true ∧ p = c.arg then (heap c.target).base else (heap p).base }

/-- Thread-local facts that hold whatever the other threads do. -/
private structure Shape (calls : List (Call k)) (n : Nat) (t : Thread k) : Prop where
  sub : ∀ c ∈ t.calls, c ∈ calls
  le : t.i ≤ n
  store : t.phase = .store → t.i < n ∧ ∀ c rest, t.calls = c :: rest → c.exchange = true

private theorem shape_fresh {calls rest : List (Call k)} {i : Nat} {reg : Block} {sreg : Sign} (hi : i ≤ n)
    (h : ∀ c ∈ rest, c ∈ calls) : Shape calls n ⟨rest, i, .load, reg, sreg⟩ :=
  ⟨h, hi, fun h => by simp at h⟩

private theorem shape_step {calls : List (Call k)} {heap : Fin k → Aesi n} {t : Thread k} (ht : Shape calls n t) :
    Shape calls n (stepThread heap t).2 := by
  obtain ⟨tc, ti, tp, tr, ts⟩ := t
  unfold stepThread
  cases tc with
  | nil => exact ht
  | cons c rest =>
    have hsub := ht.sub
    have hle := ht.le
    dsimp only at hsub hle ⊢
    have hrest : ∀ c' ∈ rest, c' ∈ calls := fun c' h' => hsub c' (by simp [h'])
    by_cases hi : ti < n
    · rw [dif_pos hi]
      cases tp with
      | load => exact ⟨hsub, hle, fun h => by simp at h⟩
      | exch =>
        dsimp only
        split
        · rename_i hx
          refine ⟨hsub, hle, fun _ => ⟨hi, ?_⟩⟩
          intro c' rest' he
          simp only [List.cons.injEq] at he
          rw [← he.1]; exact hx
        · exact shape_fresh hi hsub
      | store => exact shape_fresh hi hsub
    · rw [dif_neg hi]
      split
      · cases tp with
        | load => exact ⟨hsub, hle, fun h => by simp at h⟩
        | exch => exact shape_fresh (Nat.zero_le _) hrest
        | store => exact shape_fresh (Nat.zero_le _) hrest
      · exact shape_fresh (Nat.zero_le _) hrest

/-- A thread writes only the targets of its calls and the arguments of its exchanges. -/
private theorem stepThread_frame {calls : List (Call k)} {heap : Fin k → Aesi n} {t : Thread k} {p : Fin k}
    (ht : Shape calls n t) (hp : ∀ c ∈ calls, c.target ≠ p ∧ (c.exchange = true → c.arg ≠ p)) :
    (stepThread heap t).1 p = heap p := by
  obtain ⟨tc, ti, tp, tr, ts⟩ := t
  unfold stepThread
  cases tc with
  | nil => rfl
  | cons c rest =>
    have hc := hp c (ht.sub c (by simp))
    have hst := ht.store
    dsimp only at hst ⊢
    by_cases hi : ti < n
    · rw [dif_pos hi]
      cases tp with
      | load => rfl
      | exch =>
        dsimp only
        split <;> · simp only [setBlock]; rw [if_neg (Ne.symm hc.1)]
      | store =>
        have := hc.2 ((hst rfl).2 c rest rfl)
        simp only [setBlock]; rw [if_neg (Ne.symm this)]
    · rw [dif_neg hi]
      split
      · cases tp with
        | load => rfl
        | exch => simp only [setSign]; rw [if_neg (Ne.symm hc.1)]
        | store => simp only [setSign]; rw [if_neg (Ne.symm hc.1)]
      · rfl

private theorem run_shape (heap : Fin k → Aesi n) (calls : Fin T → List (Call k)) (sched : List (Fin T)) (t : Fin T) :
    Shape (calls t) n ((run (start heap calls) sched).th t) := by
  have := run_ind (s := start heap calls) (P := fun _ s => ∀ t, Shape (calls t) n (s.th t))
    (fun t => shape_fresh (Nat.zero_le _) (fun c h => h)) (by
      intro sched j ih t
      unfold step
      dsimp only
      split
      · rename_i h; subst h; exact shape_step (ih t)
      · exact ih t) sched
  exact this t

/-- The memory in the middle of the first call of `t`, which began with memory `H`. -/
private structure Mid (S : Fin k → Prop) (H heap : Fin k → Aesi n) (t : Thread k) : Prop where
  idle : t.calls = [] → ∀ p, S p → heap p = H p
  block : ∀ c rest, t.calls = c :: rest → ∀ p, S p → ∀ j (hj : j < n), (heap p).base[j] =
    if j < t.i then (c.apply H p).base[j]
    else if j = t.i ∧ t.phase = .store ∧ p = c.target then (H c.arg).base[j] else (H p).base[j]
  sign : ∀ c rest, t.calls = c :: rest → ∀ p, S p → (heap p).sign = (H p).sign
  exch : ∀ c rest, t.calls = c :: rest → ∀ hi : t.i < n, t.phase = .exch → t.reg = (H c.arg).base[t.i]
  store : ∀ c rest, t.calls = c :: rest → ∀ hi : t.i < n, t.phase = .store → t.reg = (H c.target).base[t.i]
  sreg : ∀ c rest, t.calls = c :: rest → ¬ t.i < n → t.phase ≠ .load → t.sreg = (H c.arg).sign

private theorem apply_base (c : Call k) (H : Fin k → Aesi n) (p : Fin k) {j : Nat} (hj : j < n) :
    (c.apply H p).base[j] = if p = c.target then (H c.arg).base[j]
      else if c.exchange = true ∧ p = c.arg then (H c.target).base[j] else (H p).base[j] := by
  unfold Call.apply
  dsimp only
  split
  · rfl
  · split <;> rfl

private theorem mid_fresh {S : Fin k → Prop} {H heap : Fin k → Aesi n} {rest : List (Call k)} {reg : Block}
    {sreg : Sign} (h : ∀ p, S p → heap p = H p) : Mid S H heap ⟨rest, 0, .load, reg, sreg⟩ := by
  refine ⟨fun _ => h, ?_, ?_, ?_, ?_, ?_⟩
  · intro c r _ p hp j hj; simp [h p hp]
  · intro c r _ p hp; rw [h p hp]
  · intro _ _ _ _ h; simp at h
  · intro _ _ _ _ h; simp at h
  · intro _ _ _ _ h; simp at h

private theorem aesi_ext {x y : Aesi n} (hs : x.sign = y.sign) (hb : ∀ j (hj : j < n), x.base[j] = y.base[j]) :
    x = y := by
  have h2 : x.base = y.base := by
    ext j hj
    rw [hb j hj]
  cases x; cases y
  simp_all

private theorem mid_step {S : Fin k → Prop} {H heap : Fin k → Aesi n} {calls : List (Call k)} {t : Thread k}
    (hS : ∀ c ∈ calls, S c.target ∧ S c.arg) (ht : Shape calls n t) (hm : Mid S H heap t) :
    (Mid S H (stepThread heap t).1 (stepThread heap t).2 ∧ (stepThread heap t).2.calls = t.calls) ∨
      ∃ c rest, t.calls = c :: rest ∧ (stepThread heap t).2.calls = rest ∧
        Mid S (c.apply H) (stepThread heap t).1 (stepThread heap t).2 := by
  obtain ⟨tc, ti, tp, tr, ts⟩ := t
  unfold stepThread
  cases tc with
  | nil => exact .inl ⟨hm, rfl⟩
  | cons c rest =>
    have hc := hS c (ht.sub c (by simp))
    have hle := ht.le
    have hst := ht.store
    have hb := hm.block c rest rfl
    have hsg := hm.sign c rest rfl
    have hex := hm.exch c rest rfl
    have hso := hm.store c rest rfl
    have hsr := hm.sreg c rest rfl
    dsimp only at hle hst hb hsg hex hso hsr ⊢
    by_cases hi : ti < n
    · rw [dif_pos hi]
      cases tp with
      | load =>
        left
        refine ⟨⟨fun h => by simp at h, ?_, ?_, ?_, ?_, ?_⟩, rfl⟩
        · intro c' r' he p hp j hj
          simp only [List.cons.injEq] at he
          obtain ⟨rfl, rfl⟩ := he
          have := hb p hp j hj
          simpa using this
        · intro c' r' he; simp only [List.cons.injEq] at he; exact hsg
        · intro c' r' he hi' _
          simp only [List.cons.injEq] at he
          obtain ⟨rfl, rfl⟩ := he
          have := hb c.arg hc.2 ti hi
          simpa using this
        · intro _ _ _ _ h; simp at h
        · intro _ _ _ h; exact absurd hi h
      | exch =>
        have hreg := hex hi rfl
        dsimp only
        left
        split
        · rename_i hx
          refine ⟨⟨fun h => by simp at h, ?_, ?_, ?_, ?_, ?_⟩, rfl⟩
          · intro c' r' he p hp j hj
            simp only [List.cons.injEq] at he
            obtain ⟨rfl, rfl⟩ := he
            rw [setBlock_get hi tr hj]
            have := hb p hp j hj
            by_cases hji : j = ti
            · subst hji
              by_cases hpt : p = c.target
              · simp [hpt, hreg]
              · simpa [hpt] using this
            · simpa [hji] using this
          · intro c' r' he p hp; rw [setBlock_sign]; exact hsg p hp
          · intro _ _ _ _ h; simp at h
          · intro c' r' he hi' _
            simp only [List.cons.injEq] at he
            obtain ⟨rfl, rfl⟩ := he
            have := hb c.target hc.1 ti hi
            simpa using this
          · intro _ _ _ h; exact absurd hi h
        · rename_i hx
          refine ⟨⟨fun h => by simp at h, ?_, ?_, ?_, ?_, ?_⟩, rfl⟩
          · intro c' r' he p hp j hj
            simp only [List.cons.injEq] at he
            obtain ⟨rfl, rfl⟩ := he
            rw [setBlock_get hi tr hj]
            have := hb p hp j hj
            by_cases hji : j = ti
            · subst hji
              rw [if_pos (Nat.lt_succ_self _), apply_base]
              by_cases hpt : p = c.target
              · simp [hpt, hreg]
              · simpa [hpt, hx] using this
            · have e : (j < ti + 1) = (j < ti) := by simp; omega
              simpa [hji, e] using this
          · intro c' r' he p hp; rw [setBlock_sign]; exact hsg p hp
          · intro _ _ _ _ h; simp at h
          · intro _ _ _ _ h; simp at h
          · intro _ _ _ _ h; simp at h
      | store =>
        have hreg := hso hi rfl
        have hx := (hst rfl).2 c rest rfl
        left
        refine ⟨⟨fun h => by simp at h, ?_, ?_, ?_, ?_, ?_⟩, rfl⟩
        · intro c' r' he p hp j hj
          simp only [List.cons.injEq] at he
          obtain ⟨rfl, rfl⟩ := he
          rw [setBlock_get hi tr hj]
          have := hb p hp j hj
          by_cases hji : j = ti
          · subst hji
            rw [if_pos (Nat.lt_succ_self _), apply_base]
            by_cases hpt : p = c.target
            · by_cases hpa : p = c.arg
              · have hta : c.target = c.arg := hpt.symm.trans hpa
                simp [hpt, hreg, hta]
              · simp only [hpa, false_and, if_false, if_pos hpt]
                rw [this]; simp [hpt]
            · by_cases hpa : p = c.arg
              · simp [hpa, hreg, hx]
                intro h; exact absurd (hpa.trans h) hpt
              · simpa [hpt, hpa] using this
          · have e : (j < ti + 1) = (j < ti) := by simp; omega
            simpa [hji, e] using this
        · intro c' r' he p hp; rw [setBlock_sign]; exact hsg p hp
        · intro _ _ _ _ h; simp at h
        · intro _ _ _ _ h; simp at h
        · intro _ _ _ _ h; simp at h
    · rw [dif_neg hi]
      have hdone : ∀ p, S p → ∀ j (hj : j < n), (heap p).base[j] = (c.apply H p).base[j] := by
        intro p hp j hj
        have := hb p hp j hj
        rwa [if_pos (by omega)] at this
      split
      · rename_i hsgn
        have hfin : tp ≠ .load → ∀ p, S p → setSign heap c.target ts p = c.apply H p := by
          intro hne p hp
          refine aesi_ext ?_ fun j hj => ?_
          · rw [setSign_sign, hsr hi hne, hsg p hp]
            simp [Call.apply, hsgn]
          · have := setSign_base (heap := heap) (p := c.target) (q := p) ts
            simp only [this]
            exact hdone p hp j hj
        cases tp with
        | load =>
          left
          refine ⟨⟨fun h => by simp at h, ?_, ?_, ?_, ?_, ?_⟩, rfl⟩
          · intro c' r' he p hp j hj
            simp only [List.cons.injEq] at he
            obtain ⟨rfl, rfl⟩ := he
            have := hb p hp j hj
            simpa using this
          · intro c' r' he; exact hsg
          · intro _ _ _ h; exact absurd h hi
          · intro _ _ _ h; exact absurd h hi
          · intro c' r' he _ _
            simp only [List.cons.injEq] at he
            obtain ⟨rfl, rfl⟩ := he
            exact hsg _ hc.2
        | exch => exact .inr ⟨c, rest, rfl, rfl, mid_fresh (hfin (by simp))⟩
        | store => exact .inr ⟨c, rest, rfl, rfl, mid_fresh (hfin (by simp))⟩
      · rename_i hsgn
        refine .inr ⟨c, rest, rfl, rfl, mid_fresh fun p hp => aesi_ext ?_ (hdone p hp)⟩
        rw [hsg p hp]
        simp [Call.apply, hsgn]

private theorem mid_congr {S : Fin k → Prop} {H heap heap' : Fin k → Aesi n} {t : Thread k}
    (h : ∀ p, S p → heap' p = heap p) (hm : Mid S H heap t) : Mid S H heap' t := by
  refine ⟨fun he p hp => (h p hp).trans (hm.idle he p hp), ?_, ?_, hm.exch, hm.store, hm.sreg⟩
  · intro c r he p hp j hj; simp only [h p hp]; exact hm.block c r he p hp j hj
  · intro c r he p hp; rw [h p hp]; exact hm.sign c r he p hp

private theorem mid_run (heap : Fin k → Aesi n) (calls : Fin T → List (Call k)) (t : Fin T) (S : Fin k → Prop)
    (hS : ∀ c ∈ calls t, S c.target ∧ S c.arg)
    (hother : ∀ t', t' ≠ t → ∀ c ∈ calls t', ∀ p, S p → c.target ≠ p ∧ (c.exchange = true → c.arg ≠ p))
    (schedule : List (Fin T)) : ∃ done, calls t = done ++ ((run (start heap calls) schedule).th t).calls ∧
      Mid S (done.foldl (fun h c => c.apply h) heap) (run (start heap calls) schedule).heap
        ((run (start heap calls) schedule).th t) :=
  run_ind (s := start heap calls)
    (P := fun _ s => ∃ done, calls t = done ++ (s.th t).calls ∧
      Mid S (done.foldl (fun h c => c.apply h) heap) s.heap (s.th t)) ⟨[], rfl, mid_fresh fun _ _ => rfl⟩ (by
      rintro sched j ⟨done, h1, h2⟩
      by_cases hj : j = t
      · subst hj
        rcases mid_step hS (run_shape heap calls sched j) h2 with ⟨h3, h4⟩ | ⟨c, rest, h3, h4, h5⟩
        · refine ⟨done, ?_, ?_⟩
          · simp only [step, if_true, h4]; exact h1
          · simpa only [step, if_true] using h3
        · refine ⟨done ++ [c], ?_, ?_⟩
          · simp only [step, if_true, h4]; rw [h1, h3]; simp
          · simpa only [step, if_true, List.foldl_append, List.foldl_cons, List.foldl_nil] using h5
      · refine ⟨done, ?_, ?_⟩
        · simp only [step, if_neg (Ne.symm hj)]; exact h1
        · simp only [step, if_neg (Ne.symm hj)]
          refine mid_congr (fun q hq => ?_) h2
          exact stepThread_frame (run_shape heap calls sched j) fun c hc => hother j hj c hc q hq) schedule

/-- C104: `S` is a group of objects written by no thread but `t`; the calls of `t` use only objects of `S`.  Then,
under every schedule, when the calls of `t` are over the objects of `S` hold exactly what the calls would have left
one after another with nothing else running: a set copies the value, an exchange swaps the magnitudes and copies the
sign of the argument into the target. -/
theorem C104_undisturbed (heap : Fin k → Aesi n) (calls : Fin T → List (Call k)) (t : Fin T) (S : Fin k → Prop)
    (hS : ∀ c ∈ calls t, S c.target ∧ S c.arg)
    (hother : ∀ t', t' ≠ t → ∀ c ∈ calls t', ∀ p, S p → c.target ≠ p ∧ (c.exchange = true → c.arg ≠ p))
    (schedule : List (Fin T)) (hend : ((run (start heap calls) schedule).th t).calls = []) (p : Fin k) (hp : S p) :
    (run (start heap calls) schedule).heap p = (calls t).foldl (fun h c => c.apply h) heap p := by
  obtain ⟨done, h1, h2⟩ := mid_run heap calls t S hS hother schedule
  rw [hend, List.append_nil] at h1
  rw [h2.idle hend p hp, h1]

/-- C104: the same group of objects at any moment, with calls of `t` still to come.  The memory of the group is that
of the calls already over, except that the call in progress has done the blocks below some position: those are
already what the call will leave, those above are still untouched, and the block at the position itself is one of
the two.  The sign is the last thing to change. -/
theorem C104_in_progress (heap : Fin k → Aesi n) (calls : Fin T → List (Call k)) (t : Fin T) (S : Fin k → Prop)
    (hS : ∀ c ∈ calls t, S c.target ∧ S c.arg)
    (hother : ∀ t', t' ≠ t → ∀ c ∈ calls t', ∀ p, S p → c.target ≠ p ∧ (c.exchange = true → c.arg ≠ p))
    (schedule : List (Fin T)) (over : List (Call k)) (c : Call k) (rest : List (Call k))
    (hc : calls t = over ++ c :: rest) (hnow : ((run (start heap calls) schedule).th t).calls = c :: rest) :
    ∃ i ≤ n, ∀ p, S p →
      ((run (start heap calls) schedule).heap p).sign = (over.foldl (fun h c => c.apply h) heap p).sign ∧
      ∀ j (hj : j < n),
        (j < i → ((run (start heap calls) schedule).heap p).base[j] =
          (c.apply (over.foldl (fun h c => c.apply h) heap) p).base[j]) ∧
        (i < j → ((run (start heap calls) schedule).heap p).base[j] =
          (over.foldl (fun h c => c.apply h) heap p).base[j]) ∧
        (j = i → ((run (start heap calls) schedule).heap p).base[j] =
            (c.apply (over.foldl (fun h c => c.apply h) heap) p).base[j] ∨
          ((run (start heap calls) schedule).heap p).base[j] = (over.foldl (fun h c => c.apply h) heap p).base[j]) := by
  obtain ⟨done, h1, h2⟩ := mid_run heap calls t S hS hother schedule
  have hd : done = over := by
    rw [hnow, hc] at h1
    exact (List.append_cancel_right h1).symm
  subst hd
  refine ⟨_, (run_shape heap calls schedule t).le, fun p hp => ⟨h2.sign c rest hnow p hp, fun j hj => ?_⟩⟩
  have hb := h2.block c rest hnow p hp j hj
  refine ⟨fun h => by rw [hb, if_pos h], fun h => by rw [hb, if_neg (by omega), if_neg (by omega)], fun h => ?_⟩
  rw [if_neg (by omega)] at hb
  split at hb
  · next h' => left; rw [hb, apply_base, if_pos h'.2.2]
  · exact .inr hb

/-- C104: publication.  Thread `t` sets `p` and then `q` to objects nobody writes, and nobody else writes `p` and `q`.
Then at every moment of every execution at which any block or the sign of `q` is no longer what it was, `p` is
already complete.  (C110_counterexample_publish: not so if the device reorders the accesses.) -/
theorem C104_publish (heap : Fin k → Aesi n) (calls : Fin T → List (Call k)) (t : Fin T) (p q x y : Fin k)
    (s1 s2 : Bool) (hcalls : calls t = [⟨false, s1, p, x⟩, ⟨false, s2, q, y⟩]) (hpq : p ≠ q)
    (hother : ∀ t', t' ≠ t → ∀ c ∈ calls t', ∀ o, o = p ∨ o = q ∨ o = x ∨ o = y →
      c.target ≠ o ∧ (c.exchange = true → c.arg ≠ o))
    (schedule : List (Fin T)) (hseen : (run (start heap calls) schedule).heap q ≠ heap q) :
    ((run (start heap calls) schedule).heap p).base = (heap x).base ∧
      ((run (start heap calls) schedule).heap p).sign = if s1 then (heap x).sign else (heap p).sign := by
  obtain ⟨done, h1, h2⟩ := mid_run heap calls t (fun o => o = p ∨ o = q ∨ o = x ∨ o = y) (by
    rw [hcalls]
    intro c hc
    simp only [List.mem_cons, List.not_mem_nil, or_false] at hc
    rcases hc with rfl | rfl <;> simp) hother schedule
  generalize hths : (run (start heap calls) schedule).th t = th at h1 h2
  rw [hcalls] at h1
  have hqp : q ≠ p := hpq.symm
  have hex : ∀ (b : Aesi n), b.base = (heap x).base → b.sign = (if s1 then (heap x).sign else (heap p).sign) →
      (run (start heap calls) schedule).heap p = b → ((run (start heap calls) schedule).heap p).base = (heap x).base ∧
      ((run (start heap calls) schedule).heap p).sign = if s1 then (heap x).sign else (heap p).sign := by
    intro b e1 e2 e; rw [e]; exact ⟨e1, e2⟩
  match done, h1 with
  | [], h1 =>
    exfalso
    simp only [List.nil_append] at h1
    refine hseen (aesi_ext (h2.sign _ _ h1.symm q (by simp)) fun j hj => ?_)
    have := h2.block _ _ h1.symm q (by simp) j hj
    simpa [apply_base, hqp] using this
  | [c], h1 =>
    simp only [List.cons_append, List.nil_append, List.cons.injEq] at h1
    obtain ⟨rfl, h1⟩ := h1
    have hp : ∀ j (hj : j < n), ((run (start heap calls) schedule).heap p).base[j] = (heap x).base[j] := by
      intro j hj
      have := h2.block _ _ h1.symm p (by simp) j hj
      simpa [apply_base, hpq] using this
    refine ⟨by ext j hj; rw [hp j hj], ?_⟩
    have := h2.sign _ _ h1.symm p (by simp)
    rw [this]
    cases s1 <;> simp [Call.apply]
  | [c, d], h1 =>
    simp only [List.cons_append, List.nil_append, List.cons.injEq] at h1
    obtain ⟨rfl, rfl, h1⟩ := h1
    refine hex _ ?_ ?_ (h2.idle h1.symm p (by simp))
    · simp [Call.apply, hpq]
    · cases s1 <;> simp [Call.apply, hpq]
  | c :: d :: e :: r, h1 => simp at h1

/-! ### Reading an object that others write -/

private structure Copying (heap0 : Fin k → Aesi n) (calls : Fin T → List (Call k)) (c : Call k) (sched : List (Fin T))
    (s : State n k T) (t : Thread k) : Prop where
  todo : t.calls = [c] ∨ t.calls = []
  old : ∀ j (hj : j < n), (t.calls = [] ∨ j < t.i) →
    ∃ pre, pre <+: sched ∧ (s.heap c.target).base[j] = ((run (start heap0 calls) pre).heap c.arg).base[j]
  reg : t.calls = [c] → ∀ hi : t.i < n, t.phase = .exch →
    ∃ pre, pre <+: sched ∧ t.reg = ((run (start heap0 calls) pre).heap c.arg).base[t.i]
  sreg : t.calls = [c] → ¬ t.i < n → t.phase ≠ .load →
    ∃ pre, pre <+: sched ∧ t.sreg = ((run (start heap0 calls) pre).heap c.arg).sign
  sign : t.calls = [] → c.signed = true →
    ∃ pre, pre <+: sched ∧ (s.heap c.target).sign = ((run (start heap0 calls) pre).heap c.arg).sign

private theorem ex_mono {sched : List (Fin T)} {j : Fin T} {P : List (Fin T) → Prop}
    (h : ∃ pre, pre <+: sched ∧ P pre) : ∃ pre, pre <+: sched ++ [j] ∧ P pre := by
  obtain ⟨pre, h1, h2⟩ := h
  exact ⟨pre, h1.trans (List.prefix_append _ _), h2⟩

/-- C104: a thread copies an object that other threads may be writing into an object nobody else writes
(`mine.tryAtomicSet(shared)`).  Under every schedule, when the call is over each block (and the sign) of the copy
is that block (the sign) of the shared object at some moment of the execution; C104_counterexample_copy shows that the
moments may differ. -/
theorem C104_copy (heap : Fin k → Aesi n) (calls : Fin T → List (Call k)) (t : Fin T) (sg : Bool) (p q : Fin k)
    (hcall : calls t = [⟨false, sg, p, q⟩])
    (hother : ∀ t', t' ≠ t → ∀ c ∈ calls t', c.target ≠ p ∧ (c.exchange = true → c.arg ≠ p))
    (schedule : List (Fin T)) (hend : ((run (start heap calls) schedule).th t).calls = []) :
    (∀ i (hi : i < n), ∃ pre, pre <+: schedule ∧ ((run (start heap calls) schedule).heap p).base[i] =
      ((run (start heap calls) pre).heap q).base[i]) ∧
    (sg = true → ∃ pre, pre <+: schedule ∧ ((run (start heap calls) schedule).heap p).sign =
      ((run (start heap calls) pre).heap q).sign) := by
  have key := run_ind (s := start heap calls)
    (P := fun sched s => Copying heap calls ⟨false, sg, p, q⟩ sched s (s.th t))
    ⟨.inl hcall, fun j hj h => by simp [start, hcall] at h, fun _ _ h => by simp [start] at h,
      fun _ _ h => by simp [start] at h, fun h => by simp [start, hcall] at h⟩ (by
      intro sched j ih
      by_cases hj : j = t
      · subst hj
        have hstore := (run_shape heap calls sched j).store
        obtain ⟨h1, h2, h3, h4, h5⟩ := ih
        simp only [step, if_true]
        generalize hs : run (start heap calls) sched = s at *
        generalize hth : s.th j = t at *
        obtain ⟨tc, ti, tp, tr, ts⟩ := t
        dsimp only at h1 h2 h3 h4 h5 hstore ⊢
        rcases h1 with rfl | rfl
        · simp only [stepThread]
          by_cases hi : ti < n
          · simp only [dif_pos hi]
            cases tp with
            | load =>
              refine ⟨.inl rfl, fun j' hj' h => ex_mono (h2 j' hj' h), ?_, ?_, ?_⟩
              · intro _ _ _
                exact ⟨sched, List.prefix_append _ _, by rw [hs]⟩
              · intro _ h; exact absurd hi h
              · intro h; simp at h
            | exch =>
              dsimp only
              simp only [Bool.false_eq_true, if_false]
              refine ⟨.inl rfl, ?_, ?_, ?_, ?_⟩
              · intro j' hj' h
                by_cases hji : j' = ti
                · subst hji
                  have := h3 rfl hi rfl
                  obtain ⟨pre, g1, g2⟩ := this
                  refine ⟨pre, g1.trans (List.prefix_append _ _), ?_⟩
                  rw [setBlock_get hi tr hj', if_pos ⟨rfl, rfl⟩, g2]
                · rw [setBlock_get hi tr hj', if_neg (by simp [hji])]
                  refine ex_mono (h2 j' hj' (.inr ?_))
                  rcases h with h | h
                  · simp at h
                  · dsimp only at h; omega
              · intro _ _ h; simp at h
              · intro _ _ h; simp at h
              · intro h; simp at h
            | store =>
              have := (hstore rfl).2 _ _ rfl
              simp at this
          · simp only [dif_neg hi]
            have hall : ∀ j' (hj' : j' < n), ∃ pre, pre <+: sched ++ [j] ∧ (s.heap p).base[j'] =
                ((run (start heap calls) pre).heap q).base[j'] := fun j' hj' =>
              ex_mono (h2 j' hj' (.inr (by omega)))
            split
            · have hfin : tp ≠ .load → Copying heap calls ⟨false, sg, p, q⟩ (sched ++ [j])
                  ⟨setSign s.heap p ts, fun j' => if j' = j then ⟨[], 0, .load, tr, ts⟩ else s.th j'⟩
                  ⟨[], 0, .load, tr, ts⟩ := by
                intro hne
                refine ⟨.inr rfl, ?_, fun h => by simp at h, fun h => by simp at h, ?_⟩
                · intro j' hj' _
                  have := setSign_base (heap := s.heap) (p := p) (q := p) ts
                  simp only [this]
                  exact hall j' hj'
                · intro _ _
                  obtain ⟨pre, g1, g2⟩ := h4 rfl hi hne
                  refine ⟨pre, g1.trans (List.prefix_append _ _), ?_⟩
                  simp only [setSign_sign, if_true]
                  exact g2
              cases tp with
              | load =>
                refine ⟨.inl rfl, fun j' hj' _ => hall j' hj', ?_, ?_, ?_⟩
                · intro _ h; exact absurd h hi
                · intro _ _ _
                  exact ⟨sched, List.prefix_append _ _, by rw [hs]⟩
                · intro h; simp at h
              | exch => exact hfin (by simp)
              | store => exact hfin (by simp)
            · rename_i hsgn
              exact ⟨.inr rfl, fun j' hj' _ => hall j' hj', fun h => by simp at h, fun h => by simp at h,
                fun _ h => absurd h hsgn⟩
        · simp only [stepThread]
          exact ⟨.inr rfl, fun j' hj' h => ex_mono (h2 j' hj' h), fun h => by simp at h, fun h => by simp at h,
            fun h h' => ex_mono (h5 h h')⟩
      · have hf : (step (run (start heap calls) sched) j).heap p = (run (start heap calls) sched).heap p :=
          stepThread_frame (run_shape heap calls sched j) fun c hc => hother j hj c hc
        have ht : (step (run (start heap calls) sched) j).th t = (run (start heap calls) sched).th t := by
          simp only [step, if_neg (Ne.symm hj)]
        rw [ht]
        refine ⟨ih.todo, ?_, fun a b c => ex_mono (ih.reg a b c), fun a b c => ex_mono (ih.sreg a b c), ?_⟩
        · intro j' hj' h; simp only [hf]; exact ex_mono (ih.old j' hj' h)
        · intro a b; simp only [hf]; exact ex_mono (ih.sign a b)) schedule
  exact ⟨fun i hi => key.old i hi (.inl hend), fun h => key.sign hend h⟩

/-! ### Exchanges lose nothing, if each thread brings its own argument -/

/-- When all calls are over, the blocks at each position are the blocks the objects had there at the start, moved
around: none is lost, none is there twice. -/
def Conserved (heap heap' : Fin k → Aesi n) : Prop :=
  ∀ i (hi : i < n), ∃ σ : Equiv.Perm (Fin k), ∀ p, (heap' p).base[i] = (heap (σ p)).base[i]

/-- C104, the full statement: exchanges only move blocks, under every schedule. -/
def C104_full : Prop :=
  ∀ (n k T : Nat) (heap : Fin k → Aesi n) (calls : Fin T → List (Call k)) (schedule : List (Fin T)),
    (∀ t, ∀ c ∈ calls t, c.exchange = true) → (∀ t, ((run (start heap calls) schedule).th t).calls = []) →
    Conserved heap (run (start heap calls) schedule).heap

private def InStore (t : Thread k) (i : Nat) (p : Fin k) : Prop :=
  t.phase = .store ∧ t.i = i ∧ ∃ c rest, t.calls = c :: rest ∧ c.arg = p

private structure Cons (heap0 : Fin k → Aesi n) (s : State n k T) (i : Nat) (hi : i < n) (σ : Equiv.Perm (Fin k)) :
    Prop where
  flight : ∀ p t, InStore (s.th t) i p → (s.th t).reg = (heap0 (σ p)).base[i]
  rest : ∀ p, (∀ t, ¬ InStore (s.th t) i p) → (s.heap p).base[i] = (heap0 (σ p)).base[i]
  loaded : ∀ t c rest, (s.th t).calls = c :: rest → (s.th t).i = i → (s.th t).phase = .exch →
    (s.th t).reg = (s.heap c.arg).base[i]
  held : ∀ t c rest, (s.th t).calls = c :: rest → (s.th t).i = i → (s.th t).phase = .store → c.target = c.arg →
    (s.th t).reg = (s.heap c.arg).base[i]

/-- C104: exchanges lose nothing under any schedule when every argument belongs to one thread: no other thread names
it as an argument or as a target, unless both calls exchange the object with itself.  Targets may be shared by all
threads.  (Only sets of values at each position: the sign of an object is copied, never exchanged.) -/
theorem C104_conserved_partial (heap : Fin k → Aesi n) (calls : Fin T → List (Call k)) (schedule : List (Fin T))
    (hx : ∀ t, ∀ c ∈ calls t, c.exchange = true)
    (harg : ∀ t, ∀ c ∈ calls t, ∀ t', t' ≠ t → ∀ c' ∈ calls t', c'.target = c.arg ∨ c'.arg = c.arg →
      c.target = c.arg ∧ c'.target = c'.arg)
    (hend : ∀ t, ((run (start heap calls) schedule).th t).calls = []) :
    Conserved heap (run (start heap calls) schedule).heap := by
  intro i hi
  have key := run_ind (s := start heap calls) (P := fun _ s => ∃ σ, Cons heap s i hi σ)
    ⟨Equiv.refl _, fun _ _ h => by simp [InStore, start] at h, fun _ _ => rfl,
      fun _ _ _ _ _ h => by simp [start] at h, fun _ _ _ _ _ h => by simp [start] at h⟩ (by
      rintro sched j ⟨σ, hf, hr, hl, hd⟩
      have hsh := run_shape heap calls sched
      generalize run (start heap calls) sched = s at *
      -- the other threads, seen from `j`
      have hne : ∀ t, t ≠ j → (step s j).th t = s.th t := fun t h => by simp only [step, if_neg h]
      have hje : (step s j).th j = (stepThread s.heap (s.th j)).2 := by simp only [step, if_true]
      have hhe : (step s j).heap = (stepThread s.heap (s.th j)).1 := rfl
      have hmem : ∀ t c rest, (s.th t).calls = c :: rest → c ∈ calls t := fun t c rest h =>
        (hsh t).sub c (by rw [h]; simp)
      generalize hth : s.th j = tj at *
      have hfj := hf
      obtain ⟨tc, ti, tp, tr, ts⟩ := tj
      cases tc with
      | nil =>
        have e1 : (stepThread s.heap (⟨[], ti, tp, tr, ts⟩ : Thread k)).2 = s.th j := by rw [hth]; rfl
        have e2 : (stepThread s.heap (⟨[], ti, tp, tr, ts⟩ : Thread k)).1 = s.heap := rfl
        rw [e1] at hje; rw [e2] at hhe
        have hall : ∀ t, (step s j).th t = s.th t := fun t => by
          by_cases h : t = j
          · subst h; exact hje
          · exact hne t h
        refine ⟨σ, ?_, ?_, ?_, ?_⟩
        · intro p t; rw [hall]; exact hf p t
        · intro p h; rw [hhe]; exact hr p (fun t => by rw [← hall]; exact h t)
        · intro t c rest; rw [hall, hhe]; exact hl t c rest
        · intro t c rest; rw [hall, hhe]; exact hd t c rest
      | cons c rest =>
        have hcm : c ∈ calls j := hmem j c rest (by rw [hth])
        have hcx := hx j c hcm
        have hargN : c.target ≠ c.arg → ∀ t, t ≠ j → ∀ c' ∈ calls t,
            c'.target ≠ c.arg ∧ c'.arg ≠ c.arg ∧ c'.arg ≠ c.target := fun hns t e c' hc' =>
          ⟨fun h => hns (harg j c hcm t e c' hc' (.inl h)).1, fun h => hns (harg j c hcm t e c' hc' (.inr h)).1,
            fun h => hns (harg t c' hc' j (Ne.symm e) c hcm (.inl h.symm)).2⟩
        by_cases hin : ti < n
        · cases tp with
          | load =>
            have e2 : (stepThread s.heap (⟨c :: rest, ti, .load, tr, ts⟩ : Thread k)).1 = s.heap := by
              simp only [stepThread, dif_pos hin]
            have e1 : (stepThread s.heap (⟨c :: rest, ti, .load, tr, ts⟩ : Thread k)).2 =
                ⟨c :: rest, ti, .exch, (s.heap c.arg).base[ti], ts⟩ := by
              simp only [stepThread, dif_pos hin]
            rw [e1] at hje; rw [e2] at hhe
            have hin' : ∀ p t, InStore ((step s j).th t) i p ↔ InStore (s.th t) i p := by
              intro p t
              by_cases h : t = j
              · subst h; rw [hje, hth]; simp [InStore]
              · rw [hne t h]
            refine ⟨σ, ?_, ?_, ?_, ?_⟩
            rotate_left 3
            · intro t c' rest' h1 h2 h3
              by_cases e : t = j
              · subst e; rw [hje] at h3; simp at h3
              · rw [hne t e] at h1 h2 h3 ⊢; rw [hhe]; exact hd t c' rest' h1 h2 h3
            · intro p t h
              have h' := (hin' p t).1 h
              by_cases e : t = j
              · subst e; rw [hth] at h'; simp [InStore] at h'
              · rw [hne t e]; exact hf p t h'
            · intro p h; rw [hhe]; exact hr p (fun t h' => h t ((hin' p t).2 h'))
            · intro t c' rest' h1 h2 h3
              by_cases e : t = j
              · subst e
                rw [hje] at h1 h2 ⊢
                simp only [List.cons.injEq] at h1 h2
                obtain ⟨rfl, rfl⟩ := h1
                subst h2
                rw [hhe]
              · rw [hne t e] at h1 h2 h3 ⊢; rw [hhe]; exact hl t c' rest' h1 h2 h3
          | exch =>
            have e2 : (stepThread s.heap (⟨c :: rest, ti, .exch, tr, ts⟩ : Thread k)).1 =
                setBlock s.heap c.target ti hin tr := by
              simp only [stepThread, dif_pos hin, hcx, if_true]
            have e1 : (stepThread s.heap (⟨c :: rest, ti, .exch, tr, ts⟩ : Thread k)).2 =
                ⟨c :: rest, ti, .store, (s.heap c.target).base[ti], ts⟩ := by
              simp only [stepThread, dif_pos hin, hcx, if_true]
            rw [e1] at hje; rw [e2] at hhe
            have hnj : ∀ p m, ¬ InStore (s.th j) m p := by
              rintro p m ⟨h, _⟩; rw [hth] at h; simp at h
            by_cases hself : c.target = c.arg
            · -- the object is exchanged with itself: nothing changes
              have hsame : ∀ p, ((step s j).heap p).base[i] = (s.heap p).base[i] := by
                intro p
                rw [hhe, setBlock_get hin tr hi]
                split
                · next h =>
                  obtain ⟨rfl, rfl⟩ := h
                  have := hl j c rest (by rw [hth]) (by rw [hth]) (by rw [hth])
                  rw [hth] at this; rw [hself]; exact this
                · rfl
              refine ⟨σ, ?_, ?_, ?_, ?_⟩
              · intro p t h
                by_cases e : t = j
                · subst e
                  rw [hje] at h ⊢
                  obtain ⟨_, g0, c', rest', g1, g2⟩ := h
                  simp only [List.cons.injEq] at g1 g0
                  obtain ⟨rfl, rfl⟩ := g1
                  subst g2 g0
                  dsimp only
                  simp only [hself]
                  by_cases hex : ∃ t', InStore (s.th t') ti c.arg
                  · obtain ⟨t', ht'⟩ := hex
                    have e' : t' ≠ t := fun h => hnj _ _ (h ▸ ht')
                    have h1 := hf c.arg t' ht'
                    obtain ⟨q1, q2, c', rest', q3, q4⟩ := ht'
                    have h2 := hd t' c' rest' q3 q2 q1 (harg t c hcm t' e' c' (hmem t' c' rest' q3) (.inr q4)).2
                    rw [q4] at h2
                    rw [← h2]; exact h1
                  · exact hr c.arg fun t' h' => hex ⟨t', h'⟩
                · rw [hne t e] at h ⊢; exact hf p t h
              · intro p h
                rw [hsame]
                refine hr p fun t h' => ?_
                by_cases e : t = j
                · subst e; exact hnj _ _ h'
                · exact h t (by rw [hne t e]; exact h')
              · intro t c' rest' h1 h2 h3
                by_cases e : t = j
                · subst e; rw [hje] at h3; simp at h3
                · rw [hne t e] at h1 h2 h3 ⊢
                  rw [hsame]; exact hl t c' rest' h1 h2 h3
              · intro t c' rest' h1 h2 h3 h4
                rw [hsame]
                by_cases e : t = j
                · subst e
                  rw [hje] at h1 h2 ⊢
                  simp only [List.cons.injEq] at h1 h2
                  obtain ⟨rfl, rfl⟩ := h1
                  subst h2
                  simp only [hself]
                · rw [hne t e] at h1 h2 h3 ⊢
                  exact hd t c' rest' h1 h2 h3 h4
            -- nobody else holds a block for an argument of `j` or for its target
            have hother : ∀ t, t ≠ j → ∀ m, ¬ InStore (s.th t) m c.arg := by
              rintro t e m ⟨_, _, c', rest', g1, g2⟩
              exact (hargN hself t e c' (hmem t c' rest' g1)).2.1 g2
            have htgt : ∀ t m, ¬ InStore (s.th t) m c.target := by
              intro t m h
              by_cases e : t = j
              · subst e; exact hnj _ _ h
              · obtain ⟨_, _, c', rest', g1, g2⟩ := h
                exact (hargN hself t e c' (hmem t c' rest' g1)).2.2 g2
            by_cases hii : ti = i
            · subst hii
              have hreg : tr = (s.heap c.arg).base[ti] := by
                have := hl j c rest (by rw [hth]) (by rw [hth]) (by rw [hth])
                rw [hth] at this; exact this
              have ha := hr c.arg (fun t => by
                by_cases e : t = j
                · subst e; exact hnj _ _
                · exact hother t e _)
              have hg := hr c.target (fun t => htgt t _)
              refine ⟨(Equiv.swap c.target c.arg).trans σ, ?_, ?_, ?_, ?_⟩
              rotate_left 3
              · intro t c' rest' h1 h2 h3 h4
                by_cases e : t = j
                · subst e
                  rw [hje] at h1
                  simp only [List.cons.injEq] at h1
                  exact absurd (h1.1 ▸ h4) hself
                · rw [hne t e] at h1 h2 h3 ⊢
                  rw [hhe, setBlock_get hin tr hin, if_neg, hd t c' rest' h1 h2 h3 h4]
                  rintro ⟨h, _⟩
                  exact (hargN hself t e c' (hmem t c' rest' h1)).2.2 h
              · intro p t h
                by_cases e : t = j
                · subst e
                  rw [hje] at h ⊢
                  obtain ⟨_, _, c', rest', g1, g2⟩ := h
                  simp only [List.cons.injEq] at g1
                  obtain ⟨rfl, rfl⟩ := g1
                  subst g2
                  simp only [Equiv.trans_apply, Equiv.swap_apply_right]
                  exact hg
                · rw [hne t e] at h ⊢
                  have h1 : p ≠ c.arg := fun h' => hother t e _ (h' ▸ h)
                  have h2 : p ≠ c.target := fun h' => htgt t _ (h' ▸ h)
                  simp only [Equiv.trans_apply, Equiv.swap_apply_of_ne_of_ne h2 h1]
                  exact hf p t h
              · intro p h
                have h1 : p ≠ c.arg := by
                  intro h'
                  refine h j ?_
                  rw [hje]
                  exact ⟨rfl, rfl, c, rest, rfl, h'.symm⟩
                rw [hhe, setBlock_get hin tr hin]
                by_cases h2 : p = c.target
                · subst h2
                  simp only [Equiv.trans_apply, Equiv.swap_apply_left, and_self, if_true]
                  rw [hreg]; exact ha
                · rw [if_neg (by simp [h2])]
                  simp only [Equiv.trans_apply, Equiv.swap_apply_of_ne_of_ne h2 h1]
                  refine hr p fun t h' => ?_
                  by_cases e : t = j
                  · subst e; exact hnj _ _ h'
                  · exact h t (by rw [hne t e]; exact h')
              · intro t c' rest' h1 h2 h3
                by_cases e : t = j
                · subst e; rw [hje] at h3; simp at h3
                · rw [hne t e] at h1 h2 h3 ⊢
                  rw [hhe, setBlock_get hin tr hin, if_neg, hl t c' rest' h1 h2 h3]
                  rintro ⟨h, _⟩
                  exact (hargN hself t e c' (hmem t c' rest' h1)).2.2 h
            · refine ⟨σ, ?_, ?_, ?_, ?_⟩
              rotate_left 3
              · intro t c' rest' h1 h2 h3 h4
                by_cases e : t = j
                · subst e
                  rw [hje] at h1
                  simp only [List.cons.injEq] at h1
                  exact absurd (h1.1 ▸ h4) hself
                · rw [hne t e] at h1 h2 h3 ⊢
                  rw [hhe, setBlock_get hin tr hi, if_neg (by rintro ⟨_, h⟩; exact hii h.symm)]
                  exact hd t c' rest' h1 h2 h3 h4
              · intro p t h
                by_cases e : t = j
                · subst e; rw [hje] at h; exact absurd h.2.1 hii
                · rw [hne t e] at h ⊢; exact hf p t h
              · intro p h
                rw [hhe, setBlock_get hin tr hi, if_neg (by rintro ⟨_, h⟩; exact hii h.symm)]
                refine hr p fun t h' => ?_
                by_cases e : t = j
                · subst e; exact hnj _ _ h'
                · exact h t (by rw [hne t e]; exact h')
              · intro t c' rest' h1 h2 h3
                by_cases e : t = j
                · subst e; rw [hje] at h3; simp at h3
                · rw [hne t e] at h1 h2 h3 ⊢
                  rw [hhe, setBlock_get hin tr hi, if_neg (by rintro ⟨_, h⟩; exact hii h.symm)]
                  exact hl t c' rest' h1 h2 h3
          | store =>
            have e2 : (stepThread s.heap (⟨c :: rest, ti, .store, tr, ts⟩ : Thread k)).1 =
                setBlock s.heap c.arg ti hin tr := by
              simp only [stepThread, dif_pos hin]
            have e1 : (stepThread s.heap (⟨c :: rest, ti, .store, tr, ts⟩ : Thread k)).2 =
                ⟨c :: rest, ti + 1, .load, tr, ts⟩ := by
              simp only [stepThread, dif_pos hin]
            rw [e1] at hje; rw [e2] at hhe
            have hinj : ∀ p m, ¬ InStore ((step s j).th j) m p := by
              rintro p m ⟨h, _⟩; rw [hje] at h; simp at h
            -- what a self-exchange stores is there already
            have hstay : ∀ t, t ≠ j → ∀ c' ∈ calls t, ((step s j).heap c'.arg).base[i] = (s.heap c'.arg).base[i] := by
              intro t e c' hc'
              rw [hhe, setBlock_get hin tr hi]
              split
              · next h =>
                obtain ⟨h, rfl⟩ := h
                have := hd j c rest (by rw [hth]) (by rw [hth]) (by rw [hth]) (harg j c hcm t e c' hc' (.inr h)).1
                rw [hth] at this; rw [h]; exact this
              · rfl
            refine ⟨σ, ?_, ?_, ?_, ?_⟩
            rotate_left 3
            · intro t c' rest' h1 h2 h3 h4
              by_cases e : t = j
              · subst e; rw [hje] at h3; simp at h3
              · rw [hne t e] at h1 h2 h3 ⊢
                rw [hstay t e c' (hmem t c' rest' h1)]
                exact hd t c' rest' h1 h2 h3 h4
            · intro p t h
              by_cases e : t = j
              · subst e; exact absurd h (hinj _ _)
              · rw [hne t e] at h ⊢; exact hf p t h
            · intro p h
              rw [hhe, setBlock_get hin tr hi]
              by_cases hc : p = c.arg ∧ i = ti
              · obtain ⟨rfl, rfl⟩ := hc
                rw [if_pos ⟨rfl, rfl⟩]
                have := hf c.arg j (by rw [hth]; exact ⟨rfl, rfl, c, rest, rfl, rfl⟩)
                rw [hth] at this; exact this
              · rw [if_neg hc]
                refine hr p fun t h' => ?_
                by_cases e : t = j
                · subst e
                  rw [hth] at h'
                  obtain ⟨_, g0, c', rest', g1, g2⟩ := h'
                  simp only [List.cons.injEq] at g1 g0
                  obtain ⟨rfl, rfl⟩ := g1
                  exact hc ⟨g2.symm, g0.symm⟩
                · exact h t (by rw [hne t e]; exact h')
            · intro t c' rest' h1 h2 h3
              by_cases e : t = j
              · subst e; rw [hje] at h3; simp at h3
              · rw [hne t e] at h1 h2 h3 ⊢
                rw [hstay t e c' (hmem t c' rest' h1)]
                exact hl t c' rest' h1 h2 h3
        · -- the sign: no block moves
          have hbase : ∀ p, ((stepThread s.heap (⟨c :: rest, ti, tp, tr, ts⟩ : Thread k)).1 p).base = (s.heap p).base := by
            intro p
            simp only [stepThread, dif_neg hin]
            split
            · cases tp with
              | load => rfl
              | exch => exact setSign_base ts
              | store => exact setSign_base ts
            · rfl
          have hph : ∀ m p, ¬ InStore ((step s j).th j) m p := by
            rintro m p ⟨h, _⟩
            rw [hje] at h
            simp only [stepThread, dif_neg hin] at h
            revert h
            split
            · cases tp <;> simp
            · simp
          have hnold : ∀ m p, ¬ InStore (s.th j) m p := by
            rintro m p ⟨h, _⟩
            exact hin ((by have := ((hsh j).store h).1; rw [hth] at this; exact this))
          refine ⟨σ, ?_, ?_, ?_, ?_⟩
          rotate_left 3
          · intro t c' rest' h1 h2 h3 h4
            by_cases e : t = j
            · subst e; exact absurd ⟨h3, rfl, c', rest', h1, rfl⟩ (hph ((step s t).th t).i c'.arg)
            · rw [hne t e] at h1 h2 h3 ⊢
              rw [hhe]; simp only [hbase]; exact hd t c' rest' h1 h2 h3 h4
          · intro p t h
            by_cases e : t = j
            · subst e; exact absurd h (hph _ _)
            · rw [hne t e] at h ⊢; exact hf p t h
          · intro p h
            rw [hhe]; simp only [hbase]
            refine hr p fun t h' => ?_
            by_cases e : t = j
            · subst e; exact hnold _ _ h'
            · exact h t (by rw [hne t e]; exact h')
          · intro t c' rest' h1 h2 h3
            by_cases e : t = j
            · subst e
              exfalso
              rw [hje] at h2 h3
              simp only [stepThread, dif_neg hin] at h2 h3
              revert h2 h3
              split
              · cases tp with
                | load => simp; omega
                | exch => simp
                | store => simp
              · simp
            · rw [hne t e] at h1 h2 h3 ⊢
              rw [hhe]; simp only [hbase]; exact hl t c' rest' h1 h2 h3) schedule
  obtain ⟨σ, _, hr, _, _⟩ := key
  refine ⟨σ, fun p => hr p ?_⟩
  rintro t ⟨_, _, c, rest, h, _⟩
  rw [hend t] at h
  simp at h

/-! ### Cases -/

private def num (s : Sign) (b : List Nat) : Aesi 2 := ⟨s, Vector.ofFn fun i => BitVec.ofNat 32 (b.getD i.1 0)⟩

/-- Three numbers: `[5, 6]`, `-[7, 8]`, `[9, 10]`. -/
private def mem3 : Fin 3 → Aesi 2 := fun p =>
  [num .positive [5, 6], num .negative [7, 8], num .positive [9, 10]].getD p.1 (num .zero [])

/-- Two threads exchange their own targets 0 and 1 with the same argument 2. -/
private def sameArg : Fin 2 → List (Call 3) := fun t =>
  [[⟨true, true, 0, 2⟩], [⟨true, true, 1, 2⟩]].getD t.1 []

/-- Both threads run in lockstep. -/
private def lockstep : List (Fin 2) := (List.replicate 8 [0, 1]).flatten

private theorem lockstep_done : ∀ t, ((run (start mem3 sameArg) lockstep).th t).calls = [] := by decide +kernel

/-- The code loses values: after `x.tryAtomicExchange(z)` and `y.tryAtomicExchange(z)` in parallel both `x` and `y`
hold the old `z`, `z` holds the old `y`, and the old `x` is gone. -/
theorem C104_counterexample :
    ((run (start mem3 sameArg) lockstep).heap 0).base = (mem3 2).base ∧
    ((run (start mem3 sameArg) lockstep).heap 1).base = (mem3 2).base ∧
    ((run (start mem3 sameArg) lockstep).heap 2).base = (mem3 1).base := by decide +kernel

/-- Hence the full statement is false of the code. -/
theorem C104_full_fails : ¬ C104_full := by
  intro h
  have h1 := h 2 3 2 mem3 sameArg lockstep (by decide +kernel) lockstep_done
  obtain ⟨σ, hσ⟩ := h1 0 (by omega)
  have e0 := hσ (σ.symm 0)
  rw [Equiv.apply_symm_apply] at e0
  have : ∀ p : Fin 3, ((run (start mem3 sameArg) lockstep).heap p).base[0] ≠ (mem3 0).base[0] := by decide +kernel
  exact this _ e0

/-- Thread 0 copies object 0 into its own object 2 while thread 1 sets object 0 to object 1. -/
private def reader : Fin 2 → List (Call 3) := fun t => [[⟨false, true, 2, 0⟩], [⟨false, true, 0, 1⟩]].getD t.1 []

private def between : List (Fin 2) := [0, 0, 1, 1, 1, 1, 1, 1, 0, 0, 0, 0]

/-- The copy can be a number the shared object never was: here `-[5, 8]`, half of the old and half of the new. -/
theorem C104_counterexample_copy :
    (∀ t, ((run (start mem3 reader) between).th t).calls = []) ∧
    (run (start mem3 reader) between).heap 2 = num .negative [5, 8] ∧
    ∀ m : Fin 13, (run (start mem3 reader) (between.take m)).heap 0 ≠ num .negative [5, 8] := by decide +kernel

/-- C104_copy applies to that execution. -/
example := C104_copy mem3 reader 0 true 2 0 rfl (by decide +kernel) between (C104_counterexample_copy.1 0)

/-- Two threads exchange their own objects 1 and 2 with the shared object 0. -/
private def ownArg : Fin 2 → List (Call 3) := fun t =>
  [[⟨true, true, 0, 1⟩, ⟨true, true, 0, 1⟩], [⟨true, false, 0, 2⟩]].getD t.1 []

private def mixed : List (Fin 2) := [0, 1, 1, 0, 1, 0, 0, 1, 1, 1, 1, 0, 0, 0, 0, 0, 0, 0, 0, 0, 0, 0, 0, 0, 0]

example := C104_conserved_partial mem3 ownArg mixed (by decide +kernel) (by decide +kernel) (by decide +kernel)

example := C104_never_torn mem3 ownArg (fun _ => True) (by simp) mixed 0 trivial

/-- The group `{0, 1}`: thread 1 of `reader` writes object 0 from object 1, nothing comes from outside. -/
example := C104_never_torn mem3 reader (fun p => p ≠ 2) (by decide +kernel) between 0 (by decide)

example := C104_read_only mem3 reader 1 (by decide +kernel) between

example := C104_wait_free mem3 sameArg lockstep 1 (by decide +kernel)

/-- Thread 0 exchanges 0 with 1 and then 1 with 0; thread 1 only reads object 0 into object 2. -/
private def quiet : Fin 2 → List (Call 3) := fun t =>
  [[⟨true, true, 0, 1⟩, ⟨true, true, 1, 0⟩], [⟨false, true, 2, 0⟩]].getD t.1 []

private def quietRun : List (Fin 2) := [0, 1, 1, 0, 1, 0, 0, 1, 1, 1, 1, 0, 0, 0, 0, 0, 0, 0, 0, 0, 0, 0, 0, 0, 0]

example := C104_undisturbed mem3 quiet 0 (fun p => p ≠ 2) (by decide +kernel) (by decide +kernel) quietRun
  (by decide +kernel) 0 (by decide)

/-- In the middle of the second exchange of thread 0. -/
example := C104_in_progress mem3 quiet 0 (fun p => p ≠ 2) (by decide +kernel) (by decide +kernel)
  (quietRun.take 16) [⟨true, true, 0, 1⟩] ⟨true, true, 1, 0⟩ [] rfl (by decide +kernel)

/-- Thread 0 copies object 2 into object 0 and then into object 1; thread 1 does nothing. -/
private def publisher : Fin 2 → List (Call 3) := fun t =>
  [[⟨false, true, 0, 2⟩, ⟨false, false, 1, 2⟩], []].getD t.1 []

/-- One block of object 1 has changed, the other has not. -/
example := C104_publish mem3 publisher 0 0 1 2 2 true false rfl (by decide) (by decide +kernel)
  [0, 1, 0, 0, 1, 0, 0, 0, 0, 0] (by decide +kernel)

end AesiMP
