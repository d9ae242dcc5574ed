import Verif.Model.Cuda
import Verif.Spec
import Verif.SpecInt
import Mathlib.Data.Fintype.Prod
import Mathlib.Data.Multiset.MapFold
import Mathlib.Tactic.FinCases

/-!
# Properties C55, C56: `tryAtomicSet` and `tryAtomicExchange` under every schedule

`run s schedule` is the state after the threads did their steps in the order `schedule` — any list of
thread numbers.  `(s.th t).calls` are the calls thread `t` has not completed.
-/

namespace AesiMP
open Cuda
variable {n k T : Nat}

private theorem run_append (s : State n k T) (a b : List (Fin T)) : run s (a ++ b) = run (run s a) b :=
  List.foldl_append

private theorem run_inv {P : State n k T → Prop} (hstep : ∀ s j, P s → P (step s j)) (sched : List (Fin T)) :
    ∀ s, P s → P (run s sched) := by
  induction sched with
  | nil => exact fun s h => h
  | cons j r ih => exact fun s h => ih _ (hstep s j h)

/-- The threads at the start: thread `t` is going to do `calls t` with its objects `own t`. -/
def Cuda.start (obj : Aesi n) (calls : Fin T → List (Call k)) (own : Fin T → Fin k → Aesi n) : State n k T :=
  ⟨obj, fun t => Thread.start (calls t) (own t)⟩

/-- The scheduler lets the thread execute its `atomicExch` on block `i` of the shared object in the next
step. -/
def Cuda.WritesNext (s : State n k T) (t : Fin T) (c : Call k) (i : Nat) : Prop :=
  (s.th t).calls.head? = some c ∧ (s.th t).phase = .exch ∧ (s.th t).i = i ∧ i < n

/-! ### The invariant of concurrent sets -/

/-- The argument thread `t` has most recently written to block `i`: that of the call in progress if its
loop has passed `i`, else that of the last completed call. -/
private def latest (done : List (Call k)) (t : Thread n k) (i : Nat) : Option (Fin k) :=
  match t.calls with
  | [] => done.getLast?.map (·.arg)
  | c :: _ => if i < t.i then some c.arg else done.getLast?.map (·.arg)

private structure SetInv (sg : Bool) (obj : Aesi n) (calls : Fin T → List (Call k))
    (own : Fin T → Fin k → Aesi n) (done : Fin T → List (Call k)) (s : State n k T) : Prop where
  split : ∀ t, calls t = done t ++ (s.th t).calls
  own_eq : ∀ t, (s.th t).own = own t
  idle : ∀ t, (s.th t).calls = [] → (s.th t).i = 0
  reg : ∀ t c r (hi : (s.th t).i < n), (s.th t).calls = c :: r → (s.th t).phase = .exch →
    (s.th t).reg = (own t c.arg).base[(s.th t).i]
  phase : ∀ t, (s.th t).phase ≠ .store
  block : ∀ i (hi : i < n), (s.obj.base[i] = obj.base[i] ∧ ∀ t, latest (done t) (s.th t) i = none) ∨
    ∃ t p, latest (done t) (s.th t) i = some p ∧ s.obj.base[i] = (own t p).base[i]
  sign : sg = true → (s.obj.sign = obj.sign ∧ ∀ t, done t = []) ∨
    ∃ t c, (done t).getLast? = some c ∧ s.obj.sign = (own t c.arg).sign

private theorem setInv_start (sg : Bool) (obj : Aesi n) (calls : Fin T → List (Call k))
    (own : Fin T → Fin k → Aesi n) : SetInv sg obj calls own (fun _ => []) (start obj calls own) where
  split _ := rfl
  own_eq _ := rfl
  idle _ _ := rfl
  reg t c r _ _ h := by simp [start, Thread.start] at h
  phase t := by simp [start, Thread.start]
  block i hi := .inl ⟨rfl, fun t => by
    simp only [latest, start, Thread.start]
    split <;> simp⟩
  sign _ := .inl ⟨rfl, fun _ => rfl⟩

private theorem setInv_step {sg : Bool} {obj : Aesi n} {calls : Fin T → List (Call k)}
    {own : Fin T → Fin k → Aesi n} (hset : ∀ t, ∀ c ∈ calls t, c.exchange = false ∧ c.signed = sg)
    (s : State n k T) (j : Fin T) (h : ∃ done, SetInv sg obj calls own done s) :
    ∃ done, SetInv sg obj calls own done (step s j) := by
  obtain ⟨done, h⟩ := h
  cases hc : (s.th j).calls with
  | nil =>
    refine ⟨done, ?_⟩
    have : step s j = s := by
      simp only [step, stepThread, hc]
      congr 1
      funext t; split
      · rename_i e; rw [e]
      · rfl
    rw [this]; exact h
  | cons c rest =>
    have hmem : c ∈ calls j := by rw [h.split j, hc]; simp
    obtain ⟨hex, hsg⟩ := hset j c hmem
    by_cases hi : (s.th j).i < n
    · cases hp : (s.th j).phase with
      | store => exact absurd hp (h.phase j)
      | load =>
        refine ⟨done, ?_⟩
        have e : step s j = ⟨s.obj, fun t => if t = j then
            { s.th j with reg := ((s.th j).own c.arg).base[(s.th j).i], phase := .exch } else s.th t⟩ := by
          simp only [step, stepThread, hc, hi, dite_true, hp]
        rw [e]
        have hl : ∀ t i, latest (done t) (if t = j then
            { s.th j with reg := ((s.th j).own c.arg).base[(s.th j).i], phase := .exch } else s.th t) i =
            latest (done t) (s.th t) i := by
          intro t i; split
          · rename_i e; subst e; rfl
          · rfl
        refine ⟨fun t => ?_, fun t => ?_, fun t ht => ?_, fun t c' r hi' hc' hp' => ?_, fun t => ?_,
          fun i hi => ?_, h.sign⟩
        · dsimp only; split
          · rename_i e; subst e; exact h.split t
          · exact h.split t
        · dsimp only; split
          · rename_i e; subst e; exact h.own_eq t
          · exact h.own_eq t
        · dsimp only at ht ⊢; split at ht
          · rename_i e; subst e; rw [hc] at ht; cases ht
          · rename_i e; rw [if_neg e]; exact h.idle t ht
        · by_cases e : t = j
          · subst e
            simp only [if_true] at hc' hp' hi' ⊢
            rw [hc] at hc'; cases hc'
            simp only [h.own_eq]
          · simp only [if_neg e] at hc' hp' hi' ⊢
            exact h.reg t c' r hi' hc' hp'
        · dsimp only; split
          · simp
          · exact h.phase t
        · simp only [hl]; exact h.block i hi
      | exch =>
        refine ⟨done, ?_⟩
        have e : step s j = ⟨{ s.obj with base := s.obj.base.set (s.th j).i (s.th j).reg },
            fun t => if t = j then { s.th j with i := (s.th j).i + 1, phase := .load } else s.th t⟩ := by
          simp only [step, stepThread, hc, hi, dite_true, hp, hex, Bool.false_eq_true, if_false]
        rw [e]
        have hl : ∀ t i, i ≠ (s.th j).i → latest (done t)
            (if t = j then { s.th j with i := (s.th j).i + 1, phase := .load } else s.th t) i =
            latest (done t) (s.th t) i := by
          intro t i hne; split
          · rename_i e; subst e
            simp only [latest, hc]
            congr 1
            simp only [eq_iff_iff]; omega
          · rfl
        refine ⟨fun t => ?_, fun t => ?_, fun t ht => ?_, fun t c' r hi' hc' hp' => ?_, fun t => ?_,
          fun i hi => ?_, h.sign⟩
        · dsimp only; split
          · rename_i e; subst e; exact h.split t
          · exact h.split t
        · dsimp only; split
          · rename_i e; subst e; exact h.own_eq t
          · exact h.own_eq t
        · dsimp only at ht ⊢; split at ht
          · rename_i e; subst e; rw [hc] at ht; cases ht
          · rename_i e; rw [if_neg e]; exact h.idle t ht
        · by_cases e : t = j
          · simp only [if_pos e] at hp'; cases hp'
          · simp only [if_neg e] at hc' hp' hi' ⊢
            exact h.reg t c' r hi' hc' hp'
        · dsimp only; split
          · simp
          · exact h.phase t
        · by_cases hij : i = (s.th j).i
          · subst hij
            refine .inr ⟨j, c.arg, ?_, ?_⟩
            · simp [latest, hc]
            · simp only [Vector.getElem_set_self]
              exact h.reg j c rest hi hc hp
          · simp only [hl _ i hij, Vector.getElem_set_ne _ _ (Ne.symm hij)]
            exact h.block i hi
    · refine ⟨fun t => if t = j then done j ++ [c] else done t, ?_⟩
      have e : step s j = ⟨if sg then { s.obj with sign := (own j c.arg).sign } else s.obj,
          fun t => if t = j then { s.th j with calls := rest, i := 0, phase := .load } else s.th t⟩ := by
        simp only [step, stepThread, hc, hi, dite_false, hsg, h.own_eq]
      rw [e]
      have hbase : (if sg = true then { s.obj with sign := (own j c.arg).sign } else s.obj).base = s.obj.base := by
        split <;> rfl
      have hl : ∀ t i, i < n → latest (if t = j then done j ++ [c] else done t)
          (if t = j then { s.th j with calls := rest, i := 0, phase := .load } else s.th t) i =
          latest (done t) (s.th t) i := by
        intro t i hlt
        by_cases e : t = j
        · subst e
          simp only [if_true, latest, hc, if_pos (show i < (s.th t).i by omega)]
          cases rest <;> simp
        · simp only [if_neg e]
      refine ⟨fun t => ?_, fun t => ?_, fun t ht => ?_, fun t c' r hi' hc' hp' => ?_, fun t => ?_,
        fun i hi => ?_, fun hs => ?_⟩
      · by_cases e : t = j
        · subst e; simp only [if_true]; rw [h.split t, hc]; simp
        · simp only [if_neg e]; exact h.split t
      · dsimp only; split
        · rename_i e; subst e; exact h.own_eq t
        · exact h.own_eq t
      · dsimp only at ht ⊢; split at ht
        · rename_i e; rw [if_pos e]
        · rename_i e; rw [if_neg e]; exact h.idle t ht
      · by_cases e : t = j
        · simp only [if_pos e] at hp'; cases hp'
        · simp only [if_neg e] at hc' hp' hi' ⊢
          exact h.reg t c' r hi' hc' hp'
      · dsimp only; split
        · simp
        · exact h.phase t
      · simp only [hbase]
        simp only [hl _ i hi]
        exact h.block i hi
      · refine .inr ⟨j, c, by simp, by simp [hs]⟩

private theorem setInv_run {sg : Bool} {obj : Aesi n} {calls : Fin T → List (Call k)}
    {own : Fin T → Fin k → Aesi n} (hset : ∀ t, ∀ c ∈ calls t, c.exchange = false ∧ c.signed = sg)
    (sched : List (Fin T)) : ∃ done, SetInv sg obj calls own done (run (start obj calls own) sched) :=
  run_inv (P := fun s => ∃ done, SetInv sg obj calls own done s) (fun s j h => setInv_step hset s j h)
    sched _ ⟨_, setInv_start sg obj calls own⟩

/-! ### C55 -/

/-- C55: under every schedule, at every moment, each block of the object is the block it had at the
start or that block of the argument of one of the calls: a block is never torn. -/
theorem C55_never_torn (sg : Bool) (obj : Aesi n) (calls : Fin T → List (Call k))
    (own : Fin T → Fin k → Aesi n) (hset : ∀ t, ∀ c ∈ calls t, c.exchange = false ∧ c.signed = sg)
    (schedule : List (Fin T)) (i : Nat) (hi : i < n) :
    (run (start obj calls own) schedule).obj.base[i] = obj.base[i] ∨
    ∃ t, ∃ c ∈ calls t, (run (start obj calls own) schedule).obj.base[i] = (own t c.arg).base[i] := by
  obtain ⟨done, h⟩ := setInv_run (obj := obj) (own := own) hset schedule
  rcases h.block i hi with ⟨h1, _⟩ | ⟨t, p, h1, h2⟩
  · exact .inl h1
  · have key : ∃ c ∈ calls t, c.arg = p := by
      rw [h.split t]
      have hd : (done t).getLast?.map (·.arg) = some p → ∃ c ∈ done t ++
          ((run (start obj calls own) schedule).th t).calls, c.arg = p := by
        intro hd
        obtain ⟨c, hc, rfl⟩ := Option.map_eq_some_iff.mp hd
        exact ⟨c, List.mem_append_left _ (List.mem_of_getLast? hc), rfl⟩
      unfold latest at h1
      split at h1
      · exact hd h1
      · rename_i c r hc
        split at h1
        · exact ⟨c, by rw [hc]; simp, by simpa using h1⟩
        · exact hd h1
    obtain ⟨c, hc, rfl⟩ := key
    exact .inr ⟨t, c, hc, h2⟩

/-- C55: when all calls are complete, and there was one, each block of the object is that block of the
argument of some thread's last call; for `Aesi` the sign is the sign of the argument of some thread's
last call. -/
theorem C55_completed (sg : Bool) (obj : Aesi n) (calls : Fin T → List (Call k))
    (own : Fin T → Fin k → Aesi n) (hset : ∀ t, ∀ c ∈ calls t, c.exchange = false ∧ c.signed = sg)
    (schedule : List (Fin T)) (hdone : ∀ t, ((run (start obj calls own) schedule).th t).calls = [])
    (hsome : ∃ t, calls t ≠ []) :
    (∀ i (hi : i < n), ∃ t c, (calls t).getLast? = some c ∧
      (run (start obj calls own) schedule).obj.base[i] = (own t c.arg).base[i]) ∧
    (sg = true → ∃ t c, (calls t).getLast? = some c ∧
      (run (start obj calls own) schedule).obj.sign = (own t c.arg).sign) := by
  obtain ⟨done, h⟩ := setInv_run (obj := obj) (own := own) hset schedule
  have hd : ∀ t, done t = calls t := fun t => by rw [h.split t, hdone t, List.append_nil]
  obtain ⟨t0, ht0⟩ := hsome
  constructor
  · intro i hi
    rcases h.block i hi with ⟨_, h1⟩ | ⟨t, p, h1, h2⟩
    · exfalso
      have := h1 t0
      rw [latest, hdone t0, hd t0] at this
      simp at this
      exact ht0 this
    · rw [latest, hdone t, hd t] at h1
      obtain ⟨c, hc, rfl⟩ := Option.map_eq_some_iff.mp h1
      exact ⟨t, c, hc, h2⟩
  · intro hs
    rcases h.sign hs with ⟨_, h1⟩ | ⟨t, c, h1, h2⟩
    · exact absurd ((hd t0).symm.trans (h1 t0)) ht0
    · exact ⟨t, c, by rw [← hd t]; exact h1, h2⟩

/-- C55: if all threads write the same value, the object holds it when all calls are complete. -/
theorem C55_same_value (sg : Bool) (obj v : Aesi n) (calls : Fin T → List (Call k))
    (own : Fin T → Fin k → Aesi n) (hset : ∀ t, ∀ c ∈ calls t, c.exchange = false ∧ c.signed = sg)
    (hsame : ∀ t, ∀ c ∈ calls t, own t c.arg = v) (schedule : List (Fin T))
    (hdone : ∀ t, ((run (start obj calls own) schedule).th t).calls = []) (hsome : ∃ t, calls t ≠ []) :
    (run (start obj calls own) schedule).obj.base = v.base ∧
    (sg = true → (run (start obj calls own) schedule).obj = v) := by
  obtain ⟨h1, h2⟩ := C55_completed sg obj calls own hset schedule hdone hsome
  have hb : (run (start obj calls own) schedule).obj.base = v.base := by
    apply Vector.ext
    intro i hi
    obtain ⟨t, c, hc, e⟩ := h1 i hi
    rw [e, hsame t c (List.mem_of_getLast? hc)]
  refine ⟨hb, fun hs => ?_⟩
  obtain ⟨t, c, hc, e⟩ := h2 hs
  rw [hsame t c (List.mem_of_getLast? hc)] at e
  rcases hr : (run (start obj calls own) schedule).obj with ⟨a, b⟩
  rw [hr] at hb e
  simp only at hb e
  rw [hb, e]

/-- C55: the last writer wins, per block.  If, after `before`, thread `t` performs the `atomicExch` on
block `i` in a call with argument `c.arg`, and no thread performs one on block `i` during `after`,
then block `i` finally holds block `i` of that argument. -/
theorem C55_last_writer (sg : Bool) (obj : Aesi n) (calls : Fin T → List (Call k))
    (own : Fin T → Fin k → Aesi n) (hset : ∀ t, ∀ c ∈ calls t, c.exchange = false ∧ c.signed = sg)
    (before after : List (Fin T)) (t : Fin T) (c : Call k) (i : Nat) (hi : i < n)
    (hw : WritesNext (run (start obj calls own) before) t c i)
    (hlast : ∀ a t' c' b, after = a ++ t' :: b →
      ¬ WritesNext (run (start obj calls own) (before ++ t :: a)) t' c' i) :
    (run (start obj calls own) (before ++ t :: after)).obj.base[i] = (own t c.arg).base[i] := by
  obtain ⟨done, h⟩ := setInv_run (obj := obj) (own := own) hset before
  obtain ⟨hc, hp, hti, _⟩ := hw
  obtain ⟨rest, hcr⟩ : ∃ rest, ((run (start obj calls own) before).th t).calls = c :: rest := by
    cases hx : ((run (start obj calls own) before).th t).calls with
    | nil => rw [hx] at hc; cases hc
    | cons a r => rw [hx] at hc; simp at hc; exact ⟨r, by rw [hc]⟩
  have hex : c.exchange = false := (hset t c (by rw [h.split t, hcr]; simp)).1
  have key : ∀ m, ∀ after : List (Fin T), after.length = m → (∀ a t' c' b, after = a ++ t' :: b →
      ¬ WritesNext (run (start obj calls own) (before ++ t :: a)) t' c' i) →
      (run (start obj calls own) (before ++ t :: after)).obj.base[i] = (own t c.arg).base[i] := by
    intro m
    induction m with
    | zero =>
      intro after hlen _
      have : after = [] := List.length_eq_zero_iff.mp hlen
      subst this
      rw [run_append]
      have hlt : ((run (start obj calls own) before).th t).i < n := by omega
      show (step (run (start obj calls own) before) t).obj.base[i] = _
      subst hti
      simp only [step, stepThread, hcr, hlt, dite_true, hp, hex, Bool.false_eq_true, if_false,
        Vector.getElem_set_self]
      exact h.reg t c rest hlt hcr hp
    | succ m ih =>
      intro after hlen hl
      obtain ⟨a, x, rfl⟩ : ∃ a x, after = a ++ [x] := by
        have hne : after ≠ [] := by intro e; subst e; simp at hlen
        exact ⟨after.dropLast, after.getLast hne, (List.dropLast_append_getLast hne).symm⟩
      have hlen' : a.length = m := by simpa using hlen
      have h1 := ih a hlen' fun a' t' c' b e => hl a' t' c' (b ++ [x]) (by rw [e]; simp)
      have h2 := fun c' => hl a x c' [] rfl
      rw [show before ++ t :: (a ++ [x]) = (before ++ t :: a) ++ [x] by simp, run_append]
      generalize run (start obj calls own) (before ++ t :: a) = s at h1 h2
      show (step s x).obj.base[i] = _
      rw [← h1]
      cases hxc : (s.th x).calls with
      | nil => simp only [step, stepThread, hxc]
      | cons c' r' =>
        have h3 := h2 c'
        simp only [WritesNext, hxc, List.head?_cons, true_and, hi, and_true, not_and] at h3
        by_cases hxi : (s.th x).i < n
        · cases hxp : (s.th x).phase with
          | load => simp only [step, stepThread, hxc, hxi, dite_true, hxp]
          | store => simp only [step, stepThread, hxc, hxi, dite_true, hxp]
          | exch =>
            have hne := h3 hxp
            simp only [step, stepThread, hxc, hxi, dite_true, hxp]
            split <;> simp only [Vector.getElem_set_ne _ _ hne]
        · simp only [step, stepThread, hxc, hxi, dite_false]
          split <;> rfl
  exact key _ after rfl hlast

/-! ### Completion -/

/-- Steps a call can still take. -/
private def budget (t : Thread n k) : Nat :=
  t.calls.length * (3 * n + 1) - min (3 * n)
    (3 * t.i + (match t.phase with | .load => 0 | .exch => 1 | .store => 2))

private theorem budget_step (obj : Aesi n) (t : Thread n k) :
    budget (stepThread obj t).2 ≤ budget t - 1 := by
  unfold stepThread
  cases hc : t.calls with
  | nil => simp [budget, hc]
  | cons c rest =>
    have hm : (c :: rest).length * (3 * n + 1) = rest.length * (3 * n + 1) + (3 * n + 1) := by
      rw [List.length_cons, Nat.succ_mul]
    by_cases hi : t.i < n
    · cases hp : t.phase with
      | load => simp only [budget, hc, hi, dite_true, hp, hm]; omega
      | store => simp only [budget, hc, hi, dite_true, hp, hm]; omega
      | exch =>
        simp only [hi, dite_true, hp]
        split <;> simp only [budget, hc, hp, hm] <;> omega
    · simp only [budget, hc, hi, dite_false, hm]
      have : min (3 * n) (3 * 0 + 0) = 0 := by simp
      simp only [this]
      split <;> omega

/-- C55/C56: a thread that got `calls * (3 n + 1)` steps has completed its calls, whatever the other
threads did in between: no call waits for another thread. -/
theorem C55_wait_free (obj : Aesi n) (calls : Fin T → List (Call k)) (own : Fin T → Fin k → Aesi n)
    (schedule : List (Fin T)) (t : Fin T)
    (h : (calls t).length * (3 * n + 1) ≤ schedule.count t) :
    ((run (start obj calls own) schedule).th t).calls = [] := by
  have key : ∀ (sched : List (Fin T)) (s : State n k T),
      budget ((run s sched).th t) ≤ budget (s.th t) - sched.count t := by
    intro sched
    induction sched with
    | nil => intro s; simp [run]
    | cons j r ih =>
      intro s
      have h1 := ih (step s j)
      have h2 : budget ((step s j).th t) ≤ budget (s.th t) - (if j = t then 1 else 0) := by
        simp only [step]
        by_cases e : t = j
        · subst e; simp only [if_true]; exact budget_step _ _
        · simp only [if_neg e, if_neg (Ne.symm e)]; omega
      rw [List.count_cons]
      show budget ((run (step s j) r).th t) ≤ _
      simp only [beq_iff_eq]
      split at h2 <;> split <;> first | omega | contradiction
  have h1 := key schedule (start obj calls own)
  have h2 : budget ((start obj calls own).th t) = (calls t).length * (3 * n + 1) := by
    simp [budget, start, Thread.start]
  rw [h2] at h1
  have h3 : budget ((run (start obj calls own) schedule).th t) = 0 := by omega
  unfold budget at h3
  by_contra hne
  have : 1 ≤ ((run (start obj calls own) schedule).th t).calls.length := by
    rcases hh : ((run (start obj calls own) schedule).th t).calls with _ | ⟨a, b⟩
    · exact absurd hh hne
    · simp
  have := Nat.mul_le_mul_right (3 * n + 1) this
  omega

-- two threads set two-block objects; the blocks may come from different threads, and signs too
private def own2 : Fin 2 → Fin 1 → Aesi 2 := fun t _ =>
  if t = 0 then Aesi.ofInt 2 (-(2 ^ 32 + 1)) else Aesi.ofInt 2 (2 ^ 33 + 2)

/-- C55 promises no more than that: two threads set `-(2^32 + 1)` and `2^33 + 2`, and the object ends as
`2^32 + 2`, a value nobody wrote (the header documents this). -/
theorem C55_mixed_example :
    let s := run (start (T := 2) (Aesi.ofInt 2 0) (fun _ => [⟨false, true, 0⟩]) own2)
      [0, 0, 1, 1, 1, 1, 0, 0, 0, 1]
    (∀ t, (s.th t).calls = []) ∧ Aesi.toInt s.obj = 2 ^ 32 + 2 := by
  refine ⟨fun t => ?_, by decide +kernel⟩
  fin_cases t <;> rfl

/-! ### C56 -/

/-- What thread `t` holds at block `i` of its object `p`: the block in flight if the thread is between
the two `atomicExch` of that block, else the block in memory. -/
def Cuda.holds (t : Thread n k) (p : Fin k) (i : Nat) (hi : i < n) : Block :=
  match t.calls with
  | [] => (t.own p).base[i]
  | c :: _ => if t.phase = .store ∧ c.arg = p ∧ t.i = i then t.reg else (t.own p).base[i]

private theorem swap_map {ι : Type} [Fintype ι] [DecidableEq ι] {α : Type} (g g' : ι → α) (a : ι) (x x' : α)
    (hoff : ∀ b, b ≠ a → g' b = g b) (hx : (x' = x ∧ g' a = g a) ∨ (x' = g a ∧ g' a = x)) :
    x' ::ₘ (Finset.univ.val.map g') = x ::ₘ (Finset.univ.val.map g) := by
  have hu : (Finset.univ : Finset ι).val = a ::ₘ (Finset.univ.erase a).val := by
    rw [← Finset.insert_val_of_notMem (Finset.notMem_erase a _), Finset.insert_erase (Finset.mem_univ a)]
  have hm : (Finset.univ.erase a).val.map g' = (Finset.univ.erase a).val.map g :=
    Multiset.map_congr rfl fun b hb => hoff b (Finset.ne_of_mem_erase (Finset.mem_val.mp hb))
  rw [hu, Multiset.map_cons, Multiset.map_cons, hm]
  rcases hx with ⟨h1, h2⟩ | ⟨h1, h2⟩
  · rw [h1, h2]
  · rw [h1, h2, Multiset.cons_swap]

private structure XInv (s : State n k T) : Prop where
  exch : ∀ t, ∀ c ∈ (s.th t).calls, c.exchange = true
  reg : ∀ t c r (hi : (s.th t).i < n), (s.th t).calls = c :: r → (s.th t).phase = .exch →
    (s.th t).reg = ((s.th t).own c.arg).base[(s.th t).i]

/-- The blocks at position `i`: the object's and those held by all threads. -/
def Cuda.blocksAt (s : State n k T) (i : Nat) (hi : i < n) : Multiset Block :=
  s.obj.base[i] ::ₘ (Finset.univ : Finset (Fin T × Fin k)).val.map fun q => holds (s.th q.1) q.2 i hi

private theorem xinv_step (s : State n k T) (j : Fin T) (h : XInv s) :
    XInv (step s j) ∧ ∀ i hi, blocksAt (step s j) i hi = blocksAt s i hi := by
  cases hc : (s.th j).calls with
  | nil =>
    have : step s j = s := by
      simp only [step, stepThread, hc]
      congr 1
      funext t; split
      · rename_i e; rw [e]
      · rfl
    rw [this]; exact ⟨h, fun _ _ => rfl⟩
  | cons c rest =>
    have hex : c.exchange = true := h.exch j c (by rw [hc]; simp)
    by_cases hi : (s.th j).i < n
    · cases hp : (s.th j).phase with
      | load =>
        have e : step s j = ⟨s.obj, fun t => if t = j then
            { s.th j with reg := ((s.th j).own c.arg).base[(s.th j).i], phase := .exch } else s.th t⟩ := by
          simp only [step, stepThread, hc, hi, dite_true, hp]
        rw [e]
        refine ⟨⟨fun t c' hc' => ?_, fun t c' r hi' hc' hp' => ?_⟩, fun i hi => ?_⟩
        · dsimp only at hc'; split at hc'
          · exact h.exch j c' hc'
          · exact h.exch t c' hc'
        · by_cases e : t = j
          · subst e
            simp only [if_true] at hc' hp' hi' ⊢
            rw [hc] at hc'; cases hc'; rfl
          · simp only [if_neg e] at hc' hp' hi' ⊢
            exact h.reg t c' r hi' hc' hp'
        · unfold blocksAt
          congr 1
          apply Multiset.map_congr rfl
          intro q _
          by_cases e : q.1 = j
          · simp only [if_pos e, holds, hc, e, hp]; simp
          · simp only [if_neg e]
      | exch =>
        have e : step s j = ⟨{ s.obj with base := s.obj.base.set (s.th j).i (s.th j).reg },
            fun t => if t = j then { s.th j with reg := s.obj.base[(s.th j).i], phase := .store } else
              s.th t⟩ := by
          simp only [step, stepThread, hc, hi, dite_true, hp, hex, if_true]
        rw [e]
        refine ⟨⟨fun t c' hc' => ?_, fun t c' r hi' hc' hp' => ?_⟩, fun i hi' => ?_⟩
        · dsimp only at hc'; split at hc'
          · exact h.exch j c' hc'
          · exact h.exch t c' hc'
        · by_cases e : t = j
          · simp only [if_pos e] at hp'; cases hp'
          · simp only [if_neg e] at hc' hp' hi' ⊢
            exact h.reg t c' r hi' hc' hp'
        · unfold blocksAt
          refine swap_map _ _ (j, c.arg) _ _ (fun q hq => ?_) ?_
          · by_cases e : q.1 = j
            · have hne : c.arg ≠ q.2 := fun e2 => hq (by rw [← e, e2])
              simp only [if_pos e, holds, hc, e, hne, false_and, and_false, if_false, if_true]
            · simp only [if_neg e]
          · by_cases hij : (s.th j).i = i
            · subst hij
              refine .inr ⟨?_, ?_⟩
              · simp only [Vector.getElem_set_self, holds, hc, hp, reduceCtorEq, false_and, if_false]
                exact h.reg j c rest hi hc hp
              · simp only [if_true, holds, hc, and_self]
            · refine .inl ⟨?_, ?_⟩
              · simp only [Vector.getElem_set_ne _ _ hij]
              · simp only [if_true, holds, hc, hij, and_false, if_false]
      | store =>
        have e : step s j = ⟨s.obj, fun t => if t = j then { s.th j with
            own := fun p => if p = c.arg then
              { (s.th j).own c.arg with base := ((s.th j).own c.arg).base.set (s.th j).i (s.th j).reg }
              else (s.th j).own p,
            i := (s.th j).i + 1, phase := .load } else s.th t⟩ := by
          simp only [step, stepThread, hc, hi, dite_true, hp]
        rw [e]
        refine ⟨⟨fun t c' hc' => ?_, fun t c' r hi' hc' hp' => ?_⟩, fun i hi' => ?_⟩
        · dsimp only at hc'; split at hc'
          · exact h.exch j c' hc'
          · exact h.exch t c' hc'
        · by_cases e : t = j
          · simp only [if_pos e] at hp'; cases hp'
          · simp only [if_neg e] at hc' hp' hi' ⊢
            exact h.reg t c' r hi' hc' hp'
        · unfold blocksAt
          congr 1
          apply Multiset.map_congr rfl
          intro q _
          by_cases e : q.1 = j
          · by_cases hpa : q.2 = c.arg
            · by_cases hij : (s.th j).i = i
              · subst hij
                simp only [if_pos e, holds, hc, e, hp, hpa, reduceCtorEq, false_and, if_false,
                  Vector.getElem_set_self, and_self, if_true]
              · simp only [if_pos e, holds, hc, e, hp, hpa, reduceCtorEq, false_and, if_false, hij,
                  and_false, if_true, Vector.getElem_set_ne _ _ hij]
            · have hpa' : c.arg ≠ q.2 := Ne.symm hpa
              simp only [if_pos e, holds, hc, e, hpa, hpa', reduceCtorEq, false_and, and_false, if_false, if_true]
          · simp only [if_neg e]
    · have e : step s j = ⟨if c.signed then { s.obj with sign := ((s.th j).own c.arg).sign } else s.obj,
          fun t => if t = j then { s.th j with calls := rest, i := 0, phase := .load } else s.th t⟩ := by
        simp only [step, stepThread, hc, hi, dite_false]
      rw [e]
      refine ⟨⟨fun t c' hc' => ?_, fun t c' r hi' hc' hp' => ?_⟩, fun i hi' => ?_⟩
      · dsimp only at hc'; split at hc'
        · exact h.exch j c' (by rw [hc]; exact List.mem_cons_of_mem _ hc')
        · exact h.exch t c' hc'
      · by_cases e : t = j
        · simp only [if_pos e] at hp'; cases hp'
        · simp only [if_neg e] at hc' hp' hi' ⊢
          exact h.reg t c' r hi' hc' hp'
      · unfold blocksAt
        have hbase : (if c.signed = true then { s.obj with sign := ((s.th j).own c.arg).sign } else
            s.obj).base = s.obj.base := by split <;> rfl
        simp only [hbase]
        congr 1
        apply Multiset.map_congr rfl
        intro q _
        by_cases e : q.1 = j
        · have hij : (s.th j).i ≠ i := by omega
          simp only [if_pos e, holds, hc, e, hij, and_false, if_false]
          cases rest <;> simp
        · simp only [if_neg e]

/-- C56: whatever the schedule, at every moment the blocks at each position — the object's and those the
threads hold, a block in flight between the two exchanges of a thread counted as held by it — are a
permutation of those at the start: none is lost or duplicated. -/
theorem C56_conserved (obj : Aesi n) (calls : Fin T → List (Call k)) (own : Fin T → Fin k → Aesi n)
    (hx : ∀ t, ∀ c ∈ calls t, c.exchange = true) (schedule : List (Fin T)) (i : Nat) (hi : i < n) :
    blocksAt (run (start obj calls own) schedule) i hi = blocksAt (start obj calls own) i hi := by
  have h0 : XInv (start obj calls own) := ⟨hx, fun t c r _ _ h => by simp [start, Thread.start] at h⟩
  exact (run_inv (P := fun s => XInv s ∧ ∀ i hi, blocksAt s i hi = blocksAt (start obj calls own) i hi)
    (fun s j h => ⟨(xinv_step s j h.1).1, fun i hi => ((xinv_step s j h.1).2 i hi).trans (h.2 i hi)⟩)
    schedule _ ⟨h0, fun _ _ => rfl⟩).2 i hi

/-- C56: in particular, when all calls are complete the blocks in memory at each position are a
permutation of the blocks in memory at the start. -/
theorem C56_completed (obj : Aesi n) (calls : Fin T → List (Call k)) (own : Fin T → Fin k → Aesi n)
    (hx : ∀ t, ∀ c ∈ calls t, c.exchange = true) (schedule : List (Fin T))
    (hdone : ∀ t, ((run (start obj calls own) schedule).th t).calls = []) (i : Nat) (hi : i < n) :
    (run (start obj calls own) schedule).obj.base[i] ::ₘ (Finset.univ : Finset (Fin T × Fin k)).val.map
      (fun q => (((run (start obj calls own) schedule).th q.1).own q.2).base[i]) =
    obj.base[i] ::ₘ (Finset.univ : Finset (Fin T × Fin k)).val.map (fun q => (own q.1 q.2).base[i]) := by
  have h := C56_conserved obj calls own hx schedule i hi
  unfold blocksAt at h
  have h1 : ∀ q : Fin T × Fin k, holds ((run (start obj calls own) schedule).th q.1) q.2 i hi =
      (((run (start obj calls own) schedule).th q.1).own q.2).base[i] := fun q => by
    simp only [holds, hdone q.1]
  have h2 : ∀ q : Fin T × Fin k, holds ((start obj calls own).th q.1) q.2 i hi = (own q.1 q.2).base[i] := by
    intro q
    simp only [holds, start, Thread.start, reduceCtorEq, false_and, if_false]
    split <;> rfl
  simp only [h1, h2] at h
  exact h

/-! ### Run alone -/

/-- Thread `t` is at the top of the loop with counter `m`, in the only call left. -/
private structure Alone (s0 : State n k T) (t : Fin T) (c : Call k) (m : Nat) (s : State n k T) : Prop where
  calls : (s.th t).calls = [c]
  i : (s.th t).i = m
  phase : (s.th t).phase = .load
  obj : s.obj = ⟨s0.obj.sign, Vector.ofFn fun i => if i.val < m then ((s0.th t).own c.arg).base[i.val]
    else s0.obj.base[i.val]⟩
  arg : (s.th t).own c.arg = ⟨((s0.th t).own c.arg).sign, Vector.ofFn fun i =>
    if i.val < m ∧ c.exchange = true then s0.obj.base[i.val] else ((s0.th t).own c.arg).base[i.val]⟩
  other : ∀ p, p ≠ c.arg → (s.th t).own p = (s0.th t).own p
  threads : ∀ t', t' ≠ t → s.th t' = s0.th t'

private theorem alone_step {s0 : State n k T} {t : Fin T} {c : Call k} {m : Nat} (hm : m < n)
    {s : State n k T} (h : Alone s0 t c m s) :
    Alone s0 t c (m + 1) (run s (List.replicate (if c.exchange then 3 else 2) t)) := by
  obtain ⟨h1, h2, h3, h4, h5, h6, h7⟩ := h
  subst h2
  have e1 : step s t = ⟨s.obj, fun t' => if t' = t then
      { s.th t with reg := ((s.th t).own c.arg).base[(s.th t).i], phase := .exch } else s.th t'⟩ := by
    simp only [step, stepThread, h1, hm, dite_true, h3]
  have hreg : ((s.th t).own c.arg).base[(s.th t).i] = ((s0.th t).own c.arg).base[(s.th t).i] := by
    rw [h5]; simp
  have hobj : s.obj.base[(s.th t).i] = s0.obj.base[(s.th t).i] := by
    conv_lhs => simp only [h4]
    simp
  cases hx : c.exchange with
  | false =>
    have e2 : run s (List.replicate 2 t) = ⟨{ s.obj with
        base := s.obj.base.set (s.th t).i (((s.th t).own c.arg).base[(s.th t).i]) }, fun t' => if t' = t then
        { s.th t with reg := ((s.th t).own c.arg).base[(s.th t).i], i := (s.th t).i + 1, phase := .load }
        else s.th t'⟩ := by
      show step (step s t) t = _
      rw [e1]
      simp only [step, stepThread, h1, hm, dite_true, if_true, hx, Bool.false_eq_true, if_false]
      congr 1
      funext t'; split <;> rfl
    simp only [Bool.false_eq_true, if_false]
    rw [e2]
    refine ⟨by simp [h1], by simp, by simp, ?_, ?_, fun p hp => ?_, fun t' ht' => ?_⟩
    · dsimp only
      rw [hreg]
      have hs : s.obj.sign = s0.obj.sign := by rw [h4]
      rw [hs]
      congr 1
      apply Vector.ext
      intro i hi
      rw [Vector.getElem_set, Vector.getElem_ofFn]
      by_cases e : (s.th t).i = i
      · subst e; simp
      · have h8 : s.obj.base[i] = if i < (s.th t).i then ((s0.th t).own c.arg).base[i] else s0.obj.base[i] := by
          conv_lhs => simp only [h4]
          simp
        rw [if_neg e, h8]
        congr 1
        simp only [eq_iff_iff]; omega
    · simp only [if_true]; rw [h5]; simp [hx]
    · simp only [if_true]; exact h6 p hp
    · simp only [if_neg ht']; exact h7 t' ht'
  | true =>
    have e2 : run s (List.replicate 3 t) = ⟨{ s.obj with
        base := s.obj.base.set (s.th t).i (((s.th t).own c.arg).base[(s.th t).i]) }, fun t' => if t' = t then
        { s.th t with reg := s.obj.base[(s.th t).i], i := (s.th t).i + 1, phase := .load,
                      own := fun p => if p = c.arg then { (s.th t).own c.arg with
                        base := ((s.th t).own c.arg).base.set (s.th t).i (s.obj.base[(s.th t).i]) }
                        else (s.th t).own p }
        else s.th t'⟩ := by
      show step (step (step s t) t) t = _
      rw [e1]
      simp only [step, stepThread, h1, hm, dite_true, if_true, hx]
      congr 1
      funext t'; split <;> rfl
    simp only [if_true]
    rw [e2]
    refine ⟨by simp [h1], by simp, by simp, ?_, ?_, fun p hp => ?_, fun t' ht' => ?_⟩
    · dsimp only
      rw [hreg]
      have hs : s.obj.sign = s0.obj.sign := by rw [h4]
      rw [hs]
      congr 1
      apply Vector.ext
      intro i hi
      rw [Vector.getElem_set, Vector.getElem_ofFn]
      by_cases e : (s.th t).i = i
      · subst e; simp
      · have h8 : s.obj.base[i] = if i < (s.th t).i then ((s0.th t).own c.arg).base[i] else s0.obj.base[i] := by
          conv_lhs => simp only [h4]
          simp
        rw [if_neg e, h8]
        congr 1
        simp only [eq_iff_iff]; omega
    · simp only [if_true, hobj]
      have hs : ((s.th t).own c.arg).sign = ((s0.th t).own c.arg).sign := by rw [h5]
      rw [hs]
      congr 1
      apply Vector.ext
      intro i hi
      rw [Vector.getElem_set, Vector.getElem_ofFn]
      by_cases e : (s.th t).i = i
      · subst e; simp [hx]
      · have h8 : ((s.th t).own c.arg).base[i] = if i < (s.th t).i then s0.obj.base[i] else
            ((s0.th t).own c.arg).base[i] := by
          conv_lhs => simp only [h5]
          simp [hx]
        rw [if_neg e, h8]
        have : (i < (s.th t).i) ↔ (i < (s.th t).i + 1 ∧ c.exchange = true) := by
          simp only [hx, and_true]; omega
        simp only [this]
    · simp only [if_true, if_neg hp]; exact h6 p hp
    · simp only [if_neg ht']; exact h7 t' ht'

private theorem replicate_run (s : State n k T) (t : Fin T) (a b : Nat) :
    run s (List.replicate (a + b) t) = run (run s (List.replicate a t)) (List.replicate b t) := by
  rw [List.replicate_add, run_append]

private theorem alone_loop {s0 : State n k T} {t : Fin T} {c : Call k} (h0 : Alone s0 t c 0 s0) :
    ∀ m, m ≤ n → Alone s0 t c m (run s0 (List.replicate (m * (if c.exchange then 3 else 2)) t)) := by
  intro m
  induction m with
  | zero => intro _; simpa [run] using h0
  | succ m ih =>
    intro hm
    rw [Nat.succ_mul, replicate_run]
    exact alone_step (by omega) (ih (by omega))

/-- What one call, run alone from its start, does. -/
private theorem alone_call (obj : Aesi n) (calls : Fin T → List (Call k)) (own : Fin T → Fin k → Aesi n)
    (t : Fin T) (c : Call k) (ht : calls t = [c]) :
    let s := run (start obj calls own) (List.replicate (n * (if c.exchange then 3 else 2) + 1) t)
    (s.th t).calls = [] ∧
    s.obj = ⟨if c.signed then (own t c.arg).sign else obj.sign, (own t c.arg).base⟩ ∧
    (s.th t).own c.arg = ⟨(own t c.arg).sign, if c.exchange then obj.base else (own t c.arg).base⟩ ∧
    (∀ p, p ≠ c.arg → (s.th t).own p = own t p) ∧
    ∀ t', t' ≠ t → s.th t' = (start obj calls own).th t' := by
  have h0 : Alone (start obj calls own) t c 0 (start obj calls own) := by
    refine ⟨ht, rfl, rfl, ?_, ?_, fun _ _ => rfl, fun _ _ => rfl⟩
    · simp [start]
    · simp [start, Thread.start]
  obtain ⟨h1, h2, h3, h4, h5, h6, h7⟩ := alone_loop h0 n (Nat.le_refl _)
  intro s
  have hs : s = step (run (start obj calls own)
      (List.replicate (n * (if c.exchange then 3 else 2)) t)) t := by
    show run _ _ = _
    rw [replicate_run]; rfl
  rw [hs]
  generalize run (start obj calls own) (List.replicate (n * (if c.exchange then 3 else 2)) t) = u at *
  have e : step u t = ⟨if c.signed then { u.obj with sign := ((u.th t).own c.arg).sign } else u.obj,
      fun t' => if t' = t then { u.th t with calls := [], i := 0, phase := .load } else u.th t'⟩ := by
    simp only [step, stepThread, h1, h2, lt_irrefl, dite_false]
  have hob : u.obj = ⟨obj.sign, (own t c.arg).base⟩ := by
    rw [h4]
    congr 1
    apply Vector.ext
    intro i hi
    simp [start, Thread.start]
  have hag : (u.th t).own c.arg =
      ⟨(own t c.arg).sign, if c.exchange then obj.base else (own t c.arg).base⟩ := by
    rw [h5]
    show (⟨(own t c.arg).sign, _⟩ : Aesi n) = _
    congr 1
    apply Vector.ext
    intro i hi
    cases c.exchange <;> simp [start, Thread.start]
  rw [e]
  refine ⟨by simp, ?_, ?_, fun p hp => ?_, fun t' ht' => ?_⟩
  · dsimp only
    rw [hag, hob]
    cases c.signed <;> rfl
  · simp only [if_true]; exact hag
  · simp only [if_true]; exact h6 p hp
  · simp only [if_neg ht']; exact h7 t' ht'

/-- C55: run alone, `x.tryAtomicSet(v)` of `Aesi` leaves `x` equal to `v` (blocks and sign), `v` and the
thread's other objects unchanged. -/
theorem C55_alone (obj : Aesi n) (calls : Fin T → List (Call k)) (own : Fin T → Fin k → Aesi n)
    (t : Fin T) (p : Fin k) (ht : calls t = [⟨false, true, p⟩]) :
    ∃ steps, ((run (start obj calls own) (List.replicate steps t)).th t).calls = [] ∧
      (run (start obj calls own) (List.replicate steps t)).obj = own t p ∧
      ((run (start obj calls own) (List.replicate steps t)).th t).own = own t := by
  obtain ⟨h1, h2, h3, h4, _⟩ := alone_call obj calls own t _ ht
  refine ⟨_, h1, h2, ?_⟩
  funext q
  by_cases hq : q = p
  · rw [hq]; exact h3
  · exact h4 q hq

/-- C56: run alone, `x.tryAtomicExchange(v)` of `Aeu` exchanges the two objects exactly (the `base`s; an
`Aeu` has no sign) and touches no other object. -/
theorem C56_alone (obj : Aesi n) (calls : Fin T → List (Call k)) (own : Fin T → Fin k → Aesi n)
    (t : Fin T) (p : Fin k) (ht : calls t = [⟨true, false, p⟩]) :
    ∃ steps, ((run (start obj calls own) (List.replicate steps t)).th t).calls = [] ∧
      (run (start obj calls own) (List.replicate steps t)).obj.base = (own t p).base ∧
      (((run (start obj calls own) (List.replicate steps t)).th t).own p).base = obj.base ∧
      ∀ q, q ≠ p → ((run (start obj calls own) (List.replicate steps t)).th t).own q = own t q := by
  obtain ⟨h1, h2, h3, h4, _⟩ := alone_call obj calls own t _ ht
  exact ⟨_, h1, by rw [h2], by rw [h3]; rfl, h4⟩

/-- C56 for `Aesi`, what happens for all operands: `x` becomes `v`, but `v` gets only the magnitude of
`x` and keeps its own sign. -/
theorem C56_signed_exact (obj : Aesi n) (calls : Fin T → List (Call k)) (own : Fin T → Fin k → Aesi n)
    (t : Fin T) (p : Fin k) (ht : calls t = [⟨true, true, p⟩]) :
    ∃ steps, ((run (start obj calls own) (List.replicate steps t)).th t).calls = [] ∧
      (run (start obj calls own) (List.replicate steps t)).obj = own t p ∧
      ((run (start obj calls own) (List.replicate steps t)).th t).own p = ⟨(own t p).sign, obj.base⟩ := by
  obtain ⟨h1, h2, h3, h4, _⟩ := alone_call obj calls own t _ ht
  exact ⟨_, h1, h2, h3⟩

/-- C56 for `Aesi`, partial: the exchange is exact when the signs agree.  Missing: objects of different
sign, where it is false (`C56_counterexample`). -/
theorem C56_signed_partial (obj : Aesi n) (calls : Fin T → List (Call k)) (own : Fin T → Fin k → Aesi n)
    (t : Fin T) (p : Fin k) (ht : calls t = [⟨true, true, p⟩]) (hs : (own t p).sign = obj.sign) :
    ∃ steps, ((run (start obj calls own) (List.replicate steps t)).th t).calls = [] ∧
      (run (start obj calls own) (List.replicate steps t)).obj = own t p ∧
      ((run (start obj calls own) (List.replicate steps t)).th t).own p = obj := by
  obtain ⟨m, h1, h2, h3⟩ := C56_signed_exact obj calls own t p ht
  exact ⟨m, h1, h2, by rw [h3, hs]⟩

/-- C56 is false as stated for `Aesi`: `x = 5`, `v = -7`; after `x.tryAtomicExchange(v)`, `x` is -7 but
`v` is -5. -/
theorem C56_counterexample :
    let s := run (start (T := 1) (k := 1) (Aesi.ofInt 2 5) (fun _ => [⟨true, true, 0⟩])
      fun _ _ => Aesi.ofInt 2 (-7)) (List.replicate 7 0)
    (s.th 0).calls = [] ∧ Aesi.toInt s.obj = -7 ∧ Aesi.toInt ((s.th 0).own 0) = -5 :=
  ⟨rfl, by decide +kernel, by decide +kernel⟩

-- two threads exchange concurrently; the blocks end up permuted, none lost
example :
    let s := run (start (T := 2) (k := 1) (Aesi.ofInt 2 5) (fun _ => [⟨true, false, 0⟩]) own2)
      [0, 1, 0, 1, 0, 1, 1, 1, 1, 0, 0, 0, 0, 1]
    (s.th 0).calls = [] ∧ (s.th 1).calls = [] ∧ Aeu.toNat s.obj.base = 2 ^ 32 + 2 ∧
      Aeu.toNat ((s.th 0).own 0).base = 2 ^ 33 + 5 ∧ Aeu.toNat ((s.th 1).own 0).base = 1 :=
  ⟨rfl, rfl, by decide +kernel, by decide +kernel, by decide +kernel⟩

/-! ### Concrete cases that meet the hypotheses -/

/-- Two threads, two calls each, on an object of two blocks. -/
private def twoCalls (exchange : Bool) : Fin 2 → List (Cuda.Call 2) :=
  fun _ => [⟨exchange, true, 0⟩, ⟨exchange, true, 1⟩]


/-- The hypotheses of `C55_never_torn` are met. -/
example := C55_never_torn true (Aesi.ofInt 2 5) (twoCalls false) (fun t c => Aesi.ofInt 2 (t.val - 7 * c.val))
  (by decide) [0, 1, 0, 0, 1] 1 (by omega)

/-- The hypotheses of `C55_completed` are met. -/
example := C55_completed true (Aesi.ofInt 2 5) (twoCalls false) (fun t c => Aesi.ofInt 2 (t.val - 7 * c.val))
  (by decide) ((List.replicate 14 0) ++ List.replicate 14 1) (by decide +kernel) ⟨0, by decide⟩

/-- The hypotheses of `C55_same_value` are met. -/
example := C55_same_value true (Aesi.ofInt 2 5) (Aesi.ofInt 2 (-2 ^ 40)) (twoCalls false)
  (fun _ _ => Aesi.ofInt 2 (-2 ^ 40)) (by decide) (fun _ _ _ => rfl)
  ((List.replicate 14 0) ++ List.replicate 14 1) (by decide +kernel) ⟨0, by decide⟩

/-- The hypotheses of `C55_wait_free` are met. -/
example := C55_wait_free (Aesi.ofInt 2 5) (twoCalls true) (fun t c => Aesi.ofInt 2 (t.val - 7 * c.val))
  ([1, 1, 0] ++ List.replicate 14 0) 0 (by decide)

/-- The hypotheses of `C56_conserved` are met. -/
example := C56_conserved (Aesi.ofInt 2 5) (twoCalls true) (fun t c => Aesi.ofInt 2 (t.val - 7 * c.val))
  (by decide) [0, 1, 0, 0, 1] 1 (by omega)

/-- The hypotheses of `C56_completed` are met. -/
example := C56_completed (Aesi.ofInt 2 5) (twoCalls true) (fun t c => Aesi.ofInt 2 (t.val - 7 * c.val))
  (by decide) ((List.replicate 14 0) ++ List.replicate 14 1) (by decide +kernel) 1 (by omega)

end AesiMP
