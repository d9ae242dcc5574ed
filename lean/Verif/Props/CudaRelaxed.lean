import Verif.Model.CudaRelaxed
import Verif.Props.Cuda

/-!
# C108: concurrent sets and exchanges under relaxed memory ordering
-/

namespace AesiMP
open CudaRelaxed
open Cuda (Call Phase)
variable {n k T : Nat}

/-- All calls of all threads have taken effect. -/
def CudaRelaxed.Done (s : State n k T) : Prop := ∀ t, (∀ i, (s.lane t i).calls = []) ∧ s.signs t = []

/-! ### One lane is a sequentially consistent system of one block -/

private def strip (c : Call k) : Call k := { c with signed := false }

private def one (x : Block) : Aesi 1 := ⟨.zero, Vector.replicate 1 x⟩

private def proj (i : Fin n) (s : State n k T) : Cuda.State 1 k T :=
  ⟨one s.obj.base[i], fun t => ⟨(s.lane t i).calls.map strip, 0, (s.lane t i).phase, (s.lane t i).reg,
    fun p => one (s.own t p).base[i]⟩⟩

private theorem one_set (x y : Block) : (Vector.replicate 1 x).set 0 y = Vector.replicate 1 y := by
  ext j hj
  have : j = 0 := by omega
  subst this
  simp

private theorem proj_other (i : Fin n) (s : State n k T) (a : Fin T × Where n) (h : a.2 ≠ .block i) :
    proj i (step s a) = proj i s := by
  obtain ⟨t, w⟩ := a
  cases w with
  | sign =>
    simp only [step]
    split
    · rfl
    · simp only [proj]; split <;> rfl
  | block j =>
    have hji : j ≠ i := fun e => h (by rw [e])
    have hji' : (j : Nat) ≠ i := fun e => hji (Fin.ext e)
    simp only [proj, step]
    congr 1
    · simp [Vector.getElem_set_ne _ _ hji']
    · funext t'
      have : ¬ (t' = t ∧ i = j) := fun e => hji e.2.symm
      simp only [this, if_false]
      congr 1
      funext p
      by_cases ht : t' = t
      · subst ht; simp [Vector.getElem_set_ne _ _ hji']
      · simp [ht]

private theorem proj_step (i : Fin n) (s : State n k T) (t : Fin T) :
    ∃ l, proj i (step s (t, .block i)) = Cuda.run (proj i s) l := by
  cases hc : (s.lane t i).calls with
  | nil =>
    refine ⟨[], ?_⟩
    simp only [Cuda.run, List.foldl_nil, proj, step, stepLane, hc]
    congr 1
    · simp
    · funext t'
      by_cases ht : t' = t
      · subst ht; simp
      · simp [ht]
  | cons c rest =>
    have hp : ((proj i s).th t).calls = strip c :: rest.map strip := by simp [proj, hc]
    cases hph : (s.lane t i).phase with
    | load =>
      refine ⟨[t], ?_⟩
      simp only [Cuda.run, List.foldl_cons, List.foldl_nil, Cuda.step, Cuda.stepThread, hp]
      simp only [proj, step, stepLane, hc, hph]
      congr 1
      · simp [one]
      · funext t'
        by_cases ht : t' = t
        · subst ht; simp [one, strip]
        · simp [ht]
    | exch =>
      by_cases he : c.exchange = true
      · refine ⟨[t], ?_⟩
        simp only [Cuda.run, List.foldl_cons, List.foldl_nil, Cuda.step, Cuda.stepThread, hp]
        simp only [proj, step, stepLane, hc, hph]
        simp only [strip, he]
        congr 1
        · simp [one, one_set]
        · funext t'
          by_cases ht : t' = t
          · subst ht; simp [one, strip, he]
          · simp [ht]
      · refine ⟨[t, t], ?_⟩
        simp only [Cuda.run, List.foldl_cons, List.foldl_nil, Cuda.step, Cuda.stepThread, hp]
        simp only [proj, step, stepLane, hc, hph]
        simp only [strip, he]
        congr 1
        · simp [one, one_set]
        · funext t'
          by_cases ht : t' = t
          · subst ht; simp [one, strip]
          · simp [ht]
    | store =>
      refine ⟨[t, t], ?_⟩
      simp only [Cuda.run, List.foldl_cons, List.foldl_nil, Cuda.step, Cuda.stepThread, hp]
      simp only [proj, step, stepLane, hc, hph]
      congr 1
      · simp [one, strip]
      · funext t'
        by_cases ht : t' = t
        · subst ht
          simp [one, strip]
          funext p
          by_cases hpc : p = c.arg
          · simp [hpc, one_set]
          · simp [hpc]
        · simp [ht]

private theorem cuda_run_append (s : Cuda.State n k T) (a b : List (Fin T)) :
    Cuda.run s (a ++ b) = Cuda.run (Cuda.run s a) b := List.foldl_append ..

private theorem proj_run (i : Fin n) (s : State n k T) (order : List (Fin T × Where n)) :
    ∃ l, proj i (run s order) = Cuda.run (proj i s) l := by
  induction order generalizing s with
  | nil => exact ⟨[], rfl⟩
  | cons a rest ih =>
    obtain ⟨l, hl⟩ := ih (step s a)
    obtain ⟨l', hl'⟩ : ∃ l', proj i (step s a) = Cuda.run (proj i s) l' := by
      by_cases h : a.2 = .block i
      · obtain ⟨t, w⟩ := a
        subst h
        exact proj_step i s t
      · exact ⟨[], proj_other i s a h⟩
    refine ⟨l' ++ l, ?_⟩
    rw [cuda_run_append, ← hl', ← hl]; rfl

private theorem proj_start (i : Fin n) (obj : Aesi n) (calls : Fin T → List (Call k))
    (own : Fin T → Fin k → Aesi n) :
    proj i (start obj calls own) =
      Cuda.start (one obj.base[i]) (fun t => (calls t).map strip) (fun t p => one (own t p).base[i]) := rfl

/-! The sign's lane is a sequentially consistent system without blocks. -/

private def none' (s : Sign) : Aesi 0 := ⟨s, Vector.replicate 0 0⟩

private def projS (s : State n k T) : Cuda.State 0 k T :=
  ⟨none' s.obj.sign, fun t => ⟨s.signs t, 0, .load, 0#32, fun p => none' (s.own t p).sign⟩⟩

private theorem projS_step (s : State n k T) (a : Fin T × Where n) :
    ∃ l, projS (step s a) = Cuda.run (projS s) l := by
  obtain ⟨t, w⟩ := a
  cases w with
  | block i =>
    refine ⟨[], ?_⟩
    simp only [Cuda.run, List.foldl_nil, projS, step]
    congr 1
    funext t'
    congr 1
    funext p
    by_cases ht : t' = t
    · subst ht; simp
    · simp [ht]
  | sign =>
    refine ⟨[t], ?_⟩
    cases hc : s.signs t with
    | nil =>
      simp only [Cuda.run, List.foldl_cons, List.foldl_nil, Cuda.step, Cuda.stepThread, step, hc, projS]
      congr 1
      funext t'
      by_cases ht : t' = t
      · subst ht; simp [hc]
      · simp [ht]
    | cons c rest =>
      simp only [Cuda.run, List.foldl_cons, List.foldl_nil, Cuda.step, Cuda.stepThread, step, hc, projS]
      congr 1
      · by_cases hs : c.signed = true <;> simp [hs, none']
      · funext t'
        by_cases ht : t' = t
        · subst ht; simp
        · simp [ht]

private theorem projS_run (s : State n k T) (order : List (Fin T × Where n)) :
    ∃ l, projS (run s order) = Cuda.run (projS s) l := by
  induction order generalizing s with
  | nil => exact ⟨[], rfl⟩
  | cons a rest ih =>
    obtain ⟨l, hl⟩ := ih (step s a)
    obtain ⟨l', hl'⟩ := projS_step s a
    refine ⟨l' ++ l, ?_⟩
    rw [cuda_run_append, ← hl', ← hl]; rfl

private theorem strip_mem {calls : List (Call k)} {c : Call k} (h : c ∈ calls.map strip) :
    c.signed = false ∧ ∃ c' ∈ calls, c'.exchange = c.exchange ∧ c'.arg = c.arg := by
  obtain ⟨c', h1, rfl⟩ := List.mem_map.1 h
  exact ⟨rfl, c', h1, rfl, rfl⟩

/-! ### The theorems -/

/-- **C108**: with concurrent `tryAtomicSet`s, in whatever order accesses to different locations take effect, every
block of the object is at every moment its initial block or the block of that index of an argument of some call. -/
theorem C108_never_torn (obj : Aesi n) (calls : Fin T → List (Call k)) (own : Fin T → Fin k → Aesi n)
    (hset : ∀ t, ∀ c ∈ calls t, c.exchange = false) (order : List (Fin T × Where n)) (i : Nat) (hi : i < n) :
    (run (start obj calls own) order).obj.base[i] = obj.base[i] ∨
      ∃ t, ∃ c ∈ calls t, (run (start obj calls own) order).obj.base[i] = (own t c.arg).base[i] := by
  obtain ⟨l, hl⟩ := proj_run ⟨i, hi⟩ (start obj calls own) order
  rw [proj_start] at hl
  have h := C55_never_torn false (one obj.base[i]) (fun t => (calls t).map strip)
    (fun t p => one (own t p).base[i]) (fun t c hc => by
      obtain ⟨h1, c', h2, h3, _⟩ := strip_mem hc
      exact ⟨h3 ▸ hset t c' h2, h1⟩) l 0 (by norm_num)
  have e : (run (start obj calls own) order).obj.base[i] =
      (proj ⟨i, hi⟩ (run (start obj calls own) order)).obj.base[0] := by simp [proj, one]
  rw [e, hl]
  refine h.imp (fun h => by simpa [one] using h) ?_
  rintro ⟨t, c, hc, h⟩
  obtain ⟨_, c', h2, _, h4⟩ := strip_mem hc
  exact ⟨t, c', h2, by rw [h4]; simpa [one] using h⟩

/-- **C108**: whatever the calls and the order, the object's sign is at every moment its initial one or that of the
argument of a call of `Aesi`'s members, and no sign of the threads' own objects changes. -/
theorem C108_signs (obj : Aesi n) (calls : Fin T → List (Call k)) (own : Fin T → Fin k → Aesi n)
    (order : List (Fin T × Where n)) :
    ((run (start obj calls own) order).obj.sign = obj.sign ∨ ∃ t, ∃ c ∈ calls t, c.signed = true ∧
      (run (start obj calls own) order).obj.sign = (own t c.arg).sign) ∧
    ∀ t p, ((run (start obj calls own) order).own t p).sign = (own t p).sign := by
  suffices h : ∀ s : State n k T, (s.obj.sign = obj.sign ∨ ∃ t, ∃ c ∈ calls t, c.signed = true ∧
        s.obj.sign = (own t c.arg).sign) ∧ (∀ t p, (s.own t p).sign = (own t p).sign) ∧
        (∀ t, ∀ c ∈ s.signs t, c ∈ calls t) →
      ((run s order).obj.sign = obj.sign ∨ ∃ t, ∃ c ∈ calls t, c.signed = true ∧
        (run s order).obj.sign = (own t c.arg).sign) ∧
      (∀ t p, ((run s order).own t p).sign = (own t p).sign) ∧
        (∀ t, ∀ c ∈ (run s order).signs t, c ∈ calls t) by
    have := h (start obj calls own) ⟨.inl rfl, fun _ _ => rfl, fun _ _ h => h⟩
    exact ⟨this.1, this.2.1⟩
  induction order with
  | nil => exact fun s h => h
  | cons a rest ih =>
    intro s ⟨h1, h2, h3⟩
    refine ih (step s a) ?_
    obtain ⟨t, w⟩ := a
    cases w with
    | block i =>
      refine ⟨h1, ?_, h3⟩
      intro t' p
      simp only [step]
      split
      · rename_i e; subst e; exact h2 _ p
      · exact h2 t' p
    | sign =>
      simp only [step]
      split
      · exact ⟨h1, h2, h3⟩
      · rename_i c rest' hc
        refine ⟨?_, h2, ?_⟩
        · by_cases hs : c.signed = true
          · exact .inr ⟨t, c, h3 t c (by simp [hc]), hs, by simp [hs, h2]⟩
          · simpa [hs] using h1
        · intro t' c' hc'
          dsimp only at hc'
          split at hc'
          · rename_i e; subst e; exact h3 _ c' (by simp [hc, hc'])
          · exact h3 t' c' hc'

/-- **C108**: `tryAtomicSet` leaves its arguments as they were, in every order. -/
theorem C108_arguments (obj : Aesi n) (calls : Fin T → List (Call k)) (own : Fin T → Fin k → Aesi n)
    (hset : ∀ t, ∀ c ∈ calls t, c.exchange = false) (order : List (Fin T × Where n)) (t : Fin T) (p : Fin k) :
    (run (start obj calls own) order).own t p = own t p := by
  suffices h : ∀ s : State n k T, s.own = own → (∀ t i, (s.lane t i).phase ≠ .store ∧
        ∀ c ∈ (s.lane t i).calls, c.exchange = false) → (run s order).own = own by
    rw [h (start obj calls own) rfl (fun t _ => ⟨by simp [start], hset t⟩)]
  induction order with
  | nil => exact fun s h _ => h
  | cons a rest ih =>
    intro s h1 h2
    obtain ⟨t, w⟩ := a
    refine ih (step s (t, w)) ?_ ?_
    · cases w with
      | block i =>
        have hk := h2 t i
        funext t' p
        simp only [step]
        split
        · rename_i e; subst e
          have : (stepLane s.obj.base[i] (fun p => (s.own t' p).base[i]) (s.lane t' i)).2.1 p =
              (s.own t' p).base[i] := by
            simp only [stepLane]
            split
            · rfl
            · split
              · rfl
              · split <;> rfl
              · rename_i e; exact absurd e hk.1
          rw [this, ← h1]
          congr 1
          exact Vector.set_getElem_self _
        · rw [h1]
      | sign =>
        simp only [step]
        split
        · exact h1
        · exact h1
    · cases w with
      | block i =>
        intro t' j
        simp only [step]
        split
        · rename_i e; obtain ⟨rfl, rfl⟩ := e
          have hk := h2 t' j
          simp only [stepLane]
          split
          · exact hk
          · rename_i c rest' hc
            rw [hc] at hk
            have hc0 := hk.2 c (by simp)
            split
            · exact ⟨by simp, by rw [hc]; exact hk.2⟩
            · rw [if_neg (by simp [hc0])]
              exact ⟨by simp, fun c' h' => hk.2 c' (List.mem_cons_of_mem _ h')⟩
            · rename_i e; exact absurd e hk.1
        · exact h2 t' j
      | sign =>
        simp only [step]
        split
        · exact h2
        · exact h2

private theorem done_proj {s : State n k T} (h : Done s) (i : Fin n) (t : Fin T) :
    ((proj i s).th t).calls = [] := by simp [proj, (h t).1 i]

/-- **C108**: when all calls have taken effect, each block comes from the last call of some thread, and with the members
of `Aesi` so does the sign. -/
theorem C108_completed (obj : Aesi n) (calls : Fin T → List (Call k)) (own : Fin T → Fin k → Aesi n) (sg : Bool)
    (hset : ∀ t, ∀ c ∈ calls t, c.exchange = false ∧ c.signed = sg) (order : List (Fin T × Where n))
    (hdone : Done (run (start obj calls own) order)) (hsome : ∃ t, calls t ≠ []) :
    (∀ i (hi : i < n), ∃ t c, (calls t).getLast? = some c ∧
      (run (start obj calls own) order).obj.base[i] = (own t c.arg).base[i]) ∧
    (sg = true → ∃ t c, (calls t).getLast? = some c ∧
      (run (start obj calls own) order).obj.sign = (own t c.arg).sign) := by
  constructor
  · intro i hi
    obtain ⟨l, hl⟩ := proj_run ⟨i, hi⟩ (start obj calls own) order
    rw [proj_start] at hl
    have h := (C55_completed false (one obj.base[i]) (fun t => (calls t).map strip)
      (fun t p => one (own t p).base[i]) (fun t c hc => by
        obtain ⟨h1, c', h2, h3, _⟩ := strip_mem hc
        exact ⟨h3 ▸ (hset t c' h2).1, h1⟩) l (fun t => by
        have := done_proj hdone ⟨i, hi⟩ t
        rwa [hl] at this) (by
        obtain ⟨t, ht⟩ := hsome
        exact ⟨t, by simpa using ht⟩)).1 0 (by norm_num)
    have e : (run (start obj calls own) order).obj.base[i] =
        (proj ⟨i, hi⟩ (run (start obj calls own) order)).obj.base[0] := by simp [proj, one]
    rw [e, hl]
    obtain ⟨t, c, h1, h2⟩ := h
    rw [List.getLast?_map, Option.map_eq_some_iff] at h1
    obtain ⟨c', h3, rfl⟩ := h1
    exact ⟨t, c', h3, by simpa [one, strip] using h2⟩
  · intro hsg
    obtain ⟨l, hl⟩ := projS_run (start obj calls own) order
    have h := (C55_completed sg (none' obj.sign) calls (fun t p => none' (own t p).sign) hset l (fun t => by
        have : ((projS (run (start obj calls own) order)).th t).calls = [] := (hdone t).2
        rw [hl] at this; exact this) hsome).2 hsg
    obtain ⟨t, c, h1, h2⟩ := h
    have e : (run (start obj calls own) order).obj.sign = (projS (run (start obj calls own) order)).obj.sign := rfl
    exact ⟨t, c, h1, by rw [e, hl]; exact h2⟩

/-- **C108**: if all threads set the same value, that is what the object holds in the end. -/
theorem C108_same_value (obj v : Aesi n) (calls : Fin T → List (Call k)) (own : Fin T → Fin k → Aesi n) (sg : Bool)
    (hset : ∀ t, ∀ c ∈ calls t, c.exchange = false ∧ c.signed = sg) (hsame : ∀ t, ∀ c ∈ calls t, own t c.arg = v)
    (order : List (Fin T × Where n)) (hdone : Done (run (start obj calls own) order)) (hsome : ∃ t, calls t ≠ []) :
    (run (start obj calls own) order).obj.base = v.base ∧
      (sg = true → (run (start obj calls own) order).obj = v) := by
  obtain ⟨h1, h2⟩ := C108_completed obj calls own sg hset order hdone hsome
  have hb : (run (start obj calls own) order).obj.base = v.base := by
    ext i hi
    obtain ⟨t, c, hc, he⟩ := h1 i hi
    rw [he, hsame t c (List.mem_of_getLast? hc)]
  refine ⟨hb, fun hs => ?_⟩
  obtain ⟨t, c, hc, he⟩ := h2 hs
  rw [hsame t c (List.mem_of_getLast? hc)] at he
  cases h : (run (start obj calls own) order).obj
  rw [h] at hb he
  cases v
  simp_all

/-- **C108**: concurrent `tryAtomicExchange`s only move blocks: when all have taken effect, the blocks of each index in
the shared object and the threads' objects are, with multiplicity, those there were in the beginning. -/
theorem C108_conserved (obj : Aesi n) (calls : Fin T → List (Call k)) (own : Fin T → Fin k → Aesi n)
    (hx : ∀ t, ∀ c ∈ calls t, c.exchange = true) (order : List (Fin T × Where n))
    (hdone : Done (run (start obj calls own) order)) (i : Nat) (hi : i < n) :
    (run (start obj calls own) order).obj.base[i] ::ₘ (Finset.univ : Finset (Fin T × Fin k)).val.map
      (fun q => ((run (start obj calls own) order).own q.1 q.2).base[i]) =
    obj.base[i] ::ₘ (Finset.univ : Finset (Fin T × Fin k)).val.map (fun q => (own q.1 q.2).base[i]) := by
  obtain ⟨l, hl⟩ := proj_run ⟨i, hi⟩ (start obj calls own) order
  rw [proj_start] at hl
  have h := C56_completed (one obj.base[i]) (fun t => (calls t).map strip)
    (fun t p => one (own t p).base[i]) (fun t c hc => by
      obtain ⟨_, c', h2, h3, _⟩ := strip_mem hc
      exact h3 ▸ hx t c' h2) l (fun t => by
      have := done_proj hdone ⟨i, hi⟩ t
      rwa [hl] at this) 0 (by norm_num)
  simp only [Fin.getElem_fin] at hl
  rw [← hl] at h
  simpa [proj, one] using h

/-! ### A lone exchange -/

private def Lone (i : Nat) (hi : i < n) (t : Fin T) (c : Call k) (x y : Block) (s : State n k T) : Prop :=
  (∀ t', t' ≠ t → (s.lane t' ⟨i, hi⟩).calls = []) ∧
  ((s.lane t ⟨i, hi⟩).calls = [c] ∧ (s.lane t ⟨i, hi⟩).phase = .load ∧ s.obj.base[i] = x ∧
      (s.own t c.arg).base[i] = y ∨
   (s.lane t ⟨i, hi⟩).calls = [c] ∧ (s.lane t ⟨i, hi⟩).phase = .exch ∧ (s.lane t ⟨i, hi⟩).reg = y ∧
      s.obj.base[i] = x ∨
   (s.lane t ⟨i, hi⟩).calls = [c] ∧ (s.lane t ⟨i, hi⟩).phase = .store ∧ (s.lane t ⟨i, hi⟩).reg = x ∧
      s.obj.base[i] = y ∨
   (s.lane t ⟨i, hi⟩).calls = [] ∧ s.obj.base[i] = y ∧ (s.own t c.arg).base[i] = x)

private theorem lone_step (i : Nat) (hi : i < n) (t : Fin T) (c : Call k) (hc : c.exchange = true) (x y : Block)
    (s : State n k T) (h : Lone i hi t c x y s) (a : Fin T × Where n) : Lone i hi t c x y (step s a) := by
  obtain ⟨t', w⟩ := a
  cases w with
  | sign =>
    simp only [step]
    split
    · exact h
    · unfold Lone at h ⊢
      simp only
      have : ∀ (b : Bool) (sg : Sign), (if b then { s.obj with sign := sg } else s.obj).base = s.obj.base := by
        intro b sg; cases b <;> rfl
      rw [this]
      exact h
  | block j =>
    by_cases hji : j = ⟨i, hi⟩
    · subst hji
      obtain ⟨ho, h⟩ := h
      by_cases ht : t' = t
      · subst ht
        refine ⟨fun t'' h'' => by simpa [step, h''] using ho t'' h'', ?_⟩
        rcases h with ⟨h1, h2, h3, h4⟩ | ⟨h1, h2, h3, h4⟩ | ⟨h1, h2, h3, h4⟩ | ⟨h1, h2, h3⟩
        · right; left; simp [step, stepLane, h1, h2, h3, h4]
        · right; right; left; simp [step, stepLane, h1, h2, h3, h4, hc]
        · right; right; right; simp [step, stepLane, h1, h2, h3, h4]
        · right; right; right; simp [step, stepLane, h1, h2, h3]
      · have he := ho t' ht
        have ht' : ¬ t = t' := fun e => ht e.symm
        refine ⟨fun t'' h'' => ?_, ?_⟩
        · by_cases h3 : t'' = t'
          · subst h3; simp [step, stepLane, he]
          · simpa [step, h3] using ho t'' h''
        · simp only [step, stepLane, he]
          simpa [ht'] using h
    · have hji' : (j : Nat) ≠ i := fun e => hji (Fin.ext e)
      have hne : ¬ (⟨i, hi⟩ : Fin n) = j := fun e => hji e.symm
      unfold Lone at h ⊢
      have e : (step s (t', .block j)).obj.base[i] = s.obj.base[i] := by
        simp [step, Vector.getElem_set_ne _ _ hji']
      have e2 : ((step s (t', .block j)).own t c.arg).base[i] = (s.own t c.arg).base[i] := by
        simp only [step]
        by_cases ht : t = t'
        · subst ht; simp [Vector.getElem_set_ne _ _ hji']
        · simp [ht]
      have e3 : ∀ t'', (step s (t', .block j)).lane t'' ⟨i, hi⟩ = s.lane t'' ⟨i, hi⟩ := by
        intro t''; simp [step, hne]
      simp only [e, e2, e3]
      exact h

/-- **C108**: a single exchange, the other threads idle: the two objects have changed their digits. -/
theorem C108_exchange_alone (obj : Aesi n) (calls : Fin T → List (Call k)) (own : Fin T → Fin k → Aesi n) (t : Fin T)
    (c : Call k) (hc : c.exchange = true) (ht : calls t = [c]) (hidle : ∀ t', t' ≠ t → calls t' = [])
    (order : List (Fin T × Where n)) (hdone : Done (run (start obj calls own) order)) :
    (run (start obj calls own) order).obj.base = (own t c.arg).base ∧
    ((run (start obj calls own) order).own t c.arg).base = obj.base := by
  have key : ∀ i (hi : i < n), Lone i hi t c obj.base[i] (own t c.arg).base[i] (run (start obj calls own) order) := by
    intro i hi
    have h0 : Lone i hi t c obj.base[i] (own t c.arg).base[i] (start obj calls own) :=
      ⟨fun t' h => hidle t' h, Or.inl ⟨ht, rfl, rfl, rfl⟩⟩
    exact List.foldlRecOn (motive := Lone i hi t c obj.base[i] (own t c.arg).base[i]) order step h0
      (fun s hs a _ => lone_step i hi t c hc _ _ s hs a)
  constructor
  · ext i hi
    obtain ⟨_, h | h | h | h⟩ := key i hi
    · rw [(hdone t).1] at h; simp at h
    · rw [(hdone t).1] at h; simp at h
    · rw [(hdone t).1] at h; simp at h
    · rw [h.2.1]
  · ext i hi
    obtain ⟨_, h | h | h | h⟩ := key i hi
    · rw [(hdone t).1] at h; simp at h
    · rw [(hdone t).1] at h; simp at h
    · rw [(hdone t).1] at h; simp at h
    · rw [h.2.2]

/-! ### Sequentially consistent executions are among these -/

private def LaneOk (th : Cuda.Thread n k) (i : Nat) (l : Lane k) : Prop :=
  match th.calls with
  | [] => l.calls = []
  | c :: rest =>
    (i < th.i → l.calls = rest ∧ l.phase = .load) ∧
    (i = th.i → l.calls = c :: rest ∧ l.phase = th.phase ∧ (th.phase ≠ .load → l.reg = th.reg)) ∧
    (th.i < i → l.calls = c :: rest ∧ l.phase = .load)

private structure Sim (s : Cuda.State n k T) (r : State n k T) : Prop where
  obj : r.obj = s.obj
  own : ∀ t, r.own t = (s.th t).own
  signs : ∀ t, r.signs t = (s.th t).calls
  lane : ∀ t (i : Fin n), LaneOk (s.th t) i (r.lane t i)

private theorem sim_step (s : Cuda.State n k T) (r : State n k T) (h : Sim s r) (t : Fin T) :
    ∃ order, Sim (Cuda.step s t) (run r order) := by
  cases hc : (s.th t).calls with
  | nil =>
    refine ⟨[], ?_⟩
    have : Cuda.step s t = s := by
      simp only [Cuda.step, Cuda.stepThread, hc]
      congr 1
      funext t'
      by_cases ht : t' = t
      · subst ht; simp
      · simp [ht]
    rw [this]; exact h
  | cons c rest =>
    by_cases hi : (s.th t).i < n
    · refine ⟨[(t, .block ⟨(s.th t).i, hi⟩)], ?_⟩
      have hl := h.lane t ⟨(s.th t).i, hi⟩
      simp only [LaneOk, hc] at hl
      obtain ⟨h1, h2, h3⟩ := hl.2.1 trivial
      have hlane : ∀ (th' : Cuda.Thread n k) (l' : Lane k),
          LaneOk th' (s.th t).i l' → (∀ (i : Fin n), (i : Nat) ≠ (s.th t).i → LaneOk th' i (r.lane t i)) →
          ∀ t' (i : Fin n), LaneOk (if t' = t then th' else s.th t') i
            (if t' = t ∧ i = ⟨(s.th t).i, hi⟩ then l' else r.lane t' i) := by
        intro th' l' ha hb t' i
        by_cases ht : t' = t
        · subst ht
          by_cases hii : i = ⟨(s.th t').i, hi⟩
          · subst hii; simpa using ha
          · simp only [if_true, hii, and_false, if_false]
            exact hb i (fun e => hii (Fin.ext e))
        · simp only [ht, if_false, false_and]
          exact h.lane t' i
      have hother : ∀ (i : Fin n), (i : Nat) ≠ (s.th t).i →
          ((i : Nat) < (s.th t).i → (r.lane t i).calls = rest ∧ (r.lane t i).phase = .load) ∧
          ((s.th t).i < i → (r.lane t i).calls = c :: rest ∧ (r.lane t i).phase = .load) := by
        intro i _
        have := h.lane t i
        simp only [LaneOk, hc] at this
        exact ⟨this.1, this.2.2⟩
      have hsg : ∀ t', r.signs t' = (if t' = t then (s.th t) else s.th t').calls := by
        intro t'
        by_cases ht : t' = t
        · subst ht; simpa using h.signs t'
        · simpa [ht] using h.signs t'
      cases hph : (s.th t).phase with
      | load =>
        simp only [run, List.foldl_cons, List.foldl_nil, step, stepLane, h1, h2, hph, Cuda.step, Cuda.stepThread, hc, hi,
          dif_pos]
        refine ⟨?_, ?_, ?_, ?_⟩
        · rw [← h.obj]; simp
        · intro t'
          by_cases ht : t' = t
          · subst ht; funext p; simp [← h.own]
          · simp [ht, ← h.own]
        · intro t'; rw [h.signs]
          by_cases ht : t' = t
          · subst ht; simp [hc]
          · simp [ht]
        · refine hlane _ _ ?_ ?_
          · simp [LaneOk, h1, h.own]
          · intro i hne
            have := hother i hne
            simp only [LaneOk]
            exact ⟨this.1, fun e => absurd e hne, this.2⟩
      | exch =>
        have h3 := h3 (by rw [hph]; decide)
        by_cases he : c.exchange = true
        · simp only [run, List.foldl_cons, List.foldl_nil, step, stepLane, h1, h2, hph, Cuda.step, Cuda.stepThread, hc, hi,
            dif_pos, he, if_true]
          refine ⟨?_, ?_, ?_, ?_⟩
          · rw [← h.obj, h3]
          · intro t'
            by_cases ht : t' = t
            · subst ht; funext p; simp [← h.own]
            · simp [ht, ← h.own]
          · intro t'; rw [h.signs]
            by_cases ht : t' = t
            · subst ht; simp [hc]
            · simp [ht]
          · refine hlane _ _ ?_ ?_
            · simp [LaneOk, h1, h.obj]
            · intro i hne
              have := hother i hne
              simp only [LaneOk]
              exact ⟨this.1, fun e => absurd e hne, this.2⟩
        · simp only [run, List.foldl_cons, List.foldl_nil, step, stepLane, h1, h2, hph, Cuda.step, Cuda.stepThread, hc, hi,
            dif_pos, he]
          refine ⟨?_, ?_, ?_, ?_⟩
          · rw [← h.obj, h3]; simp
          · intro t'
            by_cases ht : t' = t
            · subst ht; funext p; simp [← h.own]
            · simp [ht, ← h.own]
          · intro t'; rw [h.signs]
            by_cases ht : t' = t
            · subst ht; simp [hc]
            · simp [ht]
          · refine hlane _ _ ?_ ?_
            · simp [LaneOk]
            · intro i hne
              have := hother i hne
              simp only [LaneOk]
              exact ⟨fun e => this.1 (by first | omega | (simp at e; omega)), fun e => by
                have := this.2 (by first | omega | (simp at e; omega))
                simp [this], fun e => this.2 (by first | omega | (simp at e; omega))⟩
      | store =>
        have h3 := h3 (by rw [hph]; decide)
        simp only [run, List.foldl_cons, List.foldl_nil, step, stepLane, h1, h2, hph, Cuda.step, Cuda.stepThread, hc, hi,
          dif_pos]
        refine ⟨?_, ?_, ?_, ?_⟩
        · rw [← h.obj]; simp
        · intro t'
          by_cases ht : t' = t
          · subst ht; funext p
            by_cases hp : p = c.arg
            · simp [hp, ← h.own, h3]
            · simp [hp, ← h.own]
          · simp [ht, ← h.own]
        · intro t'; rw [h.signs]
          by_cases ht : t' = t
          · subst ht; simp [hc]
          · simp [ht]
        · refine hlane _ _ ?_ ?_
          · simp [LaneOk]
          · intro i hne
            have := hother i hne
            simp only [LaneOk]
            exact ⟨fun e => this.1 (by first | omega | (simp at e; omega)), fun e => by
              have := this.2 (by first | omega | (simp at e; omega))
              simp [this], fun e => this.2 (by first | omega | (simp at e; omega))⟩
    · refine ⟨[(t, .sign)], ?_⟩
      have hsig : r.signs t = c :: rest := by rw [h.signs, hc]
      simp only [run, List.foldl_cons, List.foldl_nil, step, hsig, Cuda.step, Cuda.stepThread, hc, hi, dif_neg,
        not_false_iff]
      refine ⟨?_, ?_, ?_, ?_⟩
      · simp [h.obj, h.own]
      · intro t'
        by_cases ht : t' = t
        · subst ht; simp [h.own]
        · simp [ht, h.own]
      · intro t'
        by_cases ht : t' = t
        · subst ht; simp
        · simp [ht, h.signs]
      · intro t' i
        by_cases ht : t' = t
        · subst ht
          have := h.lane t' i
          simp only [LaneOk, hc] at this
          have := this.1 (by omega)
          simp only [if_true, LaneOk]
          cases rest with
          | nil => exact this.1
          | cons c' rest' =>
            exact ⟨fun e => absurd e (by simp), fun _ => ⟨this.1, this.2, by simp⟩, fun _ => this⟩
        · simp only [ht, if_false]; exact h.lane t' i

/-- **C108** covers C55 and C56: whatever a sequentially consistent execution does, some order of effects does. -/
theorem C108_generalises (obj : Aesi n) (calls : Fin T → List (Call k)) (own : Fin T → Fin k → Aesi n)
    (schedule : List (Fin T)) : ∃ order : List (Fin T × Where n),
      (run (start obj calls own) order).obj = (Cuda.run (Cuda.start obj calls own) schedule).obj ∧
      (∀ t, (run (start obj calls own) order).own t = ((Cuda.run (Cuda.start obj calls own) schedule).th t).own) ∧
      ((∀ t, ((Cuda.run (Cuda.start obj calls own) schedule).th t).calls = []) →
        Done (run (start obj calls own) order)) := by
  have h0 : Sim (Cuda.start obj calls own) (start obj calls own) := by
    refine ⟨rfl, fun _ => rfl, fun _ => rfl, fun t i => ?_⟩
    simp only [LaneOk, Cuda.start, Cuda.Thread.start, start]
    split
    · next h => exact h
    · next c rest h => exact ⟨fun e => absurd e (by omega), fun _ => ⟨h, trivial, by simp⟩, fun _ => ⟨h, trivial⟩⟩
  have key : ∀ (sch : List (Fin T)) (s : Cuda.State n k T) (r : State n k T), Sim s r →
      ∃ order, Sim (Cuda.run s sch) (run r order) := by
    intro sch
    induction sch with
    | nil => exact fun s r h => ⟨[], h⟩
    | cons t sch ih =>
      intro s r h
      obtain ⟨o1, h1⟩ := sim_step s r h t
      obtain ⟨o2, h2⟩ := ih _ _ h1
      exact ⟨o1 ++ o2, by simpa [run, List.foldl_append, Cuda.run] using h2⟩
  obtain ⟨order, h⟩ := key schedule _ _ h0
  refine ⟨order, h.obj, h.own, fun hd t => ⟨fun i => ?_, by rw [h.signs, hd]⟩⟩
  have := h.lane t i
  simpa only [LaneOk, hd t] using this

/-! ### Every call completes -/

private def laneBudget (l : Lane k) : Nat :=
  3 * l.calls.length - (if l.calls = [] then 0 else match l.phase with | .load => 0 | .exch => 1 | .store => 2)

private theorem laneBudget_step (x : Block) (own : Fin k → Block) (l : Lane k) :
    laneBudget (stepLane x own l).2.2 ≤ laneBudget l - 1 := by
  cases hc : l.calls with
  | nil => simp [stepLane, hc, laneBudget]
  | cons c rest =>
    cases hp : l.phase with
    | load => simp [stepLane, hc, hp, laneBudget]
    | exch =>
      by_cases he : c.exchange = true
      · simp [stepLane, hc, hp, he, laneBudget]; omega
      · simp [stepLane, hc, hp, he, laneBudget]; omega
    | store =>
      simp [stepLane, hc, hp, laneBudget]; omega

private theorem lane_step (s : State n k T) (a : Fin T × Where n) (t : Fin T) (i : Fin n) :
    laneBudget ((step s a).lane t i) ≤ laneBudget (s.lane t i) - (if a = (t, .block i) then 1 else 0) := by
  obtain ⟨t', w⟩ := a
  cases w with
  | sign =>
    simp only [step]
    split <;> simp
  | block j =>
    by_cases h : t = t' ∧ i = j
    · obtain ⟨rfl, rfl⟩ := h
      simp only [step, if_true, and_self]
      exact laneBudget_step _ _ _
    · have : ¬ ((t', Where.block j) = (t, Where.block i)) := by
        intro e; simp at e; exact h ⟨e.1.symm, e.2.symm⟩
      simp [step, h, this]

private theorem signs_step (s : State n k T) (a : Fin T × Where n) (t : Fin T) :
    ((step s a).signs t).length ≤ (s.signs t).length - (if a = (t, .sign) then 1 else 0) := by
  obtain ⟨t', w⟩ := a
  cases w with
  | block j => simp [step]
  | sign =>
    by_cases ht : t' = t
    · subst ht
      simp only [step, if_true]
      split <;> simp [*]
    · have ht' : ¬ t = t' := fun e => ht e.symm
      simp only [step]
      split <;> simp [ht, ht']

/-- **C108**, wait-freedom: a thread whose accesses take effect often enough, three times per call for each block index
and once per call for the sign, has completed its calls, whatever the other threads do. -/
theorem C108_wait_free (obj : Aesi n) (calls : Fin T → List (Call k)) (own : Fin T → Fin k → Aesi n)
    (order : List (Fin T × Where n)) (t : Fin T)
    (hb : ∀ i, 3 * (calls t).length ≤ order.count (t, .block i)) (hs : (calls t).length ≤ order.count (t, .sign)) :
    (∀ i, ((run (start obj calls own) order).lane t i).calls = []) ∧
      (run (start obj calls own) order).signs t = [] := by
  have key : ∀ (o : List (Fin T × Where n)) (s : State n k T),
      (∀ i, laneBudget ((run s o).lane t i) ≤ laneBudget (s.lane t i) - o.count (t, .block i)) ∧
      ((run s o).signs t).length ≤ (s.signs t).length - o.count (t, .sign) := by
    intro o
    induction o with
    | nil => exact fun s => ⟨fun i => by simp [run], by simp [run]⟩
    | cons a o ih =>
      intro s
      obtain ⟨h1, h2⟩ := ih (step s a)
      refine ⟨fun i => ?_, ?_⟩
      · have h3 := lane_step s a t i
        have h4 := h1 i
        rw [List.count_cons]
        simp only [beq_iff_eq]
        change laneBudget ((run (step s a) o).lane t i) ≤ _
        by_cases ha : a = (t, .block i)
        · rw [if_pos ha] at h3 ⊢; omega
        · rw [if_neg ha] at h3 ⊢; omega
      · have h3 := signs_step s a t
        rw [List.count_cons]
        simp only [beq_iff_eq]
        change ((run (step s a) o).signs t).length ≤ _
        by_cases ha : a = (t, .sign)
        · rw [if_pos ha] at h3 ⊢; omega
        · rw [if_neg ha] at h3 ⊢; omega
  obtain ⟨h1, h2⟩ := key order (start obj calls own)
  refine ⟨fun i => ?_, ?_⟩
  · have h3 := h1 i
    have h4 := hb i
    have h5 : laneBudget ((start obj calls own).lane t i) ≤ 3 * (calls t).length := by
      simp [laneBudget, start]
    by_contra hne
    obtain ⟨c, rest, hc⟩ := List.exists_cons_of_ne_nil hne
    have : 0 < laneBudget ((run (start obj calls own) order).lane t i) := by
      simp only [laneBudget, hc, List.length_cons]
      split
      · omega
      · split <;> omega
    omega
  · have h3 : ((start obj calls own).signs t).length = (calls t).length := rfl
    exact List.length_eq_zero_iff.1 (by omega)

/-! ### Concrete cases -/

private def mine : Fin 2 → Fin 2 → Aesi 2 := fun t p =>
  if t = 0 then (if p = 0 then Aesi.ofInt 2 (2 ^ 32 + 1) else Aesi.ofInt 2 (2 * 2 ^ 32 + 2))
  else Aesi.ofInt 2 (7 * 2 ^ 32 + 7)

/-- Thread 0 exchanges with its two objects, thread 1 with its first. -/
private def two (signed exchange : Bool) : Fin 2 → List (Call 2) := fun t =>
  if t = 0 then [⟨exchange, signed, 0⟩, ⟨exchange, signed, 1⟩] else [⟨exchange, signed, 0⟩]

/-- Both calls of thread 0 take effect on block 0, then the call of thread 1 on both blocks, then both calls of thread 0
on block 1. -/
private def crossed : List (Fin 2 × Where 2) :=
  List.replicate 6 (0, .block 0) ++ List.replicate 3 (1, .block 0) ++ List.replicate 3 (1, .block 1) ++
    List.replicate 6 (0, .block 1) ++ [(1, .sign), (0, .sign), (0, .sign)]

/-- What relaxed ordering adds: thread 1 receives block 0 of thread 0's second object together with block 1 of the
initial value, 3 * 2^32 + 3 (thread 0's second call is seen before its first). -/
theorem C108_crossed_example :
    let s := run (start (Aesi.ofInt 2 (3 * 2 ^ 32 + 3)) (two false true) mine) crossed
    Done s ∧ Aesi.toInt (s.own 1 0) = 3 * 2 ^ 32 + 2 := by
  unfold Done; decide +kernel

/-- The hypotheses of the other theorems, for the same order. -/
example : Done (run (start (Aesi.ofInt 2 5) (two true false) mine) crossed) ∧
    (∀ t, ∀ c ∈ two true false t, c.exchange = false ∧ c.signed = true) ∧ (∃ t, two true false t ≠ []) ∧
    (∀ t, ∀ c ∈ two false true t, c.exchange = true) := by
  refine ⟨by unfold Done; decide +kernel, ?_, ⟨0, by decide⟩, ?_⟩
  · intro t c hc
    fin_cases t <;> simp [two] at hc <;> (try rcases hc with rfl | rfl) <;> (try subst hc) <;> simp
  · intro t c hc
    fin_cases t <;> simp [two] at hc <;> (try rcases hc with rfl | rfl) <;> (try subst hc) <;> simp

example : (3 * (two false true 0).length ≤ crossed.count (0, .block 1)) ∧
    (two false true 0).length ≤ crossed.count (0, .sign) := by decide

end AesiMP
