import Verif.Model.CudaSharedRelaxed
import Verif.Props.CudaSharedIff

/-!
# C110: shared operands under relaxed memory ordering

What C104 says of sequentially consistent memory, for the orders of `Model/CudaSharedRelaxed.lean`: every block read is
a block written, what nobody writes stays, a thread left alone gets the sequential result, a copied block is a block of
the source at some moment, exchanges lose nothing exactly when no argument is shared, and every thread finishes.
-/

namespace AesiMP
open CudaShared (Call)
open CudaSharedRelaxed
variable {n k T : Nat} {α : Type}

/-! ### One lane -/

private theorem stepOps_cases (heap : Fin k → α) (ops : List (Op k α)) (m : Nat) :
    stepOps heap ops m = (heap, ops) ∨ ∃ pre o post, ops = pre ++ o :: post ∧ (∀ o' ∈ pre, o.next ∉ o'.locs) ∧
      stepOps heap ops m = ((o.step heap).1, pre ++ ((o.step heap).2 ++ post)) := by
  unfold stepOps
  split
  · exact .inl rfl
  · next o h =>
    split
    · next hall =>
      refine .inr ⟨ops.take m, o, ops.drop (m + 1), ?_, hall, rfl⟩
      obtain ⟨hm, rfl⟩ := List.getElem?_eq_some_iff.1 h
      rw [List.getElem_cons_drop hm, List.take_append_drop]
    · exact .inl rfl

/-- The accesses of one lane. -/
private def laneRun (l : Lane α k T) (order : List (Fin T × Nat)) : Lane α k T :=
  order.foldl (fun l a => l.step a.1 a.2) l

private theorem laneRun_ind {P : Lane α k T → Prop} (hs : ∀ l t m, P l → P (l.step t m)) (l : Lane α k T) (h : P l)
    (order : List (Fin T × Nat)) : P (laneRun l order) := by
  induction order generalizing l with
  | nil => exact h
  | cons a rest ih => exact ih _ (hs l a.1 a.2 h)

private def inBlock (i : Fin n) : Where n × Fin T × Nat → Option (Fin T × Nat)
  | (.block j, a) => if j = i then some a else none
  | (.sign, _) => none

private def inSign : Where n × Fin T × Nat → Option (Fin T × Nat)
  | (.block _, _) => none
  | (.sign, a) => some a

private theorem run_block (s : State n k T) (order : List (Where n × Fin T × Nat)) (i : Fin n) :
    (run s order).blocks i = laneRun (s.blocks i) (order.filterMap (inBlock i)) := by
  induction order generalizing s with
  | nil => rfl
  | cons a rest ih =>
    obtain ⟨w, t, m⟩ := a
    refine (ih (step s (w, t, m))).trans ?_
    cases w with
    | block j =>
      by_cases h : j = i
      · subst h; rw [List.filterMap_cons_some (b := (t, m)) (by simp [inBlock])]; simp [step, laneRun]
      · rw [List.filterMap_cons_none (by simp [inBlock, h])]; simp [step, Ne.symm h]
    | sign => rw [List.filterMap_cons_none rfl]; rfl

private theorem run_sign (s : State n k T) (order : List (Where n × Fin T × Nat)) :
    (run s order).sign = laneRun s.sign (order.filterMap inSign) := by
  induction order generalizing s with
  | nil => rfl
  | cons a rest ih =>
    obtain ⟨w, t, m⟩ := a
    refine (ih (step s (w, t, m))).trans ?_
    cases w with
    | block j => rw [List.filterMap_cons_none rfl]; rfl
    | sign => rw [List.filterMap_cons_some (f := inSign) (b := (t, m)) rfl]; rfl

private theorem obj_base (s : State n k T) (p : Fin k) {i : Nat} (hi : i < n) :
    (s.obj p).base[i] = (s.blocks ⟨i, hi⟩).heap p := Vector.getElem_ofFn hi

/-- A step either does nothing or is an access that is allowed. -/
private theorem lane_cases {P : Lane α k T → Prop} (l : Lane α k T) (t : Fin T) (m : Nat) (h0 : P l)
    (h1 : ∀ pre o post, l.pend t = pre ++ o :: post → (∀ o' ∈ pre, o.next ∉ o'.locs) →
      P ⟨(o.step l.heap).1, fun t' => if t' = t then pre ++ ((o.step l.heap).2 ++ post) else l.pend t'⟩) :
    P (l.step t m) := by
  unfold Lane.step
  rcases stepOps_cases l.heap (l.pend t) m with e | ⟨pre, o, post, hops, hall, e⟩
  · rw [e]
    have : (fun t' => if t' = t then (l.heap, l.pend t).2 else l.pend t') = l.pend := by
      funext t'; split
      · next h => rw [h]
      · rfl
    rw [this]; exact h0
  · rw [e]; exact h1 pre o post hops hall

/-- What holds of all outstanding calls before a step and of the one that did it, holds after it. -/
private theorem pend_all {pend : Fin T → List (Op k α)} {t : Fin T} {pre post new : List (Op k α)} {o : Op k α}
    (hops : pend t = pre ++ o :: post) (P : Fin T → Op k α → Prop) (h : ∀ t', ∀ o' ∈ pend t', P t' o')
    (hn : ∀ o' ∈ new, P t o') :
    ∀ t', ∀ o' ∈ (if t' = t then pre ++ (new ++ post) else pend t'), P t' o' := by
  intro t' o' ho'
  split at ho'
  · next e =>
    subst e
    have := h t'
    rw [hops] at this
    simp only [List.mem_append] at ho'
    rcases ho' with h | h | h
    · exact this o' (by simp [h])
    · exact hn o' h
    · exact this o' (by simp [h])
  · exact h t' o' ho'

/-! ### Where contents come from -/

private structure From (C : Fin T → List (Call k)) (S : Fin k → Prop) (heap0 : Fin k → α) (l : Lane α k T) : Prop where
  heap : ∀ p, S p → ∃ q, S q ∧ l.heap p = heap0 q
  sub : ∀ t, ∀ o ∈ l.pend t, o.call ∈ C t
  exch : ∀ t, ∀ o ∈ l.pend t, ∀ v, o.pos = .exch v → S o.call.target → ∃ q, S q ∧ v = heap0 q
  store : ∀ t, ∀ o ∈ l.pend t, ∀ v, o.pos = .store v →
    o.call.exchange = true ∧ (S o.call.arg → ∃ q, S q ∧ v = heap0 q)

private theorem from_step {C : Fin T → List (Call k)} {S : Fin k → Prop} {heap0 : Fin k → α}
    (hS : ∀ t, ∀ c ∈ C t, (S c.target → S c.arg) ∧ (c.exchange = true → S c.arg → S c.target))
    (l : Lane α k T) (t : Fin T) (m : Nat) (h : From C S heap0 l) : From C S heap0 (l.step t m) := by
  refine lane_cases l t m h fun pre o post hops _ => ?_
  obtain ⟨h1, h2, h3, h4⟩ := h
  have ho : o ∈ l.pend t := by rw [hops]; simp
  have hc := h2 t o ho
  obtain ⟨c, pos⟩ := o
  cases pos with
  | load =>
    refine ⟨h1, pend_all hops (fun t o => o.call ∈ C t) h2 ?_,
      pend_all hops (fun t o => ∀ v, o.pos = .exch v → S o.call.target → ∃ q, S q ∧ v = heap0 q) h3 ?_,
      pend_all hops (fun t o => ∀ v, o.pos = .store v → o.call.exchange = true ∧ (S o.call.arg → ∃ q, S q ∧ v = heap0 q))
        h4 ?_⟩
    · simpa [Op.step] using hc
    · simp only [Op.step, List.mem_singleton, forall_eq]
      intro v hv hq
      obtain ⟨q, hq', e⟩ := h1 c.arg ((hS t c hc).1 hq)
      exact ⟨q, hq', by rw [← Pos.exch.inj hv, e]⟩
    · simp [Op.step]
  | exch v =>
    refine ⟨?_, pend_all hops (fun t o => o.call ∈ C t) h2 ?_,
      pend_all hops (fun t o => ∀ v, o.pos = .exch v → S o.call.target → ∃ q, S q ∧ v = heap0 q) h3 ?_,
      pend_all hops (fun t o => ∀ v, o.pos = .store v → o.call.exchange = true ∧ (S o.call.arg → ∃ q, S q ∧ v = heap0 q))
        h4 ?_⟩
    · intro p hp
      simp only [Op.step]
      split
      · next e => subst e; exact h3 t _ ho v rfl hp
      · exact h1 p hp
    · intro o' ho'
      simp only [Op.step] at ho'
      split at ho' <;> simp at ho'
      subst ho'; exact hc
    · intro o' ho'
      simp only [Op.step] at ho'
      split at ho' <;> simp at ho'
      subst ho'; simp
    · intro o' ho'
      simp only [Op.step] at ho'
      split at ho' <;> simp at ho'
      next hx =>
      subst ho'
      intro w hw
      refine ⟨hx, fun ha => ?_⟩
      obtain ⟨q, hq', e⟩ := h1 c.target ((hS t c hc).2 hx ha)
      exact ⟨q, hq', by rw [← Pos.store.inj hw, e]⟩
  | store v =>
    refine ⟨?_, pend_all hops (fun t o => o.call ∈ C t) h2 ?_,
      pend_all hops (fun t o => ∀ v, o.pos = .exch v → S o.call.target → ∃ q, S q ∧ v = heap0 q) h3 ?_,
      pend_all hops (fun t o => ∀ v, o.pos = .store v → o.call.exchange = true ∧ (S o.call.arg → ∃ q, S q ∧ v = heap0 q))
        h4 ?_⟩
    · intro p hp
      simp only [Op.step]
      split
      · next e => subst e; exact (h4 t _ ho v rfl).2 hp
      · exact h1 p hp
    all_goals simp [Op.step]

private theorem from_run {C : Fin T → List (Call k)} {S : Fin k → Prop} {heap0 : Fin k → α}
    (hS : ∀ t, ∀ c ∈ C t, (S c.target → S c.arg) ∧ (c.exchange = true → S c.arg → S c.target))
    (order : List (Fin T × Nat)) :
    From C S heap0 (laneRun ⟨heap0, fun t => (C t).map fun c => ⟨c, .load⟩⟩ order) := by
  refine laneRun_ind (P := From C S heap0) (from_step hS) _ ⟨fun p hp => ⟨p, hp, rfl⟩, ?_, ?_, ?_⟩ order <;> simp

private theorem start_sign (heap : Fin k → Aesi n) (calls : Fin T → List (Call k)) :
    (start heap calls).sign = ⟨fun p => (heap p).sign, fun t =>
      (((calls t).filter (·.signed)).map fun c => { c with exchange := false }).map fun c => ⟨c, .load⟩⟩ := by
  simp only [start, List.map_map]; rfl

/-- C110: whatever the order, a block of an object in a set closed under the calls is a block that some object of the
set had at the start, and the same for signs: nothing is ever torn within a block, and nothing leaks in from outside. -/
theorem C110_never_torn (heap : Fin k → Aesi n) (calls : Fin T → List (Call k)) (S : Fin k → Prop)
    (hS : ∀ t, ∀ c ∈ calls t, (S c.target → S c.arg) ∧ (c.exchange = true → S c.arg → S c.target))
    (order : List (Where n × Fin T × Nat)) (p : Fin k) (hp : S p) :
    (∀ i (hi : i < n), ∃ q, S q ∧ ((run (start heap calls) order).obj p).base[i] = (heap q).base[i]) ∧
      ∃ q, S q ∧ ((run (start heap calls) order).obj p).sign = (heap q).sign := by
  constructor
  · intro i hi
    rw [obj_base _ _ hi, run_block]
    exact (from_run hS _).heap p hp
  · simp only [State.obj]
    rw [run_sign, start_sign]
    refine (from_run (C := fun t => ((calls t).filter (·.signed)).map fun c => { c with exchange := false })
      (S := S) (fun t c hc => ?_) _).heap p hp
    obtain ⟨c0, hc0, rfl⟩ := List.mem_map.1 hc
    exact ⟨(hS t c0 (List.mem_filter.1 hc0).1).1, by simp⟩

private theorem aesi_ext' {x y : Aesi n} (hs : x.sign = y.sign) (hb : ∀ j (hj : j < n), x.base[j] = y.base[j]) :
    x = y := by
  obtain ⟨s, b⟩ := x; obtain ⟨s', b'⟩ := y
  obtain rfl : s = s' := hs
  obtain rfl : b = b' := Vector.ext hb
  rfl

/-- C110: an object that is only read keeps its value. -/
theorem C110_read_only (heap : Fin k → Aesi n) (calls : Fin T → List (Call k)) (p : Fin k)
    (hp : ∀ t, ∀ c ∈ calls t, c.target ≠ p ∧ (c.exchange = true → c.arg ≠ p))
    (order : List (Where n × Fin T × Nat)) : (run (start heap calls) order).obj p = heap p := by
  obtain ⟨h1, h2⟩ := C110_never_torn heap calls (· = p)
    (fun t c hc => ⟨fun e => absurd e (hp t c hc).1, fun hx e => absurd e ((hp t c hc).2 hx)⟩) order p rfl
  refine aesi_ext' ?_ fun i hi => ?_
  · obtain ⟨q, rfl, e⟩ := h2; exact e
  · obtain ⟨q, rfl, e⟩ := h1 i hi; exact e

/-! ### Progress -/

private def CudaSharedRelaxed.Op.weight (o : Op k α) : Nat :=
  match o.pos with
  | .load => 3
  | .exch _ => 2
  | .store _ => 1

private def opsWeight (ops : List (Op k α)) : Nat := (ops.map Op.weight).sum

private theorem step_weight (heap : Fin k → α) (o : Op k α) : opsWeight (o.step heap).2 + 1 ≤ o.weight := by
  obtain ⟨c, pos⟩ := o
  cases pos <;> simp [Op.step, opsWeight, Op.weight]
  split <;> simp [Op.weight]

private theorem lane_weight (l : Lane α k T) (t : Fin T) (a : Fin T × Nat) :
    opsWeight ((l.step a.1 a.2).pend t) ≤ opsWeight (l.pend t) - if a = (t, 0) then 1 else 0 := by
  obtain ⟨t', m⟩ := a
  simp only [Lane.step]
  by_cases e : t = t'
  · subst e
    simp only [if_true]
    by_cases hm : m = 0
    · subst hm
      cases hp : l.pend t with
      | nil => simp [stepOps, opsWeight]
      | cons o rest =>
        have := step_weight l.heap o
        simp only [stepOps, List.getElem?_cons_zero, List.take_zero, List.not_mem_nil, false_imp_iff, implies_true,
          if_true, List.nil_append, List.drop_succ_cons, List.drop_zero]
        simp only [opsWeight, List.map_append, List.sum_append, List.map_cons, List.sum_cons] at this ⊢
        omega
    · rw [if_neg (by simp [hm])]
      rcases stepOps_cases l.heap (l.pend t) m with e | ⟨pre, o, post, hops, _, e⟩
      · rw [e]; simp
      · rw [e, hops]
        have := step_weight l.heap o
        simp only [opsWeight, List.map_append, List.sum_append, List.map_cons, List.sum_cons] at this ⊢
        omega
  · rw [if_neg e, if_neg (by simp [Ne.symm e])]; simp

private theorem laneRun_weight (l : Lane α k T) (t : Fin T) (order : List (Fin T × Nat)) :
    opsWeight ((laneRun l order).pend t) ≤ opsWeight (l.pend t) - order.count (t, 0) := by
  induction order generalizing l with
  | nil => simp [laneRun]
  | cons a rest ih =>
    have h := ih (l.step a.1 a.2)
    have h' := lane_weight l t a
    rw [List.count_cons]
    simp only [laneRun, List.foldl_cons] at h ⊢
    by_cases e : a = (t, 0) <;> simp [e] at h h' ⊢ <;> omega

private theorem opsWeight_zero {ops : List (Op k α)} (h : opsWeight ops = 0) : ops = [] := by
  cases ops with
  | nil => rfl
  | cons o rest =>
    obtain ⟨c, pos⟩ := o
    cases pos <;> simp [opsWeight, Op.weight] at h

private theorem opsWeight_load (cs : List (Call k)) :
    opsWeight (cs.map fun c => (⟨c, .load⟩ : Op k α)) = 3 * cs.length := by
  induction cs with
  | nil => rfl
  | cons c rest ih => simp [opsWeight, Op.weight] at ih ⊢; omega

/-- C110: a thread whose oldest outstanding access in each lane takes effect three times for each of its calls has
finished, whatever the other threads do. -/
theorem C110_wait_free (heap : Fin k → Aesi n) (calls : Fin T → List (Call k)) (order : List (Where n × Fin T × Nat))
    (t : Fin T) (w : Where n) (h : 3 * (calls t).length ≤ order.count (w, t, 0)) :
    match w with
    | .block i => ((run (start heap calls) order).blocks i).pend t = []
    | .sign => (run (start heap calls) order).sign.pend t = [] := by
  have count_map : ∀ (f : Where n × Fin T × Nat → Option (Fin T × Nat)), f (w, t, 0) = some (t, 0) →
      order.count (w, t, 0) ≤ (order.filterMap f).count (t, 0) := by
    intro f hf
    clear h
    induction order with
    | nil => simp
    | cons a rest ih =>
      rw [List.count_cons]
      by_cases e : a = (w, t, 0)
      · subst e; rw [List.filterMap_cons_some hf, List.count_cons]; simp; exact ih
      · simp only [beq_iff_eq, e, if_false, Nat.add_zero]
        refine ih.trans ?_
        cases hfa : f a with
        | none => rw [List.filterMap_cons_none hfa]
        | some b => rw [List.filterMap_cons_some hfa]; exact List.count_le_count_cons
  cases w with
  | block i =>
    simp only
    rw [run_block]
    apply opsWeight_zero
    have h1 := laneRun_weight ((start heap calls).blocks i) t (order.filterMap (inBlock i))
    have h2 := count_map (inBlock i) (by simp [inBlock])
    have h3 : opsWeight (((start heap calls).blocks i).pend t) = 3 * (calls t).length := opsWeight_load _
    omega
  | sign =>
    simp only
    rw [run_sign]
    apply opsWeight_zero
    have h1 := laneRun_weight (start heap calls).sign t (order.filterMap inSign)
    have h2 := count_map inSign rfl
    have h3 : opsWeight ((start heap calls).sign.pend t) ≤ 3 * (calls t).length := by
      rw [start_sign]
      simp only
      rw [opsWeight_load, List.length_map]
      have := List.length_filter_le (·.signed) (calls t)
      omega
    omega

/-! ### Exchanges lose nothing -/

private def CudaSharedRelaxed.Op.Active (o : Op k α) (v : α) : Prop := o.pos = .exch v ∨ o.pos = .store v

private structure Cons (C : Fin T → List (Call k)) (heap0 : Fin k → α) (l : Lane α k T) (σ : Equiv.Perm (Fin k)) :
    Prop where
  sub : ∀ t, ∀ o ∈ l.pend t, o.call ∈ C t
  rest : ∀ p, (∀ t, ∀ o ∈ l.pend t, ∀ v, o.pos = .store v → o.call.arg = p → o.call.target = p) →
    l.heap p = heap0 (σ p)
  val : ∀ t, ∀ o ∈ l.pend t, ∀ v, o.Active v → v = heap0 (σ o.call.arg)
  order : ∀ t, (l.pend t).Pairwise fun o1 o2 => ∀ v, o2.Active v → o2.call.arg ∉ o1.locs

private theorem arg_mem_locs {o : Op k α} (h : o.call.exchange = true) : o.call.arg ∈ o.locs := by
  obtain ⟨c, pos⟩ := o
  cases pos <;> simp_all [Op.locs]

private theorem order_new {pend : Fin T → List (Op k α)} {t : Fin T} {pre post new : List (Op k α)} {o : Op k α}
    (hops : pend t = pre ++ o :: post)
    (h : ∀ t, (pend t).Pairwise fun o1 o2 => ∀ v, o2.Active v → o2.call.arg ∉ o1.locs)
    (hnew : new = [] ∨ ∃ o', new = [o'] ∧ (∀ x ∈ o'.locs, x ∈ o.locs) ∧
      ∀ o1 ∈ pre, ∀ v, o'.Active v → o'.call.arg ∉ o1.locs) (t' : Fin T) :
    (if t' = t then pre ++ (new ++ post) else pend t').Pairwise
      fun o1 o2 => ∀ v, o2.Active v → o2.call.arg ∉ o1.locs := by
  split
  · have := h t
    rw [hops, List.pairwise_append, List.pairwise_cons] at this
    obtain ⟨h1, ⟨h2, h3⟩, h4⟩ := this
    rcases hnew with rfl | ⟨o', rfl, hl, hp⟩
    · rw [List.nil_append, List.pairwise_append]
      exact ⟨h1, h3, fun a ha b hb => h4 a ha b (by simp [hb])⟩
    · rw [List.singleton_append, List.pairwise_append, List.pairwise_cons]
      refine ⟨h1, ⟨fun b hb v hv hm => h2 b hb v hv (hl _ hm), h3⟩, fun a ha b hb => ?_⟩
      rcases List.mem_cons.1 hb with rfl | hb
      · exact hp a ha
      · exact h4 a ha b (by simp [hb])
  · exact h t'

private theorem old_mem {pend : Fin T → List (Op k α)} {t : Fin T} {pre post new : List (Op k α)} {o : Op k α}
    (hops : pend t = pre ++ o :: post) {t' : Fin T} {o' : Op k α} (h : o' ∈ pend t') :
    o' ∈ (if t' = t then pre ++ (new ++ post) else pend t') ∨ o' = o := by
  split
  · next e =>
    subst e
    rw [hops] at h
    simp only [List.mem_append, List.mem_cons] at h ⊢
    tauto
  · exact .inl h

private theorem cons_step {C : Fin T → List (Call k)} {heap0 : Fin k → α}
    (hx : ∀ t, ∀ c ∈ C t, c.exchange = true)
    (harg : ∀ t, ∀ c ∈ C t, ∀ t', t' ≠ t → ∀ c' ∈ C t', c'.target = c.arg ∨ c'.arg = c.arg →
      c.target = c.arg ∧ c'.target = c'.arg)
    (l : Lane α k T) (t : Fin T) (m : Nat) (h : ∃ σ, Cons C heap0 l σ) : ∃ σ, Cons C heap0 (l.step t m) σ := by
  refine lane_cases (P := fun l => ∃ σ, Cons C heap0 l σ) l t m h fun pre o post hops hall => ?_
  obtain ⟨σ, h⟩ := h
  have ho : o ∈ l.pend t := by rw [hops]; simp
  have hc := h.sub t o ho
  have hpend : ∀ t', ∀ o' ∈ l.pend t', o' = o ∨ t' ≠ t ∨ t' = t ∧ (o' ∈ pre ∨ o' ∈ post) := by
    intro t' o' ho'
    by_cases e : t' = t
    · subst e
      rw [hops] at ho'
      simp only [List.mem_append, List.mem_cons] at ho'
      tauto
    · exact .inr (.inl e)
  have hord := h.order t
  rw [hops, List.pairwise_append, List.pairwise_cons] at hord
  obtain ⟨-, ⟨hpost, -⟩, hpre⟩ := hord
  have hpre' : ∀ o1 ∈ pre, ∀ v, o.Active v → o.call.arg ∉ o1.locs := fun o1 h1 => hpre o1 h1 o (by simp)
  have hpreArg : ∀ o1 ∈ pre, o1.call.arg ∈ o1.locs := fun o1 h1 =>
    arg_mem_locs (hx t _ (h.sub t o1 (by rw [hops]; simp [h1])))
  obtain ⟨c, pos⟩ := o
  cases pos with
  | load =>
    refine ⟨σ, ⟨pend_all hops (fun t o => o.call ∈ C t) h.sub (by simpa [Op.step] using hc), ?_,
      pend_all hops (fun t o => ∀ v, o.Active v → v = heap0 (σ o.call.arg)) h.val ?_,
      order_new hops h.order (.inr ⟨_, rfl, by simp [Op.locs, hx t c hc, or_comm], fun o1 h1 v _ => hall o1 h1⟩)⟩⟩
    · intro p hp
      refine h.rest p fun t' o' ho' v hv => ?_
      rcases old_mem hops ho' with h' | rfl
      · exact hp t' o' h' v hv
      · cases hv
    · simp only [Op.step, List.mem_singleton, forall_eq]
      intro v hv
      obtain rfl : l.heap c.arg = v := by
        rcases hv with hv | hv
        · exact Pos.exch.inj hv
        · cases hv
      refine h.rest _ fun t' o' ho' w hw harg' => ?_
      rcases hpend t' o' ho' with rfl | hne | ⟨rfl, h1 | h1⟩
      · cases hw
      · rw [(harg t' _ (h.sub t' o' ho') t (Ne.symm hne) c hc (.inr harg'.symm)).1, harg']
      · exact absurd (show c.arg ∈ o'.locs from harg' ▸ hpreArg o' h1) (hall o' h1)
      · exact absurd (by simp [Op.locs, harg']) (hpost o' h1 w (.inr hw))
  | exch v =>
    have hv := h.val t _ ho v (.inl rfl)
    have F : ∀ t', ∀ o' ∈ l.pend t', o' ≠ ⟨c, .exch v⟩ → ∀ w, o'.Active w →
        o'.call.arg = c.arg ∨ o'.call.arg = c.target → o'.call.target = o'.call.arg ∧ c.target = c.arg := by
      intro t' o' ho' hne w hw hEq
      rcases hpend t' o' ho' with rfl | ht | ⟨rfl, h1 | h1⟩
      · exact absurd rfl hne
      · exact harg t' _ (h.sub t' o' ho') t (Ne.symm ht) c hc
          (hEq.elim (fun e => .inr e.symm) fun e => .inl e.symm)
      · rcases hEq with e | e
        · exact absurd (e ▸ hpreArg o' h1) (hpre' o' h1 v (.inl rfl))
        · exact absurd (show c.target ∈ o'.locs from e ▸ hpreArg o' h1) (hall o' h1)
      · refine absurd ?_ (hpost o' h1 w hw)
        rcases hEq with e | e <;> simp [Op.locs, hx _ c hc, e]
    have hnewOrd := order_new (new := [⟨c, .store (l.heap c.target)⟩]) hops h.order
      (.inr ⟨_, rfl, by simp [Op.locs, hx t c hc], fun o1 h1 w _ => hpre' o1 h1 v (.inl rfl)⟩)
    have hstep : Op.step l.heap ⟨c, .exch v⟩ =
        (fun p => if p = c.target then v else l.heap p, [⟨c, .store (l.heap c.target)⟩]) := by
      simp [Op.step, hx t c hc]
    rw [hstep]
    by_cases e : c.target = c.arg
    · have hheap : l.heap c.arg = heap0 (σ c.arg) := by
        refine h.rest _ fun t' o' ho' w hw ha => ?_
        by_cases hne : o' = ⟨c, .exch v⟩
        · subst hne; cases hw
        · rw [← ha]; exact (F t' o' ho' hne w (.inr hw) (.inl ha)).1
      refine ⟨σ, ⟨pend_all hops (fun t o => o.call ∈ C t) h.sub (by simpa using hc), ?_,
        pend_all hops (fun t o => ∀ v, o.Active v → v = heap0 (σ o.call.arg)) h.val ?_, hnewOrd⟩⟩
      · intro p hp
        simp only
        split
        · next e' => rw [hv, e', e]
        · refine h.rest p fun t' o' ho' w hw => ?_
          rcases old_mem hops ho' with h' | rfl
          · exact hp t' o' h' w hw
          · cases hw
      · simp only [List.mem_singleton, forall_eq]
        intro w hw
        rcases hw with hw | hw
        · cases hw
        · rw [← Pos.store.inj hw, e, hheap]
    · have hheap : l.heap c.target = heap0 (σ c.target) := by
        refine h.rest _ fun t' o' ho' w hw ha => ?_
        by_cases hne : o' = ⟨c, .exch v⟩
        · subst hne; cases hw
        · exact absurd (F t' o' ho' hne w (.inr hw) (.inr ha)).2 e
      refine ⟨(Equiv.swap c.target c.arg).trans σ, ⟨pend_all hops (fun t o => o.call ∈ C t) h.sub (by simpa using hc),
        ?_, ?_, hnewOrd⟩⟩
      · intro p hp
        simp only [Equiv.trans_apply]
        split
        · next e' => rw [hv, e', Equiv.swap_apply_left]
        · next e' =>
          by_cases ea : p = c.arg
          · exact absurd (hp t ⟨c, .store (l.heap c.target)⟩ (by simp) _ rfl ea.symm).symm e'
          · rw [Equiv.swap_apply_of_ne_of_ne e' ea]
            refine h.rest p fun t' o' ho' w hw => ?_
            rcases old_mem hops ho' with h' | rfl
            · exact hp t' o' h' w hw
            · cases hw
      · have hold : ∀ t', ∀ o' ∈ l.pend t', o' = ⟨c, .exch v⟩ ∨
            ∀ w, o'.Active w → w = heap0 (((Equiv.swap c.target c.arg).trans σ) o'.call.arg) := by
          intro t' o' ho'
          by_cases hne : o' = ⟨c, .exch v⟩
          · exact .inl hne
          · refine .inr fun w hw => ?_
            rw [Equiv.trans_apply, Equiv.swap_apply_of_ne_of_ne
              (fun ha => e (F t' o' ho' hne w hw (.inr ha)).2) (fun ha => e (F t' o' ho' hne w hw (.inl ha)).2)]
            exact h.val t' o' ho' w hw
        have hdist : ∀ t', ∀ o' ∈ (if t' = t then pre ++ ([⟨c, .store (l.heap c.target)⟩] ++ post) else l.pend t'),
            o' ≠ ⟨c, .exch v⟩ := by
          intro t' o' ho' he
          subst he
          split at ho'
          · simp only [List.mem_append, List.mem_singleton] at ho'
            rcases ho' with h1 | h1 | h1
            · exact hpre' _ h1 v (.inl rfl) (hpreArg _ h1)
            · cases h1
            · exact hpost _ h1 v (.inl rfl) (by simp [Op.locs, hx _ c hc])
          · next ht => exact e (harg t' c (h.sub t' _ ho') t (Ne.symm ht) c hc (.inr rfl)).1
        intro t' o' ho' w hw
        have hd := hdist t' o' ho'
        have := pend_all (new := [⟨c, .store (l.heap c.target)⟩]) hops
          (fun t o => o = ⟨c, .exch v⟩ ∨
            ∀ w, o.Active w → w = heap0 (((Equiv.swap c.target c.arg).trans σ) o.call.arg)) hold (by
            simp only [List.mem_singleton, forall_eq]
            refine .inr fun w hw => ?_
            rcases hw with hw | hw
            · cases hw
            · rw [← Pos.store.inj hw, Equiv.trans_apply, Equiv.swap_apply_right, hheap]) t' o' ho'
        exact (this.resolve_left hd) w hw
  | store v =>
    have hv := h.val t _ ho v (.inr rfl)
    refine ⟨σ, ⟨pend_all hops (fun t o => o.call ∈ C t) h.sub (by simp [Op.step]), ?_,
      pend_all hops (fun t o => ∀ v, o.Active v → v = heap0 (σ o.call.arg)) h.val (by simp [Op.step]),
      order_new hops h.order (.inl rfl)⟩⟩
    intro p hp
    simp only [Op.step]
    split
    · next e => rw [hv, e]
    · next e =>
      refine h.rest p fun t' o' ho' w hw => ?_
      rcases old_mem hops ho' with h' | rfl
      · exact hp t' o' h' w hw
      · exact fun ha => absurd ha.symm e

/-- C110: if no argument is used by another thread (unless both calls exchange the object with itself), exchanges lose
and duplicate nothing, in whatever order the accesses take effect: once all have, every block value is in exactly one
place.  Partial as C104_conserved_partial is: without the condition the claim is false. -/
theorem C110_conserved_partial (heap : Fin k → Aesi n) (calls : Fin T → List (Call k))
    (order : List (Where n × Fin T × Nat)) (hx : ∀ t, ∀ c ∈ calls t, c.exchange = true)
    (harg : ∀ t, ∀ c ∈ calls t, ∀ t', t' ≠ t → ∀ c' ∈ calls t', c'.target = c.arg ∨ c'.arg = c.arg →
      c.target = c.arg ∧ c'.target = c'.arg)
    (hend : ∀ i t, ((run (start heap calls) order).blocks i).pend t = []) :
    Conserved heap (run (start heap calls) order).obj := by
  intro i hi
  have hend := hend ⟨i, hi⟩
  simp only [obj_base _ _ hi]
  rw [run_block] at hend ⊢
  obtain ⟨σ, h⟩ := laneRun_ind (cons_step (heap0 := fun p => (heap p).base[i]) hx harg)
    ((start heap calls).blocks ⟨i, hi⟩)
    ⟨Equiv.refl _, by simp [start], by simp [start], by simp [start, Op.Active], fun t => by
      simp only [start, List.pairwise_map]
      exact List.pairwise_of_forall fun _ _ v hv => by rcases hv with hv | hv <;> cases hv⟩
    (order.filterMap (inBlock ⟨i, hi⟩))
  exact ⟨σ, fun p => h.rest p fun t o ho => by rw [hend t] at ho; cases ho⟩

/-! ### A thread left alone -/

/-- What is left of a call, done in one go. -/
private def fin (heap : Fin k → α) (o : Op k α) : Fin k → α :=
  match o.pos with
  | .load => fun p => if o.call.exchange = true ∧ p = o.call.arg then heap o.call.target
      else if p = o.call.target then heap o.call.arg else heap p
  | .exch v => fun p => if o.call.exchange = true ∧ p = o.call.arg then heap o.call.target
      else if p = o.call.target then v else heap p
  | .store v => fun p => if p = o.call.arg then v else heap p

private theorem fin_step (heap : Fin k → α) (o : Op k α) : (o.step heap).2.foldl fin (o.step heap).1 = fin heap o := by
  obtain ⟨c, pos⟩ := o
  cases pos with
  | load => rfl
  | exch v =>
    by_cases h : c.exchange = true
    · simp [Op.step, fin, h]
    · simp [Op.step, fin, h]
  | store v => rfl

private theorem fin_frame {heap : Fin k → α} {o : Op k α} {p : Fin k} (h : p ∉ o.locs) : fin heap o p = heap p := by
  obtain ⟨c, pos⟩ := o
  cases pos with
  | load => simp only [Op.locs, List.mem_cons, List.not_mem_nil, or_false, not_or] at h; simp [fin, h.1, h.2]
  | exch v =>
    by_cases hx : c.exchange = true
    · simp only [Op.locs, hx, if_true, List.mem_cons, List.not_mem_nil, or_false, not_or] at h; simp [fin, h.1, h.2]
    · simp only [Op.locs, hx, List.mem_cons, List.not_mem_nil, or_false] at h
      simp at h
      simp [fin, hx, h]
  | store v => simp only [Op.locs, List.mem_singleton] at h; simp [fin, h]

private theorem fin_congr {S : Fin k → Prop} {heap heap' : Fin k → α} {o : Op k α} (ho : ∀ p ∈ o.locs, S p)
    (h : ∀ p, S p → heap p = heap' p) (p : Fin k) (hp : S p) : fin heap o p = fin heap' o p := by
  obtain ⟨c, pos⟩ := o
  cases pos with
  | load =>
    simp only [Op.locs, List.mem_cons, List.not_mem_nil, or_false, forall_eq_or_imp, forall_eq] at ho
    simp only [fin, h _ ho.1, h _ ho.2, h p hp]
  | exch v =>
    by_cases hx : c.exchange = true
    · simp only [Op.locs, hx, if_true, List.mem_cons, List.not_mem_nil, or_false, forall_eq_or_imp, forall_eq] at ho
      simp only [fin, h _ ho.1, h p hp]
    · simp [fin, hx, h p hp]
  | store v => simp only [fin, h p hp]

private theorem step_shape (o : Op k α) : ∃ (f : α → α) (g : α → List (Op k α)), ∀ heap : Fin k → α,
    o.step heap = (fun p => if p = o.next then f (heap o.next) else heap p, g (heap o.next)) := by
  obtain ⟨c, pos⟩ := o
  cases pos with
  | load =>
    refine ⟨id, fun v => [⟨c, .exch v⟩], fun heap => ?_⟩
    simp only [Op.step, Op.next, id]
    refine Prod.ext ?_ rfl
    funext p
    by_cases e : p = c.arg
    · simp [e]
    · simp [e]
  | exch v => exact ⟨fun _ => v, fun w => if c.exchange then [⟨c, .store w⟩] else [], fun heap => rfl⟩
  | store v => exact ⟨fun _ => v, fun _ => [], fun heap => rfl⟩

private theorem step_fin {heap : Fin k → α} {o o1 : Op k α} (h : o.next ∉ o1.locs) :
    o.step (fin heap o1) = (fin (o.step heap).1 o1, (o.step heap).2) := by
  obtain ⟨f, g, hs⟩ := step_shape o
  rw [hs, hs, fin_frame h]
  refine Prod.ext ?_ rfl
  funext p
  simp only
  split
  · next e => subst e; rw [fin_frame h]; simp
  · next e =>
    refine fin_congr (S := (· ≠ o.next)) (fun q hq e => h (e ▸ hq)) (fun q hq => ?_) p e
    rw [if_neg hq]

private theorem step_finAll {o : Op k α} {pre : List (Op k α)} (h : ∀ o1 ∈ pre, o.next ∉ o1.locs) (heap : Fin k → α) :
    o.step (pre.foldl fin heap) = (pre.foldl fin (o.step heap).1, (o.step heap).2) := by
  induction pre generalizing heap with
  | nil => rfl
  | cons o1 rest ih =>
    rw [List.foldl_cons, ih (fun o2 h2 => h o2 (by simp [h2])), step_fin (h o1 (by simp))]
    rfl

private theorem finAll_step {o : Op k α} {pre post : List (Op k α)} (h : ∀ o1 ∈ pre, o.next ∉ o1.locs)
    (heap : Fin k → α) :
    (pre ++ ((o.step heap).2 ++ post)).foldl fin (o.step heap).1 = (pre ++ o :: post).foldl fin heap := by
  rw [List.foldl_append, List.foldl_append, List.foldl_append, List.foldl_cons, ← fin_step _ o, step_finAll h]

private theorem finAll_congr {S : Fin k → Prop} {ops : List (Op k α)} (ho : ∀ o ∈ ops, ∀ p ∈ o.locs, S p)
    {heap heap' : Fin k → α} (h : ∀ p, S p → heap p = heap' p) (p : Fin k) (hp : S p) :
    ops.foldl fin heap p = ops.foldl fin heap' p := by
  induction ops generalizing heap heap' with
  | nil => exact h p hp
  | cons o rest ih =>
    exact ih (fun o1 h1 => ho o1 (by simp [h1])) (fin_congr (ho o (by simp)) h)

private structure Alone (C : Fin T → List (Call k)) (t : Fin T) (S : Fin k → Prop) (heap0 : Fin k → α)
    (l : Lane α k T) : Prop where
  sub : ∀ t, ∀ o ∈ l.pend t, o.call ∈ C t
  store : ∀ t, ∀ o ∈ l.pend t, ∀ v, o.pos = .store v → o.call.exchange = true
  res : ∀ p, S p → (l.pend t).foldl fin l.heap p = (C t).foldl (fun h c => fin h ⟨c, .load⟩) heap0 p

private theorem locs_sub {o : Op k α} {p : Fin k} (h : p ∈ o.locs) : p = o.call.target ∨ p = o.call.arg := by
  obtain ⟨c, pos⟩ := o
  cases pos <;> simp only [Op.locs] at h
  · simp at h; tauto
  · split at h <;> simp at h <;> tauto
  · simp at h; tauto

private theorem alone_step {C : Fin T → List (Call k)} {t : Fin T} {S : Fin k → Prop} {heap0 : Fin k → α}
    (hS : ∀ c ∈ C t, S c.target ∧ S c.arg)
    (hother : ∀ t', t' ≠ t → ∀ c ∈ C t', ∀ p, S p → c.target ≠ p ∧ (c.exchange = true → c.arg ≠ p))
    (l : Lane α k T) (u : Fin T) (m : Nat) (h : Alone C t S heap0 l) : Alone C t S heap0 (l.step u m) := by
  refine lane_cases l u m h fun pre o post hops hall => ?_
  have ho : o ∈ l.pend u := by rw [hops]; simp
  have hc := h.sub u o ho
  have hnew : ∀ o' ∈ (o.step l.heap).2, o'.call = o.call ∧ ∀ v, o'.pos = .store v → o'.call.exchange = true := by
    obtain ⟨c, pos⟩ := o
    cases pos <;> simp [Op.step]
  refine ⟨pend_all hops (fun t o => o.call ∈ C t) h.sub fun o' ho' => (hnew o' ho').1 ▸ hc,
    pend_all hops (fun t o => ∀ v, o.pos = .store v → o.call.exchange = true) h.store fun o' ho' => (hnew o' ho').2, ?_⟩
  intro p hp
  by_cases e : t = u
  · subst e
    simp only [if_true]
    rw [finAll_step hall, ← hops]
    exact h.res p hp
  · simp only [if_neg e]
    refine (finAll_congr (S := S) (fun o1 h1 q hq => ?_) (fun q hq => ?_) p hp).trans (h.res p hp)
    · have := hS _ (h.sub t o1 h1)
      rcases locs_sub hq with rfl | rfl
      · exact this.1
      · exact this.2
    · have hw := hother u (Ne.symm e) _ hc q hq
      obtain ⟨c, pos⟩ := o
      cases pos with
      | load => rfl
      | exch v => simp only [Op.step]; rw [if_neg (Ne.symm hw.1)]
      | store v => simp only [Op.step]; rw [if_neg (Ne.symm (hw.2 (h.store u _ ho v rfl)))]

private theorem alone_run {C : Fin T → List (Call k)} {t : Fin T} {S : Fin k → Prop} {heap0 : Fin k → α}
    (hS : ∀ c ∈ C t, S c.target ∧ S c.arg)
    (hother : ∀ t', t' ≠ t → ∀ c ∈ C t', ∀ p, S p → c.target ≠ p ∧ (c.exchange = true → c.arg ≠ p))
    (order : List (Fin T × Nat)) (p : Fin k) (hp : S p)
    (hend : (laneRun ⟨heap0, fun t => (C t).map fun c => ⟨c, .load⟩⟩ order).pend t = []) :
    (laneRun ⟨heap0, fun t => (C t).map fun c => ⟨c, .load⟩⟩ order).heap p =
      (C t).foldl (fun h c => fin h ⟨c, .load⟩) heap0 p := by
  have h : Alone C t S heap0 (laneRun ⟨heap0, fun t => (C t).map fun c => ⟨c, .load⟩⟩ order) := by
    refine laneRun_ind (P := Alone C t S heap0) (alone_step hS hother) _ ⟨by simp, by simp, fun p _ => ?_⟩ order
    simp only [List.foldl_map]
  have := h.res p hp
  rw [hend] at this
  exact this

private theorem foldl_base (cs : List (Call k)) (heap : Fin k → Aesi n) {i : Nat} (hi : i < n) (p : Fin k) :
    (cs.foldl (fun h c => c.apply h) heap p).base[i] =
      cs.foldl (fun h c => fin h ⟨c, .load⟩) (fun p => (heap p).base[i]) p := by
  induction cs generalizing heap with
  | nil => rfl
  | cons c rest ih =>
    rw [List.foldl_cons, List.foldl_cons, ih]
    refine congrFun (congrArg (fun x => rest.foldl (fun h c => fin h ⟨c, .load⟩) x) (funext fun q => ?_)) p
    simp only [Call.apply, fin]
    by_cases h1 : q = c.target
    · subst h1
      by_cases h2 : c.exchange = true ∧ c.target = c.arg
      · simp [← h2.2]
      · simp [h2]
    · by_cases h2 : c.exchange = true ∧ q = c.arg
      · obtain ⟨hx, rfl⟩ := h2
        simp [h1, hx]
      · simp [h1, h2]

private theorem foldl_sign (cs : List (Call k)) (heap : Fin k → Aesi n) (p : Fin k) :
    (cs.foldl (fun h c => c.apply h) heap p).sign =
      ((cs.filter (·.signed)).map fun c => { c with exchange := false }).foldl (fun h c => fin h ⟨c, .load⟩)
        (fun p => (heap p).sign) p := by
  induction cs generalizing heap with
  | nil => rfl
  | cons c rest ih =>
    rw [List.foldl_cons, ih]
    by_cases hs : c.signed = true
    · rw [List.filter_cons_of_pos hs, List.map_cons, List.foldl_cons]
      refine congrFun (congrArg (fun x => List.foldl (fun h c => fin h ⟨c, .load⟩) x _) (funext fun q => ?_)) p
      simp [Call.apply, fin, hs]
    · rw [List.filter_cons_of_neg hs]
      refine congrFun (congrArg (fun x => List.foldl (fun h c => fin h ⟨c, .load⟩) x _) (funext fun q => ?_)) p
      simp [Call.apply, hs]

/-- C110: a thread whose objects nobody else writes gets what its calls do one after the other, in whatever order its
accesses take effect. -/
theorem C110_undisturbed (heap : Fin k → Aesi n) (calls : Fin T → List (Call k)) (t : Fin T) (S : Fin k → Prop)
    (hS : ∀ c ∈ calls t, S c.target ∧ S c.arg)
    (hother : ∀ t', t' ≠ t → ∀ c ∈ calls t', ∀ p, S p → c.target ≠ p ∧ (c.exchange = true → c.arg ≠ p))
    (order : List (Where n × Fin T × Nat))
    (hend : ∀ i, ((run (start heap calls) order).blocks i).pend t = [])
    (hends : (run (start heap calls) order).sign.pend t = []) (p : Fin k) (hp : S p) :
    (run (start heap calls) order).obj p = (calls t).foldl (fun h c => c.apply h) heap p := by
  refine aesi_ext' ?_ fun i hi => ?_
  · rw [foldl_sign]
    rw [run_sign, start_sign] at hends
    simp only [State.obj]
    rw [run_sign, start_sign]
    refine alone_run (C := fun t => ((calls t).filter (·.signed)).map fun c => { c with exchange := false }) (S := S)
      (fun c hc => ?_) (fun t' ht c hc q hq => ?_) _ p hp hends
    · obtain ⟨c0, hc0, rfl⟩ := List.mem_map.1 hc
      exact hS c0 (List.mem_filter.1 hc0).1
    · obtain ⟨c0, hc0, rfl⟩ := List.mem_map.1 hc
      exact ⟨(hother t' ht c0 (List.mem_filter.1 hc0).1 q hq).1, by simp⟩
  · have hend := hend ⟨i, hi⟩
    rw [foldl_base _ _ hi, obj_base _ _ hi]
    rw [run_block] at hend ⊢
    exact alone_run hS hother _ p hp hend

/-! ### Copies -/

private theorem laneRun_snoc (l : Lane α k T) (order : List (Fin T × Nat)) (a : Fin T × Nat) :
    laneRun l (order ++ [a]) = (laneRun l order).step a.1 a.2 := by
  simp [laneRun, List.foldl_append]

private theorem copy_run {C : Fin T → List (Call k)} {t : Fin T} {c : Call k} {heap0 : Fin k → α} (hc : C t = [c])
    (hset : c.exchange = false)
    (hother : ∀ t', t' ≠ t → ∀ c' ∈ C t', c'.target ≠ c.target ∧ (c'.exchange = true → c'.arg ≠ c.target))
    (l0 : Lane α k T) (hl0 : l0 = ⟨heap0, fun t => (C t).map fun c => ⟨c, .load⟩⟩) (order : List (Fin T × Nat)) :
    (laneRun l0 order).pend t = [⟨c, .load⟩] ∨
    (∃ pre, pre <+: order ∧ (laneRun l0 order).pend t = [⟨c, .exch ((laneRun l0 pre).heap c.arg)⟩]) ∨
    ∃ pre, pre <+: order ∧ (laneRun l0 order).pend t = [] ∧
      (laneRun l0 order).heap c.target = (laneRun l0 pre).heap c.arg := by
  induction order using List.reverseRecOn with
  | nil => left; subst hl0; simp [laneRun, hc]
  | append_singleton order a ih =>
    have hfrom : From C (fun _ => False) heap0 (laneRun l0 order) := by
      subst hl0; exact from_run (by simp) order
    have up : ∀ {pre}, pre <+: order → pre <+: order ++ [a] := fun h => h.trans (List.prefix_append _ _)
    rw [laneRun_snoc]
    generalize hl : laneRun l0 order = l at ih hfrom
    have hself : order <+: order ++ [a] := List.prefix_append _ _
    refine lane_cases (P := fun l' => l'.pend t = [⟨c, .load⟩] ∨
      (∃ pre, pre <+: order ++ [a] ∧ l'.pend t = [⟨c, .exch ((laneRun l0 pre).heap c.arg)⟩]) ∨
      ∃ pre, pre <+: order ++ [a] ∧ l'.pend t = [] ∧ l'.heap c.target = (laneRun l0 pre).heap c.arg) l a.1 a.2
      (ih.imp id (Or.imp (fun ⟨pre, h, e⟩ => ⟨pre, up h, e⟩) fun ⟨pre, h, e⟩ => ⟨pre, up h, e⟩))
      fun pre o post hops _ => ?_
    by_cases e : t = a.1
    · subst e
      simp only [if_true]
      rcases ih with h | ⟨pr, hpr, h⟩ | ⟨pr, hpr, h, -⟩
      · rw [h] at hops
        obtain ⟨rfl, rfl, rfl⟩ : pre = [] ∧ o = ⟨c, .load⟩ ∧ post = [] := by
          cases pre with
          | nil => simp at hops; exact ⟨rfl, hops.1.symm, hops.2⟩
          | cons x r => simp at hops
        exact .inr (.inl ⟨order, hself, by simp [Op.step, hl]⟩)
      · rw [h] at hops
        obtain ⟨rfl, rfl, rfl⟩ : pre = [] ∧ o = ⟨c, .exch ((laneRun l0 pr).heap c.arg)⟩ ∧ post = [] := by
          cases pre with
          | nil => simp at hops; exact ⟨rfl, hops.1.symm, hops.2⟩
          | cons x r => simp at hops
        exact .inr (.inr ⟨pr, up hpr, by simp [Op.step, hset], by simp [Op.step]⟩)
      · rw [h] at hops; simp at hops
    · simp only [if_neg e]
      have ho : o ∈ l.pend a.1 := by rw [hops]; simp
      have hw := hother a.1 (Ne.symm e) _ (hfrom.sub _ o ho)
      have hkeep : (o.step l.heap).1 c.target = l.heap c.target := by
        obtain ⟨c', pos⟩ := o
        cases pos with
        | load => rfl
        | exch v => simp only [Op.step]; rw [if_neg (Ne.symm hw.1)]
        | store v => simp only [Op.step]; rw [if_neg (Ne.symm (hw.2 (hfrom.store _ _ ho v rfl).1))]
      rw [hkeep]
      exact ih.imp id (Or.imp (fun ⟨pre, h, e⟩ => ⟨pre, up h, e⟩) fun ⟨pre, h, e⟩ => ⟨pre, up h, e⟩)

private theorem prefix_filterMap {β γ : Type} {f : β → Option γ} {l : List β} {pre : List γ}
    (h : pre <+: l.filterMap f) : ∃ pre', pre' <+: l ∧ pre'.filterMap f = pre := by
  obtain ⟨post, h⟩ := h
  obtain ⟨l1, l2, rfl, h1, -⟩ := List.filterMap_eq_append_iff.1 h.symm
  exact ⟨l1, List.prefix_append _ _, h1⟩

/-- C110: a thread that copies a shared object into one nobody else writes finds in every block what that block of the
source was at some moment, and the same for the sign; the moments may differ (C104_counterexample_copy). -/
theorem C110_copy (heap : Fin k → Aesi n) (calls : Fin T → List (Call k)) (t : Fin T) (sg : Bool) (p q : Fin k)
    (hcall : calls t = [⟨false, sg, p, q⟩])
    (hother : ∀ t', t' ≠ t → ∀ c ∈ calls t', c.target ≠ p ∧ (c.exchange = true → c.arg ≠ p))
    (order : List (Where n × Fin T × Nat))
    (hend : ∀ i, ((run (start heap calls) order).blocks i).pend t = [])
    (hends : (run (start heap calls) order).sign.pend t = []) :
    (∀ i (hi : i < n), ∃ pre, pre <+: order ∧
      ((run (start heap calls) order).obj p).base[i] = ((run (start heap calls) pre).obj q).base[i]) ∧
    (sg = true → ∃ pre, pre <+: order ∧
      ((run (start heap calls) order).obj p).sign = ((run (start heap calls) pre).obj q).sign) := by
  constructor
  · intro i hi
    have hend := hend ⟨i, hi⟩
    simp only [obj_base _ _ hi]
    rw [run_block] at hend ⊢
    rcases copy_run hcall rfl hother ((start heap calls).blocks ⟨i, hi⟩) rfl (order.filterMap (inBlock ⟨i, hi⟩)) with
      h | ⟨_, _, h⟩ | ⟨pre, hpre, _, h⟩
    · rw [h] at hend; cases hend
    · rw [h] at hend; cases hend
    · obtain ⟨pre', hpre', rfl⟩ := prefix_filterMap hpre
      exact ⟨pre', hpre', by rw [run_block]; exact h⟩
  · rintro rfl
    simp only [State.obj]
    rw [run_sign] at hends ⊢
    rcases copy_run (C := fun t => ((calls t).filter (·.signed)).map fun c => { c with exchange := false })
      (c := ⟨false, true, p, q⟩) (t := t) (by simp [hcall]) rfl (fun t' ht c hc => by
        obtain ⟨c0, hc0, rfl⟩ := List.mem_map.1 hc
        exact ⟨(hother t' ht c0 (List.mem_filter.1 hc0).1).1, by simp⟩) (start heap calls).sign
      (start_sign heap calls) (order.filterMap inSign) with h | ⟨_, _, h⟩ | ⟨pre, hpre, _, h⟩
    · rw [h] at hends; cases hends
    · rw [h] at hends; cases hends
    · obtain ⟨pre', hpre', rfl⟩ := prefix_filterMap hpre
      exact ⟨pre', hpre', by rw [run_sign]; exact h⟩

/-! ### Sequentially consistent schedules are among the orders -/

private def posOf (phase : CudaShared.Phase) (v : α) : Pos α :=
  match phase with
  | .load => .load
  | .exch => .exch v
  | .store => .store v

private def lanePend (th : CudaShared.Thread k) (j : Nat) : List (Op k Block) :=
  match th.calls with
  | [] => []
  | c :: rest => (if j < th.i then [] else if j = th.i then [⟨c, posOf th.phase th.reg⟩] else [⟨c, .load⟩]) ++
      rest.map fun c => ⟨c, .load⟩

private def signLoads (cs : List (Call k)) : List (Op k Sign) :=
  (cs.filter (·.signed)).map fun c => ⟨{ c with exchange := false }, .load⟩

private def signPend (n : Nat) (th : CudaShared.Thread k) : List (Op k Sign) :=
  match th.calls with
  | [] => []
  | c :: rest =>
    (if c.signed = true then
      [⟨{ c with exchange := false }, if n ≤ th.i ∧ th.phase ≠ .load then .exch th.sreg else .load⟩] else []) ++
      signLoads rest

private theorem lanePend_fresh (cs : List (Call k)) (reg : Block) (sreg : Sign) (j : Nat) :
    lanePend ⟨cs, 0, .load, reg, sreg⟩ j = cs.map fun c => ⟨c, .load⟩ := by
  cases cs with
  | nil => rfl
  | cons c rest => by_cases h : j = 0 <;> simp [lanePend, h, posOf]

private theorem signPend_fresh (cs : List (Call k)) (reg : Block) (sreg : Sign) :
    signPend n ⟨cs, 0, .load, reg, sreg⟩ = signLoads cs := by
  cases cs with
  | nil => rfl
  | cons c rest => by_cases h : c.signed = true <;> simp [signPend, signLoads, h]

private structure Sim (sc : CudaShared.State n k T) (rs : State n k T) : Prop where
  base : ∀ (i : Fin n) p, (rs.blocks i).heap p = (sc.heap p).base[i]
  sign : ∀ p, rs.sign.heap p = (sc.heap p).sign
  pend : ∀ (i : Fin n) t, (rs.blocks i).pend t = lanePend (sc.th t) i
  spend : ∀ t, rs.sign.pend t = signPend n (sc.th t)

private theorem lane_step_head {l : Lane α k T} {t : Fin T} {o : Op k α} {rest : List (Op k α)}
    (h : l.pend t = o :: rest) :
    l.step t 0 = ⟨(o.step l.heap).1, fun t' => if t' = t then (o.step l.heap).2 ++ rest else l.pend t'⟩ := by
  simp [Lane.step, stepOps, h]

private theorem setBlock_base {heap : Fin k → Aesi n} {p q : Fin k} {i : Nat} (h : i < n) (b : Block) {j : Nat}
    (hj : j < n) :
    (CudaShared.setBlock heap p i h b q).base[j] = if q = p ∧ j = i then b else (heap q).base[j] := by
  unfold CudaShared.setBlock
  by_cases e : q = p
  · subst e
    simp only [if_true, true_and]
    rw [Vector.getElem_set]
    by_cases e' : i = j
    · subst e'; simp
    · simp [e', Ne.symm e']
  · simp [e]

private theorem setBlock_sign' {heap : Fin k → Aesi n} {p q : Fin k} {i : Nat} (h : i < n) (b : Block) :
    (CudaShared.setBlock heap p i h b q).sign = (heap q).sign := by
  unfold CudaShared.setBlock
  split
  · next e => rw [e]
  · rfl

private theorem setSign_get {heap : Fin k → Aesi n} {p q : Fin k} (s : Sign) :
    (CudaShared.setSign heap p s q).sign = (if q = p then s else (heap q).sign) ∧
      (CudaShared.setSign heap p s q).base = (heap q).base := by
  unfold CudaShared.setSign
  split
  · next e => rw [e]; exact ⟨rfl, rfl⟩
  · exact ⟨rfl, rfl⟩

/-- A block access. -/
private theorem sim_block {sc : CudaShared.State n k T} {rs : State n k T} (h : Sim sc rs) {j : Fin T} {i : Nat}
    (hi : i < n) {o : Op k Block} {tail : List (Op k Block)} (hhead : (rs.blocks ⟨i, hi⟩).pend j = o :: tail)
    (heap' : Fin k → Aesi n) (th' : CudaShared.Thread k)
    (hheap : ∀ p, (o.step (rs.blocks ⟨i, hi⟩).heap).1 p = (heap' p).base[i])
    (hrest : ∀ p (i' : Nat) (hi' : i' < n), i' ≠ i → (heap' p).base[i'] = (sc.heap p).base[i'])
    (hsign : ∀ p, (heap' p).sign = (sc.heap p).sign)
    (hpend : (o.step (rs.blocks ⟨i, hi⟩).heap).2 ++ tail = lanePend th' i)
    (hpend' : ∀ i' : Nat, i' ≠ i → lanePend (sc.th j) i' = lanePend th' i')
    (hspend : signPend n (sc.th j) = signPend n th') :
    Sim ⟨heap', fun j' => if j' = j then th' else sc.th j'⟩ (run rs [(.block ⟨i, hi⟩, j, 0)]) := by
  have hrun : run rs [(.block ⟨i, hi⟩, j, 0)] = ⟨fun i' => if i' = ⟨i, hi⟩ then
      ⟨(o.step (rs.blocks ⟨i, hi⟩).heap).1, fun t' => if t' = j then (o.step (rs.blocks ⟨i, hi⟩).heap).2 ++ tail
        else (rs.blocks ⟨i, hi⟩).pend t'⟩ else rs.blocks i', rs.sign⟩ := by
    simp [run, step, lane_step_head hhead]
  rw [hrun]
  refine ⟨fun i' p => ?_, fun p => (h.sign p).trans (hsign p).symm, fun i' t => ?_, fun t => ?_⟩
  · by_cases e : i' = ⟨i, hi⟩
    · subst e; simp only [if_true]; exact hheap p
    · simp only [if_neg e]
      rw [h.base]
      exact (hrest p i'.1 i'.2 fun e' => e (Fin.ext e')).symm
  · by_cases e : i' = ⟨i, hi⟩
    · subst e
      simp only [if_true]
      split
      · exact hpend
      · exact h.pend _ t
    · simp only [if_neg e]
      rw [h.pend]
      split
      · next e' => subst e'; exact hpend' i'.1 fun e' => e (Fin.ext e')
      · rfl
  · simp only
    rw [h.spend]
    split
    · next e' => subst e'; exact hspend
    · rfl

private theorem sim_step {sc : CudaShared.State n k T} {rs : State n k T} (h : Sim sc rs) (j : Fin T) :
    ∃ order, Sim (CudaShared.step sc j) (run rs order) := by
  have hp := fun i' => h.pend i' j
  have hs := h.spend j
  unfold CudaShared.step
  cases hth : sc.th j with
  | mk calls i phase reg sreg =>
  rw [hth] at hs
  simp only [hth] at hp
  cases calls with
  | nil =>
    refine ⟨[], ?_⟩
    simp only [CudaShared.stepThread]
    refine ⟨h.base, h.sign, fun i' t => (h.pend i' t).trans ?_, fun t => (h.spend t).trans ?_⟩ <;> simp only <;> split
    · next e => rw [e, hth]
    · rfl
    · next e => rw [e, hth]
    · rfl
  | cons c rest =>
    by_cases hi : i < n
    · have hhead : (rs.blocks ⟨i, hi⟩).pend j = ⟨c, posOf phase reg⟩ :: rest.map fun c => ⟨c, .load⟩ := by
        rw [hp]; simp [lanePend]
      refine ⟨[(.block ⟨i, hi⟩, j, 0)], ?_⟩
      have hnext : ∀ (ph : CudaShared.Phase) (b : Block) (i' : Nat), i' ≠ i →
          lanePend (sc.th j) i' = lanePend ⟨c :: rest, i, ph, b, sreg⟩ i' := by
        intro ph b i' hne
        rw [hth]
        simp [lanePend, hne]
      have hnext1 : ∀ (b : Block) (i' : Nat), i' ≠ i →
          lanePend (sc.th j) i' = lanePend ⟨c :: rest, i + 1, .load, b, sreg⟩ i' := by
        intro b i' hne
        rw [hth]
        by_cases h1 : i' < i
        · have : i' < i + 1 := by omega
          simp [lanePend, h1, this]
        · have : ¬ i' < i + 1 := by omega
          by_cases h2 : i' = i + 1 <;> simp [lanePend, h1, h2, this, hne, posOf]
      have hdone : ∀ b : Block, rest.map (fun c => (⟨c, .load⟩ : Op k Block)) =
          lanePend ⟨c :: rest, i + 1, .load, b, sreg⟩ i := by
        intro b; simp [lanePend]
      have hsp : ∀ (ph : CudaShared.Phase) (b : Block),
          signPend n (sc.th j) = signPend n ⟨c :: rest, i, ph, b, sreg⟩ := by
        intro ph b; rw [hth]; simp [signPend, Nat.not_le.2 hi]
      have hsp1 : ∀ (b : Block),
          signPend n (sc.th j) = signPend n ⟨c :: rest, i + 1, .load, b, sreg⟩ := by
        intro b; rw [hth]; simp [signPend, Nat.not_le.2 hi]
      cases phase with
      | load =>
        simp only [CudaShared.stepThread, dif_pos hi]
        refine sim_block h hi hhead _ _ (fun p => h.base ⟨i, hi⟩ p) (fun _ _ _ _ => rfl) (fun _ => rfl) ?_
          (hnext _ _) (hsp _ _)
        simp [Op.step, posOf, lanePend, h.base]
      | exch =>
        by_cases hx : c.exchange = true
        · simp only [CudaShared.stepThread, dif_pos hi, hx, if_true]
          refine sim_block h hi hhead _ _ (fun p => ?_) (fun p i' hi' hne => ?_) (fun _ => setBlock_sign' hi _) ?_
            (hnext _ _) (hsp _ _)
          · rw [setBlock_base hi _ hi]; simp [Op.step, posOf, h.base]
          · rw [setBlock_base hi _ hi']; simp [hne]
          · simp [Op.step, posOf, lanePend, h.base, hx]
        · simp only [CudaShared.stepThread, dif_pos hi, hx, Bool.false_eq_true, if_false]
          refine sim_block h hi hhead _ _ (fun p => ?_) (fun p i' hi' hne => ?_) (fun _ => setBlock_sign' hi _) ?_
            (hnext1 _) (hsp1 _)
          · rw [setBlock_base hi _ hi]; simp [Op.step, posOf, h.base]
          · rw [setBlock_base hi _ hi']; simp [hne]
          · rw [← hdone]; simp [Op.step, posOf, hx]
      | store =>
        simp only [CudaShared.stepThread, dif_pos hi]
        refine sim_block h hi hhead _ _ (fun p => ?_) (fun p i' hi' hne => ?_) (fun _ => setBlock_sign' hi _) ?_
          (hnext1 _) (hsp1 _)
        · rw [setBlock_base hi _ hi]; simp [Op.step, posOf, h.base]
        · rw [setBlock_base hi _ hi']; simp [hne]
        · rw [← hdone]; simp [Op.step, posOf]
    · have hlane : ∀ i' : Fin n, lanePend ⟨c :: rest, i, phase, reg, sreg⟩ i' =
          rest.map fun c => (⟨c, .load⟩ : Op k Block) := by
        intro i'
        have := i'.2
        have : i'.1 < i := by omega
        simp [lanePend, this]
      by_cases hsg : c.signed = true
      · by_cases hph : phase = .load
        · subst hph
          have hhead : rs.sign.pend j = ⟨{ c with exchange := false }, .load⟩ :: signLoads rest := by
            rw [hs]; simp [signPend, hsg]
          refine ⟨[(.sign, j, 0)], ?_⟩
          simp only [CudaShared.stepThread, dif_neg hi, hsg, if_true]
          simp only [run, List.foldl_cons, List.foldl_nil, step, lane_step_head hhead]
          refine ⟨h.base, h.sign, fun i' t => ?_, fun t => ?_⟩
          · simp only
            rw [h.pend]
            split
            · next e => subst e; rw [hth, hlane i']; have := i'.2; have : i'.1 < i := by omega
                        simp [lanePend, this]
            · rfl
          · simp only
            split
            · simp [Op.step, signPend, hsg, h.sign, Nat.not_lt.1 hi]
            · exact h.spend t
        · have hhead : rs.sign.pend j = ⟨{ c with exchange := false }, .exch sreg⟩ :: signLoads rest := by
            rw [hs]; simp [signPend, hsg, hph, Nat.not_lt.1 hi]
          refine ⟨[(.sign, j, 0)], ?_⟩
          have hst : CudaShared.stepThread sc.heap ⟨c :: rest, i, phase, reg, sreg⟩ =
              (CudaShared.setSign sc.heap c.target sreg, ⟨rest, 0, .load, reg, sreg⟩) := by
            simp only [CudaShared.stepThread, dif_neg hi, hsg, if_true]
          simp only [hst]
          simp only [run, List.foldl_cons, List.foldl_nil, step, lane_step_head hhead]
          refine ⟨fun i' p => ?_, fun p => ?_, fun i' t => ?_, fun t => ?_⟩
          · rw [(setSign_get _).2]; exact h.base i' p
          · rw [(setSign_get _).1]; simp [Op.step, h.sign]
          · simp only
            rw [h.pend]
            split
            · next e => subst e; rw [hth, hlane i', lanePend_fresh]
            · rfl
          · simp only
            split
            · rw [signPend_fresh]; simp [Op.step]
            · exact h.spend t
      · refine ⟨[], ?_⟩
        simp only [CudaShared.stepThread, dif_neg hi, hsg, Bool.false_eq_true, if_false]
        refine ⟨h.base, h.sign, fun i' t => ?_, fun t => ?_⟩
        · simp only [run, List.foldl_nil]
          rw [h.pend]
          split
          · next e => subst e; rw [hth, hlane i', lanePend_fresh]
          · rfl
        · simp only [run, List.foldl_nil]
          rw [h.spend]
          split
          · next e => subst e; rw [hth, signPend_fresh]; simp [signPend, hsg]
          · rfl

/-- C110: every schedule of C104 is one of the orders: relaxing memory takes no behaviour away. -/
theorem C110_generalises (heap : Fin k → Aesi n) (calls : Fin T → List (Call k)) (schedule : List (Fin T)) :
    ∃ order : List (Where n × Fin T × Nat),
      (∀ p, (run (start heap calls) order).obj p = (CudaShared.run (CudaShared.start heap calls) schedule).heap p) ∧
      ∀ t, ((CudaShared.run (CudaShared.start heap calls) schedule).th t).calls = [] →
        (∀ i, ((run (start heap calls) order).blocks i).pend t = []) ∧
          (run (start heap calls) order).sign.pend t = [] := by
  have key : ∃ order : List (Where n × Fin T × Nat),
      Sim (CudaShared.run (CudaShared.start heap calls) schedule) (run (start heap calls) order) := by
    induction schedule using List.reverseRecOn with
    | nil =>
      refine ⟨[], fun _ _ => rfl, fun _ => rfl, fun i t => (lanePend_fresh _ _ _ _).symm,
        fun t => (signPend_fresh _ _ _).symm⟩
    | append_singleton sched j ih =>
      obtain ⟨order, h⟩ := ih
      obtain ⟨more, h'⟩ := sim_step h j
      refine ⟨order ++ more, ?_⟩
      simp only [CudaShared.run, run, List.foldl_append, List.foldl_cons, List.foldl_nil] at h' ⊢
      exact h'
  obtain ⟨order, h⟩ := key
  refine ⟨order, fun p => aesi_ext' (h.sign p) fun i hi => ?_, fun t ht => ⟨fun i => ?_, ?_⟩⟩
  · rw [obj_base _ _ hi]; exact h.base ⟨i, hi⟩ p
  · rw [h.pend]; simp [lanePend, ht]
  · rw [h.spend]; simp [signPend, ht]

/-- C110: exchanges lose nothing in any order exactly when no argument is used by another thread (unless both calls
exchange the object with itself). -/
theorem C110_conserved_iff (hn : 0 < n) (calls : Fin T → List (Call k))
    (hx : ∀ t, ∀ c ∈ calls t, c.exchange = true) :
    (∀ (heap : Fin k → Aesi n) (order : List (Where n × Fin T × Nat)),
      (∀ i t, ((run (start heap calls) order).blocks i).pend t = []) →
      Conserved heap (run (start heap calls) order).obj) ↔
    ∀ t, ∀ c ∈ calls t, ∀ t', t' ≠ t → ∀ c' ∈ calls t', c'.target = c.arg ∨ c'.arg = c.arg →
      c.target = c.arg ∧ c'.target = c'.arg := by
  constructor
  · intro h
    refine (C104_conserved_iff hn calls hx).1 fun heap schedule hend => ?_
    obtain ⟨order, hobj, hdone⟩ := C110_generalises heap calls schedule
    have := h heap order fun i t => (hdone t (hend t)).1 i
    rwa [show (run (start heap calls) order).obj = _ from funext hobj] at this
  · exact fun harg heap order hend => C110_conserved_partial heap calls order hx harg hend

/-- C110: the whole claim that exchanges lose nothing. -/
def C110_full : Prop :=
  ∀ (n k T : Nat) (heap : Fin k → Aesi n) (calls : Fin T → List (Call k)) (order : List (Where n × Fin T × Nat)),
    (∀ t, ∀ c ∈ calls t, c.exchange = true) → (∀ i t, ((run (start heap calls) order).blocks i).pend t = []) →
    Conserved heap (run (start heap calls) order).obj

/-- C110: it is false of the code. -/
theorem C110_full_fails : ¬ C110_full := by
  intro h
  refine C104_full_fails fun n k T heap calls schedule hx hend => ?_
  obtain ⟨order, hobj, hdone⟩ := C110_generalises heap calls schedule
  have := h n k T heap calls order hx fun i t => (hdone t (hend t)).1 i
  rwa [show (run (start heap calls) order).obj = _ from funext hobj] at this

/-! ### Cases -/

private def num' (s : Sign) (b : List Nat) : Aesi 2 := ⟨s, Vector.ofFn fun i => BitVec.ofNat 32 (b.getD i.1 0)⟩

/-- Four objects. -/
private def mem4 : Fin 4 → Aesi 2 := fun p =>
  [num' .positive [1, 2], num' .negative [3, 4], num' .positive [5, 6], num' .zero []].getD p.1 (num' .zero [])

/-- Thread 0 exchanges object 0 with objects 2 and then 3 as arguments, thread 1 exchanges 0 with 1. -/
private def swaps : Fin 2 → List (Call 4) := fun t =>
  [[⟨true, true, 0, 2⟩, ⟨true, false, 0, 3⟩], [⟨true, true, 0, 1⟩]].getD t.1 []

/-- In each block the loads of thread 0's second call come before anything of its first; thread 1 comes between. -/
private def jumbled : List (Where 2 × Fin 2 × Nat) :=
  [(.block 1, 0, 1), (.block 0, 0, 1), (.sign, 0, 0), (.block 1, 0, 0), (.block 1, 1, 0), (.block 1, 0, 0),
   (.block 1, 1, 0), (.block 0, 0, 0), (.block 0, 0, 0), (.block 0, 0, 1), (.block 0, 1, 0), (.block 0, 1, 0),
   (.block 0, 0, 0), (.block 0, 0, 0), (.block 0, 1, 0), (.block 1, 0, 1), (.block 1, 0, 0), (.block 1, 0, 0),
   (.block 1, 1, 0), (.sign, 0, 0), (.sign, 1, 0), (.sign, 1, 0)]

private theorem jumbled_done : (∀ i t, ((run (start mem4 swaps) jumbled).blocks i).pend t = []) ∧
    ∀ t, (run (start mem4 swaps) jumbled).sign.pend t = [] := by decide +kernel

/-- The hypotheses of `C110_conserved_partial` are met by two threads with one target, in an order in which
thread 0's second call begins before its first. -/
example : Conserved mem4 (run (start mem4 swaps) jumbled).obj :=
  C110_conserved_partial mem4 swaps jumbled (by decide +kernel) (by decide +kernel) jumbled_done.1

/-- Where the blocks are in the end: each of the eight values once. -/
example : ∀ p, ((run (start mem4 swaps) jumbled).obj p).base =
    (num' .zero ([[3, 0], [0, 6], [1, 2], [5, 4]].getD p.1 [])).base := by decide +kernel

/-- `C110_wait_free` for thread 1 and block 0. -/
example : ((run (start mem4 swaps) (List.replicate 3 (.block 0, 1, 0))).blocks 0).pend 1 = [] :=
  C110_wait_free mem4 swaps _ 1 (.block 0) (by decide +kernel)

/-- Thread 0 copies object 1 into object 0 and then into object 2; thread 1 copies object 2 and then object 0. -/
private def publish : Fin 2 → List (Call 5) := fun t =>
  [[⟨false, true, 0, 1⟩, ⟨false, true, 2, 1⟩], [⟨false, true, 3, 2⟩, ⟨false, true, 4, 0⟩]].getD t.1 []

private def mem5 : Fin 5 → Aesi 2 := fun p => if p = 1 then num' .positive [1, 2] else num' .zero []

/-- Thread 0 loads, does its second call, then thread 1 does everything, then thread 0 writes object 0. -/
private def late : List (Where 2 × Fin 2 × Nat) :=
  let all (t : Fin 2) (m : Nat) := [(Where.block (n := 2) 0, t, m), (.block 1, t, m), (.sign, t, m)]
  all 0 0 ++ all 0 1 ++ all 0 1 ++ all 1 0 ++ all 1 0 ++ all 1 0 ++ all 1 0 ++ all 0 0

/-- C110: an object cannot be published by writing another one after it: thread 1 finds the new object 2 and, in its
next call, the old object 0. -/
theorem C110_counterexample_publish :
    (run (start mem5 publish) late).obj 3 = mem5 1 ∧ (run (start mem5 publish) late).obj 4 = mem5 0 ∧
    mem5 0 ≠ mem5 1 ∧ (∀ i t, ((run (start mem5 publish) late).blocks i).pend t = []) ∧
    ∀ t, (run (start mem5 publish) late).sign.pend t = [] := by decide +kernel

/-- The hypotheses of `C110_undisturbed`: object 3 and its source are thread 0's own. -/
private def apart : Fin 2 → List (Call 5) := fun t =>
  [[⟨true, true, 3, 1⟩, ⟨false, true, 4, 3⟩], [⟨true, true, 0, 2⟩]].getD t.1 []

private def apartOrder : List (Where 2 × Fin 2 × Nat) :=
  let all (t : Fin 2) (m : Nat) := [(Where.block (n := 2) 0, t, m), (.block 1, t, m), (.sign, t, m)]
  all 0 0 ++ all 1 0 ++ all 0 0 ++ all 0 1 ++ all 0 1 ++ all 1 0 ++ all 0 0 ++ all 0 0 ++ all 0 0

example : (run (start mem5 apart) apartOrder).obj 4 = (apart 0).foldl (fun h c => c.apply h) mem5 4 :=
  C110_undisturbed mem5 apart 0 (fun p => p = 1 ∨ p = 3 ∨ p = 4) (by decide +kernel) (by decide +kernel) apartOrder
    (by decide +kernel) (by decide +kernel) 4 (by decide)

example : (apart 0).foldl (fun h c => c.apply h) mem5 4 = mem5 1 := by decide +kernel

/-- The hypotheses of `C110_copy`, with a source that changes meanwhile. -/
private def watch : Fin 2 → List (Call 5) := fun t => [[⟨false, true, 3, 0⟩], [⟨true, true, 0, 1⟩]].getD t.1 []

private def watchOrder : List (Where 2 × Fin 2 × Nat) :=
  let all (t : Fin 2) := [(Where.block (n := 2) 0, t, (0 : Nat)), (.block 1, t, 0), (.sign, t, 0)]
  [(.block 0, 0, 0)] ++ all 1 ++ all 1 ++ all 1 ++ all 0 ++ all 0

example : ∃ pre, pre <+: watchOrder ∧ ((run (start mem5 watch) watchOrder).obj 3).base[1] =
    ((run (start mem5 watch) pre).obj 0).base[1] :=
  (C110_copy mem5 watch 0 true 3 0 rfl (by decide +kernel) watchOrder (by decide +kernel) (by decide +kernel)).1 1
    (by decide)

example : ((run (start mem5 watch) watchOrder).obj 3).base = (num' .zero [0, 2]).base := by decide +kernel

/-- The hypotheses of `C110_never_torn` and `C110_read_only` for the threads that publish. -/
example (order : List (Where 2 × Fin 2 × Nat)) : (run (start mem5 publish) order).obj 1 = mem5 1 :=
  C110_read_only mem5 publish 1 (by decide +kernel) order

example (order : List (Where 2 × Fin 2 × Nat)) :
    ∃ q : Fin 5, (q = 0 ∨ q = 1) ∧ ((run (start mem5 publish) order).obj 0).sign = (mem5 q).sign :=
  (C110_never_torn mem5 publish (fun p => p = 0 ∨ p = 1) (by decide +kernel) order 0 (.inl rfl)).2

end AesiMP
