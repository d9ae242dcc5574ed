import Verif.Model.Threads
import Verif.SpecInt

/-!
# C106: threads that work on objects of their own do not disturb each other
-/

namespace AesiMP
variable {T : Nat}

/-- The two worlds show the same to a thread that uses the objects of `V`. -/
def SameFor (V : Obj → Prop) (w w' : World) : Prop :=
  (∀ n i, V (.u n i) → w.u n i = w'.u n i) ∧ (∀ n i, V (.s n i) → w.s n i = w'.s n i) ∧
    w.last = w'.last ∧ w.os = w'.os ∧ w.sink = w'.sink ∧ w.src = w'.src

private theorem uexpr_congr {V : Obj → Prop} {w w' : World} (h : SameFor V w w') (env : Env) {n : Nat} (e : UExpr n)
    (hr : ∀ o ∈ e.reads, V o) : e.run env w = e.run env w' := by
  obtain ⟨hu, hs, _⟩ := h
  cases e <;> simp only [UExpr.reads, List.mem_cons, List.not_mem_nil, or_false, forall_eq_or_imp, forall_eq] at hr <;>
    simp only [UExpr.run] <;>
    first
    | rw [hu _ _ hr]
    | rw [hs _ _ hr]
    | rw [hu _ _ hr.1, hu _ _ hr.2]
    | rw [hu _ _ hr.1, hu _ _ hr.2.1, hu _ _ hr.2.2]

private theorem sexpr_congr {V : Obj → Prop} {w w' : World} (h : SameFor V w w') (env : Env) {n : Nat} (e : SExpr n)
    (hr : ∀ o ∈ e.reads, V o) : e.run env w = e.run env w' := by
  obtain ⟨hu, hs, _⟩ := h
  cases e <;> simp only [SExpr.reads, List.mem_cons, List.not_mem_nil, or_false, forall_eq_or_imp, forall_eq] at hr <;>
    simp only [SExpr.run] <;>
    first
    | rw [hs _ _ hr]
    | rw [hu _ _ hr]
    | rw [hs _ _ hr.1, hs _ _ hr.2]

private theorem query_congr {V : Obj → Prop} {w w' : World} (h : SameFor V w w') (env : Env) (q : Query)
    (hr : ∀ o ∈ q.reads, V o) : q.run env w = q.run env w' := by
  obtain ⟨hu, hs, _⟩ := h
  cases q <;> simp only [Query.reads, List.mem_cons, List.not_mem_nil, or_false, forall_eq_or_imp, forall_eq] at hr <;>
    simp only [Query.run] <;>
    first
    | rw [hs _ _ hr]
    | rw [hu _ _ hr]
    | rw [hs _ _ hr.1, hs _ _ hr.2]
    | rw [hu _ _ hr.1, hu _ _ hr.2]

private theorem same_setU {V : Obj → Prop} {w w' : World} (h : SameFor V w w') (n d : Nat) (x : Aeu n) :
    SameFor V (w.setU n d x) (w'.setU n d x) := by
  obtain ⟨hu, hs, hr⟩ := h
  refine ⟨fun k i hv => ?_, hs, hr⟩
  simp only [World.setU]
  split
  · rfl
  · exact hu k i hv

private theorem same_setS {V : Obj → Prop} {w w' : World} (h : SameFor V w w') (n d : Nat) (x : Aesi n) :
    SameFor V (w.setS n d x) (w'.setS n d x) := by
  obtain ⟨hu, hs, hr⟩ := h
  refine ⟨hu, fun k i hv => ?_, hr⟩
  simp only [World.setS]
  split
  · rfl
  · exact hs k i hv

/-- Two runs end alike. -/
private def Alike (V : Obj → Prop) (x y : Exec World) : Prop :=
  (∃ e, x = .error e ∧ y = .error e) ∨ ∃ w w', x = .ok w ∧ y = .ok w' ∧ SameFor V w w'

private theorem Alike.bind {V : Obj → Prop} {α : Type} {x y : Exec α} (h : x = y) {f g : α → Exec World}
    (hfg : ∀ a, Alike V (f a) (g a)) : Alike V (x >>= f) (y >>= g) := by
  subst h
  cases x with
  | error e => exact .inl ⟨e, rfl, rfl⟩
  | ok a => exact hfg a

private theorem Alike.ok {V : Obj → Prop} {w w' : World} (h : SameFor V w w') : Alike V (.ok w) (.ok w') :=
  .inr ⟨w, w', rfl, rfl, h⟩

private theorem call_congr {V : Obj → Prop} {w w' : World} (h : SameFor V w w') (env : Env) (c : Call)
    (hr : ∀ o ∈ c.reads, V o) : Alike V (c.run env w) (c.run env w') := by
  obtain ⟨hu, hs, h1, h2, h3, h4⟩ := h
  have h : SameFor V w w' := ⟨hu, hs, h1, h2, h3, h4⟩
  cases c with
  | setU n d e =>
    exact .bind (uexpr_congr h env e fun o ho => hr o (by simp [Call.reads, ho])) fun a => .ok (same_setU h n d a)
  | setS n d e =>
    exact .bind (sexpr_congr h env e fun o ho => hr o (by simp [Call.reads, ho])) fun a => .ok (same_setS h n d a)
  | ask q => exact .bind (query_congr h env q hr) fun a => .ok ⟨hu, hs, rfl, h2, h3, h4⟩
  | postIncU n d a =>
    exact .bind (by rw [hu n a (hr _ (by simp [Call.reads]))]) fun x => .ok (same_setU (same_setU h _ _ _) _ _ _)
  | postDecU n d a =>
    exact .bind (by rw [hu n a (hr _ (by simp [Call.reads]))]) fun x => .ok (same_setU (same_setU h _ _ _) _ _ _)
  | postIncS n d a =>
    exact .bind (by rw [hs n a (hr _ (by simp [Call.reads]))]) fun x => .ok (same_setS (same_setS h _ _ _) _ _ _)
  | postDecS n d a =>
    exact .bind (by rw [hs n a (hr _ (by simp [Call.reads]))]) fun x => .ok (same_setS (same_setS h _ _ _) _ _ _)
  | divideU n a b q r =>
    exact .bind (by rw [hu n a (hr _ (by simp [Call.reads])), hu n b (hr _ (by simp [Call.reads]))])
      fun x => .ok (same_setU (same_setU h _ _ _) _ _ _)
  | dividePair n a b q r =>
    exact .bind (by rw [hu n a (hr _ (by simp [Call.reads])), hu n b (hr _ (by simp [Call.reads]))])
      fun x => .ok (same_setU (same_setU h _ _ _) _ _ _)
  | divideS n a b q r =>
    exact .bind (by rw [hs n a (hr _ (by simp [Call.reads])), hs n b (hr _ (by simp [Call.reads])),
      hs n q (hr _ (by simp [Call.reads])), hs n r (hr _ (by simp [Call.reads]))])
      fun x => .ok (same_setS (same_setS h _ _ _) _ _ _)
  | gcdExt n a b x y g =>
    exact .bind (by rw [hu n a (hr _ (by simp [Call.reads])), hu n b (hr _ (by simp [Call.reads]))])
      fun r => .ok (same_setU (same_setU (same_setU h _ _ _) _ _ _) _ _ _)
  | swapU n a b =>
    simp only [Call.run]
    rw [hu n a (hr _ (by simp [Call.reads])), hu n b (hr _ (by simp [Call.reads]))]
    exact .ok (same_setU (same_setU h _ _ _) _ _ _)
  | swapS n a b =>
    simp only [Call.run]
    rw [hs n a (hr _ (by simp [Call.reads])), hs n b (hr _ (by simp [Call.reads]))]
    exact .ok (same_setS (same_setS h _ _ _) _ _ _)
  | printU n a buf =>
    exact .bind (by rw [hu n a (hr _ (by simp [Call.reads])), h2]) fun x => .ok ⟨hu, hs, h1, rfl, h3, h4⟩
  | printS n a buf =>
    exact .bind (by rw [hs n a (hr _ (by simp [Call.reads])), h2]) fun x => .ok ⟨hu, hs, h1, rfl, h3, h4⟩
  | read n d be =>
    refine .bind (by rw [hu n d (hr _ (by simp [Call.reads])), h4]) fun x => .ok ?_
    have := same_setU h n d x.1
    exact ⟨this.1, this.2.1, h1, h2, h3, rfl⟩
  | write n a be =>
    exact .bind (by rw [hu n a (hr _ (by simp [Call.reads])), h3]) fun x => .ok ⟨hu, hs, h1, h2, rfl, h4⟩

/-- The object has the same value in both worlds. -/
private def Keep (o : Obj) (w w' : World) : Prop :=
  match o with
  | .u n i => w'.u n i = w.u n i
  | .s n i => w'.s n i = w.s n i

private theorem keep_setU {o : Obj} {w w' : World} (h : Keep o w w') {n d : Nat} {x : Aeu n} (ho : o ≠ .u n d) :
    Keep o w (w'.setU n d x) := by
  cases o with
  | u k i =>
    simp only [Keep, World.setU]
    rw [dif_neg]
    · exact h
    · rintro ⟨rfl, rfl⟩; exact ho rfl
  | s k i => exact h

private theorem keep_setS {o : Obj} {w w' : World} (h : Keep o w w') {n d : Nat} {x : Aesi n} (ho : o ≠ .s n d) :
    Keep o w (w'.setS n d x) := by
  cases o with
  | s k i =>
    simp only [Keep, World.setS]
    rw [dif_neg]
    · exact h
    · rintro ⟨rfl, rfl⟩; exact ho rfl
  | u k i => exact h

private theorem keep_rfl (o : Obj) (w : World) : Keep o w w := by cases o <;> rfl

private theorem bind_ok {α : Type} {x : Exec α} {f : α → Exec World} {r : World} (h : x >>= f = .ok r) :
    ∃ a, f a = .ok r := by
  cases x with
  | error e => simp at h
  | ok a => exact ⟨a, h⟩

private theorem call_frame {env : Env} {c : Call} {w r : World} (h : c.run env w = .ok r) {o : Obj}
    (ho : o ∉ c.writes) : Keep o w r := by
  cases c with
  | setU n d e =>
    obtain ⟨a, h⟩ := bind_ok h
    cases h
    exact keep_setU (keep_rfl o w) (by simpa [Call.writes] using ho)
  | setS n d e =>
    obtain ⟨a, h⟩ := bind_ok h
    cases h
    exact keep_setS (keep_rfl o w) (by simpa [Call.writes] using ho)
  | ask q => obtain ⟨a, h⟩ := bind_ok h; cases h; cases o <;> rfl
  | postIncU n d a =>
    obtain ⟨a, h⟩ := bind_ok h
    cases h
    simp only [Call.writes, List.mem_cons, List.not_mem_nil, or_false, not_or] at ho
    exact keep_setU (keep_setU (keep_rfl o w) ho.2) ho.1
  | postDecU n d a =>
    obtain ⟨a, h⟩ := bind_ok h
    cases h
    simp only [Call.writes, List.mem_cons, List.not_mem_nil, or_false, not_or] at ho
    exact keep_setU (keep_setU (keep_rfl o w) ho.2) ho.1
  | postIncS n d a =>
    obtain ⟨a, h⟩ := bind_ok h
    cases h
    simp only [Call.writes, List.mem_cons, List.not_mem_nil, or_false, not_or] at ho
    exact keep_setS (keep_setS (keep_rfl o w) ho.2) ho.1
  | postDecS n d a =>
    obtain ⟨a, h⟩ := bind_ok h
    cases h
    simp only [Call.writes, List.mem_cons, List.not_mem_nil, or_false, not_or] at ho
    exact keep_setS (keep_setS (keep_rfl o w) ho.2) ho.1
  | divideU n a b q r =>
    obtain ⟨a, h⟩ := bind_ok h
    cases h
    simp only [Call.writes, List.mem_cons, List.not_mem_nil, or_false, not_or] at ho
    exact keep_setU (keep_setU (keep_rfl o w) ho.1) ho.2
  | dividePair n a b q r =>
    obtain ⟨a, h⟩ := bind_ok h
    cases h
    simp only [Call.writes, List.mem_cons, List.not_mem_nil, or_false, not_or] at ho
    exact keep_setU (keep_setU (keep_rfl o w) ho.1) ho.2
  | divideS n a b q r =>
    obtain ⟨a, h⟩ := bind_ok h
    cases h
    simp only [Call.writes, List.mem_cons, List.not_mem_nil, or_false, not_or] at ho
    exact keep_setS (keep_setS (keep_rfl o w) ho.1) ho.2
  | gcdExt n a b x y g =>
    obtain ⟨a, h⟩ := bind_ok h
    cases h
    simp only [Call.writes, List.mem_cons, List.not_mem_nil, or_false, not_or] at ho
    exact keep_setU (keep_setU (keep_setU (keep_rfl o w) ho.1) ho.2.1) ho.2.2
  | swapU n a b =>
    cases h
    simp only [Call.writes, List.mem_cons, List.not_mem_nil, or_false, not_or] at ho
    exact keep_setU (keep_setU (keep_rfl o w) ho.1) ho.2
  | swapS n a b =>
    cases h
    simp only [Call.writes, List.mem_cons, List.not_mem_nil, or_false, not_or] at ho
    exact keep_setS (keep_setS (keep_rfl o w) ho.1) ho.2
  | printU n a buf => obtain ⟨a, h⟩ := bind_ok h; cases h; exact keep_rfl o w
  | printS n a buf => obtain ⟨a, h⟩ := bind_ok h; cases h; exact keep_rfl o w
  | read n d be =>
    obtain ⟨a, h⟩ := bind_ok h
    cases h
    have := keep_setU (keep_rfl o w) (n := n) (d := d) (x := a.1) (by simpa [Call.writes] using ho)
    cases o <;> exact this
  | write n a be => obtain ⟨a, h⟩ := bind_ok h; cases h; exact keep_rfl o w

/-- Two runs of a thread end alike. -/
private def AlikeT (V : Obj → Prop) (x y : Exec (Thr × World)) : Prop :=
  (∃ e, x = .error e ∧ y = .error e) ∨ ∃ p w w', x = .ok (p, w) ∧ y = .ok (p, w') ∧ SameFor V w w'

private theorem alone_congr {V W : Obj → Prop} (env : Env) (k : Nat) : ∀ (p : Thr) (w w' : World),
    p.Within V W → SameFor V w w' → AlikeT V (Thr.alone env k p w) (Thr.alone env k p w') := by
  induction k with
  | zero => intro p w w' _ h; exact .inr ⟨p, w, w', by cases p <;> rfl, by cases p <;> rfl, h⟩
  | succ k ih =>
    intro p w w' hp h
    cases p with
    | done => exact .inr ⟨.done, w, w', rfl, rfl, h⟩
    | call c rest =>
      simp only [Thr.alone]
      rcases call_congr h env c hp.1 with ⟨e, h1, h2⟩ | ⟨w1, w2, h1, h2, h3⟩
      · rw [h1, h2]; exact .inl ⟨e, rfl, rfl⟩
      · rw [h1, h2]
        change AlikeT V (Thr.alone env k (rest w1.last) w1) (Thr.alone env k (rest w2.last) w2)
        rw [← h3.2.2.1]
        exact ih _ _ _ (hp.2.2 _) h3

private theorem alone_prefix (env : Env) (j k : Nat) (hjk : j ≤ k) : ∀ (p : Thr) (w : World) (e : UB),
    Thr.alone env j p w = .error e → Thr.alone env k p w = .error e := by
  induction k generalizing j with
  | zero => intro p w e h; obtain rfl : j = 0 := by omega
            exact h
  | succ k ih =>
    intro p w e h
    cases j with
    | zero => cases p <;> simp [Thr.alone] at h
    | succ j =>
      cases p with
      | done => simp [Thr.alone] at h
      | call c rest =>
        simp only [Thr.alone] at h ⊢
        cases hc : c.run env w with
        | error e' => rw [hc] at h; exact h
        | ok w1 => rw [hc] at h; exact ih j (by omega) _ _ _ h

private theorem sameFor_symm {V : Obj → Prop} {w w' : World} (h : SameFor V w w') : SameFor V w' w :=
  ⟨fun n i hv => (h.1 n i hv).symm, fun n i hv => (h.2.1 n i hv).symm, h.2.2.1.symm, h.2.2.2.1.symm, h.2.2.2.2.1.symm,
    h.2.2.2.2.2.symm⟩

private theorem sameFor_trans {V : Obj → Prop} {w w' w'' : World} (h : SameFor V w w') (h' : SameFor V w' w'') :
    SameFor V w w'' :=
  ⟨fun n i hv => (h.1 n i hv).trans (h'.1 n i hv), fun n i hv => (h.2.1 n i hv).trans (h'.2.1 n i hv),
    h.2.2.1.trans h'.2.2.1, h.2.2.2.1.trans h'.2.2.2.1, h.2.2.2.2.1.trans h'.2.2.2.2.1,
    h.2.2.2.2.2.trans h'.2.2.2.2.2⟩

/-- Every thread `t` uses only the objects of `V t` and writes only those of `W t`, and nobody uses what another
thread writes. -/
def Separate (m : Machine T) (V W : Fin T → Obj → Prop) : Prop :=
  (∀ t, (m.prog t).Within (V t) (W t)) ∧ ∀ t t', t ≠ t' → ∀ o, W t o → ¬ V t' o

/-- What one step does. -/
private theorem step_cases {env : Env} {m : Machine T} {V W : Fin T → Obj → Prop} (hs : Separate m V W) (t : Fin T) :
    (∃ e, m.step env t = .error e ∧ Thr.alone env 1 (m.prog t) (m.view t) = .error e) ∨
    ∃ m1, m.step env t = .ok m1 ∧ Separate m1 V W ∧
      (∀ k, Thr.alone env (k + 1) (m.prog t) (m.view t) = Thr.alone env k (m1.prog t) (m1.view t)) ∧
      ∀ j, j ≠ t → m1.prog j = m.prog j ∧ SameFor (V j) (m.view j) (m1.view j) := by
  cases hp : m.prog t with
  | done =>
    refine .inr ⟨m, by simp [Machine.step, hp], hs, fun k => ?_, fun j _ => ⟨rfl, fun _ _ _ => rfl, fun _ _ _ => rfl,
      rfl, rfl, rfl, rfl⟩⟩
    rw [hp]; cases k <;> rfl
  | call c rest =>
    have hw := hs.1 t
    rw [hp] at hw
    cases hc : c.run env (m.view t) with
    | error e =>
      refine .inl ⟨e, ?_, ?_⟩
      · simp only [Machine.step, hp, hc]; rfl
      · simp only [Thr.alone, hc]; rfl
    | ok w =>
      refine .inr ⟨⟨w.u, w.s, fun j => if j = t then ⟨w.last, w.os, w.sink, w.src⟩ else m.loc j,
        fun j => if j = t then rest w.last else m.prog j⟩, ?_, ⟨?_, hs.2⟩, ?_, ?_⟩
      · simp only [Machine.step, hp, hc]; rfl
      · intro j
        by_cases hj : j = t
        · subst hj; simpa using hw.2.2 w.last
        · simpa [hj] using hs.1 j
      · intro k
        simp only [Thr.alone]
        rw [hc]
        simp only [Machine.view, if_true]
        rfl
      · intro j hj
        have hk : ∀ o, V j o → Keep o (m.view t) w := fun o hv =>
          call_frame hc fun ho => hs.2 t j (fun h => hj h.symm) o (hw.2.1 o ho) hv
        refine ⟨by simp [hj], fun n i hv => (hk (.u n i) hv).symm, fun n i hv => (hk (.s n i) hv).symm, ?_⟩
        simp [Machine.view, hj]

/-- **C106** (isolation).  However the calls of the threads are interleaved: every thread ends where it would have
ended alone on the memory of the start, with the same objects, results and streams before its eyes. -/
theorem C106_isolated (env : Env) (V W : Fin T → Obj → Prop) (schedule : List (Fin T)) (m m' : Machine T)
    (hs : Separate m V W) (h : m.run env schedule = .ok m') (t : Fin T) :
    ∃ w, Thr.alone env (schedule.count t) (m.prog t) (m.view t) = .ok (m'.prog t, w) ∧ SameFor (V t) w (m'.view t) := by
  induction schedule generalizing m with
  | nil =>
    cases h
    exact ⟨m'.view t, by simp only [List.count_nil]; cases m'.prog t <;> rfl, fun _ _ _ => rfl, fun _ _ _ => rfl, rfl, rfl, rfl, rfl⟩
  | cons t0 ts ih =>
    rcases step_cases (env := env) hs t0 with ⟨e, h1, _⟩ | ⟨m1, h1, h2, h3, h4⟩
    · simp only [Machine.run, h1] at h; cases h
    · simp only [Machine.run, h1] at h
      obtain ⟨w, hw1, hw2⟩ := ih m1 h2 h
      by_cases ht : t = t0
      · subst ht
        rw [List.count_cons_self, h3]
        exact ⟨w, hw1, hw2⟩
      · rw [List.count_cons_of_ne (fun h => ht h.symm)]
        obtain ⟨hp, hv⟩ := h4 t ht
        rw [hp] at hw1
        rcases alone_congr env (ts.count t) _ _ _ (hs.1 t) hv with ⟨e, _, he⟩ | ⟨p, a, b, ha, hb, hab⟩
        · rw [he] at hw1; cases hw1
        · rw [hb] at hw1; cases hw1
          exact ⟨a, ha, sameFor_trans hab hw2⟩

/-- **C106** (errors).  The threads together run into undefined behaviour exactly when one of them alone does so in
the calls the schedule gives it. -/
theorem C106_errors (env : Env) (V W : Fin T → Obj → Prop) (schedule : List (Fin T)) (m : Machine T)
    (hs : Separate m V W) :
    (∃ e, m.run env schedule = .error e) ↔
      ∃ t e, Thr.alone env (schedule.count t) (m.prog t) (m.view t) = .error e := by
  constructor
  · rintro ⟨e, h⟩
    induction schedule generalizing m with
    | nil => cases h
    | cons t0 ts ih =>
      rcases step_cases (env := env) hs t0 with ⟨e', h1, h2⟩ | ⟨m1, h1, h2, h3, h4⟩
      · refine ⟨t0, e', alone_prefix env 1 _ ?_ _ _ _ h2⟩
        rw [List.count_cons_self]; omega
      · simp only [Machine.run, h1] at h
        obtain ⟨t, e', he⟩ := ih m1 h2 h
        by_cases ht : t = t0
        · subst ht
          exact ⟨t, e', by rw [List.count_cons_self, h3]; exact he⟩
        · obtain ⟨hp, hv⟩ := h4 t ht
          refine ⟨t, e', ?_⟩
          rw [List.count_cons_of_ne (fun h => ht h.symm)]
          rw [hp] at he
          rcases alone_congr env (ts.count t) _ _ _ (hs.1 t) hv with ⟨e2, h5, h6⟩ | ⟨p, a, b, ha, hb, hab⟩
          · rw [h6] at he; cases he; exact h5
          · rw [hb] at he; cases he
  · rintro ⟨t, e, he⟩
    cases h : m.run env schedule with
    | error e' => exact ⟨e', rfl⟩
    | ok m' =>
      obtain ⟨w, hw, _⟩ := C106_isolated env V W schedule m m' hs h t
      rw [he] at hw; cases hw

/-- **C106** (the order does not matter).  Two schedules that give every thread the same number of calls end alike:
both go through, every thread stands at the same point and sees the same, and all objects any thread may use have the
same values. -/
theorem C106_any_order (env : Env) (V W : Fin T → Obj → Prop) (s1 s2 : List (Fin T)) (m m1 : Machine T)
    (hs : Separate m V W) (hc : ∀ t, s1.count t = s2.count t) (h : m.run env s1 = .ok m1) :
    ∃ m2, m.run env s2 = .ok m2 ∧ ∀ t, m1.prog t = m2.prog t ∧ SameFor (V t) (m1.view t) (m2.view t) := by
  cases h2 : m.run env s2 with
  | error e =>
    obtain ⟨t, e', he⟩ := (C106_errors env V W s2 m hs).1 ⟨e, h2⟩
    obtain ⟨w, hw, _⟩ := C106_isolated env V W s1 m m1 hs h t
    rw [hc, he] at hw; cases hw
  | ok m2 =>
    refine ⟨m2, rfl, fun t => ?_⟩
    obtain ⟨w, hw, hv⟩ := C106_isolated env V W s1 m m1 hs h t
    obtain ⟨w2, hw2, hv2⟩ := C106_isolated env V W s2 m m2 hs h2 t
    rw [hc, hw2] at hw
    obtain ⟨hpp, rfl⟩ := Prod.mk.inj (Except.ok.inj hw)
    exact ⟨hpp.symm, sameFor_trans (sameFor_symm hv) hv2⟩

/-- **C106** (constants).  An object that no thread writes keeps its value. -/
theorem C106_constants (env : Env) (V W : Fin T → Obj → Prop) (schedule : List (Fin T)) (m m' : Machine T)
    (hs : Separate m V W) (h : m.run env schedule = .ok m') :
    (∀ n i, (∀ t, ¬ W t (.u n i)) → m'.u n i = m.u n i) ∧ ∀ n i, (∀ t, ¬ W t (.s n i)) → m'.s n i = m.s n i := by
  suffices hk : ∀ (T' : Nat) (schedule : List (Fin T')) (V W : Fin T' → Obj → Prop) (m m' : Machine T'),
      (∀ t, (m.prog t).Within (V t) (W t)) → m.run env schedule = .ok m' →
      (∀ n i, (∀ t, ¬ W t (.u n i)) → m'.u n i = m.u n i) ∧ ∀ n i, (∀ t, ¬ W t (.s n i)) → m'.s n i = m.s n i from
    hk T schedule V W m m' hs.1 h
  intro T' schedule V W
  induction schedule with
  | nil => intro m m' _ h; cases h; exact ⟨fun _ _ _ => rfl, fun _ _ _ => rfl⟩
  | cons t ts ih =>
    intro m m' hs h
    cases hp : m.prog t with
    | done =>
      have h1 : m.step env t = .ok m := by simp [Machine.step, hp]
      simp only [Machine.run, h1] at h
      exact ih m m' hs h
    | call c rest =>
      have hw := hs t
      rw [hp] at hw
      cases hc : c.run env (m.view t) with
      | error e => simp only [Machine.run, Machine.step, hp, hc] at h; cases h
      | ok w =>
        simp only [Machine.run, Machine.step, hp, hc] at h
        obtain ⟨h1, h2⟩ := ih _ m' (by
          intro j
          by_cases hj : j = t
          · subst hj; simpa using hw.2.2 w.last
          · simpa [hj] using hs j) h
        refine ⟨fun n i hn => (h1 n i hn).trans ?_, fun n i hn => (h2 n i hn).trans ?_⟩
        · exact call_frame hc (o := .u n i) fun ho => hn t (hw.2.1 _ ho)
        · exact call_frame hc (o := .s n i) fun ho => hn t (hw.2.1 _ ho)

/-- **C106** (the objects a call uses).  What a call writes is among what it uses. -/
theorem C106_uses (c : Call) : ∀ o ∈ c.writes, o ∈ c.reads := by
  cases c <;> simp [Call.writes, Call.reads]

private theorem separate_run {env : Env} {V W : Fin T → Obj → Prop} :
    ∀ (schedule : List (Fin T)) (m m' : Machine T), Separate m V W → m.run env schedule = .ok m' → Separate m' V W := by
  intro schedule
  induction schedule with
  | nil => intro m m' hs h; cases h; exact hs
  | cons t ts ih =>
    intro m m' hs h
    rcases step_cases (env := env) hs t with ⟨e, he, -⟩ | ⟨m1, h1, hs1, -⟩
    · simp only [Machine.run, he] at h; cases h
    · simp only [Machine.run, h1] at h; exact ih m1 m' hs1 h

/-- **C106** (no data race).  At every point of every execution: an object that the next call of one thread writes is
neither written nor used by the next call of another thread. -/
theorem C106_no_race (env : Env) (V W : Fin T → Obj → Prop) (schedule : List (Fin T)) (m m' : Machine T)
    (hs : Separate m V W) (h : m.run env schedule = .ok m') {t t' : Fin T} (ht : t ≠ t') {c c' : Call}
    {rest rest' : List Int → Thr} (hc : m'.prog t = .call c rest) (hc' : m'.prog t' = .call c' rest') :
    ∀ o ∈ c.writes, o ∉ c'.writes ∧ o ∉ c'.reads := by
  obtain ⟨hw, hsep⟩ := separate_run schedule m m' hs h
  have h1 := hw t
  have h2 := hw t'
  rw [hc] at h1
  rw [hc'] at h2
  intro o ho
  have hno : o ∉ c'.reads := fun h => hsep t t' ht o (h1.2.1 o ho) (h2.1 o h)
  exact ⟨fun h => hno (C106_uses c' o h), hno⟩

/-! A case: two threads square a number of their own (objects 1 and 2) modulo an object both use (number 0), until
their value is 1. -/

/-- At most `k` rounds of a thread whose object is `own`. -/
private def squarer (own : Nat) : Nat → Thr
  | 0 => .done
  | k + 1 => .call (.setU 2 own (.bin .mul own own)) fun _ =>
      .call (.setU 2 own (.bin .mod own 0)) fun _ =>
        .call (.ask (.uEqU64 2 own 1#64)) fun l => if l = [1] then .done else squarer own k

private def sharedV (own : Nat) (o : Obj) : Prop := o = .u 2 own ∨ o = .u 2 0
private def ownW (own : Nat) (o : Obj) : Prop := o = .u 2 own

private theorem squarer_within (own k : Nat) : (squarer own k).Within (sharedV own) (ownW own) := by
  induction k with
  | zero => trivial
  | succ k ih =>
    refine ⟨?_, ?_, fun _ => ⟨?_, ?_, fun _ => ⟨?_, ?_, fun l => ?_⟩⟩⟩
    · simp [Call.reads, UExpr.reads, sharedV]
    · simp [Call.writes, ownW]
    · simp [Call.reads, UExpr.reads, sharedV]
    · simp [Call.writes, ownW]
    · simp [Call.reads, Query.reads, sharedV]
    · simp [Call.writes]
    · by_cases hl : l = [1]
      · simp only [hl, if_true]; trivial
      · simp only [hl, if_false]; exact ih

private def demoMachine : Machine 2 where
  u := fun n i => Aeu.ofNat n (if i = 0 then 257 else if i = 1 then 3 else 16)
  s := fun n _ => Aesi.ofInt n 0
  loc := fun _ => ⟨[], { out := [], basefield := .other, showbase := false, uppercase := false, width := 0, fill := 32,
                         adjust := .unset }, ⟨[], 0, false⟩, ⟨[], false⟩⟩
  prog := fun t => squarer (t.1 + 1) 20

private theorem demo_separate :
    Separate demoMachine (fun t => sharedV (t.1 + 1)) (fun t => ownW (t.1 + 1)) := by
  refine ⟨fun t => squarer_within _ _, fun t t' ht o hw hv => ?_⟩
  have : t.1 ≠ t'.1 := fun h => ht (Fin.ext h)
  simp only [ownW, sharedV] at hw hv
  rcases hv with hv | hv <;> · rw [hw] at hv; simp only [Obj.u.injEq] at hv; omega

/-- Both threads, in two orders, and the first thread alone: the same values, and the second stops after 2 rounds. -/
example : (demoMachine.run ⟨⟨false, false, false⟩, .little, fun _ => false⟩ [0, 1, 0, 0, 1, 1, 1, 0, 1, 1, 1, 0, 1]).map
      (fun m => (Aeu.toNat (m.u 2 0), Aeu.toNat (m.u 2 1), Aeu.toNat (m.u 2 2))) = .ok (257, 81, 1) ∧
    (demoMachine.run ⟨⟨false, false, false⟩, .little, fun _ => false⟩ [1, 1, 1, 1, 1, 1, 1, 1, 0, 0, 0, 0, 0]).map
      (fun m => (Aeu.toNat (m.u 2 0), Aeu.toNat (m.u 2 1), Aeu.toNat (m.u 2 2))) = .ok (257, 81, 1) ∧
    (Thr.alone ⟨⟨false, false, false⟩, .little, fun _ => false⟩ 5 (demoMachine.prog 0) (demoMachine.view 0)).map
      (fun x => Aeu.toNat (x.2.u 2 1)) = .ok 81 := by decide +kernel

example (env : Env) (s1 s2 : List (Fin 2)) (m1 : Machine 2) (hc : ∀ t, s1.count t = s2.count t)
    (h : demoMachine.run env s1 = .ok m1) : ∃ m2, demoMachine.run env s2 = .ok m2 ∧ m1.u 2 1 = m2.u 2 1 :=
  let ⟨m2, h1, h2⟩ := C106_any_order env _ _ s1 s2 demoMachine m1 demo_separate hc h
  ⟨m2, h1, (h2 0).2.1 2 1 (.inl rfl)⟩

/-- Without the hypothesis the order does matter: two threads that square the same object and reduce it. -/
example : ((({ demoMachine with prog := fun t => squarer 2 (t.1 + 2) } : Machine 2).run
      ⟨⟨false, false, false⟩, .little, fun _ => false⟩ [0, 0, 1]).map fun m => Aeu.toNat (m.u 2 2)) ≠
    (({ demoMachine with prog := fun t => squarer 2 (t.1 + 2) } : Machine 2).run
      ⟨⟨false, false, false⟩, .little, fun _ => false⟩ [0, 1, 0]).map fun m => Aeu.toNat (m.u 2 2) := by
  decide +kernel

end AesiMP
