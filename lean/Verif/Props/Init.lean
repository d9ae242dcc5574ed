import Verif.Model.Init
import Verif.Props.Outputs

/-!
# C88: nothing that was never written is read
-/

namespace AesiMP
open Aeu Aesi
variable {n : Nat}

/-! ## Storage -/

theorem Raw.store_get (v : Aeu n) {i : Nat} (hi : i < n) : (Raw.store v)[i] = some v[i] := by
  simp [Raw.store]

theorem Raw.load_store (v : Aeu n) : Raw.load (Raw.store v) = .ok v := by
  unfold Raw.load
  obtain ⟨r, hr, h⟩ := forUp_inv (fun k (r : Aeu n) => ∀ i (hi : i < n), i < k → r[i] = v[i]) (Nat.zero_le n)
    (s := Aeu.zero n) (body := fun i r => do let b ← Raw.rdI (Raw.store v) i; wr r i b)
    (by intro i _ h; omega) (by
      intro i s _ hi hs
      refine ⟨s.set i v[i], ?_, ?_⟩
      · simp only [Raw.rdI, rd_ok hi, ok_bind, Raw.store_get v hi, wr_ok hi]
      · intro j hj hji
        rw [Vector.getElem_set]
        split
        · next h => subst h; rfl
        · exact hs j hj (by omega))
  rw [hr]
  congr 1
  exact Vector.ext fun i hi => h i hi hi

/-- `load` fails exactly when a block was never written. -/
theorem Raw.load_iff (a : Raw n) : (∃ v, Raw.load a = .ok v) ↔ ∃ v, a = Raw.store v := by
  constructor
  · rintro ⟨v, hv⟩
    have key : ∀ (k i : Nat) (s r : Aeu n), i + k = n →
        forUpN (fun i r => do let b ← Raw.rdI a i; wr r i b) k i s = .ok r →
        ∀ j (hj : j < n), i ≤ j → ∃ b, a[j] = some b := by
      intro k
      induction k with
      | zero => intro i s r h _ j hj hij; omega
      | succ k ih =>
        intro i s r h hr j hj hij
        rw [forUpN] at hr
        obtain ⟨s', h1, h2⟩ := bind_eq_ok.mp hr
        obtain ⟨b, hb, -⟩ := bind_eq_ok.mp h1
        by_cases hji : j = i
        · subst hji
          simp only [Raw.rdI, rd_ok hj, ok_bind] at hb
          cases ha : a[j] with
          | some c => exact ⟨c, rfl⟩
          | none => rw [ha] at hb; cases hb
        · exact ih (i + 1) s' r (by omega) h2 j hj (by omega)
    have hk := key n 0 _ v (by omega) hv
    choose f hf using fun j : Fin n => hk j.val j.isLt (Nat.zero_le _)
    refine ⟨Vector.ofFn f, ?_⟩
    ext i hi
    simp [Raw.store, hf ⟨i, hi⟩]
  · rintro ⟨v, rfl⟩
    exact ⟨v, Raw.load_store v⟩

/-! ## Simulation of loops -/

/-- Related steps: both go on in related states or both leave with related results. -/
def CtlRel {σ σ' ρ ρ' : Type} (R : σ → σ' → Prop) (P : ρ → ρ' → Prop) : Ctl σ ρ → Ctl σ' ρ' → Prop
  | .next s, .next s' => R s s'
  | .leave r, .leave r' => P r r'
  | _, _ => False

theorem whileC_relsim {σ σ' ρ ρ' : Type} (R : σ → σ' → Prop) (P : ρ → ρ' → Prop)
    {body : σ → Exec (Ctl σ ρ)} {body' : σ' → Exec (Ctl σ' ρ')}
    (hb : ∀ s s', R s s' → RelExec (CtlRel R P) (body s) (body' s')) (k : Nat) :
    ∀ s s', R s s' → RelExec P (whileC k s body) (whileC k s' body') := by
  induction k with
  | zero => intro s s' _; exact .inl ⟨_, rfl, rfl⟩
  | succ k ih =>
    intro s s' h
    rw [whileC, whileC]
    refine RelExec.bind (hb s s' h) ?_
    intro r r' hr
    cases r <;> cases r'
    · exact ih _ _ hr
    · exact hr.elim
    · exact hr.elim
    · exact RelExec.ok hr

theorem forDown_relsim {σ σ' : Type} (R : σ → σ' → Prop) {body : Nat → σ → Exec σ} {body' : Nat → σ' → Exec σ'}
    (hb : ∀ i s s', R s s' → RelExec R (body i s) (body' i s')) (k : Nat) :
    ∀ s s', R s s' → RelExec R (forDown k 0 s body) (forDown k 0 s' body') := by
  induction k with
  | zero => exact fun s s' h => RelExec.ok h
  | succ k ih =>
    intro s s' h
    rw [forDown_top, forDown_top]
    exact RelExec.bind (hb k s s' h) ih

/-- The storage holds the pair of values. -/
def Holds2 (s : Raw n × Raw n) (t : Aeu n × Aeu n) : Prop := s.1 = Raw.store t.1 ∧ s.2 = Raw.store t.2

theorem Raw.divide_sim (cfg : Cfg) (a b : Aeu n) (q r : Raw n) :
    RelExec Holds2 (Raw.divide cfg a b q r) (Aeu.divide cfg a b) := by
  unfold Raw.divide Aeu.divide
  refine RelExec.same rfl fun ratio => ?_
  dsimp only
  cases ratio with
  | greater =>
    refine RelExec.same rfl fun f => ?_
    refine forDown_relsim Holds2 ?_ _ _ _ ⟨rfl, rfl⟩
    rintro i ⟨q, r⟩ ⟨q', r'⟩ ⟨rfl, rfl⟩
    simp only [Raw.load_store, ok_bind]
    refine RelExec.same rfl fun r1 => ?_
    refine RelExec.same rfl fun bit => ?_
    refine RelExec.same rfl fun r2 => ?_
    refine RelExec.same rfl fun g => ?_
    cases g with
    | false => exact RelExec.ok ⟨rfl, rfl⟩
    | true =>
      refine RelExec.same rfl fun r3 => ?_
      refine RelExec.same rfl fun q3 => ?_
      exact RelExec.ok ⟨rfl, rfl⟩
  | less => exact RelExec.ok ⟨rfl, rfl⟩
  | equal => exact RelExec.same rfl fun one => RelExec.ok ⟨rfl, rfl⟩
  | equivalent => exact RelExec.same rfl fun one => RelExec.ok ⟨rfl, rfl⟩

theorem RelExec.eq_of {α : Type} {e e' : Exec α} (h : RelExec (fun r r' => r = r') e e') : e = e' := by
  rcases h with ⟨u, rfl, rfl⟩ | ⟨r, r', rfl, rfl, rfl⟩ <;> rfl

theorem RelExec.then_load {β : Type} {P : Raw n × Raw n → β → Prop} {e : Exec (Raw n × Raw n)} {e' : Exec β}
    {f : Raw n × Raw n → Raw n} {g : β → Aeu n} (h : RelExec P e e') (hp : ∀ s t, P s t → f s = Raw.store (g t)) :
    (e >>= fun s => Raw.load (f s)) = e' >>= fun t => .ok (g t) := by
  refine RelExec.eq_of (RelExec.bind h ?_)
  intro s t hst
  rw [hp s t hst, Raw.load_store]
  exact RelExec.ok rfl

/-! ## C88 -/

/-- C88, the integral constructor writes every block before anything reads one. -/
theorem C88_constructor {w : Nat} (this : Raw n) (value : BitVec w) :
    ∃ v, Raw.ofUnsigned this value = .ok (Raw.store v) ∧ Aeu.ofUnsigned n value = .ok v := by
  unfold Raw.ofUnsigned Aeu.ofUnsigned ofUnsignedJ
  split
  · have key : ∀ (k i : Nat) (s : Raw n) (s' : Aeu n) (t : U64), i + k = n →
        (∀ j (hj : j < n), j < i → s[j] = some s'[j]) →
        ∃ v u, forUpN (fun i (blocks, tValue) => do
            let blocks ← wr blocks i (some (toBlock (tValue % blockBase)))
            .ok (blocks, tValue / blockBase)) k i (s, t) = .ok (Raw.store v, u) ∧
          forUpN (fun i (blocks, tValue) => do
            let blocks ← wr blocks i (toBlock (tValue % blockBase))
            .ok (blocks, tValue / blockBase)) k i (s', t) = .ok (v, u) := by
      intro k
      induction k with
      | zero =>
        intro i s s' t h hs
        refine ⟨s', t, ?_, rfl⟩
        rw [forUpN]
        congr 2
        ext j hj
        rw [hs j hj (by omega)]; simp [Raw.store]
      | succ k ih =>
        intro i s s' t h hs
        have hi : i < n := by omega
        obtain ⟨v, u, h1, h2⟩ := ih (i + 1) (s.set i (some (toBlock (t % blockBase))))
          (s'.set i (toBlock (t % blockBase))) (t / blockBase) (by omega) (by
            intro j hj hji
            simp only [Vector.getElem_set]
            split
            · rfl
            · exact hs j hj (by omega))
        refine ⟨v, u, ?_, ?_⟩
        · rw [forUpN]; simp only [wr_ok hi, ok_bind]; exact h1
        · rw [forUpN]; simp only [wr_ok hi, ok_bind]; exact h2
    obtain ⟨v, u, h1, h2⟩ := key n 0 this (Aeu.zero n) (value.setWidth 64) (by omega) (by intro j _ h; omega)
    refine ⟨v, ?_, ?_⟩
    · rw [show (forUp 0 n (this, value.setWidth 64) _) = _ from h1]; rfl
    · rw [show (forUp 0 n (Aeu.zero n, value.setWidth 64) _) = _ from h2]; rfl
  · exact ⟨_, rfl, rfl⟩

/-- C88, `~a`: `result` is written completely before it is returned. -/
theorem C88_complement (x : Aeu n) : Raw.not x = Aeu.not x := by
  unfold Raw.not Aeu.not
  have key : ∀ (k i : Nat) (s : Raw n) (s' : Aeu n), i + k = n →
      (∀ j (hj : j < n), j < i → s[j] = some s'[j]) →
      ∃ v, forUpN (fun i result => do let b ← rd x i; wr result i (some (~~~ b))) k i s = .ok (Raw.store v) ∧
        forUpN (fun i result => do let b ← rd x i; wr result i (~~~ b)) k i s' = .ok v := by
    intro k
    induction k with
    | zero =>
      intro i s s' h hs
      refine ⟨s', ?_, rfl⟩
      rw [forUpN]
      congr 1
      ext j hj
      rw [hs j hj (by omega)]; simp [Raw.store]
    | succ k ih =>
      intro i s s' h hs
      have hi : i < n := by omega
      obtain ⟨v, h1, h2⟩ := ih (i + 1) (s.set i (some (~~~ x[i]))) (s'.set i (~~~ x[i])) (by omega) (by
          intro j hj hji
          simp only [Vector.getElem_set]
          split
          · rfl
          · exact hs j hj (by omega))
      refine ⟨v, ?_, ?_⟩
      · rw [forUpN]; simp only [rd_ok hi, wr_ok hi, ok_bind]; exact h1
      · rw [forUpN]; simp only [rd_ok hi, wr_ok hi, ok_bind]; exact h2
  obtain ⟨v, h1, h2⟩ := key n 0 (Raw.fresh n) (Aeu.zero n) (by omega) (by intro j _ h; omega)
  rw [show (forUp 0 n (Raw.fresh n) _) = _ from h1, show (forUp 0 n (Aeu.zero n) _) = _ from h2]
  exact Raw.load_store v

/-- C88, `divide(a, b, q, r)` into objects in any state, `Aeu q, r;` included: it returns, every block of
both is written, and they hold the quotient and the remainder of the other theorems about `divide`. -/
theorem C88_divide (cfg : Cfg) (hn : 0 < n) (a b : Aeu n) (q r : Raw n) :
    ∃ q' r', Raw.divide cfg a b q r = .ok (Raw.store q', Raw.store r') ∧ Aeu.divide cfg a b = .ok (q', r') := by
  obtain ⟨⟨q', r'⟩, h, -⟩ := divide_total cfg hn a b
  rcases Raw.divide_sim cfg a b q r with ⟨u, -, hu⟩ | ⟨⟨s, t⟩, ⟨q2, r2⟩, h1, h2, ⟨rfl, rfl⟩⟩
  · rw [h] at hu; cases hu
  · exact ⟨q2, r2, h1, h2⟩

/-- C88, `a / b` and `a % b`: the uninitialised locals are never read. -/
theorem C88_quotient_remainder (cfg : Cfg) (a b : Aeu n) :
    Raw.div cfg a b = Aeu.div cfg a b ∧ Raw.mod cfg a b = Aeu.mod cfg a b :=
  ⟨RelExec.then_load (Raw.divide_sim cfg a b _ _) fun _ _ h => h.1,
    RelExec.then_load (Raw.divide_sim cfg a b _ _) fun _ _ h => h.2⟩

/-- C88, `gcd(a, b)`. -/
theorem C88_gcd (cfg : Cfg) (a b : Aeu n) : Raw.gcd cfg a b = Aeu.gcd cfg a b := by
  refine RelExec.eq_of ?_
  have loop : ∀ (k : Nat) (g : Aeu n) (s : Raw n × Raw n) (t : Aeu n × Aeu n), Holds2 s t →
      RelExec (fun r r' => r = r') (whileC k (Raw.store g, s.1, s.2) fun (gcd, quotient, remainder) => do
        let r ← Raw.load remainder
        let z ← Aeu.eqNarrow r (0#32)
        if z then do
          let g ← Raw.load gcd
          .ok (.leave g)
        else do
          let tGcd ← Raw.load gcd
          let g ← Raw.load remainder
          let qr ← Raw.divide cfg tGcd g quotient remainder
          .ok (.next (Raw.store g, qr.1, qr.2)))
      (whileC k (g, t.2) fun (gcd, remainder) => do
        let z ← eqNarrow remainder (0#32)
        if z then .ok (.leave gcd) else do
          let tGcd := gcd
          let gcd := remainder
          let qr ← Aeu.divide cfg tGcd gcd
          .ok (.next (gcd, qr.2))) := by
    intro k g s t h
    refine whileC_relsim (fun (s : Raw n × Raw n × Raw n) (t : Aeu n × Aeu n) =>
      s.1 = Raw.store t.1 ∧ s.2.2 = Raw.store t.2) (fun r r' => r = r') ?_ _ _ _ ⟨rfl, h.2⟩
    rintro ⟨g, q, r⟩ ⟨g', r'⟩ ⟨h1, h2⟩
    dsimp only at h1 h2
    subst h1 h2
    simp only [Raw.load_store, ok_bind]
    refine RelExec.same rfl fun z => ?_
    cases z with
    | true => exact RelExec.ok rfl
    | false =>
      refine RelExec.bind (Raw.divide_sim cfg g' r' q _) ?_
      rintro ⟨q1, r1⟩ ⟨q2, r2⟩ h
      exact RelExec.ok ⟨rfl, h.2⟩
  unfold Raw.gcd Aeu.gcd gcdIn
  refine RelExec.same rfl fun ratio => ?_
  rcases Decidable.em (ratio = .greater) with hg | hg
  · simp only [hg, if_true]
    exact RelExec.bind (Raw.divide_sim cfg _ _ _ _) fun s t h => loop _ _ s t h
  · simp only [hg, if_false]
    exact RelExec.bind (Raw.divide_sim cfg _ _ _ _) fun s t h => loop _ _ s t h

/-- C88, `gcd(a, b, x, y)` into objects in any state: it returns the same as with initialised objects, and
every block of `x` and `y` is written. -/
theorem C88_gcd_extended (cfg : Cfg) (hn : 0 < n) (a b : Aeu n) (x y : Raw n) :
    ∃ g x' y', Raw.gcdExt cfg a b x y = .ok (g, Raw.store x', Raw.store y') ∧
      Aeu.gcdExt cfg a b = .ok (g, x', y') := by
  have hsim : RelExec (fun (s : Aeu n × Raw n × Raw n) (t : Aeu n × Aeu n × Aeu n) =>
      s.1 = t.1 ∧ s.2.1 = Raw.store t.2.1 ∧ s.2.2 = Raw.store t.2.2) (Raw.gcdExt cfg a b x y)
      (Aeu.gcdExt cfg a b) := by
    have loop : ∀ (k : Nat) (g x0 y0 tX tY : Aeu n) (s : Raw n × Raw n) (t : Aeu n × Aeu n), Holds2 s t →
        RelExec (fun (s : Raw n × Raw n × Raw n) (t : Aeu n × Aeu n × Aeu n) =>
          s.1 = Raw.store t.1 ∧ s.2.1 = Raw.store t.2.1 ∧ s.2.2 = Raw.store t.2.2)
        (whileC k (Raw.store g, s.1, s.2, Raw.store x0, Raw.store y0, tX, tY)
          fun (gcd, quotient, remainder, bezoutX, bezoutY, tX, tY) => do
            let r ← Raw.load remainder
            let z ← Aeu.eqNarrow r (0#32)
            if z then .ok (.leave (gcd, bezoutX, bezoutY)) else do
              let tGcd ← Raw.load gcd
              let g ← Raw.load remainder
              let q ← Raw.load quotient
              let t ← Raw.load bezoutX
              let p ← Aeu.mul q t
              let x ← Aeu.sub tX p
              let tX := t
              let t ← Raw.load bezoutY
              let p ← Aeu.mul q t
              let y ← Aeu.sub tY p
              let tY := t
              let qr ← Raw.divide cfg tGcd g quotient remainder
              .ok (.next (Raw.store g, qr.1, qr.2, Raw.store x, Raw.store y, tX, tY)))
        (whileC k (g, t.1, t.2, x0, y0, tX, tY)
          fun (gcd, quotient, remainder, bezoutX, bezoutY, tX, tY) => do
            let z ← eqNarrow remainder (0#32)
            if z then .ok (.leave (gcd, bezoutX, bezoutY)) else do
              let tGcd := gcd
              let gcd := remainder
              let t := bezoutX
              let p ← Aeu.mul quotient bezoutX
              let bezoutX ← Aeu.sub tX p
              let tX := t
              let t := bezoutY
              let p ← Aeu.mul quotient bezoutY
              let bezoutY ← Aeu.sub tY p
              let tY := t
              let qr ← Aeu.divide cfg tGcd gcd
              .ok (.next (gcd, qr.1, qr.2, bezoutX, bezoutY, tX, tY))) := by
      intro k g x0 y0 tX tY s t h
      refine whileC_relsim (fun (s : Raw n × Raw n × Raw n × Raw n × Raw n × Aeu n × Aeu n)
          (t : Aeu n × Aeu n × Aeu n × Aeu n × Aeu n × Aeu n × Aeu n) => s.1 = Raw.store t.1 ∧
          s.2.1 = Raw.store t.2.1 ∧ s.2.2.1 = Raw.store t.2.2.1 ∧ s.2.2.2.1 = Raw.store t.2.2.2.1 ∧
          s.2.2.2.2.1 = Raw.store t.2.2.2.2.1 ∧ s.2.2.2.2.2 = t.2.2.2.2.2) _ ?_ _ _ _
          ⟨rfl, h.1, h.2, rfl, rfl, rfl⟩
      rintro ⟨g, q, r, x, y, tX, tY⟩ ⟨g', q', r', x', y', tX', tY'⟩ ⟨h1, h2, h3, h4, h5, h⟩
      cases h
      dsimp only at h1 h2 h3 h4 h5
      subst h1 h2 h3 h4 h5
      simp only [Raw.load_store, ok_bind]
      refine RelExec.same rfl fun z => ?_
      cases z with
      | true => exact RelExec.ok ⟨rfl, rfl, rfl⟩
      | false =>
        refine RelExec.same rfl fun p => RelExec.same rfl fun x1 => RelExec.same rfl fun p' =>
          RelExec.same rfl fun y1 => ?_
        refine RelExec.bind (Raw.divide_sim cfg g' r' _ _) ?_
        rintro ⟨q1, r1⟩ ⟨q2, r2⟩ h
        exact RelExec.ok ⟨rfl, h.1, h.2, rfl, rfl, rfl⟩
    unfold Raw.gcdExt Aeu.gcdExt gcdExtIn
    refine RelExec.same rfl fun ratio => ?_
    rcases Decidable.em (ratio = .greater) with hg | hg
    · simp only [hg, if_true, ne_eq, not_true_eq_false, if_false]
      refine RelExec.bind (Raw.divide_sim cfg _ _ _ _) fun s t h => ?_
      refine RelExec.same rfl fun x0 => RelExec.same rfl fun y0 => RelExec.same rfl fun tX =>
        RelExec.same rfl fun tY => ?_
      refine RelExec.bind (loop _ _ _ _ _ _ s t h) ?_
      rintro ⟨g, x, y⟩ ⟨g', x', y'⟩ ⟨h1, h2, h3⟩
      dsimp only at h1 h2 h3
      subst h1 h2 h3
      simp only [Raw.load_store, ok_bind]
      exact RelExec.ok ⟨rfl, rfl, rfl⟩
    · simp only [hg, if_false, ne_eq, not_false_eq_true, if_true]
      refine RelExec.bind (Raw.divide_sim cfg _ _ _ _) fun s t h => ?_
      refine RelExec.same rfl fun x0 => RelExec.same rfl fun y0 => RelExec.same rfl fun tX =>
        RelExec.same rfl fun tY => ?_
      refine RelExec.bind (loop _ _ _ _ _ _ s t h) ?_
      rintro ⟨g, x, y⟩ ⟨g', x', y'⟩ ⟨h1, h2, h3⟩
      dsimp only at h1 h2 h3
      subst h1 h2 h3
      simp only [Raw.load_store, ok_bind]
      exact RelExec.ok ⟨rfl, rfl, rfl⟩
  obtain ⟨r, hr, -⟩ := C27_bezout cfg hn a b
  rcases hsim with ⟨u, -, hu⟩ | ⟨⟨g, s, t⟩, ⟨g', x', y'⟩, h1, h2, ⟨e1, e2, e3⟩⟩
  · rw [hr] at hu; cases hu
  · dsimp only at e1 e2 e3
    subst e1 e2 e3
    exact ⟨g, x', y', h1, h2⟩

/-- C88, `squareRoot()`: `x` is assigned before it is read. -/
theorem C88_square_root (cfg : Cfg) (a : Aeu n) : Raw.squareRoot cfg a = Aeu.squareRoot cfg a := by
  refine RelExec.eq_of ?_
  unfold Raw.squareRoot Aeu.squareRoot squareRootIn
  refine RelExec.same rfl fun bc => RelExec.same rfl fun y => ?_
  refine whileC_relsim (fun (s : Raw n × Aeu n) (t : Aeu n) => s.2 = t) (fun r r' => r = r') ?_ _ _ _ rfl
  rintro ⟨x, y⟩ _ rfl
  simp only [Raw.load_store, ok_bind, (C88_quotient_remainder cfg a _).1]
  refine RelExec.same rfl fun q => RelExec.same rfl fun s => RelExec.same rfl fun y1 => RelExec.same rfl fun l => ?_
  cases l with
  | true => exact RelExec.ok rfl
  | false => exact RelExec.ok rfl

/-- C88, signed `divide` into objects in any state: it returns; unless an operand is zero both outputs are
then completely written.  Missing: with a zero operand (next theorems). -/
theorem C88_divide_signed_partial (cfg : Cfg) (hn : 0 < n) (a b : Aesi n) (q r : RawS n)
    (ha : sgn a ≠ 0) (hb : sgn b ≠ 0) :
    ∃ q' r', RawS.divide cfg a b q r = .ok (RawS.store q', RawS.store r') ∧
      ∀ q0 r0, Aesi.divide cfg a b q0 r0 = .ok (q', r') := by
  have hs : ∀ x : Aesi n, sgn x ≠ 0 → x.sign ≠ .zero := by
    intro x h hh; exact h (by simp [sgn, hh])
  obtain ⟨q1, r1, h1, h2⟩ := C88_divide cfg hn a.base b.base q.base r.base
  unfold RawS.divide Aesi.divide
  have hne : ¬ (a.sign = .zero ∨ b.sign = .zero) := fun h => h.elim (hs a ha) (hs b hb)
  simp only [if_neg hne, h1, h2, ok_bind, Raw.load_store, Aesi.normalise, Aeu.isZero_spec]
  refine ⟨_, _, ?_, fun _ _ => rfl⟩
  congr 2
  · split <;> rfl
  · split <;> rfl

/-- C88 with a zero operand: the signs are written, the digits are left as they were, so an object declared
without initialiser stays uninitialised: `isZero()` answers, but copying it or asking `isOdd()` reads
indeterminate memory. -/
theorem C88_signed_zero_exact (cfg : Cfg) (hn : 0 < n) (a b : Aesi n) (h : sgn a = 0 ∨ sgn b = 0) (q r : RawS n) :
    ∃ q' r', RawS.divide cfg a b q r = .ok (q', r') ∧ q'.base = q.base ∧ r'.base = r.base ∧
      RawS.isZero q' = .ok true ∧ RawS.isZero r' = .ok true ∧
      (q = RawS.fresh n → RawS.load q' = .error .uninitialised ∧ RawS.isOdd q' = .error .uninitialised) := by
  have hs : ∀ x : Aesi n, sgn x = 0 → x.sign = .zero := by
    intro x; unfold sgn; cases x.sign <;> simp
  refine ⟨{ q with sign := some .zero }, { r with sign := some .zero }, ?_, rfl, rfl, rfl, rfl, ?_⟩
  · unfold RawS.divide; rw [if_pos (h.imp (hs a) (hs b))]
  rintro rfl
  have h0 : Raw.rdI (Raw.fresh n) 0 = .error .uninitialised := by
    simp [Raw.rdI, rd_ok hn, Raw.fresh]
  constructor
  · simp only [RawS.load, RawS.rdSign, ok_bind, RawS.fresh]
    obtain ⟨k, rfl⟩ : ∃ k, n = k + 1 := ⟨n - 1, by omega⟩
    rw [show Raw.load (Raw.fresh (k + 1)) = .error .uninitialised from ?_]
    · rfl
    · unfold Raw.load forUp
      rw [show k + 1 - 0 = k + 1 from rfl, forUpN, h0]
      rfl
  · unfold RawS.isOdd
    rw [show (({ RawS.fresh n with sign := some Sign.zero } : RawS n)).base = Raw.fresh n from rfl, h0]
    rfl

/-- Copying an object is defined exactly when its sign and every one of its blocks has been written, and
then gives what was written: a declared-only `Aesi` cannot be read, whichever part is missing. -/
theorem C88_declared (a : RawS n) :
    (∀ x, RawS.load a = .ok x ↔ a = RawS.store x) ∧
      ((∃ z, RawS.isZero a = .ok z) ↔ ∃ s, a.sign = some s) := by
  obtain ⟨s, b⟩ := a
  constructor
  · intro x
    constructor
    · intro h
      cases s with
      | none => simp only [RawS.load, RawS.rdSign] at h; cases h
      | some s =>
        simp only [RawS.load, RawS.rdSign, ok_bind] at h
        cases hb : Raw.load b with
        | error e => rw [hb] at h; cases h
        | ok v =>
          rw [hb, ok_bind] at h
          obtain ⟨w, hw⟩ := (Raw.load_iff b).1 ⟨v, hb⟩
          rw [hw, Raw.load_store] at hb
          cases h
          cases hb
          rw [hw]; rfl
    · intro h
      rw [h]
      simp only [RawS.load, RawS.rdSign, RawS.store, Raw.load_store, ok_bind]
  · cases s with
    | none => simp [RawS.isZero, RawS.rdSign, bind, Except.bind]
    | some s => simp [RawS.isZero, RawS.rdSign, bind, Except.bind]

example : RawS.load (⟨none, Raw.store (ofNat 2 5)⟩ : RawS 2) = .error .uninitialised := by decide +kernel

/-- The queries on an object that has been written answer as they do on the value written. -/
theorem C88_written (hn : 0 < n) (a : Aesi n) :
    RawS.isOdd (RawS.store a) = Aesi.isOdd a ∧ RawS.isZero (RawS.store a) = .ok (Aesi.isZero a) := by
  constructor
  · simp [RawS.isOdd, RawS.store, Raw.rdI, Aesi.isOdd, Aeu.isOdd, rd_ok hn, Raw.store_get]
  · simp [RawS.isZero, RawS.rdSign, RawS.store, Aesi.isZero]

example : RawS.isOdd (RawS.store (ofInt 2 (-17))) = .ok true := by decide +kernel
example : RawS.isOdd (RawS.store (ofInt 2 6)) = .ok false := by decide +kernel

/-- `Aesi<64> q, r; Aesi<64>::divide(0, 5, q, r); q.isOdd();` reads memory that was never written. -/
theorem C88_counterexample :
    (do let r ← RawS.divide lp64 (ofInt 2 0) (ofInt 2 5) (RawS.fresh 2) (RawS.fresh 2)
        RawS.isOdd r.1) = .error .uninitialised := by decide +kernel

example : ∃ q r, RawS.divide lp64 (ofInt 2 (-17)) (ofInt 2 5) (RawS.fresh 2) (RawS.fresh 2) =
    .ok (RawS.store q, RawS.store r) ∧ ∀ q0 r0, Aesi.divide lp64 (ofInt 2 (-17)) (ofInt 2 5) q0 r0 = .ok (q, r) :=
  C88_divide_signed_partial lp64 (by norm_num) _ _ _ _ (by decide) (by decide)

example : (do let r ← Raw.divide lp64 (ofNat 2 (2 ^ 40 + 17)) (ofNat 2 5) (Raw.fresh 2) (Raw.fresh 2)
              let q ← Raw.load r.1
              .ok (toNat q)) = .ok ((2 ^ 40 + 17) / 5) := by decide +kernel

end AesiMP
