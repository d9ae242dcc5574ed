import Verif.Model.Alias
import Verif.Lemmas.NumTheory
import Verif.Lemmas.Signed

/-! # The heap versions agree with the value versions -/

namespace AesiMP
open Aeu
variable {n : Nat} {σ τ ρ ρ' : Type}

/-! ## Loops -/

theorem forUpN_sim (e : σ → τ) {body : Nat → σ → Exec σ} {body' : Nat → τ → Exec τ}
    (h : ∀ i s, body' i (e s) = (do let s' ← body i s; .ok (e s'))) :
    ∀ k i s, forUpN body' k i (e s) = (do let s' ← forUpN body k i s; .ok (e s')) := by
  intro k
  induction k with
  | zero => intro i s; rfl
  | succ k ih =>
    intro i s
    simp only [forUpN, h]
    cases body i s with
    | error x => rfl
    | ok s' => exact ih (i + 1) s'

theorem forUp_sim (e : σ → τ) {body : Nat → σ → Exec σ} {body' : Nat → τ → Exec τ}
    (h : ∀ i s, body' i (e s) = (do let s' ← body i s; .ok (e s'))) (lo hi : Nat) (s : σ) :
    forUp lo hi (e s) body' = (do let s' ← forUp lo hi s body; .ok (e s')) :=
  forUpN_sim e h _ _ _

theorem forDownN_sim (e : σ → τ) {body : Nat → σ → Exec σ} {body' : Nat → τ → Exec τ} (lo : Nat)
    (h : ∀ i s, body' i (e s) = (do let s' ← body i s; .ok (e s'))) :
    ∀ k s, forDownN lo body' k (e s) = (do let s' ← forDownN lo body k s; .ok (e s')) := by
  intro k
  induction k with
  | zero => intro s; rfl
  | succ k ih =>
    intro s
    simp only [forDownN, h]
    cases body (lo + k) s with
    | error x => rfl
    | ok s' => exact ih s'

theorem forDown_sim (e : σ → τ) {body : Nat → σ → Exec σ} {body' : Nat → τ → Exec τ}
    (h : ∀ i s, body' i (e s) = (do let s' ← body i s; .ok (e s'))) (hi lo : Nat) (s : σ) :
    forDown hi lo (e s) body' = (do let s' ← forDown hi lo s body; .ok (e s')) :=
  forDownN_sim e lo h _ _

/-- Translation of what a loop body does. -/
def Ctl.map (e : σ → τ) (g : ρ → ρ') : Ctl σ ρ → Ctl τ ρ'
  | .next s => .next (e s)
  | .leave r => .leave (g r)

theorem whileC_sim (e : σ → τ) (g : ρ → ρ') {body : σ → Exec (Ctl σ ρ)} {body' : τ → Exec (Ctl τ ρ')}
    (h : ∀ s, body' (e s) = (do let c ← body s; .ok (c.map e g))) :
    ∀ fuel s, whileC fuel (e s) body' = (do let r ← whileC fuel s body; .ok (g r)) := by
  intro fuel
  induction fuel with
  | zero => intro s; rfl
  | succ k ih =>
    intro s
    simp only [whileC, h]
    cases body s with
    | error x => rfl
    | ok c =>
      cases c with
      | next s' => exact ih s'
      | leave r => rfl

theorem forUpN_congr (Inv : Nat → σ → Prop) {body body' : Nat → σ → Exec σ} (hi : Nat)
    (h : ∀ i s, i < hi → Inv i s → body i s = body' i s ∧ ∀ s', body' i s = .ok s' → Inv (i + 1) s') :
    ∀ k i s, i + k = hi → Inv i s → forUpN body k i s = forUpN body' k i s := by
  intro k
  induction k with
  | zero => intro i s _ _; rfl
  | succ k ih =>
    intro i s hk h0
    obtain ⟨h1, h2⟩ := h i s (by omega) h0
    simp only [forUpN, h1]
    cases hb : body' i s with
    | error x => rfl
    | ok s' => exact ih (i + 1) s' (by omega) (h2 s' hb)

theorem forUp_congr (Inv : Nat → σ → Prop) {body body' : Nat → σ → Exec σ} {lo hi : Nat} (hle : lo ≤ hi)
    {s : σ} (h0 : Inv lo s)
    (h : ∀ i s, i < hi → Inv i s → body i s = body' i s ∧ ∀ s', body' i s = .ok s' → Inv (i + 1) s') :
    forUp lo hi s body = forUp lo hi s body' :=
  forUpN_congr Inv hi h _ _ _ (by omega) h0

/-! ## Heaps -/

@[simp] theorem hput_same (h : Heap n) (p : Nat) (v : Aeu n) : h.put p v p = v := by simp [Heap.put]
theorem hput_ne (h : Heap n) {p q : Nat} (v : Aeu n) (hq : q ≠ p) : h.put p v q = h q := by
  simp [Heap.put, hq]
@[simp] theorem hput_put (h : Heap n) (p : Nat) (v w : Aeu n) : (h.put p v).put p w = h.put p w := by
  funext i; unfold Heap.put; split <;> rfl
@[simp] theorem hput_self (h : Heap n) (p : Nat) : h.put p (h p) = h := by
  funext i; unfold Heap.put; split
  · rename_i e; rw [e]
  · rfl
theorem hput_comm (h : Heap n) {p q : Nat} (v w : Aeu n) (hpq : p ≠ q) :
    (h.put p v).put q w = (h.put q w).put p v := by
  funext i; unfold Heap.put
  by_cases h1 : i = q
  · by_cases h2 : i = p
    · exact absurd (h2.symm.trans h1) hpq
    · simp [h1, Ne.symm hpq]
  · simp [h1]

namespace Alias

/-- The aliased and the plain loop read the same blocks. -/
theorem addLine_self (x : Aeu n) :
    (forUp 0 n (x, (0#64 : U64)) fun i (s : Aeu n × U64) => do
      let d ← rd s.1 i
      let e ← rd s.1 i
      let sum := toU64 d + toU64 e + s.2
      let dst ← wr s.1 i (toBlock (sum % blockBase))
      .ok (dst, sum / blockBase)) = Aeu.addLine x x := by
  refine forUp_congr (fun i s => ∀ j (hj : j < n), i ≤ j → s.1[j] = x[j]) (Nat.zero_le _)
    (fun j _ _ => rfl) fun i s hi hinv => ?_
  obtain ⟨l, c⟩ := s
  simp only at hinv
  simp only [rd_ok hi, hinv i hi (Nat.le_refl _), ok_bind, wr_ok hi, true_and]
  rintro s' h j hj hij
  simp only [Except.ok.injEq] at h
  subst h
  simp only
  rw [Vector.getElem_set_ne hi hj (by omega)]
  exact hinv j hj (by omega)

theorem addAssign_eq (h : Heap n) (a b : Nat) :
    addAssign h a b = (do let r ← Aeu.add (h a) (h b); .ok (h.put a r)) := by
  by_cases hab : b = a
  · subst hab
    have := forUp_sim (fun s : Aeu n × U64 => (h.put b s.1, s.2))
      (body := fun i (s : Aeu n × U64) => do
        let d ← rd s.1 i
        let e ← rd s.1 i
        let sum := toU64 d + toU64 e + s.2
        let dst ← wr s.1 i (toBlock (sum % blockBase))
        .ok (dst, sum / blockBase))
      (body' := fun i (s : Heap n × U64) => do
        let d ← rd (s.1 b) i
        let e ← rd (s.1 b) i
        let sum := toU64 d + toU64 e + s.2
        let line ← wr (s.1 b) i (toBlock (sum % blockBase))
        .ok (s.1.put b line, sum / blockBase))
      (fun i s => by
        simp only [hput_same, hput_put]
        cases rd s.1 i with
        | error e => rfl
        | ok d => simp only [ok_bind]; cases wr s.1 i _ <;> rfl) 0 n (h b, 0#64)
    rw [addLine_self] at this
    simp only [hput_self] at this
    have e : addLine h b b = _ := this
    simp only [addAssign, e, Aeu.add]
    cases Aeu.addLine (h b) (h b) <;> rfl
  · have := forUp_sim (fun s : Aeu n × U64 => (h.put a s.1, s.2))
      (body := fun i (s : Aeu n × U64) => do
        let d ← rd s.1 i
        let e ← rd (h b) i
        let sum := toU64 d + toU64 e + s.2
        let dst ← wr s.1 i (toBlock (sum % blockBase))
        .ok (dst, sum / blockBase))
      (body' := fun i (s : Heap n × U64) => do
        let d ← rd (s.1 a) i
        let e ← rd (s.1 b) i
        let sum := toU64 d + toU64 e + s.2
        let line ← wr (s.1 a) i (toBlock (sum % blockBase))
        .ok (s.1.put a line, sum / blockBase))
      (fun i s => by
        simp only [hput_same, hput_put, hput_ne _ _ hab]
        cases rd s.1 i with
        | error e => rfl
        | ok d =>
          simp only [ok_bind]
          cases rd (h b) i with
          | error e => rfl
          | ok d => simp only [ok_bind]; cases wr s.1 i _ <;> rfl) 0 n (h a, 0#64)
    simp only [hput_self] at this
    have e : addLine h a b = (do let s ← Aeu.addLine (h a) (h b); .ok (h.put a s.1, s.2)) := this
    simp only [addAssign, e, Aeu.add]
    cases Aeu.addLine (h a) (h b) <;> rfl

theorem subAssign_eq (h : Heap n) (a b : Nat) :
    subAssign h a b = (do let r ← Aeu.sub (h a) (h b); .ok (h.put a r)) := by
  simp only [subAssign, Aeu.sub, Aeu.add]
  cases Aeu.neg (h b) with
  | error e => rfl
  | ok m => simp only [ok_bind]; cases Aeu.addLine (h a) m <;> rfl

theorem mulAssign_eq (h : Heap n) (a b : Nat) :
    mulAssign h a b = (do let r ← Aeu.mul (h a) (h b); .ok (h.put a r)) := by
  simp only [mulAssign, Aeu.mul]
  cases filledBlocksNumber (h a) with
  | error e => rfl
  | ok k =>
    cases filledBlocksNumber (h b) with
    | error e => rfl
    | ok l => simp only [ok_bind]; split <;> rfl

theorem bitwise_self (f : Block → Block → Block) (x : Aeu n) :
    (forUp 0 n x fun i (s : Aeu n) => do
      let l ← rd s i
      let r ← rd s i
      wr s i (f l r)) = bitwiseLoop f x x := by
  refine forUp_congr (fun i (s : Aeu n) => ∀ j (hj : j < n), i ≤ j → s[j] = x[j]) (Nat.zero_le _)
    (fun j _ _ => rfl) fun i s hi hinv => ?_
  simp only [rd_ok hi, hinv i hi (Nat.le_refl _), ok_bind, wr_ok hi, true_and]
  rintro s' h j hj hij
  simp only [Except.ok.injEq] at h
  subst h
  rw [Vector.getElem_set_ne hi hj (by omega)]
  exact hinv j hj (by omega)

theorem bitwiseAssign_eq (f : Block → Block → Block) (h : Heap n) (a b : Nat) :
    bitwiseAssign f h a b = (do let r ← bitwiseLoop f (h a) (h b); .ok (h.put a r)) := by
  by_cases hab : b = a
  · subst hab
    have := forUp_sim (fun s : Aeu n => h.put b s)
      (body := fun i (s : Aeu n) => do
        let l ← rd s i
        let r ← rd s i
        wr s i (f l r))
      (body' := fun i (s : Heap n) => do
        let l ← rd (s b) i
        let r ← rd (s b) i
        let line ← wr (s b) i (f l r)
        .ok (s.put b line))
      (fun i s => by
        simp only [hput_same, hput_put]
        cases rd s i with
        | error e => rfl
        | ok d => simp only [ok_bind]) 0 n (h b)
    rw [bitwise_self] at this
    simp only [hput_self] at this
    exact this
  · have := forUp_sim (fun s : Aeu n => h.put a s)
      (body := fun i (s : Aeu n) => do
        let l ← rd s i
        let r ← rd (h b) i
        wr s i (f l r))
      (body' := fun i (s : Heap n) => do
        let l ← rd (s a) i
        let r ← rd (s b) i
        let line ← wr (s a) i (f l r)
        .ok (s.put a line))
      (fun i s => by
        simp only [hput_same, hput_put, hput_ne _ _ hab]
        cases rd s i with
        | error e => rfl
        | ok d =>
          simp only [ok_bind]
          cases rd (h b) i with
          | error e => rfl
          | ok d => simp only [ok_bind]) 0 n (h a)
    simp only [hput_self] at this
    exact this

theorem swap_eq (h : Heap n) (a b : Nat) :
    swap h a b = (h.put b (h a)).put a (h b) := rfl

/-- No argument is shared: the heap version is the value version. -/
theorem divide_eq (cfg : Cfg) (h : Heap n) (N D Q R : Nat) (hNQ : N ≠ Q) (hNR : N ≠ R) (hDQ : D ≠ Q)
    (hDR : D ≠ R) (hQR : Q ≠ R) :
    divide cfg h N D Q R =
      (do let r ← Aeu.divide cfg (h N) (h D); .ok ((h.put Q r.1).put R r.2)) := by
  simp only [divide, Aeu.divide]
  cases compareTo cfg (h N) (h D) with
  | error e => rfl
  | ok c =>
    have hz : ((h.put Q (zero n)).put R (zero n)) N = h N := by
      rw [hput_ne _ _ hNR, hput_ne _ _ hNQ]
    cases c
    case greater =>
      simp only [ok_bind, hz]
      cases filledBlocksNumber (h N) with
      | error e => rfl
      | ok k =>
        simp only [ok_bind]
        refine forDown_sim (σ := Aeu n × Aeu n) (fun s => (h.put Q s.1).put R s.2) (fun i s => ?_)
          (k * 32) 0 (zero n, zero n)
        obtain ⟨q, r⟩ := s
        simp only [hput_same, hput_put]
        cases shl r 1 with
        | error e => rfl
        | ok r1 =>
          simp only [ok_bind, hput_same, hput_put]
          rw [hput_ne _ _ hNR, hput_ne _ _ hNQ]
          cases getBit cfg (h N) i with
          | error e => rfl
          | ok b =>
            simp only [ok_bind, hput_same, hput_put]
            cases setBit cfg r1 0 b with
            | error e => rfl
            | ok r2 =>
              simp only [ok_bind, hput_same, hput_put]
              rw [hput_ne _ _ hDR, hput_ne _ _ hDQ]
              cases ge cfg r2 (h D) with
              | error e => rfl
              | ok g =>
                cases g
                · rfl
                · simp only [ok_bind, if_true, subAssign_eq, hput_same, hput_put]
                  rw [hput_ne _ _ hDR, hput_ne _ _ hDQ]
                  cases Aeu.sub r2 (h D) with
                  | error e => rfl
                  | ok r3 =>
                    simp only [ok_bind, hput_ne _ _ hQR, hput_same]
                    cases setBit cfg q i true with
                    | error e => rfl
                    | ok q1 =>
                      simp only [ok_bind]
                      rw [hput_comm _ _ _ hQR, hput_comm _ _ _ hQR, hput_put]
    case less => simp only [ok_bind, hz, hput_put]
    case equal =>
      simp only [ok_bind]
      cases ofUnsigned n (1#32) with
      | error e => rfl
      | ok one => simp only [ok_bind]; rw [hput_comm _ _ _ hQR, hput_comm _ _ _ hQR, hput_put]
    case equivalent =>
      simp only [ok_bind]
      cases ofUnsigned n (1#32) with
      | error e => rfl
      | ok one => simp only [ok_bind]; rw [hput_comm _ _ _ hQR, hput_comm _ _ _ hQR, hput_put]

/-- One turn of the loop of `gcdExt`. -/
theorem gcdLoop_eq (cfg : Cfg) (h : Heap n) (X Y : Nat) (hXY : X ≠ Y) (fuel : Nat)
    (g q r x y tX tY : Aeu n) :
    (whileC fuel (g, q, r, (h.put X x).put Y y, tX, tY)
      fun (s : Aeu n × Aeu n × Aeu n × Heap n × Aeu n × Aeu n) => do
        let z ← eqNarrow s.2.2.1 (0#32)
        if z then .ok (.leave (s.1, s.2.2.2.1)) else do
          let p ← Aeu.mul s.2.1 (s.2.2.2.1 X)
          let d ← Aeu.sub s.2.2.2.2.1 p
          let p ← Aeu.mul s.2.1 (s.2.2.2.1.put X d Y)
          let d' ← Aeu.sub s.2.2.2.2.2 p
          let qr ← Aeu.divide cfg s.1 s.2.2.1
          .ok (.next (s.2.2.1, qr.1, qr.2, (s.2.2.2.1.put X d).put Y d', s.2.2.2.1 X,
            s.2.2.2.1.put X d Y))) =
    (do
      let r ← whileC fuel (g, q, r, x, y, tX, tY)
        fun (s : Aeu n × Aeu n × Aeu n × Aeu n × Aeu n × Aeu n × Aeu n) => do
          let z ← eqNarrow s.2.2.1 (0#32)
          if z then .ok (.leave (s.1, s.2.2.2.1, s.2.2.2.2.1)) else do
            let p ← mul s.2.1 s.2.2.2.1
            let bezoutX ← sub s.2.2.2.2.2.1 p
            let p ← mul s.2.1 s.2.2.2.2.1
            let bezoutY ← sub s.2.2.2.2.2.2 p
            let qr ← Aeu.divide cfg s.1 s.2.2.1
            .ok (.next (s.2.2.1, qr.1, qr.2, bezoutX, bezoutY, s.2.2.2.1, s.2.2.2.2.1))
      .ok (r.1, (h.put X r.2.1).put Y r.2.2)) := by
  refine whileC_sim (σ := Aeu n × Aeu n × Aeu n × Aeu n × Aeu n × Aeu n × Aeu n)
    (fun s => (s.1, s.2.1, s.2.2.1, (h.put X s.2.2.2.1).put Y s.2.2.2.2.1, s.2.2.2.2.2.1,
      s.2.2.2.2.2.2))
    (fun r : Aeu n × Aeu n × Aeu n => (r.1, (h.put X r.2.1).put Y r.2.2)) ?_ fuel
    (g, q, r, x, y, tX, tY)
  rintro ⟨g, q, r, x, y, tX, tY⟩
  simp only [hput_same, hput_ne _ _ hXY]
  cases eqNarrow r (0#32) with
  | error e => rfl
  | ok b =>
    cases b
    · simp only [ok_bind, Bool.false_eq_true, if_false]
      cases mul q x with
      | error e => rfl
      | ok p =>
        simp only [ok_bind]
        cases sub tX p with
        | error e => rfl
        | ok d =>
          simp only [ok_bind]
          rw [hput_ne _ _ hXY.symm, hput_same]
          cases mul q y with
          | error e => rfl
          | ok p' =>
            simp only [ok_bind]
            cases sub tY p' with
            | error e => rfl
            | ok d' =>
              simp only [ok_bind]
              cases Aeu.divide cfg g r with
              | error e => rfl
              | ok qr' =>
                simp only [ok_bind, Ctl.map]
                rw [hput_comm _ _ _ hXY.symm, hput_put, hput_put]
    · rfl

/-- The two outputs are different objects: the inputs may be anything, since they are not read after
the first write to an output. -/
theorem gcdExt_eq (cfg : Cfg) (h : Heap n) (a b X Y : Nat) (hXY : X ≠ Y) :
    gcdExt cfg h a b X Y =
      (do let r ← Aeu.gcdExt cfg (h a) (h b); .ok (r.1, (h.put X r.2.1).put Y r.2.2)) := by
  simp only [gcdExt, Aeu.gcdExt, Aeu.gcdExtIn]
  cases compareTo cfg (h a) (h b) with
  | error e => rfl
  | ok c =>
    cases c <;> simp only [ok_bind, reduceCtorEq, if_false, if_true]
    case greater =>
      cases Aeu.divide cfg (h a) (h b) with
      | error e => rfl
      | ok qr =>
        simp only [ok_bind]
        cases ofUnsigned n (0#32) with
        | error e => rfl
        | ok z =>
          simp only [ok_bind]
          cases ofUnsigned n (1#32) with
          | error e => rfl
          | ok o =>
            simp only [ok_bind]
            rw [gcdLoop_eq cfg h X Y hXY]
            generalize whileC _ _ _ = w
            cases w <;> rfl
    all_goals
      cases Aeu.divide cfg (h b) (h a) with
      | error e => rfl
      | ok qr =>
        simp only [ok_bind]
        cases ofUnsigned n (0#32) with
        | error e => rfl
        | ok z =>
          simp only [ok_bind]
          cases ofUnsigned n (1#32) with
          | error e => rfl
          | ok o =>
            simp only [ok_bind]
            rw [gcdLoop_eq cfg h X Y hXY]
            generalize whileC _ _ _ = w
            cases w with
            | error e => rfl
            | ok r =>
              obtain ⟨g, x, y⟩ := r
              simp only [ok_bind, swap_eq, Aeu.swap, hput_same, hput_ne _ _ hXY, hput_put]
              rw [if_pos (by decide), if_pos (by decide), hput_comm _ _ _ hXY]
              simp only [hput_put, ok_bind]
              rw [hput_comm _ _ _ hXY.symm]

/-! ### `divide` with shared arguments -/

theorem divide_equal (cfg : Cfg) (hn : 0 < n) (h : Heap n) (N D Q R : Nat) (hQR : Q ≠ R)
    (he : toNat (h N) = toNat (h D)) : Sat (divide cfg h N D Q R) fun h' =>
      toNat (h' Q) = 1 ∧ toNat (h' R) = 0 ∧ ∀ p, p ≠ Q → p ≠ R → h' p = h p := by
  simp only [divide, compareTo_spec, ok_bind, cmpNat, he, lt_irrefl, if_false, if_true]
  obtain ⟨one, h1, e1⟩ := ofUnsigned32_one hn
  simp only [h1, ok_bind, sat_ok]
  refine ⟨by rw [hput_same, e1], ?_, fun p hQ hR => ?_⟩
  · rw [hput_ne _ _ hQR.symm, hput_same, toNat_zero]
  · rw [hput_ne _ _ hQ, hput_ne _ _ hR, hput_ne _ _ hQ]

theorem divide_less (cfg : Cfg) (h : Heap n) (N D Q R : Nat) (hNQ : N ≠ Q) (hNR : N ≠ R)
    (hQR : Q ≠ R) (hlt : toNat (h N) < toNat (h D)) : Sat (divide cfg h N D Q R) fun h' =>
      toNat (h' Q) = 0 ∧ toNat (h' R) = toNat (h N) ∧ ∀ p, p ≠ Q → p ≠ R → h' p = h p := by
  simp only [divide, compareTo_spec, ok_bind, cmpNat, hlt, if_true, sat_ok, hput_put]
  refine ⟨?_, ?_, fun p hQ hR => ?_⟩
  · rw [hput_ne _ _ hQR, hput_same, toNat_zero]
  · rw [hput_same, hput_ne _ _ hNR, hput_ne _ _ hNQ]
  · rw [hput_ne _ _ hR, hput_ne _ _ hQ]

theorem divide_number_shared (cfg : Cfg) (h : Heap n) (N D Q R : Nat) (hN : N = Q ∨ N = R)
    (hQR : Q ≠ R) (hne : toNat (h N) ≠ toNat (h D)) : Sat (divide cfg h N D Q R) fun h' =>
      toNat (h' Q) = 0 ∧ toNat (h' R) = 0 ∧ ∀ p, p ≠ Q → p ≠ R → h' p = h p := by
  have hz : ((h.put Q (zero n)).put R (zero n)) N = zero n := by
    rcases hN with rfl | rfl
    · rw [hput_ne _ _ hQR, hput_same]
    · rw [hput_same]
  have key : ∀ p, p ≠ Q → p ≠ R → ((h.put Q (zero n)).put R (zero n)) p = h p := fun p hQ hR => by
    rw [hput_ne _ _ hR, hput_ne _ _ hQ]
  simp only [divide, compareTo_spec, ok_bind, cmpNat, hne, if_false, hz]
  split
  · rename_i heq
    obtain ⟨k, hk, hk1, hk2, hk3⟩ := filledBlocksNumber_nat (zero n)
    have hk0 : k = 0 := by
      by_contra hk0
      have := hk3 (by omega)
      rw [toNat_zero] at this
      have := Nat.two_pow_pos (32 * (k - 1))
      omega
    simp only [hk, ok_bind, hk0, forDown, Nat.sub_zero, forDownN, sat_ok]
    exact ⟨by rw [hput_ne _ _ hQR, hput_same, toNat_zero], by rw [hput_same, toNat_zero], key⟩
  · simp only [sat_ok, hput_put]
    exact ⟨by rw [hput_ne _ _ hQR, hput_same, toNat_zero], by rw [hput_same, toNat_zero], key⟩
  · rename_i h1 h2
    exfalso
    by_cases hl : toNat (h N) < toNat (h D)
    · rw [if_pos hl] at h2; exact h2 rfl
    · rw [if_neg hl] at h1; exact h1 rfl

/-- The divisor is the remainder object. -/
theorem divide_divisor_is_remainder (cfg : Cfg) (hn : 0 < n) (h : Heap n) (N Q R : Nat) (hNQ : N ≠ Q)
    (hNR : N ≠ R) (hQR : Q ≠ R) (hgt : toNat (h R) < toNat (h N)) :
    Sat (divide cfg h N R Q R) fun h' => toNat (h' R) = 0 ∧
      (∃ k, filledBlocksNumber (h N) = .ok k ∧ toNat (h' Q) = 2 ^ (32 * k) - 1) ∧
      ∀ p, p ≠ Q → p ≠ R → h' p = h p := by
  have h1 : ¬ toNat (h N) < toNat (h R) := by omega
  have h2 : ¬ toNat (h N) = toNat (h R) := by omega
  have hz : ((h.put Q (zero n)).put R (zero n)) N = h N := by rw [hput_ne _ _ hNR, hput_ne _ _ hNQ]
  simp only [divide, compareTo_spec, ok_bind, cmpNat, h1, h2, if_false, hz]
  obtain ⟨k, hk, hk1, hk2, _⟩ := filledBlocksNumber_nat (h N)
  simp only [hk, ok_bind]
  refine Sat.forDown (fun i (H : Heap n) => toNat (H Q) + 2 ^ i = 2 ^ (k * 32) ∧ 2 ^ i ∣ toNat (H Q) ∧
    toNat (H R) = 0 ∧ ∀ p, p ≠ Q → p ≠ R → H p = h p) (Nat.zero_le _) ?_ ?_ ?_
  · refine ⟨?_, ?_, by rw [hput_same, toNat_zero], fun p hQ hR => by rw [hput_ne _ _ hR, hput_ne _ _ hQ]⟩
    · rw [hput_ne _ _ hQR, hput_same, toNat_zero, Nat.zero_add]
    · rw [hput_ne _ _ hQR, hput_same, toNat_zero]; exact Nat.dvd_zero _
  · rintro i H _ hi ⟨hq, hd, hr, hp⟩
    have hin : i < 32 * n := by omega
    obtain ⟨r1, hr1, e1⟩ := shl_spec (x := H R) (show 1 < 32 * n by omega)
    rw [hr, Nat.zero_mul, Nat.zero_mod] at e1
    simp only [hr1, ok_bind, hput_same, hput_put]
    rw [hput_ne _ _ hNR, hp N hNQ hNR]
    simp only [getBit_spec cfg (h N) hin, ok_bind]
    obtain ⟨r2, hr2, _⟩ := setBit_of_dvd cfg r1 (show 0 < 32 * n by omega) ((toNat (h N)).testBit i)
      (by rw [e1]; exact Nat.dvd_zero _)
    simp only [hr2, ok_bind, hput_same, hput_put, ge_spec, le_refl, decide_true, if_true, subAssign_eq]
    obtain ⟨r3, hr3, e3⟩ := sub_spec_le (x := r2) (y := r2) le_rfl
    simp only [hr3, ok_bind]
    rw [hput_ne _ _ hQR]
    obtain ⟨q1, hq1, e4⟩ := setBit_of_dvd cfg (H Q) hin true hd
    simp only [hq1, ok_bind, sat_ok]
    rw [Bool.toNat_true, Nat.one_mul] at e4
    refine ⟨?_, ?_, ?_, fun p hQ hR => ?_⟩
    · rw [hput_same, e4]; rw [Nat.pow_succ] at hq; omega
    · rw [hput_same, e4]
      exact Nat.dvd_add (Nat.dvd_trans (Nat.pow_dvd_pow 2 (by omega)) hd) (Nat.dvd_refl _)
    · rw [hput_ne _ _ hQR.symm, hput_same, e3, Nat.sub_self]
    · rw [hput_ne _ _ hQ, hput_ne _ _ hR, hp p hQ hR]
  · rintro H ⟨hq, _, hr, hp⟩
    exact ⟨hr, ⟨k, rfl, by rw [Nat.mul_comm 32 k]; omega⟩, hp⟩

/-- The divisor is the quotient object. -/
theorem divide_divisor_is_quotient (cfg : Cfg) (hn : 0 < n) (h : Heap n) (N Q R : Nat) (hNQ : N ≠ Q)
    (hNR : N ≠ R) (hQR : Q ≠ R) (hgt : toNat (h Q) < toNat (h N)) :
    Sat (divide cfg h N Q Q R) fun h' =>
      (∃ k, 0 < k ∧ filledBlocksNumber (h N) = .ok k ∧
        toNat (h' Q) = 2 ^ (32 * k - 1) + (if 2 ^ (32 * k - 1) ≤ toNat (h N) then 1 else 0) ∧
        toNat (h' R) = toNat (h N) % 2 ^ (32 * k - 1)) ∧
      ∀ p, p ≠ Q → p ≠ R → h' p = h p := by
  have h1 : ¬ toNat (h N) < toNat (h Q) := by omega
  have h2 : ¬ toNat (h N) = toNat (h Q) := by omega
  have hz : ((h.put Q (zero n)).put R (zero n)) N = h N := by rw [hput_ne _ _ hNR, hput_ne _ _ hNQ]
  simp only [divide, compareTo_spec, ok_bind, cmpNat, h1, h2, if_false, hz]
  obtain ⟨k, hk, hk1, hk2, _⟩ := filledBlocksNumber_nat (h N)
  have hk0 : 0 < k := by
    by_contra h0
    have : k = 0 := by omega
    subst this
    simp at hk2; omega
  simp only [hk, ok_bind]
  obtain ⟨B, hB⟩ : ∃ B, k * 32 = B + 1 := ⟨k * 32 - 1, by omega⟩
  rw [Nat.mul_comm] at hk2
  rw [hB] at hk2 ⊢
  set V := toNat (h N) with hV
  have hstep : ∀ i, i < B + 1 → V / 2 ^ i < 2 ^ (B + 1 - i) := fun i hi => by
    rw [Nat.div_lt_iff_lt_mul (Nat.two_pow_pos _), ← Nat.pow_add]
    rwa [show B + 1 - i + i = B + 1 by omega]
  have hVn : V < 2 ^ (32 * n) := toNat_lt _
  refine Sat.forDown (fun i (H : Heap n) => (∀ p, p ≠ Q → p ≠ R → H p = h p) ∧
    (i = B + 1 → toNat (H Q) = 0 ∧ toNat (H R) = 0) ∧
    (0 < i → i ≤ B → toNat (H Q) = 2 ^ B ∧ toNat (H R) = V / 2 ^ i) ∧
    (i = 0 → toNat (H Q) = 2 ^ B + (if 2 ^ B ≤ V then 1 else 0) ∧ toNat (H R) = V % 2 ^ B))
    (Nat.zero_le _) ?_ ?_ ?_
  · refine ⟨fun p hQ hR => by rw [hput_ne _ _ hR, hput_ne _ _ hQ], fun _ => ?_, fun _ h => by omega,
      fun h => by omega⟩
    rw [hput_ne _ _ hQR, hput_same, hput_same, toNat_zero]; exact ⟨rfl, rfl⟩
  · rintro i H _ hi ⟨hp, hA, hC, _⟩
    have hin : i < 32 * n := by omega
    have hprev : toNat (H R) = V / 2 ^ (i + 1) := by
      by_cases hi' : i = B
      · rw [(hA (by omega)).2, hi']; exact (Nat.div_eq_of_lt hk2).symm
      · exact (hC (by omega) (by omega)).2
    have hdiv := div_two_pow_step V i
    have hle : V / 2 ^ i ≤ V := Nat.div_le_self _ _
    have hr2 : toNat (H R) * 2 < 2 ^ (32 * n) := by omega
    obtain ⟨r1, hr1, e1⟩ := shl_spec (x := H R) (show 1 < 32 * n by omega)
    rw [Nat.pow_one, Nat.mod_eq_of_lt hr2] at e1
    simp only [hr1, ok_bind, hput_same, hput_put]
    rw [hput_ne _ _ hNR, hp N hNQ hNR]
    simp only [getBit_spec cfg (h N) hin, ok_bind]
    obtain ⟨r2, hr2', e2⟩ := setBit_of_dvd cfg r1 (show 0 < 32 * n by omega) ((toNat (h N)).testBit i)
      (by rw [e1]; exact ⟨toNat (H R), by ring⟩)
    rw [e1, hprev, Nat.pow_zero, Nat.mul_one, ← hV, Nat.mul_comm, ← hdiv] at e2
    simp only [hr2', ok_bind, hput_same, hput_put, ge_spec, hput_ne _ _ hQR]
    have hpow : i ≤ B → 2 ^ (B + 1 - i) ≤ 2 ^ (B + 1) := fun _ =>
      Nat.pow_le_pow_right (by norm_num) (by omega)
    by_cases hiB : i = B
    · -- first turn: the divisor is zero
      have hq0 := (hA (by omega)).1
      rw [hq0]
      simp only [Nat.zero_le, decide_true, if_true, subAssign_eq, hput_same, hput_put]
      rw [hput_ne _ _ hQR]
      obtain ⟨r3, hr3, e3⟩ := sub_spec_le (x := r2) (y := H Q) (by omega)
      simp only [hr3, ok_bind]
      rw [hput_ne _ _ hQR]
      obtain ⟨q1, hq1, e4⟩ := setBit_of_dvd cfg (H Q) hin true (by rw [hq0]; exact Nat.dvd_zero _)
      simp only [hq1, ok_bind, sat_ok]
      rw [Bool.toNat_true, Nat.one_mul, hq0, Nat.zero_add] at e4
      refine ⟨fun p hQ hR => ?_, fun h => by omega, fun _ _ => ?_, fun h => by omega⟩
      · rw [hput_ne _ _ hQ, hput_ne _ _ hR, hp p hQ hR]
      · rw [hput_same, hput_ne _ _ hQR.symm, hput_same, e4, e3, hq0, e2, hiB]; exact ⟨rfl, rfl⟩
    · have hq := (hC (by omega) (by omega)).1
      by_cases hi0 : i = 0
      · subst hi0
        rw [Nat.pow_zero, Nat.div_one] at e2
        rw [hq, e2]
        by_cases hb : 2 ^ B ≤ V
        · simp only [hb, decide_true, if_true, subAssign_eq, hput_same, hput_put]
          rw [hput_ne _ _ hQR]
          obtain ⟨r3, hr3, e3⟩ := sub_spec_le (x := r2) (y := H Q) (by omega)
          simp only [hr3, ok_bind]
          rw [hput_ne _ _ hQR]
          obtain ⟨q1, hq1, e4⟩ := setBit_of_dvd cfg (H Q) hin true
            (by rw [hq]; exact Nat.pow_dvd_pow 2 (by omega))
          simp only [hq1, ok_bind, sat_ok]
          rw [Bool.toNat_true, Nat.one_mul, hq, Nat.pow_zero] at e4
          refine ⟨fun p hQ hR => ?_, fun h => by omega, fun h _ => by omega, fun _ => ?_⟩
          · rw [hput_ne _ _ hQ, hput_ne _ _ hR, hp p hQ hR]
          · rw [hput_same, hput_ne _ _ hQR.symm, hput_same, e4, e3, hq, e2]
            refine ⟨rfl, ?_⟩
            rw [Nat.pow_succ] at hk2
            rw [Nat.mod_eq_sub_mod hb, Nat.mod_eq_of_lt (by omega)]
        · simp only [hb, decide_false, Bool.false_eq_true, if_false, sat_ok]
          refine ⟨fun p hQ hR => ?_, fun h => by omega, fun h _ => by omega, fun _ => ?_⟩
          · rw [hput_ne _ _ hR, hp p hQ hR]
          · rw [hput_ne _ _ hQR, hput_same, hq, e2, Nat.add_zero, Nat.mod_eq_of_lt (by omega)]
            exact ⟨rfl, rfl⟩
      · have hlt : V / 2 ^ i < 2 ^ B := Nat.lt_of_lt_of_le (hstep i hi)
          (Nat.pow_le_pow_right (by norm_num) (by omega))
        rw [hq, e2]
        simp only [show ¬ 2 ^ B ≤ V / 2 ^ i by omega, decide_false, Bool.false_eq_true, if_false, sat_ok]
        refine ⟨fun p hQ hR => ?_, fun h => by omega, fun _ _ => ?_, fun h => by omega⟩
        · rw [hput_ne _ _ hR, hp p hQ hR]
        · rw [hput_ne _ _ hQR, hput_same]; exact ⟨hq, e2⟩
  · rintro H ⟨hp, _, _, h0⟩
    have hBk : 32 * k - 1 = B := by omega
    exact ⟨⟨k, hk0, rfl, by rw [hBk]; exact (h0 rfl).1, by rw [hBk]; exact (h0 rfl).2⟩, hp⟩

end Alias

/-! ## Signed -/

namespace SAlias
open SHeap

theorem sheap_ext {h k : SHeap n} (hs : ∀ p, h.sign p = k.sign p) (hb : ∀ p, h.base p = k.base p) :
    h = k := by
  obtain ⟨s, b⟩ := h
  obtain ⟨s', b'⟩ := k
  simp only at hs hb
  congr
  · exact funext hs
  · exact funext hb

@[simp] theorem obj_sign (h : SHeap n) (p : Nat) : (h.obj p).sign = h.sign p := id rfl
@[simp] theorem obj_base (h : SHeap n) (p : Nat) : (h.obj p).base = h.base p := id rfl

theorem put_obj (h : SHeap n) (p q : Nat) (v : Aesi n) :
    (h.put p v).obj q = if q = p then v else h.obj q := by
  simp only [SHeap.put, obj, setSign, setBase, Heap.put]; split <;> rfl

theorem put_sign (h : SHeap n) (p q : Nat) (v : Aesi n) :
    (h.put p v).sign q = if q = p then v.sign else h.sign q := rfl
theorem put_base (h : SHeap n) (p q : Nat) (v : Aesi n) :
    (h.put p v).base q = if q = p then v.base else h.base q := rfl

theorem put_obj_self (h : SHeap n) (p : Nat) : h.put p (h.obj p) = h := by
  refine sheap_ext (fun q => ?_) (fun q => ?_)
  · rw [put_sign]; split
    · rename_i e; rw [e]; rfl
    · rfl
  · rw [put_base]; split
    · rename_i e; rw [e]; rfl
    · rfl

theorem setSign_eq (h : SHeap n) (p : Nat) (s : Sign) : h.setSign p s = h.put p { h.obj p with sign := s } := by
  refine sheap_ext (fun q => rfl) (fun q => ?_)
  rw [put_base]; split
  · rename_i e; rw [e]; rfl
  · rfl

theorem withBase_eq (h : SHeap n) (p : Nat) (v : Aeu n) :
    ({ h with base := h.base.put p v } : SHeap n) = h.put p { h.obj p with base := v } := by
  refine sheap_ext (fun q => ?_) (fun q => rfl)
  rw [put_sign]; split
  · rename_i e; rw [e]; rfl
  · rfl

theorem hput_put' (h : SHeap n) (p : Nat) (v w : Aesi n) : (h.put p v).put p w = h.put p w := by
  refine sheap_ext (fun q => ?_) (fun q => ?_)
  · simp only [put_sign]; split <;> rfl
  · simp only [put_base]; split <;> rfl

theorem inverse_eq (h : SHeap n) (p : Nat) : inverse h p = h.put p (Aesi.inverse (h.obj p)) := by
  rw [inverse, setSign_eq]; rfl

theorem normalise_eq (h : SHeap n) (p : Nat) :
    normalise h p = (do let r ← Aesi.normalise (h.obj p); .ok (h.put p r)) := by
  simp only [normalise, Aesi.normalise, obj_base]
  cases Aeu.isZero (h.base p) with
  | error e => rfl
  | ok z =>
    cases z
    · simp only [ok_bind, Bool.false_eq_true, if_false, put_obj_self]
    · simp only [ok_bind, if_true, setSign_eq, obj_base]

theorem subMagnitude_eq (cfg : Cfg) (h : SHeap n) (l r : Nat) (o : Sign) :
    subMagnitude cfg h l r o =
      (do let x ← Aesi.subMagnitude cfg (h.obj l) (h.base r) o; .ok (h.put l x)) := by
  simp only [subMagnitude, Aesi.subMagnitude, obj_base, Alias.subAssign_eq]
  cases Aeu.compareTo cfg (h.base l) (h.base r) with
  | error e => rfl
  | ok c =>
    cases c
    case greater =>
      simp only [ok_bind]
      cases Aeu.sub (h.base l) (h.base r) with
      | error e => rfl
      | ok b => simp only [ok_bind, withBase_eq]
    case less =>
      simp only [ok_bind]
      cases Aeu.sub (h.base r) (h.base l) with
      | error e => rfl
      | ok b => rfl
    all_goals simp only [ok_bind, setSign_eq, obj_base]

theorem addAssign_eq (cfg : Cfg) (h : SHeap n) (l r : Nat) :
    addAssign cfg h l r = (do let x ← Aesi.add cfg (h.obj l) (h.obj r); .ok (h.put l x)) := by
  simp only [addAssign, Aesi.add, obj_sign, obj_base, subMagnitude_eq, Alias.addAssign_eq]
  split
  · simp only [ok_bind, put_obj_self]
  split
  · rfl
  split
  · cases Aeu.add (h.base l) (h.base r) with
    | error e => rfl
    | ok b => simp only [ok_bind, withBase_eq, obj_sign]
  split <;> rfl

theorem subAssign_eq (cfg : Cfg) (h : SHeap n) (l r : Nat) :
    subAssign cfg h l r = (do let x ← Aesi.sub cfg (h.obj l) (h.obj r); .ok (h.put l x)) := by
  have hadd : (do let base ← Alias.addAssign h.base l r; .ok { h with base := base } : Exec (SHeap n)) =
      (do
        let x ← (do let base ← Aeu.add (h.base l) (h.base r); .ok ({ h.obj l with base := base } : Aesi n))
        .ok (h.put l x)) := by
    rw [Alias.addAssign_eq]
    cases Aeu.add (h.base l) (h.base r) with
    | error e => rfl
    | ok b => simp only [ok_bind, withBase_eq, obj_sign]
  simp only [subAssign, Aesi.sub, obj_sign, obj_base, subMagnitude_eq, hadd]
  split
  · simp only [ok_bind, put_obj_self]
  split
  · simp only [ok_bind, inverse_eq, hput_put', put_obj, if_true]
  split
  · split <;> rfl
  · split <;> rfl

theorem withBase_inverse (h : SHeap n) (p : Nat) (v : Aeu n) :
    ({ inverse h p with base := (inverse h p).base.put p v } : SHeap n) =
      h.put p { Aesi.inverse (h.obj p) with base := v } := by
  rw [withBase_eq, inverse_eq, hput_put', put_obj, if_pos rfl]

theorem inverse_base (h : SHeap n) (p : Nat) : (inverse h p).base = h.base := rfl

theorem mulAssign_eq (h : SHeap n) (l r : Nat) :
    mulAssign h l r = (do let x ← Aesi.mul (h.obj l) (h.obj r); .ok (h.put l x)) := by
  simp only [mulAssign, Aesi.mul, Aesi.isZero, Aesi.isNegative, obj_sign, obj_base, beq_iff_eq,
    Alias.mulAssign_eq]
  split
  · simp only [ok_bind, setSign_eq, obj_base]
  split
  · simp only [inverse_base]
    show _ = (do let x ← (do let b ← Aeu.mul (h.base l) (h.base r); .ok ({ Aesi.inverse (h.obj l) with base := b } : Aesi n)); _)
    cases Aeu.mul (h.base l) (h.base r) with
    | error e => rfl
    | ok b => simp only [ok_bind]; rw [← withBase_inverse]; rfl
  · rw [obj_base]
    cases Aeu.mul (h.base l) (h.base r) with
    | error e => rfl
    | ok b => simp only [ok_bind, withBase_eq, obj_sign]

theorem divAssign_eq (cfg : Cfg) (h : SHeap n) (l r : Nat) :
    divAssign cfg h l r = (do let x ← Aesi.div cfg (h.obj l) (h.obj r); .ok (h.put l x)) := by
  simp only [divAssign, Aesi.div, Aesi.isZero, Aesi.isNegative, obj_sign, obj_base, beq_iff_eq,
    Alias.divAssign]
  split
  · simp only [ok_bind, setSign_eq, obj_base]
  split
  · simp only [inverse_base]
    show _ = (do let x ← (do let b ← Aeu.div cfg (h.base l) (h.base r); Aesi.normalise ({ Aesi.inverse (h.obj l) with base := b } : Aesi n)); _)
    cases Aeu.div cfg (h.base l) (h.base r) with
    | error e => rfl
    | ok b =>
      simp only [ok_bind]
      have := withBase_inverse h l b
      rw [inverse_base] at this
      rw [this, normalise_eq, put_obj, if_pos rfl]
      simp only [hput_put']
  · rw [obj_base]
    cases Aeu.div cfg (h.base l) (h.base r) with
    | error e => rfl
    | ok b => simp only [ok_bind, withBase_eq, normalise_eq, put_obj, if_true, hput_put']

theorem modAssign_eq (cfg : Cfg) (h : SHeap n) (l r : Nat) :
    modAssign cfg h l r = (do let x ← Aesi.mod cfg (h.obj l) (h.obj r); .ok (h.put l x)) := by
  simp only [modAssign, Aesi.mod, Aesi.isZero, Aesi.isNegative, obj_sign, obj_base, beq_iff_eq,
    Alias.modAssign]
  split
  · simp only [ok_bind, put_obj_self]
  split
  · simp only [inverse_base]
    show _ = (do let x ← (do let b ← Aeu.mod cfg (h.base l) (h.base r); Aesi.normalise ({ Aesi.inverse (h.obj l) with base := b } : Aesi n)); _)
    cases Aeu.mod cfg (h.base l) (h.base r) with
    | error e => rfl
    | ok b =>
      simp only [ok_bind]
      have := withBase_inverse h l b
      rw [inverse_base] at this
      rw [this, normalise_eq, put_obj, if_pos rfl]
      simp only [hput_put']
  · rw [obj_base]
    cases Aeu.mod cfg (h.base l) (h.base r) with
    | error e => rfl
    | ok b => simp only [ok_bind, withBase_eq, normalise_eq, put_obj, if_true, hput_put']

theorem swap_obj (h : SHeap n) (a b p : Nat) :
    (swap h a b).obj p = if p = a then h.obj b else if p = b then h.obj a else h.obj p := by
  simp only [swap, obj, setSign, Alias.swap, Heap.put]
  by_cases h1 : p = a <;> by_cases h2 : p = b <;> simp only [h1, h2, if_true, if_false]
  · by_cases h3 : a = b
    · simp [h3]
    · simp [h3]
  · have h3 : ¬ a = b := fun e => h2 (h1.trans e)
    simp [h3]
  · have h3 : ¬ b = a := fun e => h1 (h2.trans e)
    simp [h3]

/-- No argument is shared. -/
theorem divide_eq (cfg : Cfg) (h : SHeap n) (N D Q R : Nat) (hNQ : N ≠ Q) (hNR : N ≠ R) (hDQ : D ≠ Q)
    (hDR : D ≠ R) (hQR : Q ≠ R) :
    divide cfg h N D Q R = (do
      let r ← Aesi.divide cfg (h.obj N) (h.obj D) (h.obj Q) (h.obj R)
      .ok ((h.put Q r.1).put R r.2)) := by
  simp only [divide, Aesi.divide, obj_sign, obj_base,
    Alias.divide_eq cfg h.base N D Q R hNQ hNR hDQ hDR hQR]
  split
  · simp only [ok_bind, setSign_eq, put_obj, hQR.symm, if_false, obj_base]
  cases Aeu.divide cfg (h.base N) (h.base D) with
  | error e => rfl
  | ok qr =>
    have key : ∀ s t : Sign, ((({ sign := h.sign, base := (h.base.put Q qr.1).put R qr.2 } : SHeap n).setSign
        Q s).setSign R t) = (h.put Q ⟨s, qr.1⟩).put R ⟨t, qr.2⟩ := by
      intro s t
      refine sheap_ext (fun p => ?_) (fun p => ?_)
      · simp only [setSign, put_sign]
      · simp only [setSign, put_base, Heap.put]
    simp only [ok_bind, key]
    have fin : ∀ s t : Sign, (do
        let x ← normalise ((h.put Q ⟨s, qr.1⟩).put R ⟨t, qr.2⟩) Q
        normalise x R) = (do
        let r ← (do
          let q ← Aesi.normalise (⟨s, qr.1⟩ : Aesi n)
          let r ← Aesi.normalise (⟨t, qr.2⟩ : Aesi n)
          (.ok (q, r) : Exec (Aesi n × Aesi n)))
        .ok ((h.put Q r.1).put R r.2)) := by
      intro s t
      simp only [normalise_eq, put_obj, hQR, if_false, if_true]
      cases Aesi.normalise (⟨s, qr.1⟩ : Aesi n) with
      | error e => rfl
      | ok q =>
        simp only [ok_bind, put_obj, hQR.symm, if_false, if_true]
        cases Aesi.normalise (⟨t, qr.2⟩ : Aesi n) with
        | error e => rfl
        | ok r =>
          simp only [ok_bind]
          congr 1
          refine sheap_ext (fun p => ?_) (fun p => ?_)
          · simp only [put_sign]; split_ifs <;> rfl
          · simp only [put_base]; split_ifs <;> rfl
    split <;> split <;> exact fin _ _

end SAlias
end AesiMP
