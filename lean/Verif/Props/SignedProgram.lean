import Verif.Props.SignedText
import Verif.Props.Program

/-!
# C43, C44, C59: histories of signed numbers

A program works on registers holding `Aesi<bitness>` objects; it is built from the library's
operations, sequencing, `if` and bounded `while`.  `SProg.run` executes the model of the C++ code,
`SProg.eval` is the specification: the same program over the integers, stopping (`none`) as soon as an
exact result does not fit `|v| < 2^bitness`.

`%=` with a built-in operand and `Aesi(Aeu)` are left out: they produce objects that represent 0 but
deny being zero (`C43_mod_counterexample`, `C43_from_unsigned_counterexample`).
-/

namespace AesiMP
open Aesi
open Aeu (toNat)
variable {n : Nat}

/-- One library call: destination registers first. -/
inductive SOp where
  | const (d : Nat) (t : ITy) (v : Int)   -- d = v, v a built-in value
  | copy (d a : Nat)
  | neg (d a : Nat)                       -- d = -a
  | inverse (d : Nat)                     -- d.inverse()
  | inc (d : Nat) | dec (d : Nat)
  | add (d a b : Nat) | sub (d a b : Nat) | mul (d a b : Nat)
  | div (d a b : Nat) | mod (d a b : Nat)
  | mulI (d a : Nat) (t : ITy) (v : Int)  -- d = a * v
  | divI (d a : Nat) (t : ITy) (v : Int)  -- d = a / v
  | divide (q r a b : Nat)                -- divide(a, b, q, r); the outputs are fresh objects
  | swap (a b : Nat)
  | sqrt (d a : Nat) | power2 (d k : Nat)

/-- Tests on registers. -/
inductive SCond where
  | eq (a b : Nat) | lt (a b : Nat) | isZero (a : Nat) | isPositive (a : Nat) | isNegative (a : Nat)
  | eqZero (a : Nat)                      -- a == 0, with the built-in 0

inductive SProg where
  | op (o : SOp)
  | seq (p q : SProg)
  | ite (c : SCond) (p q : SProg)
  /-- `while(c) p`, at most `k` iterations -/
  | loop (k : Nat) (c : SCond) (p : SProg)

/-! ### The library -/

def SOp.run (cfg : Cfg) (s : Nat → Aesi n) : SOp → Exec (Nat → Aesi n)
  | .const d t v => do let r ← ofIntegral n t v; .ok (upd s d r)
  | .copy d a => .ok (upd s d (s a))
  | .neg d a => .ok (upd s d (Aesi.neg (s a)))
  | .inverse d => .ok (upd s d (Aesi.inverse (s d)))
  | .inc d => do let r ← Aesi.inc (s d); .ok (upd s d r)
  | .dec d => do let r ← Aesi.dec (s d); .ok (upd s d r)
  | .add d a b => do let r ← Aesi.add cfg (s a) (s b); .ok (upd s d r)
  | .sub d a b => do let r ← Aesi.sub cfg (s a) (s b); .ok (upd s d r)
  | .mul d a b => do let r ← Aesi.mul (s a) (s b); .ok (upd s d r)
  | .div d a b => do let r ← Aesi.div cfg (s a) (s b); .ok (upd s d r)
  | .mod d a b => do let r ← Aesi.mod cfg (s a) (s b); .ok (upd s d r)
  | .mulI d a t v => do let r ← mulIntegral cfg t (s a) v; .ok (upd s d r)
  | .divI d a t v => do let r ← divIntegral cfg t (s a) v; .ok (upd s d r)
  | .divide q r a b => do
    let x ← Aesi.divide cfg (s a) (s b) (s q) (s r)
    .ok (upd (upd s q x.1) r x.2)
  | .swap a b => let r := Aesi.swap (s a) (s b); .ok (upd (upd s a r.1) b r.2)
  | .sqrt d a => do let r ← Aesi.squareRoot cfg (s a); .ok (upd s d r)
  | .power2 d k => do let r ← Aesi.power2 cfg n k; .ok (upd s d r)

def SCond.run (cfg : Cfg) (s : Nat → Aesi n) : SCond → Exec Bool
  | .eq a b => Aesi.eq cfg (s a) (s b)
  | .lt a b => Aesi.lt cfg (s a) (s b)
  | .isZero a => .ok (Aesi.isZero (s a))
  | .isPositive a => .ok (Aesi.isPositive (s a))
  | .isNegative a => .ok (Aesi.isNegative (s a))
  | .eqZero a => eqIntegral (s a) 0

def SProg.run (cfg : Cfg) : SProg → (Nat → Aesi n) → Exec (Nat → Aesi n)
  | .op o, s => o.run cfg s
  | .seq p q, s => do let s ← p.run cfg s; q.run cfg s
  | .ite c p q, s => do if ← c.run cfg s then p.run cfg s else q.run cfg s
  | .loop k c p, s => loopExec (fun s => c.run cfg s) (fun s => p.run cfg s) k s

/-! ### The specification: integers below `2^bits` in magnitude -/

/-- Assign, unless the value does not fit. -/
def keep (bits : Nat) (s : Nat → Int) (d : Nat) (v : Int) : Option (Nat → Int) :=
  if v.natAbs < 2 ^ bits then some (upd s d v) else none

/-- Built-in operands the library handles: any value of a type except the type's minimum. -/
def goodOperand (t : ITy) (v : Int) : Prop :=
  t ∈ ITy.all ∧ t.InRange v ∧ ¬ (t.signed = true ∧ v = -(2 : Int) ^ (t.width - 1))

instance (t : ITy) (v : Int) : Decidable (goodOperand t v) := by unfold goodOperand; infer_instance

def SOp.eval (bits : Nat) (s : Nat → Int) : SOp → Option (Nat → Int)
  | .const d t v => if goodOperand t v then keep bits s d v else none
  | .copy d a => some (upd s d (s a))
  | .neg d a => some (upd s d (-s a))
  | .inverse d => some (upd s d (-s d))
  | .inc d => keep bits s d (s d + 1)
  | .dec d => keep bits s d (s d - 1)
  | .add d a b => keep bits s d (s a + s b)
  | .sub d a b => keep bits s d (s a - s b)
  | .mul d a b => keep bits s d (s a * s b)
  | .div d a b => some (upd s d (if s b = 0 then 0 else (s a).tdiv (s b)))
  | .mod d a b => some (upd s d (if s b = 0 then s a else if s b < 0 then -((s a).tmod (s b))
      else (s a).tmod (s b)))
  | .mulI d a t v => if goodOperand t v ∧ v.natAbs ≤ 2 ^ 32 then keep bits s d (s a * v) else none
  | .divI d a t v =>
    if goodOperand t v ∧ v.natAbs < 2 ^ bits then
      some (upd s d (if v = 0 then 0 else (s a).tdiv v)) else none
  | .divide q r a b =>
    if s b = 0 then some (upd (upd s q 0) r 0)
    else some (upd (upd s q ((s a).tdiv (s b))) r ((s a).tmod (s b)))
  | .swap a b => some (upd (upd s a (s b)) b (s a))
  | .sqrt d a => some (upd s d (Nat.sqrt (s a).toNat))
  | .power2 d k => keep bits s d (2 ^ k)

def SCond.eval (s : Nat → Int) : SCond → Bool
  | .eq a b => s a = s b
  | .lt a b => s a < s b
  | .isZero a => s a = 0
  | .isPositive a => 0 < s a
  | .isNegative a => s a < 0
  | .eqZero a => s a = 0

def loopEvalO {σ : Type} (c : σ → Bool) (p : σ → Option σ) : Nat → σ → Option σ
  | 0, s => some s
  | k + 1, s => if c s then (p s).bind (loopEvalO c p k) else some s

def SProg.eval (bits : Nat) : SProg → (Nat → Int) → Option (Nat → Int)
  | .op o, s => o.eval bits s
  | .seq p q, s => (p.eval bits s).bind fun s => q.eval bits s
  | .ite c p q, s => if c.eval s then p.eval bits s else q.eval bits s
  | .loop k c p, s => loopEvalO (fun s => c.eval s) (fun s => p.eval bits s) k s

/-! ### Proof -/

/-- The integers held by the registers. -/
def svalues (s : Nat → Aesi n) : Nat → Int := fun i => toInt (s i)

/-- The relation kept by every step. -/
def Good (s : Nat → Aesi n) (v : Nat → Int) : Prop := svalues s = v ∧ ∀ i, Canon (s i)

theorem Good.upd {s : Nat → Aesi n} {v : Nat → Int} (h : Good s v) (d : Nat) {r : Aesi n} {x : Int}
    (h1 : toInt r = x) (h2 : Canon r) : Good (upd s d r) (AesiMP.upd v d x) := by
  constructor
  · funext i
    have := congrFun h.1 i
    simp only [svalues, AesiMP.upd] at this ⊢
    split
    · exact h1
    · exact this
  · intro i
    simp only [AesiMP.upd]
    split
    · exact h2
    · exact h.2 i

theorem sat_supd {e : Exec (Aesi n)} {x : Int} {s : Nat → Aesi n} {v : Nat → Int} {d : Nat}
    (hg : Good s v) (h : Sat e fun r => toInt r = x ∧ Canon r) :
    Sat (do let r ← e; .ok (upd s d r)) fun s' => Good s' (upd v d x) :=
  Sat.bind h fun _ hr => Sat.ok (hg.upd d hr.1 hr.2)

theorem keep_some {bits : Nat} {s v : Nat → Int} {d : Nat} {x : Int} (h : keep bits s d x = some v) :
    x.natAbs < 2 ^ bits ∧ v = upd s d x := by
  unfold keep at h
  split at h
  · rename_i hx; exact ⟨hx, (Option.some.inj h).symm⟩
  · cases h

theorem SOp.run_spec (cfg : Cfg) (hn : 0 < n) (o : SOp) (s : Nat → Aesi n)
    (hc : ∀ i, Canon (s i)) (v : Nat → Int) (h : o.eval (32 * n) (svalues s) = some v) :
    Sat (o.run cfg s) fun s' => Good s' v := by
  have hg : Good s (svalues s) := ⟨rfl, hc⟩
  cases o with
  | const d t i =>
    simp only [SOp.eval] at h
    split at h
    · rename_i hgo
      obtain ⟨h1, rfl⟩ := keep_some h
      exact sat_supd hg (ofIntegral_spec hgo.1 hgo.2.1 (fun hm => hgo.2.2 hm.1) h1)
    · cases h
  | copy d a =>
    cases h
    exact Sat.ok (hg.upd d rfl (hc a))
  | neg d a =>
    cases h
    exact Sat.ok (hg.upd d (toInt_inverse _) (canon_inverse (hc a)))
  | inverse d =>
    cases h
    exact Sat.ok (hg.upd d (toInt_inverse _) (canon_inverse (hc d)))
  | inc d =>
    obtain ⟨h1, rfl⟩ := keep_some h
    exact sat_supd hg (inc_spec hn _ (hc d) h1)
  | dec d =>
    obtain ⟨h1, rfl⟩ := keep_some h
    exact sat_supd hg (dec_spec hn _ (hc d) h1)
  | add d a b =>
    obtain ⟨h1, rfl⟩ := keep_some h
    exact sat_supd hg (Sat.mono (add_spec cfg _ _ h1) fun r hr => ⟨hr.1, hr.2 (hc a) (hc b)⟩)
  | sub d a b =>
    obtain ⟨h1, rfl⟩ := keep_some h
    exact sat_supd hg (Sat.mono (sub_spec cfg _ _ h1) fun r hr => ⟨hr.1, hr.2 (hc a) (hc b)⟩)
  | mul d a b =>
    obtain ⟨h1, rfl⟩ := keep_some h
    exact sat_supd hg (Sat.mono (mul_spec _ _ h1) fun r hr => ⟨hr.1, hr.2 (hc a) (hc b)⟩)
  | div d a b =>
    cases h
    refine sat_supd hg ?_
    by_cases hb : svalues s b = 0
    · rw [if_pos hb]
      rw [Aesi.div, if_pos (by simp [Aesi.isZero, (canon_iff.mp (hc b)).mpr hb])]
      exact Sat.ok ⟨by simp [toInt], fun h => absurd rfl h⟩
    · rw [if_neg hb]; exact div_spec cfg hn _ _ hb
  | mod d a b =>
    cases h
    refine sat_supd hg ?_
    by_cases hb : svalues s b = 0
    · rw [if_pos hb]
      rw [Aesi.mod, if_pos (by simp [Aesi.isZero, (canon_iff.mp (hc b)).mpr hb])]
      exact Sat.ok ⟨rfl, hc a⟩
    · rw [if_neg hb]
      refine Sat.mono (mod_spec cfg hn _ _ hb) fun r hr => ⟨?_, hr.2⟩
      by_cases hlt : toInt (s b) < 0
      · rw [hr.1, if_pos hlt, if_pos (show svalues s b < 0 from hlt)]; simp [svalues]
      · rw [hr.1, if_neg hlt, if_neg (show ¬ svalues s b < 0 from hlt)]; simp [svalues]
  | mulI d a t i =>
    simp only [SOp.eval] at h
    split at h
    · rename_i hgo
      obtain ⟨h1, rfl⟩ := keep_some h
      exact sat_supd hg (Sat.mono (mulIntegral_spec cfg hgo.1.1 _ hgo.1.2.1 hgo.1.2.2 (Or.inr hgo.2) h1)
        fun r hr => ⟨hr.1, hr.2 (hc a)⟩)
    · cases h
  | divI d a t i =>
    simp only [SOp.eval] at h
    split at h
    · rename_i hgo
      cases h
      refine sat_supd hg ?_
      simp only [svalues]
      by_cases h0 : i = 0
      · rw [if_pos h0, divIntegral, if_pos h0]
        exact Sat.ok ⟨by simp [toInt], fun h => absurd rfl h⟩
      · rw [if_neg h0]
        exact divIntegral_spec cfg hn hgo.1.1 _ hgo.1.2.1 hgo.1.2.2 h0 hgo.2
    · cases h
  | divide q r a b =>
    simp only [SOp.eval] at h
    by_cases hb : toInt (s b) = 0
    · rw [if_pos (show svalues s b = 0 from hb)] at h
      cases h
      simp only [SOp.run]
      rw [Aesi.divide, if_pos (Or.inr ((canon_iff.mp (hc b)).mpr hb))]
      exact Sat.ok ((hg.upd q (by simp [toInt]) fun h => absurd rfl h).upd r (by simp [toInt])
        fun h => absurd rfl h)
    · rw [if_neg (show ¬ svalues s b = 0 from hb)] at h
      cases h
      refine Sat.bind (divide_spec cfg hn (s a) (s b) (s q) (s r) hb) ?_
      rintro ⟨x, y⟩ ⟨h1, h2, h3, h4⟩
      exact Sat.ok ((hg.upd q h1 h3).upd r h2 h4)
  | swap a b =>
    cases h
    exact Sat.ok ((hg.upd a rfl (hc b)).upd b rfl (hc a))
  | sqrt d a =>
    cases h
    refine sat_supd hg ?_
    simp only [svalues, Aesi.squareRoot]
    by_cases hs : (s a).sign = .positive
    · rw [if_pos hs]
      refine Sat.bind (Aeu.squareRoot_spec cfg hn (s a).base) fun r hr => Sat.ok ⟨?_, fun _ => ?_⟩
      · rw [toInt_pos hs, Int.toNat_natCast]; simp [toInt, hr]
      · simp only [hr]
        have := hc a (by simp [hs])
        exact Nat.ne_of_gt (Nat.sqrt_pos.mpr (by omega))
    · rw [if_neg hs, ofIntegral, if_neg (by omega), if_neg (by omega)]
      have hle : toInt (s a) ≤ 0 := by
        unfold toInt; cases h : (s a).sign <;> simp [h] at hs ⊢
      refine Sat.ok ⟨?_, fun h => absurd rfl h⟩
      rw [Int.toNat_of_nonpos hle]; simp [toInt, Aesi.zero]
  | power2 d k =>
    obtain ⟨h1, rfl⟩ := keep_some h
    refine sat_supd hg (C63_power2 cfg k ?_)
    rw [Int.natAbs_pow] at h1
    exact (Nat.pow_lt_pow_iff_right (by norm_num)).mp h1

theorem SCond.run_spec (cfg : Cfg) (c : SCond) (s : Nat → Aesi n) (hc : ∀ i, Canon (s i)) :
    c.run cfg s = .ok (c.eval (svalues s)) := by
  cases c with
  | eq a b => exact (C41_compare_partial cfg _ _ (hc a) (hc b)).2.1
  | lt a b => exact (C41_compare_partial cfg _ _ (hc a) (hc b)).2.2.2
  | isZero a =>
    refine congrArg Except.ok ?_
    rw [Bool.eq_iff_iff]
    have h := (canon_sign (hc a)).1
    have e : (s a).isZero = true ↔ (s a).sign = .zero := by simp [Aesi.isZero]
    rw [e, h]
    exact decide_eq_true_iff.symm
  | isPositive a =>
    refine congrArg Except.ok ?_
    rw [Bool.eq_iff_iff]
    have h := (canon_sign (hc a)).2.1
    have e : (s a).isPositive = true ↔ (s a).sign = .positive := by simp [Aesi.isPositive]
    rw [e, h]
    exact decide_eq_true_iff.symm
  | isNegative a =>
    refine congrArg Except.ok ?_
    rw [Bool.eq_iff_iff]
    have h := (canon_sign (hc a)).2.2
    have e : (s a).isNegative = true ↔ (s a).sign = .negative := by simp [Aesi.isNegative]
    rw [e, h]
    exact decide_eq_true_iff.symm
  | eqZero a => exact C42_compare_zero _ (hc a)

theorem SProg.run_spec (cfg : Cfg) (hn : 0 < n) (p : SProg) (s : Nat → Aesi n)
    (hc : ∀ i, Canon (s i)) (v : Nat → Int) (h : p.eval (32 * n) (svalues s) = some v) :
    Sat (p.run cfg s) fun s' => Good s' v := by
  induction p generalizing s v with
  | op o => exact SOp.run_spec cfg hn o s hc v h
  | seq p q ihp ihq =>
    simp only [SProg.eval, Option.bind_eq_some_iff] at h
    obtain ⟨u, h1, h2⟩ := h
    refine Sat.bind (ihp s hc u h1) ?_
    rintro s' ⟨rfl, hc'⟩
    exact ihq s' hc' v h2
  | ite c p q ihp ihq =>
    simp only [SProg.run, SProg.eval, SCond.run_spec cfg c s hc, ok_bind] at h ⊢
    split at h
    · rename_i hh; rw [if_pos hh]; exact ihp s hc v h
    · rename_i hh; rw [if_neg hh]; exact ihq s hc v h
  | loop k c p ih =>
    simp only [SProg.run, SProg.eval] at h ⊢
    induction k generalizing s with
    | zero => cases h; exact Sat.ok ⟨rfl, hc⟩
    | succ k ihk =>
      simp only [loopExec, loopEvalO, SCond.run_spec cfg c s hc, ok_bind] at h ⊢
      split at h
      · rename_i hh
        rw [if_pos hh]
        rw [Option.bind_eq_some_iff] at h
        obtain ⟨u, h1, h2⟩ := h
        refine Sat.bind (ih s hc u h1) ?_
        rintro s' ⟨rfl, hc'⟩
        exact ihk s' hc' h2
      · rename_i hh
        rw [if_neg hh]
        cases h
        exact Sat.ok ⟨rfl, hc⟩

/-- C59: any program, as long as no exact intermediate result overflows: no undefined behaviour, every
register represents the integer the specification computes, and comparisons (in the program's tests
and on its results) are the integer ones. -/
theorem C59_program_refinement (cfg : Cfg) (hn : 0 < n) (p : SProg) (s : Nat → Aesi n)
    (hc : ∀ i, Canon (s i)) (v : Nat → Int)
    (h : p.eval (32 * n) (fun i => toInt (s i)) = some v) :
    Sat (p.run cfg s) fun s' => (∀ i, toInt (s' i) = v i) ∧
      ∀ i j, Aesi.eq cfg (s' i) (s' j) = .ok (decide (v i = v j)) ∧
        Aesi.lt cfg (s' i) (s' j) = .ok (decide (v i < v j)) := by
  refine Sat.mono (SProg.run_spec cfg hn p s hc v h) ?_
  rintro s' ⟨rfl, hc'⟩
  refine ⟨fun i => rfl, fun i j => ?_⟩
  have := C41_compare_partial cfg (s' i) (s' j) (hc' i) (hc' j)
  exact ⟨this.2.1, this.2.2.2⟩

/-- Example: the alternating factorial `3! - 2! + 1!`-style loop: register 1 accumulates
`r1 = -(r1 * r0)`, register 0 counts down to 0. -/
def altProg (k : Nat) : SProg :=
  .seq (.op (.const 1 ITy.i32 1)) (.loop k (.isPositive 0)
    (.seq (.op (.mul 1 1 0)) (.seq (.op (.neg 1 1)) (.op (.dec 0)))))

example : ((altProg 30).eval 96 (fun _ => 21)).map (fun s => (s 0, s 1)) =
    some (0, -51090942171709440000) := by decide +kernel
example : ((altProg 30).run (n := 3) lp64 (fun _ => ofInt 3 21)).map (fun s => (s 0, s 1)) =
    .ok (ofInt 3 0, ofInt 3 (-51090942171709440000)) := by decide +kernel

/-! ### C43 -/

/-- C43: after any such history, `isZero()`, `== 0`, `isPositive()`, `isNegative()` tell the truth.
Missing: histories with an overflow, `%=` by a built-in, `Aesi(Aeu)`, digit writes. -/
theorem C43_is_zero_partial (cfg : Cfg) (hn : 0 < n) (p : SProg) (s : Nat → Aesi n)
    (hc : ∀ i, Canon (s i)) (v : Nat → Int)
    (h : p.eval (32 * n) (fun i => toInt (s i)) = some v) :
    Sat (p.run cfg s) fun s' => ∀ i,
      (Aesi.isZero (s' i) = true ↔ toInt (s' i) = 0) ∧
      eqIntegral (s' i) 0 = .ok (decide (toInt (s' i) = 0)) ∧
      (Aesi.isPositive (s' i) = true ↔ 0 < toInt (s' i)) ∧
      (Aesi.isNegative (s' i) = true ↔ toInt (s' i) < 0) := by
  refine Sat.mono (SProg.run_spec cfg hn p s hc v h) ?_
  rintro s' ⟨rfl, hc'⟩ i
  have := canon_sign (hc' i)
  exact ⟨by simpa [Aesi.isZero] using this.1, C42_compare_zero _ (hc' i),
    by simpa [Aesi.isPositive] using this.2.1, by simpa [Aesi.isNegative] using this.2.2⟩

/-- C43: the constructors start such histories: every built-in value and every text. -/
theorem C43_constructors (alnum : Int → Bool) (text : List Int) {t : ITy} (ht : t ∈ ITy.all) {i : Int}
    (hr : t.InRange i) (hm : ¬ (t.signed = true ∧ 32 ≤ t.width ∧ i = -(2 : Int) ^ (t.width - 1)))
    (hfit : Fits n i) :
    (Sat (ofIntegral n t i) fun r => Aesi.isZero r = true ↔ toInt r = 0) ∧
    (Sat (Aesi.ofChars .wchar alnum n ⟨text.toArray, rfl⟩) fun r =>
      Aesi.isZero r = true ↔ toInt r = 0) := by
  constructor
  · refine Sat.mono (C47_construct_partial ht hr hm hfit) fun r h => ?_
    simpa [Aesi.isZero] using canon_iff.mp h.2
  · refine Sat.mono (C46_wide alnum text) fun r h => ?_
    simpa [Aesi.isZero] using canon_iff.mp h.2

/-- C43 is false after `%=` with a built-in: `4 % 2` represents 0, but `isZero()` and `== 0` are false. -/
theorem C43_mod_counterexample : ∃ r, modIntegral lp64 ITy.i32 (ofInt 2 4) 2 = .ok r ∧ toInt r = 0 ∧
    Aesi.isZero r = false ∧ eqIntegral r 0 = .ok false :=
  ⟨⟨.positive, Aeu.ofNat 2 0⟩, by decide +kernel⟩

/-- C43 is false for `Aesi(Aeu(0))`, and after an overflowing product `2^32 * 2^32` in 64 bits. -/
theorem C43_from_unsigned_counterexample :
    (Aesi.isZero (ofAeu (Aeu.ofNat 2 0)) = false ∧ toInt (ofAeu (Aeu.ofNat 2 0)) = 0) ∧
    (mul (ofInt 2 (2 ^ 32)) (ofInt 2 (2 ^ 32))).map (fun r => (toInt r, Aesi.isZero r)) =
      .ok (0, false) := by decide +kernel

/-! ### C44 -/

/-- C44, non-zero values: `unsignedCast()`, `getBit` and `bitCount` show the magnitude. -/
theorem C44_digits_nonzero (cfg : Cfg) (hs : cfg.unsafeMode = false) (a : Aesi n) (ha : toInt a ≠ 0)
    (i : Nat) : toNat (unsignedCast a) = (toInt a).natAbs ∧
      Aesi.getBit cfg a i = .ok ((toInt a).natAbs.testBit i) := by
  have h : toNat a.base = (toInt a).natAbs := by
    unfold toInt at *; cases h : a.sign <;> simp [h] at ha ⊢
  refine ⟨h, ?_⟩
  rw [← h]
  exact getBit_value cfg hs a.base i

/-- C44: zeros with zero digits come from the constructors, `++`/`--`, `/=` and `%=` by a non-zero
number, `divide` of a non-zero number by a non-zero number, `squareRoot`, `power2`.  Missing: `+=`,
`-=`, `*=`, division by zero (`C44_stale`), and operations on objects that already show stale
digits. -/
theorem C44_clean_partial (cfg : Cfg) (hn : 0 < n) (a b q0 r0 : Aesi n) (ha : Canon a)
    (hb : toInt b ≠ 0) (t : ITy) (ht : t ∈ ITy.all) (i : Int) (hr : t.InRange i)
    (hm : ¬ (t.signed = true ∧ 32 ≤ t.width ∧ i = -(2 : Int) ^ (t.width - 1))) (hfit : Fits n i) :
    (Sat (ofIntegral n t i) fun r => toInt r = 0 → toNat (unsignedCast r) = 0) ∧
    (Fits n (toInt a + 1) → Sat (inc a) fun r => toInt r = 0 → toNat (unsignedCast r) = 0) ∧
    (Fits n (toInt a - 1) → Sat (dec a) fun r => toInt r = 0 → toNat (unsignedCast r) = 0) ∧
    (toInt a ≠ 0 → Sat (div cfg a b) fun r => toInt r = 0 → toNat (unsignedCast r) = 0) ∧
    (toInt a ≠ 0 → Sat (mod cfg a b) fun r => toInt r = 0 → toNat (unsignedCast r) = 0) ∧
    (toInt a ≠ 0 → Sat (divide cfg a b q0 r0) fun (q, r) =>
      (toInt q = 0 → toNat (unsignedCast q) = 0) ∧ (toInt r = 0 → toNat (unsignedCast r) = 0)) := by
  have hbs : b.sign ≠ .zero := fun h => hb (toInt_zero h)
  have hbb : toNat b.base ≠ 0 := by
    intro h; apply hb; unfold toInt; cases b.sign <;> simp [h]
  have norm : ∀ x : Aesi n, x.sign ≠ .zero → Sat (normalise x) fun r =>
      toInt r = 0 → toNat (unsignedCast r) = 0 := by
    intro x hx
    refine Sat.mono (normalise_spec x) ?_
    rintro r ⟨h1, _, h3⟩ h0
    rw [h1] at h0
    show toNat r.base = 0
    rw [h3]
    unfold toInt at h0
    cases hxs : x.sign <;> simp [hxs] at h0 hx ⊢ <;> exact h0
  have as : toInt a ≠ 0 → a.sign ≠ .zero := fun h hs => h (toInt_zero hs)
  have ite_sign : ∀ (p : Bool), a.sign ≠ .zero → (if p = true then Aesi.inverse a else a).sign ≠ .zero := by
    intro p h; cases p <;> simp [Aesi.inverse] <;> cases hx : a.sign <;> simp_all
  refine ⟨?_, ?_, ?_, ?_, ?_, ?_⟩
  · unfold ofIntegral
    by_cases h1 : i < 0
    · have := ofIntegral_spec (n := n) ht hr (fun h => hm ⟨h.1.1, h.2, h.1.2⟩) hfit
      unfold ofIntegral at this
      refine Sat.mono this fun r h h0 => ?_
      omega
    · by_cases h2 : i > 0
      · have := ofIntegral_spec (n := n) ht hr (fun h => hm ⟨h.1.1, h.2, h.1.2⟩) hfit
        unfold ofIntegral at this
        refine Sat.mono this fun r h h0 => ?_
        omega
      · rw [if_neg h1, if_neg h2]
        exact Sat.ok fun _ => Aeu.toNat_zero
  · intro hf
    have hi := inc_spec hn a ha hf
    unfold inc at hi ⊢
    cases hs : a.sign with
    | negative =>
      simp only [hs] at hi ⊢
      obtain ⟨r, hr, _⟩ := Aeu.dec_spec a.base
      simp only [hr, ok_bind]
      exact norm _ (by simp)
    | positive =>
      simp only [hs] at hi ⊢
      refine Sat.mono hi fun r h h0 => ?_
      have := toInt_pos hs; omega
    | zero =>
      simp only [hs] at hi ⊢
      refine Sat.mono hi fun r h h0 => ?_
      have := toInt_zero hs; omega
  · intro hf
    have hi := dec_spec hn a ha hf
    unfold dec at hi ⊢
    cases hs : a.sign with
    | positive =>
      simp only [hs] at hi ⊢
      obtain ⟨r, hr, _⟩ := Aeu.dec_spec a.base
      simp only [hr, ok_bind]
      exact norm _ (by simp)
    | negative =>
      simp only [hs] at hi ⊢
      refine Sat.mono hi fun r h h0 => ?_
      have := toInt_neg hs; omega
    | zero =>
      simp only [hs] at hi ⊢
      refine Sat.mono hi fun r h h0 => ?_
      have := toInt_zero hs; omega
  · intro h0
    unfold div
    rw [if_neg (by simp [Aesi.isZero, hbs])]
    dsimp only
    obtain ⟨r, hr, _⟩ := Aeu.div_spec cfg hn (if isNegative b = true then Aesi.inverse a else a).base b.base hbb
    simp only [hr, ok_bind]
    exact norm _ (ite_sign _ (as h0))
  · intro h0
    unfold mod
    rw [if_neg (by simp [Aesi.isZero, hbs])]
    dsimp only
    obtain ⟨r, hr, _⟩ := Aeu.mod_spec cfg hn (if isNegative b = true then Aesi.inverse a else a).base b.base hbb
    simp only [hr, ok_bind]
    exact norm _ (ite_sign _ (as h0))
  · intro h0
    unfold divide
    rw [if_neg (by simp [hbs, as h0])]
    obtain ⟨qr, hqr, _⟩ := Aeu.divide_spec cfg hn a.base b.base hbb
    simp only [hqr, ok_bind]
    refine Sat.bind (norm _ ?_) fun q hq => Sat.bind (norm _ ?_) fun r hr => Sat.ok ⟨hq, hr⟩
    · cases a.sign <;> cases b.sign <;> simp
    · cases a.sign <;> cases b.sign <;> simp

/-- C44 is false: for *every* non-zero `a`, `a -= a` compares equal to zero and still shows the digits
of `|a|`; so does `a *= 0` (0 a built-in or an `Aesi`). -/
theorem C44_stale (cfg : Cfg) (t : ITy) (a z : Aesi n) (ha : toInt a ≠ 0) (hz : z.sign = .zero) :
    (Sat (sub cfg a a) fun r => Aesi.isZero r = true ∧ eqIntegral r 0 = .ok true ∧
      toNat (unsignedCast r) = (toInt a).natAbs) ∧
    (Sat (mul a z) fun r => Aesi.isZero r = true ∧ eqIntegral r 0 = .ok true ∧
      toNat (unsignedCast r) = (toInt a).natAbs) ∧
    (Sat (mulIntegral cfg t a 0) fun r => Aesi.isZero r = true ∧ eqIntegral r 0 = .ok true ∧
      toNat (unsignedCast r) = (toInt a).natAbs) := by
  have hv : toNat a.base = (toInt a).natAbs := by
    unfold toInt at *; cases h : a.sign <;> simp [h] at ha ⊢
  have key : (Sat (.ok { a with sign := .zero } : Exec (Aesi n)) fun r => Aesi.isZero r = true ∧
      eqIntegral r 0 = .ok true ∧ toNat (unsignedCast r) = (toInt a).natAbs) :=
    Sat.ok ⟨rfl, rfl, hv⟩
  refine ⟨?_, ?_, ?_⟩
  · have hsub : sub cfg a a = .ok { a with sign := .zero } := by
      have hs : a.sign ≠ .zero := fun h => ha (toInt_zero h)
      have hcmp : Aeu.compareTo cfg a.base a.base = .ok .equal := by
        rw [Aeu.compareTo_spec]; simp [Aeu.cmpNat]
      unfold sub
      rw [if_neg hs, if_neg hs]
      cases h : a.sign <;> simp [subMagnitude, hcmp] <;> exact absurd h hs
    rw [hsub]; exact key
  · rw [mul, if_pos (by simp [Aesi.isZero, hz])]; exact key
  · rw [mulIntegral, if_pos rfl]; exact key

/-- C44 concretely: `Aesi<64> a = 5; a -= a;` then `a == 0` but `a.isOdd()`, `a.bitCount() == 3`. -/
theorem C44_counterexample : ∃ r, sub lp64 (ofInt 2 5) (ofInt 2 5) = .ok r ∧ eqIntegral r 0 = .ok true ∧
    Aesi.isOdd r = .ok true ∧ Aesi.bitCount r = .ok 3 ∧ Aesi.getBit lp64 r 0 = .ok true :=
  ⟨⟨.zero, Aeu.ofNat 2 5⟩, by decide +kernel⟩

/-! ### Concrete cases that meet the hypotheses -/

/-- The hypotheses of `C43_is_zero_partial` are met. -/
example := C43_is_zero_partial ⟨false, false, false⟩ (by omega) (.seq (.op (.inc 0)) (.op (.neg 1 0)))
  (fun _ => Aesi.ofInt 2 (2 ^ 40)) (fun _ => by decide +kernel) _ rfl

/-- The hypotheses of `C43_constructors` are met. -/
example := C43_constructors (n := 2) asciiAlnum [45, 49, 50] (t := .i64) (by decide) (i := -2 ^ 40) (by decide)
  (by decide) (by decide +kernel)

/-- The hypotheses of `C44_digits_nonzero` are met. -/
example := C44_digits_nonzero ⟨false, false, false⟩ rfl (Aesi.ofInt 2 (-2 ^ 40)) (by decide +kernel) 40

/-- The hypotheses of `C44_clean_partial` are met. -/
example := C44_clean_partial ⟨false, false, false⟩ (by omega) (Aesi.ofInt 2 (-2 ^ 40)) (Aesi.ofInt 2 77) (Aesi.ofInt 2 5)
  (Aesi.ofInt 2 6) (by decide +kernel) (by decide +kernel) .i64 (by decide) (-2 ^ 40) (by decide) (by decide)
  (by decide +kernel)

/-- The hypotheses of `C44_stale` are met. -/
example := C44_stale ⟨false, false, false⟩ .i64 (Aesi.ofInt 2 (-2 ^ 40)) (Aesi.ofInt 2 0) (by decide +kernel)
  (by decide +kernel)

end AesiMP
