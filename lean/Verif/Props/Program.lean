import Verif.Lemmas.Count

/-!
# C57: any program over `Aeu` refines arithmetic on natural numbers modulo `2^bitness`

A program works on registers `0, 1, 2, ...`, each holding one `Aeu<bitness>`.  It is built from the
library's operations, sequencing, `if` and bounded `while`.  `Prog.run` executes the model of the
C++ code; `Prog.eval` is the specification: the same program over natural numbers.
-/

namespace AesiMP
open Aeu
variable {n : Nat}

/-- One library call: destination register first. -/
inductive Op where
  | const (d : Nat) (v : BitVec 64)       -- d = Aeu(v)
  | copy (d a : Nat)                      -- d = a
  | neg (d a : Nat) | not (d a : Nat)     -- d = -a;  d = ~a
  | inc (d : Nat) | dec (d : Nat)         -- ++d; --d
  | add (d a b : Nat) | sub (d a b : Nat) | mul (d a b : Nat)
  | mulU64 (d : Nat) (v : BitVec 64)      -- d *= v
  | div (d a b : Nat) | mod (d a b : Nat)
  | and (d a b : Nat) | or (d a b : Nat) | xor (d a b : Nat)
  | shl (d a s : Nat) | shr (d a s : Nat)
  | setBit (d i : Nat) (v : Bool)
  | swap (a b : Nat)                      -- a.swap(b)
  | gcd (d a b : Nat) | lcm (d a b : Nat) | sqrt (d a : Nat) | power2 (d k : Nat)

/-- Tests on registers. -/
inductive Cond where
  | eq (a b : Nat) | lt (a b : Nat) | le (a b : Nat) | isZero (a : Nat) | isOdd (a : Nat)
  | bit (a i : Nat)

inductive Prog where
  | op (o : Op)
  | seq (p q : Prog)
  | ite (c : Cond) (p q : Prog)
  /-- `while(c) p`, at most `k` iterations -/
  | loop (k : Nat) (c : Cond) (p : Prog)

/-- Update of one register. -/
def upd {α : Type} (s : Nat → α) (d : Nat) (v : α) : Nat → α := fun i => if i = d then v else s i

/-! ### The library -/

def Op.run (cfg : Cfg) (s : Nat → Aeu n) : Op → Exec (Nat → Aeu n)
  | .const d v => do let r ← ofUnsigned n v; .ok (upd s d r)
  | .copy d a => .ok (upd s d (s a))
  | .neg d a => do let r ← Aeu.neg (s a); .ok (upd s d r)
  | .not d a => do let r ← Aeu.not (s a); .ok (upd s d r)
  | .inc d => do let r ← Aeu.inc (s d); .ok (upd s d r)
  | .dec d => do let r ← Aeu.dec (s d); .ok (upd s d r)
  | .add d a b => do let r ← Aeu.add (s a) (s b); .ok (upd s d r)
  | .sub d a b => do let r ← Aeu.sub (s a) (s b); .ok (upd s d r)
  | .mul d a b => do let r ← Aeu.mul (s a) (s b); .ok (upd s d r)
  | .mulU64 d v => do let r ← Aeu.mulU64 (s d) v; .ok (upd s d r)
  | .div d a b => do let r ← Aeu.div cfg (s a) (s b); .ok (upd s d r)
  | .mod d a b => do let r ← Aeu.mod cfg (s a) (s b); .ok (upd s d r)
  | .and d a b => do let r ← Aeu.and (s a) (s b); .ok (upd s d r)
  | .or d a b => do let r ← Aeu.or (s a) (s b); .ok (upd s d r)
  | .xor d a b => do let r ← Aeu.xor (s a) (s b); .ok (upd s d r)
  | .shl d a k => do let r ← Aeu.shl (s a) k; .ok (upd s d r)
  | .shr d a k => do let r ← Aeu.shr (s a) k; .ok (upd s d r)
  | .setBit d i v => do let r ← Aeu.setBit cfg (s d) i v; .ok (upd s d r)
  | .swap a b => let r := Aeu.swap (s a) (s b); .ok (upd (upd s a r.1) b r.2)
  | .gcd d a b => do let r ← Aeu.gcd cfg (s a) (s b); .ok (upd s d r)
  | .lcm d a b => do let r ← Aeu.lcm cfg (s a) (s b); .ok (upd s d r)
  | .sqrt d a => do let r ← Aeu.squareRoot cfg (s a); .ok (upd s d r)
  | .power2 d k => do let r ← Aeu.power2 cfg n k; .ok (upd s d r)

def Cond.run (cfg : Cfg) (s : Nat → Aeu n) : Cond → Exec Bool
  | .eq a b => Aeu.eq cfg (s a) (s b)
  | .lt a b => Aeu.lt cfg (s a) (s b)
  | .le a b => Aeu.le cfg (s a) (s b)
  | .isZero a => Aeu.isZero (s a)
  | .isOdd a => Aeu.isOdd (s a)
  | .bit a i => Aeu.getBit cfg (s a) i

/-- Bounded `while`, in any monad-free form. -/
def loopExec {σ : Type} (c : σ → Exec Bool) (p : σ → Exec σ) : Nat → σ → Exec σ
  | 0, s => .ok s
  | k + 1, s => do
    if ← c s then do
      let s ← p s
      loopExec c p k s
    else .ok s

def Prog.run (cfg : Cfg) : Prog → (Nat → Aeu n) → Exec (Nat → Aeu n)
  | .op o, s => o.run cfg s
  | .seq p q, s => do let s ← p.run cfg s; q.run cfg s
  | .ite c p q, s => do if ← c.run cfg s then p.run cfg s else q.run cfg s
  | .loop k c p, s => loopExec (fun s => c.run cfg s) (fun s => p.run cfg s) k s

/-! ### The specification: natural numbers below `W = 2^bitness` -/

/-- Number of base-`2^32` digits. -/
def blocksUsed (v : Nat) : Nat := if v = 0 then 0 else blocksUsed (v / 2 ^ 32) + 1
termination_by v
decreasing_by exact Nat.div_lt_self (by omega) (by norm_num)

/-- What `/` yields: the quotient, with the library's convention for the divisor 0. -/
def quot (a b : Nat) : Nat :=
  if b ≠ 0 then a / b else if a = 0 then 1 else 2 ^ (32 * blocksUsed a) - 1

def Op.eval (W bits : Nat) (s : Nat → Nat) : Op → Nat → Nat
  | .const d v => upd s d (v.toNat % W)
  | .copy d a => upd s d (s a)
  | .neg d a => upd s d ((W - s a) % W)
  | .not d a => upd s d (W - 1 - s a)
  | .inc d => upd s d ((s d + 1) % W)
  | .dec d => upd s d ((s d + (W - 1)) % W)
  | .add d a b => upd s d ((s a + s b) % W)
  | .sub d a b => upd s d ((s a + (W - s b)) % W)
  | .mul d a b => upd s d (s a * s b % W)
  | .mulU64 d v => upd s d (s d * v.toNat % W)
  | .div d a b => upd s d (quot (s a) (s b))
  | .mod d a b => upd s d (s a % s b)
  | .and d a b => upd s d (s a &&& s b)
  | .or d a b => upd s d (s a ||| s b)
  | .xor d a b => upd s d (s a ^^^ s b)
  | .shl d a k => upd s d (if k < bits then s a * 2 ^ k % W else s a)
  | .shr d a k => upd s d (if k < bits then s a / 2 ^ k else s a)
  | .setBit d i v => upd s d (if i < bits then (s d - (if (s d).testBit i then 2 ^ i else 0)) +
      (if v then 2 ^ i else 0) else s d)
  | .swap a b => upd (upd s a (s b)) b (s a)
  | .gcd d a b => upd s d (Nat.gcd (s a) (s b))
  | .lcm d a b => upd s d (Nat.lcm (s a) (s b) % W)
  | .sqrt d a => upd s d (Nat.sqrt (s a))
  | .power2 d k => upd s d (if k < bits then 2 ^ k else 0)

def Cond.eval (s : Nat → Nat) : Cond → Bool
  | .eq a b => s a = s b
  | .lt a b => s a < s b
  | .le a b => s a ≤ s b
  | .isZero a => s a = 0
  | .isOdd a => s a % 2 = 1
  | .bit a i => (s a).testBit i

def loopEval {σ : Type} (c : σ → Bool) (p : σ → σ) : Nat → σ → σ
  | 0, s => s
  | k + 1, s => if c s then loopEval c p k (p s) else s

def Prog.eval (W bits : Nat) : Prog → (Nat → Nat) → Nat → Nat
  | .op o, s => o.eval W bits s
  | .seq p q, s => q.eval W bits (p.eval W bits s)
  | .ite c p q, s => if c.eval s then p.eval W bits s else q.eval W bits s
  | .loop k c p, s => loopEval (fun s => c.eval s) (fun s => p.eval W bits s) k s

/-! ### Proof -/

/-- The numbers held by the registers. -/
def values (s : Nat → Aeu n) : Nat → Nat := fun i => toNat (s i)

theorem values_upd (s : Nat → Aeu n) (d : Nat) (r : Aeu n) :
    values (upd s d r) = upd (values s) d (toNat r) := by
  funext i; simp only [values, upd]; split <;> rfl

theorem blocksUsed_spec (v : Nat) : v < 2 ^ (32 * blocksUsed v) ∧
    (0 < blocksUsed v → 2 ^ (32 * (blocksUsed v - 1)) ≤ v) := by
  induction v using Nat.strong_induction_on with
  | _ v ih =>
    rw [blocksUsed]
    split
    · rename_i h; subst h; simp
    · rename_i h
      obtain ⟨h1, h2⟩ := ih (v / 2 ^ 32) (Nat.div_lt_self (by omega) (by norm_num))
      refine ⟨?_, fun _ => ?_⟩
      · rw [Nat.mul_add, Nat.mul_one, Nat.pow_add, Nat.mul_comm]
        rw [Nat.div_lt_iff_lt_mul (by norm_num)] at h1
        rw [Nat.mul_comm]; exact h1
      · rw [Nat.add_sub_cancel]
        rcases Nat.eq_zero_or_pos (blocksUsed (v / 2 ^ 32)) with h0 | h0
        · rw [h0]; simp; omega
        · have := h2 h0
          rw [Nat.le_div_iff_mul_le (by norm_num), ← Nat.pow_add] at this
          rwa [show 32 * (blocksUsed (v / 2 ^ 32) - 1) + 32 = 32 * blocksUsed (v / 2 ^ 32) by omega] at this

theorem filled_blocksUsed (a : Aeu n) : filledBlocksNumber a = .ok (blocksUsed (toNat a)) := by
  obtain ⟨k, hk, _, h1, h2⟩ := filledBlocksNumber_nat a
  obtain ⟨h3, h4⟩ := blocksUsed_spec (toNat a)
  rw [hk]
  congr 1
  rcases Nat.lt_trichotomy k (blocksUsed (toNat a)) with h | h | h
  · have := h4 (by omega)
    have : 2 ^ (32 * k) ≤ 2 ^ (32 * (blocksUsed (toNat a) - 1)) :=
      Nat.pow_le_pow_right (by norm_num) (by omega)
    omega
  · exact h
  · have := h2 (by omega)
    have : 2 ^ (32 * blocksUsed (toNat a)) ≤ 2 ^ (32 * (k - 1)) :=
      Nat.pow_le_pow_right (by norm_num) (by omega)
    omega

theorem div_quot (cfg : Cfg) (hn : 0 < n) (a b : Aeu n) :
    Returns (div cfg a b) (quot (toNat a) (toNat b)) := by
  unfold quot
  split
  · rename_i h; exact div_spec cfg hn a b h
  · rename_i h
    have hb : toNat b = 0 := by simpa using h
    by_cases ha : toNat a = 0
    · obtain ⟨r, hr, h1, _⟩ := divide_zero_zero cfg hn a b hb ha
      exact ⟨r.1, by simp [div, hr], by simp [ha, h1]⟩
    · obtain ⟨r, hr, ⟨k, hk, h1⟩, _⟩ := divide_zero_pos cfg hn a b hb (by omega)
      rw [filled_blocksUsed] at hk
      injection hk with hk
      exact ⟨r.1, by simp [div, hr], by simp only [if_neg ha]; rw [h1, hk]⟩

theorem mod_total (cfg : Cfg) (hn : 0 < n) (a b : Aeu n) :
    Returns (mod cfg a b) (toNat a % toNat b) := by
  obtain ⟨r, hr, h1, _⟩ := divide_total cfg hn a b
  exact ⟨r.2, by simp [mod, hr], h1⟩

/-- Replacing one binary digit, numerically. -/
theorem replace_bit (x i : Nat) (v : Bool) (r : Nat)
    (h : ∀ k, r.testBit k = if k = i then v else x.testBit k) :
    r = (x - (if x.testBit i then 2 ^ i else 0)) + (if v then 2 ^ i else 0) := by
  have key : ∀ y : Nat, y % 2 ^ i + 2 ^ i * ((y.testBit i).toNat + 2 * (y / 2 ^ (i + 1))) = y := by
    intro y
    have h2 := Nat.div_add_mod y (2 ^ i)
    have h3 := Nat.div_add_mod (y / 2 ^ i) 2
    rw [Nat.div_div_eq_div_mul, ← Nat.pow_succ] at h3
    have h4 : (y.testBit i).toNat = y / 2 ^ i % 2 := by
      rw [Nat.testBit_eq_decide_div_mod_eq]
      rcases Nat.mod_two_eq_zero_or_one (y / 2 ^ i) with h | h <;> simp [h]
    rw [h4, Nat.add_comm (y / 2 ^ i % 2), h3]; omega
  have hlow : r % 2 ^ i = x % 2 ^ i := by
    apply Nat.eq_of_testBit_eq
    intro k
    rw [Nat.testBit_mod_two_pow, Nat.testBit_mod_two_pow, h k]
    by_cases hk : k < i
    · have : k ≠ i := by omega
      simp [this]
    · simp [hk]
  have hhigh : r / 2 ^ (i + 1) = x / 2 ^ (i + 1) := by
    apply Nat.eq_of_testBit_eq
    intro k
    rw [Nat.testBit_div_two_pow, Nat.testBit_div_two_pow, h _]
    have : k + (i + 1) ≠ i := by omega
    simp [this]
  have hr := key r
  have hx := key x
  have hbit : r.testBit i = v := by rw [h i]; simp
  rw [hlow, hhigh, hbit] at hr
  rw [Nat.mul_add] at hr hx
  cases v <;> cases hb : x.testBit i <;> simp only [hb, Bool.toNat_true, Bool.toNat_false] at hr hx ⊢ <;>
    simp <;> omega

theorem setBit_value (cfg : Cfg) (hs : cfg.unsafeMode = false) (x : Aeu n) (i : Nat) (v : Bool) :
    Returns (setBit cfg x i v) (if i < 32 * n then (toNat x - (if (toNat x).testBit i then 2 ^ i else 0)) +
      (if v then 2 ^ i else 0) else toNat x) := by
  split
  · rename_i h
    exact Sat.mono (setBit_sat cfg x v h) fun r hr => replace_bit _ _ _ _ hr
  · rename_i h
    rw [setBit_ge cfg hs x v (by omega)]
    exact Sat.ok rfl

theorem getBit_value (cfg : Cfg) (hs : cfg.unsafeMode = false) (x : Aeu n) (i : Nat) :
    getBit cfg x i = .ok ((toNat x).testBit i) := by
  by_cases h : i < 32 * n
  · exact getBit_spec cfg x h
  · rw [getBit_ge cfg hs x (by omega), Nat.testBit_lt_two_pow]
    exact Nat.lt_of_lt_of_le (toNat_lt x) (Nat.pow_le_pow_right (by norm_num) (by omega))

theorem sat_upd {e : Exec (Aeu n)} {v : Nat} {s : Nat → Aeu n} {d : Nat} (h : Returns e v) :
    Sat (do let r ← e; .ok (upd s d r)) fun s' => values s' = upd (values s) d v := by
  obtain ⟨r, rfl, hr⟩ := h
  simp only [ok_bind, sat_ok, values_upd, hr]

theorem Op.run_spec (cfg : Cfg) (hs : cfg.unsafeMode = false) (hn : 0 < n) (o : Op)
    (s : Nat → Aeu n) :
    Sat (o.run cfg s) fun s' => values s' = o.eval (2 ^ (32 * n)) (32 * n) (values s) := by
  cases o with
  | const d v => exact sat_upd (ofUnsigned_spec (le_refl _) v)
  | copy d a => exact Sat.ok (values_upd _ _ _)
  | neg d a => exact sat_upd (neg_spec _)
  | not d a => exact sat_upd (not_spec _)
  | inc d => exact sat_upd (inc_spec _)
  | dec d => exact sat_upd (dec_spec _)
  | add d a b => exact sat_upd (add_spec _ _)
  | sub d a b => exact sat_upd (sub_spec _ _)
  | mul d a b => exact sat_upd (mul_spec _ _)
  | mulU64 d v => exact sat_upd (mulU64_spec _ _)
  | div d a b => exact sat_upd (div_quot cfg hn _ _)
  | mod d a b => exact sat_upd (mod_total cfg hn _ _)
  | and d a b => exact sat_upd (and_spec _ _)
  | or d a b => exact sat_upd (or_spec _ _)
  | xor d a b => exact sat_upd (xor_spec _ _)
  | shl d a k =>
    refine sat_upd ?_
    split
    · rename_i h; exact shl_spec h
    · rename_i h; rw [shl_ge (by omega)]; exact Sat.ok rfl
  | shr d a k =>
    refine sat_upd ?_
    split
    · rename_i h; exact shr_spec h
    · rename_i h; rw [shr_ge (by omega)]; exact Sat.ok rfl
  | setBit d i v => exact sat_upd (setBit_value cfg hs _ _ _)
  | swap a b => exact Sat.ok (by simp only [values_upd, Op.eval]; rfl)
  | gcd d a b => exact sat_upd (gcd_spec cfg hn _ _)
  | lcm d a b => exact sat_upd (lcm_spec cfg hn _ _)
  | sqrt d a => exact sat_upd (squareRoot_spec cfg hn _)
  | power2 d k =>
    refine sat_upd ?_
    split
    · rename_i h; exact power2_spec cfg h
    · rename_i h; exact power2_ge cfg hs (by omega)

theorem Cond.run_spec (cfg : Cfg) (hs : cfg.unsafeMode = false) (hn : 0 < n) (c : Cond)
    (s : Nat → Aeu n) : c.run cfg s = .ok (c.eval (values s)) := by
  cases c with
  | eq a b => exact eq_spec cfg _ _
  | lt a b => exact lt_spec cfg _ _
  | le a b => exact le_spec cfg _ _
  | isZero a => exact isZero_spec _
  | isOdd a => exact isOdd_spec hn _
  | bit a i => exact getBit_value cfg hs _ _

/-- C57: for every program and every initial state, running the library code has no undefined
behaviour, and the numbers in the registers are those of the specification. -/
theorem C57_program_refinement (cfg : Cfg) (hs : cfg.unsafeMode = false) (hn : 0 < n) (p : Prog)
    (s : Nat → Aeu n) :
    Sat (p.run cfg s) fun s' =>
      (fun i => toNat (s' i)) = p.eval (2 ^ (32 * n)) (32 * n) (fun i => toNat (s i)) := by
  show Sat (p.run cfg s) fun s' => values s' = p.eval (2 ^ (32 * n)) (32 * n) (values s)
  induction p generalizing s with
  | op o => exact Op.run_spec cfg hs hn o s
  | seq p q ihp ihq =>
    refine Sat.bind (ihp s) fun s' hs' => ?_
    simp only [Prog.eval, ← hs']
    exact ihq s'
  | ite c p q ihp ihq =>
    simp only [Prog.run, Prog.eval, Cond.run_spec cfg hs hn, ok_bind]
    split
    · exact ihp s
    · exact ihq s
  | loop k c p ih =>
    simp only [Prog.run, Prog.eval, Cond.run_spec cfg hs hn]
    induction k generalizing s with
    | zero => exact Sat.ok rfl
    | succ k ihk =>
      simp only [loopExec, loopEval, ok_bind]
      split
      · refine Sat.bind (ih s) fun s' hs' => ?_
        simp only [← hs']
        exact ihk s'
      · exact Sat.ok rfl

/-- Example: factorial of register 0 (clobbered) into register 1. -/
def factProg (k : Nat) : Prog :=
  .seq (.op (.const 1 1#64)) (.loop k (.isOdd 2) (.seq (.op (.mul 1 1 0)) (.seq (.op (.dec 0))
    (.ite (.isZero 0) (.op (.copy 2 0)) (.op (.copy 1 1))))))

/-- The specification of the example computes 20! (register 2 holds 1 while running). -/
example : (factProg 100).eval (2 ^ 96) 96 (fun i => if i = 0 then 20 else 1) 1 =
    2432902008176640000 := by decide +kernel

/-- ... and so does the library code. -/
example : ((factProg 100).run (n := 3) ⟨false, false, false⟩
    (fun i => if i = 0 then ofNat 3 20 else ofNat 3 1)).map (fun s => s 1) =
    .ok (ofNat 3 2432902008176640000) := by decide +kernel

end AesiMP
