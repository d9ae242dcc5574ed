import Verif.Lemmas.SignedWrap
import Verif.Props.SignedProgram
import Verif.Props.Access

/-!
# C67, C70, C71: signed digit access; signed arithmetic beyond the precision

`x.tmod y` is the remainder of the division truncated toward zero: it has the sign of `x`.
-/

namespace AesiMP
open Aesi
open Aeu (toNat)
variable {n : Nat}

/-! ### C70 -/

/-- C70: `+`, `-`, `*` for all operands: the magnitude of the exact result is truncated to the
precision, the sign is that of the exact result. -/
theorem C70_ring_wrap (cfg : Cfg) (a b : Aesi n) :
    (Sat (add cfg a b) fun r => toInt r = (toInt a + toInt b).tmod (2 ^ (32 * n))) ∧
    (Sat (sub cfg a b) fun r => toInt r = (toInt a - toInt b).tmod (2 ^ (32 * n))) ∧
    (Sat (mul a b) fun r => toInt r = (toInt a * toInt b).tmod (2 ^ (32 * n))) :=
  ⟨add_wrap cfg a b, sub_wrap cfg a b, mul_wrap a b⟩

/-- C70: `++`, `--` at the ends of the range. -/
theorem C70_inc_dec_wrap_partial (hn : 0 < n) (a : Aesi n) (ha : Canon a) :
    (Sat (inc a) fun r => toInt r = (toInt a + 1).tmod (2 ^ (32 * n))) ∧
    (Sat (dec a) fun r => toInt r = (toInt a - 1).tmod (2 ^ (32 * n))) :=
  ⟨inc_wrap hn a ha, dec_wrap hn a ha⟩

/-- C70: construction from a built-in value that does not fit (only possible for a precision of 32
bits), and multiplication by a built-in value. -/
theorem C70_builtin_wrap (cfg : Cfg) {t : ITy} (ht : t ∈ ITy.all) (a : Aesi n) {i : Int}
    (hr : t.InRange i) (hm : ¬ (t.signed = true ∧ i = -(2 : Int) ^ (t.width - 1))) :
    (Sat (ofIntegral n t i) fun r => toInt r = i.tmod (2 ^ (32 * n))) ∧
    (cfg.u64IsULL = true ∨ i.natAbs ≤ 2 ^ 32 →
      Sat (mulIntegral cfg t a i) fun r => toInt r = (toInt a * i).tmod (2 ^ (32 * n))) :=
  ⟨ofIntegral_wrap ht hr (fun h => hm h.1), mulIntegral_wrap cfg ht a hr hm⟩

/-- C70: the wrap can leave an object that represents 0 but reports a positive sign: 2^63 + 2^63 in
64 bits. -/
theorem C70_false_sign : ∃ r, add lp64 (ofInt 2 (2 ^ 63)) (ofInt 2 (2 ^ 63)) = .ok r ∧ toInt r = 0 ∧
    Aesi.isZero r = false ∧ Aesi.isPositive r = true :=
  ⟨⟨.positive, Aeu.ofNat 2 0⟩, by decide +kernel⟩

example : add lp64 (ofInt 2 (-(2 ^ 63))) (ofInt 2 (-(2 ^ 63 + 5))) = .ok (ofInt 2 (-5)) ∧
    (-(2 ^ 63) + -(2 ^ 63 + 5) : Int).tmod (2 ^ 64) = -5 := by decide +kernel
example : mul (ofInt 2 (-(2 ^ 40))) (ofInt 2 (2 ^ 40 + 1)) = .ok (ofInt 2 (-(2 ^ 40))) := by
  decide +kernel
example : goodOperand ITy.i64 (-(2 ^ 40)) ∧ ofIntegral 1 ITy.i64 (-(2 ^ 40 + 3)) = .ok (ofInt 1 (-3)) := by
  decide +kernel

/-! ### C71 -/

/-- Straight-line ring computations over registers. -/
inductive ROp where
  | const (d : Nat) (t : ITy) (v : Int)
  | copy (d a : Nat) | neg (d a : Nat) | inverse (d : Nat) | inc (d : Nat) | dec (d : Nat)
  | add (d a b : Nat) | sub (d a b : Nat) | mul (d a b : Nat)
  | mulI (d a : Nat) (t : ITy) (v : Int)
  | swap (a b : Nat)

/-- The library. -/
def ROp.run (cfg : Cfg) (s : Nat → Aesi n) : ROp → Exec (Nat → Aesi n)
  | .const d t v => do let r ← ofIntegral n t v; .ok (upd s d r)
  | .copy d a => .ok (upd s d (s a))
  | .neg d a => .ok (upd s d (Aesi.neg (s a)))
  | .inverse d => .ok (upd s d (Aesi.inverse (s d)))
  | .inc d => do let r ← Aesi.inc (s d); .ok (upd s d r)
  | .dec d => do let r ← Aesi.dec (s d); .ok (upd s d r)
  | .add d a b => do let r ← Aesi.add cfg (s a) (s b); .ok (upd s d r)
  | .sub d a b => do let r ← Aesi.sub cfg (s a) (s b); .ok (upd s d r)
  | .mul d a b => do let r ← Aesi.mul (s a) (s b); .ok (upd s d r)
  | .mulI d a t v => do let r ← mulIntegral cfg t (s a) v; .ok (upd s d r)
  | .swap a b => let r := Aesi.swap (s a) (s b); .ok (upd (upd s a r.1) b r.2)

/-- The same over the (unbounded) integers. -/
def ROp.eval (s : Nat → Int) : ROp → Nat → Int
  | .const d _ v => upd s d v
  | .copy d a => upd s d (s a)
  | .neg d a => upd s d (-s a)
  | .inverse d => upd s d (-s d)
  | .inc d => upd s d (s d + 1)
  | .dec d => upd s d (s d - 1)
  | .add d a b => upd s d (s a + s b)
  | .sub d a b => upd s d (s a - s b)
  | .mul d a b => upd s d (s a * s b)
  | .mulI d a _ v => upd s d (s a * v)
  | .swap a b => upd (upd s a (s b)) b (s a)

/-- Built-in operands that the library handles (C47, C49): not the minimum of the type; as a factor, not
above `2^32` where `unsigned long long` is not `uint64_t`. -/
def ROp.Ok (cfg : Cfg) : ROp → Prop
  | .const _ t v => goodOperand t v
  | .mulI _ _ t v => goodOperand t v ∧ (cfg.u64IsULL = true ∨ v.natAbs ≤ 2 ^ 32)
  | _ => True

def runAll (cfg : Cfg) : List ROp → (Nat → Aesi n) → Exec (Nat → Aesi n)
  | [], s => .ok s
  | o :: os, s => do let s ← o.run cfg s; runAll cfg os s

def evalAll : List ROp → (Nat → Int) → Nat → Int
  | [], s => s
  | o :: os, s => evalAll os (o.eval s)

private theorem cong_upd {M : Int} {s : Nat → Aesi n} {v : Nat → Int}
    (h : ∀ i, toInt (s i) ≡ v i [ZMOD M]) (d : Nat) {r : Aesi n} {x : Int}
    (hr : toInt r ≡ x [ZMOD M]) : ∀ i, toInt (upd s d r i) ≡ upd v d x i [ZMOD M] := by
  intro i
  unfold upd
  split
  · exact hr
  · exact h i

theorem ROp.run_mod (cfg : Cfg) (hn : 0 < n) (o : ROp) (ho : o.Ok cfg) (s : Nat → Aesi n)
    (v : Nat → Int) (h : ∀ i, toInt (s i) ≡ v i [ZMOD 2 ^ (32 * n)]) :
    Sat (o.run cfg s) fun s' => ∀ i, toInt (s' i) ≡ o.eval v i [ZMOD 2 ^ (32 * n)] := by
  have wrap : ∀ {e : Exec (Aesi n)} {x y : Int} {d : Nat},
      (Sat e fun r => toInt r = x.tmod (2 ^ (32 * n))) → x ≡ y [ZMOD 2 ^ (32 * n)] →
      Sat (do let r ← e; .ok (upd s d r)) fun s' =>
        ∀ i, toInt (s' i) ≡ upd v d y i [ZMOD 2 ^ (32 * n)] := by
    intro e x y d he hxy
    refine Sat.bind he fun r hr => Sat.ok (cong_upd h d ?_)
    rw [hr]; exact (tmod_modEq _ _).trans hxy
  cases o with
  | const d t i => exact wrap (ofIntegral_wrap ho.1 ho.2.1 (fun hm => ho.2.2 hm.1)) rfl
  | copy d a => exact Sat.ok (cong_upd h d (h a))
  | neg d a =>
    refine Sat.ok (cong_upd h d ?_)
    show toInt (Aesi.inverse _) ≡ _ [ZMOD _]
    rw [toInt_inverse]; exact (h a).neg
  | inverse d =>
    refine Sat.ok (cong_upd h d ?_)
    rw [toInt_inverse]; exact (h d).neg
  | inc d => exact Sat.bind (inc_mod hn (s d)) fun r hr => Sat.ok (cong_upd h d
      (hr.trans ((h d).add_right 1)))
  | dec d => exact Sat.bind (dec_mod hn (s d)) fun r hr => Sat.ok (cong_upd h d
      (hr.trans ((h d).sub_right 1)))
  | add d a b => exact wrap (add_wrap cfg _ _) ((h a).add (h b))
  | sub d a b => exact wrap (sub_wrap cfg _ _) ((h a).sub (h b))
  | mul d a b => exact wrap (mul_wrap _ _) ((h a).mul (h b))
  | mulI d a t i =>
    exact wrap (mulIntegral_wrap cfg ho.1.1 _ ho.1.2.1 ho.1.2.2 ho.2) ((h a).mul_right i)
  | swap a b => exact Sat.ok (cong_upd (cong_upd h a (h b)) b (h a))

/-- C71: any straight-line computation with construction, copy, `+`, `-`, `*`, negation, `++`, `--`
and `swap`, started on any objects and through any number of overflows, has no undefined behaviour
and leaves in every register an integer congruent modulo `2^bitness` to the exact result. -/
theorem C71_ring_programs (cfg : Cfg) (hn : 0 < n) (p : List ROp) (hp : ∀ o ∈ p, o.Ok cfg)
    (s : Nat → Aesi n) :
    Sat (runAll cfg p s) fun s' => ∀ i,
      toInt (s' i) % 2 ^ (32 * n) = evalAll p (fun i => toInt (s i)) i % 2 ^ (32 * n) := by
  suffices H : ∀ (p : List ROp), (∀ o ∈ p, o.Ok cfg) → ∀ (s : Nat → Aesi n) (v : Nat → Int),
      (∀ i, toInt (s i) ≡ v i [ZMOD 2 ^ (32 * n)]) →
      Sat (runAll cfg p s) fun s' => ∀ i, toInt (s' i) ≡ evalAll p v i [ZMOD 2 ^ (32 * n)] from
    H p hp s _ (fun i => rfl)
  intro p
  induction p with
  | nil => intro _ s v h; exact Sat.ok h
  | cons o os ih =>
    intro hp s v h
    exact Sat.bind (ROp.run_mod cfg hn o (hp o (by simp)) s v h) fun s' h' =>
      ih (fun o ho => hp o (by simp [ho])) s' _ h'

/-- Consequence: whenever the exact final result is known to fit and to have the sign of the object,
intermediate overflows did no harm.  Example: `(x * x - x * x) + 7` with `x * x` overflowing. -/
example : (runAll (n := 2) lp64 [.const 0 ITy.i64 (2 ^ 40), .mul 1 0 0, .sub 2 1 1, .const 3 ITy.i32 7,
    .add 4 2 3] (fun _ => ofInt 2 0)).map (fun s => toInt (s 4)) = .ok 7 ∧
    (∀ o ∈ [ROp.const 0 ITy.i64 (2 ^ 40), .mul 1 0 0, .sub 2 1 1, .const 3 ITy.i32 7, .add 4 2 3],
      o.Ok lp64) := by
  constructor
  · decide +kernel
  · intro o ho
    simp only [List.mem_cons, List.mem_nil_iff, or_false] at ho
    rcases ho with rfl | rfl | rfl | rfl | rfl <;> simp only [ROp.Ok] <;> decide +kernel

/-! ### C67 -/

/-- C67: the digit setters change exactly the addressed bit/byte/block of the magnitude and never the
sign. -/
theorem C67_setters (cfg : Cfg) (a : Aesi n) :
    (∀ i v, i < 32 * n → Sat (Aesi.setBit cfg a i v) fun r => r.sign = a.sign ∧
      ∀ j, j < 32 * n → Aesi.getBit cfg r j = if j = i then .ok v else Aesi.getBit cfg a j) ∧
    (∀ i v, i < 4 * n → Sat (Aesi.setByte cfg a i v) fun r => r.sign = a.sign ∧
      ∀ j, j < 4 * n → Aesi.getByte cfg r j = if j = i then .ok v else Aesi.getByte cfg a j) ∧
    (∀ i v, i < n → Sat (Aesi.setBlock cfg a i v) fun r => r.sign = a.sign ∧
      ∀ j, j < n → Aesi.getBlock cfg r j = if j = i then .ok v else Aesi.getBlock cfg a j) := by
  refine ⟨fun i v hi => ?_, fun i v hi => ?_, fun i v hi => ?_⟩
  · exact Sat.bind (C12_setBit cfg a.base i v hi) fun b hb => Sat.ok ⟨rfl, hb⟩
  · exact Sat.bind (C13_setByte cfg a.base i v hi) fun b hb => Sat.ok ⟨rfl, hb⟩
  · exact Sat.bind (C14_setBlock cfg a.base i v hi) fun b hb => Sat.ok ⟨rfl, hb⟩

theorem natAbs_of_ne_zero (a : Aesi n) (ha : toInt a ≠ 0) : toNat a.base = (toInt a).natAbs := by
  unfold toInt at *; cases h : a.sign <;> simp [h] at ha ⊢

/-- C67: for a non-zero number the observers report the digits, the sizes and the parity of its
absolute value. -/
theorem C67_observers (cfg : Cfg) (hn : 0 < n) (a : Aesi n) (ha : toInt a ≠ 0) :
    (∀ i, i < 32 * n → Aesi.getBit cfg a i = .ok ((toInt a).natAbs.testBit i)) ∧
    (∀ i, i < 4 * n → Sat (Aesi.getByte cfg a i) fun b =>
      b.toNat = (toInt a).natAbs / 256 ^ i % 256) ∧
    (∀ i, i < n → Sat (Aesi.getBlock cfg a i) fun b =>
      b.toNat = (toInt a).natAbs / 2 ^ (32 * i) % 2 ^ 32) ∧
    Aesi.bitCount a = .ok (Nat.log 2 (toInt a).natAbs + 1) ∧
    Aesi.byteCount a = .ok (Nat.log 256 (toInt a).natAbs + 1) ∧
    Aesi.isOdd a = .ok (decide (toInt a % 2 = 1)) ∧
    Aesi.isEven a = .ok (decide (toInt a % 2 = 0)) := by
  have h := natAbs_of_ne_zero a ha
  have h0 : toNat a.base ≠ 0 := by omega
  refine ⟨fun i hi => ?_, fun i hi => ?_, fun i hi => ?_, ?_, ?_, ?_, ?_⟩
  · rw [← h]; exact C12_getBit cfg a.base i hi
  · rw [← h]; exact C13_getByte cfg a.base i hi
  · rw [← h]; exact C14_getBlock cfg a.base i hi
  · rw [← h, Aesi.bitCount, C15_bitCount hn, if_neg h0]
  · rw [← h, Aesi.byteCount, C15_byteCount hn, if_neg h0]
  · rw [Aesi.isOdd, (C15_zero_parity hn a.base).2.1, h]
    congr 2; apply propext; omega
  · rw [Aesi.isEven, (C15_zero_parity hn a.base).2.2, h]
    congr 2; apply propext; omega

/-- C67: `filledBlocksNumber` reports `|a|`. -/
theorem C67_filledBlocks (a : Aesi n) (ha : toInt a ≠ 0) :
    Aesi.filledBlocksNumber a = .ok (Nat.log (2 ^ 32) (toInt a).natAbs + 1) := by
  have h : (toInt a).natAbs = Aeu.toNat a.base := by
    rcases a with ⟨s, b⟩
    cases s <;> simp_all [toInt]
  have h0 : Aeu.toNat a.base ≠ 0 := by rw [← h]; simpa using ha
  unfold Aesi.filledBlocksNumber
  rw [C15_filledBlocksNumber, if_neg h0, h]

example : Aesi.filledBlocksNumber (ofInt 4 (-(2 ^ 40))) = .ok 2 := by decide +kernel

/-- C67: what the setters do to the represented integer.  They cannot make a number out of an object
that is zero: whatever is stored, it still represents 0. -/
theorem C67_zero_stays_zero (cfg : Cfg) (a : Aesi n) (ha : a.sign = .zero) (i : Nat) (v : Bool)
    (hi : i < 32 * n) : Sat (Aesi.setBit cfg a i v) fun r => toInt r = 0 ∧ Aesi.isZero r = true ∧
      Aesi.getBit cfg r i = .ok v := by
  refine Sat.mono ((C67_setters cfg a).1 i v hi) fun r h => ?_
  have hs : r.sign = .zero := h.1.trans ha
  exact ⟨toInt_zero hs, by simp [Aesi.isZero, hs], by rw [h.2 i hi, if_pos rfl]⟩

/-- C67: clearing the last bit of a negative number leaves a "negative zero": it represents 0 and
still reports being negative and not being zero. -/
theorem C67_negative_zero : ∃ r, Aesi.setBit lp64 (ofInt 2 (-1)) 0 false = .ok r ∧ toInt r = 0 ∧
    Aesi.isZero r = false ∧ Aesi.isNegative r = true ∧ eqIntegral r 0 = .ok false :=
  ⟨⟨.negative, Aeu.ofNat 2 0⟩, by decide +kernel⟩

example : toInt (ofInt 2 (-(2 ^ 40))) ≠ 0 ∧ Aesi.bitCount (ofInt 2 (-(2 ^ 40))) = .ok 41 ∧
    Aesi.setBit lp64 (ofInt 2 (-(2 ^ 40))) 3 true = .ok (ofInt 2 (-(2 ^ 40 + 8))) := by
  decide +kernel

end AesiMP
