import Verif.Lemmas.WorkRun

/-!
# C116: how much work a call does

`Work.f` is `f` with a counter of the accesses to single blocks; every theorem says that forgetting the counter
gives the modelled function and bounds (or fixes) the counter, for every value.
-/

namespace AesiMP
open Aeu Counted
namespace Work
variable {n m : Nat}

/-! ### Bounds of the parts -/

theorem within_addLine (a b : Aeu n) : Within (addLine a b) (3 * n) := by
  refine (Within.forUp (b := 3) fun i s => ?_).mono (by omega)
  exact (Within.rd _ _).bind fun _ _ => ((Within.rd _ _).bind fun _ _ => (Within.wr _ _ _).bind fun _ _ =>
    Within.pure _)

theorem within_makeComplement (a : Aeu n) : Within (makeComplement a) (2 * n) := by
  refine (Within.forUp (b := 2) fun i s => ?_).mono (by omega)
  exact (Within.rd _ _).bind fun _ _ => (Within.wr _ _ _).bind fun _ _ => Within.pure _

theorem within_ofUnsigned {w : Nat} (v : BitVec w) : Within (ofUnsigned n v) n := by
  refine Within.ite (fun _ => ?_) fun _ => (Within.pure _).mono (by omega)
  refine ((Within.forUp (b := 1) fun i s => ?_).bind (k := 0) fun _ _ => Within.pure _).mono (by omega)
  exact (Within.wr _ _ _).bind fun _ _ => Within.pure _

theorem within_neg (a : Aeu n) : Within (neg a) (2 * n) :=
  (within_makeComplement a).bind fun _ _ => Within.pure _

theorem within_add (a b : Aeu n) : Within (add a b) (3 * n) :=
  (within_addLine a b).bind fun _ _ => Within.pure _

theorem within_sub (a b : Aeu n) : Within (sub a b) (5 * n) :=
  ((within_neg b).bind fun _ _ => within_add _ _).mono (by omega)

theorem within_inc (a : Aeu n) : Within (inc a) (2 * n) := by
  refine ((Within.forUpC (b := 2) fun i s => ?_).bind (k := 0) fun c _ => ?_).mono (by omega)
  · exact (Within.rd _ _).bind fun _ _ => Within.ite
      (fun _ => (Within.wr _ _ _).bind fun _ _ => Within.pure _)
      (fun _ => (Within.wr _ _ _).bind fun _ _ => Within.pure _)
  · cases c <;> exact Within.pure _

theorem within_dec (a : Aeu n) : Within (dec a) (2 * n) := by
  refine ((Within.forUpC (b := 2) fun i s => ?_).bind (k := 0) fun c _ => ?_).mono (by omega)
  · exact (Within.rd _ _).bind fun _ _ => Within.ite
      (fun _ => (Within.wr _ _ _).bind fun _ _ => Within.pure _)
      (fun _ => (Within.wr _ _ _).bind fun _ _ => Within.pure _)
  · cases c <;> exact Within.pure _

theorem within_filled (a : Aeu n) : Within (filledBlocksNumber a) n := by
  refine ((Within.forDownC (b := 1) fun i s => ?_).bind (k := 0) fun c _ => ?_).mono (by omega)
  · exact (Within.rd _ _).bind fun _ _ => Within.ite (fun _ => Within.pure _) (fun _ => Within.pure _)
  · cases c <;> exact Within.pure _

theorem filled_le (a : Aeu n) {k : Nat} (h : (filledBlocksNumber a).run = .ok k) : k ≤ n := by
  rw [run_filledBlocksNumber] at h
  obtain ⟨k', hk', h1, -, -⟩ := filledBlocksNumber_nat a
  rw [hk', Except.ok.injEq] at h
  omega

theorem within_mulRow (buffer : Aeu n) (i : Nat) (t : U64) {digit : Nat → Counted U64} {d : Nat}
    (h : ∀ j, Within (digit j) d) (l : Nat) : Within (mulRow buffer i t digit l) (l * (d + 2)) := by
  refine (Within.forUp (b := d + 2) fun j s => ?_).mono (Nat.mul_le_mul_right _ (by omega))
  exact (h j).bind fun _ _ => (Within.rd _ _).bind fun _ _ => (Within.wr _ _ _).bind fun _ _ => Within.pure _

theorem within_multiplyLines (a : Aeu n) (k : Nat) (b : Aeu n) (l : Nat) :
    Within (multiplyLines a k b l) (k * (3 * l + 3)) := by
  refine Within.forUp fun i s => ?_
  refine ((Within.rd _ _).bind fun _ _ => (within_mulRow s i _ (d := 1) (fun j => ?_) l).bind (k := 2)
    fun r _ => ?_).mono (by omega)
  · exact (Within.rd _ _).bind fun _ _ => Within.pure _
  · obtain ⟨b, c⟩ := r
    exact Within.ite (fun _ => (Within.rd _ _).bind fun _ _ => Within.wr _ _ _)
      fun _ => (Within.pure _).mono (by omega)

theorem within_mul (a b : Aeu n) : Within (mul a b) (3 * n ^ 2 + 5 * n) := by
  refine ((within_filled a).bind fun k hk => (within_filled b).bind (k := 3 * n ^ 2 + 3 * n) fun l hl => ?_).mono
    (by omega)
  have hk' := filled_le a hk
  have hl' := filled_le b hl
  refine Within.ite (fun _ => (within_multiplyLines _ _ _ _).mono ?_)
    fun _ => (within_multiplyLines _ _ _ _).mono ?_
  · have := Nat.mul_le_mul hk' (show 3 * l + 3 ≤ 3 * n + 3 by omega)
    nlinarith
  · have := Nat.mul_le_mul hl' (show 3 * k + 3 ≤ 3 * n + 3 by omega)
    nlinarith

theorem within_mulU64 (a : Aeu n) (f : U64) : Within (mulU64 a f) (8 * n) := by
  refine ((within_filled a).bind (k := 7 * n) fun k hk => ?_).mono (by omega)
  have hk' := filled_le a hk
  refine (Within.forUp (b := 7) fun i s => ?_).mono (by omega)
  have hl : (if f > toU64 blockMax then 2 else 1) ≤ 2 := by split <;> omega
  generalize (if f > toU64 blockMax then 2 else 1) = l at hl
  refine ((Within.rd _ _).bind fun _ _ => (within_mulRow s i _ (d := 0) (fun j => ?_) l).bind (k := 2)
    fun r _ => ?_).mono (by omega)
  · exact (Within.lift _).bind fun _ _ => Within.pure _
  · obtain ⟨b, c⟩ := r
    exact Within.ite (fun _ => (Within.rd _ _).bind fun _ _ => Within.wr _ _ _)
      fun _ => (Within.pure _).mono (by omega)

theorem within_shl (a : Aeu n) (s : Nat) : Within (shl a s) (3 * n + 2) := by
  refine Within.ite (fun _ => (Within.pure _).mono (by omega)) fun hs => ?_
  simp only [not_or, not_le] at hs
  refine ((Within.lift _).bind fun one _ => (Within.forDown (b := 3) fun i v => ?_).bind fun v _ =>
    (Within.rd _ _).bind fun b0 _ => (Within.lift _).bind fun low _ => (Within.wr _ _ _).bind fun v _ =>
    (Within.forUp (b := 1) fun i v => Within.wr _ _ _)).mono ?_
  · exact (Within.rd _ _).bind fun _ _ => (Within.lift _).bind (k := 2) fun _ _ => (Within.rd _ _).bind fun _ _ =>
      (Within.lift _).bind (k := 1) fun _ _ => Within.wr _ _ _
  · have : s / 32 < n := by omega
    split <;> omega

theorem within_shr (a : Aeu n) (s : Nat) : Within (shr a s) (3 * n + 2) := by
  refine Within.ite (fun _ => (Within.pure _).mono (by omega)) fun hs => ?_
  simp only [not_or, not_le] at hs
  refine ((Within.lift _).bind fun one _ => (Within.forUp (b := 3) fun i v => ?_).bind fun v _ =>
    (Within.rd _ _).bind fun b0 _ => (Within.lift _).bind fun low _ => (Within.wr _ _ _).bind fun v _ =>
    (Within.forUp (b := 1) fun i v => Within.wr _ _ _)).mono ?_
  · exact (Within.rd _ _).bind fun _ _ => (Within.lift _).bind (k := 2) fun _ _ => (Within.rd _ _).bind fun _ _ =>
      (Within.lift _).bind (k := 1) fun _ _ => Within.wr _ _ _
  · have : s / 32 < n := by omega
    split <;> omega

theorem within_eqNarrow {w : Nat} (a : Aeu n) (v : BitVec w) : Within (eqNarrow a v) (n + 1) :=
  (within_filled a).bind fun _ _ => Within.ite (fun _ => (Within.rd _ _).bind fun _ _ => Within.pure _)
    fun _ => (Within.pure _).mono (by omega)

theorem within_getBlock (cfg : Cfg) (a : Aeu n) (i : Nat) : Within (getBlock cfg a i) 1 :=
  Within.ite (fun _ => (Within.pure _).mono (by omega)) fun _ => Within.rd _ _

theorem within_compareTo (cfg : Cfg) (a : Aeu n) (b : Aeu m) : Within (compareTo cfg a b) (n + m) := by
  have hmin : (if n < m then n else m) = min n m := by split <;> omega
  unfold compareTo
  rw [hmin]
  refine ((Within.forDownC (b := 2) fun i s => ?_).bind (k := (n + m) - min n m * 2) fun c _ => ?_).mono (by omega)
  · exact (Within.rd _ _).bind fun _ _ => (within_getBlock cfg b i).bind fun _ _ =>
      Within.ite (fun _ => Within.pure _) fun _ => Within.pure _
  · cases c with
    | leave c => exact (Within.pure _).mono (by omega)
    | next _ =>
      refine Within.ite (fun _ => Within.ite (fun _ => ?_) fun _ => Within.ite (fun _ => ?_)
        fun _ => (Within.pure _).mono (by omega)) fun _ => (Within.pure _).mono (by omega)
      · refine ((Within.forDownC (b := 1) fun i s => ?_).bind (k := 0) fun c _ => ?_).mono (by omega)
        · exact (within_getBlock cfg b i).bind fun _ _ => Within.ite (fun _ => Within.pure _) fun _ => Within.pure _
        · cases c <;> exact Within.pure _
      · refine ((Within.forDownC (b := 1) fun i s => ?_).bind (k := 0) fun c _ => ?_).mono (by omega)
        · exact (Within.rd _ _).bind fun _ _ => Within.ite (fun _ => Within.pure _) fun _ => Within.pure _
        · cases c <;> exact Within.pure _

theorem within_ge (cfg : Cfg) (a : Aeu n) (b : Aeu m) : Within (ge cfg a b) (n + m) :=
  (within_compareTo cfg a b).bind fun _ _ => Within.pure _

theorem within_lt (cfg : Cfg) (a : Aeu n) (b : Aeu m) : Within (lt cfg a b) (n + m) :=
  (within_compareTo cfg a b).bind fun _ _ => Within.pure _

theorem within_setBit (cfg : Cfg) (a : Aeu n) (i : Nat) (v : Bool) : Within (setBit cfg a i v) 2 :=
  Within.ite (fun _ => (Within.pure _).mono (by omega)) fun _ =>
    (Within.lift _).bind (k := 2) fun _ _ => (Within.lift _).bind (k := 2) fun _ _ =>
      (Within.rd _ _).bind fun _ _ => Within.ite (fun _ => Within.wr _ _ _) fun _ => Within.wr _ _ _

theorem within_getBit (cfg : Cfg) (a : Aeu n) (i : Nat) : Within (getBit cfg a i) 1 :=
  Within.ite (fun _ => (Within.pure _).mono (by omega)) fun _ =>
    (Within.lift _).bind (k := 1) fun _ _ => (Within.lift _).bind (k := 1) fun _ _ =>
      (Within.rd _ _).bind fun _ _ => Within.pure _

theorem within_scanDown (a : Aeu n) (k : Nat) : Within (scanDown a k) k := by
  induction k with
  | zero => exact Within.pure _
  | succ k ih =>
    exact ((Within.rd _ _).bind fun _ _ => Within.ite (fun _ => ih) fun _ => (Within.pure _).mono (by omega)).mono
      (by omega)

theorem within_bitCount (a : Aeu n) : Within (bitCount a) (n + 4) := by
  refine ((within_scanDown a (n - 1)).bind fun l _ => (Within.forDownC (b := 1) fun i s => ?_).bind (k := 0)
    fun c _ => ?_).mono (by omega)
  · refine (Within.rd _ _).bind fun _ _ => (Within.lift _).bind (k := 0) fun _ _ =>
      (Within.lift _).bind (k := 0) fun _ _ => Within.ite (fun _ => Within.pure _) fun _ =>
      (Within.lift _).bind (k := 0) fun c _ => ?_
    cases c <;> exact Within.pure _
  · cases c <;> exact Within.pure _

theorem within_divide (cfg : Cfg) (a b : Aeu n) : Within (divide cfg a b) (320 * n ^ 2 + 227 * n) := by
  refine ((within_compareTo cfg a b).bind (k := 320 * n ^ 2 + 225 * n) fun c _ => ?_).mono (by omega)
  have one : Within (ofUnsigned n (1#32) >>= fun one => pure (one, zero n)) (320 * n ^ 2 + 225 * n) :=
    ((within_ofUnsigned _).bind fun _ _ => Within.pure _).mono (by nlinarith [sq_nonneg n])
  cases c with
  | greater =>
    refine ((within_filled a).bind (k := n * 32 * (10 * n + 7)) fun k hk => ?_).mono (by nlinarith)
    have hk' := filled_le a hk
    refine (Within.forDown (b := 10 * n + 7) fun i s => ?_).mono (Nat.mul_le_mul_right _ (by omega))
    obtain ⟨q, r⟩ := s
    exact ((within_shl r 1).bind fun _ _ => (within_getBit cfg a i).bind fun _ _ =>
      (within_setBit cfg _ 0 _).bind fun _ _ => (within_ge cfg _ b).bind fun g _ => Within.ite (k := 5 * n + 2)
        (fun _ => (within_sub _ b).bind fun _ _ => (within_setBit cfg q i true).bind fun _ _ => Within.pure _)
        fun _ => (Within.pure _).mono (by omega)).mono (by omega)
  | less => exact (Within.pure _).mono (by omega)
  | equal => exact one
  | equivalent => exact one

theorem within_div (cfg : Cfg) (a b : Aeu n) : Within (div cfg a b) (320 * n ^ 2 + 227 * n) :=
  (within_divide cfg a b).bind fun _ _ => Within.pure _

theorem within_mod (cfg : Cfg) (a b : Aeu n) : Within (mod cfg a b) (320 * n ^ 2 + 227 * n) :=
  (within_divide cfg a b).bind fun _ _ => Within.pure _

theorem within_gcdIn (cfg : Cfg) (t : Nat) (a b : Aeu n) :
    Within (gcdIn cfg t a b) (2 * n + (320 * n ^ 2 + 227 * n) + t * (n + 1 + (320 * n ^ 2 + 227 * n))) := by
  have key : ∀ g r : Aeu n, Within (Counted.whileC t (g, r) fun (gcd, remainder) => do
      let z ← eqNarrow remainder (0#32)
      if z then pure (.leave gcd) else do
        let tGcd := gcd
        let gcd := remainder
        let qr ← divide cfg tGcd gcd
        pure (.next (gcd, qr.2))) (t * (n + 1 + (320 * n ^ 2 + 227 * n))) := fun g r => by
    refine Within.whileC fun s => ?_
    obtain ⟨g, r⟩ := s
    exact (within_eqNarrow _ _).bind fun _ _ => Within.ite (fun _ => (Within.pure _).mono (Nat.zero_le _))
      fun _ => (within_divide cfg g r).bind fun _ _ => Within.pure _
  refine ((within_compareTo cfg a b).bind fun c _ => Within.ite
    (k := (320 * n ^ 2 + 227 * n) + t * (n + 1 + (320 * n ^ 2 + 227 * n)))
    (fun _ => (within_divide cfg _ _).bind fun _ _ => key _ _)
    (fun _ => (within_divide cfg _ _).bind fun _ _ => key _ _)).mono (by omega)

theorem within_gcdExtIn (cfg : Cfg) (t : Nat) (a b : Aeu n) :
    Within (gcdExtIn cfg t a b) (6 * n + (320 * n ^ 2 + 227 * n) +
      t * (n + 1 + 2 * (3 * n ^ 2 + 10 * n) + (320 * n ^ 2 + 227 * n))) := by
  have key : ∀ s, Within (Counted.whileC t s fun (gcd, quotient, remainder, bezoutX, bezoutY, tX, tY) => do
      let z ← eqNarrow remainder (0#32)
      if z then pure (.leave (gcd, bezoutX, bezoutY)) else do
        let tGcd := gcd
        let gcd := remainder
        let t := bezoutX
        let p ← mul quotient bezoutX
        let bezoutX ← sub tX p
        let tX := t
        let t := bezoutY
        let p ← mul quotient bezoutY
        let bezoutY ← sub tY p
        let tY := t
        let qr ← divide cfg tGcd gcd
        pure (.next (gcd, qr.1, qr.2, bezoutX, bezoutY, tX, tY) : Ctl (Aeu n × Aeu n × Aeu n × Aeu n × Aeu n × Aeu n × Aeu n) _))
      (t * (n + 1 + 2 * (3 * n ^ 2 + 10 * n) + (320 * n ^ 2 + 227 * n))) := fun s => by
    refine Within.whileC fun s => ?_
    obtain ⟨g, q, r, x, y, tx, ty⟩ := s
    exact ((within_eqNarrow _ _).bind fun _ _ => Within.ite (fun _ => (Within.pure _).mono (Nat.zero_le _))
      fun _ => (within_mul _ _).bind fun _ _ => (within_sub _ _).bind fun _ _ => (within_mul _ _).bind fun _ _ =>
        (within_sub _ _).bind fun _ _ => (within_divide cfg g r).bind fun _ _ => Within.pure _).mono (by omega)
  have tail : ∀ (c : Comparison) (qr : Aeu n × Aeu n), Within (do
      let bezoutX ← ofUnsigned n (0#32)
      let bezoutY ← ofUnsigned n (1#32)
      let tX ← ofUnsigned n (1#32)
      let tY ← ofUnsigned n (0#32)
      let r ← Counted.whileC t (if c = .greater then b else a, qr.1, qr.2, bezoutX, bezoutY, tX, tY)
        fun (gcd, quotient, remainder, bezoutX, bezoutY, tX, tY) => do
        let z ← eqNarrow remainder (0#32)
        if z then pure (.leave (gcd, bezoutX, bezoutY)) else do
          let tGcd := gcd
          let gcd := remainder
          let t := bezoutX
          let p ← mul quotient bezoutX
          let bezoutX ← sub tX p
          let tX := t
          let t := bezoutY
          let p ← mul quotient bezoutY
          let bezoutY ← sub tY p
          let tY := t
          let qr ← divide cfg tGcd gcd
          pure (.next (gcd, qr.1, qr.2, bezoutX, bezoutY, tX, tY))
      let (gcd, bezoutX, bezoutY) := r
      if c ≠ .greater then
        let s := swap bezoutX bezoutY
        pure (gcd, s.1, s.2)
      else pure (gcd, bezoutX, bezoutY))
      (4 * n + t * (n + 1 + 2 * (3 * n ^ 2 + 10 * n) + (320 * n ^ 2 + 227 * n))) := fun c qr => by
    refine ((within_ofUnsigned _).bind fun _ _ => (within_ofUnsigned _).bind fun _ _ =>
      (within_ofUnsigned _).bind fun _ _ => (within_ofUnsigned _).bind fun _ _ => (key _).bind (k := 0)
      fun r _ => ?_).mono (by omega)
    obtain ⟨g, x, y⟩ := r
    exact Within.ite (fun _ => Within.pure _) fun _ => Within.pure _
  refine ((within_compareTo cfg a b).bind fun c _ => Within.ite
    (k := (320 * n ^ 2 + 227 * n) +
      (4 * n + t * (n + 1 + 2 * (3 * n ^ 2 + 10 * n) + (320 * n ^ 2 + 227 * n))))
    (fun _ => (within_divide cfg _ _).bind fun qr _ => tail c qr)
    (fun _ => (within_divide cfg _ _).bind fun qr _ => tail c qr)).mono (by omega)

/-- The loop of `gcd` finishes after at most `47 n + 1` tests of its condition, so more fuel changes nothing. -/
theorem gcd_fuel (cfg : Cfg) (hn : 0 < n) (a b : Aeu n) : gcd cfg a b = gcdIn cfg (47 * n + 1) a b := by
  obtain ⟨r, hr⟩ := gcdIn_ok cfg hn a b
  rw [← run_gcdIn] at hr
  unfold gcd gcdIn at *
  refine bind_more hr fun c hc => ?_
  by_cases h : c = .greater
  · simp only [h, if_true, ne_eq, not_true_eq_false, if_false] at hc ⊢
    exact bind_more hc fun qr hq => whileC_more (linear_le_pow n) hq
  · simp only [h, if_false, ne_eq, not_false_eq_true, if_true] at hc ⊢
    exact bind_more hc fun qr hq => whileC_more (linear_le_pow n) hq

theorem whileC_more_bind {σ ρ α : Type} {j k : Nat} (hjk : j ≤ k) {s : σ} {body : σ → Counted (Ctl σ ρ)}
    {f : ρ → Counted α} {v : α} (h : (Counted.whileC j s body >>= f).run = .ok v) :
    Counted.whileC k s body >>= f = Counted.whileC j s body >>= f := by
  cases hw : (Counted.whileC j s body).run with
  | error e => rw [run_bind, hw] at h; simp at h
  | ok r => rw [whileC_more hjk hw]

theorem gcdExt_fuel (cfg : Cfg) (hn : 0 < n) (a b : Aeu n) : gcdExt cfg a b = gcdExtIn cfg (47 * n + 1) a b := by
  obtain ⟨r, hr⟩ := gcdExtIn_ok cfg hn a b
  rw [← run_gcdExtIn] at hr
  unfold gcdExt gcdExtIn at *
  refine bind_more hr fun c hc => ?_
  by_cases h : c = .greater
  · simp only [h, if_true, ne_eq, not_true_eq_false, if_false] at hc ⊢
    exact bind_more hc fun qr hq => bind_more hq fun _ hq => bind_more hq fun _ hq => bind_more hq fun _ hq =>
      bind_more hq fun _ hq => whileC_more_bind (linear_le_pow n) hq
  · simp only [h, if_false, ne_eq, not_false_eq_true, if_true] at hc ⊢
    exact bind_more hc fun qr hq => bind_more hq fun _ hq => bind_more hq fun _ hq => bind_more hq fun _ hq =>
      bind_more hq fun _ hq => whileC_more_bind (linear_le_pow n) hq

theorem within_lcm (cfg : Cfg) (hn : 0 < n) (a b : Aeu n) : Within (lcm cfg a b)
    (2 * n + (320 * n ^ 2 + 227 * n) + (47 * n + 1) * (n + 1 + (320 * n ^ 2 + 227 * n)) +
      ((320 * n ^ 2 + 227 * n) + (3 * n ^ 2 + 5 * n))) := by
  refine Within.bind (gcd_fuel cfg hn a b ▸ within_gcdIn cfg _ a b) fun g _ => ?_
  exact (within_div cfg a g).bind fun q _ => within_mul q b

theorem within_powmRound (cfg : Cfg) (power : Aeu m) (i : Nat) (o b md : Aeu n) {σ : Type}
    (next : Aeu n → Aeu n → σ) : Within (do
      let f ← filledBlocksNumber power
      if f * 32 = i then pure (Ctl.leave o) else do
        let bit ← getBit cfg power i
        let output ← if bit then do
            let p ← mul o b
            let qr ← divide cfg p md
            pure qr.2
          else pure o
        let p ← mul b b
        let qr ← divide cfg p md
        pure (Ctl.next (next output qr.2)))
      (m + 1 + 2 * ((3 * n ^ 2 + 5 * n) + (320 * n ^ 2 + 227 * n))) := by
  have rest : ∀ o' : Aeu n, Within (do
        let p ← mul b b
        let qr ← divide cfg p md
        pure (Ctl.next (next o' qr.2) : Ctl σ (Aeu n))) ((3 * n ^ 2 + 5 * n) + (320 * n ^ 2 + 227 * n)) :=
    fun o' => (within_mul b b).bind fun p _ => (within_divide cfg p md).bind fun _ _ => Within.pure _
  refine ((within_filled power).bind fun f _ => Within.ite
    (k := 1 + 2 * ((3 * n ^ 2 + 5 * n) + (320 * n ^ 2 + 227 * n))) (fun _ => (Within.pure _).mono (Nat.zero_le _))
    fun _ => ((within_getBit cfg power i).bind (k := 2 * ((3 * n ^ 2 + 5 * n) + (320 * n ^ 2 + 227 * n)))
      fun bit _ => ?_)).mono (by omega)
  refine Within.ite (k := 2 * ((3 * n ^ 2 + 5 * n) + (320 * n ^ 2 + 227 * n))) (fun _ => ?_) fun _ => ?_
  · exact ((within_mul o b).bind fun p _ => (within_divide cfg p md).bind fun qr _ =>
      (Within.pure _).bind fun o' _ => rest o').mono (by omega)
  · exact ((Within.pure _).bind fun o' _ => rest o').mono (by omega)

theorem within_powm (cfg : Cfg) (a e md : Aeu n) : Within (powm cfg a e md)
    (n + (320 * n ^ 2 + 227 * n) +
      (32 * n + 1) * (n + 1 + 2 * ((3 * n ^ 2 + 5 * n) + (320 * n ^ 2 + 227 * n)))) := by
  refine ((within_ofUnsigned _).bind fun o _ => (within_divide cfg a md).bind fun qb _ =>
    Within.whileC (b := n + 1 + 2 * ((3 * n ^ 2 + 5 * n) + (320 * n ^ 2 + 227 * n))) fun s => ?_).mono (by omega)
  obtain ⟨i, o, b⟩ := s
  exact within_powmRound cfg e i o b md fun o b => (i + 1, o, b)

theorem within_powmT (cfg : Cfg) (a : Aeu n) (e : Aeu m) (md : Aeu n) : Within (powmT cfg a e md)
    (2 * (n + 1) + n + (320 * n ^ 2 + 227 * n) +
      (32 * m + 1) * (m + 1 + 2 * ((3 * n ^ 2 + 5 * n) + (320 * n ^ 2 + 227 * n)))) := by
  refine ((within_eqNarrow a _).bind fun e1 _ => Within.ite (fun _ => (Within.pure _).mono (Nat.zero_le _))
    fun _ => ((within_eqNarrow a _).bind fun e0 _ => Within.ite (fun _ => ?_)
    fun _ => ((within_ofUnsigned _).bind fun o _ => (within_divide cfg a md).bind fun qb _ =>
      Within.whileC (b := m + 1 + 2 * ((3 * n ^ 2 + 5 * n) + (320 * n ^ 2 + 227 * n))) fun s => ?_))).mono (by omega)
  · exact (within_ofUnsigned _).mono (by omega)
  · obtain ⟨i, o, b⟩ := s
    exact within_powmRound cfg e i.toNat o b md fun o b => (i + 1#32, o, b)

theorem within_squareRootIn (cfg : Cfg) (k : Nat) (a : Aeu n) : Within (squareRootIn cfg k a)
    (n + 6 + k * (320 * n ^ 2 + 235 * n + 2)) := by
  refine ((within_bitCount a).bind fun bc _ => (within_setBit cfg _ _ _).bind fun y _ =>
    Within.whileC (b := 320 * n ^ 2 + 235 * n + 2) fun y => ?_).mono (by omega)
  exact ((within_div cfg a y).bind fun q _ => (within_add y q).bind fun s _ => (within_shr s 1).bind fun z _ =>
    (within_lt cfg z y).bind fun l _ => Within.ite (fun _ => Within.pure _) fun _ => Within.pure _).mono (by omega)

theorem squareRoot_fuel (cfg : Cfg) (hn : 0 < n) (a : Aeu n) :
    squareRoot cfg a = squareRootIn cfg (Nat.clog 2 (16 * n + 1) + 3) a := by
  obtain ⟨r, hr⟩ := squareRootIn_ok cfg hn a
  rw [← run_squareRootIn] at hr
  unfold squareRoot squareRootIn at *
  exact bind_more hr fun bc hq => bind_more hq fun y hq => whileC_more (clog_le_pow n hn) hq

/-! ### Exact counts -/

theorem takes_addLine (a b : Aeu n) : Takes (addLine a b) (3 * n) := by
  refine (Takes.forUp (b := 3) fun i s hi => ?_).of_eq (by omega)
  exact (Takes.rd _ hi).bind fun _ _ => (Takes.rd _ hi).bind fun _ _ => (Takes.wr _ _ hi).bind fun _ _ =>
    Takes.pure _

theorem takes_neg (a : Aeu n) : Takes (neg a) (2 * n) := by
  refine ((Takes.forUp (b := 2) fun i s hi => ?_).bind (k := 0) fun _ _ => Takes.pure _).of_eq (by omega)
  exact (Takes.rd _ hi).bind fun _ _ => (Takes.wr _ _ hi).bind fun _ _ => Takes.pure _

theorem takes_add (a b : Aeu n) : Takes (add a b) (3 * n) :=
  (takes_addLine a b).bind fun _ _ => Takes.pure _

theorem takes_sub (a b : Aeu n) : Takes (sub a b) (5 * n) :=
  ((takes_neg b).bind fun _ _ => takes_add _ _).of_eq (by omega)

theorem takes_addBuiltin {w : Nat} (a : Aeu n) (v : BitVec w) : Takes (addBuiltin a v) (2 * n) := by
  refine ((Takes.forUp (b := 2) fun i s hi => ?_).bind (k := 0) fun _ _ => Takes.pure _).of_eq (by omega)
  exact (Takes.rd _ hi).bind fun _ _ => (Takes.wr _ _ hi).bind fun _ _ => Takes.pure _

theorem takes_mulNarrow {w : Nat} (a : Aeu n) (v : BitVec w) : Takes (mulNarrow a v) (2 * n) := by
  refine ((Takes.forUp (b := 2) fun i s hi => ?_).bind (k := 0) fun _ _ => Takes.pure _).of_eq (by omega)
  exact (Takes.rd _ hi).bind fun _ _ => (Takes.wr _ _ hi).bind fun _ _ => Takes.pure _

theorem takes_not (a : Aeu n) : Takes (not a) (2 * n) := by
  refine (Takes.forUp (b := 2) fun i s hi => ?_).of_eq (by omega)
  exact (Takes.rd _ hi).bind fun _ _ => Takes.wr _ _ hi

theorem takes_bitwise (f : Block → Block → Block) (a b : Aeu n) : Takes (bitwiseLoop f a b) (3 * n) := by
  refine (Takes.forUp (b := 3) fun i s hi => ?_).of_eq (by omega)
  exact (Takes.rd _ hi).bind fun _ _ => (Takes.rd _ hi).bind fun _ _ => Takes.wr _ _ hi

/-- What a shift by `s` costs: three accesses for each block that gets bits of two (or one) blocks, two for the
block at the edge, one for each block that becomes zero. -/
def shiftCost (n s : Nat) : Nat :=
  if 32 * n ≤ s ∨ s = 0 then 0
  else 3 * (n - (s + 31) / 32) + 2 + s / 32

theorem takes_shl (a : Aeu n) (s : Nat) : Takes (shl a s) (shiftCost n s) := by
  unfold shl shiftCost
  by_cases hs : 32 * n ≤ s ∨ s = 0
  · rw [if_pos hs, if_pos hs]; exact Takes.pure _
  · rw [if_neg hs, if_neg hs]
    simp only [not_or, not_le] at hs
    have hq : s / 32 < n := by omega
    refine ((Takes.lift ?_).bind fun one _ => (Takes.forDown (b := 3) fun i v hlo hi => ?_).bind fun v _ =>
      (Takes.rd v (show 0 < n by omega)).bind fun b0 _ => (Takes.lift ?_).bind fun low _ =>
      (Takes.wr v low hq).bind fun v _ => (Takes.forUp (b := 1) fun i v hi => Takes.wr _ _ (by omega))).of_eq ?_
    · exact ⟨_, by simp only [shl64]; rw [if_pos (by omega)]⟩
    · refine (Takes.rd v (by omega)).bind fun _ _ => (Takes.lift ?_).bind (k := 2) fun _ _ =>
        (Takes.rd v (by omega)).bind fun _ _ => (Takes.lift ?_).bind (k := 1) fun _ _ => Takes.wr v _ hi
      · exact ⟨_, by simp only [shl32]; rw [if_pos (by omega)]⟩
      · exact ⟨_, by simp only [shr32]; rw [if_pos (by omega)]⟩
    · exact ⟨_, by simp only [shl32]; rw [if_pos (by omega)]⟩
    · split <;> omega

theorem takes_shr (a : Aeu n) (s : Nat) : Takes (shr a s) (shiftCost n s) := by
  unfold shr shiftCost
  by_cases hs : 32 * n ≤ s ∨ s = 0
  · rw [if_pos hs, if_pos hs]; exact Takes.pure _
  · rw [if_neg hs, if_neg hs]
    simp only [not_or, not_le] at hs
    have hq : s / 32 < n := by omega
    refine ((Takes.lift ?_).bind fun one _ => (Takes.forUp (b := 3) fun i v hi => ?_).bind fun v _ =>
      (Takes.rd v (show n - 1 < n by omega)).bind fun b0 _ => (Takes.lift ?_).bind fun low _ =>
      (Takes.wr v low (show n - 1 - s / 32 < n by omega)).bind fun v _ =>
      (Takes.forUp (b := 1) fun i v hi => Takes.wr _ _ hi)).of_eq ?_
    · exact ⟨_, by simp only [shl64]; rw [if_pos (by omega)]⟩
    · have hi' : i + s / 32 + (if s % 32 ≠ 0 then 1 else 0) < n := by split at hi <;> split <;> omega
      refine (Takes.rd v hi').bind fun _ _ => (Takes.lift ?_).bind (k := 2) fun _ _ =>
        (Takes.rd v (by omega)).bind fun _ _ => (Takes.lift ?_).bind (k := 1) fun _ _ => Takes.wr v _ (by omega)
      · exact ⟨_, by simp only [shl32]; rw [if_pos (by omega)]⟩
      · exact ⟨_, by simp only [shr32]; rw [if_pos (by omega)]⟩
    · exact ⟨_, by simp only [shr32]; rw [if_pos (by omega)]⟩
    · split <;> omega

end Work

open Work
variable {n m : Nat}

/-! ### C116 -/

/-- C116: sums, differences, negation, complement, `^ & |`, the addition and multiplication of a built-in value
(the latter in the branch for types other than `uint64_t`) take a number of block accesses that depends on the
precision only, not on the values. -/
theorem C116_fixed (a b : Aeu n) (f : Block → Block → Block) {w : Nat} (u : BitVec w) :
    ((Work.add a b).run = Aeu.add a b ∧ (Work.add a b).accesses = 3 * n) ∧
    ((Work.sub a b).run = Aeu.sub a b ∧ (Work.sub a b).accesses = 5 * n) ∧
    ((Work.neg a).run = Aeu.neg a ∧ (Work.neg a).accesses = 2 * n) ∧
    ((Work.not a).run = Aeu.not a ∧ (Work.not a).accesses = 2 * n) ∧
    ((Work.bitwiseLoop f a b).run = Aeu.bitwiseLoop f a b ∧ (Work.bitwiseLoop f a b).accesses = 3 * n) ∧
    ((Work.addBuiltin a u).run = Aeu.addBuiltin a u ∧ (Work.addBuiltin a u).accesses = 2 * n) ∧
    ((Work.mulNarrow a u).run = Aeu.mulNarrow a u ∧ (Work.mulNarrow a u).accesses = 2 * n) :=
  ⟨⟨run_add a b, (takes_add a b).1⟩, ⟨run_sub a b, (takes_sub a b).1⟩, ⟨run_neg a, (takes_neg a).1⟩,
   ⟨run_not a, (takes_not a).1⟩, ⟨run_bitwiseLoop f a b, (takes_bitwise f a b).1⟩,
   ⟨run_addBuiltin a u, (takes_addBuiltin a u).1⟩, ⟨run_mulNarrow a u, (takes_mulNarrow a u).1⟩⟩

/-- C116: shifts depend on the precision and the shift amount only: nothing for amounts that are 0 or not smaller
than the precision, otherwise `3 (n - ⌈s/32⌉) + 2 + ⌊s/32⌋`. -/
theorem C116_shift (a : Aeu n) (s : Nat) :
    ((Work.shl a s).run = Aeu.shl a s ∧
      (Work.shl a s).accesses = if 32 * n ≤ s ∨ s = 0 then 0 else 3 * (n - (s + 31) / 32) + 2 + s / 32) ∧
    ((Work.shr a s).run = Aeu.shr a s ∧
      (Work.shr a s).accesses = if 32 * n ≤ s ∨ s = 0 then 0 else 3 * (n - (s + 31) / 32) + 2 + s / 32) :=
  ⟨⟨run_shl a s, (takes_shl a s).1⟩, ⟨run_shr a s, (takes_shr a s).1⟩⟩

/-- C116: increments and decrements, comparison of `n` with `m` blocks, the test against a narrow built-in value
and the multiplication by a `uint64_t` are linear. -/
theorem C116_linear (cfg : Cfg) (a : Aeu n) (b : Aeu m) {w : Nat} (u : BitVec w) (v : U64) :
    ((Work.inc a).run = Aeu.inc a ∧ (Work.inc a).accesses ≤ 2 * n) ∧
    ((Work.dec a).run = Aeu.dec a ∧ (Work.dec a).accesses ≤ 2 * n) ∧
    ((Work.compareTo cfg a b).run = Aeu.compareTo cfg a b ∧ (Work.compareTo cfg a b).accesses ≤ n + m) ∧
    ((Work.eqNarrow a u).run = Aeu.eqNarrow a u ∧ (Work.eqNarrow a u).accesses ≤ n + 1) ∧
    ((Work.bitCount a).run = Aeu.bitCount a ∧ (Work.bitCount a).accesses ≤ n + 4) ∧
    ((Work.mulU64 a v).run = Aeu.mulU64 a v ∧ (Work.mulU64 a v).accesses ≤ 8 * n) :=
  ⟨⟨run_inc a, within_inc a⟩, ⟨run_dec a, within_dec a⟩, ⟨run_compareTo cfg a b, within_compareTo cfg a b⟩,
   ⟨run_eqNarrow a u, within_eqNarrow a u⟩, ⟨run_bitCount a, within_bitCount a⟩, ⟨run_mulU64 a v, within_mulU64 a v⟩⟩

private theorem le_sq (n : Nat) : n ≤ n ^ 2 := Nat.le_self_pow (by norm_num) n
private theorem sq_le_cube (n : Nat) : n ^ 2 ≤ n ^ 3 := by
  rcases Nat.eq_zero_or_pos n with rfl | h
  · simp
  · exact Nat.pow_le_pow_right h (by norm_num)

/-- C116: multiplication and division (quotient, remainder, `divide`) are quadratic. -/
theorem C116_quadratic (cfg : Cfg) (a b : Aeu n) :
    ((Work.mul a b).run = Aeu.mul a b ∧ (Work.mul a b).accesses ≤ 8 * n ^ 2) ∧
    ((Work.divide cfg a b).run = Aeu.divide cfg a b ∧ (Work.divide cfg a b).accesses ≤ 547 * n ^ 2) ∧
    ((Work.div cfg a b).run = Aeu.div cfg a b ∧ (Work.div cfg a b).accesses ≤ 547 * n ^ 2) ∧
    ((Work.mod cfg a b).run = Aeu.mod cfg a b ∧ (Work.mod cfg a b).accesses ≤ 547 * n ^ 2) := by
  have h := le_sq n
  exact ⟨⟨run_mul a b, (within_mul a b).mono (by omega)⟩, ⟨run_divide cfg a b, (within_divide cfg a b).mono (by omega)⟩,
    ⟨run_div cfg a b, (within_div cfg a b).mono (by omega)⟩, ⟨run_mod cfg a b, (within_mod cfg a b).mono (by omega)⟩⟩

/-- C116: gcd, extended gcd and lcm are cubic, whatever the operands. -/
theorem C116_gcd (cfg : Cfg) (hn : 0 < n) (a b : Aeu n) :
    ((Work.gcd cfg a b).run = Aeu.gcd cfg a b ∧ (Work.gcd cfg a b).accesses ≤ 26901 * n ^ 3) ∧
    ((Work.gcdExt cfg a b).run = Aeu.gcdExt cfg a b ∧ (Work.gcdExt cfg a b).accesses ≤ 28153 * n ^ 3) ∧
    ((Work.lcm cfg a b).run = Aeu.lcm cfg a b ∧ (Work.lcm cfg a b).accesses ≤ 27456 * n ^ 3) := by
  have h1 := le_sq n
  have h2 := sq_le_cube n
  have e3 : n ^ 3 = n * n ^ 2 := by ring
  have e2 : n ^ 2 = n * n := by ring
  refine ⟨⟨run_gcd cfg a b, ?_⟩, ⟨run_gcdExt cfg a b, ?_⟩, ⟨run_lcm cfg a b, ?_⟩⟩
  · rw [gcd_fuel cfg hn a b]
    refine (within_gcdIn cfg _ a b).mono ?_
    nlinarith
  · rw [gcdExt_fuel cfg hn a b]
    refine (within_gcdExtIn cfg _ a b).mono ?_
    nlinarith
  · refine (within_lcm cfg hn a b).mono ?_
    nlinarith

/-- C116: modular exponentiation is cubic; with an exponent of `m` blocks, linear in `m` times quadratic in `n`. -/
theorem C116_powm (cfg : Cfg) (hn : 0 < n) (a e md : Aeu n) (e' : Aeu m) :
    ((Work.powm cfg a e md).run = Aeu.powm cfg a e md ∧ (Work.powm cfg a e md).accesses ≤ 37244 * n ^ 3) ∧
    ((Work.powmT cfg a e' md).run = Aeu.powmT cfg a e' md ∧
      (Work.powmT cfg a e' md).accesses ≤ (32 * m + 1) * (m + 1111 * n ^ 2) + 552 * n ^ 2) := by
  have h1 := le_sq n
  have h2 := sq_le_cube n
  refine ⟨⟨run_powm cfg a e md, (within_powm cfg a e md).mono ?_⟩,
    ⟨run_powmT cfg a e' md, (within_powmT cfg a e' md).mono ?_⟩⟩
  · have e3 : n ^ 3 = n * n ^ 2 := by ring
    have e2 : n ^ 2 = n * n := by ring
    nlinarith
  · have hc : m + 1 + 2 * ((3 * n ^ 2 + 5 * n) + (320 * n ^ 2 + 227 * n)) ≤ m + 1111 * n ^ 2 := by omega
    have := Nat.mul_le_mul_left (32 * m + 1) hc
    omega

/-- C116: the square root is quadratic times the logarithm of the precision. -/
theorem C116_squareRoot (cfg : Cfg) (hn : 0 < n) (a : Aeu n) :
    (Work.squareRoot cfg a).run = Aeu.squareRoot cfg a ∧
    (Work.squareRoot cfg a).accesses ≤ (Nat.clog 2 (16 * n + 1) + 3) * (560 * n ^ 2) := by
  refine ⟨run_squareRoot cfg a, ?_⟩
  rw [squareRoot_fuel cfg hn a]
  refine (within_squareRootIn cfg _ a).mono ?_
  have h1 := le_sq n
  generalize hR : Nat.clog 2 (16 * n + 1) + 3 = R
  have h3 : 3 ≤ R := by omega
  have hc : 320 * n ^ 2 + 235 * n + 2 ≤ 557 * n ^ 2 := by omega
  have h4 := Nat.mul_le_mul_left R hc
  have h5 := Nat.mul_le_mul_right (3 * n ^ 2) h3
  nlinarith

/-- The counts that are not fixed do vary with the values, also with those of an exponent of the same length:
comparison, multiplication, and modular exponentiation by 1 and by 3. -/
theorem C116_varies :
    (Work.compareTo ⟨false, false, false⟩ (ofNat 2 5) (ofNat 2 (2 ^ 32 + 5))).accesses = 2 ∧
    (Work.compareTo ⟨false, false, false⟩ (ofNat 2 5) (ofNat 2 5)).accesses = 4 ∧
    (Work.mul (ofNat 2 5) (ofNat 2 7)).accesses = 10 ∧
    (Work.mul (ofNat 2 (2 ^ 32)) (ofNat 2 (2 ^ 32))).accesses ≠ 10 ∧
    (Work.powm ⟨false, false, false⟩ (ofNat 1 7) (ofNat 1 1) (ofNat 1 10)).accesses ≠
      (Work.powm ⟨false, false, false⟩ (ofNat 1 7) (ofNat 1 3) (ofNat 1 10)).accesses := by decide +kernel

/-- At 512 bits: an addition makes 48 accesses, a gcd at most 110186496. -/
example (cfg : Cfg) (a b : Aeu 16) : (Work.add a b).accesses = 48 ∧ (Work.gcd cfg a b).accesses ≤ 110186496 :=
  ⟨((C116_fixed a b (· ^^^ ·) (0#32)).1).2, ((C116_gcd cfg (by omega) a b).1).2⟩

end AesiMP
