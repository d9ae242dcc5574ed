import Verif.Lemmas.WorkTextRun
import Verif.Props.Work

/-!
# C116: how much work text and the signed operators do
-/

namespace AesiMP
open Aeu Counted
namespace Work
variable {n m : Nat}

theorem within_isZero (a : Aeu n) : Within (isZero a) n :=
  (within_filled a).bind fun _ _ => Within.pure _

theorem within_low64 (a : Aeu n) : Within (low64 a) 2 :=
  (Within.rd _ _).bind fun _ _ => (Within.lift _).bind (k := 1) fun _ _ => (Within.rd _ _).bind fun _ _ =>
    Within.pure _

theorem within_compareToU64 (a : Aeu n) (v : U64) : Within (compareToU64 a v) (n + 2) :=
  (within_filled a).bind fun _ _ => Within.ite (fun _ => (Within.pure _).mono (by omega)) fun _ =>
    (within_low64 a).bind fun _ _ => Within.ite (fun _ => Within.pure _) fun _ =>
      Within.ite (fun _ => Within.pure _) fun _ => Within.pure _

theorem within_integralCast (t : ITy) (a : Aeu n) : Within (integralCast t a) 2 :=
  (within_low64 a).bind fun _ _ => Within.pure _

theorem within_mulULL (cfg : Cfg) (a : Aeu n) (v : U64) : Within (mulULL cfg a v) (8 * n) :=
  Within.ite (fun _ => within_mulU64 a v) fun _ => le_of_eq_of_le (takes_mulNarrow a v).1 (by omega)

theorem within_ofChars (kind : CharKind) (alnum : Int → Bool) {size : Nat} (data : Vector Int size) :
    Within (ofChars kind alnum n data) (size * (4 * n)) := by
  refine Within.ite (fun _ => (Within.pure _).mono (by omega)) fun _ => ?_
  refine ((Within.lift _).bind (k := size * (4 * n)) fun p _ => ?_).mono (by omega)
  cases p with
  | next _ => exact (Within.pure _).mono (by omega)
  | leave position =>
    refine ((Within.lift _).bind (k := size * (4 * n)) fun bp _ => ?_).mono (by omega)
    refine (Within.forUp (b := 4 * n) fun i s => ?_).mono (Nat.mul_le_mul_right _ (by omega))
    refine ((Within.lift _).bind (k := 4 * n) fun ch _ => Within.ite (fun _ => ?_)
      fun _ => (Within.pure _).mono (by omega)).mono (by omega)
    exact (Within.bind (j := 2 * n) (le_of_eq (takes_mulNarrow s _).1) fun t _ =>
      (show Within (addBuiltin t _) (2 * n) from le_of_eq (takes_addBuiltin t _).1)).mono (by omega)

theorem scanDown_le (a : Aeu n) (k : Nat) {l : Nat} (h : (scanDown a k).run = .ok l) : l ≤ k := by
  induction k with
  | zero => simp [scanDown] at h; omega
  | succ k ih =>
    simp only [scanDown, run_bind, run_rd, run_ite, run_pure] at h
    cases hb : AesiMP.rd a (k + 1) with
    | error e => rw [hb] at h; simp at h
    | ok b =>
      rw [hb, ok_bind] at h
      split at h
      · have := ih h; omega
      · rw [Except.ok.injEq] at h; omega

theorem within_getStringHex (kind : CharKind) (upper : Bool) (a : Aeu n) {cap : Nat} (buffer : Vector Int cap)
    (position : Nat) (hn : 0 < n) : Within (getStringHex kind upper a buffer position) (2 * n) := by
  refine ((within_scanDown a (n - 1)).bind (k := n + 1) fun iter hit => ?_).mono (by omega)
  have hle := scanDown_le a _ hit
  refine ((Within.rd _ _).bind fun b _ => (Within.lift _).bind (k := n - 1) fun r _ =>
    (Within.forDown (b := 1) fun i s => ?_).mono (by omega)).mono (by omega)
  obtain ⟨b, p⟩ := s
  exact (Within.rd _ _).bind fun _ _ => (Within.lift _).bind (k := 0) fun _ _ => Within.pure _

theorem within_streamHex (os : OStream) (a : Aeu n) (hn : 0 < n) : Within (streamHex os a) (2 * n) := by
  refine ((within_scanDown a (n - 1)).bind (k := n + 1) fun iter hit => ?_).mono (by omega)
  have hle := scanDown_le a _ hit
  refine ((Within.rd _ _).bind fun b _ => (Within.forDown (b := 1) fun i s => ?_).mono
    (show _ ≤ n - 1 by omega)).mono (by omega)
  exact (Within.rd _ _).bind fun _ _ => Within.pure _

/-- The digit loop: halving the number at least, it ends after one round per bit. -/
theorem within_digitLoop (cfg : Cfg) (hn : 0 < n) {w : Nat} (hw : w ≤ 32) (base : BitVec w) (hb : 2 ≤ base.toNat)
    {cap : Nat} (fuel k : Nat) : ∀ (copy : Aeu n) (buffer : Vector Int cap) (position : Nat), toNat copy < 2 ^ k →
    Within (Counted.whileC fuel (copy, buffer, position) fun (copy, buffer, position) => do
      let z ← isZero copy
      if !z && position < cap then do
        let b ← ofUnsigned n base
        let qr ← divide cfg copy b
        let d ← integralCast .u8 qr.2
        let buffer ← Counted.lift (AesiMP.wr buffer position (48 + d))
        pure (.next (qr.1, buffer, position + 1))
      else pure (.leave (buffer, position))) ((k + 1) * (n + n + (320 * n ^ 2 + 227 * n) + 2)) := by
  induction fuel generalizing k with
  | zero => intro copy buffer position _; exact (Within.lift _).mono (Nat.zero_le _)
  | succ fuel ih =>
    intro copy buffer position hc
    have hz : (isZero copy).run = .ok (decide (toNat copy = 0)) := by rw [run_isZero, isZero_spec]
    generalize hB : n + n + (320 * n ^ 2 + 227 * n) + 2 = B at ih ⊢
    cases k with
    | zero =>
      have h0 : toNat copy = 0 := by simpa using hc
      unfold Counted.whileC
      refine ((((within_isZero copy).bind (k := 0) fun z hz' => ?_).bind (k := 0) fun c hcr => ?_)).mono (by omega)
      · rw [hz, h0] at hz'
        simp only [decide_true, Except.ok.injEq] at hz'
        subst hz'
        exact Within.pure _
      · simp only [run_bind, hz, h0, decide_true, ok_bind, Bool.not_true, Bool.false_and, Bool.false_eq_true,
          if_false, run_pure, Except.ok.injEq] at hcr
        subst hcr
        exact Within.pure _
    | succ k =>
      unfold Counted.whileC
      refine (Within.bind (j := B) (k := (k + 1) * B) ?_ fun c hcr => ?_).mono (by rw [Nat.succ_mul (k + 1)]; omega)
      · refine ((within_isZero copy).bind fun z _ => Within.ite
          (k := n + (320 * n ^ 2 + 227 * n) + 2) (fun _ => ?_) fun _ => (Within.pure _).mono (Nat.zero_le _)).mono
          (by omega)
        exact ((within_ofUnsigned _).bind fun b _ => (within_divide cfg _ _).bind fun qr _ =>
          (within_integralCast _ _).bind fun d _ => (Within.lift _).bind (k := 0) fun _ _ => Within.pure _).mono
          (by omega)
      · simp only [run_bind, hz, ok_bind, run_ite, run_pure, run_lift, run_ofUnsigned, run_divide,
          run_integralCast] at hcr
        cases c with
        | leave r => exact (Within.pure _).mono (Nat.zero_le _)
        | next s =>
          obtain ⟨c', b', p'⟩ := s
          refine ih k c' b' p' ?_
          split at hcr
          · obtain ⟨b, h1, h2⟩ := ofUnsigned_spec (n := n) (by omega : w ≤ 64) base
            have h2 : toNat b = base.toNat := by
              rw [h2]
              exact Nat.mod_eq_of_lt (lt_of_lt_of_le base.isLt (Nat.pow_le_pow_right (by norm_num) (by omega)))
            obtain ⟨qr, h3, h4, h5⟩ := divide_spec cfg hn copy b (by omega)
            rw [h1, ok_bind, h3, ok_bind] at hcr
            cases hd : Aeu.integralCast .u8 qr.2 with
            | error e => rw [hd] at hcr; simp at hcr
            | ok d =>
              rw [hd, ok_bind] at hcr
              cases hwr : AesiMP.wr buffer position (48 + d) with
              | error e => rw [hwr] at hcr; simp at hcr
              | ok v =>
                rw [hwr, ok_bind] at hcr
                simp only [Except.ok.injEq, Ctl.next.injEq, Prod.mk.injEq] at hcr
                rw [← hcr.1, h4, h2]
                rw [pow_succ] at hc
                exact lt_of_le_of_lt (Nat.div_le_div_left hb (by norm_num)) (by omega)
          · simp at hcr

theorem within_getString (cfg : Cfg) (kind : CharKind) (hn : 0 < n) (base : BitVec 8) (hb : 2 ≤ base.toNat)
    (upper : Bool) (a : Aeu n) {cap : Nat} (buffer : Vector Int cap) (showBase : Bool) :
    Within (getString cfg kind base upper a buffer showBase)
      (n + if base = 16#8 then 2 * n else (32 * n + 1) * (n + n + (320 * n ^ 2 + 227 * n) + 2)) := by
  refine Within.ite (fun _ => (Within.pure _).mono (Nat.zero_le _)) fun _ => ?_
  refine ((Within.lift _).bind fun r _ => (within_isZero a).bind fun z _ => Within.ite
    (k := if base = 16#8 then 2 * n else (32 * n + 1) * (n + n + (320 * n ^ 2 + 227 * n) + 2)) (fun _ => ?_)
    fun _ => ?_).mono (by omega)
  · exact ((Within.lift _).bind (k := 0) fun _ _ => Within.pure _).mono (Nat.zero_le _)
  · refine Within.bind (k := 0)
      (j := if base = 16#8 then 2 * n else (32 * n + 1) * (n + n + (320 * n ^ 2 + 227 * n) + 2)) ?_
      fun _ _ => (Within.lift _).bind (k := 0) fun _ _ => Within.pure _
    unfold getStringBody
    by_cases h : base = 16#8
    · rw [if_pos h, if_pos h]
      exact within_getStringHex kind upper a _ _ hn
    · rw [if_neg h, if_neg h]
      refine ((within_digitLoop cfg hn (by norm_num) base hb _ (32 * n) a _ _ (toNat_lt a)).bind (k := 0)
        fun _ _ => (Within.lift _).bind (k := 0) fun _ _ => Within.pure _).mono (by omega)

theorem within_streamOut (cfg : Cfg) (hn : 0 < n) (bufferSize : Nat) (os : OStream) (a : Aeu n) :
    Within (streamOut cfg bufferSize os a)
      (n + if os.basefield = .hex then 2 * n else (32 * n + 1) * (n + n + (320 * n ^ 2 + 227 * n) + 2)) := by
  refine (within_isZero a).bind fun z _ => Within.ite (fun _ => (Within.pure _).mono (Nat.zero_le _)) fun _ => ?_
  have dig : ∀ base : BitVec 32, 2 ≤ base.toNat → Within (streamDigits cfg bufferSize base (streamHead os) a)
      ((32 * n + 1) * (n + n + (320 * n ^ 2 + 227 * n) + 2)) := fun base hb =>
    ((within_digitLoop cfg hn (by norm_num) base hb _ (32 * n) a _ _ (toNat_lt a)).bind (k := 0)
      fun _ _ => Within.lift _).mono (by omega)
  cases h : os.basefield with
  | hex => simp only [streamBase, if_true]; exact within_streamHex _ a hn
  | oct => simp only [streamBase]; exact dig _ (by decide)
  | other => simp only [streamBase]; exact dig _ (by decide)

end Work

namespace WorkS
variable {n m : Nat}

theorem within_ofIntegral (t : ITy) (v : Int) : Within (ofIntegral n t v) n :=
  Within.ite (fun _ => ((Within.lift _).bind fun _ _ => (Work.within_ofUnsigned _).bind fun _ _ =>
      Within.pure _).mono (by omega)) fun _ => Within.ite
    (fun _ => (Work.within_ofUnsigned _).bind fun _ _ => Within.pure _) fun _ => (Within.pure _).mono (by omega)

theorem within_normalise (a : Aesi n) : Within (normalise a) n :=
  (Work.within_isZero a.base).bind fun _ _ => Within.pure _

theorem within_inc (a : Aesi n) : Within (inc a) (3 * n) := by
  unfold inc
  cases a.sign with
  | negative => exact ((Work.within_dec a.base).bind fun _ _ => within_normalise _).mono (by omega)
  | positive => exact ((Work.within_inc a.base).bind fun _ _ => Within.pure _).mono (by omega)
  | zero => exact ((Work.within_ofUnsigned _).bind fun _ _ => Within.pure _).mono (by omega)

theorem within_dec (a : Aesi n) : Within (dec a) (3 * n) := by
  unfold dec
  cases a.sign with
  | positive => exact ((Work.within_dec a.base).bind fun _ _ => within_normalise _).mono (by omega)
  | negative => exact ((Work.within_inc a.base).bind fun _ _ => Within.pure _).mono (by omega)
  | zero => exact ((Work.within_ofUnsigned _).bind fun _ _ => Within.pure _).mono (by omega)

theorem within_subMagnitude (cfg : Cfg) (a : Aesi n) (b : Aeu n) (s : Sign) :
    Within (subMagnitude cfg a b s) (7 * n) := by
  refine ((Work.within_compareTo cfg a.base b).bind (k := 5 * n) fun c _ => ?_).mono (by omega)
  cases c with
  | greater => exact (Work.within_sub _ _).bind fun _ _ => Within.pure _
  | less => exact (Work.within_sub _ _).bind fun _ _ => Within.pure _
  | equal => exact (Within.pure _).mono (by omega)
  | equivalent => exact (Within.pure _).mono (by omega)

theorem within_add (cfg : Cfg) (a b : Aesi n) : Within (add cfg a b) (7 * n) :=
  Within.ite (fun _ => (Within.pure _).mono (by omega)) fun _ =>
  Within.ite (fun _ => (Within.pure _).mono (by omega)) fun _ =>
  Within.ite (fun _ => ((Work.within_add _ _).bind fun _ _ => Within.pure _).mono (by omega)) fun _ =>
  Within.ite (fun _ => within_subMagnitude cfg _ _ _) fun _ => within_subMagnitude cfg _ _ _

theorem within_sub (cfg : Cfg) (a b : Aesi n) : Within (sub cfg a b) (7 * n) :=
  Within.ite (fun _ => (Within.pure _).mono (by omega)) fun _ =>
  Within.ite (fun _ => (Within.pure _).mono (by omega)) fun _ =>
  Within.ite (fun _ => Within.ite (fun _ => within_subMagnitude cfg _ _ _)
    fun _ => ((Work.within_add _ _).bind fun _ _ => Within.pure _).mono (by omega)) fun _ =>
  Within.ite (fun _ => within_subMagnitude cfg _ _ _)
    fun _ => ((Work.within_add _ _).bind fun _ _ => Within.pure _).mono (by omega)

theorem within_mul (a b : Aesi n) : Within (mul a b) (3 * n ^ 2 + 5 * n) :=
  Within.ite (fun _ => (Within.pure _).mono (Nat.zero_le _)) fun _ =>
    (Work.within_mul _ _).bind fun _ _ => Within.pure _

theorem within_mulIntegral (cfg : Cfg) (t : ITy) (a : Aesi n) (v : Int) : Within (mulIntegral cfg t a v) (8 * n) :=
  Within.ite (fun _ => (Within.pure _).mono (Nat.zero_le _)) fun _ =>
    ((Within.lift _).bind fun _ _ => (Work.within_mulULL cfg _ _).bind fun _ _ => Within.pure _).mono (by omega)

theorem within_div (cfg : Cfg) (a b : Aesi n) : Within (div cfg a b) (320 * n ^ 2 + 228 * n) :=
  Within.ite (fun _ => (Within.pure _).mono (Nat.zero_le _)) fun _ =>
    ((Work.within_div cfg _ _).bind fun _ _ => within_normalise _).mono (by omega)

theorem within_divIntegral (cfg : Cfg) (t : ITy) (a : Aesi n) (v : Int) :
    Within (divIntegral cfg t a v) (320 * n ^ 2 + 229 * n) :=
  Within.ite (fun _ => (Within.pure _).mono (Nat.zero_le _)) fun _ =>
    ((Within.lift _).bind fun _ _ => (Work.within_ofUnsigned _).bind fun _ _ =>
      (Work.within_div cfg _ _).bind fun _ _ => within_normalise _).mono (by omega)

theorem within_mod (cfg : Cfg) (a b : Aesi n) : Within (mod cfg a b) (320 * n ^ 2 + 228 * n) :=
  Within.ite (fun _ => (Within.pure _).mono (Nat.zero_le _)) fun _ =>
    ((Work.within_mod cfg _ _).bind fun _ _ => within_normalise _).mono (by omega)

theorem within_modIntegral (cfg : Cfg) (t : ITy) (a : Aesi n) (v : Int) :
    Within (modIntegral cfg t a v) (320 * n ^ 2 + 228 * n) :=
  Within.ite (fun _ => (Within.pure _).mono (Nat.zero_le _)) fun _ =>
    ((Within.lift _).bind fun _ _ => (Work.within_ofUnsigned _).bind fun _ _ =>
      (Work.within_mod cfg _ _).bind fun _ _ => Within.pure _).mono (by omega)

theorem within_compareToIntegral (a : Aesi n) (v : Int) : Within (compareToIntegral a v) (n + 2) :=
  Within.ite (fun _ => (Within.pure _).mono (Nat.zero_le _)) fun _ => Within.ite
    (fun _ => Within.ite (fun _ => ((Within.lift _).bind fun _ _ => (Work.within_compareToU64 _ _).bind fun _ _ =>
      Within.pure _).mono (by omega)) fun _ => (Within.pure _).mono (Nat.zero_le _)) fun _ =>
    Within.ite (fun _ => Work.within_compareToU64 _ _) fun _ => (Within.pure _).mono (Nat.zero_le _)

theorem within_compareTo (cfg : Cfg) (a b : Aesi n) : Within (compareTo cfg a b) (2 * n) :=
  Within.ite (fun _ => (Within.pure _).mono (Nat.zero_le _)) fun _ => Within.ite
    (fun _ => Within.ite (fun _ => ((Work.within_compareTo cfg _ _).bind fun _ _ =>
      Within.pure _).mono (by omega)) fun _ => (Within.pure _).mono (Nat.zero_le _)) fun _ =>
    Within.ite (fun _ => (Work.within_compareTo cfg _ _).mono (by omega)) fun _ =>
      (Within.pure _).mono (Nat.zero_le _)

theorem within_divide (cfg : Cfg) (a b q r : Aesi n) : Within (divide cfg a b q r) (320 * n ^ 2 + 229 * n) :=
  Within.ite (fun _ => (Within.pure _).mono (Nat.zero_le _)) fun _ =>
    ((Work.within_divide cfg _ _).bind fun _ _ => (within_normalise _).bind fun _ _ =>
      (within_normalise _).bind fun _ _ => Within.pure _).mono (by omega)

theorem within_ofChars (kind : CharKind) (alnum : Int → Bool) {size : Nat} (data : Vector Int size) :
    Within (ofChars kind alnum n data) (size * (4 * n) + n) :=
  ((Work.within_ofChars kind alnum data).bind fun b _ => (Work.within_isZero b).bind (k := 0) fun _ _ => Within.ite
    (fun _ => (Within.lift _).bind (k := 0) fun _ _ => Within.pure _) fun _ => Within.pure _).mono (by omega)

end WorkS

open Work
variable {n m : Nat}

private theorem cube_bound (hn : 0 < n) :
    n + (32 * n + 1) * (n + n + (320 * n ^ 2 + 227 * n) + 2) ≤ 18184 * n ^ 3 := by
  have h1 : n ≤ n ^ 2 := Nat.le_self_pow (by norm_num) n
  have h2 : n ^ 2 ≤ n ^ 3 := Nat.pow_le_pow_right hn (by norm_num)
  have e3 : n ^ 3 = n * n ^ 2 := by ring
  have h3 : n + n + (320 * n ^ 2 + 227 * n) + 2 ≤ 551 * n ^ 2 := by omega
  have h4 : (32 * n + 1) * (n + n + (320 * n ^ 2 + 227 * n) + 2) ≤ (33 * n) * (551 * n ^ 2) :=
    Nat.mul_le_mul (by omega) h3
  nlinarith

/-- C116: reading a number from a text of `size` characters takes at most `4 n` block accesses per character. -/
theorem C116_parse (kind : CharKind) (alnum : Int → Bool) {size : Nat} (data : Vector Int size) :
    ((Work.ofChars kind alnum n data).run = Aeu.ofChars kind alnum n data ∧
      (Work.ofChars kind alnum n data).accesses ≤ 4 * n * size) ∧
    ((WorkS.ofChars kind alnum n data).run = Aesi.ofChars kind alnum n data ∧
      (WorkS.ofChars kind alnum n data).accesses ≤ 4 * n * size + n) :=
  ⟨⟨run_ofChars kind alnum data, (within_ofChars kind alnum data).mono (le_of_eq (Nat.mul_comm _ _))⟩,
   ⟨WorkS.run_ofChars kind alnum data, (WorkS.within_ofChars kind alnum data).mono
    (le_of_eq (by rw [Nat.mul_comm]))⟩⟩

/-- C116: `getString` takes at most `3 n` block accesses in base 16 and cubically many in the other bases, however
large the buffer is; so does insertion into a stream. -/
theorem C116_print (cfg : Cfg) (kind : CharKind) (hn : 0 < n) (base : BitVec 8) (hb : 2 ≤ base.toNat)
    (upper : Bool) (a : Aeu n) {cap : Nat} (buffer : Vector Int cap) (showBase : Bool) (bufferSize : Nat)
    (os : OStream) :
    ((Work.getString cfg kind base upper a buffer showBase).run =
        Aeu.getString cfg kind base upper a buffer showBase ∧
      (Work.getString cfg kind base upper a buffer showBase).accesses ≤
        if base = 16#8 then 3 * n else 18184 * n ^ 3) ∧
    ((Work.streamOut cfg bufferSize os a).run = Aeu.streamOut cfg bufferSize os a ∧
      (Work.streamOut cfg bufferSize os a).accesses ≤
        if os.basefield = .hex then 3 * n else 18184 * n ^ 3) := by
  have h := cube_bound hn
  refine ⟨⟨run_getString cfg kind base upper a buffer showBase,
      (within_getString cfg kind hn base hb upper a buffer showBase).mono ?_⟩,
    ⟨run_streamOut cfg bufferSize os a, (within_streamOut cfg hn bufferSize os a).mono ?_⟩⟩
  · split
    · omega
    · exact h
  · split
    · omega
    · exact h

/-- C116, signed numbers: sums, differences, increments, comparisons and the multiplication by a built-in value
are linear. -/
theorem C116_signed_linear (cfg : Cfg) (a b : Aesi n) (t : ITy) (v : Int) :
    ((WorkS.add cfg a b).run = Aesi.add cfg a b ∧ (WorkS.add cfg a b).accesses ≤ 7 * n) ∧
    ((WorkS.sub cfg a b).run = Aesi.sub cfg a b ∧ (WorkS.sub cfg a b).accesses ≤ 7 * n) ∧
    ((WorkS.inc a).run = Aesi.inc a ∧ (WorkS.inc a).accesses ≤ 3 * n) ∧
    ((WorkS.dec a).run = Aesi.dec a ∧ (WorkS.dec a).accesses ≤ 3 * n) ∧
    ((WorkS.compareTo cfg a b).run = Aesi.compareTo cfg a b ∧ (WorkS.compareTo cfg a b).accesses ≤ 2 * n) ∧
    ((WorkS.compareToIntegral a v).run = Aesi.compareToIntegral a v ∧
      (WorkS.compareToIntegral a v).accesses ≤ n + 2) ∧
    ((WorkS.mulIntegral cfg t a v).run = Aesi.mulIntegral cfg t a v ∧
      (WorkS.mulIntegral cfg t a v).accesses ≤ 8 * n) :=
  ⟨⟨WorkS.run_add cfg a b, WorkS.within_add cfg a b⟩, ⟨WorkS.run_sub cfg a b, WorkS.within_sub cfg a b⟩,
   ⟨WorkS.run_inc a, WorkS.within_inc a⟩, ⟨WorkS.run_dec a, WorkS.within_dec a⟩,
   ⟨WorkS.run_compareTo cfg a b, WorkS.within_compareTo cfg a b⟩,
   ⟨WorkS.run_compareToIntegral a v, WorkS.within_compareToIntegral a v⟩,
   ⟨WorkS.run_mulIntegral cfg t a v, WorkS.within_mulIntegral cfg t a v⟩⟩

/-- C116, signed numbers: products, quotients and remainders are quadratic; the square root as for unsigned numbers;
printing as for unsigned numbers. -/
theorem C116_signed (cfg : Cfg) (hn : 0 < n) (a b q r : Aesi n) (t : ITy) (v : Int) (bufferSize : Nat)
    (os : OStream) :
    ((WorkS.mul a b).run = Aesi.mul a b ∧ (WorkS.mul a b).accesses ≤ 8 * n ^ 2) ∧
    ((WorkS.div cfg a b).run = Aesi.div cfg a b ∧ (WorkS.div cfg a b).accesses ≤ 548 * n ^ 2) ∧
    ((WorkS.mod cfg a b).run = Aesi.mod cfg a b ∧ (WorkS.mod cfg a b).accesses ≤ 548 * n ^ 2) ∧
    ((WorkS.divIntegral cfg t a v).run = Aesi.divIntegral cfg t a v ∧
      (WorkS.divIntegral cfg t a v).accesses ≤ 549 * n ^ 2) ∧
    ((WorkS.modIntegral cfg t a v).run = Aesi.modIntegral cfg t a v ∧
      (WorkS.modIntegral cfg t a v).accesses ≤ 548 * n ^ 2) ∧
    ((WorkS.divide cfg a b q r).run = Aesi.divide cfg a b q r ∧
      (WorkS.divide cfg a b q r).accesses ≤ 549 * n ^ 2) ∧
    ((WorkS.squareRoot cfg a).run = Aesi.squareRoot cfg a ∧
      (WorkS.squareRoot cfg a).accesses ≤ (Nat.clog 2 (16 * n + 1) + 3) * (560 * n ^ 2)) ∧
    ((WorkS.streamOut cfg bufferSize os a).run = Aesi.streamOut cfg bufferSize os a ∧
      (WorkS.streamOut cfg bufferSize os a).accesses ≤ if os.basefield = .hex then 3 * n else 18184 * n ^ 3) := by
  have h1 : n ≤ n ^ 2 := Nat.le_self_pow (by norm_num) n
  refine ⟨⟨WorkS.run_mul a b, (WorkS.within_mul a b).mono (by omega)⟩,
    ⟨WorkS.run_div cfg a b, (WorkS.within_div cfg a b).mono (by omega)⟩,
    ⟨WorkS.run_mod cfg a b, (WorkS.within_mod cfg a b).mono (by omega)⟩,
    ⟨WorkS.run_divIntegral cfg t a v, (WorkS.within_divIntegral cfg t a v).mono (by omega)⟩,
    ⟨WorkS.run_modIntegral cfg t a v, (WorkS.within_modIntegral cfg t a v).mono (by omega)⟩,
    ⟨WorkS.run_divide cfg a b q r, (WorkS.within_divide cfg a b q r).mono (by omega)⟩,
    ⟨WorkS.run_squareRoot cfg a, ?_⟩, ⟨WorkS.run_streamOut cfg bufferSize os a, ?_⟩⟩
  · refine Within.ite (fun _ => ((show Within (Work.squareRoot cfg a.base)
      ((Nat.clog 2 (16 * n + 1) + 3) * (560 * n ^ 2)) from (C116_squareRoot cfg hn a.base).2).bind fun _ _ =>
      Within.pure _)) fun _ => (WorkS.within_ofIntegral _ _).mono ?_
    have := Nat.mul_le_mul_right (560 * n ^ 2) (show 1 ≤ Nat.clog 2 (16 * n + 1) + 3 by omega)
    omega
  · refine Within.ite (fun _ => ?_) fun _ => (Within.pure _).mono (Nat.zero_le _)
    have := ((C116_print cfg .char hn 2#8 (by decide) false a.base (Vector.replicate 0 (0 : Int)) false bufferSize
      (if a.sign = .negative then os.putText [45] else os)).2).2
    have e : (if a.sign = .negative then os.putText [45] else os).basefield = os.basefield := by
      split <;> rfl
    rw [e] at this
    exact this

private theorem cassert_true (cfg : Cfg) {b : Bool} (h : b = true) : ∃ v, cassert cfg b = .ok v := by
  subst h; exact ⟨(), by simp [cassert]⟩

/-- C116: access to one bit of a number touches one block (a read; setting reads and writes it) wherever the bit is,
and construction from a built-in value writes each block once, or nothing for the value 0. -/
theorem C116_bits (cfg : Cfg) (a : Aeu n) {i : Nat} (hi : i < 32 * n) (v : Bool) {w : Nat} (u : BitVec w) :
    ((Work.getBit cfg a i).run = Aeu.getBit cfg a i ∧ (Work.getBit cfg a i).accesses = 1) ∧
    ((Work.setBit cfg a i v).run = Aeu.setBit cfg a i v ∧ (Work.setBit cfg a i v).accesses = 2) ∧
    ((Work.ofUnsigned n u).run = Aeu.ofUnsigned n u ∧
      (Work.ofUnsigned n u).accesses = if u = 0#w then 0 else n) := by
  have hq : i / 32 < n := by omega
  have hr : i % 32 < 32 := by omega
  have hc : ∃ v, cassert cfg (decide (i / 32 < n ∧ i % 32 < 32)) = .ok v :=
    cassert_true cfg (decide_eq_true ⟨hq, hr⟩)
  have hs : ∃ v, shl32 1#32 (i % 32) = .ok v := ⟨_, by simp only [shl32]; rw [if_pos hr]⟩
  have hng : ¬ (!cfg.unsafeMode ∧ i ≥ 32 * n) := by omega
  refine ⟨⟨run_getBit cfg a i, ?_⟩, ⟨run_setBit cfg a i v, ?_⟩, ⟨run_ofUnsigned u, ?_⟩⟩
  · unfold Work.getBit
    rw [if_neg hng]
    exact ((Takes.lift hc).bind (k := 1) fun _ _ => (Takes.lift hs).bind (k := 1) fun _ _ =>
      (Takes.rd a hq).bind fun _ _ => Takes.pure _).1
  · unfold Work.setBit
    rw [if_neg hng]
    refine ((Takes.lift hc).bind (k := 2) fun _ _ => (Takes.lift hs).bind (k := 2) fun _ _ =>
      (Takes.rd a hq).bind (k := 1) fun _ _ => ?_).1
    split
    · exact Takes.wr a _ hq
    · exact Takes.wr a _ hq
  · unfold Work.ofUnsigned
    by_cases h : u = 0#w
    · rw [if_neg (not_not.mpr h), if_pos h]; rfl
    · rw [if_pos h, if_neg h]
      refine (((Takes.forUp (b := 1) fun i s hi => ?_).bind (k := 0) fun _ _ => Takes.pure _).of_eq (by omega)).1
      exact (Takes.wr _ _ hi).bind fun _ _ => Takes.pure _

/-- `Aeu<64>("0xff")` makes 16 accesses for its two digits; printing 255 in hexadecimal makes at most 6. -/
example : (Work.ofChars .char (fun c => decide (48 ≤ c ∧ c ≤ 122)) 2 #v[48, 120, 102, 102]).accesses = 16 ∧
    (Work.streamOut ⟨false, false, false⟩ 21 ⟨.hex, false, false, .right, 32, 0, []⟩ (ofNat 2 255)).accesses = 4 := by
  decide +kernel

end AesiMP
