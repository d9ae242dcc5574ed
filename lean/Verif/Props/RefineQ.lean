import Verif.Props.RefineS
import Verif.Props.Compare
import Verif.Props.SignedTotal

/-!
# Refinement, part 3: every observer answers what the specification says

Used by `Props/Refine.lean` (C77).
-/

namespace AesiMP
open Aesi
variable {n : Nat}

private theorem ofBool_decide (p : Prop) [Decidable p] : ofBool (decide p) = truth p := by
  unfold ofBool truth; by_cases h : p <;> simp [h]

private theorem ofCmp_eq (x y : Int) :
    ofCmp (if x < y then .less else if x = y then .equal else .greater) = cmpCode x y := by
  unfold cmpCode
  split
  · rfl
  · split <;> rfl

private theorem ofCmp_nat (x y : Nat) : ofCmp (Aeu.cmpNat x y) = cmpCode x y := by
  unfold cmpCode Aeu.cmpNat
  simp only [Nat.cast_lt, Nat.cast_inj]
  split
  · rfl
  · split <;> rfl

private theorem ofOrd_nat (x y : Nat) : ofOrd (Aeu.toOrdering (Aeu.cmpNat x y)) = ordCode x y := by
  unfold ordCode Aeu.cmpNat
  simp only [Nat.cast_lt, Nat.cast_inj]
  split
  · rfl
  · split <;> rfl

private theorem ofOrd_eq (x y : Int) :
    ofOrd (if x < y then .less else if x = y then .equal else .greater) = ordCode x y := by
  unfold ordCode
  split
  · rfl
  · split <;> rfl

private theorem ofOrd_cmp (x y : Int) :
    ofOrd (Aeu.toOrdering (if x < y then .less else if x = y then .equal else .greater)) = ordCode x y := by
  rw [← ofOrd_eq]; split
  · rfl
  · split <;> rfl

private theorem ofBool_lt (x y : Int) :
    ofBool (Aeu.toOrdering (if x < y then .less else if x = y then .equal else .greater) == .less) =
      truth (x < y) := by
  unfold truth; split
  · rfl
  · split <;> rfl

private theorem ofBool_gt (x y : Int) :
    ofBool (Aeu.toOrdering (if x < y then .less else if x = y then .equal else .greater) == .greater) =
      truth (y < x) := by
  rcases Int.lt_trichotomy x y with h | h | h
  · rw [if_pos h]; simp [truth, ofBool, Aeu.toOrdering, not_lt_of_gt h]
  · simp [h, truth, ofBool, Aeu.toOrdering]
  · rw [if_neg (not_lt_of_gt h), if_neg h.ne']; simp [truth, ofBool, Aeu.toOrdering, h]

private theorem compareTo_low (cfg : Cfg) (m : Nat) (x : Aeu n) (y : Aeu m)
    (hx : Aeu.toNat x < 2 ^ (32 * min n m)) (hy : Aeu.toNat y < 2 ^ (32 * min n m)) :
    Aeu.compareTo cfg x y = .ok (Aeu.cmpNat (Aeu.toNat x) (Aeu.toNat y)) := by
  rw [Aeu.compareTo_general, Nat.mod_eq_of_lt hx, Nat.mod_eq_of_lt hy]
  cases Aeu.cmpNat (Aeu.toNat x) (Aeu.toNat y) <;> rfl

private theorem runU_low (cfg : Cfg) (m : Nat) (x : Aeu n) (y : Aeu m)
    (hx : Aeu.toNat x < 2 ^ (32 * min n m)) (hy : Aeu.toNat y < 2 ^ (32 * min n m)) (op : Rel) :
    (do let r ← op.runU cfg x y; .ok (ofBool r) : Exec (List Int)) = .ok (op.ideal (Aeu.toNat x) (Aeu.toNat y)) := by
  cases op <;>
    simp only [Rel.runU, Aeu.lt, Aeu.le, Aeu.gt, Aeu.ge, Aeu.spaceship, compareTo_low cfg m x y hx hy, ok_bind,
      Rel.ideal] <;>
    refine congrArg Except.ok ?_ <;> unfold ofBool truth Aeu.cmpNat <;>
    rcases Nat.lt_trichotomy (Aeu.toNat x) (Aeu.toNat y) with h | h | h <;>
    first
      | simp [h, Aeu.toOrdering, not_lt_of_gt h, h.ne, h.ne', h.le, not_le_of_gt h]
      | simp [h, Aeu.toOrdering]

private theorem runOld_eq (cfg : Cfg) (x y : Aeu n) (op : Rel) :
    (do let r ← op.runOld cfg x y; .ok (ofBool r) : Exec (List Int)) = .ok (op.ideal (Aeu.toNat x) (Aeu.toNat y)) := by
  have hl : ∀ z : Aeu n, Aeu.toNat z < 2 ^ (32 * min n n) := fun z => by rw [Nat.min_self]; exact Aeu.toNat_lt z
  cases op <;>
    simp only [Rel.runOld, Aeu.oldLt, Aeu.oldLe, Aeu.oldGt, Aeu.oldGe, compareTo_low cfg n x y (hl x) (hl y), ok_bind,
      Rel.ideal] <;>
    refine congrArg Except.ok ?_ <;> unfold ofBool truth Aeu.cmpNat <;>
    rcases Nat.lt_trichotomy (Aeu.toNat x) (Aeu.toNat y) with h | h | h <;>
    first
      | simp [h, not_lt_of_gt h, h.ne, h.ne', h.le, not_le_of_gt h]
      | simp [h]

private theorem pos_of_ne {a : Aeu n} (h : Aeu.toNat a ≠ 0) : 0 < n := by
  rcases Nat.eq_zero_or_pos n with rfl | h'
  · have := Aeu.toNat_lt a; simp at this; omega
  · exact h'

theorem shownText_refines (cfg : Cfg) (kind : CharKind) (base : BitVec 8) (upper showBase : Bool)
    (cap : Nat) (a : Aeu n) (r : List Int)
    (h : shownText n base.toNat upper showBase cap (Aeu.toNat a) = some r) :
    (do let r ← Aeu.getString cfg kind base upper a (Vector.replicate cap 0) showBase
        .ok (r.1.toList.take r.2) : Exec (List Int)) = .ok r := by
  obtain ⟨⟨hb, hc, hl⟩, rfl⟩ := given_eq_some.1 h
  split
  · rename_i h0
    have hnum : numeral upper base.toNat (Aeu.toNat a) = [48] := by simp [numeral, h0]
    rw [hnum] at hl ⊢
    have hlen : 2 ≤ cap := by
      rw [List.length_append] at hl; simp only [List.length_singleton] at hl; omega
    obtain ⟨x, hx, h1, h2⟩ := C24_get_string_zero cfg kind base upper a h0 (Vector.replicate cap 0) showBase
      hlen _ rfl
    simp only [hx, ok_bind, h1, h2, List.take_left']
  · rename_i h0
    obtain ⟨x, hx, h1, h2⟩ := C24_get_string_partial cfg kind base upper a h0 (Vector.replicate cap 0)
      showBase hc (by
        rcases hb with hb | hb
        · exact .inl hb
        · exact .inr ⟨hb, pos_of_ne h0⟩) _ rfl hl
    simp only [hx, ok_bind, h1, h2]
    rw [List.take_left']
    rw [List.length_append, List.length_singleton]

theorem Query.refines (env : Env) (st : World) (hst : st.Canonical) (q : Query) (r : List Int)
    (h : q.ideal st.ideal = some r) : q.run env st = .ok r := by
  cases q <;> simp only [Query.ideal] at h <;> simp only [Query.run]
  case uIsZero k a =>
    obtain ⟨hn, rfl⟩ := given_eq_some.1 h
    rw [(C15_zero_parity hn _).1]; exact congrArg _ (ofBool_decide _)
  case uIsOdd k a =>
    obtain ⟨hn, rfl⟩ := given_eq_some.1 h
    rw [(C15_zero_parity hn _).2.1]; exact congrArg _ (ofBool_decide _)
  case uIsEven k a =>
    obtain ⟨hn, rfl⟩ := given_eq_some.1 h
    rw [(C15_zero_parity hn _).2.2]; exact congrArg _ (ofBool_decide _)
  case uBitCount k a =>
    obtain ⟨hn, rfl⟩ := given_eq_some.1 h
    rw [C15_bitCount hn]; rfl
  case uByteCount k a =>
    obtain ⟨hn, rfl⟩ := given_eq_some.1 h
    rw [C15_byteCount hn]; rfl
  case uFilledBlocks k a =>
    obtain ⟨hn, rfl⟩ := given_eq_some.1 h
    rw [C15_filledBlocksNumber]; rfl
  case uGetBit k a i =>
    obtain ⟨hi, rfl⟩ := given_eq_some.1 h
    rw [C12_getBit _ _ i hi, Nat.testBit_eq_decide_div_mod_eq]; exact congrArg _ (ofBool_decide _)
  case uGetByte k a i =>
    obtain ⟨hi, rfl⟩ := given_eq_some.1 h
    obtain ⟨b, hb, hv⟩ := C13_getByte env.cfg (st.u k a) i hi
    rw [hb]; simp only [ok_bind, hv]; rfl
  case uGetBlock k a i =>
    obtain ⟨hi, rfl⟩ := given_eq_some.1 h
    obtain ⟨b, hb, hv⟩ := C14_getBlock env.cfg (st.u k a) i hi
    rw [hb]; simp only [ok_bind, hv]
    simp only [digitAt, ← pow_mul]; rfl
  case uEq k m a b =>
    obtain rfl := Option.some.inj h
    rw [C18_eq_across]; exact congrArg _ (ofBool_decide _)
  case uCompare k m a b =>
    obtain ⟨⟨h1, h2⟩, rfl⟩ := given_eq_some.1 h
    rw [compareTo_low env.cfg m _ _ h1 h2]; exact congrArg _ (ofCmp_nat _ _)
  case uOrder k m a b =>
    obtain ⟨⟨h1, h2⟩, rfl⟩ := given_eq_some.1 h
    unfold Aeu.spaceship
    rw [compareTo_low env.cfg m _ _ h1 h2]; exact congrArg _ (ofOrd_nat _ _)
  case uEqNarrow k a w u =>
    obtain ⟨⟨hn, hw⟩, rfl⟩ := given_eq_some.1 h
    rw [(C17_compare_narrow hn hw _ u).1]; exact congrArg _ (ofBool_decide _)
  case uCompareNarrow k a w u =>
    obtain ⟨⟨hn, hw⟩, rfl⟩ := given_eq_some.1 h
    rw [Aeu.compareToNarrow_spec hn hw]; exact congrArg _ (ofCmp_nat _ _)
  case uEqU64 k a u =>
    obtain ⟨hn, rfl⟩ := given_eq_some.1 h
    rw [(C17_compare_u64_partial hn _ u).1]; exact congrArg _ (ofBool_decide _)
  case uCompareU64 k a u =>
    obtain ⟨hn, rfl⟩ := given_eq_some.1 h
    rw [Aeu.compareToU64_spec hn]; exact congrArg _ (ofCmp_nat _ _)
  case uEqSigned k a i =>
    obtain ⟨⟨hn, h0, h1⟩, rfl⟩ := given_eq_some.1 h
    rw [(C72_signed_partial hn _ i h0 h1).1]; exact congrArg _ (ofBool_decide _)
  case uCompareSigned k a i =>
    obtain ⟨⟨hn, h0, h1⟩, rfl⟩ := given_eq_some.1 h
    rw [(C72_signed_partial hn _ i h0 h1).2.1]; exact congrArg _ (ofCmp_eq _ _)
  case uRel op k m a b =>
    obtain ⟨⟨h1, h2⟩, rfl⟩ := given_eq_some.1 h
    exact runU_low env.cfg m _ _ h1 h2 op
  case uNe k m a b =>
    obtain rfl := Option.some.inj h
    rw [Aeu.ne, C18_eq_across, ok_bind, ← decide_not]; exact congrArg _ (ofBool_decide _)
  case uOld op k a b =>
    obtain rfl := Option.some.inj h
    exact runOld_eq env.cfg _ _ op
  case uOldBuiltin op k a w u =>
    obtain ⟨⟨hw, hu⟩, rfl⟩ := given_eq_some.1 h
    obtain ⟨x, hx, hv⟩ := Aeu.ofUnsigned_spec (n := k) hw u
    simp only [Aeu.oldBuiltin, hx, ok_bind]
    rw [runOld_eq env.cfg _ x op, hv, Nat.mod_eq_of_lt hu]; rfl
  case uOrderNarrow k a w u =>
    obtain ⟨⟨hn, hw⟩, rfl⟩ := given_eq_some.1 h
    rw [Aeu.spaceshipNarrow, Aeu.compareToNarrow_spec hn hw]; exact congrArg _ (ofOrd_nat _ _)
  case uOrderU64 k a u =>
    obtain ⟨hn, rfl⟩ := given_eq_some.1 h
    rw [Aeu.spaceshipU64, Aeu.compareToU64_spec hn]; exact congrArg _ (ofOrd_nat _ _)
  case uOrderSigned k a i =>
    obtain ⟨⟨hn, h0, h1⟩, rfl⟩ := given_eq_some.1 h
    rw [(C72_signed_partial hn _ i h0 h1).2.2]; exact congrArg _ (ofOrd_eq _ _)
  case uBitness k => obtain rfl := Option.some.inj h; simp [Aeu.getBitness]
  case uBlocks k => obtain rfl := Option.some.inj h; simp [Aeu.totalBlocksNumber, Aeu.getBitness]
  case uEqMpz k a z =>
    obtain ⟨⟨h0, h1⟩, rfl⟩ := given_eq_some.1 h
    rw [C65_unsigned_partial env.cfg _ z h0 h1]; exact congrArg _ (ofBool_decide _)
  case uCast k a t =>
    obtain ⟨⟨hn, ht, hr⟩, rfl⟩ := given_eq_some.1 h
    rw [C21_integralCast_partial hn t]
    have hlt := (ITy.inRange_bounds ht hr).2.1
    have : Aeu.toNat (st.u k a) % 2 ^ 64 = Aeu.toNat (st.u k a) := by
      apply Nat.mod_eq_of_lt
      have h' : ((Aeu.toNat (st.u k a) : Nat) : Int) < ((2 ^ 64 : Nat) : Int) := by push_cast; exact hlt
      exact Int.ofNat_lt.1 h'
    rw [this]
    simp only [ok_bind]
    exact congrArg (fun z => Except.ok [z]) (ITy.conv_self ht hr)
  case uText k a kind base upper showBase cap => exact shownText_refines env.cfg kind base upper showBase cap _ r h
  case sIsZero k a =>
    obtain rfl := Option.some.inj h
    rw [← ofBool_decide]
    refine congrArg (fun b => Except.ok (ofBool b)) ?_
    rw [Bool.eq_iff_iff, decide_eq_true_iff]
    have := (canon_sign (hst k a)).1
    simpa [Aesi.isZero, World.ideal] using this
  case sIsPositive k a =>
    obtain rfl := Option.some.inj h
    rw [← ofBool_decide]
    refine congrArg (fun b => Except.ok (ofBool b)) ?_
    rw [Bool.eq_iff_iff, decide_eq_true_iff]
    have := (canon_sign (hst k a)).2.1
    simpa [Aesi.isPositive, World.ideal] using this
  case sIsNegative k a =>
    obtain rfl := Option.some.inj h
    rw [← ofBool_decide]
    refine congrArg (fun b => Except.ok (ofBool b)) ?_
    rw [Bool.eq_iff_iff, decide_eq_true_iff]
    have := (canon_sign (hst k a)).2.2
    simpa [Aesi.isNegative, World.ideal] using this
  case sIsOdd k a =>
    obtain ⟨⟨hn, h0⟩, rfl⟩ := given_eq_some.1 h
    rw [(C67_observers env.cfg hn _ h0).2.2.2.2.2.1]; exact congrArg _ (ofBool_decide _)
  case sIsEven k a =>
    obtain ⟨⟨hn, h0⟩, rfl⟩ := given_eq_some.1 h
    rw [(C67_observers env.cfg hn _ h0).2.2.2.2.2.2]; exact congrArg _ (ofBool_decide _)
  case sBitCount k a =>
    obtain ⟨⟨hn, h0⟩, rfl⟩ := given_eq_some.1 h
    rw [(C67_observers env.cfg hn _ h0).2.2.2.1]
    simp only [ok_bind, digitCount, Int.natAbs_eq_zero]
    rw [if_neg h0]; rfl
  case sByteCount k a =>
    obtain ⟨⟨hn, h0⟩, rfl⟩ := given_eq_some.1 h
    rw [(C67_observers env.cfg hn _ h0).2.2.2.2.1]
    simp only [ok_bind, digitCount, Int.natAbs_eq_zero]
    rw [if_neg h0]; rfl
  case sGetBit k a i =>
    obtain ⟨⟨hi, h0⟩, rfl⟩ := given_eq_some.1 h
    rw [(C67_observers env.cfg (by omega) _ h0).1 i hi, Nat.testBit_eq_decide_div_mod_eq]
    exact congrArg _ (ofBool_decide _)
  case sGetByte k a i =>
    obtain ⟨⟨hi, h0⟩, rfl⟩ := given_eq_some.1 h
    obtain ⟨b, hb, hv⟩ := (C67_observers env.cfg (by omega) _ h0).2.1 i hi
    rw [hb]; simp only [ok_bind, hv]; rfl
  case sGetBlock k a i =>
    obtain ⟨⟨hi, h0⟩, rfl⟩ := given_eq_some.1 h
    obtain ⟨b, hb, hv⟩ := (C67_observers env.cfg (by omega) _ h0).2.2.1 i hi
    rw [hb]; simp only [ok_bind, hv]
    simp only [digitAt, ← pow_mul]; rfl
  case sEq k a b =>
    obtain rfl := Option.some.inj h
    rw [(C41_compare_partial env.cfg _ _ (hst k a) (hst k b)).2.1]; exact congrArg _ (ofBool_decide _)
  case sCompare k a b =>
    obtain rfl := Option.some.inj h
    rw [(C41_compare_partial env.cfg _ _ (hst k a) (hst k b)).1]; exact congrArg _ (ofCmp_eq _ _)
  case sOrder k a b =>
    obtain rfl := Option.some.inj h
    rw [(C41_compare_partial env.cfg _ _ (hst k a) (hst k b)).2.2.1]; exact congrArg _ (ofOrd_eq _ _)
  case sEqAcross k m a b =>
    obtain ⟨⟨hn, hm, hf⟩, rfl⟩ := given_eq_some.1 h
    rw [(C50_across_partial env.cfg hn hm _ _ (hst k a) (hst m b) hf).1]; exact congrArg _ (ofBool_decide _)
  case sCompareAcross k m a b =>
    obtain ⟨⟨hn, hm, hf⟩, rfl⟩ := given_eq_some.1 h
    rw [(C50_across_partial env.cfg hn hm _ _ (hst k a) (hst m b) hf).2]; exact congrArg _ (ofCmp_eq _ _)
  case sEqIntegral k a t i =>
    obtain ⟨⟨hn, ht, hr, hm⟩, rfl⟩ := given_eq_some.1 h
    rw [(C42_compare_builtin_partial hn ht _ (hst k a) hr hm).2.1]; exact congrArg _ (ofBool_decide _)
  case sCompareIntegral k a t i =>
    obtain ⟨⟨hn, ht, hr, hm⟩, rfl⟩ := given_eq_some.1 h
    rw [(C42_compare_builtin_partial hn ht _ (hst k a) hr hm).1]; exact congrArg _ (ofCmp_eq _ _)
  case sRel op k a b =>
    obtain rfl := Option.some.inj h
    have e := (C41_compare_partial env.cfg _ _ (hst k a) (hst k b)).2.2.1
    cases op <;>
      simp only [Rel.runS, Aesi.lt, Aesi.le, Aesi.gt, Aesi.ge, e, ok_bind, Rel.ideal, World.ideal] <;>
      refine congrArg Except.ok ?_ <;> unfold ofBool truth <;>
      rcases Int.lt_trichotomy (toInt (st.s k a)) (toInt (st.s k b)) with h | h | h <;>
      first
        | simp [h, not_lt_of_gt h, h.ne, h.ne', h.le, not_le_of_gt h]
        | simp [h]
  case sNe k a b =>
    obtain rfl := Option.some.inj h
    rw [Aesi.ne, (C41_compare_partial env.cfg _ _ (hst k a) (hst k b)).2.1, ok_bind, ← decide_not]
    exact congrArg _ (ofBool_decide _)
  case sOrderIntegral k a t i =>
    obtain ⟨⟨hn, ht, hr, hm⟩, rfl⟩ := given_eq_some.1 h
    rw [Aesi.spaceshipIntegral, (C42_compare_builtin_partial hn ht _ (hst k a) hr hm).1]
    exact congrArg _ (ofOrd_cmp _ _)
  case sLtIntegral k a t i =>
    obtain ⟨⟨hn, ht, hr, hm⟩, rfl⟩ := given_eq_some.1 h
    rw [Aesi.ltIntegral, Aesi.spaceshipIntegral, (C42_compare_builtin_partial hn ht _ (hst k a) hr hm).1]
    exact congrArg _ (ofBool_lt _ _)
  case sGtIntegral k a t i =>
    obtain ⟨⟨hn, ht, hr, hm⟩, rfl⟩ := given_eq_some.1 h
    rw [Aesi.gtIntegral, Aesi.spaceshipIntegral, (C42_compare_builtin_partial hn ht _ (hst k a) hr hm).1]
    exact congrArg _ (ofBool_gt _ _)
  case sBitness k => obtain rfl := Option.some.inj h; simp [Aesi.getBitness]
  case sBlocks k => obtain rfl := Option.some.inj h; simp [Aesi.totalBlocksNumber, Aeu.totalBlocksNumber, Aeu.getBitness]
  case sEqMpz k a z =>
    obtain ⟨hf, rfl⟩ := given_eq_some.1 h
    rw [C65_signed_partial env.cfg _ (hst k a) z hf]; exact congrArg _ (ofBool_decide _)
  case sCast k a t =>
    obtain ⟨⟨hn, ht, hr, hm⟩, rfl⟩ := given_eq_some.1 h
    rw [C48_cast_partial hn ht _ hr fun h => hm ⟨h.1, h.2.2⟩]; rfl
  case sText k a kind base upper showBase cap =>
    split at h
    · rename_i hneg
      obtain ⟨⟨hb, hc, hl⟩, rfl⟩ := given_eq_some.1 h
      have hpos : 0 < k := pos_of_ne (a := (st.s k a).base) (by
        rw [natAbs_toInt (show toInt (st.s k a) ≠ 0 from by have : toInt (st.s k a) < 0 := hneg; omega)]
        have : toInt (st.s k a) < 0 := hneg
        omega)
      obtain ⟨x, hx, h1, h2⟩ := C51_negative env.cfg kind base upper (st.s k a) hneg (Vector.replicate cap 0)
        showBase hc (by
          rcases hb with hb | hb
          · exact .inl hb
          · exact .inr ⟨hb, hpos⟩) _ rfl hl
      simp only [hx, ok_bind, h1, h2]
      rw [List.append_assoc, List.take_left']
      · rfl
      · simp
    · split at h
      · rename_i h0
        obtain ⟨hl, rfl⟩ := given_eq_some.1 h
        obtain ⟨x, hx, h1, h2⟩ := C51_zero env.cfg kind base upper (st.s k a) (hst k a) h0
          (Vector.replicate cap 0) showBase _ rfl hl
        simp only [hx, ok_bind, h1, h2, List.take_left']
      · rename_i h1 h0
        have hpos : 0 < toInt (st.s k a) := by
          have e1 : ¬ toInt (st.s k a) < 0 := h1
          have e2 : ¬ toInt (st.s k a) = 0 := h0
          omega
        obtain ⟨⟨hb, hc, hl⟩, rfl⟩ := given_eq_some.1 h
        rw [if_neg (show ¬ (st.ideal.s k a).natAbs = 0 from by
          show ¬ (toInt (st.s k a)).natAbs = 0
          omega)]
        obtain ⟨x, hx, h1, h2⟩ := C51_positive_partial env.cfg kind base upper (st.s k a) hpos
          (Vector.replicate cap 0) showBase hc (by
            rcases hb with hb | hb
            · exact .inl hb
            · exact .inr ⟨hb, pos_of_ne (a := (st.s k a).base) (by
                rw [natAbs_toInt (show toInt (st.s k a) ≠ 0 by omega)]; omega)⟩) _ rfl hl
        simp only [hx, ok_bind, h1, h2]
        rw [List.take_left']
        · rfl
        · simp only [List.length_append, List.length_singleton]

end AesiMP
