import Verif.Props.RefineU
import Verif.Props.Signed
import Verif.Props.SignedText

/-!
# Refinement, part 2: every signed expression computes the integer the specification gives it

Used by `Props/Refine.lean` (C77).
-/

namespace AesiMP
open Aesi
variable {n : Nat}

/-- Every signed object's sign field tells the truth about its value. -/
def World.Canonical (st : World) : Prop := ∀ k a, Canon (st.s k a)

/-- The call returns an object that holds `v` and whose sign field tells the truth. -/
def ReturnsInt (e : Exec (Aesi n)) (v : Int) : Prop := Sat e fun r => toInt r = v ∧ Canon r

theorem canon_of_ne {a : Aesi n} (h : toInt a ≠ 0) : Canon a := by
  intro _ h0
  refine h ?_
  unfold toInt
  cases a.sign <;> simp [h0]

private theorem notWide {t : ITy} {i : Int} (h : ¬ (t.signed = true ∧ i = -(2 : Int) ^ (t.width - 1))) :
    ¬ (t.signed = true ∧ 32 ≤ t.width ∧ i = -(2 : Int) ^ (t.width - 1)) := fun ⟨h1, _, h2⟩ => h ⟨h1, h2⟩

theorem fitting_eq {n : Nat} {z v : Int} (h : fitting n z = some v) : Fits n v ∧ z = v := by
  obtain ⟨hf, rfl⟩ := given_eq_some.1 h; exact ⟨hf, rfl⟩

theorem SBin.refines (cfg : Cfg) (hn : 0 < n) (a b : Aesi n) (ha : Canon a) (hb : Canon b) (op : SBin)
    (v : Int) (h : op.ideal n (toInt a) (toInt b) = some v) : ReturnsInt (op.run cfg a b) v := by
  cases op <;> simp only [SBin.ideal] at h <;> simp only [SBin.run]
  · obtain ⟨hf, rfl⟩ := fitting_eq h
    exact (add_spec cfg a b hf).mono fun r hr => ⟨hr.1, hr.2 ha hb⟩
  · obtain ⟨hf, rfl⟩ := fitting_eq h
    exact (sub_spec cfg a b hf).mono fun r hr => ⟨hr.1, hr.2 ha hb⟩
  · obtain ⟨hf, rfl⟩ := fitting_eq h
    exact (mul_spec a b hf).mono fun r hr => ⟨hr.1, hr.2 ha hb⟩
  · obtain ⟨h0, rfl⟩ := given_eq_some.1 h
    exact div_spec cfg hn a b h0
  · obtain ⟨h0, rfl⟩ := given_eq_some.1 h
    refine (mod_spec cfg hn a b (by omega)).mono fun r hr => ⟨?_, hr.2⟩
    rw [hr.1, if_neg (by omega), one_mul]

theorem SMix.refines (env : Env) (hn : 0 < n) (t : ITy) (a : Aesi n) (ha : Canon a) (i : Int) (op : SMix)
    (v : Int) (h : op.ideal env n t (toInt a) i = some v) : ReturnsInt (op.run env.cfg t a i) v := by
  unfold SMix.ideal at h
  split at h
  swap
  · cases h
  rename_i hok
  obtain ⟨ht, hr, hm, hi⟩ := hok
  have hc : Sat (ofIntegral n t i) fun r => toInt r = i ∧ Canon r := C47_construct_partial ht hr (notWide hm) hi
  cases op <;> simp only at h <;> simp only [SMix.run]
  · obtain ⟨hf, rfl⟩ := fitting_eq h
    exact hc.bind fun c hc => (add_spec env.cfg a c (by rw [hc.1]; exact hf)).mono fun r hr =>
      ⟨by rw [hr.1, hc.1], hr.2 ha hc.2⟩
  · obtain ⟨hf, rfl⟩ := fitting_eq h
    exact hc.bind fun c hc => (sub_spec env.cfg a c (by rw [hc.1]; exact hf)).mono fun r hr =>
      ⟨by rw [hr.1, hc.1], hr.2 ha hc.2⟩
  · split at h
    · rename_i hu
      obtain ⟨hf, rfl⟩ := fitting_eq h
      exact (mulIntegral_spec env.cfg ht a hr hm hu hf).mono fun r hr => ⟨hr.1, hr.2 ha⟩
    · cases h
  · obtain ⟨h0, rfl⟩ := given_eq_some.1 h
    exact divIntegral_spec env.cfg hn ht a hr hm h0 hi
  · obtain ⟨⟨h0, h1⟩, rfl⟩ := given_eq_some.1 h
    refine (modIntegral_spec env.cfg hn ht a hr hm (by omega) hi).mono fun r hr => ?_
    rw [if_neg (by omega), one_mul] at hr
    exact ⟨hr, canon_of_ne (by rw [hr]; exact h1)⟩
  · obtain ⟨hf, rfl⟩ := fitting_eq h
    exact hc.bind fun c hc => (add_spec env.cfg c a (by rw [hc.1]; exact hf)).mono fun r hr =>
      ⟨by rw [hr.1, hc.1], hr.2 hc.2 ha⟩
  · obtain ⟨hf, rfl⟩ := fitting_eq h
    exact hc.bind fun c hc => (sub_spec env.cfg c a (by rw [hc.1]; exact hf)).mono fun r hr =>
      ⟨by rw [hr.1, hc.1], hr.2 hc.2 ha⟩
  · obtain ⟨hf, rfl⟩ := fitting_eq h
    exact hc.bind fun c hc => (mul_spec c a (by rw [hc.1]; exact hf)).mono fun r hr =>
      ⟨by rw [hr.1, hc.1], hr.2 hc.2 ha⟩
  · obtain ⟨h0, rfl⟩ := given_eq_some.1 h
    exact hc.bind fun c hc => (div_spec env.cfg hn c a h0).mono fun r hr => ⟨by rw [hr.1, hc.1], hr.2⟩
  · obtain ⟨h0, rfl⟩ := given_eq_some.1 h
    exact hc.bind fun c hc => (mod_spec env.cfg hn c a (by omega)).mono fun r hr =>
      ⟨by rw [hr.1, hc.1, if_neg (by omega), one_mul], hr.2⟩

/-- A setter on the magnitude of a number other than zero. -/
private theorem refines_setter {a : Aesi n} {e : Exec (Aeu n)} {m : Nat} {v : Int} (he : Aeu.Returns e m)
    (hm : withMagnitude (toInt a) m = some v) :
    ReturnsInt (do let base ← e; .ok { a with base := base }) v := by
  obtain ⟨⟨h0, h1⟩, rfl⟩ := given_eq_some.1 hm
  obtain ⟨r, rfl, hr⟩ := he
  refine ⟨_, rfl, ?_, ?_⟩
  · rw [toInt_with_base, hr]
    unfold toInt at h0 ⊢
    cases hs : a.sign <;> simp_all
    · omega
    · omega
  · intro _; simp only [hr]; exact h1

theorem SExpr.refines (env : Env) (st : World) (hst : st.Canonical) (hn : 0 < n) (e : SExpr n) (v : Int)
    (h : e.ideal env st.ideal = some v) : ReturnsInt (e.run env st) v := by
  cases e <;> simp only [SExpr.ideal] at h <;> simp only [SExpr.run]
  case builtin t i =>
    obtain ⟨⟨ht, hr, hm, hi⟩, rfl⟩ := given_eq_some.1 h
    exact C47_construct_partial ht hr (notWide hm) hi
  case text kind chars =>
    obtain ⟨hc, rfl⟩ := given_eq_some.1 h
    rw [wrap_nat]
    cases kind
    · exact C46_narrow_partial env.alnum chars fun p hp _ => hc rfl _ (List.getElem_mem hp)
    · exact C46_wide env.alnum chars
  case mpz z => obtain ⟨hf, rfl⟩ := fitting_eq h; exact C60_signed env.cfg z hf
  case ofAeu a =>
    obtain ⟨h0, rfl⟩ := given_eq_some.1 h
    exact ⟨_, rfl, rfl, fun _ => h0⟩
  case reg a => exact ⟨_, rfl, Option.some.inj h, hst n a⟩
  case plus a => exact ⟨_, rfl, Option.some.inj h, hst n a⟩
  case neg a =>
    refine ⟨_, rfl, ?_, canon_inverse (hst n a)⟩
    rw [← Option.some.inj h]; exact toInt_inverse _
  case inc a => obtain ⟨hf, rfl⟩ := fitting_eq h; exact inc_spec hn _ (hst n a) hf
  case dec a => obtain ⟨hf, rfl⟩ := fitting_eq h; exact dec_spec hn _ (hst n a) hf
  case bin op a b => exact op.refines env.cfg hn _ _ (hst n a) (hst n b) v h
  case mix op a t i => exact op.refines env hn t _ (hst n a) i v h
  case mpzL op z a =>
    split at h
    swap
    · cases h
    rename_i hz
    exact (C60_signed env.cfg z hz).bind fun x hx =>
      op.refines env.cfg hn x _ hx.2 (hst n a) v (by rw [hx.1]; exact h)
  case mpzR op a z =>
    split at h
    swap
    · cases h
    rename_i hz
    exact (C60_signed env.cfg z hz).bind fun x hx =>
      op.refines env.cfg hn _ x (hst n a) hx.2 v (by rw [hx.1]; exact h)
  case squareRoot a =>
    obtain rfl := Option.some.inj h
    have hc := canon_sign (hst n a)
    simp only [World.ideal]
    unfold Aesi.squareRoot
    split
    · rename_i hp
      have hpos := hc.2.1.1 hp
      have hv := toInt_pos hp
      obtain ⟨r, hr, h1, h2⟩ := C32_squareRoot env.cfg hn (st.s n a).base
      rw [hr]
      have hs : Aeu.toNat r = Nat.sqrt (Aeu.toNat (st.s n a).base) := Nat.eq_sqrt'.2 ⟨h1, h2⟩
      refine ⟨_, rfl, ?_, fun _ => ?_⟩
      · simp only [toInt, hs, hp, Int.toNat_natCast]
      · simp only [hs]
        have : 0 < Nat.sqrt (Aeu.toNat (st.s n a).base) := Nat.sqrt_pos.2 (by omega)
        omega
    · rename_i hp
      have h0 : (toInt (st.s n a)).toNat = 0 := by
        have := mt hc.2.1.2 hp; omega
      rw [h0]
      exact C47_construct_partial (by decide) (by decide) (by decide) (by unfold Fits; simp)
  case power2 k =>
    obtain ⟨hk, rfl⟩ := given_eq_some.1 h
    exact C63_power2 env.cfg k hk
  case setBit a i b =>
    split at h
    · rename_i hi
      refine refines_setter (returns_setBit env.cfg _ b hi) (a := st.s n a) ?_
      have h0 := (given_eq_some.1 h).1.1
      rw [natAbs_toInt h0]; exact h
    · cases h
  case setByte a i b =>
    split at h
    · rename_i hi
      refine refines_setter (returns_setByte env.cfg _ b hi) (a := st.s n a) ?_
      have h0 := (given_eq_some.1 h).1.1
      rw [natAbs_toInt h0]; exact h
    · cases h
  case setBlock a i b =>
    split at h
    · rename_i hi
      refine refines_setter (returns_setBlock env.cfg _ b hi) (a := st.s n a) ?_
      have h0 := (given_eq_some.1 h).1.1
      rw [natAbs_toInt h0]; exact h
    · cases h
  case cast k a =>
    split at h
    · rename_i hk
      obtain ⟨hf, rfl⟩ := fitting_eq h
      exact (precisionCast_spec env.cfg hk hn (st.s k a) hf).mono fun r hr => ⟨hr.1, hr.2 (hst k a)⟩
    · cases h

end AesiMP
