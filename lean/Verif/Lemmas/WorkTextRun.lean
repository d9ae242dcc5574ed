import Verif.Lemmas.WorkRun
import Verif.Model.WorkText

/-!
# Forgetting the counter gives the text functions and the functions of `Model/Aesi.lean`
-/

namespace AesiMP
open Counted
namespace Work
variable {n m : Nat}

theorem run_isZero (a : Aeu n) : (isZero a).run = Aeu.isZero a := by
  simp [isZero, Aeu.isZero, run_filledBlocksNumber]

theorem run_low64 (a : Aeu n) : (low64 a).run = Aeu.low64 a := by
  simp [low64, Aeu.low64]

theorem run_compareToU64 (a : Aeu n) (v : U64) : (compareToU64 a v).run = Aeu.compareToU64 a v := by
  simp [compareToU64, Aeu.compareToU64, run_filledBlocksNumber, run_low64]

theorem run_integralCast (t : ITy) (a : Aeu n) : (integralCast t a).run = Aeu.integralCast t a := by
  simp [integralCast, Aeu.integralCast, run_low64]

theorem run_mulULL (cfg : Cfg) (a : Aeu n) (v : U64) : (mulULL cfg a v).run = Aeu.mulULL cfg a v := by
  simp [mulULL, Aeu.mulULL, run_mulU64, run_mulNarrow]

theorem run_ofChars (kind : CharKind) (alnum : Int → Bool) {size : Nat} (data : Vector Int size) :
    (ofChars kind alnum n data).run = Aeu.ofChars kind alnum n data := by
  unfold ofChars Aeu.ofChars
  rw [run_ite]
  congr 1
  rw [run_bind, run_lift]
  congr 1; funext p
  cases p with
  | next _ => rfl
  | leave position =>
    rw [run_bind, run_lift]
    congr 1; funext bp
    exact run_forUp fun i s => by simp [run_mulNarrow, run_addBuiltin]

theorem run_getStringHex (kind : CharKind) (upper : Bool) (a : Aeu n) {cap : Nat} (buffer : Vector Int cap)
    (position : Nat) : (getStringHex kind upper a buffer position).run =
      Aeu.getStringHex kind upper a buffer position := by
  unfold getStringHex Aeu.getStringHex
  simp only [run_bind, run_scanDown, run_rd, run_lift]
  congr 1; funext iter
  congr 1; funext b
  congr 1; funext r
  exact run_forDown fun i ⟨b, p⟩ => by simp

theorem run_getStringDigits (cfg : Cfg) (base : BitVec 8) (a : Aeu n) {cap : Nat} (buffer : Vector Int cap)
    (position : Nat) : (getStringDigits cfg base a buffer position).run =
      Aeu.getStringDigits cfg base a buffer position := by
  unfold getStringDigits Aeu.getStringDigits
  simp only [run_bind, run_lift, run_pure]
  refine congrArg₂ (· >>= ·) (run_whileC fun ⟨c, b, p⟩ => ?_) rfl
  simp [run_isZero, run_ofUnsigned, run_divide, run_integralCast]

theorem run_getString (cfg : Cfg) (kind : CharKind) (base : BitVec 8) (upper : Bool) (a : Aeu n)
    {cap : Nat} (buffer : Vector Int cap) (showBase : Bool) :
    (getString cfg kind base upper a buffer showBase).run =
      Aeu.getString cfg kind base upper a buffer showBase := by
  simp only [getString, Aeu.getString, getStringBody, Aeu.getStringBody, run_ite, run_bind, run_pure, run_lift,
    run_isZero, run_getStringHex, run_getStringDigits]

theorem run_streamHex (os : OStream) (a : Aeu n) : (streamHex os a).run = Aeu.streamHex os a := by
  unfold streamHex Aeu.streamHex
  simp only [run_bind, run_scanDown, run_rd]
  congr 1; funext iter
  congr 1; funext b
  exact run_forDown fun i os => by simp

theorem run_streamDigits (cfg : Cfg) (bufferSize : Nat) (base : BitVec 32) (os : OStream) (a : Aeu n) :
    (streamDigits cfg bufferSize base os a).run = Aeu.streamDigits cfg bufferSize base os a := by
  unfold streamDigits Aeu.streamDigits
  simp only [run_bind, run_lift]
  refine congrArg₂ (· >>= ·) (run_whileC fun ⟨c, b, p⟩ => ?_) rfl
  simp [run_isZero, run_ofUnsigned, run_divide, run_integralCast]

theorem run_streamOut (cfg : Cfg) (bufferSize : Nat) (os : OStream) (a : Aeu n) :
    (streamOut cfg bufferSize os a).run = Aeu.streamOut cfg bufferSize os a := by
  simp only [streamOut, Aeu.streamOut, run_ite, run_bind, run_pure, run_isZero, run_streamHex, run_streamDigits]

end Work

namespace WorkS
variable {n m : Nat}

theorem run_ofIntegral (t : ITy) (v : Int) : (ofIntegral n t v).run = Aesi.ofIntegral n t v := by
  simp [ofIntegral, Aesi.ofIntegral, Work.run_ofUnsigned]

theorem run_ofChars (kind : CharKind) (alnum : Int → Bool) {size : Nat} (data : Vector Int size) :
    (ofChars kind alnum n data).run = Aesi.ofChars kind alnum n data := by
  simp [ofChars, Aesi.ofChars, Work.run_ofChars, Work.run_isZero]

theorem run_normalise (a : Aesi n) : (normalise a).run = Aesi.normalise a := by
  simp [normalise, Aesi.normalise, Work.run_isZero]

theorem run_inc (a : Aesi n) : (inc a).run = Aesi.inc a := by
  unfold inc Aesi.inc
  cases a.sign <;> simp [Work.run_inc, Work.run_dec, Work.run_ofUnsigned, run_normalise]

theorem run_dec (a : Aesi n) : (dec a).run = Aesi.dec a := by
  unfold dec Aesi.dec
  cases a.sign <;> simp [Work.run_inc, Work.run_dec, Work.run_ofUnsigned, run_normalise]

theorem run_subMagnitude (cfg : Cfg) (a : Aesi n) (b : Aeu n) (s : Sign) :
    (subMagnitude cfg a b s).run = Aesi.subMagnitude cfg a b s := by
  unfold subMagnitude Aesi.subMagnitude
  rw [run_bind, Work.run_compareTo]
  congr 1; funext c
  cases c <;> simp [Work.run_sub]

theorem run_add (cfg : Cfg) (a b : Aesi n) : (add cfg a b).run = Aesi.add cfg a b := by
  simp only [add, Aesi.add, run_ite, run_bind, run_pure, run_subMagnitude, Work.run_add]

theorem run_sub (cfg : Cfg) (a b : Aesi n) : (sub cfg a b).run = Aesi.sub cfg a b := by
  simp only [sub, Aesi.sub, run_ite, run_bind, run_pure, run_subMagnitude, Work.run_add]

theorem run_mul (a b : Aesi n) : (mul a b).run = Aesi.mul a b := by
  simp only [mul, Aesi.mul, run_ite, run_bind, run_pure, Work.run_mul]

theorem run_mulIntegral (cfg : Cfg) (t : ITy) (a : Aesi n) (v : Int) :
    (mulIntegral cfg t a v).run = Aesi.mulIntegral cfg t a v := by
  simp only [mulIntegral, Aesi.mulIntegral, run_ite, run_bind, run_pure, run_lift, Work.run_mulULL]

theorem run_div (cfg : Cfg) (a b : Aesi n) : (div cfg a b).run = Aesi.div cfg a b := by
  simp only [div, Aesi.div, run_ite, run_bind, run_pure, Work.run_div, run_normalise]

theorem run_divIntegral (cfg : Cfg) (t : ITy) (a : Aesi n) (v : Int) :
    (divIntegral cfg t a v).run = Aesi.divIntegral cfg t a v := by
  simp only [divIntegral, Aesi.divIntegral, run_ite, run_bind, run_pure, run_lift, Work.run_ofUnsigned,
    Work.run_div, run_normalise]

theorem run_mod (cfg : Cfg) (a b : Aesi n) : (mod cfg a b).run = Aesi.mod cfg a b := by
  simp only [mod, Aesi.mod, run_ite, run_bind, run_pure, Work.run_mod, run_normalise]

theorem run_modIntegral (cfg : Cfg) (t : ITy) (a : Aesi n) (v : Int) :
    (modIntegral cfg t a v).run = Aesi.modIntegral cfg t a v := by
  simp only [modIntegral, Aesi.modIntegral, run_ite, run_bind, run_pure, run_lift, Work.run_ofUnsigned,
    Work.run_mod]

theorem run_compareToIntegral (a : Aesi n) (v : Int) :
    (compareToIntegral a v).run = Aesi.compareToIntegral a v := by
  simp only [compareToIntegral, Aesi.compareToIntegral, run_ite, run_bind, run_pure, run_lift,
    Work.run_compareToU64]

theorem run_compareTo (cfg : Cfg) (a b : Aesi n) : (compareTo cfg a b).run = Aesi.compareTo cfg a b := by
  simp only [compareTo, Aesi.compareTo, run_ite, run_bind, run_pure, Work.run_compareTo]

theorem run_divide (cfg : Cfg) (a b q r : Aesi n) : (divide cfg a b q r).run = Aesi.divide cfg a b q r := by
  simp only [divide, Aesi.divide, run_ite, run_bind, run_pure, Work.run_divide, run_normalise]

theorem run_squareRoot (cfg : Cfg) (a : Aesi n) : (squareRoot cfg a).run = Aesi.squareRoot cfg a := by
  simp only [squareRoot, Aesi.squareRoot, run_ite, run_bind, run_pure, Work.run_squareRoot, run_ofIntegral]

theorem run_streamOut (cfg : Cfg) (bufferSize : Nat) (os : OStream) (a : Aesi n) :
    (streamOut cfg bufferSize os a).run = Aesi.streamOut cfg bufferSize os a := by
  simp only [streamOut, Aesi.streamOut, run_ite, run_pure, Work.run_streamOut]

end WorkS
end AesiMP
