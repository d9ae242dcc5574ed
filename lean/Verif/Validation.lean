import Verif.Model.Text
import Verif.Model.Aesi
import Verif.Props.Text
import Verif.Props.Powm

/-!
# The model against recorded results of the real program

Nothing of the project can be run here, but its README, `ci/integration/presentation.cpp` and tests
record results of the real library.  A selection of them, evaluated on the model by the kernel.  (All 254
assertions on literals in the test suite were also run on the compiled model: `tools/validate_model.py`.)
These are tests of the model, not theorems about it.
-/

namespace AesiMP.Validation
open Aeu

def codes (s : String) : List Int := s.toList.map fun c => (c.toNat : Int)

/-- `Aeu<32*n> x = "..."` (the literal with its terminator). -/
def lit (n : Nat) (s : String) : Exec (Aeu n) :=
  let l := codes s ++ [0]
  ofChars .char asciiAlnum n (⟨l.toArray, rfl⟩ : Vector Int l.toArray.size)

/-- `Aesi<32*n> x = "..."`. -/
def slit (n : Nat) (s : String) : Exec (Aesi n) :=
  let l := codes s ++ [0]
  Aesi.ofChars .char asciiAlnum n (⟨l.toArray, rfl⟩ : Vector Int l.toArray.size)

def cfg : Cfg := ⟨false, false, false⟩

set_option maxRecDepth 100000

/-- README: `50!` by `f *= i`, written with `std::showbase << std::hex`. -/
example : (do
    let f ← ofUnsigned 16 (1#32)
    let f ← (List.range 49).foldlM (fun f i => mulNarrow f (BitVec.ofNat 32 (i + 2))) f
    let os ← streamOut cfg 173 ⟨.hex, true, false, .unset, 32, 0, []⟩ f
    .ok os.out) = .ok (codes "0x49eebc961ed279b02b1ef4f28d19a84f5973a1d2c7800000000000") := by
  decide +kernel

/-- README / presentation.cpp: multiplication after a precision cast. -/
example : (do
    let a ← lit 4 "127958277599458332250117"
    let b ← lit 6 "279256103987149586783914830"
    let a ← precisionCast cfg 6 a
    let r ← mul a b
    let e ← lit 6 "35733130075330889632933652650476631619495985535110"
    eq cfg r e) = .ok true := by decide +kernel

/-- initialization.cpp: texts without a number, with prefixes, with many dashes. -/
example : (do
    let a ← lit 4 "Somebody once told me..."; let b ← lit 4 "0o24"; let c ← lit 16 "0x688589CC0E9505E2"
    let d ← lit 16 "0b111010101100001010101111001110111001"
    let e ← slit 4 "-0o24"; let f ← slit 4 "---1"; let g ← slit 4 "--1"; let h ← slit 4 "-0"
    let ra ← eqU64 a 0; let rb ← eqU64 b 20; let rc ← eqU64 c 7531577461358003682
    let rd ← eqU64 d 63018038201
    let re ← Aesi.eqIntegral e (-20); let rf ← Aesi.eqIntegral f (-1); let rg ← Aesi.eqIntegral g 1
    let rh ← Aesi.eqIntegral h 0
    .ok [ra, rb, rc, rd, re, rf, rg, rh]) = .ok (List.replicate 8 true) := by decide +kernel

/-- addition.cpp: carry through three blocks, separators in the text. -/
example : (do
    let f ← lit 6 "0x0000_0000'0000_0000'0000_0000'FFFF_FFFF'FFFF_FFFF'FFFF_FFFF"
    let e ← lit 6 "0x0000_0000'0000_0000'0000_0001'0000_0000'0000_0000'0000_0000"
    let g ← inc f
    eq cfg g e) = .ok true := by decide +kernel

/-- modulo.cpp (signed): `% 0` is the dividend, the sign follows the dividend for a positive modulus. -/
example : (do
    let one ← Aesi.ofIntegral 4 .i32 1; let mOne ← Aesi.ofIntegral 4 .i32 (-1)
    let zero ← Aesi.ofIntegral 4 .u32 0; let ten ← Aesi.ofIntegral 4 .u32 10
    let a ← Aesi.mod cfg one mOne; let b ← Aesi.mod cfg mOne zero; let c ← Aesi.mod cfg mOne ten
    let d ← Aesi.mod cfg ten zero; let e ← Aesi.mod cfg ten mOne
    let ra ← Aesi.eqIntegral a 0; let rb ← Aesi.eqIntegral b (-1); let rc ← Aesi.eqIntegral c (-1)
    let rd ← Aesi.eqIntegral d 10; let re ← Aesi.eqIntegral e 0
    .ok [ra, rb, rc, rd, re]) = .ok (List.replicate 5 true) := by decide +kernel

/-- precision_cast.cpp: truncation to fewer blocks. -/
example : (do
    let x ← lit 11 "5359709770582948688991943818180669926832250789635927200530270394005210447928718134456374737387522683948933."
    let y ← precisionCast cfg 3 x
    let e ← lit 3 "30780870628112076616018546565."
    eq cfg y e) = .ok true := by decide +kernel

/-- A fast way to evaluate the modular power of the specification. -/
def fastPow (m : Nat) : Nat → Nat → Nat → Nat
  | 0, _, _ => 1 % m
  | f + 1, a, e => if e % 2 = 1 then a * fastPow m f (a * a % m) (e / 2) % m
      else fastPow m f (a * a % m) (e / 2)

theorem fastPow_eq (m : Nat) : ∀ f a e, e < 2 ^ f → fastPow m f a e = a ^ e % m
  | 0, a, e, h => by
    have : e = 0 := by omega
    simp [fastPow, this]
  | f + 1, a, e, h => by
    have ih := fastPow_eq m f (a * a % m) (e / 2) (by rw [pow_succ] at h; omega)
    have e2 : (a * a % m) ^ (e / 2) % m = a ^ (2 * (e / 2)) % m := by
      rw [← Nat.pow_mod, pow_mul, pow_two]
    rw [e2] at ih
    rw [fastPow, ih]
    split
    · rename_i h1
      rw [Nat.mul_mod_mod, ← Nat.pow_succ']
      congr 2; omega
    · congr 2; omega

/-- README: `Aeu<256>::powm(base.precisionCast<256>(), power, modulo.precisionCast<256>())`, by C68 and
evaluation of the modular power. -/
example : Sat (precisionCast cfg 8 (ofNat 4 340199290171201906239764863559915798527)) fun b =>
    Sat (precisionCast cfg 8 (ofNat 4 338953138925230918806032648491249958912)) fun m =>
      Returns (powmT cfg b (ofNat 4 340282366920937859000464800151540596704) m)
        201007033690655614485250957754150944769 := by
  have h := C68_powm_readme_partial cfg (n := 4) (m := 4) (k := 8) (by decide) (by decide) (by decide)
    (ofNat 4 340199290171201906239764863559915798527) (ofNat 4 338953138925230918806032648491249958912)
    (ofNat 4 340282366920937859000464800151540596704) (by rw [toNat_ofNat]; norm_num)
    (Or.inl (by rw [toNat_ofNat]; norm_num))
  rw [toNat_ofNat_of_lt (by norm_num), toNat_ofNat_of_lt (by norm_num), toNat_ofNat_of_lt (by norm_num),
    show 340199290171201906239764863559915798527 ^ 340282366920937859000464800151540596704 %
      338953138925230918806032648491249958912 = 201007033690655614485250957754150944769 by
      rw [← fastPow_eq _ 128 _ _ (by norm_num)]; decide +kernel] at h
  exact h

/-- README: `Aeu<256>::powm(base.precisionCast<256>(), power.precisionCast<256>(), mod)`. -/
example : Returns (powm cfg (ofNat 8 10888869450418352160768000001) (ofNat 8 99990001)
    (ofNat 8 8683317618811886495518194401279999999)) 6680141832773294447513292887050873529 := by
  have h := C29_powm_partial cfg (n := 8) (by decide) (ofNat 8 10888869450418352160768000001)
    (ofNat 8 99990001) (ofNat 8 8683317618811886495518194401279999999) (by rw [toNat_ofNat]; norm_num)
    (by rw [toNat_ofNat]; norm_num) (by rw [toNat_ofNat]; norm_num)
  rw [toNat_ofNat_of_lt (by norm_num), toNat_ofNat_of_lt (by norm_num), toNat_ofNat_of_lt (by norm_num),
    show 10888869450418352160768000001 ^ 99990001 % 8683317618811886495518194401279999999 =
      6680141832773294447513292887050873529 by
      rw [← fastPow_eq _ 32 _ _ (by norm_num)]; decide +kernel] at h
  exact h

end AesiMP.Validation
