import Verif.Lemmas.Work

/-!
# Forgetting the counter gives the functions of `Model/Aeu.lean`
-/

namespace AesiMP
open Aeu Counted
namespace Work
variable {n m : Nat}

theorem run_addLine (a b : Aeu n) : (addLine a b).run = Aeu.addLine a b :=
  run_forUp fun i ⟨d, c⟩ => by simp

theorem run_makeComplement (a : Aeu n) : (makeComplement a).run = Aeu.makeComplement a :=
  run_forUp fun i ⟨d, c⟩ => by simp

theorem run_ofUnsigned {w : Nat} (v : BitVec w) : (ofUnsigned n v).run = Aeu.ofUnsigned n v := by
  unfold ofUnsigned Aeu.ofUnsigned Aeu.ofUnsignedJ
  rw [run_ite]
  congr 1
  rw [run_bind, run_forUp (body' := fun i (blocks, tValue) => do
      let blocks ← AesiMP.wr blocks i (toBlock (tValue % blockBase))
      .ok (blocks, tValue / blockBase)) (fun i ⟨d, c⟩ => by simp)]
  rfl

theorem run_neg (a : Aeu n) : (neg a).run = Aeu.neg a := by
  simp [neg, Aeu.neg, run_makeComplement]

theorem run_inc (a : Aeu n) : (inc a).run = Aeu.inc a := by
  unfold inc Aeu.inc
  rw [run_bind, run_forUpC (body' := fun i x => do
    let b ← AesiMP.rd x i
    if b < blockMax then do
      let x ← AesiMP.wr x i (b + 1#32)
      .ok (.leave x)
    else do
      let x ← AesiMP.wr x i 0#32
      .ok (.next x)) (fun i s => by simp)]
  congr 1; funext c; cases c <;> rfl

theorem run_dec (a : Aeu n) : (dec a).run = Aeu.dec a := by
  unfold dec Aeu.dec
  rw [run_bind, run_forUpC (body' := fun i x => do
    let b ← AesiMP.rd x i
    if b > 0#32 then do
      let x ← AesiMP.wr x i (b - 1#32)
      .ok (.leave x)
    else do
      let x ← AesiMP.wr x i blockMax
      .ok (.next x)) (fun i s => by simp)]
  congr 1; funext c; cases c <;> rfl

theorem run_addBuiltin {w : Nat} (a : Aeu n) (v : BitVec w) : (addBuiltin a v).run = Aeu.addBuiltin a v := by
  unfold addBuiltin Aeu.addBuiltin
  rw [run_bind, run_forUp (body' := fun i (x, addendum) => do
    let b ← AesiMP.rd x i
    let currentSum := toU64 b + addendum.setWidth 64
    let x ← AesiMP.wr x i (toBlock (currentSum % blockBase))
    .ok (x, (currentSum / blockBase).setWidth w)) (fun i ⟨d, c⟩ => by simp)]
  rfl

theorem run_add (a b : Aeu n) : (add a b).run = Aeu.add a b := by
  simp [add, Aeu.add, run_addLine]

theorem run_sub (a b : Aeu n) : (sub a b).run = Aeu.sub a b := by
  simp [sub, Aeu.sub, run_neg, run_add]

theorem run_filledBlocksNumber (a : Aeu n) : (filledBlocksNumber a).run = Aeu.filledBlocksNumber a := by
  unfold filledBlocksNumber Aeu.filledBlocksNumber
  rw [run_bind, run_forDownC (body' := fun i _ => do
    let b ← AesiMP.rd a i
    if b ≠ 0#32 then .ok (.leave (i + 1)) else .ok (.next ())) (fun i s => by simp)]
  congr 1; funext c; cases c <;> rfl

theorem run_mulRow (buffer : Aeu n) (i : Nat) (t : U64) {digit : Nat → Counted U64} {digit' : Nat → Exec U64}
    (h : ∀ j, (digit j).run = digit' j) (k : Nat) :
    (mulRow buffer i t digit k).run = Aeu.mulRow buffer i t digit' k :=
  run_forUp fun j ⟨d, c⟩ => by simp [h]

theorem run_mulU64 (a : Aeu n) (f : U64) : (mulU64 a f).run = Aeu.mulU64 a f := by
  unfold mulU64 Aeu.mulU64
  rw [run_bind, run_filledBlocksNumber]
  congr 1; funext k
  refine run_forUp fun i s => ?_
  rw [run_bind, run_rd]
  congr 1; funext t
  rw [run_bind, run_mulRow s i _ (digit' := fun j => do
        let f ← shr64 f (32 * j)
        .ok (f &&& 0x00000000ffffffff#64)) (fun j => by simp)]
  congr 1; funext ⟨b, c⟩
  simp

theorem run_mulNarrow {w : Nat} (a : Aeu n) (f : BitVec w) : (mulNarrow a f).run = Aeu.mulNarrow a f := by
  unfold mulNarrow Aeu.mulNarrow
  rw [run_bind, run_forUp (body' := fun i (x, carryOut) => do
    let b ← AesiMP.rd x i
    let product := f.setWidth 64 * toU64 b + carryOut
    let x ← AesiMP.wr x i (toBlock (product % blockBase))
    .ok (x, product / blockBase)) (fun i ⟨d, c⟩ => by simp)]
  rfl

theorem run_multiplyLines (a : Aeu n) (k : Nat) (b : Aeu n) (l : Nat) :
    (multiplyLines a k b l).run = Aeu.multiplyLines a k b l := by
  unfold multiplyLines Aeu.multiplyLines
  refine run_forUp fun i s => ?_
  rw [run_bind, run_rd]
  congr 1; funext t
  rw [run_bind, run_mulRow s i _ (digit' := fun j => do
        let s ← AesiMP.rd b j
        .ok (toU64 s)) (fun j => by simp)]
  congr 1; funext ⟨b, c⟩
  simp

theorem run_mul (a b : Aeu n) : (mul a b).run = Aeu.mul a b := by
  simp [mul, Aeu.mul, run_filledBlocksNumber, run_multiplyLines]

theorem run_not (a : Aeu n) : (not a).run = Aeu.not a :=
  run_forUp fun i s => by simp

theorem run_bitwiseLoop (f : Block → Block → Block) (a b : Aeu n) :
    (bitwiseLoop f a b).run = Aeu.bitwiseLoop f a b :=
  run_forUp fun i s => by simp

theorem run_shl (a : Aeu n) (s : Nat) : (shl a s).run = Aeu.shl a s := by
  unfold shl Aeu.shl
  rw [run_ite]
  congr 1
  simp only [run_bind, run_lift, run_rd, run_wr]
  congr 1; funext one
  rw [run_forDown (body' := fun i value => do
      let a ← AesiMP.rd value (i - s / 32)
      let hiPart ← shl32 (a &&& toBlock (one - 1#64)) (s % 32)
      let b ← AesiMP.rd value (i - s / 32 - (if s % 32 ≠ 0 then 1 else 0))
      let loPart ← shr32 (b &&& ~~~ toBlock (one - 1#64)) ((32 - s % 32) % 32)
      AesiMP.wr value i (hiPart ||| loPart)) (fun i s => by simp)]
  congr 1; funext v
  congr 1; funext b0
  congr 1; funext low
  congr 1; funext v
  exact run_forUp fun i s => by simp

theorem run_shr (a : Aeu n) (s : Nat) : (shr a s).run = Aeu.shr a s := by
  unfold shr Aeu.shr
  rw [run_ite]
  congr 1
  simp only [run_bind, run_lift, run_rd, run_wr]
  congr 1; funext one
  rw [run_forUp (body' := fun i value => do
      let a ← AesiMP.rd value (i + s / 32 + (if s % 32 ≠ 0 then 1 else 0))
      let hiPart ← shl32 (a &&& toBlock (one - 1#64)) ((32 - s % 32) % 32)
      let b ← AesiMP.rd value (i + s / 32)
      let loPart ← shr32 (b &&& ~~~ toBlock (one - 1#64)) (s % 32)
      AesiMP.wr value i (hiPart ||| loPart)) (fun i s => by simp)]
  congr 1; funext v
  congr 1; funext b0
  congr 1; funext low
  congr 1; funext v
  exact run_forUp fun i s => by simp

theorem run_eqNarrow {w : Nat} (a : Aeu n) (v : BitVec w) : (eqNarrow a v).run = Aeu.eqNarrow a v := by
  simp [eqNarrow, Aeu.eqNarrow, run_filledBlocksNumber]

theorem run_getBlock (cfg : Cfg) (a : Aeu n) (i : Nat) : (getBlock cfg a i).run = Aeu.getBlock cfg a i := by
  simp [getBlock, Aeu.getBlock]

theorem run_compareTo (cfg : Cfg) (a : Aeu n) (b : Aeu m) : (compareTo cfg a b).run = Aeu.compareTo cfg a b := by
  unfold compareTo Aeu.compareTo
  simp only [run_bind]
  rw [run_forDownC (body' := fun i _ => do
    let thisBlock ← AesiMP.rd a i
    let otherBlock ← Aeu.getBlock cfg b i
    if thisBlock ≠ otherBlock then
      .ok (.leave (if thisBlock > otherBlock then Comparison.greater else .less))
    else .ok (.next ())) (fun i s => by simp [run_getBlock])]
  congr 1; funext c
  cases c with
  | leave c => rfl
  | next _ =>
    simp only [run_ite, run_bind, run_pure]
    rw [run_forDownC (body' := fun i _ => do
          let b ← Aeu.getBlock cfg b i
          if b ≠ 0#32 then .ok (.leave Comparison.less) else .ok (.next ())) (fun i s => by simp [run_getBlock]),
      run_forDownC (body' := fun i _ => do
          let b ← AesiMP.rd a i
          if b ≠ 0#32 then .ok (.leave Comparison.greater) else .ok (.next ())) (fun i s => by simp)]
    congr 1; congr 1
    · congr 1; funext c; cases c <;> rfl
    · congr 1; congr 1; funext c; cases c <;> rfl

theorem run_ge (cfg : Cfg) (a : Aeu n) (b : Aeu m) : (ge cfg a b).run = Aeu.ge cfg a b := by
  simp only [ge, Aeu.ge, Aeu.spaceship, run_bind, run_compareTo, run_pure]
  cases Aeu.compareTo cfg a b <;> rfl

theorem run_lt (cfg : Cfg) (a : Aeu n) (b : Aeu m) : (lt cfg a b).run = Aeu.lt cfg a b := by
  simp only [lt, Aeu.lt, Aeu.spaceship, run_bind, run_compareTo, run_pure]
  cases Aeu.compareTo cfg a b <;> rfl

theorem run_setBit (cfg : Cfg) (a : Aeu n) (i : Nat) (v : Bool) : (setBit cfg a i v).run = Aeu.setBit cfg a i v := by
  simp [setBit, Aeu.setBit]

theorem run_getBit (cfg : Cfg) (a : Aeu n) (i : Nat) : (getBit cfg a i).run = Aeu.getBit cfg a i := by
  simp [getBit, Aeu.getBit]

theorem run_scanDown (a : Aeu n) (k : Nat) : (scanDown a k).run = Aeu.scanDown a k := by
  induction k with
  | zero => rfl
  | succ k ih => simp [scanDown, Aeu.scanDown, ih]

theorem run_bitCount (a : Aeu n) : (bitCount a).run = Aeu.bitCount a := by
  unfold bitCount Aeu.bitCount
  rw [run_bind, run_scanDown]
  congr 1; funext lastBlock
  rw [run_bind, run_forDownC (body' := fun byteN _ => do
    let b ← AesiMP.rd a lastBlock
    let mask ← shl32 0xff#32 (byteN * 8)
    let byte ← shr32 (b &&& mask) (byteN * 8)
    if byte = 0#32 then .ok (.next ()) else do
      let r ← AesiMP.forDownC 8 0 () fun bitN _ => do
        let one ← shl32 1#32 bitN
        let v ← shr32 (byte &&& one) bitN
        if v ≠ 0#32 then .ok (.leave ((lastBlock * 4 + byteN) * 8 + bitN + 1)) else .ok (.next ())
      match r with
      | .leave k => .ok (.leave k)
      | .next _ => .ok (.leave (((lastBlock - 1) * 4 + byteN) * 8))) ?_]
  · congr 1; funext c; cases c <;> rfl
  · intro i s
    simp only [run_bind, run_rd, run_lift, run_ite, run_pure]
    congr 1; funext b
    congr 1; funext mask
    congr 1; funext byte
    congr 1; congr 1; funext c; cases c <;> rfl

theorem run_divide (cfg : Cfg) (a b : Aeu n) : (divide cfg a b).run = Aeu.divide cfg a b := by
  unfold divide Aeu.divide
  rw [run_bind, run_compareTo]
  congr 1; funext c
  cases c with
  | greater =>
    simp only [run_bind, run_filledBlocksNumber]
    congr 1; funext f
    refine run_forDown fun i ⟨q, r⟩ => ?_
    simp [run_shl, run_getBit, run_setBit, run_ge, run_sub]
  | less => rfl
  | equal => simp [run_ofUnsigned]
  | equivalent => simp [run_ofUnsigned]

theorem run_div (cfg : Cfg) (a b : Aeu n) : (div cfg a b).run = Aeu.div cfg a b := by
  simp [div, Aeu.div, run_divide]

theorem run_mod (cfg : Cfg) (a b : Aeu n) : (mod cfg a b).run = Aeu.mod cfg a b := by
  simp [mod, Aeu.mod, run_divide]

theorem run_gcdIn (cfg : Cfg) (t : Nat) (a b : Aeu n) : (gcdIn cfg t a b).run = Aeu.gcdIn cfg t a b := by
  unfold gcdIn Aeu.gcdIn
  simp only [run_bind, run_compareTo, run_ite, run_divide]
  congr 1; funext c
  congr 1 <;> (congr 1; funext qr; exact run_whileC fun ⟨g, r⟩ => by simp [run_eqNarrow, run_divide])

theorem run_gcd (cfg : Cfg) (a b : Aeu n) : (gcd cfg a b).run = Aeu.gcd cfg a b := run_gcdIn cfg _ a b

theorem run_gcdExtIn (cfg : Cfg) (t : Nat) (a b : Aeu n) : (gcdExtIn cfg t a b).run = Aeu.gcdExtIn cfg t a b := by
  unfold gcdExtIn Aeu.gcdExtIn
  simp only [run_bind, run_compareTo, run_ite, run_divide, run_ofUnsigned]
  congr 1; funext c
  have key : ∀ qr : Aeu n × Aeu n, ∀ x y tx ty : Aeu n, (Counted.whileC t
      (if c = Comparison.greater then b else a, qr.1, qr.2, x, y, tx, ty)
      fun (gcd, quotient, remainder, bezoutX, bezoutY, tX, tY) => do
      let z ← eqNarrow remainder (0#32)
      if z then pure (.leave (gcd, bezoutX, bezoutY)) else do
        let tGcd := gcd
        let gcd := remainder
        let t := bezoutX
        let p ← mul quotient bezoutX
        let bezoutX ← sub tX p
        let tX := t
        let t := bezoutY
        let p ← mul quotient bezoutY
        let bezoutY ← sub tY p
        let tY := t
        let qr ← divide cfg tGcd gcd
        pure (.next (gcd, qr.1, qr.2, bezoutX, bezoutY, tX, tY))).run =
      AesiMP.whileC t (if c = Comparison.greater then b else a, qr.1, qr.2, x, y, tx, ty)
      (fun (gcd, quotient, remainder, bezoutX, bezoutY, tX, tY) => do
      let z ← Aeu.eqNarrow remainder (0#32)
      if z then .ok (.leave (gcd, bezoutX, bezoutY)) else do
        let tGcd := gcd
        let gcd := remainder
        let t := bezoutX
        let p ← Aeu.mul quotient bezoutX
        let bezoutX ← Aeu.sub tX p
        let tX := t
        let t := bezoutY
        let p ← Aeu.mul quotient bezoutY
        let bezoutY ← Aeu.sub tY p
        let tY := t
        let qr ← Aeu.divide cfg tGcd gcd
        .ok (.next (gcd, qr.1, qr.2, bezoutX, bezoutY, tX, tY))) := fun qr x y tx ty =>
    run_whileC fun ⟨g, q, r, x, y, tx, ty⟩ => by simp [run_eqNarrow, run_divide, run_mul, run_sub]
  congr 1 <;>
  · congr 1; funext qr
    congr 1; funext x
    congr 1; funext y
    congr 1; funext tx
    congr 1; funext ty
    refine congrArg₂ (· >>= ·) (key qr x y tx ty) ?_
    funext ⟨g, x, y⟩
    simp

theorem run_gcdExt (cfg : Cfg) (a b : Aeu n) : (gcdExt cfg a b).run = Aeu.gcdExt cfg a b := run_gcdExtIn cfg _ a b

theorem run_lcm (cfg : Cfg) (a b : Aeu n) : (lcm cfg a b).run = Aeu.lcm cfg a b := by
  simp [lcm, Aeu.lcm, run_gcd, run_div, run_mul]

theorem run_powmT (cfg : Cfg) (a : Aeu n) (e : Aeu m) (md : Aeu n) :
    (powmT cfg a e md).run = Aeu.powmT cfg a e md := by
  unfold powmT Aeu.powmT
  simp only [run_bind, run_eqNarrow, run_ite, run_pure, run_ofUnsigned, run_divide]
  congr 1; funext e1
  congr 1; congr 1; funext e0
  congr 1; congr 1; funext output
  congr 1; funext qb
  refine run_whileC fun ⟨it, o, b⟩ => ?_
  simp only [run_bind, run_filledBlocksNumber, run_ite, run_pure, run_getBit, run_mul, run_divide]

theorem run_powm (cfg : Cfg) (a e md : Aeu n) : (powm cfg a e md).run = Aeu.powm cfg a e md := by
  unfold powm Aeu.powm
  simp only [run_bind, run_ofUnsigned, run_divide]
  congr 1; funext output
  congr 1; funext qb
  refine run_whileC fun ⟨it, o, b⟩ => ?_
  simp only [run_bind, run_filledBlocksNumber, run_ite, run_pure, run_getBit, run_mul, run_divide]

theorem run_squareRootIn (cfg : Cfg) (k : Nat) (a : Aeu n) :
    (squareRootIn cfg k a).run = Aeu.squareRootIn cfg k a := by
  unfold squareRootIn Aeu.squareRootIn power2 Aeu.power2
  simp only [run_bind, run_bitCount, run_setBit]
  congr 1; funext bc
  congr 1; funext y
  refine run_whileC fun y => ?_
  simp only [run_bind, run_div, run_add, run_shr, run_lt, run_ite, run_pure]

theorem run_squareRoot (cfg : Cfg) (a : Aeu n) : (squareRoot cfg a).run = Aeu.squareRoot cfg a :=
  run_squareRootIn cfg _ a

end Work
end AesiMP
