import Verif.Model.Client

/-!
# Client programs in several threads

`Client.lean` has one client.  Here several threads run on one memory; each goes on by what its own calls return
(values, comparisons, texts: everything the interface lets a program see).  A step of the machine is one call of
one thread, in any order; the blocks of concurrent calls are not interleaved (for calls that write objects others use
that would be a data race, which has no meaning in C++; for the CUDA members, which are made for it, see
`CudaShared.lean`).  Streams belong to threads.  The memory is the objects and nothing else because Aeu.h and
Aesi.h declare no variable with static storage but constants (`static constexpr`, e.g. Aeu.h:87) and no mutable
member.
-/

namespace AesiMP

/-- An object: number `i` among the `Aeu<32 n>`, or among the `Aesi<32 n>`. -/
inductive Obj where
  | u (n i : Nat)
  | s (n i : Nat)
deriving DecidableEq, Repr

/-- The objects an expression uses (operands of the calls of `Client.lean`, see `UExpr.run`). -/
def UExpr.reads {n : Nat} : UExpr n → List Obj
  | .builtin _ _ => []
  | .text _ _ => []
  | .mpz _ => []
  | .reg a => [.u n a]
  | .plus a => [.u n a]
  | .neg a => [.u n a]
  | .not a => [.u n a]
  | .inc a => [.u n a]
  | .dec a => [.u n a]
  | .bin _ a b => [.u n a, .u n b]
  | .shl a _ => [.u n a]
  | .shr a _ => [.u n a]
  | .mix _ a _ _ => [.u n a]
  | .mulU64 a _ => [.u n a]
  | .mulULL a _ => [.u n a]
  | .mulConst a _ _ => [.u n a]
  | .mpzL _ _ a => [.u n a]
  | .mpzR _ a _ => [.u n a]
  | .powm b e m => [.u n b, .u n e, .u n m]
  | .powmT k b e m => [.u n b, .u k e, .u n m]
  | .squareRoot a => [.u n a]
  | .power2 _ => []
  | .setBit a _ _ => [.u n a]
  | .setByte a _ _ => [.u n a]
  | .setBlock a _ _ => [.u n a]
  | .cast k a => [.u k a]
  | .magnitude a => [.s n a]

/-- The objects an expression uses (see `SExpr.run`). -/
def SExpr.reads {n : Nat} : SExpr n → List Obj
  | .builtin _ _ => []
  | .text _ _ => []
  | .mpz _ => []
  | .ofAeu a => [.u n a]
  | .reg a => [.s n a]
  | .plus a => [.s n a]
  | .neg a => [.s n a]
  | .inc a => [.s n a]
  | .dec a => [.s n a]
  | .bin _ a b => [.s n a, .s n b]
  | .mix _ a _ _ => [.s n a]
  | .mpzL _ _ a => [.s n a]
  | .mpzR _ a _ => [.s n a]
  | .squareRoot a => [.s n a]
  | .power2 _ => []
  | .setBit a _ _ => [.s n a]
  | .setByte a _ _ => [.s n a]
  | .setBlock a _ _ => [.s n a]
  | .cast k a => [.s k a]

/-- The objects an observer uses (see `Query.run`). -/
def Query.reads : Query → List Obj
  | .uIsZero n a => [.u n a]
  | .uIsOdd n a => [.u n a]
  | .uIsEven n a => [.u n a]
  | .uBitCount n a => [.u n a]
  | .uByteCount n a => [.u n a]
  | .uFilledBlocks n a => [.u n a]
  | .uGetBit n a _ => [.u n a]
  | .uGetByte n a _ => [.u n a]
  | .uGetBlock n a _ => [.u n a]
  | .uEq n m a b => [.u n a, .u m b]
  | .uCompare n m a b => [.u n a, .u m b]
  | .uOrder n m a b => [.u n a, .u m b]
  | .uEqNarrow n a _ _ => [.u n a]
  | .uCompareNarrow n a _ _ => [.u n a]
  | .uEqU64 n a _ => [.u n a]
  | .uCompareU64 n a _ => [.u n a]
  | .uEqSigned n a _ => [.u n a]
  | .uCompareSigned n a _ => [.u n a]
  | .uRel _ n m a b => [.u n a, .u m b]
  | .uNe n m a b => [.u n a, .u m b]
  | .uOld _ n a b => [.u n a, .u n b]
  | .uOldBuiltin _ n a _ _ => [.u n a]
  | .uOrderNarrow n a _ _ => [.u n a]
  | .uOrderU64 n a _ => [.u n a]
  | .uOrderSigned n a _ => [.u n a]
  | .uBitness _ => []
  | .uBlocks _ => []
  | .uEqMpz n a _ => [.u n a]
  | .uCast n a _ => [.u n a]
  | .uText n a _ _ _ _ _ => [.u n a]
  | .sIsZero n a => [.s n a]
  | .sIsPositive n a => [.s n a]
  | .sIsNegative n a => [.s n a]
  | .sIsOdd n a => [.s n a]
  | .sIsEven n a => [.s n a]
  | .sBitCount n a => [.s n a]
  | .sByteCount n a => [.s n a]
  | .sGetBit n a _ => [.s n a]
  | .sGetByte n a _ => [.s n a]
  | .sGetBlock n a _ => [.s n a]
  | .sEq n a b => [.s n a, .s n b]
  | .sCompare n a b => [.s n a, .s n b]
  | .sOrder n a b => [.s n a, .s n b]
  | .sEqAcross n m a b => [.s n a, .s m b]
  | .sCompareAcross n m a b => [.s n a, .s m b]
  | .sEqIntegral n a _ _ => [.s n a]
  | .sCompareIntegral n a _ _ => [.s n a]
  | .sRel _ n a b => [.s n a, .s n b]
  | .sNe n a b => [.s n a, .s n b]
  | .sOrderIntegral n a _ _ => [.s n a]
  | .sLtIntegral n a _ _ => [.s n a]
  | .sGtIntegral n a _ _ => [.s n a]
  | .sBitness _ => []
  | .sBlocks _ => []
  | .sEqMpz n a _ => [.s n a]
  | .sCast n a _ => [.s n a]
  | .sText n a _ _ _ _ _ => [.s n a]

/-- The objects a call is given to read or to write (see `Call.run`). -/
def Call.reads : Call → List Obj
  | .setU n d e => .u n d :: e.reads
  | .setS n d e => .s n d :: e.reads
  | .ask q => q.reads
  | .postIncU n d a => [.u n d, .u n a]
  | .postDecU n d a => [.u n d, .u n a]
  | .postIncS n d a => [.s n d, .s n a]
  | .postDecS n d a => [.s n d, .s n a]
  | .divideU n a b q r => [.u n a, .u n b, .u n q, .u n r]
  | .dividePair n a b q r => [.u n a, .u n b, .u n q, .u n r]
  | .divideS n a b q r => [.s n a, .s n b, .s n q, .s n r]
  | .gcdExt n a b x y g => [.u n a, .u n b, .u n x, .u n y, .u n g]
  | .swapU n a b => [.u n a, .u n b]
  | .swapS n a b => [.s n a, .s n b]
  | .printU n a _ => [.u n a]
  | .printS n a _ => [.s n a]
  | .read n d _ => [.u n d]
  | .write n a _ => [.u n a]

/-- The objects a call writes: those it takes as non-const. -/
def Call.writes : Call → List Obj
  | .setU n d _ => [.u n d]
  | .setS n d _ => [.s n d]
  | .ask _ => []
  | .postIncU n d a => [.u n d, .u n a]
  | .postDecU n d a => [.u n d, .u n a]
  | .postIncS n d a => [.s n d, .s n a]
  | .postDecS n d a => [.s n d, .s n a]
  | .divideU n _ _ q r => [.u n q, .u n r]
  | .dividePair n _ _ q r => [.u n q, .u n r]
  | .divideS n _ _ q r => [.s n q, .s n r]
  | .gcdExt n _ _ x y g => [.u n x, .u n y, .u n g]
  | .swapU n a b => [.u n a, .u n b]
  | .swapS n a b => [.s n a, .s n b]
  | .printU _ _ _ => []
  | .printS _ _ _ => []
  | .read n d _ => [.u n d]
  | .write _ _ _ => []

/-- The program of one thread: after each call it goes on by what its last observer returned. -/
inductive Thr where
  | done
  | call (c : Call) (rest : List Int → Thr)

/-- What only the thread has: the last result, its streams. -/
structure Local where
  last : List Int
  os : OStream
  sink : BSink
  src : IStream

/-- All threads and the memory they share. -/
structure Machine (T : Nat) where
  u : (n : Nat) → Nat → Aeu n
  s : (n : Nat) → Nat → Aesi n
  loc : Fin T → Local
  prog : Fin T → Thr

variable {T : Nat}

/-- What thread `t` sees. -/
def Machine.view (m : Machine T) (t : Fin T) : World :=
  { u := m.u, s := m.s, last := (m.loc t).last, os := (m.loc t).os, sink := (m.loc t).sink, src := (m.loc t).src }

/-- Thread `t` does its next call (none left: nothing happens).  Undefined behaviour stops everything. -/
def Machine.step (env : Env) (m : Machine T) (t : Fin T) : Exec (Machine T) :=
  match m.prog t with
  | .done => .ok m
  | .call c rest => do
    let w ← c.run env (m.view t)
    .ok { u := w.u, s := w.s,
          loc := fun j => if j = t then ⟨w.last, w.os, w.sink, w.src⟩ else m.loc j,
          prog := fun j => if j = t then rest w.last else m.prog j }

/-- The threads do their calls in the order of the schedule. -/
def Machine.run (env : Env) : List (Fin T) → Machine T → Exec (Machine T)
  | [], m => .ok m
  | t :: ts, m => do let m ← m.step env t; m.run env ts

/-- One thread alone: its first `k` calls. -/
def Thr.alone (env : Env) : Nat → Thr → World → Exec (Thr × World)
  | 0, p, w => .ok (p, w)
  | _ + 1, .done, w => .ok (.done, w)
  | k + 1, .call c rest, w => do
    let w ← c.run env w
    Thr.alone env k (rest w.last) w

/-- In every branch the thread uses only objects of `V` and writes only objects of `W`. -/
def Thr.Within (V W : Obj → Prop) : Thr → Prop
  | .done => True
  | .call c rest => (∀ o ∈ c.reads, V o) ∧ (∀ o ∈ c.writes, W o) ∧ ∀ l, (rest l).Within V W

end AesiMP
