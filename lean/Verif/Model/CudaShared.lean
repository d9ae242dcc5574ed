import Verif.Model.Aesi

/-!
# `tryAtomicSet` and `tryAtomicExchange` between objects that are all shared

`Cuda.lean` lets the argument of a call be an object of the calling thread alone.  Here every object is in
one memory that all device threads access, and every call names its two objects: two threads may use the same
argument, an argument may be the target of another thread's call, and both names may be the same object.  A
thread that copies a shared object into one of its own is a call of `tryAtomicSet` on an object nobody else
uses.  One step is one access to memory: the load of a block of the argument, one `atomicExch`, the load or the
store of the sign (plain accesses: Aesi.h:1139, 1150).  `atomicExch` is indivisible, memory is sequentially
consistent, the scheduler is arbitrary.  As in `Cuda.lean`, `Aeu::tryAtomicExchange` is modelled without the
`const` that keeps it from compiling.
-/

namespace AesiMP.CudaShared
open Aeu

/-- A call `target.tryAtomicSet(arg)` or `target.tryAtomicExchange(arg)` on the objects of a memory of `k`. -/
structure Call (k : Nat) where
  /-- `tryAtomicExchange` rather than `tryAtomicSet`. -/
  exchange : Bool
  /-- The members of `Aesi` (Aesi.h:1137-1151) rather than those of `Aeu` (Aeu.h:1509-1523). -/
  signed : Bool
  target : Fin k
  arg : Fin k
deriving DecidableEq

/-- Where the thread is in the loop body: about to load `value.blocks[i]`, about to do the inner
`atomicExch(&blocks[i], ...)`, about to do the outer `atomicExch(&value.blocks[i], ...)`.  After the loop:
about to load `value.sign`, about to store `sign`. -/
inductive Phase where
  | load | exch | store
deriving DecidableEq

/-- A device thread: the calls left to do (the first is in progress), the loop counter, the position in the loop
body, the block and the sign in flight. -/
structure Thread (k : Nat) where
  calls : List (Call k)
  i : Nat
  phase : Phase
  reg : Block
  sreg : Sign

/-- The memory and the threads. -/
structure State (n k T : Nat) where
  heap : Fin k → Aesi n
  th : Fin T → Thread k

variable {n k T : Nat}

/-- Store into block `i` of object `p`. -/
def setBlock (heap : Fin k → Aesi n) (p : Fin k) (i : Nat) (h : i < n) (b : Block) : Fin k → Aesi n :=
  fun q => if q = p then { heap p with base := (heap p).base.set i b } else heap q

/-- Store into the sign of object `p`. -/
def setSign (heap : Fin k → Aesi n) (p : Fin k) (s : Sign) : Fin k → Aesi n :=
  fun q => if q = p then { heap p with sign := s } else heap q

/-- One step of a thread (Aeu.h:1509-1512 and 1520-1523: the loop over the blocks; Aesi.h:1138-1139 and
1149-1150: the base, then the sign).  A thread without calls does nothing. -/
def stepThread (heap : Fin k → Aesi n) (t : Thread k) : (Fin k → Aesi n) × Thread k :=
  match t.calls with
  | [] => (heap, t)
  | c :: rest =>
    if h : t.i < n then
      match t.phase with
      | .load => (heap, { t with reg := (heap c.arg).base[t.i], phase := .exch })
      | .exch =>
        let heap' := setBlock heap c.target t.i h t.reg
        if c.exchange then (heap', { t with reg := (heap c.target).base[t.i], phase := .store })
        else (heap', { t with i := t.i + 1, phase := .load })
      | .store => (setBlock heap c.arg t.i h t.reg, { t with i := t.i + 1, phase := .load })
    else if c.signed then
      match t.phase with
      | .load => (heap, { t with sreg := (heap c.arg).sign, phase := .exch })
      | _ => (setSign heap c.target t.sreg, { t with calls := rest, i := 0, phase := .load })
    else (heap, { t with calls := rest, i := 0, phase := .load })

/-- The scheduler lets thread `j` do one step. -/
def step (s : State n k T) (j : Fin T) : State n k T :=
  let r := stepThread s.heap (s.th j)
  { heap := r.1, th := fun j' => if j' = j then r.2 else s.th j' }

/-- A schedule: the threads in the order in which they do their steps. -/
def run (s : State n k T) (schedule : List (Fin T)) : State n k T := schedule.foldl step s

/-- All threads about to start their calls. -/
def start (heap : Fin k → Aesi n) (calls : Fin T → List (Call k)) : State n k T :=
  ⟨heap, fun t => ⟨calls t, 0, .load, 0#32, .zero⟩⟩

end AesiMP.CudaShared
