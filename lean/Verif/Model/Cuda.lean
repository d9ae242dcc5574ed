import Verif.Model.Aesi

/-!
# The CUDA members `tryAtomicSet` and `tryAtomicExchange`, interleaved

Device threads call these members on one shared object.  The argument of a call is an object that only
the calling thread can access.  One step of a thread is one access to memory: the load of a block of the
argument, one `atomicExch`, or the plain assignment of `sign`.  `atomicExch` is one indivisible step
(CUDA's guarantee), memory is sequentially consistent.  The scheduler is arbitrary.

`Aeu::tryAtomicExchange` takes `const Aeu& value` and passes `&value.blocks[i]` to `atomicExch`, which
does not compile when the member is instantiated; the model is of the function without that `const`.
-/

namespace AesiMP.Cuda
open Aeu

/-- A call on the shared object. -/
structure Call (k : Nat) where
  /-- `tryAtomicExchange` rather than `tryAtomicSet`. -/
  exchange : Bool
  /-- The members of `Aesi` (Aesi.h:1137-1151) rather than those of `Aeu` (Aeu.h:1509-1523). -/
  signed : Bool
  /-- The argument: one of the thread's `k` objects. -/
  arg : Fin k

/-- Where the thread is in the loop body: about to load `value.blocks[i]`, about to do the inner
`atomicExch(&blocks[i], ...)`, about to do the outer `atomicExch(&value.blocks[i], ...)`. -/
inductive Phase where
  | load | exch | store
deriving DecidableEq

/-- A device thread: the calls left to do (the first is in progress), the loop counter `i`, the
position in the loop body, the value in flight, and the thread's own objects. -/
structure Thread (n k : Nat) where
  calls : List (Call k)
  i : Nat
  phase : Phase
  reg : Block
  own : Fin k → Aesi n

/-- The shared object and the threads. -/
structure State (n k T : Nat) where
  obj : Aesi n
  th : Fin T → Thread n k

variable {n k T : Nat}

/-- One step of a thread on the shared object (Aeu.h:1509-1512 and 1520-1523: the loop over the blocks;
Aesi.h:1138-1139 and 1149-1150: the base, then the sign).  A thread without calls does nothing. -/
def stepThread (obj : Aesi n) (t : Thread n k) : Aesi n × Thread n k :=
  match t.calls with
  | [] => (obj, t)
  | c :: rest =>
    if h : t.i < n then
      match t.phase with
      | .load => (obj, { t with reg := (t.own c.arg).base[t.i], phase := .exch })
      | .exch =>
        let obj' : Aesi n := { obj with base := obj.base.set t.i t.reg }
        if c.exchange then (obj', { t with reg := obj.base[t.i], phase := .store })
        else (obj', { t with i := t.i + 1, phase := .load })
      | .store =>
        let o := t.own c.arg
        (obj, { t with
          own := fun p => if p = c.arg then { o with base := o.base.set t.i t.reg } else t.own p,
          i := t.i + 1, phase := .load })
    else
      (if c.signed then { obj with sign := (t.own c.arg).sign } else obj,
        { t with calls := rest, i := 0, phase := .load })

/-- The scheduler lets thread `j` do one step. -/
def step (s : State n k T) (j : Fin T) : State n k T :=
  let r := stepThread s.obj (s.th j)
  { obj := r.1, th := fun j' => if j' = j then r.2 else s.th j' }

/-- A schedule: the threads in the order in which they do their steps. -/
def run (s : State n k T) (schedule : List (Fin T)) : State n k T := schedule.foldl step s

/-- A thread about to start its calls. -/
def Thread.start (calls : List (Call k)) (own : Fin k → Aesi n) : Thread n k := ⟨calls, 0, .load, 0#32, own⟩

end AesiMP.Cuda
