import Verif.Model.Cuda

/-!
# The CUDA members under relaxed memory ordering

`Model/Cuda.lean` takes memory to be sequentially consistent.  CUDA promises less: `atomicExch` is a relaxed operation,
and only accesses to one location, or accesses of which one computes the value of the other, keep their order.  Here an
access takes effect as soon as the thread's earlier accesses to the same location and the ones it takes its value from
have taken effect, whatever other accesses of the thread are still outstanding, also those of earlier iterations and of
earlier calls.

In a call on the shared object, iteration `i` touches block `i` of the argument and of the shared object only, so the
accesses of a thread fall into independent lanes: one for each block index, and one for the sign.  In a lane each access
depends on the one before or concerns the same location (the load of an argument of the next call, which does not if that
argument is another object, could be done earlier; nobody else accesses that object, so it would load the same).
-/

namespace AesiMP.CudaRelaxed
open Cuda (Call Phase)

/-- Where a thread is in one lane: the calls left to do there, the position in the loop body, the value in flight. -/
structure Lane (k : Nat) where
  calls : List (Call k)
  phase : Phase
  reg : Block

/-- The shared object, the threads' own objects, and where each thread is in each lane. -/
structure State (n k T : Nat) where
  obj : Aesi n
  own : Fin T → Fin k → Aesi n
  lane : Fin T → Fin n → Lane k
  signs : Fin T → List (Call k)

/-- The lane in which an access takes effect. -/
inductive Where (n : Nat) where
  | block (i : Fin n)
  | sign
deriving DecidableEq

variable {n k T : Nat}

/-- The next access in the lane of one block index (Aeu.h:1509-1512 and 1520-1523, one iteration of the loop), on the
shared block `x` and the blocks `own` of the thread's objects. -/
def stepLane (x : Block) (own : Fin k → Block) (l : Lane k) : Block × (Fin k → Block) × Lane k :=
  match l.calls with
  | [] => (x, own, l)
  | c :: rest =>
    match l.phase with
    | .load => (x, own, { l with reg := own c.arg, phase := .exch })
    | .exch =>
      if c.exchange then (l.reg, own, { l with reg := x, phase := .store })
      else (l.reg, own, { l with calls := rest, phase := .load })
    | .store => (x, fun p => if p = c.arg then l.reg else own p, { l with calls := rest, phase := .load })

/-- An access of thread `t` takes effect (in the sign's lane: Aesi.h:1138-1139 and 1149-1150). -/
def step (s : State n k T) : Fin T × Where n → State n k T
  | (t, .block i) =>
    let r := stepLane s.obj.base[i] (fun p => (s.own t p).base[i]) (s.lane t i)
    { s with
      obj := { s.obj with base := s.obj.base.set i r.1 },
      own := fun t' p =>
        if t' = t then { s.own t p with base := (s.own t p).base.set i (r.2.1 p) } else s.own t' p,
      lane := fun t' j => if t' = t ∧ j = i then r.2.2 else s.lane t' j }
  | (t, .sign) =>
    match s.signs t with
    | [] => s
    | c :: rest =>
      { s with
        obj := if c.signed then { s.obj with sign := (s.own t c.arg).sign } else s.obj,
        signs := fun t' => if t' = t then rest else s.signs t' }

/-- The order in which accesses take effect. -/
def run (s : State n k T) (order : List (Fin T × Where n)) : State n k T := order.foldl step s

/-- All threads about to start their calls. -/
def start (obj : Aesi n) (calls : Fin T → List (Call k)) (own : Fin T → Fin k → Aesi n) : State n k T :=
  ⟨obj, own, fun t _ => ⟨calls t, .load, 0#32⟩, calls⟩

end AesiMP.CudaRelaxed
