import Verif.Model.CudaShared

/-!
# Shared operands under relaxed memory ordering

`Model/CudaShared.lean` takes memory to be sequentially consistent.  Here the accesses of a thread take effect in any
order in which

* accesses to one location stay in program order, and
* an access comes after the one it takes its value from (`atomicExch(&blocks[i], value.blocks[i])` after the load of
  `value.blocks[i]`, the outer `atomicExch` after the inner one),

also across iterations and calls.  Iteration `i` touches block `i` of its two objects only, so the accesses fall into
independent lanes: one for each block index and one for the sign.
-/

namespace AesiMP.CudaSharedRelaxed
open CudaShared (Call)

/-- Where a call is in one lane: about to load from the argument; about to put `v` into the target; about to put `v`
(the old content of the target) into the argument. -/
inductive Pos (α : Type) where
  | load
  | exch (v : α)
  | store (v : α)
deriving DecidableEq

/-- A call of which accesses in this lane are outstanding. -/
structure Op (k : Nat) (α : Type) where
  call : Call k
  pos : Pos α
deriving DecidableEq

/-- The contents of the objects in one lane, and the outstanding calls of each thread, in program order. -/
structure Lane (α : Type) (k T : Nat) where
  heap : Fin k → α
  pend : Fin T → List (Op k α)

/-- One lane for each block index, one for the sign. -/
structure State (n k T : Nat) where
  blocks : Fin n → Lane Block k T
  sign : Lane Sign k T

/-- The lane in which an access takes effect. -/
inductive Where (n : Nat) where
  | block (i : Fin n)
  | sign
deriving DecidableEq

variable {n k T : Nat} {α : Type}

/-- The objects the outstanding accesses of a call go to. -/
def Op.locs (o : Op k α) : List (Fin k) :=
  match o.pos with
  | .load => [o.call.arg, o.call.target]
  | .exch _ => if o.call.exchange then [o.call.target, o.call.arg] else [o.call.target]
  | .store _ => [o.call.arg]

/-- The object the next access goes to. -/
def Op.next (o : Op k α) : Fin k :=
  match o.pos with
  | .load => o.call.arg
  | .exch _ => o.call.target
  | .store _ => o.call.arg

/-- The next access (Aeu.h:1509-1512 and 1520-1523, the body of the loop; in the lane of the sign Aesi.h:1138-1139 and
1149-1150: load, then store into the target). -/
def Op.step (heap : Fin k → α) (o : Op k α) : (Fin k → α) × List (Op k α) :=
  match o.pos with
  | .load => (heap, [⟨o.call, .exch (heap o.call.arg)⟩])
  | .exch v =>
    (fun p => if p = o.call.target then v else heap p,
      if o.call.exchange then [⟨o.call, .store (heap o.call.target)⟩] else [])
  | .store v => (fun p => if p = o.call.arg then v else heap p, [])

/-- The next access of the outstanding call at position `m` takes effect, if no access of an earlier call to the same
object is outstanding. -/
def stepOps (heap : Fin k → α) (ops : List (Op k α)) (m : Nat) : (Fin k → α) × List (Op k α) :=
  match ops[m]? with
  | none => (heap, ops)
  | some o =>
    if ∀ o' ∈ ops.take m, o.next ∉ o'.locs then
      ((o.step heap).1, ops.take m ++ ((o.step heap).2 ++ ops.drop (m + 1)))
    else (heap, ops)

/-- The same for thread `t` of a lane. -/
def Lane.step (l : Lane α k T) (t : Fin T) (m : Nat) : Lane α k T :=
  { heap := (stepOps l.heap (l.pend t) m).1,
    pend := fun t' => if t' = t then (stepOps l.heap (l.pend t) m).2 else l.pend t' }

/-- An access of thread `t` takes effect. -/
def step (s : State n k T) : Where n × Fin T × Nat → State n k T
  | (.block i, t, m) => { s with blocks := fun j => if j = i then (s.blocks i).step t m else s.blocks j }
  | (.sign, t, m) => { s with sign := s.sign.step t m }

/-- The order in which accesses take effect. -/
def run (s : State n k T) (order : List (Where n × Fin T × Nat)) : State n k T := order.foldl step s

/-- All threads about to start their calls.  Signs are set, never exchanged (Aesi.h:1139, 1150), and only by the members
of `Aesi`. -/
def start (heap : Fin k → Aesi n) (calls : Fin T → List (Call k)) : State n k T where
  blocks i := ⟨fun p => (heap p).base[i], fun t => (calls t).map fun c => ⟨c, .load⟩⟩
  sign := ⟨fun p => (heap p).sign,
    fun t => ((calls t).filter (·.signed)).map fun c => ⟨{ c with exchange := false }, .load⟩⟩

/-- The objects. -/
def State.obj (s : State n k T) (p : Fin k) : Aesi n := ⟨s.sign.heap p, Vector.ofFn fun i => (s.blocks i).heap p⟩

end AesiMP.CudaSharedRelaxed
