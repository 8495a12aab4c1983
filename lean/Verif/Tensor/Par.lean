import Verif.Tensor.Heap
/-!
# `PARALLEL_FOR()` loops (src/tensor/openmp_support.h:1-7)

Every parallel loop of the library has iterations of one form: read some elements, compute, and store at most one element.
The iterations of a loop are taken to be concurrent. A schedule oracle picks, before every single memory access, which
unfinished iteration moves next; sequential execution and every distribution of iterations over OpenMP threads are special
cases. As in C++, two conflicting accesses to one element by different iterations are undefined behaviour
(`UB.dataRace`); the executor keeps a log of all accesses of the loop to detect them.
-/
namespace Nnet.Tensor

/-- An element `ptr[idx]`. -/
structure Cell where
  ptr : Ptr
  idx : Int
  deriving DecidableEq, Repr

/-- One loop iteration: read `reads` in order, then store `write values` (if any) in `target`. -/
structure Iter (R : Type) where
  reads : List Cell
  write : List R → Option R
  target : Cell

/-- An iteration in progress: its number, reads still to do and values read so far. -/
structure Thread (R : Type) where
  id : Nat
  it : Iter R
  pend : List Cell
  got : List R

/-- A logged access: by which iteration, to which element, and whether it is a store. -/
structure Acc where
  id : Nat
  blk : Nat
  off : Nat
  wr : Bool
  deriving DecidableEq, Repr

/-- Two accesses conflict: different iterations, same element, at least one store. -/
def Acc.conflict (a b : Acc) : Bool :=
  decide (a.id ≠ b.id) && decide (a.blk = b.blk) && decide (a.off = b.off) && (a.wr || b.wr)

variable {R : Type}

/-- The initial state of iteration number `id`. -/
def Thread.start (it : Iter R) (id : Nat) : Thread R := ⟨id, it, it.reads, []⟩

/-- One memory access of one iteration: new heap, the access made, and the rest of the iteration (`none` = finished). -/
def Thread.step (h : Heap R) (th : Thread R) : Res (Heap R × Option Acc × Option (Thread R)) :=
  match th.pend with
  | c :: cs => do
    let (q, k) ← h.access c.ptr c.idx
    let v ← h.read c.ptr c.idx
    pure (h, some ⟨th.id, q, k, false⟩, some ⟨th.id, th.it, cs, th.got ++ [v]⟩)
  | [] =>
    match th.it.write th.got with
    | none => pure (h, none, none)
    | some v => do
      let (q, k) ← h.access th.it.target.ptr th.it.target.idx
      let h' ← h.write th.it.target.ptr th.it.target.idx v
      pure (h', some ⟨th.id, q, k, true⟩, none)

/-- A schedule: at the `s`-th memory access of the loop, `σ s` chooses among the unfinished iterations (modulo their number). -/
abbrev Sched := Nat → Nat

/-- Runs unfinished iterations under schedule `σ`; the fuel is the number of steps left, `log` the accesses made so far. -/
def runThreads (σ : Sched) : (fuel : Nat) → (s : Nat) → Heap R → (log : List Acc) → List (Thread R) → Res (Heap R)
  | _, _, h, _, [] => .ok h
  | 0, _, _, _, _ :: _ => .error .fuel
  | fuel + 1, s, h, log, th :: ths =>
    let all := th :: ths
    let k := σ s % all.length
    match all[k]? with
    | none => .error .fuel
    | some t => do
      let (h', a, r) ← t.step h
      if a.toList.any (fun a => log.any (fun b => a.conflict b)) then .error (.ub .dataRace)
      else match r with
        | none => runThreads σ fuel (s + 1) h' (a.toList ++ log) (all.eraseIdx k)
        | some t' => runThreads σ fuel (s + 1) h' (a.toList ++ log) (all.set k t')

/-- Number of steps of a loop. -/
def loopSteps (its : List (Iter R)) : Nat := (its.map (fun it => it.reads.length + 1)).sum

/-- `PARALLEL_FOR()` over given iterations. -/
def runPar (σ : Sched) (h : Heap R) (its : List (Iter R)) : Res (Heap R) :=
  runThreads σ (loopSteps its) 0 h [] (its.mapIdx (fun i it => Thread.start it i))

/-- `PARALLEL_FOR() for (int i = 0; i < n; ++i) body(i)`; a negative `n` gives no iteration. The index arithmetic of the
iterations (which can only be undefined behaviour or succeed) is evaluated first. -/
def parFor (σ : Sched) (h : Heap R) (n : Int) (body : Int → Res (Iter R)) : Res (Heap R) := do
  let its ← (List.range n.toNat).mapM (fun (i : Nat) => body (i : Int))
  runPar σ h its

end Nnet.Tensor
