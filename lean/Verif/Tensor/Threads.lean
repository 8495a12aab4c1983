import Verif.Tensor.PropsLeak
/-!
# Several threads of a client program that use tensors (C116)

The library keeps no state outside its objects: src/tensor and src/tensor/ops have no static or global variable, and the generator of `Gaussian` (tensor.cpp:107) is local. Threads of a client meet only in the objects they
share and in the allocator. A client runs one program (Program.lean) per thread; the calls of different threads are interleaved arbitrarily, the parallel loops inside a call are scheduled arbitrarily.
Simplification: a call is one step. Two calls that overlap in time touch no common memory that either of them writes (`C116_apart`), so an overlap of calls has no effect an order of them has not.
-/
namespace Nnet.Tensor
variable {R : Type} {ι : Type}

/-- The tensor variables an initialiser takes (tensor.h:15-30 and the headers of src/tensor/ops: by reference to const or by value, or, for the move constructor, tensor.cpp:42-45, by an rvalue reference whose object is only read). -/
def Rhs.reads : Rhs R → List Nat
  | .zeros _ | .ones _ | .gaussian _ _ | .eyes _ => []
  | .copy y | .move y | .fn1 _ y | .red _ _ y => [y]
  | .arith _ y z | .fn2 _ y z | .matmul y z => [y, z]

/-- The variables a statement creates, changes or destroys (constructors, destructor and non-const functions: tensor.cpp:11-75, 122-131, `operator[]` tensor.h:39, the output of matmul.h). -/
def Cmd.writes : Cmd R → List Nat
  | .decl x _ | .declDefault x | .destroy x | .assign x _ | .reshape x _ | .set x _ _ | .matmulInto x _ _ => [x]
  | .moveAssign x y => [x, y]
  | .get _ _ | .sum _ | .mean _ => []

/-- The other variables of a statement (arguments by reference to const, tensor.cpp and src/tensor/ops). -/
def Cmd.reads : Cmd R → List Nat
  | .decl _ e => e.reads
  | .assign _ y => [y]
  | .get x _ | .sum x | .mean x => [x]
  | .matmulInto _ y z => [y, z]
  | .declDefault _ | .destroy _ | .moveAssign _ _ | .reshape _ _ | .set _ _ _ => []

/-- Whatever numbers it reads, the program only changes variables of `W` and only reads variables of `W` and `S`. -/
def Prog.Within (W S : Set Nat) : Prog R → Prop
  | .done => True
  | .op c k => (∀ x ∈ c.writes, x ∈ W) ∧ (∀ x ∈ c.reads, x ∈ W ∨ x ∈ S) ∧ ∀ o, (k o).Within W S

/-- A client with the threads `ι`: what every thread still has to do, the numbers it has read, memory and tensor objects. -/
structure Threads (ι R : Type) where
  progs : ι → Prog R
  outs : ι → List R
  heap : Heap R
  env : Env

section
variable [DecidableEq ι] [Zero R] [One R] [Add R] [Sub R] [Mul R] [Div R] [Neg R] [CMath R] [BEq R] [LT R] [LE R]
  [DecidableRel (α := R) (· < ·)] [DecidableRel (α := R) (· ≤ ·)]

/-- Thread `i` executes its next statement (nothing, if it has ended). -/
def Threads.turn (σ : Nat → Sched) (T : Threads ι R) (i : ι) : Res (Threads ι R) :=
  match T.progs i with
  | .done => .ok T
  | .op c k => do
    let (o, h, env) ← c.exec σ T.heap T.env
    pure ⟨Function.update T.progs i (k o), Function.update T.outs i (T.outs i ++ o.toList), h, env⟩

/-- The threads execute statements in the given order; `σ s` are the schedules of the parallel loops of the `s`-th one. -/
def Threads.run (σ : Nat → Nat → Sched) : Nat → List ι → Threads ι R → Res (Threads ι R)
  | _, [], T => .ok T
  | s, i :: is, T => do
    let T ← T.turn (σ s) i
    T.run σ (s + 1) is

end
end Nnet.Tensor
