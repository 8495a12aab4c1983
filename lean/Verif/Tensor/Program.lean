import Verif.Tensor.PropsFrame
/-!
# Programs over the tensor API (C12)

A small language of client programs: declarations of tensors initialised by any modelled API call, assignments, moves, `Reshape`,
element reads and writes, destruction, and arbitrary control flow that depends on the numbers read. Variables are natural numbers.

* `Prog.run` is the concrete semantics: every command calls the model of the C++ function (Heap.lean, Ops.lean) on a heap.
* `Means`, `AStep`, `ARun` are the specification: variables hold *values* (dimensions and a list of elements); there is no heap.

The scalar constructor `Tensor(val)` is not part of the language: its destruction is undefined (C10).
-/
namespace Nnet.Tensor
variable {R : Type}

/-- The arithmetic operators. -/
inductive Arith | add | sub | mul | div

/-- Elementwise functions of one tensor. -/
inductive Fn1 (R : Type)
  | addS (v : R) | subS (v : R) | mulS (v : R) | divS (v : R) | powS (v : R)
  | neg | exp | log | sqrt | eqS (v : R) | equalS (v eps : R)

/-- Elementwise functions of two tensors of the same shape. -/
inductive Fn2 (R : Type) | pow | eq | equal (eps : R)

/-- Reductions along an axis. -/
inductive Red | sum | mean | argmax | argmin

/-- Initialisers: `Tensor x = ...`. -/
inductive Rhs (R : Type)
  | zeros (d : List Int) | ones (d : List Int) | gaussian (d : List Int) (draws : Nat → R) | eyes (n : Int)
  | copy (y : Nat) | move (y : Nat)
  | arith (o : Arith) (y z : Nat) | fn2 (o : Fn2 R) (y z : Nat) | fn1 (o : Fn1 R) (y : Nat)
  | red (k : Red) (axis : Int) (y : Nat)
  | matmul (y z : Nat)

/-- Statements of a client program. -/
inductive Cmd (R : Type)
  | decl (x : Nat) (e : Rhs R) | declDefault (x : Nat) | destroy (x : Nat)
  | assign (x y : Nat) | moveAssign (x y : Nat) | reshape (x : Nat) (d : List Int)
  | set (x : Nat) (i : Int) (v : R) | get (x : Nat) (i : Int) | sum (x : Nat) | mean (x : Nat)
  | matmulInto (x y z : Nat)

/-- Client programs: a command, then a continuation chosen by the number it produced. -/
inductive Prog (R : Type)
  | done
  | op (c : Cmd R) (k : Option R → Prog R)

/-- Tensor objects of the program. -/
abbrev Env := Nat → Option Tensor

section Concrete
variable [Zero R] [One R] [Add R] [Sub R] [Mul R] [Div R] [Neg R] [CMath R] [BEq R] [LT R] [LE R]
  [DecidableRel (α := R) (· < ·)] [DecidableRel (α := R) (· ≤ ·)]

/-- Using an undeclared variable does not compile; reported as `fuel`, which no C++ outcome is. -/
def Env.look (env : Env) (x : Nat) : Res Tensor :=
  match env x with
  | some t => .ok t
  | none => .error .fuel

/-- The API call behind an initialiser. -/
def Rhs.call (σ : Nat → Sched) (h : Heap R) (env : Env) : Rhs R → Res (Tensor × Heap R)
  | .zeros d => Tensor.zerosDims h d
  | .ones d => Tensor.onesDims h d
  | .gaussian d draws => Tensor.gaussianDims h d draws
  | .eyes n => Tensor.eyes h n
  | .copy y => do Tensor.copyCtor h (← env.look y)
  | .move y => do Tensor.moveCtor h (← env.look y)
  | .arith o y z => do
    let t1 ← env.look y
    let t2 ← env.look z
    match o with
    | .add => addTT (σ 0) h t1 t2
    | .sub => subTT (σ 0) h t1 t2
    | .mul => mulTT (σ 0) h t1 t2
    | .div => divTT (σ 0) h t1 t2
  | .fn2 o y z => do
    let t1 ← env.look y
    let t2 ← env.look z
    match o with
    | .pow => powTT (σ 0) h t1 t2
    | .eq => eqTT (σ 0) h t1 t2
    | .equal eps => equalTT (σ 0) h t1 t2 eps
  | .fn1 o y => do
    let t ← env.look y
    match o with
    | .addS v => addTS (σ 0) h t v
    | .subS v => subTS (σ 0) h t v
    | .mulS v => mulTS (σ 0) h t v
    | .divS v => divTS (σ 0) h t v
    | .powS v => powTS (σ 0) h t v
    | .neg => negT (σ 0) h t
    | .exp => expT (σ 0) h t
    | .log => logT (σ 0) h t
    | .sqrt => sqrtT (σ 0) h t
    | .eqS v => eqTS (σ 0) h t v
    | .equalS v eps => equalTS (σ 0) h t v eps
  | .red k axis y => do
    let t ← env.look y
    match k with
    | .sum => reduceSumAxis (σ 0) h t axis
    | .mean => reduceMeanAxis (σ 0) h t axis
    | .argmax => argmaxT (σ 0) h t axis
    | .argmin => argminT (σ 0) h t axis
  | .matmul y z => do
    let t1 ← env.look y
    let t2 ← env.look z
    matmulOp σ h t1 t2

/-- Execution of one statement: output (if any), heap and objects afterwards. `matmulInto x y z` is the statement
`matmul(y, z, x);`, whose returned copy is destroyed at the end of the statement. -/
def Cmd.exec (σ : Nat → Sched) (h : Heap R) (env : Env) : Cmd R → Res (Option R × Heap R × Env)
  | .decl x e => do
    let (t, h) ← e.call σ h env
    pure (none, h, Function.update env x (some t))
  | .declDefault x => do
    let t ← Tensor.mkDefault
    pure (none, h, Function.update env x (some t))
  | .destroy x => do
    let t ← env.look x
    let h ← t.destroy h
    pure (none, h, Function.update env x none)
  | .assign x y => do
    let t ← env.look x
    let u ← env.look y
    let (t, h) ← if x = y then Tensor.selfAssign h t else Tensor.copyAssign h t u
    pure (none, h, Function.update env x (some t))
  | .moveAssign x y => do
    let t ← env.look x
    let u ← env.look y
    if x = y then do
      let t ← Tensor.selfMoveAssign t
      pure (none, h, Function.update env x (some t))
    else do
      let (t, u) ← Tensor.moveAssign t u
      pure (none, h, Function.update (Function.update env x (some t)) y (some u))
  | .reshape x d => do
    let t ← env.look x
    let t ← t.reshapeDims d
    pure (none, h, Function.update env x (some t))
  | .set x i v => do
    let t ← env.look x
    let h ← t.set h i v
    pure (none, h, env)
  | .get x i => do
    let t ← env.look x
    let v ← t.get h i
    pure (some v, h, env)
  | .sum x => do
    let t ← env.look x
    let v ← reduceSum h t
    pure (some v, h, env)
  | .mean x => do
    let t ← env.look x
    let v ← reduceMean h t
    pure (some v, h, env)
  | .matmulInto x y z => do
    let t ← env.look x
    let t1 ← env.look y
    let t2 ← env.look z
    let (out, ret, h) ← matmul σ h t1 t2 t
    let h ← ret.destroy h
    pure (none, h, Function.update env x (some out))

/-- Execution of a program: the list of numbers it read, final heap and objects. `σ s` are the schedules of the parallel loops
of the `s`-th statement. -/
def Prog.run (σ : Nat → Nat → Sched) (s : Nat) (h : Heap R) (env : Env) : Prog R → Res (List R × Heap R × Env)
  | .done => .ok ([], h, env)
  | .op c k => do
    let (o, h, env) ← c.exec (σ s) h env
    let (os, h, env) ← (k o).run σ (s + 1) h env
    pure (o.toList ++ os, h, env)

end Concrete

/-! ## Specification -/

/-- Value of a tensor variable: dimensions and elements, or dimensions without data (default constructed or moved from). -/
inductive AVal (R : Type)
  | data (d : List Int) (v : List R)
  | empty (d : List Int)

/-- Values of all variables. -/
abbrev AEnv (R : Type) := Nat → Option (AVal R)

/-- Dimension lists a tensor may have. -/
def OkDims (d : List Int) : Prop := ValidDims d ∧ FitsInt d

section Abstract
variable [Zero R] [One R] [Add R] [Sub R] [Mul R] [Div R] [Neg R] [CMath R] [BEq R] [LT R] [LE R]
  [DecidableRel (α := R) (· < ·)] [DecidableRel (α := R) (· ≤ ·)]

/-- The scalar operation of an operator. -/
def Arith.fn : Arith → R → R → R
  | .add, x, y => x + y
  | .sub, x, y => x - y
  | .mul, x, y => x * y
  | .div, x, y => x / y

/-- The scalar function of an elementwise operation. -/
def Fn1.fn : Fn1 R → R → R
  | .addS v, x => x + v
  | .subS v, x => x - v
  | .mulS v, x => x * v
  | .divS v, x => x / v
  | .powS v, x => CMath.pow x v
  | .neg, x => -x
  | .exp, x => CMath.exp x
  | .log, x => CMath.log x
  | .sqrt, x => CMath.sqrt x
  | .eqS v, x => if x == v then 1 else 0
  | .equalS v eps, x => if CMath.abs (x - v) < eps then 1 else 0

/-- Precondition: the tolerance is not negative. -/
def Fn1.pre : Fn1 R → Prop
  | .equalS _ eps => 0 ≤ eps
  | _ => True

/-- The scalar function of an elementwise operation of two tensors. -/
def Fn2.fn : Fn2 R → R → R → R
  | .pow, x, y => CMath.pow x y
  | .eq, x, y => if x == y then 1 else 0
  | .equal eps, x, y => if CMath.abs (x - y) < eps then 1 else 0

/-- Precondition: the tolerance is not negative. -/
def Fn2.pre : Fn2 R → Prop
  | .equal eps => 0 ≤ eps
  | _ => True

/-- The first element no later element of which is better (left to right). -/
def bestOf (better : R → R → Bool) : List R → R
  | [] => 0
  | v :: vs => vs.foldl (fun cur val => if better val cur then val else cur) v

/-- The number a reduction makes of one line (column or row). -/
def Red.line : Red → List R → R
  | .sum, l => l.foldl (· + ·) 0
  | .mean, l => l.foldl (· + ·) 0 / CMath.ofInt (l.length : Int)
  | .argmax, l => bestOf (fun val cur => decide (cur < val)) l
  | .argmin, l => bestOf (fun val cur => decide (val < cur)) l

/-- `Means A e d v`: the preconditions of the call `e` hold when variables have the values `A`, and it must give a tensor of
dimensions `d` with elements `v`. -/
inductive Means (A : AEnv R) : Rhs R → List Int → List R → Prop
  | zeros {d} : OkDims d → Means A (.zeros d) d (List.replicate (numel d) 0)
  | ones {d} : OkDims d → Means A (.ones d) d (List.replicate (numel d) 1)
  | gaussian {d draws} : OkDims d → Means A (.gaussian d draws) d ((List.range (numel d)).map draws)
  | eyes {n : Nat} : 0 < n → OkDims [(n : Int), (n : Int)] →
      Means A (.eyes n) [(n : Int), (n : Int)] ((List.range (n * n)).map (fun p => if p / n = p % n then 1 else 0))
  | copy {y d v} : A y = some (.data d v) → Means A (.copy y) d v
  | move {y d v} : A y = some (.data d v) → Means A (.move y) d v
  /-- right operand: same dimensions, or the dimensions without the first one, repeated -/
  | arith {o y z d1 d2 v1 v2} : A y = some (.data d1 v1) → A z = some (.data d2 v2) → (d1 = d2 ∨ ∃ n, d1 = n :: d2) →
      Means A (.arith o y z) d1 ((List.range v1.length).map (fun i => o.fn (v1.getD i 0) (v2.getD (i % v2.length) 0)))
  | fn2 {o y z d v1 v2} : A y = some (.data d v1) → A z = some (.data d v2) → o.pre →
      Means A (.fn2 o y z) d (List.zipWith o.fn v1 v2)
  | fn1 {o y d v} : A y = some (.data d v) → o.pre → Means A (.fn1 o y) d (v.map o.fn)
  | red0 {k y v} {r c : Nat} : A y = some (.data [(r : Int), (c : Int)] v) → 0 < r →
      Means A (.red k 0 y) [(c : Int)] ((List.range c).map (fun j => k.line (col v r c j)))
  | red1 {k y v axis} {r c : Nat} : A y = some (.data [(r : Int), (c : Int)] v) → 0 < r → axis ≠ 0 →
      Means A (.red k axis y) [(r : Int)] ((List.range r).map (fun i => k.line (row v c i)))
  | matmul {y z v1 v2} {m k n : Nat} : A y = some (.data [(m : Int), (k : Int)] v1) → A z = some (.data [(k : Int), (n : Int)] v2) →
      0 < m → 0 < k → 0 < n → IsInt ((m : Int) * n) → Means A (.matmul y z) [(m : Int), (n : Int)] (prodVals m k n v1 v2)

/-- `AStep c A o A'`: the preconditions of statement `c` hold in `A`; afterwards the variables have the values `A'`, and `o` is the
number produced. -/
inductive AStep : Cmd R → AEnv R → Option R → AEnv R → Prop
  | decl {x e A d v} : A x = none → Means A e d v → AStep (.decl x e) A none (Function.update A x (some (.data d v)))
  | declDefault {x A} : A x = none → AStep (.declDefault x) A none (Function.update A x (some (.empty [0])))
  | destroy {x A a} : A x = some a → AStep (.destroy x) A none (Function.update A x none)
  | assignSelf {x A d v} : A x = some (.data d v) → AStep (.assign x x) A none A
  /-- a data-less tensor assigned to itself becomes a tensor of zeros -/
  | assignSelfEmpty {x A d} : A x = some (.empty d) →
      AStep (.assign x x) A none (Function.update A x (some (.data d (List.replicate (numel d) 0))))
  /-- the target has as many elements as the source -/
  | assign {x y A d1 v1 d2 v2} : x ≠ y → A x = some (.data d1 v1) → A y = some (.data d2 v2) → numel d1 = numel d2 →
      AStep (.assign x y) A none (Function.update A x (some (.data d2 v2)))
  /-- the target has no data, but dimensions with the same number of elements -/
  | assignEmpty {x y A d1 d2 v2} : x ≠ y → A x = some (.empty d1) → A y = some (.data d2 v2) → numel d1 = numel d2 →
      AStep (.assign x y) A none (Function.update A x (some (.data d2 v2)))
  /-- the target has no data -/
  | moveAssign {x y A d1 d2 v2} : x ≠ y → A x = some (.empty d1) → A y = some (.data d2 v2) →
      AStep (.moveAssign x y) A none (Function.update (Function.update A x (some (.data d2 v2))) y (some (.empty d2)))
  | moveSelfEmpty {x A d} : A x = some (.empty d) → AStep (.moveAssign x x) A none A
  | reshape {x A d1 v d2} : A x = some (.data d1 v) → OkDims d2 → numel d1 = numel d2 →
      AStep (.reshape x d2) A none (Function.update A x (some (.data d2 v)))
  | reshapeEmpty {x A d1 d2} : A x = some (.empty d1) → OkDims d2 → numel d1 = numel d2 →
      AStep (.reshape x d2) A none (Function.update A x (some (.empty d2)))
  | set {x A d v a} {i : Nat} : A x = some (.data d v) → i < v.length →
      AStep (.set x i a) A none (Function.update A x (some (.data d (v.set i a))))
  | get {x A d v a} {i : Nat} : A x = some (.data d v) → v[i]? = some a → AStep (.get x i) A (some a) A
  | sum {x A d v} : A x = some (.data d v) → AStep (.sum x) A (some (v.foldl (· + ·) 0)) A
  | mean {x A d v} : A x = some (.data d v) →
      AStep (.mean x) A (some (v.foldl (· + ·) 0 / CMath.ofInt (v.length : Int))) A
  /-- the output variable has no data, or already has the dimensions of the product and is not an operand -/
  | matmulInto {x y z A a v1 v2} {m k n : Nat} : A x = some a → (∀ d v, a = .data d v → d = [(m : Int), (n : Int)]) → x ≠ y → x ≠ z →
      A y = some (.data [(m : Int), (k : Int)] v1) → A z = some (.data [(k : Int), (n : Int)] v2) →
      0 < m → 0 < k → 0 < n → IsInt ((m : Int) * n) →
      AStep (.matmulInto x y z) A none (Function.update A x (some (.data [(m : Int), (n : Int)] (prodVals m k n v1 v2))))

/-- `ARun A p os A'`: program `p`, started with values `A`, meets all preconditions, must read the numbers `os` and ends with the
values `A'`. -/
inductive ARun : AEnv R → Prog R → List R → AEnv R → Prop
  | done {A} : ARun A .done [] A
  | op {A c o A' k os A''} : AStep c A o A' → ARun A' (k o) os A'' → ARun A (.op c k) (o.toList ++ os) A''

end Abstract

/-- The objects have the values `A` says: dimensions and elements of every variable, in memory. -/
def SameValues (h : Heap R) (env : Env) (A : AEnv R) : Prop :=
  ∀ x, match A x with
    | none => env x = none
    | some (.data d v) => ∃ t p, env x = some t ∧ mkShape d = .ok t.shape ∧ v.length = numel d ∧ t.data = some p ∧
        h.blocks[p]? = some ⟨v.map some, true, true⟩
    | some (.empty d) => ∃ t, env x = some t ∧ mkShape d = .ok t.shape ∧ t.data = none

/-- Every allocated buffer is owned by exactly one tensor object. -/
def ExactOwners (h : Heap R) (env : Env) : Prop :=
  ∀ p b, h.blocks[p]? = some b → b.live = true → ∃! x, ∃ t, env x = some t ∧ t.data = some p

/-- The buffers `L` are allocated but belong to no tensor any more; every other allocated buffer is owned by exactly one tensor
object. -/
def OwnersBut (L : List Nat) (h : Heap R) (env : Env) : Prop :=
  L.Nodup ∧ (∀ p ∈ L, (∃ b, h.blocks[p]? = some b ∧ b.live = true) ∧ ∀ x t, env x = some t → t.data ≠ some p) ∧
  ∀ p b, h.blocks[p]? = some b → b.live = true → p ∉ L → ∃! x, ∃ t, env x = some t ∧ t.data = some p

end Nnet.Tensor
