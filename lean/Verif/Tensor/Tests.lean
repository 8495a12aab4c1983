import Verif.Tensor.PropsLeak
/-!
# The project's own tensor tests as programs

The test templates of test/tensor/ops/*.cpp, with their sizes, Gaussian draws and scalars as parameters, in the language of
Program.lean. Each element read by an `EXPECT_EQ` is read in the same order; the two sides of the expectation are compared in
PropsTests.lean. A statement `x = e;` is the construction of the temporary `e`, a move assignment and the destruction of the temporary;
at the end of its scope each tensor is destroyed. Variables are numbered in the order of their declaration; `temp` is the temporary.
Expectations about pointers and shapes are not visible in this language; they are in PropsTests.lean as separate statements.
-/
namespace Nnet.Tensor
variable {R : Type}

/-- A straight-line program. -/
def Prog.ofList : List (Cmd R) → Prog R
  | [] => .done
  | c :: cs => .op c fun _ => Prog.ofList cs

/-- Reads of single elements: variable and position. -/
def reads (l : List (Nat × Nat)) : List (Cmd R) := l.map fun q => .get q.1 (q.2 : Int)

/-- The variable of temporaries. -/
def temp : Nat := 9

/-- `x = e;` -/
def reassign (x : Nat) (e : Rhs R) : List (Cmd R) := [.decl temp e, .moveAssign x temp, .destroy temp]

/-- `for (int i = 0; i < n; ++i)` over reads of `x[i]`. -/
def readEach (x n : Nat) : List (Cmd R) := reads ((List.range n).map fun i => (x, i))

/-- `for (int i = 0; i < n; ++i) EXPECT_EQ(x[i], f(y[i]))`. -/
def readPairs (x y n : Nat) : List (Cmd R) := reads ((List.range n).flatMap fun i => [(x, i), (y, i)])

/-- `for (int i = 0; i < n; ++i) EXPECT_EQ(x[i], f(y[i], z[i]))`. -/
def readTriples (x y z n : Nat) : List (Cmd R) := reads ((List.range n).flatMap fun i => [(x, i), (y, i), (z, i)])

/-- `for i < shape, for j < chunk: EXPECT_EQ(x[i * chunk + j], f(y[i * chunk + j], z[j]))`. -/
def readRows (x y z shape chunk : Nat) : List (Cmd R) :=
  reads ((List.range shape).flatMap fun i => (List.range chunk).flatMap fun j => [(x, i * chunk + j), (y, i * chunk + j), (z, j)])

/-- `TestArgmax(size)`, test_tensor_arg.cpp:6-21 (`10` is the value `ten` of the element type). -/
def testArgmax (size : Nat) (ten : R) : List (Cmd R) :=
  [.decl temp (.eyes size), .decl 0 (.fn1 (.mulS ten) temp), .destroy temp, .decl 1 (.red .argmax 1 0)] ++ readEach 1 size ++
  reassign 1 (.red .argmax 0 0) ++ readEach 1 size ++ [.destroy 1, .destroy 0]

/-- `TestArgmin(size)`, test_tensor_arg.cpp:23-38: `-Eyes(size) * 10` is `(-Eyes(size)) * 10`. -/
def testArgmin (size : Nat) (ten : R) : List (Cmd R) :=
  [.decl temp (.eyes size), .decl 2 (.fn1 .neg temp), .decl 0 (.fn1 (.mulS ten) 2), .destroy 2, .destroy temp,
    .decl 1 (.red .argmin 1 0)] ++ readEach 1 size ++
  reassign 1 (.red .argmin 0 0) ++ readEach 1 size ++ [.destroy 1, .destroy 0]

/-- `TestBasicOps(shape, mean, stddev, val)`, test_tensor_basic_ops.cpp:8-36. -/
def testScalarOps (shape : List Int) (draws : Nat → R) (val : R) : List (Cmd R) :=
  [.decl 0 (.gaussian shape draws), .decl 1 (.fn1 (.addS val) 0)] ++ readPairs 1 0 (numel shape) ++
  reassign 1 (.fn1 (.subS val) 0) ++ readPairs 1 0 (numel shape) ++
  reassign 1 (.fn1 (.mulS val) 0) ++ readPairs 1 0 (numel shape) ++
  reassign 1 (.fn1 (.divS val) 0) ++ readPairs 1 0 (numel shape) ++
  reassign 1 (.fn1 (.powS val) 0) ++ readPairs 1 0 (numel shape) ++ [.destroy 1, .destroy 0]

/-- `TestBasicOps(shape, mean1, mean2, stddev1, stddev2)`, test_tensor_basic_ops.cpp:38-73. -/
def testTensorOps (shape : List Int) (draws1 draws2 : Nat → R) : List (Cmd R) :=
  [.decl 0 (.gaussian shape draws1), .decl 1 (.gaussian shape draws2), .decl 2 (.arith .add 0 1)] ++ readTriples 2 0 1 (numel shape) ++
  reassign 2 (.arith .sub 0 1) ++ readTriples 2 0 1 (numel shape) ++
  reassign 2 (.arith .mul 0 1) ++ readTriples 2 0 1 (numel shape) ++
  reassign 2 (.arith .div 0 1) ++ readTriples 2 0 1 (numel shape) ++
  reassign 2 (.fn2 .pow 0 1) ++ readTriples 2 0 1 (numel shape) ++ [.destroy 2, .destroy 1, .destroy 0]

/-- `TestBroadcastOpsTensor(shape1, shape2, ...)`, test_tensor_basic_ops.cpp:75-116, when `shape1` has one dimension more than `shape2`:
`shape1 = {rows} + shape2`. -/
def testBroadcastOps (rows : Nat) (shape2 : List Int) (draws1 draws2 : Nat → R) : List (Cmd R) :=
  [.decl 0 (.gaussian (rows :: shape2) draws1), .decl 1 (.gaussian shape2 draws2), .decl 2 (.arith .add 0 1)] ++
  readRows 2 0 1 rows (numel shape2) ++
  reassign 2 (.arith .sub 0 1) ++ readRows 2 0 1 rows (numel shape2) ++
  reassign 2 (.arith .mul 0 1) ++ readRows 2 0 1 rows (numel shape2) ++
  reassign 2 (.arith .div 0 1) ++ readRows 2 0 1 rows (numel shape2) ++ [.destroy 2, .destroy 1, .destroy 0]

/-- `TestEqual(size)`, test_tensor_equal.cpp:5-32. -/
def testEqual [Zero R] [One R] (size : Nat) : List (Cmd R) :=
  [.decl 0 (.eyes size), .decl temp (.eyes size), .decl 1 (.fn1 (.subS 1) temp), .destroy temp, .decl 2 (.fn2 .eq 0 0)] ++
  readEach 2 (size * size) ++ reassign 2 (.fn2 .eq 0 1) ++ readEach 2 (size * size) ++
  reassign 2 (.fn1 (.eqS 0) 0) ++ readEach 2 (size * size) ++ [.destroy 2, .destroy 1, .destroy 0]

/-- `TestMathOps(d1, d2, d3)`, test_tensor_mathops.cpp:11-38. -/
def testMathOps (shape : List Int) (draws : Nat → R) (ten : R) : List (Cmd R) :=
  [.decl temp (.gaussian shape draws), .decl 0 (.fn1 (.addS ten) temp), .destroy temp,
    .decl 1 (.fn1 .log 0), .decl 2 (.fn1 .exp 0), .decl 3 (.fn1 .sqrt 0)] ++
  readPairs 1 0 (numel shape) ++ readPairs 2 0 (numel shape) ++ readPairs 3 0 (numel shape) ++
  [.destroy 3, .destroy 2, .destroy 1, .destroy 0]

/-- `TestTensorMatMul(m, n, k)`, test_tensor_matmul.cpp:4-35 (the elements of `a` and `b` are those drawn). -/
def testMatmul (m n k : Nat) (draws1 draws2 : Nat → R) : List (Cmd R) :=
  [.decl 0 (.gaussian [(m : Int), (k : Int)] draws1), .decl 1 (.gaussian [(k : Int), (n : Int)] draws2), .decl 2 (.matmul 0 1),
    .declDefault 3, .matmulInto 3 0 1, .matmulInto 3 0 1] ++ readEach 2 (m * n) ++
  [.destroy 3, .destroy 2, .destroy 1, .destroy 0]

/-- `TestTensorNegate(shape)`, test_tensor_negate.cpp:5-16. -/
def testNegate (shape : List Int) (draws : Nat → R) : List (Cmd R) :=
  [.decl 0 (.gaussian shape draws), .decl 1 (.fn1 .neg 0)] ++ readPairs 0 1 (numel shape) ++ [.destroy 1, .destroy 0]

/-- `TestReduceSum(scale, val)`, test_tensor_reduce.cpp:10-28. -/
def testReduceSum (scale : Nat) (val : R) : List (Cmd R) :=
  [.decl temp (.eyes scale), .decl 0 (.fn1 (.mulS val) temp), .destroy temp, .decl 1 (.red .sum 0 0)] ++ readEach 1 scale ++
  reassign 1 (.red .sum 1 0) ++ readEach 1 scale ++ [.sum 0, .destroy 1, .destroy 0]

/-- `TestReduceMean(scale, val)`, test_tensor_reduce.cpp:30-52. -/
def testReduceMean (scale : Nat) (val : R) : List (Cmd R) :=
  [.decl temp (.eyes scale), .decl 0 (.fn1 (.mulS val) temp), .destroy temp, .decl 1 (.red .mean 0 0)] ++ readEach 1 scale ++
  reassign 1 (.red .mean 1 0) ++ readEach 1 scale ++ [.mean 0, .destroy 1, .destroy 0]

/-- `TestCreateZeroTensor`, `TestCreateOneTensor`, test_tensor.cpp:43-49, 60-66. -/
def testFill (e : Rhs R) (shape : List Int) : List (Cmd R) := [.decl 0 e] ++ readEach 0 (numel shape) ++ [.destroy 0]

/-- `TestCreateIdentityMatixTensor`, test_tensor.cpp:77-89. -/
def testEyes (size : Nat) : List (Cmd R) := [.decl 0 (.eyes size)] ++ readEach 0 (size * size) ++ [.destroy 0]

end Nnet.Tensor
