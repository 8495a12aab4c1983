import Verif.NN.Loop
import Verif.NN.Mat
import Verif.NN.Act
import Mathlib.Data.Rat.Init
/-!
# The dense network over any arithmetic

The same code as `NN/Act.lean`, `NN/Layer.lean` and `NN/Net.lean` (dense layers), but over a type `F` with lawless operations instead of the reals: nothing is assumed about `F` here. `NN/FloatReal.lean`
shows that for `F = ℝ` these definitions are the ones of the real model; `NN/FloatSpec.lean` states what is assumed of `double`.

Simplifications: a network owns its hidden layers (no layer is shared), hidden layers are of class `Layer`; the input layer passes its data on unchanged. The element `(i, j)` of a matrix product is
`dot` of the list of pairs of factors and `accu`/`sum` are `total` of the list of elements, so that neither the order of summation nor fused operations of the BLAS library are fixed.
-/
namespace Nnet.NN.Flt

/-- Operations on `double` used by the library: C++ operators, `<cmath>` functions, conversion of literals and integers, Armadillo's inner products and sums. -/
class Arith (F : Type) extends Zero F, One F, Add F, Sub F, Mul F, Div F, Neg F where
  /-- Conversion of a literal or an integer. -/
  lit : ℚ → F
  exp : F → F
  log : F → F
  tanh : F → F
  atan : F → F
  cos : F → F
  sin : F → F
  fabs : F → F
  fmax : F → F → F
  fmin : F → F → F
  /-- `x < y`. -/
  lt : F → F → Bool
  /-- `x <= y`. -/
  le : F → F → Bool
  /-- An element of a matrix product. -/
  dot : List (F × F) → F
  /-- `arma::accu`, `arma::sum`. -/
  total : List F → F

open Arith

section
variable {F : Type} [Arith F]

/-! ## src/act.cpp -/
namespace Act

/-- act.cpp:5-7 -/
def identityF (z : F) : F := z
/-- act.cpp:8-10 -/
def identityG (_ : F) : F := 1
/-- act.cpp:12-14 -/
def sigmoidF (z : F) : F := 1 / (1 + exp (-z))
/-- act.cpp:15-18 -/
def sigmoidG (z : F) : F := let expo := exp (-z); expo / (1 + expo) / (1 + expo)
/-- act.cpp:20-22 -/
def arctanF (z : F) : F := atan z
/-- act.cpp:23-25 -/
def arctanG (z : F) : F := 1 / (1 + z * z)
/-- act.cpp:27-29 -/
def tanhF (z : F) : F := tanh z
/-- act.cpp:30-33 -/
def tanhG (z : F) : F := let t := tanh z; 1 - t * t
/-- act.cpp:35-37 -/
def bipolarsigmoidF (z : F) : F := lit 2 / (1 + exp (-z)) - 1
/-- act.cpp:38-41 -/
def bipolarsigmoidG (z : F) : F := let f := bipolarsigmoidF z; (1 - f * f) / lit 2
/-- act.cpp:43-45 -/
def comploglogF (z : F) : F := 1 - exp (-exp z)
/-- act.cpp:46-49 -/
def comploglogG (z : F) : F := let expo := exp z; expo * exp (-expo)
/-- act.cpp:51-53 -/
def lecuntanhF (z : F) : F := lit (17159 / 10000) * tanh (lit 2 / lit 3 * z)
/-- act.cpp:54-57 -/
def lecuntanhG (z : F) : F :=
  let x := lit 2 / lit 3 * z
  lit (114393333 / 100000000) * lit 4 / (exp x + exp (-x)) / (exp x + exp (-x))
/-- act.cpp:59-61 -/
def hardtanhF (z : F) : F := fmax (lit (-1)) (fmin 1 z)
/-- act.cpp:62-65 -/
def hardtanhG (z : F) : F := if le (lit (-1)) z && le z 1 then 1 else 0
/-- act.cpp:67-69 -/
def absoluteF (z : F) : F := fabs z
/-- act.cpp:70-73 -/
def absoluteG (z : F) : F := if lt z 0 then lit (-1) else 1
/-- act.cpp:75-77 -/
def reluF (z : F) : F := if le 0 z then z else 0
/-- act.cpp:78-80 -/
def reluG (z : F) : F := if le 0 z then 1 else 0
/-- act.cpp:82-84 -/
def relucosF (z : F) : F := fmax 0 z + cos z
/-- act.cpp:85-87 -/
def relucosG (z : F) : F := if le 0 z then 1 - sin z else -sin z
/-- act.cpp:89-91 -/
def relusinF (z : F) : F := fmax 0 z + sin z
/-- act.cpp:92-94 -/
def relusinG (z : F) : F := if le 0 z then 1 + cos z else cos z
/-- act.cpp:96-98 -/
def smoothreluF (z : F) : F := log (1 + exp z)
/-- act.cpp:99-102 -/
def smoothreluG (z : F) : F := let expo := exp z; expo / (1 + expo)

end Act

/-! ## Armadillo and src/matop.cpp -/

/-- `a * b` (matrix product). -/
def mul (a b : Mat F) : Res (Mat F) :=
  if a.nc = b.nr then .ok (Mat.of a.nr b.nc (fun i j => dot ((List.range a.nc).map fun k => (a.f i k, b.f k j)))) else .error .throw

/-- The elements of a matrix in the order of memory: column by column. -/
def elems (m : Mat F) : List F := (List.range m.nc).flatMap fun j => (List.range m.nr).map fun i => m.f i j

/-- `sumall(m)`, matop.cpp:60-63. -/
def sumall (m : Mat F) : F := total (elems m)

/-- `rowsum(m)`, matop.cpp:65-67. -/
def rowsum (m : Mat F) : Mat F := Mat.of m.nr 1 (fun i _ => total ((List.range m.nc).map fun j => m.f i j))

/-- `funcop(m, f)`, matop.cpp:5-9. -/
def funcop (m : Mat F) (g : F → F) : Mat F := m.map g

/-- `addcol(m)`, matop.cpp:11-15. -/
def addcol (m : Mat F) : Res (Mat F) :=
  let n := Mat.of m.nr (m.nc + 1) (fun _ _ => (1 : F))
  n.updSubmat (fun _ v => v) 0 1 ((n.nr : Int) - 1) ((n.nc : Int) - 1) m

/-- `exponential(m)`, matop.cpp:69-71. -/
def exponential (m : Mat F) : Mat F := m.map exp

/-- `logorithm(m)`, matop.cpp:77-79, and `arma::log(m)`. -/
def logorithm (m : Mat F) : Mat F := m.map log

/-- `repeat(m, row, col)`, matop.cpp:73-75. -/
def repeatM (m : Mat F) (row col : Int) : Res (Mat F) :=
  if 0 ≤ row ∧ 0 ≤ col then .ok (m.repmat row.toNat col.toNat) else .error .throw

/-- `c * m`. -/
def smul (c : F) (m : Mat F) : Mat F := m.map (fun x => c * x)

/-- `m / n` for an unsigned `n`. -/
def divN (m : Mat F) (n : Nat) : Mat F := m.map (fun x => x / lit n)

end

/-! ## src/layer/layer.cpp, src/layer/outputlayer.cpp -/

/-- `matfunc`, type.h:21. -/
abbrev MatFunc (F : Type) [Arith F] := Mat F → Mat F → Res (Mat F)
/-- `matfuncd`, type.h:22. -/
abbrev MatFuncD (F : Type) [Arith F] := Mat F → Mat F → Mat F → Res (Mat F)

/-- `class Layer`, layer.h:57-62. -/
structure Layer (F : Type) [Arith F] where
  lrate : F
  lambda : F
  actfunc : ActFunc F
  pa : Mat F
  z : Mat F
  a : Mat F
  delta : Mat F
  W : Mat F
  grad : Mat F

/-- `class OutputLayer`, outputlayer.h:28-31. -/
structure OutputLayer (F : Type) [Arith F] extends Layer F where
  cost : MatFunc F
  costd : MatFuncD F
  y : Mat F

section
variable {F : Type} [Arith F]

/-- `Layer::forwardprop(pa)`, layer.cpp:76-82. -/
def Layer.forwardprop (L : Layer F) (pa : Mat F) : Res (Mat F × Layer F) := do
  let pa' ← addcol pa
  let z ← mul pa' L.W
  let a := funcop z L.actfunc.act
  .ok (a, { L with pa := pa', z := z, a := a })

/-- `Layer::backprop(d)`, layer.cpp:84-93. -/
def Layer.backprop (L : Layer F) (d : Mat F) : Res (Mat F × Layer F) := do
  let delta ← Mat.zip (· * ·) d (funcop L.z L.actfunc.actd)
  let grad ← mul L.pa.tr delta
  let grad ← Mat.zip (· + ·) grad (smul L.lambda L.W)
  let p ← mul delta L.W.tr
  let r ← p.submat 0 1 ((delta.nr : Int) - 1) ((L.W.nr : Int) - 1)
  .ok (r, { L with delta := delta, grad := grad })

/-- `Layer::update(grad)`, layer.cpp:99-101. -/
def Layer.updateWith (L : Layer F) (grad : Mat F) : Res (Layer F) := do
  let W ← Mat.zip (· - ·) L.W (smul L.lrate grad)
  .ok { L with W := W }

/-- `Layer::update()`, layer.cpp:95-97. -/
def Layer.update (L : Layer F) : Res (Layer F) := do
  let W ← Mat.zip (· - ·) L.W (smul L.lrate L.grad)
  .ok { L with W := W }

/-- Inherited `Layer::forwardprop`. -/
def OutputLayer.forwardprop (o : OutputLayer F) (pa : Mat F) : Res (Mat F × OutputLayer F) := do
  let (r, L) ← o.toLayer.forwardprop pa
  .ok (r, { o with toLayer := L })

/-- `OutputLayer::backprop(label)`, outputlayer.cpp:45-55. -/
def OutputLayer.backprop (o : OutputLayer F) (label : Mat F) : Res (Mat F × OutputLayer F) := do
  let delta ← o.costd label o.a o.z
  let grad ← mul o.pa.tr delta
  let grad ← Mat.zip (· + ·) grad (smul o.lambda o.W)
  let newdelta ← mul delta o.W.tr
  let newdelta ← newdelta.shedCol0
  .ok (newdelta, { o with y := label, delta := delta, grad := grad })

/-- Inner loop of `OutputLayer::argmax`, outputlayer.cpp:60-67. -/
def argmaxRow (a : Mat F) (i : Nat) : Res (F × Nat) := do
  let v0 ← a.at' i 0
  loop (a.nc - 1) (fun j s => do
    let v ← a.at' i ((j : Int) + 1)
    .ok (if lt s.1 v then (v, j + 1) else s)) (v0, 0)

/-- `OutputLayer::argmax()`, outputlayer.cpp:57-72. -/
def OutputLayer.argmax (o : OutputLayer F) : Res (Mat F) :=
  loop o.a.nr (fun i r => do
    let s ← argmaxRow o.a i
    let r ← r.setAt i 0 (lit s.2)
    r.setAt i 1 s.1) (Mat.of o.a.nr 2 (fun _ _ => 0))

/-- `OutputLayer::getcostval()`, outputlayer.cpp:74-77. -/
def OutputLayer.getcostval (o : OutputLayer F) : Res F := do
  let J ← o.cost o.y o.a
  .ok (sumall J)

/-! ## src/output -/

/-- `QuadraticOutput::costfunc`, quadraticoutput.cpp:27-30. -/
def Quadratic.cost : MatFunc F := fun y h => do
  let diff ← Mat.zip (· - ·) y h
  let d2 ← Mat.zip (· * ·) diff diff
  .ok (divN (divN d2 2) y.nr)

/-- `QuadraticOutput::costfuncdelta`, quadraticoutput.cpp:32-34. -/
def Quadratic.costd : MatFuncD F := fun y a _ => do
  let d ← Mat.zip (· - ·) a y
  .ok (divN d y.nr)

/-- `CrossEntropyOutput::costfunc`, crossentropyoutput.cpp:31-33. -/
def CrossEntropy.cost : MatFunc F := fun y h => do
  let s ← Mat.zip (· * ·) y (logorithm h)
  let t ← Mat.zip (· * ·) (y.map (fun v => 1 - v)) (logorithm (h.map (fun v => 1 - v)))
  let u ← Mat.zip (· + ·) s t
  .ok (divN (u.map (fun v => -v)) y.nr)

/-- `CrossEntropyOutput::costfuncdelta`, crossentropyoutput.cpp:35-37. -/
def CrossEntropy.costd : MatFuncD F := fun y a _ => do
  let d ← Mat.zip (· - ·) a y
  .ok (divN d y.nr)

/-- `P` of softmaxoutput.cpp:28-30 and 36-38, where `c = y.n_cols`. -/
def Softmax.prob (c : Nat) (h : Mat F) : Res (Mat F) := do
  let expo := exponential h
  let sumexpo ← repeatM (rowsum expo) 1 c
  Mat.zip (· * ·) expo (sumexpo.map (fun v => 1 / v))

/-- `SoftmaxOutput::costfunc`, softmaxoutput.cpp:27-33. -/
def Softmax.cost : MatFunc F := fun y h => do
  let P ← Softmax.prob y.nc h
  let t ← Mat.zip (· * ·) y (logorithm P)
  .ok (divN (t.map (fun v => -v)) y.nr)

/-- `SoftmaxOutput::costfuncdelta`, softmaxoutput.cpp:35-41. -/
def Softmax.costd : MatFuncD F := fun y a _ => do
  let P ← Softmax.prob y.nc a
  let delta ← Mat.zip (· - ·) P y
  .ok (divN delta y.nr)

/-- `KullbackLeiblerOutput::costfunc`, kullbackleibleroutput.cpp:31-34. -/
def KullbackLeibler.cost : MatFunc F := fun y h => do
  let q ← Mat.zip (· / ·) y h
  let t ← Mat.zip (· * ·) y (logorithm q)
  .ok (divN t y.nr)

/-- `KullbackLeiblerOutput::costfuncdelta`, kullbackleibleroutput.cpp:36-38. -/
def KullbackLeibler.costd : MatFuncD F := fun y a _ => do
  let q ← Mat.zip (· / ·) y a
  .ok (divN q y.nr)

end

/-! ## src/neuralnet.cpp -/

/-- `class NeuralNet`, neuralnet.h:46-53, of dense layers that no other network shares. -/
structure Net (F : Type) [Arith F] where
  hidden : List (Layer F)
  output : OutputLayer F

namespace Net
section
variable {F : Type} [Arith F]

/-- Loop of neuralnet.cpp:35-38. -/
def hiddenForward : List (Layer F) → Mat F → Res (Mat F × List (Layer F))
  | [], current => .ok (current, [])
  | L :: Ls, current => do
    let (n, L) ← L.forwardprop current
    let (r, Ls) ← hiddenForward Ls n
    .ok (r, L :: Ls)

/-- `NeuralNet::forwardprop(x)`, neuralnet.cpp:33-41. -/
def forwardprop (n : Net F) (x : Mat F) : Res (Mat F × Net F) := do
  let (current, hidden) ← hiddenForward n.hidden x
  let (result, output) ← n.output.forwardprop current
  .ok (result, ⟨hidden, output⟩)

/-- Loop of neuralnet.cpp:45-48: layers are visited from last to first, so the tail of the list comes first; also returns what the first layer returned. -/
def hiddenBackward : List (Layer F) → Mat F → Res (Mat F × List (Layer F))
  | [], d => .ok (d, [])
  | L :: Ls, d => do
    let (d, Ls) ← hiddenBackward Ls d
    let (d, L) ← L.backprop d
    .ok (d, L :: Ls)

/-- `NeuralNet::backprop(y)`, neuralnet.cpp:43-49. -/
def backprop (n : Net F) (y : Mat F) : Res (Net F) := do
  let (d, output) ← n.output.backprop y
  let (_, hidden) ← hiddenBackward n.hidden d
  .ok ⟨hidden, output⟩

/-- Loop of neuralnet.cpp:53-55. -/
def hiddenUpdate : List (Layer F) → Res (List (Layer F))
  | [] => .ok []
  | L :: Ls => do
    let L ← L.update
    let Ls ← hiddenUpdate Ls
    .ok (L :: Ls)

/-- `NeuralNet::update()`, neuralnet.cpp:51-56. -/
def update (n : Net F) : Res (Net F) := do
  let L ← n.output.toLayer.update
  let hidden ← hiddenUpdate n.hidden
  .ok ⟨hidden, { n.output with toLayer := L }⟩

/-- Loop of neuralnet.cpp:60-62. -/
def hiddenUpdateWith : List (Layer F) → List (Mat F) → Res (List (Layer F))
  | [], _ => .ok []
  | _ :: _, [] => .error (.ub .vectorIndex)
  | L :: Ls, g :: gs => do
    let L ← L.updateWith g
    let Ls ← hiddenUpdateWith Ls gs
    .ok (L :: Ls)

/-- `NeuralNet::update(ograd, hgrad)`, neuralnet.cpp:58-63. -/
def updateWith (n : Net F) (ograd : Mat F) (hgrad : List (Mat F)) : Res (Net F) := do
  let L ← n.output.toLayer.updateWith ograd
  let hidden ← hiddenUpdateWith n.hidden hgrad
  .ok ⟨hidden, { n.output with toLayer := L }⟩

/-- `NeuralNet::setlrate(lrate)`, neuralnet.cpp:77-82. -/
def setlrate (n : Net F) (r : F) : Net F :=
  ⟨n.hidden.map fun L => { L with lrate := r }, { n.output with lrate := r }⟩

/-- `NeuralNet::predict(sample)`, neuralnet.cpp:65-70. -/
def predict (n : Net F) (sample : Mat F) : Res (Mat F × Net F) := do
  let (_, n) ← n.forwardprop sample
  let am ← n.output.argmax
  .ok (am, n)

/-- `NeuralNet::computecost(pred, y)`, neuralnet.cpp:72-75. -/
def computecost (n : Net F) (pred y : Mat F) : Res F := do
  let J ← n.output.cost y pred
  .ok (sumall J)

/-- `nnet->forwardprop(x); nnet->backprop(y); nnet->update();`: trainer.cpp:37-39, one row of sgdtrainer.cpp:30-34, one batch of batchtrainer.cpp:37-45. -/
def trainOn (n : Net F) (x y : Mat F) : Res (Net F) := do
  let (_, n) ← n.forwardprop x
  let n ← n.backprop y
  n.update

end
end Net
end Nnet.NN.Flt
