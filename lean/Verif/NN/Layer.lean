import Verif.NN.Loop
import Verif.NN.Mat
import Verif.NN.Act
/-!
# Layer, InputLayer, OutputLayer and the predefined outputs

Models src/layer/layer.{h,cpp}, inputlayer.{h,cpp}, outputlayer.{h,cpp} and src/output/*.cpp over the real numbers. A method that
changes the object returns the changed object. `junk` stands for the contents of freshly allocated, not yet written memory.
`int` sizes are assumed not to overflow.
-/
namespace Nnet.NN
noncomputable section

/-- The `<cmath>` functions over the reals; `Real.log` and division are total in Lean (`log 0 = 0`, `x / 0 = 0`), where C++ yields
infinities or NaN: theorems state the domain they need. -/
instance : Transc ℝ := ⟨Real.exp, Real.log, Real.sqrt⟩

/-- `struct LayerParam`, layer.h:12-23. -/
structure LayerParam where
  previous_nodes : Int := 0
  nodes : Int := 0
  standard_dev : ℝ := 1
  learning_rate : ℝ := 1 / 100
  lambda : ℝ := 0
  actfunc : ActFunc ℝ := Act.identity

/-- `class Layer`, layer.h:57-62. -/
@[ext] structure Layer where
  lrate : ℝ
  lambda : ℝ
  actfunc : ActFunc ℝ
  pa : Mat ℝ
  z : Mat ℝ
  a : Mat ℝ
  delta : Mat ℝ
  W : Mat ℝ
  grad : Mat ℝ

/-- The numbers `dist(gen)` returns, in order, for `dist(-s, s)` and a default-constructed `std::default_random_engine`: the
engine is created afresh in every call, so the sequence is a function of `s`. Nothing is assumed about it. -/
abbrev Draws := ℝ → Nat → ℝ

namespace Layer

/-- `Layer::Layer()`, layer.cpp:7-9. -/
def default : Layer :=
  { lrate := 0, lambda := 0, actfunc := Act.identity, pa := .empty, z := .empty, a := .empty, delta := .empty, W := .empty, grad := .empty }

/-- First double loop of `Layer::randominit`, layer.cpp:57-63: fill `W` row by row, `mean` becomes the *sum* of the draws.
The state is `(W, mean, number of draws so far)`. -/
def fillLoop (draw : Nat → ℝ) (W : Mat ℝ) : Res (Mat ℝ × ℝ × Nat) :=
  loop W.nr (fun i s => loop W.nc (fun j (s : Mat ℝ × ℝ × Nat) => do
    let W' ← s.1.setAt i j (draw s.2.2)
    let v ← W'.at' i j
    .ok (W', s.2.1 + v, s.2.2 + 1)) s) (W, 0, 0)

/-- Second double loop, layer.cpp:65-71. -/
def devLoop (W : Mat ℝ) (mean : ℝ) : Res ℝ :=
  loop W.nr (fun i s => loop W.nc (fun j (dev : ℝ) => do
    let v ← W.at' i j
    let diff := mean - v
    .ok (dev + diff * diff)) s) 0

/-- `Layer::randominit(stddev)`, layer.cpp:53-74. -/
def randominit (dist : Draws) (L : Layer) (stddev : ℝ) : Res Layer := do
  let (W, mean, _) ← fillLoop (dist stddev) L.W
  let dev ← devLoop W mean
  let dev := Real.sqrt (dev / (W.nr * W.nc : ℕ))
  .ok { L with W := W.smul (stddev / dev) }

/-- `Layer::Layer(pnnodes, nnodes, lrate, standard_dev, lambda, actfunc)`, layer.cpp:25-31. -/
def newDev (dist : Draws) (junk : Nat → Nat → ℝ) (pnnodes nnodes : Int) (lrate standard_dev lambda : ℝ) (actfunc : ActFunc ℝ) :
    Res Layer := do
  let W ← Mat.mk' junk (pnnodes + 1) nnodes
  let grad ← Mat.mk' junk (pnnodes + 1) nnodes
  randominit dist { default with lrate, lambda, actfunc, W, grad } standard_dev

/-- `Layer::Layer(pnnodes, nnodes, lrate, lambda, actfunc)`, layer.cpp:18-23. -/
def new (dist : Draws) (junk : Nat → Nat → ℝ) (pnnodes nnodes : Int) (lrate lambda : ℝ) (actfunc : ActFunc ℝ) : Res Layer :=
  newDev dist junk pnnodes nnodes lrate 1 lambda actfunc

/-- `Layer::Layer(const LayerParam)`, layer.cpp:33-35. -/
def ofParam (dist : Draws) (junk : Nat → Nat → ℝ) (p : LayerParam) : Res Layer :=
  newDev dist junk p.previous_nodes p.nodes p.learning_rate p.standard_dev p.lambda p.actfunc

/-- `Layer::Layer(const Layer&)`, layer.cpp:11-16, and `operator=`, layer.cpp:37-51: all members are copied. -/
def copy (L : Layer) : Layer :=
  { lrate := L.lrate, lambda := L.lambda, actfunc := L.actfunc, pa := L.pa, z := L.z, a := L.a, delta := L.delta, W := L.W,
    grad := L.grad }

/-- `Layer::forwardprop(pa)`, layer.cpp:76-82. -/
def forwardprop (L : Layer) (pa : Mat ℝ) : Res (Mat ℝ × Layer) := do
  let pa' ← addcol pa
  let z ← pa'.mul L.W
  let a := funcop z L.actfunc.act
  .ok (a, { L with pa := pa', z := z, a := a })

/-- `Layer::backprop(d)`, layer.cpp:84-93. -/
def backprop (L : Layer) (d : Mat ℝ) : Res (Mat ℝ × Layer) := do
  let delta ← d.schur (funcop L.z L.actfunc.actd)
  let grad ← L.pa.tr.mul delta
  let grad ← grad.add (L.W.smul L.lambda)
  let p ← delta.mul L.W.tr
  let r ← p.submat 0 1 ((delta.nr : Int) - 1) ((L.W.nr : Int) - 1)
  .ok (r, { L with delta := delta, grad := grad })

/-- `Layer::update(grad)`, layer.cpp:99-101. -/
def updateWith (L : Layer) (grad : Mat ℝ) : Res Layer := do
  let W ← L.W.sub (grad.smul L.lrate)
  .ok { L with W := W }

/-- `Layer::update()`, layer.cpp:95-97. -/
def update (L : Layer) : Res Layer := do
  let W ← L.W.sub (L.grad.smul L.lrate)
  .ok { L with W := W }

/-- `getpnnodes`, layer.h:43. -/
def getpnnodes (L : Layer) : Nat := L.W.nr
/-- `getnnodes`, layer.h:44. -/
def getnnodes (L : Layer) : Nat := L.W.nc
/-- `setw`, layer.h:53. -/
def setw (L : Layer) (w : Mat ℝ) : Layer := { L with W := w }
/-- `setlrate`, layer.h:54. -/
def setlrate (L : Layer) (r : ℝ) : Layer := { L with lrate := r }
/-- `setlambda`, layer.h:55. -/
def setlambda (L : Layer) (r : ℝ) : Layer := { L with lambda := r }

end Layer

/-! ## src/layer/inputlayer.cpp -/
namespace InputLayer

/-- `InputLayer::InputLayer(const int)`, inputlayer.cpp:11-17. -/
def new (junk : Nat → Nat → ℝ) (innodes : Int) : Res Layer := do
  let W ← Mat.mk' junk innodes innodes
  let grad ← Mat.mk' junk innodes innodes
  .ok { Layer.default with lrate := 0, lambda := 0, actfunc := Act.identity, W, grad }

/-- `InputLayer::InputLayer(const InputLayer&)`, inputlayer.cpp:7-9: a *new* layer, one row taller, with random weights. -/
def copyCtor (dist : Draws) (junk : Nat → Nat → ℝ) (L : Layer) : Res Layer :=
  Layer.new dist junk L.getpnnodes L.W.nc L.lrate L.lambda L.actfunc

/-- `InputLayer::operator=`, inputlayer.cpp:19-22. -/
def assign (L : Layer) : Layer := L.copy

/-- `InputLayer::forwardprop`, inputlayer.cpp:24-28. -/
def forwardprop (L : Layer) (input : Mat ℝ) : Mat ℝ × Layer := (input, { L with z := input, a := input })

end InputLayer

/-! ## src/layer/outputlayer.cpp -/

/-- `matfunc`, type.h:21. -/
abbrev MatFunc := Mat ℝ → Mat ℝ → Res (Mat ℝ)
/-- `matfuncd`, type.h:22. -/
abbrev MatFuncD := Mat ℝ → Mat ℝ → Mat ℝ → Res (Mat ℝ)

/-- `class OutputLayer`, outputlayer.h:28-31. -/
@[ext] structure OutputLayer extends Layer where
  cost : MatFunc
  costd : MatFuncD
  y : Mat ℝ

namespace OutputLayer

/-- `OutputLayer::OutputLayer(pnnodes, outputnodes, lrate, lambda, actfunc, cost, costd)`, outputlayer.cpp:13-20. -/
def new (dist : Draws) (junk : Nat → Nat → ℝ) (pnnodes outputnodes : Int) (lrate lambda : ℝ) (actfunc : ActFunc ℝ)
    (cost : MatFunc) (costd : MatFuncD) : Res OutputLayer := do
  let L ← Layer.new dist junk pnnodes outputnodes lrate lambda actfunc
  .ok { L with cost, costd, y := .empty }

/-- `OutputLayer::OutputLayer(pnnodes, outputnodes, lrate, stddev, lambda, actfunc, cost, costd)`, outputlayer.cpp:22-29. -/
def newDev (dist : Draws) (junk : Nat → Nat → ℝ) (pnnodes outputnodes : Int) (lrate stddev lambda : ℝ) (actfunc : ActFunc ℝ)
    (cost : MatFunc) (costd : MatFuncD) : Res OutputLayer := do
  let L ← Layer.newDev dist junk pnnodes outputnodes lrate stddev lambda actfunc
  .ok { L with cost, costd, y := .empty }

/-- `OutputLayer::OutputLayer(LayerParam, cost, costd)`, outputlayer.cpp:31-35. -/
def ofParam (dist : Draws) (junk : Nat → Nat → ℝ) (p : LayerParam) (cost : MatFunc) (costd : MatFuncD) : Res OutputLayer := do
  let L ← Layer.ofParam dist junk p
  .ok { L with cost, costd, y := .empty }

/-- `OutputLayer::OutputLayer(const OutputLayer&)`, outputlayer.cpp:7-11: the label `y` is not copied. -/
def copyCtor (o : OutputLayer) : OutputLayer := { o.toLayer.copy with cost := o.cost, costd := o.costd, y := .empty }

/-- `self = o`: `OutputLayer::operator=`, outputlayer.cpp:37-43: the label `y` is kept. -/
def assign (self o : OutputLayer) : OutputLayer := { o.toLayer.copy with cost := o.cost, costd := o.costd, y := self.y }

/-- Inherited `Layer::forwardprop`. -/
def forwardprop (o : OutputLayer) (pa : Mat ℝ) : Res (Mat ℝ × OutputLayer) := do
  let (r, L) ← o.toLayer.forwardprop pa
  .ok (r, { o with toLayer := L })

/-- `OutputLayer::backprop(label)`, outputlayer.cpp:45-55. -/
def backprop (o : OutputLayer) (label : Mat ℝ) : Res (Mat ℝ × OutputLayer) := do
  let delta ← o.costd label o.a o.z
  let grad ← o.pa.tr.mul delta
  let grad ← grad.add (o.W.smul o.lambda)
  let newdelta ← delta.mul o.W.tr
  let newdelta ← newdelta.shedCol0
  .ok (newdelta, { o with y := label, delta := delta, grad := grad })

/-- Inner loop of `OutputLayer::argmax`, outputlayer.cpp:60-67: `(maxval, maxidx)` over columns `1 .. n_cols-1` of row `i`. -/
def argmaxRow (a : Mat ℝ) (i : Nat) : Res (ℝ × Nat) := do
  let v0 ← a.at' i 0
  loop (a.nc - 1) (fun j s => do
    let v ← a.at' i ((j : Int) + 1)
    .ok (if v > s.1 then (v, j + 1) else s)) (v0, 0)

/-- `OutputLayer::argmax()`, outputlayer.cpp:57-72. -/
def argmax (o : OutputLayer) : Res (Mat ℝ) :=
  loop o.a.nr (fun i r => do
    let s ← argmaxRow o.a i
    let r ← r.setAt i 0 (s.2 : ℝ)
    r.setAt i 1 s.1) (Mat.of o.a.nr 2 (fun _ _ => 0))

/-- `OutputLayer::getcostval()`, outputlayer.cpp:74-77. -/
def getcostval (o : OutputLayer) : Res ℝ := do
  let J ← o.cost o.y o.a
  .ok (sumall J)

end OutputLayer

/-! ## src/output -/
open Mat

/-- `QuadraticOutput::costfunc`, quadraticoutput.cpp:27-30. -/
def Quadratic.cost : MatFunc := fun y h => do
  let diff ← y.sub h
  let d2 ← diff.schur diff
  .ok ((d2.divS 2).divS y.nr)

/-- `QuadraticOutput::costfuncdelta`, quadraticoutput.cpp:32-34. -/
def Quadratic.costd : MatFuncD := fun y a _ => do
  let d ← a.sub y
  .ok (d.divS y.nr)

/-- `CrossEntropyOutput::costfunc`, crossentropyoutput.cpp:31-33. -/
def CrossEntropy.cost : MatFunc := fun y h => do
  let s ← y.schur (logorithm h)
  let t ← (y.map (fun v => 1 - v)).schur (logorithm (h.map (fun v => 1 - v)))
  let u ← s.add t
  .ok ((u.map (fun v => -v)).divS y.nr)

/-- `CrossEntropyOutput::costfuncdelta`, crossentropyoutput.cpp:35-37. -/
def CrossEntropy.costd : MatFuncD := fun y a _ => do
  let d ← a.sub y
  .ok (d.divS y.nr)

/-- `P` of softmaxoutput.cpp:28-30 and 36-38, where `c = y.n_cols`. -/
def Softmax.prob (c : Nat) (h : Mat ℝ) : Res (Mat ℝ) := do
  let expo := exponential h
  let sumexpo ← repeatM (rowsum expo) 1 c
  expo.schur (sumexpo.map (fun v => 1 / v))

/-- `SoftmaxOutput::costfunc`, softmaxoutput.cpp:27-33. -/
def Softmax.cost : MatFunc := fun y h => do
  let P ← Softmax.prob y.nc h
  let t ← y.schur (logorithm P)
  .ok ((t.map (fun v => -v)).divS y.nr)

/-- `SoftmaxOutput::costfuncdelta`, softmaxoutput.cpp:35-41. -/
def Softmax.costd : MatFuncD := fun y a _ => do
  let P ← Softmax.prob y.nc a
  let delta ← P.sub y
  .ok (delta.divS y.nr)

/-- `KullbackLeiblerOutput::costfunc`, kullbackleibleroutput.cpp:31-34. -/
def KullbackLeibler.cost : MatFunc := fun y h => do
  let q ← y.ediv h
  let t ← y.schur (logorithm q)
  .ok (t.divS y.nr)

/-- `KullbackLeiblerOutput::costfuncdelta`, kullbackleibleroutput.cpp:36-38. -/
def KullbackLeibler.costd : MatFuncD := fun y a _ => do
  let q ← y.ediv a
  .ok (q.divS y.nr)

/-- `QuadraticOutput(pnnodes, outputnodes, lrate, stddev, lambda)`, quadraticoutput.cpp:16-21. -/
def Quadratic.new (dist : Draws) (junk : Nat → Nat → ℝ) (p n : Int) (lrate stddev lambda : ℝ) : Res OutputLayer :=
  OutputLayer.newDev dist junk p n lrate stddev lambda Act.identity Quadratic.cost Quadratic.costd

/-- `QuadraticOutput(param)`, quadraticoutput.cpp:23-25: the activation is the caller's. -/
def Quadratic.ofParam (dist : Draws) (junk : Nat → Nat → ℝ) (p : LayerParam) : Res OutputLayer :=
  OutputLayer.ofParam dist junk p Quadratic.cost Quadratic.costd

/-- `CrossEntropyOutput(pnnodes, outputnodes, lrate, stddev, lambda)`, crossentropyoutput.cpp:18-25. -/
def CrossEntropy.new (dist : Draws) (junk : Nat → Nat → ℝ) (p n : Int) (lrate stddev lambda : ℝ) : Res OutputLayer :=
  OutputLayer.newDev dist junk p n lrate stddev lambda Act.sigmoid CrossEntropy.cost CrossEntropy.costd

/-- `CrossEntropyOutput(param)`, crossentropyoutput.cpp:27-29: the activation is the caller's. -/
def CrossEntropy.ofParam (dist : Draws) (junk : Nat → Nat → ℝ) (p : LayerParam) : Res OutputLayer :=
  OutputLayer.ofParam dist junk p CrossEntropy.cost CrossEntropy.costd

/-- `SoftmaxOutput(pnnodes, outputnodes, lrate, stddev, lambda)`, softmaxoutput.cpp:16-21. -/
def Softmax.new (dist : Draws) (junk : Nat → Nat → ℝ) (p n : Int) (lrate stddev lambda : ℝ) : Res OutputLayer :=
  OutputLayer.newDev dist junk p n lrate stddev lambda Act.identity Softmax.cost Softmax.costd

/-- `SoftmaxOutput(param)`, softmaxoutput.cpp:23-25. -/
def Softmax.ofParam (dist : Draws) (junk : Nat → Nat → ℝ) (p : LayerParam) : Res OutputLayer :=
  OutputLayer.ofParam dist junk p Softmax.cost Softmax.costd

/-- `KullbackLeiblerOutput(pnnodes, outputnodes, lrate, stddev, lambda)`, kullbackleibleroutput.cpp:18-25. -/
def KullbackLeibler.new (dist : Draws) (junk : Nat → Nat → ℝ) (p n : Int) (lrate stddev lambda : ℝ) : Res OutputLayer :=
  OutputLayer.newDev dist junk p n lrate stddev lambda Act.identity KullbackLeibler.cost KullbackLeibler.costd

/-- `KullbackLeiblerOutput(param)`, kullbackleibleroutput.cpp:27-29. -/
def KullbackLeibler.ofParam (dist : Draws) (junk : Nat → Nat → ℝ) (p : LayerParam) : Res OutputLayer :=
  OutputLayer.ofParam dist junk p KullbackLeibler.cost KullbackLeibler.costd

end
end Nnet.NN
