import Verif.NN.Special
/-!
# NeuralNet (src/neuralnet.{h,cpp})

Hidden layers are reached through `std::shared_ptr<Layer>`: a network holds *names* of layers and the layers themselves live in a
store, so two networks can share a layer. Default-constructed networks are in Default.lean, null layer pointers in NullNet.lean.
-/
namespace Nnet.NN
noncomputable section

/-- The dynamic type of a hidden layer together with the members its class adds to `Layer`. -/
inductive Kind where
  | dense
  | norm (normval : ℝ)
  | softmax (p : Mat ℝ)
  | conv (c : Conv)
  | maxpool (c : Conv) (indexes : Mat ℝ)
  | meanpool (c : Conv)

/-- An object of class `Layer` or of a class derived from it. -/
structure HLayer where
  base : Layer
  kind : Kind

namespace HLayer

/-- Virtual `forwardprop`: layer.h:37 and its overriders. -/
def forwardprop (junk : Nat → Nat → ℝ) (h : HLayer) (pa : Mat ℝ) : Res (Mat ℝ × HLayer) :=
  match h.kind with
  | .dense => do
    let (r, L) ← h.base.forwardprop pa
    .ok (r, ⟨L, .dense⟩)
  | .norm v => do
    let (r, L, v) ← Norm.forwardprop h.base v pa
    .ok (r, ⟨L, .norm v⟩)
  | .softmax _ => do
    let r ← SoftmaxL.forwardprop pa
    .ok (r, ⟨h.base, .softmax r⟩)
  | .conv c => do
    let (r, L, c) ← Conv.forwardprop junk h.base c pa
    .ok (r, ⟨L, .conv c⟩)
  | .maxpool c _ => do
    let (r, L, c, ix) ← MaxPool.forwardprop junk h.base c pa
    .ok (r, ⟨L, .maxpool c ix⟩)
  | .meanpool c => do
    let (r, L, c) ← MeanPool.forwardprop junk h.base c pa
    .ok (r, ⟨L, .meanpool c⟩)

/-- Virtual `backprop`: layer.h:38 and its overriders. -/
def backprop (junk : Nat → Nat → ℝ) (h : HLayer) (d : Mat ℝ) : Res (Mat ℝ × HLayer) :=
  match h.kind with
  | .dense => do
    let (r, L) ← h.base.backprop d
    .ok (r, ⟨L, .dense⟩)
  | .norm v => .ok ((Norm.backprop v d).1, ⟨h.base, .norm (Norm.backprop v d).2⟩)
  | .softmax p => do
    let r ← SoftmaxL.backprop d
    .ok (r, ⟨h.base, .softmax p⟩)
  | .conv c => do
    let (r, L, c) ← Conv.backprop junk h.base c d
    .ok (r, ⟨L, .conv c⟩)
  | .maxpool c ix => .ok (MaxPool.backprop d, ⟨h.base, .maxpool c ix⟩)
  | .meanpool c => .ok (MeanPool.backprop d, ⟨h.base, .meanpool c⟩)

/-- Virtual `update()`: layer.cpp:95-97, conv2dlayer.h inherits it, the other classes override it with an empty body
(normlayer.cpp:34, softmaxlayer.cpp:28, maxpoollayer.cpp:53; meanpoollayer.h:17 is not defined anywhere). -/
def update (h : HLayer) : Res HLayer :=
  match h.kind with
  | .dense | .conv _ => do
    let L ← h.base.update
    .ok ⟨L, h.kind⟩
  | _ => .ok h

/-- Virtual `update(grad)`: layer.cpp:99-101, normlayer.cpp:36, softmaxlayer.cpp:30, maxpoollayer.cpp:55. -/
def updateWith (h : HLayer) (g : Mat ℝ) : Res HLayer :=
  match h.kind with
  | .dense | .conv _ => do
    let L ← h.base.updateWith g
    .ok ⟨L, h.kind⟩
  | _ => .ok h

/-- Virtual `randominit`: layer.cpp:53-74, inherited by the convolution and pooling layers; empty in normlayer.cpp:38 and
softmaxlayer.cpp:32. -/
def randominit (dist : Draws) (h : HLayer) (s : ℝ) : Res HLayer :=
  match h.kind with
  | .norm _ | .softmax _ => .ok h
  | _ => do
    let L ← h.base.randominit dist s
    .ok ⟨L, h.kind⟩

/-- `setw` (not virtual), layer.h:53. -/
def setw (h : HLayer) (w : Mat ℝ) : HLayer := ⟨h.base.setw w, h.kind⟩
/-- `setlrate` (not virtual), layer.h:54. -/
def setlrate (h : HLayer) (r : ℝ) : HLayer := ⟨h.base.setlrate r, h.kind⟩

end HLayer

/-- The objects the layer pointers point to. -/
abbrev Store := Nat → HLayer

/-- `*p = v`. -/
def Store.put (s : Store) (p : Nat) (v : HLayer) : Store := fun q => if q = p then v else s q

/-- `class NeuralNet`, neuralnet.h:46-53 (`eps` is a constant nothing reads). -/
@[ext] structure Net where
  result : Mat ℝ
  cost : MatFunc
  costd : MatFuncD
  input : Layer
  hidden : List Nat
  output : OutputLayer

namespace Net

/-- `NeuralNet(input, output, hidden)`, neuralnet.cpp:18-21. Passing and storing the layers copies them: `input` goes through
`InputLayer`'s copy constructor twice (the parameter and the member), and so does `output`. -/
def new (dist : Draws) (junk : Nat → Nat → ℝ) (input : Layer) (output : OutputLayer) (hidden : List Nat) : Res Net := do
  let i1 ← InputLayer.copyCtor dist junk input
  let i2 ← InputLayer.copyCtor dist junk i1
  .ok { result := .empty, cost := output.copyCtor.cost, costd := output.copyCtor.costd, input := i2, hidden := hidden,
        output := output.copyCtor.copyCtor }

/-- `NeuralNet(const NeuralNet&)`, neuralnet.cpp:13-16: the vector of shared pointers is copied, not the layers. -/
def copyCtor (dist : Draws) (junk : Nat → Nat → ℝ) (n : Net) : Res Net := do
  let i ← InputLayer.copyCtor dist junk n.input
  .ok { result := n.result, cost := n.cost, costd := n.costd, input := i, hidden := n.hidden, output := n.output.copyCtor }

/-- `self = n`: `NeuralNet::operator=`, neuralnet.cpp:23-31. -/
def assign (self n : Net) : Net :=
  { result := n.result, cost := n.cost, costd := n.costd, input := InputLayer.assign n.input, hidden := n.hidden,
    output := self.output.assign n.output }

/-- Loop of neuralnet.cpp:35-38 over the hidden layers. -/
def hiddenForward (junk : Nat → Nat → ℝ) : List Nat → Store → Mat ℝ → Res (Mat ℝ × Store)
  | [], s, current => .ok (current, s)
  | p :: ps, s, current => do
    let (n, h) ← (s p).forwardprop junk current
    hiddenForward junk ps (s.put p h) n

/-- `NeuralNet::forwardprop(x)`, neuralnet.cpp:33-41. -/
def forwardprop (junk : Nat → Nat → ℝ) (s : Store) (n : Net) (x : Mat ℝ) : Res (Mat ℝ × Store × Net) := do
  let (current, input) := InputLayer.forwardprop n.input x
  let (current, s) ← hiddenForward junk n.hidden s current
  let (result, output) ← n.output.forwardprop current
  .ok (result, s, { n with input := input, output := output, result := result })

/-- Loop of neuralnet.cpp:45-48: the list is the hidden layers *from last to first*. -/
def hiddenBackward (junk : Nat → Nat → ℝ) : List Nat → Store → Mat ℝ → Res Store
  | [], s, _ => .ok s
  | p :: ps, s, currentdelta => do
    let (d, h) ← (s p).backprop junk currentdelta
    hiddenBackward junk ps (s.put p h) d

/-- `NeuralNet::backprop(y)`, neuralnet.cpp:43-49. -/
def backprop (junk : Nat → Nat → ℝ) (s : Store) (n : Net) (y : Mat ℝ) : Res (Store × Net) := do
  let (d, output) ← n.output.backprop y
  let s ← hiddenBackward junk n.hidden.reverse s d
  .ok (s, { n with output := output })

/-- Loop of neuralnet.cpp:53-55. -/
def hiddenUpdate : List Nat → Store → Res Store
  | [], s => .ok s
  | p :: ps, s => do
    let h ← (s p).update
    hiddenUpdate ps (s.put p h)

/-- `NeuralNet::update()`, neuralnet.cpp:51-56. -/
def update (s : Store) (n : Net) : Res (Store × Net) := do
  let L ← n.output.toLayer.update
  let s ← hiddenUpdate n.hidden s
  .ok (s, { n with output := { n.output with toLayer := L } })

/-- Loop of neuralnet.cpp:60-62; `hgrad[i]` beyond the end of the vector is undefined behaviour. -/
def hiddenUpdateWith : List Nat → List (Mat ℝ) → Store → Res Store
  | [], _, s => .ok s
  | _ :: _, [], _ => .error (.ub .vectorIndex)
  | p :: ps, g :: gs, s => do
    let h ← (s p).updateWith g
    hiddenUpdateWith ps gs (s.put p h)

/-- `NeuralNet::update(ograd, hgrad)`, neuralnet.cpp:58-63. -/
def updateWith (s : Store) (n : Net) (ograd : Mat ℝ) (hgrad : List (Mat ℝ)) : Res (Store × Net) := do
  let L ← n.output.toLayer.updateWith ograd
  let s ← hiddenUpdateWith n.hidden hgrad s
  .ok (s, { n with output := { n.output with toLayer := L } })

/-- `NeuralNet::predict(sample)`, neuralnet.cpp:65-70. -/
def predict (junk : Nat → Nat → ℝ) (s : Store) (n : Net) (sample : Mat ℝ) : Res (Mat ℝ × Store × Net) := do
  let (r, s, n) ← forwardprop junk s n sample
  let n := { n with result := r }
  let am ← n.output.argmax
  .ok (am, s, n)

/-- `NeuralNet::computecost(pred, y)`, neuralnet.cpp:72-75. -/
def computecost (n : Net) (pred y : Mat ℝ) : Res ℝ := do
  let J ← n.cost y pred
  .ok (sumall J)

/-- `NeuralNet::setlrate(lrate)`, neuralnet.cpp:77-82. -/
def setlrate (s : Store) (n : Net) (r : ℝ) : Store × Net :=
  (n.hidden.foldl (fun s p => s.put p ((s p).setlrate r)) s,
   { n with input := n.input.setlrate r, output := { n.output with toLayer := n.output.toLayer.setlrate r } })

/-- `NeuralNet::randomize(index, stddev)`, neuralnet.cpp:89-97. -/
def randomizeAt (dist : Draws) (s : Store) (n : Net) (index : Nat) (stddev : ℝ) : Res (Store × Net) :=
  match n.hidden[index]? with
  | some p => do
    let h ← (s p).randominit dist stddev
    .ok (s.put p h, n)
  | none => do
    let L ← n.output.toLayer.randominit dist stddev
    .ok (s, { n with output := { n.output with toLayer := L } })

/-- `NeuralNet::randomize(stddev)`, neuralnet.cpp:84-87, where `rand` is the number `rand()` returns. -/
def randomize (dist : Draws) (rand : Nat) (s : Store) (n : Net) (stddev : ℝ) : Res (Store × Net) :=
  randomizeAt dist s n (rand % (n.hidden.length + 1)) stddev

/-- `NeuralNet::sethiddenw(index, w)`, neuralnet.h:43. -/
def sethiddenw (s : Store) (n : Net) (index : Nat) (w : Mat ℝ) : Res Store := do
  let p ← vecAt n.hidden index
  .ok (s.put p ((s p).setw w))

/-- `NeuralNet::setoutputw(w)`, neuralnet.h:44. -/
def setoutputw (n : Net) (w : Mat ℝ) : Net := { n with output := { n.output with toLayer := n.output.toLayer.setw w } }

/-- `NeuralNet::getresult()`, neuralnet.h:37. -/
def getresult (n : Net) : Mat ℝ := n.result

/-- `NeuralNet::gethidden(index)`, neuralnet.h:40. -/
def gethidden (s : Store) (n : Net) (index : Nat) : Res Layer := do
  let p ← vecAt n.hidden index
  .ok (s p).base.copy

end Net
end
end Nnet.NN
