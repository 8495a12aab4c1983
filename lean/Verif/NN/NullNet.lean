import Verif.NN.Trainer
import Verif.NN.File
/-!
# Networks with null pointers among the hidden layers

`NeuralNet(input, output, hidden)` takes a vector of `std::shared_ptr<Layer>` and checks nothing, so some of the pointers may be null. Net.lean has networks without null pointers; here the functions of
neuralnet.cpp that dereference a layer pointer are modelled once more for pointers that may be null.
-/
namespace Nnet.NN
noncomputable section

/-- A `NeuralNet` whose layer pointers may be null: `hidden` is its vector of pointers, `net` has the other members (`net.hidden` does not count). -/
structure PNet where
  net : Net
  hidden : List (Option Nat)

/-- `hidden[i]->`: dereferencing a null pointer is undefined behaviour. -/
def deref : Option Nat → Res Nat
  | none => .error (.ub .nullDeref)
  | some p => .ok p

namespace PNet

/-- A network of Net.lean, none of whose pointers is null. -/
def of (n : Net) : PNet := ⟨n, n.hidden.map some⟩

/-- `NeuralNet(input, output, hidden)`, neuralnet.cpp:18-21: the pointers are copied. -/
def new (dist : Draws) (junk : Nat → Nat → ℝ) (input : Layer) (output : OutputLayer) (hidden : List (Option Nat)) : Res PNet := do
  let n ← Net.new dist junk input output []
  .ok ⟨n, hidden⟩

/-- `NeuralNet(const NeuralNet&)`, neuralnet.cpp:13-16. -/
def copyCtor (dist : Draws) (junk : Nat → Nat → ℝ) (n : PNet) : Res PNet := do
  let m ← n.net.copyCtor dist junk
  .ok ⟨m, n.hidden⟩

/-- `NeuralNet::operator=`, neuralnet.cpp:23-31. -/
def assign (self n : PNet) : PNet := ⟨self.net.assign n.net, n.hidden⟩

/-- Loop of neuralnet.cpp:35-38. -/
def hiddenForward (junk : Nat → Nat → ℝ) : List (Option Nat) → Store → Mat ℝ → Res (Mat ℝ × Store)
  | [], s, current => .ok (current, s)
  | o :: os, s, current => do
    let p ← deref o
    let (n, h) ← (s p).forwardprop junk current
    hiddenForward junk os (s.put p h) n

/-- `NeuralNet::forwardprop(x)`, neuralnet.cpp:33-41. -/
def forwardprop (junk : Nat → Nat → ℝ) (s : Store) (n : PNet) (x : Mat ℝ) : Res (Mat ℝ × Store × PNet) := do
  let (current, input) := InputLayer.forwardprop n.net.input x
  let (current, s) ← hiddenForward junk n.hidden s current
  let (result, output) ← n.net.output.forwardprop current
  .ok (result, s, ⟨{ n.net with input := input, output := output, result := result }, n.hidden⟩)

/-- Loop of neuralnet.cpp:45-48: the list is the hidden layers from last to first. -/
def hiddenBackward (junk : Nat → Nat → ℝ) : List (Option Nat) → Store → Mat ℝ → Res Store
  | [], s, _ => .ok s
  | o :: os, s, currentdelta => do
    let p ← deref o
    let (d, h) ← (s p).backprop junk currentdelta
    hiddenBackward junk os (s.put p h) d

/-- `NeuralNet::backprop(y)`, neuralnet.cpp:43-49. -/
def backprop (junk : Nat → Nat → ℝ) (s : Store) (n : PNet) (y : Mat ℝ) : Res (Store × PNet) := do
  let (d, output) ← n.net.output.backprop y
  let s ← hiddenBackward junk n.hidden.reverse s d
  .ok (s, ⟨{ n.net with output := output }, n.hidden⟩)

/-- Loop of neuralnet.cpp:53-55. -/
def hiddenUpdate : List (Option Nat) → Store → Res Store
  | [], s => .ok s
  | o :: os, s => do
    let p ← deref o
    let h ← (s p).update
    hiddenUpdate os (s.put p h)

/-- `NeuralNet::update()`, neuralnet.cpp:51-56. -/
def update (s : Store) (n : PNet) : Res (Store × PNet) := do
  let L ← n.net.output.toLayer.update
  let s ← hiddenUpdate n.hidden s
  .ok (s, ⟨{ n.net with output := { n.net.output with toLayer := L } }, n.hidden⟩)

/-- `nnet->forwardprop(x); nnet->backprop(y); nnet->update();`, e.g. trainer.cpp:37-39. -/
def trainOn (junk : Nat → Nat → ℝ) (s : Store) (n : PNet) (x y : Mat ℝ) : Res (Store × PNet) := do
  let (_, s, n) ← n.forwardprop junk s x
  let (s, n) ← n.backprop junk s y
  n.update s

/-- `NeuralNet::predict(sample)`, neuralnet.cpp:65-70. -/
def predict (junk : Nat → Nat → ℝ) (s : Store) (n : PNet) (sample : Mat ℝ) : Res (Mat ℝ × Store × PNet) := do
  let (r, s, n) ← forwardprop junk s n sample
  let n : PNet := ⟨{ n.net with result := r }, n.hidden⟩
  let am ← n.net.output.argmax
  .ok (am, s, n)

/-- Loop of neuralnet.cpp:79-80. -/
def hiddenSetlrate (r : ℝ) : List (Option Nat) → Store → Res Store
  | [], s => .ok s
  | o :: os, s => do
    let p ← deref o
    hiddenSetlrate r os (s.put p ((s p).setlrate r))

/-- `NeuralNet::setlrate(lrate)`, neuralnet.cpp:77-82. -/
def setlrate (s : Store) (n : PNet) (r : ℝ) : Res (Store × PNet) := do
  let s ← hiddenSetlrate r n.hidden s
  .ok (s, ⟨{ n.net with input := n.net.input.setlrate r, output := { n.net.output with toLayer := n.net.output.toLayer.setlrate r } }, n.hidden⟩)

/-- `NeuralNet::randomize(index, stddev)`, neuralnet.cpp:89-97. -/
def randomizeAt (dist : Draws) (s : Store) (n : PNet) (index : Nat) (stddev : ℝ) : Res (Store × PNet) :=
  match n.hidden[index]? with
  | some o => do
    let p ← deref o
    let h ← (s p).randominit dist stddev
    .ok (s.put p h, n)
  | none => do
    let L ← n.net.output.toLayer.randominit dist stddev
    .ok (s, ⟨{ n.net with output := { n.net.output with toLayer := L } }, n.hidden⟩)

/-- `NeuralNet::gethidden(index)`, neuralnet.h:40. -/
def gethidden (s : Store) (n : PNet) (index : Nat) : Res Layer := do
  let o ← vecAt n.hidden index
  let p ← deref o
  .ok (s p).base.copy

/-- `NeuralNet::sethiddenw(index, w)`, neuralnet.h:43. -/
def sethiddenw (s : Store) (n : PNet) (index : Nat) (w : Mat ℝ) : Res Store := do
  let o ← vecAt n.hidden index
  let p ← deref o
  .ok (s.put p ((s p).setw w))

/-- The loop of neuralnet.cpp:103-110. -/
def saveHidden (io : TextIO) (s : Store) : List (Option Nat) → List Char → Res (List Char)
  | [], out => .ok out
  | o :: os, out => do
    let p ← deref o
    let out ← saveMat io (s p).base.W out
    saveHidden io s os out

/-- `NeuralNet::save(path)`, neuralnet.cpp:99-121. -/
def save (io : TextIO) (s : Store) (n : PNet) (path : String) (canOpen : Bool) (fs : Files) : Res Files :=
  if canOpen then do
    let out ← saveHidden io s n.hidden []
    let text ← saveMat io n.net.output.W out
    .ok (fs.put path text)
  else .ok fs

/-- The loop of neuralnet.cpp:130-140. -/
def loadHidden (io : TextIO) : List (Option Nat) → Store → InStream → Res (Store × InStream)
  | [], s, st => .ok (s, st)
  | o :: os, s, st => do
    let p ← deref o
    let (w, st) ← loadMat io (s p).base.W st
    loadHidden io os (s.put p ((s p).setw w)) st

/-- `NeuralNet::load(path)`, neuralnet.cpp:126-152. -/
def load (io : TextIO) (s : Store) (n : PNet) (path : String) (fs : Files) : Res (Store × PNet) :=
  match fs path with
  | none => .ok (s, n)
  | some text => do
    let (s, st) ← loadHidden io n.hidden s ⟨text, true⟩
    let (w, _) ← loadMat io n.net.output.W st
    .ok (s, ⟨{ n.net with output := { n.net.output with toLayer := n.net.output.toLayer.setw w } }, n.hidden⟩)

end PNet
end
end Nnet.NN
