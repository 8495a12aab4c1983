import Verif.NN.PropsAssign
import Verif.NN.Trainer
/-!
# Several threads that use networks

src/ uses OpenMP inside convolution and pooling only (Par.lean), but a program may call networks from threads of its own; no function of src/ takes a lock. Here the functions of src/layer/layer.cpp, inputlayer.cpp,
outputlayer.cpp and src/neuralnet.cpp are once more sequences of statements, and the statements of several threads interleave in any order.

Simplifications: a statement (reading members, computing one matrix, writing one member) is not interrupted by other threads. In C++ a statement that writes a member while another thread reads or writes it is a data race,
which is undefined behaviour, so what the model shows to go wrong goes wrong in C++, and threads without common members are not affected. A call of a layer that is not plain dense is one statement. Not modelled
here: `save` and `load` in threads.
-/
namespace Nnet.NN
noncomputable section

/-- A thread that works on shared memory of type `σ` and delivers an `α`: it has ended, it has ended by an exception, or its next statement computes a value from the memory, writes, and goes on as the value tells. -/
inductive Conc (σ α : Type) : Type 1 where
  | ret (a : α)
  | fail (e : Stop)
  | step (β : Type) (r : σ → Res β) (w : β → σ → σ) (k : β → Conc σ α)

namespace Conc
variable {σ τ α β : Type}

/-- `m` and then, unless it throws, `f`. -/
def bind : Conc σ α → (α → Conc σ β) → Conc σ β
  | .ret a, f => f a
  | .fail e, _ => .fail e
  | .step γ r w k, f => .step γ r w (fun b => (k b).bind f)

instance : Monad (Conc σ) where
  pure := ret
  bind := bind

/-- One statement. -/
def op (r : σ → Res α) (w : α → σ → σ) : Conc σ α := .step α r w ret

/-- `member = expression;` -/
def assign (set : Mat ℝ → σ → σ) (e : σ → Res (Mat ℝ)) : Conc σ Unit := .step (Mat ℝ) e set (fun _ => ret ())

/-- A temporary value. -/
def eval (e : σ → Res α) : Conc σ α := op e (fun _ s => s)

/-- Reading members. -/
def get (f : σ → α) : Conc σ α := eval (fun s => .ok (f s))

/-- A call for a part of the memory. -/
def on (get : σ → τ) (put : τ → σ → σ) : Conc τ α → Conc σ α
  | .ret a => .ret a
  | .fail e => .fail e
  | .step γ r w k => .step γ (fun s => r (get s)) (fun b s => put (w b (get s)) s) (fun b => (k b).on get put)

/-- One turn of a thread; a thread that has ended does nothing. -/
def tick : Conc σ α → σ → Conc σ α × σ
  | .ret a, s => (.ret a, s)
  | .fail e, s => (.fail e, s)
  | .step _ r w k, s => match r s with
    | .ok b => (k b, w b s)
    | .error e => (.fail e, s)

/-- Threads with names in `ι` take turns as the list says. -/
def interleave {ι : Type} [DecidableEq ι] : List ι → (ι → Conc σ α) → σ → (ι → Conc σ α) × σ
  | [], ts, s => (ts, s)
  | i :: is, ts, s => interleave is (Function.update ts i ((ts i).tick s).1) ((ts i).tick s).2

end Conc

namespace Layer

/-- `Layer::forwardprop(pa)`, layer.cpp:76-82. -/
def forwardpropT (pa : Mat ℝ) : Conc Layer (Mat ℝ) := do
  Conc.assign (fun m L => { L with pa := m }) (fun _ => addcol pa)
  Conc.assign (fun m L => { L with z := m }) (fun L => L.pa.mul L.W)
  Conc.assign (fun m L => { L with a := m }) (fun L => .ok (funcop L.z L.actfunc.act))
  Conc.eval (fun L => .ok L.a)

/-- `Layer::backprop(d)`, layer.cpp:84-93. -/
def backpropT (d : Mat ℝ) : Conc Layer (Mat ℝ) := do
  Conc.assign (fun m L => { L with delta := m }) (fun L => d.schur (funcop L.z L.actfunc.actd))
  Conc.assign (fun m L => { L with grad := m }) (fun L => L.pa.tr.mul L.delta)
  Conc.assign (fun m L => { L with grad := m }) (fun L => L.grad.add (L.W.smul L.lambda))
  let p ← Conc.eval (fun L => L.delta.mul L.W.tr)
  Conc.eval (fun L => p.submat 0 1 ((L.delta.nr : Int) - 1) ((L.W.nr : Int) - 1))

/-- `Layer::update()`, layer.cpp:95-97. -/
def updateT : Conc Layer Unit := Conc.assign (fun m L => { L with W := m }) (fun L => L.W.sub (L.grad.smul L.lrate))

/-- `Layer::update(grad)`, layer.cpp:99-101. -/
def updateWithT (g : Mat ℝ) : Conc Layer Unit := Conc.assign (fun m L => { L with W := m }) (fun L => L.W.sub (g.smul L.lrate))

end Layer

/-- `InputLayer::forwardprop(input)`, inputlayer.cpp:24-28. -/
def InputLayer.forwardpropT (input : Mat ℝ) : Conc Layer (Mat ℝ) := do
  Conc.assign (fun m L => { L with z := m }) (fun _ => .ok input)
  Conc.assign (fun m L => { L with a := m }) (fun _ => .ok input)
  Conc.eval (fun L => .ok L.a)

/-- The members an `OutputLayer` inherits from `Layer`. -/
def OutputLayer.baseT {α : Type} (m : Conc Layer α) : Conc OutputLayer α := Conc.on OutputLayer.toLayer (fun L o => { o with toLayer := L }) m

/-- `OutputLayer::backprop(label)`, outputlayer.cpp:45-55. -/
def OutputLayer.backpropT (label : Mat ℝ) : Conc OutputLayer (Mat ℝ) := do
  Conc.assign (fun m o => { o with y := m }) (fun _ => .ok label)
  Conc.assign (fun m o => { o with delta := m }) (fun o => o.costd o.y o.a o.z)
  Conc.assign (fun m o => { o with grad := m }) (fun o => o.pa.tr.mul o.delta)
  Conc.assign (fun m o => { o with grad := m }) (fun o => o.grad.add (o.W.smul o.lambda))
  let newdelta ← Conc.eval (fun o => o.delta.mul o.W.tr)
  Conc.eval (fun _ => newdelta.shedCol0)

namespace HLayer

/-- A call for a plain dense layer. -/
def denseT {α : Type} (m : Conc Layer α) : Conc HLayer α := Conc.on HLayer.base (fun L h => { h with base := L }) m

/-- A call for another layer, as one statement. -/
def otherT {α : Type} (f : HLayer → Res (α × HLayer)) : Conc HLayer α := do
  let r ← Conc.op f (fun r _ => r.2)
  Conc.ret r.1

/-- Virtual `forwardprop`, layer.h:37. -/
def forwardpropT (junk : Nat → Nat → ℝ) (pa : Mat ℝ) : Conc HLayer (Mat ℝ) := do
  let k ← Conc.get HLayer.kind
  match k with
  | .dense => denseT (Layer.forwardpropT pa)
  | _ => otherT (fun h => h.forwardprop junk pa)

/-- Virtual `backprop`, layer.h:38. -/
def backpropT (junk : Nat → Nat → ℝ) (d : Mat ℝ) : Conc HLayer (Mat ℝ) := do
  let k ← Conc.get HLayer.kind
  match k with
  | .dense => denseT (Layer.backpropT d)
  | _ => otherT (fun h => h.backprop junk d)

/-- Virtual `update()`, layer.h:39. -/
def updateT : Conc HLayer Unit := do
  let k ← Conc.get HLayer.kind
  match k with
  | .dense => denseT Layer.updateT
  | _ => otherT (fun h => do let h ← h.update; .ok ((), h))

/-- Virtual `update(grad)`, layer.h:40. -/
def updateWithT (g : Mat ℝ) : Conc HLayer Unit := do
  let k ← Conc.get HLayer.kind
  match k with
  | .dense => denseT (Layer.updateWithT g)
  | _ => otherT (fun h => do let h ← h.updateWith g; .ok ((), h))

end HLayer

namespace NetThread

/-- `hidden[i]->...`, where `p` is the pointer. -/
def onHidden {α : Type} (p : Nat) (m : Conc HLayer α) : Conc World α := Conc.on (fun w => w.store p) (fun h w => { w with store := w.store.put p h }) m

/-- A call for the members of network `q`. -/
def onNet {α : Type} (q : Nat) (m : Conc Net α) : Conc World α := Conc.on (fun w => w.nets q) (fun n w => { w with nets := fun j => if j = q then n else w.nets j }) m

/-- `output....` -/
def onOutput {α : Type} (m : Conc OutputLayer α) : Conc Net α := Conc.on Net.output (fun o n => { n with output := o }) m

/-- `input....` -/
def onInput {α : Type} (m : Conc Layer α) : Conc Net α := Conc.on Net.input (fun L n => { n with input := L }) m

/-- Loop of neuralnet.cpp:35-38. -/
def hiddenForward (junk : Nat → Nat → ℝ) : List Nat → Mat ℝ → Conc World (Mat ℝ)
  | [], current => Conc.ret current
  | p :: ps, current => do
    let n ← onHidden p (HLayer.forwardpropT junk current)
    hiddenForward junk ps n

/-- `NeuralNet::forwardprop(x)`, neuralnet.cpp:33-41. -/
def forwardprop (junk : Nat → Nat → ℝ) (q : Nat) (x : Mat ℝ) : Conc World (Mat ℝ) := do
  let current ← onNet q (onInput (InputLayer.forwardpropT x))
  let hidden ← onNet q (Conc.get Net.hidden)
  let current ← hiddenForward junk hidden current
  let r ← onNet q (onOutput (OutputLayer.baseT (Layer.forwardpropT current)))
  onNet q (Conc.assign (fun m n => { n with result := m }) (fun _ => .ok r))
  onNet q (Conc.get Net.result)

/-- Loop of neuralnet.cpp:45-48 over the hidden layers from last to first. -/
def hiddenBackward (junk : Nat → Nat → ℝ) : List Nat → Mat ℝ → Conc World Unit
  | [], _ => Conc.ret ()
  | p :: ps, currentdelta => do
    let d ← onHidden p (HLayer.backpropT junk currentdelta)
    hiddenBackward junk ps d

/-- `NeuralNet::backprop(y)`, neuralnet.cpp:43-49. -/
def backprop (junk : Nat → Nat → ℝ) (q : Nat) (y : Mat ℝ) : Conc World Unit := do
  let d ← onNet q (onOutput (OutputLayer.backpropT y))
  let hidden ← onNet q (Conc.get Net.hidden)
  hiddenBackward junk hidden.reverse d

/-- Loop of neuralnet.cpp:53-55. -/
def hiddenUpdate : List Nat → Conc World Unit
  | [] => Conc.ret ()
  | p :: ps => do
    onHidden p HLayer.updateT
    hiddenUpdate ps

/-- `NeuralNet::update()`, neuralnet.cpp:51-56. -/
def update (q : Nat) : Conc World Unit := do
  onNet q (onOutput (OutputLayer.baseT Layer.updateT))
  let hidden ← onNet q (Conc.get Net.hidden)
  hiddenUpdate hidden

/-- Loop of neuralnet.cpp:60-62. -/
def hiddenUpdateWith : List Nat → List (Mat ℝ) → Conc World Unit
  | [], _ => Conc.ret ()
  | _ :: _, [] => Conc.fail (.ub .vectorIndex)
  | p :: ps, g :: gs => do
    onHidden p (HLayer.updateWithT g)
    hiddenUpdateWith ps gs

/-- `NeuralNet::update(ograd, hgrad)`, neuralnet.cpp:58-63. -/
def updateWith (q : Nat) (ograd : Mat ℝ) (hgrad : List (Mat ℝ)) : Conc World Unit := do
  onNet q (onOutput (OutputLayer.baseT (Layer.updateWithT ograd)))
  let hidden ← onNet q (Conc.get Net.hidden)
  hiddenUpdateWith hidden hgrad

/-- `NeuralNet::predict(sample)`, neuralnet.cpp:65-70. -/
def predict (junk : Nat → Nat → ℝ) (q : Nat) (sample : Mat ℝ) : Conc World (Mat ℝ) := do
  let r ← forwardprop junk q sample
  onNet q (Conc.assign (fun m n => { n with result := m }) (fun _ => .ok r))
  onNet q (Conc.eval (fun n => n.output.argmax))

/-- Loop of neuralnet.cpp:79-80. -/
def hiddenSetlrate (r : ℝ) : List Nat → Conc World Unit
  | [] => Conc.ret ()
  | p :: ps => do
    onHidden p (Conc.op (fun _ => .ok ()) (fun _ h => h.setlrate r))
    hiddenSetlrate r ps

/-- `NeuralNet::setlrate(lrate)`, neuralnet.cpp:77-82. -/
def setlrate (q : Nat) (r : ℝ) : Conc World Unit := do
  onNet q (onInput (Conc.op (fun _ => .ok ()) (fun _ L => L.setlrate r)))
  let hidden ← onNet q (Conc.get Net.hidden)
  hiddenSetlrate r hidden
  onNet q (onOutput (OutputLayer.baseT (Conc.op (fun _ => .ok ()) (fun _ L => L.setlrate r))))

/-- Calls a thread makes (public member functions of `NeuralNet`, neuralnet.h:25-44). -/
inductive Call where
  | forwardprop (x : Mat ℝ)
  | predict (sample : Mat ℝ)
  | backprop (y : Mat ℝ)
  | update
  | updateWith (ograd : Mat ℝ) (hgrad : List (Mat ℝ))
  | computecost (pred y : Mat ℝ)
  | getresult
  | setlrate (r : ℝ)
  | setoutputw (w : Mat ℝ)

/-- The statements of a call for network `q`. -/
def Call.body (junk : Nat → Nat → ℝ) (q : Nat) : Call → Conc World Spec.Returned
  | .forwardprop x => do let r ← NetThread.forwardprop junk q x; Conc.ret (.matrix r)
  | .predict x => do let r ← NetThread.predict junk q x; Conc.ret (.matrix r)
  | .backprop y => do NetThread.backprop junk q y; Conc.ret .nothing
  | .update => do NetThread.update q; Conc.ret .nothing
  | .updateWith og hg => do NetThread.updateWith q og hg; Conc.ret .nothing
  | .computecost p y => do let c ← onNet q (Conc.eval (fun n => n.computecost p y)); Conc.ret (.number c)
  | .getresult => do let m ← onNet q (Conc.get Net.getresult); Conc.ret (.matrix m)
  | .setlrate r => do NetThread.setlrate q r; Conc.ret .nothing
  | .setoutputw v => do onNet q (Conc.op (fun _ => .ok ()) (fun _ n => n.setoutputw v)); Conc.ret .nothing

/-- The calls of a thread one after the other: the values they return. -/
def prog (junk : Nat → Nat → ℝ) (q : Nat) : List Call → Conc World (List Spec.Returned)
  | [] => Conc.ret []
  | c :: cs => do
    let r ← c.body junk q
    let rs ← prog junk q cs
    Conc.ret (r :: rs)

end NetThread
end
end Nnet.NN
