import Verif.NN.Binary64Ieee
import Verif.NN.FloatReal
import Verif.NN.PropsPar
/-!
# Estimates of rounding errors

An estimate `e` of a `double` and the real number it stands for bounds the absolute value of both (`e.B`) and their difference (`e.E`). The functions here say how an estimate passes through each
operation; `u` is half a unit in the last place relative to 1, `2 ^ -53`. `LayerEst`, `NetEst` say how it passes through a layer and a training step. They contain no code of the library: they are the explicit error bounds that the theorems C77 and C78 are about.
-/
namespace Nnet.NN.Flt.Spec
open FV B64
noncomputable section

/-- The smallest positive `double`, `2 ^ -1074`. -/
def tiny : ℝ := 2 ^ (-1074 : ℤ)

/-- A bound on absolute values and a bound on the error. -/
structure Est where
  B : ℝ
  E : ℝ

/-- The `double` `x` is a number, `e.B` bounds it and the exact number `r`, and they differ by at most `e.E`. -/
def App {P : Platform} (e : Est) (x : Double P) (r : ℝ) : Prop := ∃ q, x.v = fin q ∧ |q| ≤ e.B ∧ |r| ≤ e.B ∧ |q - r| ≤ e.E

/-- The same for all elements of two matrices of the same size. -/
structure MApp {P : Platform} (e : Est) (a : Mat (Double P)) (b : Mat ℝ) : Prop where
  nr : a.nr = b.nr
  nc : a.nc = b.nc
  pos : 0 ≤ e.B ∧ 0 ≤ e.E
  app : ∀ i j, i < b.nr → j < b.nc → App e (a.f i j) (b.f i j)

namespace Est

/-- Estimate of `x * y`. -/
def mul (a b : Est) : Est := ⟨2 * (a.B * b.B), a.B * b.E + b.B * a.E + u * (a.B * b.B) + tiny⟩
/-- Estimate of `x + y` and `x - y`. -/
def add (a b : Est) : Est := ⟨2 * (a.B + b.B), a.E + b.E + u * (a.B + b.B)⟩
/-- Estimate of `x / n` for an integer `n` from 1 to `2 ^ 53`. -/
def divn (a : Est) : Est := ⟨2 * a.B, a.E + u * a.B + tiny⟩
/-- Estimate of an inner product of at most `n` products. -/
def dot (n : ℝ) (a b : Est) : Est := ⟨4 * (n * (a.B * b.B)), n * (a.B * b.E + b.B * a.E) + 2 * n * u * (n * (a.B * b.B)) + 2 * n * tiny⟩
/-- Estimate of a value or 1. -/
def one (a : Est) : Est := ⟨max 1 a.B, a.E⟩

end Est

/-- For arguments with an estimate that is `ok`, `f` computes `g` with the estimate `φ`. -/
def Computes {P : Platform} (ok : Est → Prop) (φ : Est → Est) (f : Double P → Double P) (g : ℝ → ℝ) : Prop := ∀ e x r, ok e → App e x r → App (φ e) (f x) (g r)

/-- The derivative of a cost for labels and outputs of fewer than `2 ^ 50` rows with estimates that are `ok` is computed with the estimate `ψ`, and fails if and only if it fails exactly. -/
def ComputesCost {P : Platform} (ok : Est → Est → Prop) (ψ : Est → Est → Est) (f : MatFuncD (Double P)) (g : MatFuncD ℝ) : Prop :=
  ∀ y a (Y A Z : Mat (Double P)) (Y' A' Z' : Mat ℝ), ok y a → (Y'.nr : ℝ) < 2 ^ 50 → MApp y Y Y' → MApp a A A' → RelRes (MApp (ψ y a)) (f Y A Z) (g Y' A' Z')

/-- Estimates for a layer: the number of its inputs (with the bias) and of its units is at most `N`. -/
structure LayerEst where
  N : ℝ
  W : Est
  lrate : Est
  lambda : Est
  act : Est → Est
  actd : Est → Est
  actOk : Est → Prop
  actdOk : Est → Prop

namespace LayerEst

/-- Estimate of the pre-activations for inputs with the estimate `x`. -/
def z (l : LayerEst) (x : Est) : Est := Est.dot l.N x.one l.W
/-- Estimate of the activations. -/
def a (l : LayerEst) (x : Est) : Est := l.act (l.z x)
/-- No overflow in the forward pass. -/
def Fits (l : LayerEst) (x : Est) : Prop := l.N < 2 ^ 50 ∧ l.N * (x.one.B * l.W.B) ≤ sumMax ∧ l.actOk (l.z x)

/-- Estimate of what `backprop` multiplies by the inputs, for inputs with the estimate `x` and an argument with the estimate `d`. -/
def delta (l : LayerEst) (x d : Est) : Est := d.mul (l.actd (l.z x))
/-- Estimate of the gradient, for `R` rows. -/
def grad (l : LayerEst) (R : ℝ) (x δ : Est) : Est := (Est.dot R x.one δ).add (l.lambda.mul l.W)
/-- Estimate of what `backprop` returns. -/
def passed (l : LayerEst) (δ : Est) : Est := Est.dot l.N δ l.W
/-- Estimate of the weights after `update`. -/
def updated (l : LayerEst) (g : Est) : LayerEst := { l with W := l.W.add (l.lrate.mul g) }

/-- No overflow in computing the gradient, what is passed on and the new weights. -/
structure GradFits (l : LayerEst) (R : ℝ) (x δ : Est) : Prop where
  inputs : R * (x.one.B * δ.B) ≤ sumMax
  decay : l.lambda.B * l.W.B ≤ large
  grad : (Est.dot R x.one δ).B + (l.lambda.mul l.W).B ≤ large
  passed : l.N * (δ.B * l.W.B) ≤ sumMax
  step : l.lrate.B * (l.grad R x δ).B ≤ large
  weights : l.W.B + (l.lrate.mul (l.grad R x δ)).B ≤ large

end LayerEst

/-- Estimate of what the hidden layers pass on. -/
def forward : List LayerEst → Est → Est
  | [], x => x
  | l :: ls, x => forward ls (l.a x)

/-- No overflow in the hidden layers. -/
def ForwardFits : List LayerEst → Est → Prop
  | [], _ => True
  | l :: ls, x => l.Fits x ∧ ForwardFits ls (l.a x)

/-- Estimate of what the hidden layers pass back, for inputs with the estimate `x`. -/
def backward : List LayerEst → Est → Est → Est
  | [], _, d => d
  | l :: ls, x, d => l.passed (l.delta x (backward ls (l.a x) d))

/-- Estimates of the hidden layers after the update. -/
def trained (R : ℝ) : List LayerEst → Est → Est → List LayerEst
  | [], _, _ => []
  | l :: ls, x, d => l.updated (l.grad R x (l.delta x (backward ls (l.a x) d))) :: trained R ls (l.a x) d

/-- No overflow in the hidden layers in the backward pass and the update. -/
def BackwardFits (R : ℝ) : List LayerEst → Est → Est → Prop
  | [], _, _ => True
  | l :: ls, x, d => BackwardFits R ls (l.a x) d ∧ l.actdOk (l.z x) ∧ (backward ls (l.a x) d).B * (l.actd (l.z x)).B ≤ large ∧ l.GradFits R x (l.delta x (backward ls (l.a x) d))

/-- The weights of two layers have the estimate `l`, and the activation functions compute each other. -/
structure LApp {P : Platform} (l : LayerEst) (L : Layer (Double P)) (R : Layer ℝ) : Prop where
  W : MApp l.W L.W R.W
  inputs : (R.W.nr : ℝ) ≤ l.N
  units : (R.W.nc : ℝ) ≤ l.N
  act : Computes l.actOk l.act L.actfunc.act R.actfunc.act
  actd : Computes l.actdOk l.actd L.actfunc.actd R.actfunc.actd
  lrate : App l.lrate L.lrate R.lrate
  lambda : App l.lambda L.lambda R.lambda

/-- The hidden layers have the estimates `ls`. -/
inductive HApp {P : Platform} : List LayerEst → List (Layer (Double P)) → List (Layer ℝ) → Prop
  | nil : HApp [] [] []
  | cons {l L R ls Ls Rs} : LApp l L R → HApp ls Ls Rs → HApp (l :: ls) (L :: Ls) (R :: Rs)

/-- Estimates for a network. -/
structure NetEst where
  hidden : List LayerEst
  output : LayerEst
  costd : Est → Est → Est
  costdOk : Est → Est → Prop

/-- The network `n` of `double`s approximates the real network `m`. -/
structure NApp {P : Platform} (e : NetEst) (n : Net (Double P)) (m : Net ℝ) : Prop where
  hidden : HApp e.hidden n.hidden m.hidden
  output : LApp e.output n.output.toLayer m.output.toLayer
  costd : ComputesCost e.costdOk e.costd n.output.costd m.output.costd

namespace NetEst

/-- Estimate of the inputs of the output layer. -/
def last (e : NetEst) (x : Est) : Est := forward e.hidden x
/-- Estimate of the outputs. -/
def out (e : NetEst) (x : Est) : Est := e.output.a (e.last x)
/-- No overflow in the forward pass. -/
def Fits (e : NetEst) (x : Est) : Prop := ForwardFits e.hidden x ∧ e.output.Fits (e.last x)

/-- Estimate of the derivative of the cost. -/
def delta (e : NetEst) (x y : Est) : Est := e.costd y (e.out x)
/-- Estimates after a training step with `R` samples. -/
def trained (e : NetEst) (R : ℝ) (x y : Est) : NetEst :=
  { e with
    hidden := Spec.trained R e.hidden x (e.output.passed (e.delta x y))
    output := e.output.updated (e.output.grad R (e.last x) (e.delta x y)) }
/-- No overflow in a training step with `R` samples. -/
structure TrainFits (e : NetEst) (R : ℝ) (x y : Est) : Prop where
  rows : R < 2 ^ 50
  forward : e.Fits x
  cost : e.costdOk y (e.out x)
  output : e.output.GradFits R (e.last x) (e.delta x y)
  hidden : BackwardFits R e.hidden x (e.output.passed (e.delta x y))

/-- The estimates if no exact weight exceeds `M` in absolute value. -/
def clip (e : NetEst) (M : ℝ) : NetEst :=
  { e with
    hidden := e.hidden.map fun l => { l with W := ⟨M + l.W.E, l.W.E⟩ }
    output := { e.output with W := ⟨M + e.output.W.E, e.output.W.E⟩ } }
/-- Estimates after `k` training steps, if no exact weight exceeds `M` at any time: only the errors accumulate. -/
def afterClip (e : NetEst) (M R : ℝ) (x y : Est) : ℕ → NetEst
  | 0 => e.clip M
  | k + 1 => ((e.afterClip M R x y k).trained R x y).clip M

/-- Estimates after `k` training steps. -/
def after (e : NetEst) (R : ℝ) (x y : Est) : ℕ → NetEst
  | 0 => e
  | k + 1 => (e.after R x y k).trained R x y

end NetEst

/-- No weight of the network exceeds `M` in absolute value. -/
structure WeightsUpTo (M : ℝ) (m : Net ℝ) : Prop where
  pos : 0 ≤ M
  hidden : ∀ R ∈ m.hidden, ∀ i j, i < R.W.nr → j < R.W.nc → |R.W.f i j| ≤ M
  output : ∀ i j, i < m.output.W.nr → j < m.output.W.nc → |m.output.W.f i j| ≤ M

/-- Training on a sequence of batches, one after the other. -/
def trainAll {F : Type} [Arith F] (n : Net F) : List (Mat F × Mat F) → Res (Net F)
  | [] => .ok n
  | b :: bs => do
    let n ← n.trainOn b.1 b.2
    trainAll n bs

end
end Nnet.NN.Flt.Spec
