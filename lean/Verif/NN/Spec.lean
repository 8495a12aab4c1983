import Verif.NN.Net
/-!
# Specification of dense networks

Written without reference to the model's functions: only matrices, layers' weights and activations.
-/
namespace Nnet.NN
open Finset
noncomputable section
namespace Spec

/-- Pre-activations of a dense layer with weights `W` (row 0 holds the biases) for the samples in the rows of `x`. -/
def pre (W x : Mat ℝ) : Mat ℝ := Mat.of x.nr W.nc (fun i j => W.f 0 j + ∑ k ∈ range x.nc, x.f i k * W.f (k + 1) j)

/-- Output of a dense layer. -/
def dense (act : ℝ → ℝ) (W x : Mat ℝ) : Mat ℝ :=
  Mat.of x.nr W.nc (fun i j => act (W.f 0 j + ∑ k ∈ range x.nc, x.f i k * W.f (k + 1) j))

/-- Output of a stack of dense layers, first layer first. -/
def denseNet : List ((ℝ → ℝ) × Mat ℝ) → Mat ℝ → Mat ℝ
  | [], x => x
  | (act, W) :: ls, x => denseNet ls (dense act W x)

/-- The weight matrices lead from `p` inputs to `q` outputs: each has one row for the bias and one for each of its inputs, and at least
one column. -/
def Fits : Nat → List (Mat ℝ) → Nat → Prop
  | p, [], q => p = q
  | p, W :: Ws, q => W.nr = p + 1 ∧ 0 < W.nc ∧ Fits W.nc Ws q

end Spec

/-- The hidden layers of a network, first layer first. -/
def Net.hiddenLayers (s : Store) (n : Net) : List Layer := n.hidden.map (fun p => (s p).base)

/-- All layers of a network with weights, first layer first. -/
def Net.layers (s : Store) (n : Net) : List Layer := n.hiddenLayers s ++ [n.output.toLayer]

/-- A network all of whose hidden layers are plain dense layers, no layer object used twice, whose weights lead from `p ≥ 1` inputs to `q`
outputs. -/
structure Net.WF (s : Store) (n : Net) (p q : Nat) : Prop where
  nodup : n.hidden.Nodup
  dense : ∀ id ∈ n.hidden, (s id).kind = .dense
  pos : 0 < p
  fits : Spec.Fits p ((n.layers s).map (·.W)) q

/-- Row `i` of a matrix as a one-row matrix. -/
def Mat.rowMat {R : Type} [Zero R] (m : Mat R) (i : Nat) : Mat R := Mat.of 1 m.nc (fun _ j => m.f i j)

end
end Nnet.NN
