import Verif.NN.PropsTurn
import Verif.NN.PropsUnseenEx
/-!
# The hypotheses of C112 are met
-/
namespace Nnet.NN
open Finset
noncomputable section
namespace Witness

/-- A rotation of the plane, by an angle with cosine 3/5. -/
def rot : Nat → Nat → ℝ := fun i j => if i = 0 then (if j = 0 then 3 / 5 else 4 / 5) else (if j = 0 then -4 / 5 else 3 / 5)

theorem rot_orth : Spec.Orth 2 rot := by
  intro l hl k hk
  simp only [sum_range_succ, sum_range_zero]
  have : l = 0 ∨ l = 1 := by omega
  have : k = 0 ∨ k = 1 := by omega
  rcases ‹l = 0 ∨ l = 1› with rfl | rfl <;> rcases ‹k = 0 ∨ k = 1› with rfl | rfl <;> norm_num [rot]

/-- Signs that negate unit 1. -/
def sgn : Nat → ℝ := fun j => if j = 1 then -1 else 1

/-- A store with one layer of two inputs and three units. -/
def turnStore (f : ActFunc ℝ) (W : Mat ℝ) : Store := fun _ => ⟨exLayer f W, .dense⟩
/-- A 2-3-2 network with the given output activation and weights, and cost. -/
def turnNet (f : ActFunc ℝ) (cost : MatFunc) (costd : MatFuncD) (W : Mat ℝ) : Net :=
  { exNetWith f cost costd with output := { (exNetWith f cost costd).output with toLayer := exLayer f W } }

theorem turnNet_wf (f g : ActFunc ℝ) (cost : MatFunc) (costd : MatFuncD) (V W : Mat ℝ) (h1 : V.nr = 3) (h2 : V.nc = 3) (h3 : W.nr = 4) (h4 : W.nc = 2) : (turnNet f cost costd W).WF (turnStore g V) 2 2 := by
  refine ⟨by simp [turnNet, exNetWith, exNet], fun _ _ => rfl, by omega, ?_⟩
  simp [Net.layers, Net.hiddenLayers, turnNet, exNetWith, exNet, turnStore, exLayer, Spec.Fits, h1, h2, h3, h4]

/-- First and second layer's weights. -/
def turnV : Mat ℝ := Mat.of 3 3 (fun i j => (i : ℝ) - j)
/-- First and second layer's weights. -/
def turnU : Mat ℝ := Mat.of 4 2 (fun i j => (i : ℝ) + j)

/-- The features rotated, for a network of sigmoid units with softmax output. -/
example (junk junk' : Nat → Nat → ℝ) := C112_features (junk := junk) (junk' := junk') (p := 2) (q := 2) (A := rot) (bs := [(exX, exProb), (exX, exY)])
  (s := turnStore Act.sigmoid turnV) (s' := turnStore Act.sigmoid (Spec.turnW rot Spec.same turnV)) (n := turnNet Act.identity Softmax.cost Softmax.costd turnU)
  (n' := turnNet Act.identity Softmax.cost Softmax.costd turnU) (W := turnV) (rest := [(exLayer Act.identity turnU).core])
  (turnNet_wf _ _ _ _ _ _ rfl rfl rfl rfl) (turnNet_wf _ _ _ _ _ _ rfl rfl rfl rfl) rot_orth rfl rfl rfl C54_costs.2.2.1 (two_fit rfl rfl)

/-- Unit 1 of a layer of hyperbolic tangents negated. -/
example (junk junk' : Nat → Nat → ℝ) := C112_signs (junk := junk) (junk' := junk') (p := 2) (q := 2) (τs := [sgn]) (bs := [(exX, exProb), (exX, exY)])
  (s := turnStore Act.tanhyperbolic turnV) (s' := turnStore Act.tanhyperbolic (Spec.flip (fun _ => 1) sgn turnV)) (n := turnNet Act.identity Softmax.cost Softmax.costd turnU)
  (n' := turnNet Act.identity Softmax.cost Softmax.costd (Spec.flip sgn (fun _ => 1) turnU))
  (turnNet_wf _ _ _ _ _ _ rfl rfl rfl rfl) (turnNet_wf _ _ _ _ _ _ rfl rfl rfl rfl)
  (.cons (Or.inr ⟨C112_odd.1.2.2.1, fun j _ => by unfold sgn; by_cases h : j = 1 <;> simp [h]⟩) .nil) rfl rfl C54_costs.2.2.1 (two_fit rfl rfl)

/-- Features and labels rotated, and unit 1 of the hidden layer negated, for a quadratic network. -/
example (junk junk' : Nat → Nat → ℝ) := C112_transformed (junk := junk) (junk' := junk') (p := 2) (q := 2) (A := rot) (K := rot) (Bs := [Spec.mirror sgn]) (bs := [(exX, exProb), (exX, exY)])
  (s := turnStore Act.tanhyperbolic turnV) (s' := turnStore Act.tanhyperbolic (Spec.turnW rot (Spec.mirror sgn) turnV)) (n := turnNet Act.identity Quadratic.cost Quadratic.costd turnU)
  (n' := turnNet Act.identity Quadratic.cost Quadratic.costd (Spec.turnW (Spec.mirror sgn) rot turnU))
  (turnNet_wf _ _ _ _ _ _ rfl rfl rfl rfl) (turnNet_wf _ _ _ _ _ _ rfl rfl rfl rfl) rot_orth rot_orth
  (.cons ⟨mirror_orth fun j _ => by unfold sgn; by_cases h : j = 1 <;> simp [h], odd_turns C112_odd.1.2.2.1 fun j _ => by unfold sgn; by_cases h : j = 1 <;> simp [h]⟩ .nil)
  rfl rfl C54_costs.1 (C112_linear 2 rot).1 (C112_linear 2 rot).2.2 (two_fit rfl rfl)

end Witness
end
end Nnet.NN
