import Verif.NN.PropsOffset
import Verif.NN.WitnessNet
/-!
# The hypotheses of C109 are met
-/
namespace Nnet.NN
open Finset
noncomputable section
namespace Witness

/-- The 2-3-2 network with a softmax output. -/
def softNet : Net := exNetWith Act.identity Softmax.cost Softmax.costd

/-- The same network with `10 + i` added to row `i` of the output weights. -/
def softNet' : Net := { softNet with output := { softNet.output with toLayer := { softNet.output.toLayer with W := Mat.of 4 2 (fun i j => (i : ℝ) + j + (10 + i)) } } }

theorem softNet_wf : softNet.WF exStore 2 2 := exNetWith_wf Act.identity Softmax.cost Softmax.costd
theorem softNet'_wf : softNet'.WF exStore 2 2 := by
  refine ⟨by simp [softNet', softNet, exNetWith, exNet], fun _ _ => rfl, by omega, ?_⟩
  simp [Net.layers, Net.hiddenLayers, softNet', softNet, exNetWith, exNet, exStore, exLayer, Spec.Fits]

theorem soft_offset : Spec.Offset (fun i => 10 + (i : ℝ)) softNet.output.W softNet'.output.W := by
  refine ⟨rfl, rfl, fun i hi j hj => ?_⟩
  replace hi : i < 4 := hi
  replace hj : j < 2 := hj
  show (Mat.of 4 2 (fun i j => (i : ℝ) + j + (10 + i))).f i j = (Mat.of 4 2 (fun i j => (i : ℝ) + j)).f i j + _
  rw [Mat.of_f' hi hj, Mat.of_f' hi hj]

example (junk junk' : Nat → Nat → ℝ) := C109_offset (junk := junk) (junk' := junk') (bs := [(exX, exProb), (exX, exProb)]) softNet_wf softNet'_wf
  (hs := (softNet.hiddenLayers exStore).map Layer.core) (lr := softNet.output.lrate) (la := softNet.output.lambda) (f := Act.identity) (W := softNet.output.W) (W' := softNet'.output.W) rfl rfl soft_offset
  (fun _ => rfl) rfl rfl rfl rfl (by intro b hb; simp only [List.mem_cons, List.not_mem_nil, or_false, or_self] at hb; subst hb; exact ⟨by show 0 < 5; omega, rfl, rfl, rfl⟩)
  (by intro b hb; simp only [List.mem_cons, List.not_mem_nil, or_false, or_self] at hb; subst hb; exact exProb_sum)

example (junk : Nat → Nat → ℝ) := C109_sums (junk := junk) (bs := [(exX, exProb), (exX, exProb)]) softNet_wf
  (hs := (softNet.hiddenLayers exStore).map Layer.core) (lr := softNet.output.lrate) (la := softNet.output.lambda) (f := Act.identity) (W := softNet.output.W) rfl
  (fun _ => rfl) rfl (by intro b hb; simp only [List.mem_cons, List.not_mem_nil, or_false, or_self] at hb; subst hb; exact ⟨by show 0 < 5; omega, rfl, rfl, rfl⟩)
  (by intro b hb; simp only [List.mem_cons, List.not_mem_nil, or_false, or_self] at hb; subst hb; exact exProb_sum)

example (junk : Nat → Nat → ℝ) := C109_labels (junk := junk) (n := { softNet with output := { softNet.output with lambda := 0 } }) (s := exStore) (p := 2) (q := 2)
  (hs := (softNet.hiddenLayers exStore).map Layer.core) (lr := softNet.output.lrate) (f := Act.identity) (W := softNet.output.W) (x := exX) (y := exY)
  ⟨softNet_wf.nodup, softNet_wf.dense, softNet_wf.pos, softNet_wf.fits⟩ rfl rfl (by show 0 < 5; omega) rfl rfl rfl

end Witness
end
end Nnet.NN
