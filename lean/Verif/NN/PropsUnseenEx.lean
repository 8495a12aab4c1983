import Verif.NN.PropsUnseen
import Verif.NN.PropsOffsetEx
import Verif.NN.PropsSafe
/-!
# The hypotheses of C111 are met
-/
namespace Nnet.NN
open Finset
noncomputable section
namespace Witness

/-- Five samples whose second feature is zero. -/
def unusedX : Mat ℝ := Mat.of 5 2 (fun i j => if j = 0 then (i : ℝ) else 0)
/-- Five samples whose features are equal. -/
def repeatedX : Mat ℝ := Mat.of 5 2 (fun i _ => (i : ℝ))
/-- Five samples whose second feature is 3. -/
def constantX : Mat ℝ := Mat.of 5 2 (fun i j => if j = 0 then (i : ℝ) else 3)

/-- The store of `exNet`, with other weights for the second feature. -/
def unusedStore : Store := fun _ => ⟨exLayer Act.sigmoid (Mat.of 3 3 (fun i j => (i : ℝ) - j + (if i = 2 then 7 + (j : ℝ) else 0))), .dense⟩

theorem softNet_wfU : softNet.WF unusedStore 2 2 := by
  refine ⟨by simp [softNet, exNetWith, exNet], fun _ _ => rfl, by omega, ?_⟩
  simp [Net.layers, Net.hiddenLayers, softNet, exNetWith, exNet, unusedStore, exLayer, Spec.Fits]

theorem unused_differ : Spec.Differ (fun i j => if i = 2 then 7 + (j : ℝ) else 0) (exStore 7).base.W (unusedStore 7).base.W := by
  refine ⟨rfl, rfl, fun i hi j hj => ?_⟩
  replace hi : i < 3 := hi
  replace hj : j < 3 := hj
  show (Mat.of 3 3 (fun i j => (i : ℝ) - j + (if i = 2 then 7 + (j : ℝ) else 0))).f i j = (Mat.of 3 3 (fun i j => (i : ℝ) - j)).f i j + _
  rw [Mat.of_f' hi hj, Mat.of_f' hi hj]

theorem unused_zero {i : Nat} (hi : i < 5) : unusedX.f i 1 = 0 := by
  unfold unusedX
  rw [Mat.of_f' hi (by omega), if_neg (by omega)]

theorem unused_blind (j : Nat) : Spec.Blind (fun i => if i = 2 then 7 + (j : ℝ) else 0) unusedX := by
  intro i hi
  show (if (0 : Nat) = 2 then 7 + (j : ℝ) else 0) + ∑ k ∈ range 2, unusedX.f i k * (if k + 1 = 2 then 7 + (j : ℝ) else 0) = 0
  simp only [sum_range_succ, sum_range_zero, unused_zero hi]
  norm_num

theorem two_fit {x : Mat ℝ} (h1 : x.nr = 5) (h2 : x.nc = 2) : Spec.BatchesFit 2 2 [(x, exProb), (x, exY)] := by
  intro b hb
  simp only [List.mem_cons, List.not_mem_nil, or_false] at hb
  rcases hb with rfl | rfl <;> exact ⟨by show 0 < x.nr; omega, h2, h1.symm, rfl⟩

theorem two_mem {x : Mat ℝ} {P : Mat ℝ → Prop} (h : P x) : ∀ b ∈ [(x, exProb), (x, exY)], P b.1 := by
  intro b hb
  simp only [List.mem_cons, List.not_mem_nil, or_false] at hb
  rcases hb with rfl | rfl <;> exact h

example (junk junk' : Nat → Nat → ℝ) := C111_unseen (junk := junk) (junk' := junk') softNet_wf softNet_wfU (rest := [softNet.output.toLayer.core]) rfl rfl unused_differ rfl C54_costs.2.2.1
  (two_fit (x := unusedX) rfl rfl) (two_mem (x := unusedX) (P := fun x => ∀ j < (exStore 7).base.W.nc, Spec.Blind (fun i => if i = 2 then 7 + (j : ℝ) else 0) x) fun j _ => unused_blind j)

example (junk : Nat → Nat → ℝ) := C111_invariant (junk := junk) softNet_wf (rest := [softNet.output.toLayer.core]) rfl C54_costs.2.2.1
  (two_fit (x := unusedX) rfl rfl) (two_mem (unused_blind 0))

example (junk : Nat → Nat → ℝ) := C111_unused (junk := junk) softNet_wf (rest := [softNet.output.toLayer.core]) rfl C54_costs.2.2.1 (c := 1)
  (two_fit (x := unusedX) rfl rfl) (by omega) (two_mem (P := fun x => ∀ i < x.nr, x.f i 1 = 0) fun i hi => unused_zero hi)

example (junk : Nat → Nat → ℝ) := C111_repeated (junk := junk) softNet_wf (rest := [softNet.output.toLayer.core]) rfl C54_costs.2.2.1 (c := 0) (d := 1)
  (two_fit (x := repeatedX) rfl rfl) (by omega) (by omega) (two_mem (P := fun x => ∀ i < x.nr, x.f i 0 = x.f i 1) fun i hi => by
    unfold repeatedX
    rw [Mat.of_f' (by exact hi) (by omega), Mat.of_f' (by exact hi) (by omega)])

example (junk : Nat → Nat → ℝ) := C111_constant (junk := junk) softNet_wf (rest := [softNet.output.toLayer.core]) rfl C54_costs.2.2.1 (c := 1) (r := 3)
  (two_fit (x := constantX) rfl rfl) (by omega) (two_mem (P := fun x => ∀ i < x.nr, x.f i 1 = 3) fun i hi => by
    unfold constantX
    rw [Mat.of_f' (by exact hi) (by omega), if_neg (by omega)])

end Witness
end
end Nnet.NN
