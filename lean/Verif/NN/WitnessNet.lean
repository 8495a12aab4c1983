import Verif.NN.PropsSizes
import Verif.NN.PropsShare
import Verif.NN.PropsSetters
import Verif.NN.PropsSafe
import Verif.NN.PropsBatchCost
import Verif.NN.PropsChecker
import Verif.NN.PropsAssign
import Verif.NN.PropsPerfect
import Verif.NN.PropsCopy
/-!
# The hypotheses of the network theorems are met (1): activations, costs, passes, gradients

Each `example` applies one theorem to concrete objects - mostly the 2-3-2 network `exNet` with a sigmoid hidden layer, five samples `exX` and labels
`exY` - so that Lean checks that all its hypotheses hold together.
-/
namespace Nnet.NN
open Finset
noncomputable section
namespace Witness

/-! ## C25, C26 -/

example := Act.C25_hardtanh (1 / 2) (by norm_num) (by norm_num)
example := Act.C25_hardtanh 3 (by norm_num) (by norm_num)
example := Act.C25_absolute (-2) (by norm_num)
example := Act.C25_relu 3 (by norm_num)
example := Act.C25_relucos (-1) (by norm_num)
example := Act.C25_relusin 2 (by norm_num)
example := Act.C26_derivative_sign Act.sigmoid (by simp)

/-! ## C28, C32, C55, C67 -/

theorem hx : 0 < exX.nr := by show 0 < 5; omega

example (junk : Nat → Nat → ℝ) := C28_network (junk := junk) exNet_wf hx rfl
example (junk junk' : Nat → Nat → ℝ) : ∃ out s1 n1 out1 s2 n2, exNet.forwardprop junk exStore exX = .ok (out, s1, n1) ∧
    exNet.forwardprop junk' exStore (exX.rowMat 3) = .ok (out1, s2, n2) ∧ out1 = out.rowMat 3 := by
  obtain ⟨s1, n1, e1, -⟩ := C28_network (junk := junk) exNet_wf hx rfl
  obtain ⟨s2, n2, e2, -⟩ := C28_network (junk := junk') (x := exX.rowMat 3) exNet_wf (by show 0 < 1; omega) rfl
  exact ⟨_, _, _, _, _, _, e1, e2, C28_row_alone exNet_wf rfl (by show 3 < 5; omega) e1 e2⟩
/-- Sample 1 of the batch is sample 0 of another batch of two. -/
example (junk junk' : Nat → Nat → ℝ) : ∃ out s1 n1 out' s2 n2, exNet.forwardprop junk exStore exX = .ok (out, s1, n1) ∧
    exNet.forwardprop junk' exStore (Mat.of 2 2 (fun i j => ((i : ℝ) + 1) * j)) = .ok (out', s2, n2) ∧ ∀ j < 2, out.f 1 j = out'.f 0 j := by
  obtain ⟨s1, n1, e1, -⟩ := C28_network (junk := junk) exNet_wf hx rfl
  obtain ⟨s2, n2, e2, -⟩ := C28_network (junk := junk') (x := Mat.of 2 2 (fun i j => ((i : ℝ) + 1) * j)) exNet_wf (by show 0 < 2; omega) rfl
  refine ⟨_, _, _, _, _, _, e1, e2, C28_row_independent (i := 1) (i' := 0) exNet_wf rfl rfl (by show 1 < 5; omega) (by show 0 < 2; omega) ?_ e1 e2⟩
  intro j hj
  rw [exX, Mat.of_f' (by omega) (by omega), Mat.of_f' (by omega) (by omega)]
  simp
example (junk : Nat → Nat → ℝ) := C32_predict (junk := junk) exNet_wf hx rfl
example (junk : Nat → Nat → ℝ) := C55_model_unchanged (junk := junk) [.forwardprop exX, .predict exX, .forwardprop (exX.rowMat 0)] exNet_wf (by
  intro c hc
  simp only [List.mem_cons, List.not_mem_nil, or_false] at hc
  rcases hc with rfl | rfl | rfl
  · exact ⟨hx, rfl⟩
  · exact ⟨hx, rfl⟩
  · exact ⟨by show 0 < 1; omega, rfl⟩)
example (junk : Nat → Nat → ℝ) : ∃ r1 s1 n1 s2 n2 r2 s3 n3, Query.run junk exStore exNet (.forwardprop exX) = .ok (r1, s1, n1) ∧
    Query.runAll junk [.predict (exX.rowMat 0)] exStore exNet = .ok (s2, n2) ∧ Query.run junk s2 n2 (.forwardprop exX) = .ok (r2, s3, n3) ∧ r2 = r1 := by
  have hq : ∀ c ∈ [Query.predict (exX.rowMat 0)], 0 < c.samples.nr ∧ c.samples.nc = 2 := by
    intro c hc; rw [List.mem_singleton] at hc; subst hc; exact ⟨by show 0 < 1; omega, rfl⟩
  obtain ⟨r1, s1, n1, e1, -⟩ := query_ok (junk := junk) (c := .forwardprop exX) exNet_wf hx rfl
  obtain ⟨s2, n2, e2, hw, -⟩ := C55_model_unchanged (junk := junk) _ exNet_wf hq
  obtain ⟨r2, s3, n3, e3, -⟩ := query_ok (junk := junk) (c := .forwardprop exX) hw hx rfl
  exact ⟨_, _, _, _, _, _, _, _, e1, e2, e3, C55_repeatable _ (.forwardprop exX) exNet_wf hq hx rfl e1 e2 e3⟩

/-! ## C29 - C33 -/

example (junk : Nat → Nat → ℝ) := C29_quadratic (junk := junk) (y := exY) exNet_wf hx rfl rfl rfl exSmooth rfl rfl rfl

/-- The network with the other outputs. -/
def exNetWith (act : ActFunc ℝ) (cost : MatFunc) (costd : MatFuncD) : Net :=
  { exNet with cost := cost, costd := costd, output := { exNet.output with actfunc := act, cost := cost, costd := costd } }
theorem exNetWith_wf (act : ActFunc ℝ) (cost : MatFunc) (costd : MatFuncD) : (exNetWith act cost costd).WF exStore 2 2 :=
  ⟨exNet_wf.nodup, exNet_wf.dense, exNet_wf.pos, exNet_wf.fits⟩
theorem exNetWith_smooth (act : ActFunc ℝ) (cost : MatFunc) (costd : MatFuncD) :
    Spec.SmoothAt (actW ((exNetWith act cost costd).hiddenLayers exStore)) exX := exSmooth

/-- Labels whose rows sum to 1. -/
def exProb : Mat ℝ := Mat.of 5 2 (fun _ j => if j = 0 then 1 / 4 else 3 / 4)
theorem exProb_f {i j : Nat} (hi : i < 5) (hj : j < 2) : exProb.f i j = if j = 0 then 1 / 4 else 3 / 4 := Mat.of_f' hi hj
theorem exProb_sum : ∀ i < exProb.nr, ∑ j ∈ range exProb.nc, exProb.f i j = 1 := by
  intro i hi
  show ∑ j ∈ range 2, exProb.f i j = 1
  rw [sum_range_succ, sum_range_one, exProb_f hi (by omega), exProb_f hi (by omega)]
  norm_num
theorem exProb_pos : ∀ i < exProb.nr, ∀ j < exProb.nc, 0 < exProb.f i j := by
  intro i hi j hj
  rw [exProb_f hi hj]
  split <;> norm_num

example (junk : Nat → Nat → ℝ) := C29_crossentropy (junk := junk) (y := exProb) (exNetWith_wf Act.sigmoid CrossEntropy.cost CrossEntropy.costd) hx rfl rfl rfl
  (exNetWith_smooth _ _ _) rfl rfl rfl
example (junk : Nat → Nat → ℝ) := C29_softmax (junk := junk) (y := exProb) (exNetWith_wf Act.identity Softmax.cost Softmax.costd) hx rfl rfl rfl exProb_sum
  (exNetWith_smooth _ _ _) rfl rfl rfl

/-- The outputs of the network are positive. -/
theorem exOut_pos (cost : MatFunc) (costd : MatFuncD) : ∀ i < 5, ∀ j < 2, 0 < ((exNetWith Act.identity cost costd).outputZ exStore exX).f i j := by
  intro i hi j hj
  rw [outputZ_eq]
  unfold Spec.pre
  have hnr : (outL ((exNetWith Act.identity cost costd).hiddenLayers exStore) exX).nr = 5 := rfl
  have hnc : (outL ((exNetWith Act.identity cost costd).hiddenLayers exStore) exX).nc = 3 := rfl
  rw [Mat.of_f' (by rw [hnr]; exact hi) (by exact hj), hnc]
  have hW : ∀ k < 4, (exNetWith Act.identity cost costd).output.W.f k j = (k : ℝ) + j := fun k hk => Mat.of_f' hk hj
  have ha : ∀ k < 3, 0 < (outL ((exNetWith Act.identity cost costd).hiddenLayers exStore) exX).f i k := by
    intro k hk
    rw [outL_eq_denseNet]
    show 0 < (Spec.dense Act.sigmoid.act _ exX).f i k
    unfold Spec.dense
    rw [Mat.of_f' (by exact hi) (by exact hk)]
    exact (Act.C26_sigmoid.1 _).1
  rw [hW 0 (by omega)]
  refine add_pos_of_nonneg_of_pos (by positivity) (sum_pos (fun k hk => ?_) ⟨0, by simp⟩)
  rw [mem_range] at hk
  rw [hW (k + 1) (by omega)]
  refine mul_pos (ha k hk) ?_
  push_cast
  positivity

example (junk : Nat → Nat → ℝ) := C29_kullbackleibler_refuted (junk := junk) (y := exProb) (exNetWith_wf Act.identity KullbackLeibler.cost KullbackLeibler.costd)
  hx rfl rfl rfl exProb_pos (exOut_pos _ _) (exNetWith_smooth _ _ _) rfl rfl rfl
example (dist : Draws) (junk : Nat → Nat → ℝ) : ∃ o n, CrossEntropy.new dist junk 3 2 1 1 0 = .ok o ∧ Net.new dist junk (exLayer Act.identity .empty) o [7] = .ok n ∧
    n.output.actfunc = Act.sigmoid := by
  obtain ⟨o, e, -⟩ := C54_new_output dist junk 3 2 1 1 0 Act.sigmoid CrossEntropy.cost CrossEntropy.costd
  obtain ⟨n, e', -⟩ := C54_new_net dist junk (exLayer Act.identity .empty) o [7] exStore
  exact ⟨o, n, e, e', ((C29_constructors (k := 3) (c := 2) (r := 1) (d := 1) (l := 0) e').2.1 e).1⟩

/-- Predictions (1/3, 2/3) for two samples, labels (1/4, 3/4) and (1/2, 1/2). -/
theorem exLabels_f {i j : Nat} (hi : i < 2) (hj : j < 2) : exLabels.f i j = if i = 0 then (if j = 0 then 1 / 4 else 3 / 4) else 1 / 2 := Mat.of_f' hi hj
theorem exPred_f {i j : Nat} (hi : i < 2) (hj : j < 2) : exPred.f i j = if j = 0 then 1 / 3 else 2 / 3 := Mat.of_f' hi hj
theorem exLabels_in : ∀ i < exLabels.nr, ∀ j < exLabels.nc, 0 < exLabels.f i j ∧ exLabels.f i j < 1 := by
  intro i hi j hj
  rw [exLabels_f hi hj]
  split <;> [split; skip] <;> norm_num
theorem exPred_in : ∀ i < exPred.nr, ∀ j < exPred.nc, 0 < exPred.f i j ∧ exPred.f i j < 1 := by
  intro i hi j hj
  rw [exPred_f hi hj]
  split <;> norm_num
theorem exLabels_sum : ∀ i < exLabels.nr, ∑ j ∈ range exLabels.nc, exLabels.f i j = 1 := by
  intro i hi
  replace hi : i < 2 := hi
  show ∑ j ∈ range 2, exLabels.f i j = 1
  rw [sum_range_succ, sum_range_one, exLabels_f hi (by omega), exLabels_f hi (by omega)]
  split <;> norm_num
theorem exPred_sum : ∀ i < exPred.nr, ∑ j ∈ range exPred.nc, exPred.f i j = 1 := by
  intro i hi
  replace hi : i < 2 := hi
  show ∑ j ∈ range 2, exPred.f i j = 1
  rw [sum_range_succ, sum_range_one, exPred_f hi (by omega), exPred_f hi (by omega)]
  norm_num

example := C30_quadratic_param (f := Act.sigmoid) (y := exLabels) (z := exPred) rfl rfl (fun _ _ _ _ => Act.C25_sigmoid _)
example : ∃ D, Quadratic.costd exLabels (exPred.map Act.sigmoid.act) exPred = .ok D ∧ ¬ Spec.PartialDerivs Act.sigmoid.act Quadratic.cost exLabels exPred D := by
  obtain ⟨D, e, -⟩ := C30_quadratic_param (f := Act.sigmoid) (y := exLabels) (z := exPred) rfl rfl (fun _ _ _ _ => Act.C25_sigmoid _)
  refine ⟨D, e, C30_quadratic_param_refuted (i := 1) (j := 0) rfl rfl (by show 1 < 2; omega) (by show 0 < 2; omega) ?_ e⟩
  rw [exLabels_f (by omega) (by omega), exPred_f (by omega) (by omega), if_pos rfl, if_neg (by decide)]
  have h1 : Act.sigmoid.act 0 = 1 / 2 := by show 1 / (1 + Real.exp (-0)) = _; rw [neg_zero, Real.exp_zero]; norm_num
  have h2 := Act.C26_sigmoid.2 (show (0 : ℝ) < 1 / 3 by norm_num)
  rw [h1] at h2
  exact ne_of_gt h2
example := C30_crossentropy (y := exLabels) (z := exPred) rfl rfl
example := ((C30_softmax (y := exLabels) (z := exPred) rfl rfl).choose_spec.2.1) exLabels_sum
example := C30_kullbackleibler_refuted (y := exLabels) (z := exPred) rfl rfl (fun i hi j hj => (exLabels_in i hi j hj).1) (fun i hi j hj => (exPred_in i hi j hj).1)
example := C31_quadratic (y := exLabels) (h := exPred) rfl rfl
example := C31_crossentropy (y := exLabels) (h := exPred) rfl rfl (fun i hi j hj => ⟨(exLabels_in i hi j hj).1.le, (exLabels_in i hi j hj).2.le⟩) exPred_in
example : ∃ My Mh, CrossEntropy.cost exLabels exLabels = .ok My ∧ CrossEntropy.cost exLabels exPred = .ok Mh ∧ sumall My ≤ sumall Mh := by
  obtain ⟨My, ey, -⟩ := C31_crossentropy (y := exLabels) (h := exLabels) rfl rfl (fun i hi j hj => ⟨(exLabels_in i hi j hj).1.le, (exLabels_in i hi j hj).2.le⟩) exLabels_in
  obtain ⟨Mh, eh, -⟩ := C31_crossentropy (y := exLabels) (h := exPred) rfl rfl (fun i hi j hj => ⟨(exLabels_in i hi j hj).1.le, (exLabels_in i hi j hj).2.le⟩) exPred_in
  exact ⟨My, Mh, ey, eh, (C31_crossentropy_min (y := exLabels) (h := exPred) rfl rfl exLabels_in exPred_in ey eh).1⟩
example := C31_softmax (y := exLabels) (h := exPred) rfl rfl (fun i hi j hj => (exLabels_in i hi j hj).1.le)
example := C31_kullbackleibler (y := exLabels) (h := exPred) rfl rfl (fun i hi j hj => (exLabels_in i hi j hj).1) (fun i hi j hj => (exPred_in i hi j hj).1)
  exLabels_sum exPred_sum

end Witness
end
end Nnet.NN
