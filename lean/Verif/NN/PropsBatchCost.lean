import Verif.NN.PropsOrder
import Verif.NN.PropsUpdate
/-!
# C59 (cost) and C60: what the reported cost is
-/
namespace Nnet.NN
open Finset
noncomputable section
open Spec

/-! ## Specification -/

/-- A cost that is the average of the costs of the rows: on every label and prediction of one shape it succeeds, and on every single row too, and the sum of
its entries times the number of rows is the sum over the rows. -/
def Spec.CostMean (cost : MatFunc) : Prop :=
  ∀ y h : Mat ℝ, y.nr = h.nr → y.nc = h.nc → 0 < y.nr → ∃ (M : Mat ℝ) (Mi : Nat → Mat ℝ), cost y h = .ok M ∧
    (∀ i < y.nr, cost (y.rowMat i) (h.rowMat i) = .ok (Mi i)) ∧ sumall M = (∑ i ∈ range y.nr, sumall (Mi i)) / y.nr

/-- `NeuralNet::getoutput()`, neuralnet.h:41: the output layer by value, through the copy constructor. -/
def Net.getoutput (n : Net) : OutputLayer := n.output.copyCtor

/-! ## Lemmas -/

theorem costMean_of {cost : MatFunc} {F : (Nat → ℝ) → (Nat → ℝ) → Nat → Nat → ℝ}
    (hF : ∀ (u v u' v' : Nat → ℝ) (c j : Nat), j < c → (∀ k < c, u k = u' k) → (∀ k < c, v k = v' k) → F u v c j = F u' v' c j)
    (hc : ∀ y h : Mat ℝ, y.nr = h.nr → y.nc = h.nc → cost y h = .ok (Mat.of y.nr y.nc (fun i j => F (y.f i) (h.f i) y.nc j / y.nr))) : Spec.CostMean cost := by
  intro y h h1 h2 hr
  refine ⟨_, _, hc y h h1 h2, fun i hi => hc (y.rowMat i) (h.rowMat i) rfl h2, ?_⟩
  unfold sumall
  rw [Mat.accu_of, sum_div]
  refine sum_congr rfl fun i hi => ?_
  rw [Mat.accu_of]
  show _ = (∑ i' ∈ range 1, ∑ j ∈ range y.nc, F _ _ y.nc j / ((1 : Nat) : ℝ)) / _
  rw [sum_range_one, sum_div]
  refine sum_congr rfl fun j hj => ?_
  rw [Nat.cast_one, div_one]
  congr 1
  refine hF _ _ _ _ _ _ (mem_range.1 hj) (fun k hk => (rowMat_f _ hk).symm) (fun k hk => (rowMat_f _ (by omega)).symm)

/-! ## C60 -/

/-- **C60** (the four costs). Each of the library's costs is the average of the costs of the rows. -/
theorem C60_costs : Spec.CostMean Quadratic.cost ∧ Spec.CostMean CrossEntropy.cost ∧ Spec.CostMean Softmax.cost ∧ Spec.CostMean KullbackLeibler.cost := by
  refine ⟨?_, ?_, ?_, ?_⟩
  · refine costMean_of (F := fun u v _ j => (u j - v j) * (u j - v j) / 2) ?_ (fun y h h1 h2 => quadratic_cost h1 h2)
    intro u v u' v' c j hj hu hv
    simp only [hu j hj, hv j hj]
  · refine costMean_of (F := fun u v _ j => -(u j * Real.log (v j) + (1 - u j) * Real.log (1 - v j))) ?_ (fun y h h1 h2 => crossEntropy_cost h1 h2)
    intro u v u' v' c j hj hu hv
    simp only [hu j hj, hv j hj]
  · refine costMean_of (F := fun u v c j => -(u j * Real.log (Real.exp (v j) / ∑ k ∈ range c, Real.exp (v k)))) ?_ (fun y h h1 h2 => ?_)
    · intro u v u' v' c j hj hu hv
      simp only [hu j hj, hv j hj]
      rw [sum_congr rfl fun k hk => by rw [hv k (mem_range.1 hk)]]
    · rw [softmax_cost h1 h2]
      unfold Spec.softmaxAt
      rw [h2]
  · refine costMean_of (F := fun u v _ j => u j * Real.log (u j / v j)) ?_ (fun y h h1 h2 => kl_cost h1 h2)
    intro u v u' v' c j hj hu hv
    simp only [hu j hj, hv j hj]

/-- **C60** (computecost). The cost of a batch of predictions is the average of the costs of its rows. -/
theorem C60_computecost {n : Net} {pred y : Mat ℝ} (hc : Spec.CostMean n.cost) (h1 : y.nr = pred.nr) (h2 : y.nc = pred.nc) (hr : 0 < y.nr) :
    ∃ (c : ℝ) (ci : Nat → ℝ), n.computecost pred y = .ok c ∧ (∀ i < y.nr, n.computecost (pred.rowMat i) (y.rowMat i) = .ok (ci i)) ∧
      c = (∑ i ∈ range y.nr, ci i) / y.nr := by
  obtain ⟨M, Mi, e1, e2, e3⟩ := hc y pred h1 h2 hr
  refine ⟨sumall M, fun i => sumall (Mi i), ?_, fun i hi => ?_, e3⟩
  · unfold Net.computecost; rw [e1, ok_bind]
  · unfold Net.computecost; rw [e2 i hi, ok_bind]

/-- **C59** (cost). The cost of a batch does not depend on the order of its rows. -/
theorem C59_cost {n : Net} {pred y : Mat ℝ} {π : Equiv.Perm Nat} (hc : Spec.CostMean n.cost) (h1 : y.nr = pred.nr) (h2 : y.nc = pred.nc) (hr : 0 < y.nr)
    (hπ : Permutes π y.nr) : ∃ c, n.computecost pred y = .ok c ∧ n.computecost (reorder pred π) (reorder y π) = .ok c := by
  obtain ⟨c, ci, e1, e2, e3⟩ := C60_computecost hc h1 h2 hr
  obtain ⟨d, di, f1, f2, f3⟩ := C60_computecost (n := n) (pred := reorder pred π) (y := reorder y π) hc h1 h2 hr
  refine ⟨c, e1, ?_⟩
  rw [f1]
  congr 1
  rw [f3, e3]
  show (∑ i ∈ range y.nr, di i) / (y.nr : ℝ) = _
  congr 1
  rw [← sum_reorder hπ ci]
  refine sum_congr rfl fun i hi => ?_
  have hi' := mem_range.1 hi
  have := f2 i hi'
  rw [rowMat_reorder (by omega), rowMat_reorder hi', e2 _ (hπ i hi')] at this
  exact (Except.ok.inj this).symm

/-- The output layer's `forwardprop` keeps the activation it returns and touches nothing of the cost. -/
theorem OutputLayer.forwardprop_inv {o o' : OutputLayer} {pa r : Mat ℝ} (h : o.forwardprop pa = .ok (r, o')) :
    o'.a = r ∧ o'.cost = o.cost ∧ o'.costd = o.costd ∧ o'.y = o.y := by
  unfold OutputLayer.forwardprop at h
  obtain ⟨⟨r', L⟩, h1, h2⟩ := bind_eq_ok h
  cases h2
  unfold Layer.forwardprop at h1
  obtain ⟨p, _, h1⟩ := bind_eq_ok h1
  obtain ⟨z, _, h1⟩ := bind_eq_ok h1
  cases h1
  exact ⟨rfl, rfl, rfl, rfl⟩

theorem OutputLayer.backprop_inv {o o' : OutputLayer} {y r : Mat ℝ} (h : o.backprop y = .ok (r, o')) :
    o'.a = o.a ∧ o'.cost = o.cost ∧ o'.costd = o.costd ∧ o'.y = y := by
  unfold OutputLayer.backprop at h
  obtain ⟨d, _, h⟩ := bind_eq_ok h
  obtain ⟨g, _, h⟩ := bind_eq_ok h
  obtain ⟨g', _, h⟩ := bind_eq_ok h
  obtain ⟨e, _, h⟩ := bind_eq_ok h
  obtain ⟨e', _, h⟩ := bind_eq_ok h
  cases h
  exact ⟨rfl, rfl, rfl, rfl⟩

/-- **C60** (getcostval). After `r = o.forwardprop(x)` and `o.backprop(y)` the output layer's own `getcostval()` is the sum of its cost on the label `y` and
its prediction `r`, in that order of arguments. -/
theorem C60_getcostval {o o1 o2 : OutputLayer} {x y r d : Mat ℝ} (h1 : o.forwardprop x = .ok (r, o1)) (h2 : o1.backprop y = .ok (d, o2)) :
    o2.getcostval = (do let J ← o.cost y r; .ok (sumall J)) := by
  obtain ⟨a1, a2, -, -⟩ := OutputLayer.forwardprop_inv h1
  obtain ⟨b1, b2, -, b4⟩ := OutputLayer.backprop_inv h2
  unfold OutputLayer.getcostval
  rw [b1, b2, b4, a1, a2]

theorem cost_empty_fails {h : Mat ℝ} (hr : 0 < h.nr) (hc : 0 < h.nc) :
    (∃ e, Quadratic.cost .empty h = .error e) ∧ (∃ e, CrossEntropy.cost .empty h = .error e) ∧ (∃ e, Softmax.cost .empty h = .error e) ∧ (∃ e, KullbackLeibler.cost .empty h = .error e) := by
  have key : ∀ (g : ℝ → ℝ → ℝ) (a : Mat ℝ) (b : Mat ℝ), a.nr = 0 → b.nr = h.nr → ∃ e, Mat.zip g a b = .error e := by
    intro g a b ha hb
    rcases hz : Mat.zip g a b with e | r
    · exact ⟨e, rfl⟩
    · have := (Mat.zip_eq_ok hz).1; omega
  refine ⟨?_, ?_, ?_, ?_⟩
  · obtain ⟨e, he⟩ := key (· - ·) .empty h rfl rfl
    refine ⟨e, ?_⟩
    show ((Mat.empty : Mat ℝ).sub h >>= _) = _
    rw [show (Mat.empty : Mat ℝ).sub h = .error e from he]; rfl
  · obtain ⟨e, he⟩ := key (· * ·) .empty (logorithm h) rfl rfl
    refine ⟨e, ?_⟩
    show ((Mat.empty : Mat ℝ).schur (logorithm h) >>= _) = _
    rw [show (Mat.empty : Mat ℝ).schur (logorithm h) = .error e from he]; rfl
  · rcases hz : Softmax.prob 0 h with e | P
    · refine ⟨e, ?_⟩
      show (Softmax.prob 0 h >>= _) = _
      rw [hz]; rfl
    · exfalso
      unfold Softmax.prob at hz
      obtain ⟨S, hS, hz⟩ := bind_eq_ok hz
      have h2 := (Mat.zip_eq_ok hz).2.1
      have hc' : (exponential h).nc = h.nc := rfl
      have : S.nc = 0 := by
        unfold repeatM at hS
        cases hS
        rfl
      have h3 : (S.map (fun v => 1 / v)).nc = 0 := this
      omega
  · obtain ⟨e, he⟩ := key (· / ·) .empty h rfl rfl
    refine ⟨e, ?_⟩
    show ((Mat.empty : Mat ℝ).ediv h >>= _) = _
    rw [show (Mat.empty : Mat ℝ).ediv h = .error e from he]; rfl

/-- **C60, refuted through the network.** `net.getoutput()` returns a copy whose label is empty, so `net.getoutput().getcostval()` throws for every one of the
library's outputs as soon as the network has been run on at least one sample, whatever has been back-propagated. -/
theorem C60_getoutput_refuted {n : Net} (hc : n.output.cost = Quadratic.cost ∨ n.output.cost = CrossEntropy.cost ∨ n.output.cost = Softmax.cost ∨ n.output.cost = KullbackLeibler.cost)
    (h1 : 0 < n.output.a.nr) (h2 : 0 < n.output.a.nc) : ∃ e, n.getoutput.getcostval = .error e := by
  have hk : ∃ e, n.output.cost .empty n.output.a = .error e := by
    obtain ⟨k1, k2, k3, k4⟩ := cost_empty_fails (h := n.output.a) h1 h2
    rcases hc with h | h | h | h <;> rw [h] <;> assumption
  obtain ⟨e, he⟩ := hk
  refine ⟨e, ?_⟩
  show (n.output.cost .empty n.output.a >>= _) = _
  rw [he]; rfl

/-! ## Concrete cases -/

/-- The swap of two rows of a batch of five. -/
example : Permutes (Equiv.swap 1 2) exX.nr := by
  intro i hi
  show Equiv.swap 1 2 i < 5
  replace hi : i < 5 := hi
  rw [Equiv.swap_apply_def]
  split
  · omega
  · split <;> omega

/-- The hypotheses of `C59_training` and `C59_cost` hold of a concrete network, batch and reordering that really changes the batch. -/
example : exNet.WF exStore 2 2 ∧ Spec.RowMean exNet.output.costd ∧ Spec.CostMean exNet.output.cost ∧ 0 < exX.nr ∧ exX.nc = 2 ∧ exY.nr = exX.nr ∧ exY.nc = 2 ∧
    reorder exX (Equiv.swap 1 2) ≠ exX := by
  refine ⟨exNet_wf, C56_outputs.1, C60_costs.1, by show 0 < 5; omega, rfl, rfl, rfl, fun h => ?_⟩
  have h1 := congrArg (fun m : Mat ℝ => m.f 1 1) h
  have h2 : (reorder exX (Equiv.swap 1 2)).f 1 1 = exX.f (Equiv.swap 1 2 1) 1 := reorder_f (by show 1 < 5; omega) (by show 1 < 2; omega)
  rw [Equiv.swap_apply_left] at h2
  simp only [h2] at h1
  have e2 : exX.f 2 1 = ((2 : Nat) : ℝ) * ((1 : Nat) : ℝ) := Mat.of_f' (by omega) (by omega)
  have e1 : exX.f 1 1 = ((1 : Nat) : ℝ) * ((1 : Nat) : ℝ) := Mat.of_f' (by omega) (by omega)
  rw [e1, e2] at h1
  norm_num at h1

end
end Nnet.NN
