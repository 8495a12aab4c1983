import Verif.NN.WitnessTrain
import Verif.NN.PropsDemo
import Verif.NN.PropsLinear
import Verif.NN.PropsSymmetry
/-!
# The hypotheses of further theorems are met (3): copies, orders, costs, settings, whole programs
-/
namespace Nnet.NN
open Finset
noncomputable section
namespace Witness

/-! ## C35, C44, C53 -/

example := C35_ties (k := 123456) (by norm_num) (by norm_num)
example (dist : Draws) (junk : Nat → Nat → ℝ) : ∃ L', InputLayer.copyCtor dist junk (exLayer Act.identity (Mat.of 3 4 (fun _ _ => (1 : ℝ)))) = .ok L' ∧ L'.getpnnodes ≠ 3 := by
  have hk : (exLayer Act.identity (Mat.of 3 4 (fun _ _ => (1 : ℝ)))).getpnnodes = 3 := rfl
  obtain ⟨L', e, -⟩ := C54_new_layer dist junk 3 4 (1 / 10) 1 0 Act.identity
  have e' : InputLayer.copyCtor dist junk (exLayer Act.identity (Mat.of 3 4 (fun _ _ => (1 : ℝ)))) = .ok L' := e
  exact ⟨L', e', C53_copy_changes_size dist junk _ L' e'⟩
example (junk : Nat → Nat → ℝ) := C44_nodecay (junk := junk) [(exX, exY), (exX, exY)] exWorld (Trainer.new 0) (SGD.copyCtor (Trainer.new 0)) rfl rfl rfl (by show 0 + 2 < 2 ^ 64; omega)
example (junk : Nat → Nat → ℝ) := C44_sgd_nodecay (junk := junk) (Trainer.new 0) rfl rfl [(exX, exY), (exX, exY)] (by show 2 < 2 ^ 64; omega) exWorld
/-- The original applies its decay in the call that is its third, the copy does not. -/
example (junk : Nat → Nat → ℝ) : ∃ w1 t1 w2 t2, SGD.feeddata junk exWorld { decTrainer with step := 3, iters := 2 } exX exY = .ok (w1, t1) ∧
    SGD.feeddata junk exWorld (SGD.copyCtor { decTrainer with step := 3, iters := 2 }) exX exY = .ok (w2, t2) ∧
    (w1.nets 0).AllRates w1.store (1 / 10 * Real.exp (-1 * (3 : Nat))) ∧ SameRates exStore exNet w2.store (w2.nets 0) := by
  have key : ∀ t : Trainer, t.nnet = 0 → ∃ w' t', SGD.feeddata junk exWorld t exX exY = .ok (w', t') := by
    intro t ht
    obtain ⟨c, w', t', e⟩ := (C57_succeeds (junk := junk) exFits true).2.1 t ht
    obtain ⟨w1, e', -⟩ := C40_cost (p := 2) (q := 2) exNet_wf rfl e
    exact ⟨w1, t', e'⟩
  obtain ⟨w1, t1, e1⟩ := key { decTrainer with step := 3, iters := 2 } rfl
  obtain ⟨w2, t2, e2⟩ := key (SGD.copyCtor { decTrainer with step := 3, iters := 2 }) rfl
  exact ⟨w1, t1, w2, t2, e1, e2, C44_refuted (t := { decTrainer with step := 3, iters := 2 }) rfl (by show 1 ≤ 2; omega) rfl (by show 3 < 2 ^ 64; omega) e1 e2⟩

/-! ## C59, C60, C62, C63 -/

theorem swap5 : Spec.Permutes (Equiv.swap 1 4) 5 := swap_permutes (by omega) (by omega)
example (junk junk' : Nat → Nat → ℝ) := C59_prediction (junk := junk) (junk' := junk') (π := Equiv.swap 1 4) exNet_wf hx rfl swap5
example (junk junk' : Nat → Nat → ℝ) := C59_training (junk := junk) (junk' := junk') (bs := [(exX, exY, Equiv.swap 1 4), (exX, exY, Equiv.refl _)]) exNet_wf C56_outputs.1 (by
  intro b hb
  simp only [List.mem_cons, List.not_mem_nil, or_false] at hb
  rcases hb with rfl | rfl
  · exact ⟨hx, rfl, rfl, rfl, swap5⟩
  · exact ⟨hx, rfl, rfl, rfl, fun i hi => hi⟩)
example := C59_cost (n := exNet) (pred := exPred) (y := exLabels) (π := Equiv.swap 0 1) C60_costs.1 rfl rfl (by show 0 < 2; omega) (swap_permutes (by show 0 < 2; omega) (by show 1 < 2; omega))
example := C60_computecost (n := exNet) (pred := exPred) (y := exLabels) C60_costs.1 rfl rfl (by show 0 < 2; omega)
example := C60_getoutput_refuted (n := { exNet with output := { exNet.output with a := exPred } }) (.inl rfl) (by show 0 < 2; omega) (by show 0 < 2; omega)
example (e : Spec.Env) (fs : Files) (self : Net) := C62_behaves_alike e (n := exNet) (.inr ⟨self, rfl⟩) fs exStore [.forwardprop exX, .backprop exY, .update, .save "w" true]
example (dist : Draws) := C63_every_layer_can_be_chosen exNet 1 (le_refl _) dist exStore 1
example (dist : Draws) := C63_randomize (dist := dist) (s := exStore) (n := exNet) exNet_wf.nodup 3 1
example := C63_sethiddenw (s := exStore) (n := exNet) exNet_wf.nodup 0 (Mat.of 3 3 (fun _ _ => 2))

/-! ## C64, C65, C67, C68 -/

example (junk : Nat → Nat → ℝ) := C67_training (junk := junk) exNet_wf (.inl rfl) exX exY
example := C67_cost (n := exNet) (.inl rfl) exPred exLabels
example (junk : Nat → Nat → ℝ) : ∃ (s1 : Store) (n1 : Net), (∃ s2 n2, n1.backprop junk s1 exY = .ok (s2, n2)) ∧ n1.backprop junk s1 (exY.rowMat 0) = .error .throw := by
  obtain ⟨s1, n1, e1, -⟩ := C28_network (junk := junk) exNet_wf hx rfl
  exact ⟨s1, n1, (C67_label exNet_wf (.inl rfl) e1 exY).1 ⟨rfl, rfl⟩, (C67_label exNet_wf (.inl rfl) e1 (exY.rowMat 0)).2 (fun h => by have : 1 = 5 := h.1; omega)⟩
/-- One sample, labels off by one. -/
example (junk : Nat → Nat → ℝ) : ∃ out s1 n1 s' n', exNet.forwardprop junk exStore (exX.rowMat 3) = .ok (out, s1, n1) ∧ exNet.trainOn junk exStore (exX.rowMat 3) (exY.rowMat 3) = .ok (s', n') ∧
    (Spec.model s' n' = Spec.model exStore exNet ↔ Spec.Perfect exNet.output.costd out (exY.rowMat 3)) := by
  obtain ⟨s1, n1, e1, -⟩ := C28_network (junk := junk) (x := exX.rowMat 3) exNet_wf (by show 0 < 1; omega) rfl
  obtain ⟨s', n', e, h⟩ := C65_single (y := exY.rowMat 3) exNet_wf rfl rfl rfl rfl (exNetWith_lambda _ _ _) (by show (1 : ℝ) / 10 ≠ 0; norm_num) (.inl rfl) e1
  exact ⟨_, s1, n1, s', n', e1, e, h⟩
/-- Labels equal to the outputs: nothing changes. -/
theorem exPerfect (junk : Nat → Nat → ℝ) : ∀ out s1 n1, exNet.forwardprop junk exStore exX = .ok (out, s1, n1) → Spec.Perfect exNet.output.costd out (outL (exNet.layers exStore) exX) := by
  intro out s1 n1 e
  obtain ⟨s2, n2, e2, -⟩ := Net.forwardprop_ok (junk := junk) (x := exX) exNet_wf hx rfl
  rw [e2] at e
  cases e
  exact .inl ⟨.inl rfl, rfl⟩
example (junk : Nat → Nat → ℝ) := C65_step (junk := junk) exNet_wf hx rfl (exPerfect junk)
example (junk : Nat → Nat → ℝ) := C65_training (junk := junk) (bs := [(exX, outL (exNet.layers exStore) exX), (exX, outL (exNet.layers exStore) exX)]) exNet_wf (exNetWith_lambda _ _ _) (by
  intro b hb
  simp only [List.mem_cons, List.not_mem_nil, or_false, or_self] at hb
  subst hb
  exact ⟨hx, rfl, exPerfect junk⟩)
theorem bothFit : Spec.BatchesFit 2 2 [(exX, exY), (exX, exY)] := by
  intro b hb
  simp only [List.mem_cons, List.not_mem_nil, or_false, or_self] at hb
  subst hb
  exact ⟨hx, rfl, rfl, rfl⟩
example (junk junk' : Nat → Nat → ℝ) := C64_weights_alone (junk := junk) (junk' := junk') (n' := { exNet with result := exPred }) (s' := exStore) exNet_wf
  ⟨exNet_wf.nodup, exNet_wf.dense, exNet_wf.pos, exNet_wf.fits⟩ rfl rfl C54_costs.1 bothFit
example (junk junk' : Nat → Nat → ℝ) := C80_renumbering (junk := junk) (junk' := junk') (ps := [Equiv.swap 0 2]) exNet_wf exNetR_wf
  (.cons (swap_permutes (by show 0 < 3; omega) (by show 2 < 3; omega)) .nil) rfl rfl C54_costs.1 bothFit

/-- Three samples on a line, learning rate 1/10. -/
theorem oneLin (s : Store) : Spec.LinearNet s (oneNet 7) 1 1 := ⟨oneNet_wf 7 s, rfl, rfl, rfl, rfl, by simp [oneNet, exLayer, Layer.default]⟩
theorem oneRate : (oneNet 7).output.lrate * ((∑ i ∈ range (Mat.of 2 1 (fun i _ => (i : ℝ))).nr, (1 + ∑ k ∈ range (Mat.of 2 1 (fun i _ => (i : ℝ))).nc,
    (Mat.of 2 1 (fun i _ => (i : ℝ))).f i k ^ 2)) / ((Mat.of 2 1 (fun i _ => (i : ℝ))).nr : ℝ)) ≤ 1 := by
  show 1 / 2 * ((∑ i ∈ range 2, (1 + ∑ k ∈ range 1, (Mat.of 2 1 (fun i _ => (i : ℝ))).f i k ^ 2)) / ((2 : ℕ) : ℝ)) ≤ 1
  rw [Finset.sum_range_succ, Finset.sum_range_one, Finset.sum_range_one, Finset.sum_range_one, Mat.of_f' (by omega) (by omega), Mat.of_f' (by omega) (by omega)]
  norm_num
/-- The labels 3 and 3 + 5. -/
abbrev oneY : Mat ℝ := Mat.of 2 1 (fun i _ => 3 + 5 * (i : ℝ) ^ 2)
example (junk : Nat → Nat → ℝ) (s : Store) := C68_descends (junk := junk) (x := Mat.of 2 1 (fun i _ => (i : ℝ))) (y := oneY) (oneLin s) (by show 0 < 2; omega) rfl rfl rfl (by show (0 : ℝ) ≤ 1 / 2; norm_num) (oneRate.trans (by norm_num))
example (junk : Nat → Nat → ℝ) (s : Store) := C68_optimal (junk := junk) (x := Mat.of 2 1 (fun i _ => (i : ℝ))) (y := oneY) (oneLin s) (by show 0 < 2; omega) rfl rfl rfl (by show (0 : ℝ) < 1 / 2; norm_num) oneRate
example (junk : Nat → Nat → ℝ) (s : Store) := C68_rate (junk := junk) (x := Mat.of 2 1 (fun i _ => (i : ℝ))) (y := oneY) (oneLin s) (by show 0 < 2; omega) rfl rfl rfl (by show (0 : ℝ) < 1 / 2; norm_num) oneRate
example (junk : Nat → Nat → ℝ) (s : Store) := C68_single (junk := junk) (x := linX) (y := linX) (oneLin s) rfl rfl rfl rfl

/-! ## C69, C71 -/

example (dist : Draws) (io : TextIO) (mem mem' : Nat → Nat → Nat → ℝ) (fs : Files) (r : Spec.Recipe) := C69_determinate dist io mem mem' fs r
  [.make 0 (.momentum (1 / 2) none), .feed 0 exX exY true, .call (.predict exX), .call .update, .call (.save "w" true)] (by simp [Spec.GradientsFirst, Spec.Stmt.usesGradients, Spec.Stmt.backprops, hx])
example := C71_xor_draw 3 2 (Mat.of 6 1 (fun i _ => if i < 2 then 1 else 0)) rfl (by show 0 < 1; omega)
example := C71_spiral_draw 3 2 (Mat.of 6 1 (fun i _ => ((i % 3 : Nat) : ℝ))) rfl (by show 0 < 1; omega) (fun i hi => ⟨i % 3, by omega, Mat.of_f' hi (by omega)⟩)

end Witness
end
end Nnet.NN
