import Verif.NN.WitnessNet
import Verif.NN.PropsFeedCost
import Verif.NN.PropsDecay
/-!
# The hypotheses of the training theorems are met (2): updates, initial weights, the trainers
-/
namespace Nnet.NN
open Finset
noncomputable section
namespace Witness

/-! ## C33 -/

theorem exNetWith_lambda (act : ActFunc ℝ) (cost : MatFunc) (costd : MatFuncD) : ∀ L ∈ (exNetWith act cost costd).layers exStore, L.lambda = 0 := by
  intro L hL
  simp only [Net.layers, Net.hiddenLayers, exNetWith, exNet, exStore, List.map_cons, List.map_nil, List.cons_append, List.nil_append, List.mem_cons, List.not_mem_nil, or_false] at hL
  rcases hL with rfl | rfl <;> rfl

example (junk : Nat → Nat → ℝ) : ∃ ε > 0, ∃ J0, exNet.costOf junk exStore exX exY = .ok J0 ∧ ∀ r, 0 < r → r < ε →
      ∃ s' n' J', exNet.stepWith junk exStore r exX exY = .ok (s', n') ∧ n'.costOf junk s' exX exY = .ok J' ∧ J' < J0 := by
  obtain ⟨out, s1, n1, s2, n2, e1, e2, hne, hl, -⟩ := exDescent junk
  exact C33_descent_outputs exNet_wf hx rfl rfl rfl exSmooth (.inl ⟨rfl, rfl, rfl⟩) hl e1 e2 hne

/-- The network with a Kullback-Leibler output. -/
abbrev klNet : Net := exNetWith Act.identity KullbackLeibler.cost KullbackLeibler.costd

/-- Labels equal to its outputs. -/
abbrev klY : Mat ℝ := klNet.outputZ exStore exX

theorem klOut : outL (klNet.layers exStore) exX = klY := by
  rw [outL_layers]
  refine Mat.ext' (Mat.map_nr ..) (Mat.map_nc ..) fun i j hi hj => ?_
  rw [Mat.map_f' (by rwa [Mat.map_nr] at hi) (by rwa [Mat.map_nc] at hj)]
  rfl

/-- The step on these labels has a gradient that is not 0. -/
theorem klGrad (junk : Nat → Nat → ℝ) : ∃ out s1 n1 s2 n2, klNet.forwardprop junk exStore exX = .ok (out, s1, n1) ∧ n1.backprop junk s1 klY = .ok (s2, n2) ∧
    ∃ L ∈ n2.layers s2, ∃ i < L.W.nr, ∃ j < L.W.nc, L.grad.f i j ≠ 0 := by
  have hw : klNet.WF exStore 2 2 := exNetWith_wf _ _ _
  obtain ⟨d1, d2⟩ := outputZ_dims hw (x := exX) rfl
  obtain ⟨D, hD, hD1, hD2⟩ := C54_costs.2.2.2 klY (klY.map Act.identity.act) klY rfl rfl rfl rfl
  obtain ⟨s1, n1, s2, n2, e1, e2, hb, -, hr⟩ := passes_ok (junk := junk) (y := klY) hw hx rfl hD (by rw [hD1, d1]) (by rw [hD2, d2])
  refine ⟨_, s1, n1, s2, n2, e1, e2, ?_⟩
  obtain ⟨s3, n3, e3, -, -, h3⟩ := C33_update hr.wf hr.grads
  obtain ⟨s4, n4, e4, h4⟩ := C65_kullbackleibler_refuted (junk := junk) hw hx rfl rfl rfl e1 (by
    intro i j hi hj
    rw [klOut] at hi hj ⊢
    exact (exOut_pos _ _ i (by rw [d1] at hi; exact hi) j (by rw [d2] at hj; exact hj)).ne')
  rw [klOut] at e4
  have e5 : klNet.trainOn junk exStore exX klY = .ok (s3, n3) := by
    unfold Net.trainOn
    rw [e1, ok_bind]
    simp only
    rw [e2, ok_bind]
    exact e3
  rw [e5] at e4
  cases e4
  have hWs := passed_W exStore klNet exX D
  rw [← hb.layers] at hWs
  have hW : n2.output.W = klNet.output.W := by
    unfold Net.layers at hWs
    rw [List.map_append, List.map_append] at hWs
    exact List.singleton_inj.1 (List.append_inj' hWs rfl).2
  refine ⟨n2.output.toLayer, by simp [Net.layers], 0, by rw [hW]; show 0 < 4; omega, 0, by rw [hW]; show 0 < 2; omega, fun h0 => ?_⟩
  have h5 := h4 0 (by omega)
  rw [h3] at h5
  replace h5 : (Spec.moved n2.output.toLayer).f 0 0 = _ := h5
  unfold Spec.moved at h5
  rw [Mat.of_f' (by rw [hW]; show 0 < 4; omega) (by rw [hW]; show 0 < 2; omega), h0, mul_zero, sub_zero, hW] at h5
  have : klNet.output.lrate = 1 / 10 := rfl
  rw [this] at h5
  linarith

example (junk : Nat → Nat → ℝ) : ∃ ε > 0, ∃ J0, klNet.costOf junk exStore exX klY = .ok J0 ∧ ∀ r, 0 < r → r < ε →
      ∃ s' n' J', klNet.stepWith junk exStore r exX klY = .ok (s', n') ∧ n'.costOf junk s' exX klY = .ok J' ∧ J0 < J' := by
  obtain ⟨out, s1, n1, s2, n2, e1, e2, hne⟩ := klGrad junk
  obtain ⟨d1, d2⟩ := outputZ_dims (exNetWith_wf Act.identity KullbackLeibler.cost KullbackLeibler.costd) (x := exX) rfl
  have hp : ∀ i < klY.nr, ∀ j < klY.nc, 0 < klY.f i j := fun i hi j hj => exOut_pos _ _ i (by rw [d1] at hi; exact hi) j (by rw [d2] at hj; exact hj)
  exact C33_kullbackleibler_climbs (exNetWith_wf _ _ _) hx rfl d1 d2 hp hp (exNetWith_smooth _ _ _) rfl rfl rfl (exNetWith_lambda _ _ _) e1 e2 hne
theorem exGrads : ∀ L ∈ exNet.layers exStore, L.grad.nr = L.W.nr ∧ L.grad.nc = L.W.nc := by
  intro L hL
  simp only [Net.layers, Net.hiddenLayers, exNet, exStore, List.map_cons, List.map_nil, List.cons_append, List.nil_append, List.mem_cons, List.not_mem_nil, or_false] at hL
  rcases hL with rfl | rfl <;> exact ⟨rfl, rfl⟩
example := C33_update exNet_wf exGrads

/-! ## C34, C53 -/

example (dist : Draws) := C34_randominit dist (exLayer Act.sigmoid (Mat.of 3 3 (fun i j => (i : ℝ) - j))) (1 / 2) (by norm_num)
example (dist : Draws) : ∃ L' M', (exLayer Act.sigmoid (Mat.of 3 3 (fun i j => (i : ℝ) - j))).randominit dist 1 = .ok L' ∧
    (exLayer Act.relu (Mat.of 3 3 (fun _ _ => (5 : ℝ)))).randominit dist 1 = .ok M' ∧ L'.W = M'.W := by
  obtain ⟨L', e, -⟩ := C34_randominit dist (exLayer Act.sigmoid (Mat.of 3 3 (fun i j => (i : ℝ) - j))) 1 (by norm_num)
  obtain ⟨M', e', -⟩ := C34_randominit dist (exLayer Act.relu (Mat.of 3 3 (fun _ _ => (5 : ℝ)))) 1 (by norm_num)
  exact ⟨L', M', e, e', C34_deterministic dist _ _ L' M' 1 (by show 3 = 3; rfl) (by show 3 = 3; rfl) e e'⟩

/-! ## C39 - C41, C56, C57 -/

/-- A program with one network. -/
abbrev exWorld : World := ⟨fun _ => exNet, exStore⟩

theorem exFits : Spec.CallFits exWorld 0 2 2 exX exY := ⟨exNet_wf, .inl rfl, .inl rfl, hx, rfl, rfl, rfl⟩

/-- A trainer with decay, due in the second call. -/
abbrev decTrainer : Trainer := .newDecay 0 (1 / 10) 1 2

example (junk : Nat → Nat → ℝ) : ∃ w' t', decTrainer.feeddata junk exWorld exX exY = .ok (w', t') ∧ Spec.RateCall decTrainer t' exWorld w' := by
  obtain ⟨c, w', t', e⟩ := (C57_succeeds (junk := junk) exFits false).1 decTrainer rfl
  have e' := (C57_trainer (p := 2) (q := 2) exNet_wf hx rfl e).1
  exact ⟨w', t', e', C39_trainer_call e'⟩

example (junk : Nat → Nat → ℝ) : ∃ w' t', SGD.feeddata junk exWorld decTrainer exX exY = .ok (w', t') ∧ Spec.RateCall decTrainer t' exWorld w' := by
  obtain ⟨c, w', t', e⟩ := (C57_succeeds (junk := junk) exFits true).2.1 decTrainer rfl
  obtain ⟨w1, e', -⟩ := C40_cost (p := 2) (q := 2) exNet_wf rfl e
  exact ⟨w1, t', e', C39_sgd_call e'⟩

/-- A batch trainer with batches of two samples: five samples make three batches, and the decay is due after the third. -/
abbrev batTrainer : BatchTrainer := .newDecay 0 2 (1 / 10) 1 3

theorem batFeed (junk : Nat → Nat → ℝ) : ∃ w' t', batTrainer.feeddata junk exWorld exX exY = .ok (w', t') := by
  rw [C41_batches (x := exX) (y := exY) (b := 2) rfl (by omega) (by show 2 ≤ 5 + 1; omega) rfl (by show 0 < 2; omega) (by show 0 < 2; omega) (by show 0 < 2 ^ 64; omega)]
  have hfit : ∀ d ∈ Spec.batches exX exY 2, 0 < d.1.nr ∧ d.1.nc = 2 ∧ d.2.nr = d.1.nr ∧ d.2.nc = 2 ∧ d.1.nr = 2 := by
    intro d hd
    obtain ⟨a1, a2, a3, a4⟩ := (C41_coverage exX exY 2 (by omega) rfl).2.1 d hd
    exact ⟨by omega, a3, by omega, a4, a1⟩
  obtain ⟨s', n', e, -⟩ := trainSeq_kept (junk := junk) exNet_wf C54_costs.1 hfit (by
    intro h
    have := (C41_coverage exX exY 2 (by omega) rfl).1 0 hx
    rw [h] at this
    obtain ⟨t, _, h0, _⟩ := this
    simp at h0)
  rw [e]
  exact ⟨_, _, rfl⟩

example (junk : Nat → Nat → ℝ) : ∃ w' t', batTrainer.feeddata junk exWorld exX exY = .ok (w', t') ∧ t'.iters = 3 ∧ (w'.nets 0).AllRates w'.store (1 / 10 * Real.exp (-1 * (3 : Nat))) := by
  obtain ⟨w', t', e⟩ := batFeed junk
  obtain ⟨h1, h2, -⟩ := C39_batch_call (by show 0 < 2 ^ 64; omega) e
  have h1' : t'.iters = 3 := h1
  exact ⟨w', t', e, h1', (h2 rfl h1').2⟩
example (junk : Nat → Nat → ℝ) : batTrainer.feedcost junk exWorld exX exY true = .error .throw := by
  obtain ⟨w', t', e⟩ := batFeed junk
  exact C57_batch_refuted (b := 2) exNet_wf rfl rfl (by show 0 < 2; omega) rfl rfl (by omega) (by show 2 ≤ 5 + 1; omega) (by show 2 ≠ 5; omega) (by show 0 < 2 ^ 64; omega) e
example (junk : Nat → Nat → ℝ) (w : World) := C40_rows (junk := junk) (w := w) (t := decTrainer) (x := exX) (y := exY) (le_refl _)
example (junk : Nat → Nat → ℝ) (w : World) := C40_like_trainer (junk := junk) (w := w) (p := 0) (x := exX) (y := exY) (le_refl _)
example (junk : Nat → Nat → ℝ) (w : World) := C40_missing_labels (junk := junk) (w := w) (t := decTrainer) (x := exX) (y := exY.rowMat 0) (by show 1 < 5; omega)
/-- A batch size larger than the number of samples by two or more. -/
example (junk : Nat → Nat → ℝ) (w : World) := C41_throws (junk := junk) (w := w) (t := .new 0 7) (x := exX) (y := exY) (.inr (.inl (by show (5 : Int) + 1 < 7; norm_num)))
example (junk : Nat → Nat → ℝ) := C56_average (junk := junk) exNet_wf hx rfl rfl rfl C56_outputs.1

/-! ## C42, C43 -/

/-- Any number of calls of a new momentum trainer, each on the weights the last one left. -/
theorem exCalls (junk : Nat → Nat → ℝ) (m : ℝ) : ∃ (W : Nat → World) (T : Nat → MomentumTrainer), T 0 = MomentumTrainer.initmomentum exWorld (Trainer.new 0) m ∧
    Spec.Calls junk 1000 W (fun t => W (t + 1)) T (fun _ => exX) (fun _ => exY) := by
  let Inv : Nat → World × MomentumTrainer → Prop := fun t st => (st.1.nets st.2.nnet).WF st.1.store 2 2 ∧ OutputLayer.DeltaOK (st.1.nets st.2.nnet).output.costd ∧
    (st.2.hgrads ++ [st.2.ograd]).map dims = (st.1.nets st.2.nnet).shapes st.1.store ∧ st.2.iters = t
  have hstep : ∀ t st, t < 1000 → Inv t st → ∃ st' : World × MomentumTrainer, st.2.feeddata junk st.1 exX exY = .ok st' ∧ Inv (t + 1) st' := by
    rintro t ⟨w, T⟩ ht ⟨i1, i2, i3, i4⟩
    simp only at i1 i2 i3 i4
    obtain ⟨s', n', T', e, hr, hk, h1, h2⟩ := momentum_kept (junk := junk) (y := exY) i1 i2 hx rfl rfl rfl i3 (by rw [i4]; omega)
    refine ⟨_, e, ?_, ?_, ?_, ?_⟩
    all_goals simp only
    · rw [show T'.nnet = T'.toTrainer.nnet from rfl, h1, show T.toTrainer.count.nnet = T.nnet from rfl, put_nets]; exact hr.wf
    · rw [show T'.nnet = T'.toTrainer.nnet from rfl, h1, show T.toTrainer.count.nnet = T.nnet from rfl, put_nets, hk.conf.ocostd]; exact i2
    · rw [show T'.nnet = T'.toTrainer.nnet from rfl, h1, show T.toTrainer.count.nnet = T.nnet from rfl, put_nets, h2, i3]; exact hk.shapes.symm
    · rw [show T'.iters = T'.toTrainer.iters from rfl, h1]
      show (T.iters + 1) % 2 ^ 64 = t + 1
      rw [i4]; omega
  have h0 : Inv 0 (exWorld, MomentumTrainer.initmomentum exWorld (Trainer.new 0) m) := by
    obtain ⟨-, h1, -⟩ := C54_new_trainers exWorld 0 2 m 1 1 1 5 (by omega) (.momentum (.new exWorld 0 m)) (by simp)
    exact ⟨exNet_wf, C54_costs.1, h1, rfl⟩
  have hall : ∀ N ≤ 1000, ∃ S : Nat → World × MomentumTrainer, S 0 = (exWorld, MomentumTrainer.initmomentum exWorld (Trainer.new 0) m) ∧ Inv N (S N) ∧
      ∀ t < N, (S t).2.feeddata junk (S t).1 exX exY = .ok (S (t + 1)) := by
    intro N
    induction N with
    | zero => exact fun _ => ⟨fun _ => _, rfl, h0, fun t ht => by omega⟩
    | succ N ih =>
      intro hN
      obtain ⟨S, s1, s2, s3⟩ := ih (by omega)
      obtain ⟨st, e, hi⟩ := hstep N (S N) (by omega) s2
      refine ⟨fun t => if t ≤ N then S t else st, by simp [s1], by simpa using hi, fun t ht => ?_⟩
      by_cases h : t < N
      · simp only
        rw [if_pos (by omega), if_pos (by omega)]
        exact s3 t h
      · obtain rfl : t = N := by omega
        simp only
        rw [if_pos (by omega), if_neg (by omega)]
        exact e
  obtain ⟨S, s1, -, s3⟩ := hall 1000 (le_refl _)
  exact ⟨fun t => (S t).1, fun t => (S t).2, by simp only [s1], fun t ht => by rw [s3 t ht]⟩

example (junk : Nat → Nat → ℝ) : ∃ (W : Nat → World) (T : Nat → MomentumTrainer), ∀ i j,
    (T 1000).ograd.f i j = ∑ k ∈ range 1000, (9 / 10) ^ (1000 - 1 - k) * (1 - 9 / 10) * ((W (k + 1)).nets 0).output.grad.f i j := by
  obtain ⟨W, T, h0, h⟩ := exCalls junk (9 / 10)
  exact ⟨W, T, C42_output h h0 rfl (by omega) 1000 (le_refl _)⟩
example (junk : Nat → Nat → ℝ) : ∃ (W : Nat → World) (T : Nat → MomentumTrainer) (G : Mat ℝ) (g : Nat → Layer), (T 1000).hgrads[0]? = some G ∧
    (∀ k < 1000, ((W (k + 1)).nets 0).gethidden (W (k + 1)).store 0 = .ok (g k)) ∧ ∀ i j, G.f i j = ∑ k ∈ range 1000, (9 / 10) ^ (1000 - 1 - k) * (1 - 9 / 10) * (g k).grad.f i j := by
  obtain ⟨W, T, h0, h⟩ := exCalls junk (9 / 10)
  obtain ⟨G, g, h1⟩ := C42_hidden h h0 rfl (by omega) (by norm_num) (l := 0) (by show 0 < 1; omega) 1000 (le_refl _)
  exact ⟨W, T, G, g, h1⟩
example (junk : Nat → Nat → ℝ) : ∃ (W : Nat → World) (T : Nat → MomentumTrainer) (G : Mat ℝ) (g : Layer), (T 3).hgrads[0]? = some G ∧ ((W 3).nets 0).gethidden (W 3).store 0 = .ok g ∧
    ∀ i j, G.f i j = g.grad.f i j / (3 : Nat) := by
  obtain ⟨W, T, h0, h⟩ := exCalls junk 0
  obtain ⟨G, g, h1⟩ := C43_direction h h0 rfl (by omega) (l := 0) (by show 0 < 1; omega) (t := 2) (by omega)
  exact ⟨W, T, G, g, h1⟩
example (junk : Nat → Nat → ℝ) : ∃ (T : Nat → MomentumTrainer) (G : Mat ℝ) (g : Nat → Layer), (T 6).hgrads[0]? = some G ∧
    ∀ i j, (G.f i j = (∑ k ∈ range 6, (g k).grad.f i j) / (6 : Nat) ↔ ∑ k ∈ range 5, (g k).grad.f i j = 0) := by
  obtain ⟨W, T, h0, h⟩ := exCalls junk 0
  obtain ⟨G, -, h1, -⟩ := C43_direction h h0 rfl (by omega) (l := 0) (by show 0 < 1; omega) (t := 5) (by omega)
  have hg : ∀ k, ∃ g, k ≤ 5 → ((W (k + 1)).nets 0).gethidden (W (k + 1)).store 0 = .ok g := by
    intro k
    by_cases hk : k ≤ 5
    · obtain ⟨-, g, -, h2, -⟩ := C43_direction h h0 rfl (by omega) (l := 0) (by show 0 < 1; omega) (t := k) (by omega)
      exact ⟨g, fun _ => h2⟩
    · exact ⟨exLayer Act.relu .empty, fun h => (hk h).elim⟩
  choose g hg using hg
  exact ⟨T, G, g, h1, fun i j => C43_refuted h h0 rfl (by omega) (l := 0) (by show 0 < 1; omega) (t := 5) (by omega) (fun k hk => hg k hk) h1 i j⟩
example (junk : Nat → Nat → ℝ) : ∃ w' t', (MomentumTrainer.new exWorld 0 (9 / 10)).feeddata junk exWorld exX exY = .ok (w', t') ∧
    Spec.RateCall (MomentumTrainer.new exWorld 0 (9 / 10)).toTrainer t'.toTrainer exWorld w' ∧ (w'.nets 0).WF w'.store 2 2 := by
  obtain ⟨c, w', t', e⟩ := (C57_succeeds (junk := junk) exFits true).2.2.1 (.new exWorld 0 (9 / 10)) (C54_new_trainers exWorld 0 2 (9 / 10) 1 1 1 1 (by omega) _ (by simp))
  obtain ⟨e1, -⟩ := C57_momentum (p := 2) (q := 2) exNet_wf hx rfl e
  exact ⟨w', t', e1, C39_momentum_call e1, (C42_step exNet_wf hx rfl e1).2.2.1⟩

end Witness
end
end Nnet.NN
