import Verif.NN.PropsResume
/-!
# C65: a perfect fit is a fixed point of training
-/
namespace Nnet.NN
open Finset
noncomputable section

/-- The output layer's cost has the derivative zero at this prediction: the prediction is the label, or for the softmax output the softmax of the prediction is the label. -/
def Spec.Perfect (costd : MatFuncD) (out y : Mat ℝ) : Prop :=
  ((costd = Quadratic.costd ∨ costd = CrossEntropy.costd) ∧ out = y) ∨
  (costd = Softmax.costd ∧ out.nr = y.nr ∧ out.nc = y.nc ∧ ∀ i j, i < y.nr → j < y.nc → y.f i j = Real.exp (out.f i j) / ∑ k ∈ range y.nc, Real.exp (out.f i k))

theorem gradOf_zero {pa D : Mat ℝ} (h : ∀ i j, D.f i j = 0) (i j : Nat) : (Layer.gradOf pa D).f i j = 0 := by
  unfold Layer.gradOf
  by_cases hij : i < pa.nc ∧ j < D.nc
  · rw [Mat.of_f' hij.1 hij.2]
    exact Finset.sum_eq_zero fun k _ => by rw [h, mul_zero]
  · exact Mat.out _ i j (by exact hij)

theorem backOf_zero {D W : Mat ℝ} (h : ∀ i j, D.f i j = 0) (i j : Nat) : (Layer.backOf D W).f i j = 0 := by
  unfold Layer.backOf
  by_cases hij : i < D.nr ∧ j < W.nr - 1
  · rw [Mat.of_f' hij.1 hij.2]
    exact Finset.sum_eq_zero fun k _ => by rw [h, zero_mul]
  · exact Mat.out _ i j (by exact hij)

theorem dz_zero {L : Layer} {d : Mat ℝ} (h : ∀ i j, d.f i j = 0) (i j : Nat) : (L.dz d).f i j = 0 := by
  unfold Layer.dz
  by_cases hij : i < d.nr ∧ j < d.nc
  · rw [Mat.of_f' hij.1 hij.2, h, zero_mul]
  · exact Mat.out _ i j (by exact hij)

/-- Settings and weights after weight decay only. -/
def Spec.decayed (c : ℝ × ℝ × ActFunc ℝ × Mat ℝ) : ℝ × ℝ × ActFunc ℝ × Mat ℝ := (c.1, c.2.1, c.2.2.1, c.2.2.2.map (fun w => (1 - c.1 * c.2.1) * w))

theorem upd_zero {L : Layer} {D : Mat ℝ} (h : ∀ i j, D.f i j = 0) (dl : Mat ℝ) : (Layer.upd { L with delta := dl, grad := L.regGrad D }).core = Spec.decayed L.core := by
  unfold Layer.core Layer.upd Spec.decayed
  simp only
  congr 3
  refine Mat.ext' rfl rfl fun i j hi hj => ?_
  replace hi : i < L.W.nr := hi
  replace hj : j < L.W.nc := hj
  rw [Mat.of_f' hi hj, Mat.map_f' hi hj]
  unfold Layer.regGrad
  rw [Mat.of_f' hi hj, gradOf_zero h]
  ring

theorem bwdL_zero : ∀ (Ls : List Layer) {d : Mat ℝ}, (∀ i j, d.f i j = 0) →
    ((bwdL Ls d).1.map Layer.upd).map Layer.core = (Ls.map Layer.core).map Spec.decayed ∧ ∀ i j, (bwdL Ls d).2.f i j = 0
  | [], d, h => ⟨rfl, h⟩
  | L :: Ls, d, h => by
    obtain ⟨h1, h2⟩ := bwdL_zero Ls h
    have h3 := dz_zero (L := L) h2
    refine ⟨?_, fun i j => backOf_zero h3 i j⟩
    show Layer.core (Layer.upd (L.bwd (bwdL Ls d).2)) :: _ = Spec.decayed L.core :: _
    rw [h1]
    congr 1
    exact upd_zero h3 _

theorem passed_zero {s : Store} {n : Net} {x D : Mat ℝ} (h : ∀ i j, D.f i j = 0) :
    ((n.passed s x D).map Layer.upd).map Layer.core = ((n.layers s).map Layer.core).map Spec.decayed := by
  unfold Net.passed bwdNet Net.layers
  rw [List.map_append, List.map_append, List.map_append, List.map_append, (bwdL_zero _ (backOf_zero h)).1, fwdL_core]
  congr 1
  simp only [List.map_cons, List.map_nil]
  rw [upd_zero h]
  rfl

/-- At a perfect fit the derivative is zero. -/
theorem perfect_delta {costd : MatFuncD} {a y z : Mat ℝ} (h : Spec.Perfect costd a y) : ∃ D, costd y a z = .ok D ∧ D.nr = y.nr ∧ D.nc = y.nc ∧ ∀ i j, D.f i j = 0 := by
  rcases h with ⟨h, rfl⟩ | ⟨rfl, h1, h2, h3⟩
  · refine ⟨Mat.of a.nr a.nc (fun i j => (a.f i j - a.f i j) / a.nr), ?_, rfl, rfl, fun i j => ?_⟩
    · rcases h with rfl | rfl <;> exact diff_costd rfl rfl
    · by_cases hij : i < a.nr ∧ j < a.nc
      · rw [Mat.of_f' hij.1 hij.2]; simp
      · exact Mat.out _ i j (by exact hij)
  · refine ⟨_, softmax_costd h1 h2, h1, h2, fun i j => ?_⟩
    by_cases hij : i < y.nr ∧ j < y.nc
    · rw [Mat.of_f' (by rw [h1]; exact hij.1) (by rw [h2]; exact hij.2), h3 i j hij.1 hij.2]
      unfold Spec.softmaxAt
      rw [h2]; simp
    · refine Mat.out _ i j ?_
      show ¬ (i < a.nr ∧ j < a.nc)
      rw [h1, h2]; exact hij

theorem outL_layers (s : Store) (n : Net) (x : Mat ℝ) : outL (n.layers s) x = (n.outputZ s x).map n.output.actfunc.act := by
  rw [outputZ_eq, Net.layers, outL_append]
  rfl

/-- What one training step does to the layers, with the derivative `D` the output layer computed. -/
theorem trainOn_delta {junk : Nat → Nat → ℝ} {s : Store} {n : Net} {p q : Nat} {x y D : Mat ℝ} (h : n.WF s p q) (hr : 0 < x.nr) (hc : x.nc = p)
    (hD : n.output.costd y (outL (n.layers s) x) (n.outputZ s x) = .ok D) (hD1 : D.nr = x.nr) (hD2 : D.nc = q) :
    ∃ s' n', n.trainOn junk s x y = .ok (s', n') ∧ n'.WF s' p q ∧ n'.output.costd = n.output.costd ∧
      Spec.model s' n' = ((n.passed s x D).map Layer.upd).map Layer.core := by
  rw [outL_layers] at hD
  obtain ⟨s1, n1, e1, b1, -, w1⟩ := trainOn_ok (junk := junk) h hr hc hD hD1 hD2
  refine ⟨s1, n1, e1, w1.wf, b1.conf.ocostd, ?_⟩
  rw [← b1.layers]
  rfl

/-- **C65** (one step). Training a well-formed dense network on a batch it already fits perfectly (prediction = label for the quadratic and cross-entropy outputs, softmax of the prediction = label
for the softmax output) multiplies the weights of every layer by `1 - lrate * lambda` and changes no setting. -/
theorem C65_step {junk : Nat → Nat → ℝ} {s : Store} {n : Net} {p q : Nat} {x y : Mat ℝ} (h : n.WF s p q) (hr : 0 < x.nr) (hc : x.nc = p)
    (hfit : ∀ out s1 n1, n.forwardprop junk s x = .ok (out, s1, n1) → Spec.Perfect n.output.costd out y) :
    ∃ s' n', n.trainOn junk s x y = .ok (s', n') ∧ n'.WF s' p q ∧ n'.output.costd = n.output.costd ∧ Spec.model s' n' = (Spec.model s n).map Spec.decayed := by
  obtain ⟨s1, n1, e1, -⟩ := Net.forwardprop_ok (junk := junk) h hr hc
  have hp := hfit _ _ _ e1
  obtain ⟨d1, d2⟩ := outL_dims (Ls := n.layers s) (x := x) (q := q) (by rw [hc]; exact h.fits)
  obtain ⟨D, hD, k1, k2, k3⟩ := perfect_delta (z := n.outputZ s x) hp
  have hy : y.nr = x.nr ∧ y.nc = q := by
    rcases hp with ⟨-, hp⟩ | ⟨-, h1, h2, -⟩
    · rw [← hp]; exact ⟨d1, d2⟩
    · exact ⟨by rw [← h1, d1], by rw [← h2, d2]⟩
  obtain ⟨s2, n2, e2, w2, c2, m2⟩ := trainOn_delta (junk := junk) h hr hc hD (by rw [k1, hy.1]) (by rw [k2, hy.2])
  refine ⟨s2, n2, e2, w2, c2, ?_⟩
  rw [m2, passed_zero k3]
  rfl

theorem decayed_zero {c : ℝ × ℝ × ActFunc ℝ × Mat ℝ} (h : c.2.1 = 0) : Spec.decayed c = c := by
  obtain ⟨a, b, f, W⟩ := c
  simp only at h
  subst h
  unfold Spec.decayed
  simp only [mul_zero, sub_zero, one_mul]
  congr 3
  exact Mat.ext' rfl rfl fun i j hi hj => by rw [Mat.map_f' (by exact hi) (by exact hj)]

/-- **C65** (training). Without regularisation, training on any sequence of batches that the network fits perfectly leaves all its weights and settings unchanged. -/
theorem C65_training {junk : Nat → Nat → ℝ} {p q : Nat} : ∀ {bs : List (Mat ℝ × Mat ℝ)} {s : Store} {n : Net}, n.WF s p q → (∀ L ∈ n.layers s, L.lambda = 0) →
    (∀ b ∈ bs, 0 < b.1.nr ∧ b.1.nc = p ∧ ∀ out s1 n1, n.forwardprop junk s b.1 = .ok (out, s1, n1) → Spec.Perfect n.output.costd out b.2) →
    ∃ s' n', Net.trainAll junk bs s n = .ok (s', n') ∧ Spec.model s' n' = Spec.model s n
  | [], s, n, _, _, _ => ⟨s, n, rfl, rfl⟩
  | (x, y) :: bs, s, n, h, hl, hb => by
    obtain ⟨b1, b2, b3⟩ := hb (x, y) (by simp)
    obtain ⟨s1, n1, e1, w1, c1, m1⟩ := C65_step (junk := junk) h b1 b2 b3
    have hm : Spec.model s1 n1 = Spec.model s n := by
      rw [m1]
      conv_rhs => rw [← List.map_id (Spec.model s n)]
      refine List.map_congr_left fun c hc => decayed_zero ?_
      unfold Spec.model at hc
      obtain ⟨L, hL, rfl⟩ := List.mem_map.1 hc
      exact hl L hL
    have hl1 : ∀ L ∈ n1.layers s1, L.lambda = 0 := by
      intro L hL
      have : (L.lrate, L.lambda, L.actfunc, L.W) ∈ Spec.model s1 n1 := List.mem_map.2 ⟨L, hL, rfl⟩
      rw [hm] at this
      obtain ⟨M, hM, e⟩ := List.mem_map.1 this
      have := hl M hM
      simp only [Prod.mk.injEq] at e
      rw [← e.2.1]; exact this
    obtain ⟨s2, n2, e2, m2⟩ := C65_training (bs := bs) (junk := junk) w1 hl1 (fun b hbm => by
      obtain ⟨k1, k2, k3⟩ := hb b (by simp [hbm])
      refine ⟨k1, k2, fun out t m e => ?_⟩
      obtain ⟨out', t1, m1', t2, m2', f1, f2⟩ := predict_core (junk := junk) (junk' := junk) h w1 hm.symm k1 k2
      rw [f2] at e
      cases e
      rw [c1]
      exact k3 _ _ _ f1)
    refine ⟨s2, n2, ?_, m2.trans hm⟩
    simp only [Net.trainAll]
    rw [e1, ok_bind]
    exact e2

/-- The output layer's weights after a step. -/
theorem model_last {s : Store} {n : Net} {x D : Mat ℝ} : ((((n.passed s x D).map Layer.upd).map Layer.core).getLast?) =
    some (Layer.upd { n.output.toLayer.fwd (outL (n.hiddenLayers s) x) with delta := D, grad := (n.output.toLayer.fwd (outL (n.hiddenLayers s) x)).regGrad D }).core := by
  unfold Net.passed bwdNet
  simp

/-- The bias weights of the output layer after a step on the derivative `D`. -/
theorem bias_step {s : Store} {n : Net} {p q : Nat} {x D : Mat ℝ} (h : n.WF s p q) (hc : x.nc = p) (hD1 : D.nr = x.nr) (hD2 : D.nc = q)
    {s' : Store} {n' : Net} (hm : Spec.model s' n' = ((n.passed s x D).map Layer.upd).map Layer.core) (j : Nat) (hj : j < q) :
    n'.output.W.f 0 j = n.output.W.f 0 j - n.output.lrate * (∑ i ∈ range x.nr, D.f i j + n.output.lambda * n.output.W.f 0 j) := by
  have h1 : (Spec.model s' n').getLast? = some n'.output.toLayer.core := by
    unfold Spec.model Net.layers
    simp
    rfl
  rw [hm, model_last] at h1
  have h2 := congrArg (fun c : ℝ × ℝ × ActFunc ℝ × Mat ℝ => c.2.2.2.f 0 j) (Option.some.inj h1)
  obtain ⟨r, hf1, hf2, hf3, hf4⟩ := h.split
  obtain ⟨d1, d2⟩ := outL_dims (Ls := n.hiddenLayers s) (x := x) (q := r) (by rw [hc]; exact hf1)
  replace h2 : (Mat.of n.output.W.nr n.output.W.nc (fun i j => n.output.W.f i j - n.output.lrate * ((n.output.toLayer.fwd (outL (n.hiddenLayers s) x)).regGrad D).f i j)).f 0 j = n'.output.W.f 0 j := h2
  rw [← h2, Mat.of_f' (by omega) (by omega)]
  unfold Layer.regGrad
  rw [Mat.of_f' (by show 0 < n.output.W.nr; omega) (by show j < n.output.W.nc; omega)]
  unfold Layer.gradOf
  rw [Mat.of_f' (by show 0 < (ones1 (outL (n.hiddenLayers s) x)).nc; simp [ones1]) (by rw [hD2]; exact hj)]
  show n.output.W.f 0 j - n.output.lrate * (∑ i ∈ range (outL (n.hiddenLayers s) x).nr, (ones1 (outL (n.hiddenLayers s) x)).f i 0 * D.f i j + n.output.lambda * n.output.W.f 0 j) = _
  rw [d1]
  congr 3
  refine Finset.sum_congr rfl fun i hi => ?_
  rw [Finset.mem_range] at hi
  unfold ones1
  rw [Mat.of_f' (by rw [d1]; exact hi) (by omega), if_pos rfl, one_mul]

/-- **C65** (one sample). For one sample, without regularisation and with a learning rate that is not zero, a training step leaves the weights unchanged exactly if the network fits the sample perfectly. -/
theorem C65_single {junk : Nat → Nat → ℝ} {s s1 : Store} {n n1 : Net} {p q : Nat} {x y out : Mat ℝ} (h : n.WF s p q) (hr : x.nr = 1) (hc : x.nc = p) (hyr : y.nr = 1) (hyc : y.nc = q)
    (hl : ∀ L ∈ n.layers s, L.lambda = 0) (hlr : n.output.lrate ≠ 0)
    (hcd : n.output.costd = Quadratic.costd ∨ n.output.costd = CrossEntropy.costd ∨ n.output.costd = Softmax.costd) (hf : n.forwardprop junk s x = .ok (out, s1, n1)) :
    ∃ s' n', n.trainOn junk s x y = .ok (s', n') ∧ (Spec.model s' n' = Spec.model s n ↔ Spec.Perfect n.output.costd out y) := by
  obtain ⟨t1, m1, e1, -⟩ := Net.forwardprop_ok (junk := junk) h (by omega) hc
  rw [hf] at e1
  obtain ⟨d1, d2⟩ := outL_dims (Ls := n.layers s) (x := x) (q := q) (by rw [hc]; exact h.fits)
  have hout : out = outL (n.layers s) x := congrArg Prod.fst (Except.ok.inj e1)
  have hd : OutputLayer.DeltaOK n.output.costd := by
    rcases hcd with e | e | e <;> rw [e]
    exacts [C54_costs.1, C54_costs.2.1, C54_costs.2.2.1]
  have hz := outputZ_dims h hc
  obtain ⟨D, hD, k1, k2⟩ := hd y out (n.outputZ s x) (by rw [hout]; omega) (by rw [hout]; omega) (by omega) (by omega)
  obtain ⟨s2, n2, e2, w2, c2, m2⟩ := trainOn_delta (junk := junk) (x := x) (y := y) (D := D) h (by omega) hc (by rw [← hout]; exact hD) (by omega) (by omega)
  refine ⟨s2, n2, e2, fun hm => ?_, fun hp => ?_⟩
  · have hlo : n.output.lambda = 0 := hl _ (by simp [Net.layers])
    have hW : n2.output.W = n.output.W := by
      have := congrArg (fun l => l.getLast?) hm
      unfold Spec.model Net.layers at this
      simp at this
      exact this.2.2.2
    have hD0 : ∀ j, j < q → D.f 0 j = 0 := by
      intro j hj
      have := bias_step h hc (by omega) (by omega) m2 j hj
      rw [hW, hlo, hr] at this
      simp only [Finset.sum_range_one, zero_mul, add_zero] at this
      have h3 : n.output.lrate * D.f 0 j = 0 := by linarith
      exact (mul_eq_zero.1 h3).resolve_left hlr
    have hq : ∀ {costd : MatFuncD}, (costd = Quadratic.costd ∨ costd = CrossEntropy.costd) → n.output.costd = costd → out = y := by
      intro costd hco e
      rw [e] at hD
      have hD' : D = Mat.of out.nr out.nc (fun i j => (out.f i j - y.f i j) / y.nr) := by
        have h4 := diff_costd (y := y) (a := out) (by rw [hout]; omega) (by rw [hout]; omega)
        rcases hco with rfl | rfl <;> exact Except.ok.inj (hD.symm.trans h4)
      refine Mat.ext' (by rw [hout]; omega) (by rw [hout]; omega) fun i j hi hj => ?_
      have hi0 : i = 0 := by rw [hout] at hi; omega
      subst hi0
      have h5 := hD0 j (by rw [hout] at hj; omega)
      rw [hD', Mat.of_f' hi hj, hyr] at h5
      simp only [Nat.cast_one, div_one] at h5
      linarith
    rcases hcd with e | e | e
    · exact Or.inl ⟨Or.inl e, hq (Or.inl rfl) e⟩
    · exact Or.inl ⟨Or.inr e, hq (Or.inr rfl) e⟩
    · refine Or.inr ⟨e, by rw [hout]; omega, by rw [hout]; omega, fun i j hi hj => ?_⟩
      rw [e] at hD
      have hD' := Except.ok.inj (hD.symm.trans (softmax_costd (y := y) (a := out) (by rw [hout]; omega) (by rw [hout]; omega)))
      have hi0 : i = 0 := by omega
      subst hi0
      have h5 := hD0 j (by omega)
      rw [hD', Mat.of_f' (by rw [hout]; omega) (by rw [hout]; omega), hyr] at h5
      simp only [Nat.cast_one, div_one] at h5
      have h6 : y.f 0 j = Spec.softmaxAt out 0 j := by linarith
      rw [h6]
      unfold Spec.softmaxAt
      rw [show out.nc = y.nc by rw [hout]; omega]
  · obtain ⟨s3, n3, e3, m3⟩ := C65_training (junk := junk) (bs := [(x, y)]) h hl (fun b hb => by
      rw [List.mem_singleton] at hb
      subst hb
      refine ⟨by show 0 < x.nr; omega, hc, fun o t m e => ?_⟩
      rw [show (n.forwardprop junk s x) = _ from hf] at e
      cases e
      exact hp)
    simp only [Net.trainAll] at e3
    rw [e2, ok_bind] at e3
    cases e3
    exact m3

/-- **C65 is false of the Kullback-Leibler output**: at a perfect fit (prediction = label, no entry zero) a step on a batch of any size moves every bias of the output layer by the learning rate. -/
theorem C65_kullbackleibler_refuted {junk : Nat → Nat → ℝ} {s s1 : Store} {n n1 : Net} {p q : Nat} {x out : Mat ℝ} (h : n.WF s p q) (hr : 0 < x.nr) (hc : x.nc = p)
    (hl : n.output.lambda = 0) (hcd : n.output.costd = KullbackLeibler.costd) (hf : n.forwardprop junk s x = .ok (out, s1, n1)) (hne : ∀ i j, i < out.nr → j < out.nc → out.f i j ≠ 0) :
    ∃ s' n', n.trainOn junk s x out = .ok (s', n') ∧ ∀ j < q, n'.output.W.f 0 j = n.output.W.f 0 j - n.output.lrate := by
  obtain ⟨t1, m1, e1, -⟩ := Net.forwardprop_ok (junk := junk) h hr hc
  rw [hf] at e1
  obtain ⟨d1, d2⟩ := outL_dims (Ls := n.layers s) (x := x) (q := q) (by rw [hc]; exact h.fits)
  have hout : out = outL (n.layers s) x := congrArg Prod.fst (Except.ok.inj e1)
  have hD : n.output.costd out out (n.outputZ s x) = .ok ((Mat.of out.nr out.nc (fun i j => out.f i j / out.f i j)).divS out.nr) := by
    rw [hcd]
    show (do let q ← out.ediv out; .ok (q.divS out.nr) : Res (Mat ℝ)) = _
    rw [Mat.ediv_ok rfl rfl, ok_bind]
  obtain ⟨s2, n2, e2, w2, c2, m2⟩ := trainOn_delta (junk := junk) (x := x) (y := out) h hr hc (by rw [← hout]; exact hD) (by show out.nr = _; rw [hout]; omega) (by show out.nc = _; rw [hout]; omega)
  refine ⟨s2, n2, e2, fun j hj => ?_⟩
  rw [bias_step h hc (by show out.nr = _; rw [hout]; omega) (by show out.nc = _; rw [hout]; omega) m2 j hj, hl]
  have h1 : ∀ i ∈ range x.nr, ((Mat.of out.nr out.nc (fun i j => out.f i j / out.f i j)).divS out.nr).f i j = 1 / (x.nr : ℝ) := by
    intro i hi
    rw [Finset.mem_range] at hi
    have ho : i < out.nr ∧ j < out.nc := by rw [hout]; omega
    rw [Mat.divS_f, Mat.of_f' ho.1 ho.2, div_self (hne i j ho.1 ho.2), show out.nr = x.nr by rw [hout]; exact d1]
  rw [Finset.sum_congr rfl h1, Finset.sum_const, Finset.card_range, nsmul_eq_mul, mul_one_div, div_self (by exact_mod_cast hr.ne')]
  ring

/-! A network that fits a batch perfectly: one linear unit with the weights 1/2, on the samples 1 and 3. -/
example (junk : Nat → Nat → ℝ) (s : Store) : (oneNet (1 / 2)).WF s 1 1 ∧ (∀ L ∈ (oneNet (1 / 2)).layers s, L.lambda = 0) ∧
    ∃ y : Mat ℝ, (∃ i j, y.f i j ≠ 0) ∧ ∀ out s1 n1, (oneNet (1 / 2)).forwardprop junk s (Mat.of 2 1 (fun i _ => 2 * i + 1)) = .ok (out, s1, n1) → Spec.Perfect (oneNet (1 / 2)).output.costd out y := by
  refine ⟨oneNet_wf _ s, fun L hL => ?_, ?_⟩
  · have : L ∈ [(oneNet (1 / 2)).output.toLayer] := hL
    rw [List.mem_singleton] at this
    subst this
    rfl
  · obtain ⟨s1, n1, e1, -⟩ := Net.forwardprop_ok (junk := junk) (x := Mat.of 2 1 (fun i _ => 2 * i + 1)) (oneNet_wf (1 / 2) s) (by show 0 < 2; omega) rfl
    refine ⟨outL ((oneNet (1 / 2)).layers s) (Mat.of 2 1 (fun i _ => 2 * i + 1)), ⟨0, 0, ?_⟩, fun out s2 n2 e2 => Or.inl ⟨Or.inl rfl, ?_⟩⟩
    rotate_left
    · rw [e1] at e2
      exact (congrArg Prod.fst (Except.ok.inj e2)).symm
    · rw [outL_layers, outputZ_eq]
      show ((Spec.pre (Mat.of 2 1 (fun _ _ => 1 / 2)) (Mat.of 2 1 (fun i _ => 2 * i + 1))).map Act.identity.act).f 0 0 ≠ 0
      rw [Mat.map_f' (by show 0 < 2; omega) (by show 0 < 1; omega)]
      show (Spec.pre (Mat.of 2 1 (fun _ _ => 1 / 2)) (Mat.of 2 1 (fun i _ => 2 * i + 1))).f 0 0 ≠ 0
      unfold Spec.pre
      rw [Mat.of_f' (by show 0 < 2; omega) (by show 0 < 1; omega)]
      simp [Mat.of]

end
end Nnet.NN
