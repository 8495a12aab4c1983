import Verif.NN.PropsSymmetry
/-!
# C94: a rectified unit that is silent on all the training data never recovers
-/
namespace Nnet.NN
open Finset
noncomputable section

/-! ## Specification -/

/-- Unit `j` of a first layer with weights `W` is silent on the rows of `x`: its bias plus the weighted sum of the features is negative for every row. -/
def Spec.Silent (W : Mat ℝ) (j : Nat) (x : Mat ℝ) : Prop := ∀ i < x.nr, W.f 0 j + ∑ k ∈ range x.nc, x.f i k * W.f (k + 1) j < 0

/-! ## Lemmas -/

open Spec

theorem silent_pre {W x : Mat ℝ} {j i : Nat} (h : Silent W j x) (hj : j < W.nc) (hi : i < x.nr) : (Spec.pre W x).f i j < 0 := by
  unfold Spec.pre
  rw [Mat.of_f' hi hj]
  exact h i hi

theorem relu_neg {z : ℝ} (h : z < 0) : Act.relu.act z = 0 ∧ Act.relu.actd z = 0 := by
  have : ¬ z ≥ 0 := not_le.2 h
  exact ⟨if_neg this, if_neg this⟩

/-- The column of a silent unit has no gradient but that of the regularisation. -/
theorem dead_in {L : Layer} {x d : Mat ℝ} {j : Nat} (hact : L.actfunc = Act.relu) (hj : j < L.W.nc) (hW : L.W.nr = x.nc + 1) (hs : Silent L.W j x) (h2 : d.nc = L.W.nc) {i : Nat}
    (hi : i < L.W.nr) : (Layer.upd ((L.fwd x).bwd d)).W.f i j = (1 - L.lrate * L.lambda) * L.W.f i j := by
  show (Mat.of L.W.nr L.W.nc (fun i j => L.W.f i j - L.lrate * ((L.fwd x).regGrad ((L.fwd x).dz d)).f i j)).f i j = _
  rw [Mat.of_f' hi hj]
  unfold Layer.regGrad Layer.gradOf
  rw [Mat.of_f' (by exact hi) (by exact hj), Mat.of_f' (by show i < x.nc + 1; omega) (by show j < d.nc; omega)]
  rw [sum_eq_zero]
  · show L.W.f i j - L.lrate * (0 + L.lambda * L.W.f i j) = _
    ring
  · intro k hk
    have hk' : k < x.nr := mem_range.1 hk
    by_cases hd : k < d.nr
    · unfold Layer.dz
      rw [Mat.of_f' hd (by omega)]
      show _ * (_ * L.actfunc.actd ((Spec.pre L.W x).f k j)) = 0
      rw [hact, (relu_neg (silent_pre hs hj hk')).2, mul_zero, mul_zero]
    · rw [((L.fwd x).dz d).out _ _ (fun h => hd h.1), mul_zero]

/-- The row of a silent unit in the next layer's weights has no gradient but that of the regularisation. -/
theorem dead_out {L : Layer} {x W0 D : Mat ℝ} {j : Nat} (hj : j < W0.nc) (hs : Silent W0 j x) (hW : L.W.nr = W0.nc + 1) (h2 : D.nc = L.W.nc) {k : Nat} (hk : k < L.W.nc) :
    L.W.f (j + 1) k - L.lrate * ((L.fwd ((Spec.pre W0 x).map Act.relu.act)).regGrad D).f (j + 1) k = (1 - L.lrate * L.lambda) * L.W.f (j + 1) k := by
  unfold Layer.regGrad Layer.gradOf
  rw [Mat.of_f' (by show j + 1 < L.W.nr; omega) (by exact hk), Mat.of_f' (by show j + 1 < W0.nc + 1; omega) (by omega), sum_eq_zero]
  · show L.W.f (j + 1) k - L.lrate * (0 + L.lambda * L.W.f (j + 1) k) = _
    ring
  · intro i hi
    have hi' : i < x.nr := mem_range.1 hi
    have : (L.fwd ((Spec.pre W0 x).map Act.relu.act)).pa.f i (j + 1) = 0 := by
      show (ones1 ((Spec.pre W0 x).map Act.relu.act)).f i (j + 1) = 0
      unfold ones1
      rw [Mat.of_f' (by exact hi') (by show j + 1 < W0.nc + 1; omega), if_neg (by omega), Nat.add_sub_cancel, Mat.map_f' (by exact hi') (by exact hj)]
      exact (relu_neg (silent_pre hs hj hi')).1
    rw [this, zero_mul]

theorem dead_step {junk : Nat → Nat → ℝ} {s : Store} {n : Net} {p q : Nat} {x y : Mat ℝ} {j : Nat} {L0 L1 : Layer} {rest : List Layer} (h : n.WF s p q) (hl : n.layers s = L0 :: L1 :: rest)
    (hact : L0.actfunc = Act.relu) (hj : j < L0.W.nc) (hs : Silent L0.W j x) (hr : 0 < x.nr) (hc : x.nc = p) (hyr : y.nr = x.nr) (hyc : y.nc = q) (hd : OutputLayer.DeltaOK n.output.costd) :
    ∃ s1 n1 M0 M1 rest', n.trainOn junk s x y = .ok (s1, n1) ∧ n1.WF s1 p q ∧ n1.output.costd = n.output.costd ∧ n1.layers s1 = M0 :: M1 :: rest' ∧
      confKey M0 = confKey L0 ∧ confKey M1 = confKey L1 ∧
      (∀ i < L0.W.nr, M0.W.f i j = (1 - L0.lrate * L0.lambda) * L0.W.f i j) ∧ (∀ k < L1.W.nc, M1.W.f (j + 1) k = (1 - L1.lrate * L1.lambda) * L1.W.f (j + 1) k) := by
  obtain ⟨d1, d2⟩ := outputZ_dims h hc
  obtain ⟨D, hD, hD1, hD2⟩ := hd y ((n.outputZ s x).map n.output.actfunc.act) (n.outputZ s x) (by rw [Mat.map_nr]; omega) (by rw [Mat.map_nc]; omega)
    (by omega) (by omega)
  obtain ⟨s1, n1, e1, b1, -, w1⟩ := trainOn_ok (junk := junk) h hr hc hD (by omega) (by omega)
  have hfit := h.fits
  rw [hl] at hfit
  simp only [List.map_cons, Spec.Fits] at hfit
  obtain ⟨g1, g2, g3, g4, g5⟩ := hfit
  have b1' : n1.layers s1 = (bwdL (fwdL (n.hiddenLayers s) x) (Layer.backOf D n.output.W)).1.map Layer.upd ++
      [Layer.upd { n.output.toLayer.fwd (outL (n.hiddenLayers s) x) with delta := D, grad := (n.output.toLayer.fwd (outL (n.hiddenLayers s) x)).regGrad D }] := b1.layers.trans List.map_append
  unfold Net.layers at hl
  obtain ⟨r, f1, f2, f3, f4⟩ := h.split
  cases hh : n.hiddenLayers s with
  | nil => rw [hh] at hl; simp at hl
  | cons A Hs =>
    rw [hh] at hl b1' f1
    simp only [List.cons_append, List.cons.injEq] at hl
    obtain ⟨rfl, hl⟩ := hl
    simp only [List.map_cons, Spec.Fits] at f1
    have ha : (A.fwd x).a = (Spec.pre A.W x).map Act.relu.act := by rw [← hact]; rfl
    obtain ⟨hb1, hb2⟩ := bwdL_dims (Ls := fwdL Hs (A.fwd x).a) (d := Layer.backOf D n.output.W) (m := x.nr) (p := A.W.nc) (q := r) (by rw [fwdL_W]; exact f1.2.2) (by show D.nr = x.nr; omega)
      (by show n.output.W.nr - 1 = r; omega)
    have hin : ∀ i < A.W.nr, (Layer.upd ((A.fwd x).bwd (bwdL (fwdL Hs (A.fwd x).a) (Layer.backOf D n.output.W)).2)).W.f i j = (1 - A.lrate * A.lambda) * A.W.f i j :=
      fun i hi => dead_in hact hj (by omega) hs hb2 hi
    cases Hs with
    | nil =>
      simp only [List.nil_append, List.cons.injEq] at hl
      obtain ⟨hL1, hre⟩ := hl
      subst hL1
      refine ⟨s1, n1, _, _, [], e1, w1.wf, b1.conf.ocostd, b1', rfl, rfl, hin, fun k hk => ?_⟩
      show (Mat.of n.output.W.nr n.output.W.nc (fun i j => n.output.W.f i j - n.output.lrate * ((n.output.toLayer.fwd (A.fwd x).a).regGrad D).f i j)).f (j + 1) k = _
      rw [Mat.of_f' (by show j + 1 < n.output.W.nr; omega) hk, ha]
      exact dead_out (L := n.output.toLayer) hj hs g3 (by show D.nc = n.output.W.nc; omega) hk
    | cons B Hs =>
      simp only [List.cons_append, List.cons.injEq] at hl
      obtain ⟨rfl, hl⟩ := hl
      simp only [List.map_cons, Spec.Fits] at f1
      obtain ⟨hb3, hb4⟩ := bwdL_dims (Ls := fwdL Hs (B.fwd (A.fwd x).a).a) (d := Layer.backOf D n.output.W) (m := x.nr) (p := B.W.nc) (q := r) (by rw [fwdL_W]; exact f1.2.2.2.2)
        (by show D.nr = x.nr; omega) (by show n.output.W.nr - 1 = r; omega)
      refine ⟨s1, n1, _, _, _, e1, w1.wf, b1.conf.ocostd, b1', rfl, rfl, hin, fun k hk => ?_⟩
      show (Mat.of B.W.nr B.W.nc (fun i j => B.W.f i j - B.lrate * ((B.fwd (A.fwd x).a).regGrad ((B.fwd (A.fwd x).a).dz _)).f i j)).f (j + 1) k = _
      rw [Mat.of_f' (by omega) hk, ha]
      refine dead_out hj hs g3 ?_ hk
      rw [← ha]
      exact hb4

theorem silent_scaled {W W' x : Mat ℝ} {c : ℝ} {j : Nat} (hc : 0 < c) (hW : ∀ i < W.nr, W'.f i j = c * W.f i j) (hx : W.nr = x.nc + 1) (h : Silent W j x) : Silent W' j x := by
  intro i hi
  rw [hW 0 (by omega), sum_congr rfl fun k hk => by rw [hW (k + 1) (by have := mem_range.1 hk; omega)]]
  have : c * W.f 0 j + ∑ k ∈ range x.nc, x.f i k * (c * W.f (k + 1) j) = c * (W.f 0 j + ∑ k ∈ range x.nc, x.f i k * W.f (k + 1) j) := by
    rw [mul_add, mul_sum]
    congr 1
    exact sum_congr rfl fun k _ => by ring
  rw [this]
  exact mul_neg_of_pos_of_neg hc (h i hi)

theorem dead_train {junk : Nat → Nat → ℝ} {p q j : Nat} : ∀ {bs : List (Mat ℝ × Mat ℝ)} {s : Store} {n : Net} {L0 L1 : Layer} {rest : List Layer}, n.WF s p q → n.layers s = L0 :: L1 :: rest →
    L0.actfunc = Act.relu → j < L0.W.nc → L0.lrate * L0.lambda < 1 → OutputLayer.DeltaOK n.output.costd → Spec.BatchesFit p q bs → (∀ b ∈ bs, Silent L0.W j b.1) →
    ∃ s1 n1 M0 M1 rest', Net.trainAll junk bs s n = .ok (s1, n1) ∧ n1.WF s1 p q ∧ n1.layers s1 = M0 :: M1 :: rest' ∧ confKey M0 = confKey L0 ∧ confKey M1 = confKey L1 ∧
      (∀ i < L0.W.nr, M0.W.f i j = (1 - L0.lrate * L0.lambda) ^ bs.length * L0.W.f i j) ∧ (∀ k < L1.W.nc, M1.W.f (j + 1) k = (1 - L1.lrate * L1.lambda) ^ bs.length * L1.W.f (j + 1) k)
  | [], s, n, L0, L1, rest, h, hl, _, _, _, _, _, _ => ⟨s, n, L0, L1, rest, rfl, h, hl, rfl, rfl, fun _ _ => by simp, fun _ _ => by simp⟩
  | (x, y) :: bs, s, n, L0, L1, rest, h, hl, hact, hj, hlr, hd, hb, hs => by
    obtain ⟨b1, b2, b3, b4⟩ := hb (x, y) (by simp)
    obtain ⟨s1, n1, M0, M1, rest', e1, w1, e2, e3, k0, k1, e4, e5⟩ := dead_step (junk := junk) h hl hact hj (hs (x, y) (by simp)) b1 b2 b3 b4 hd
    have k0' := Prod.ext_iff.1 k0
    have k1' := Prod.ext_iff.1 k1
    simp only [confKey, Prod.mk.injEq] at k0' k1'
    have hfit := h.fits
    rw [hl] at hfit
    simp only [List.map_cons, Spec.Fits] at hfit
    obtain ⟨s2, n2, N0, N1, rest2, f1, f2, f3, m0, m1, f4, f5⟩ := dead_train (bs := bs) (junk := junk) w1 e3 (k0'.1.2.2.trans hact) (by rw [k0'.2.2]; exact hj) (by rw [k0'.1.1, k0'.1.2.1]; exact hlr)
      (by rw [e2]; exact hd) (fun c hc => hb c (by simp [hc]))
      (fun b hbm => silent_scaled (c := 1 - L0.lrate * L0.lambda) (by linarith) e4 (by rw [hfit.1, (hb b (by simp [hbm])).2.1]) (hs b (by simp [hbm])))
    refine ⟨s2, n2, N0, N1, rest2, ?_, f2, f3, m0.trans k0, m1.trans k1, fun i hi => ?_, fun k hk => ?_⟩
    · simp only [Net.trainAll]
      rw [e1, ok_bind]; exact f1
    · rw [f4 i (by rw [k0'.2.1]; exact hi), e4 i hi, k0'.1.1, k0'.1.2.1, List.length_cons, pow_succ]; ring
    · rw [f5 k (by rw [k1'.2.2]; exact hk), e5 k hk, k1'.1.1, k1'.1.2.1, List.length_cons, pow_succ]; ring

/-! ## C94 -/

/-- **C94**. In a well-formed dense network whose first hidden layer is rectified, let unit `j` of that layer be silent on every training input. Then no training on these inputs ever wakes it: whatever
the labels, the number of passes and the other layers, each step only multiplies the weights into and out of the unit by `1 - lrate * lambda` (so without regularisation they never change at all), and
the unit stays silent on every input on which it was. -/
theorem C94_dead_unit {junk : Nat → Nat → ℝ} {p q j : Nat} {bs : List (Mat ℝ × Mat ℝ)} {s : Store} {n : Net} {lr0 la0 lr1 la1 : ℝ} {f1 : ActFunc ℝ} {W0 W1 : Mat ℝ}
    {rest : List (ℝ × ℝ × ActFunc ℝ × Mat ℝ)} (h : n.WF s p q) (hm : Spec.model s n = (lr0, la0, Act.relu, W0) :: (lr1, la1, f1, W1) :: rest) (hj : j < W0.nc) (hlr : lr0 * la0 < 1)
    (hd : OutputLayer.DeltaOK n.output.costd) (hb : Spec.BatchesFit p q bs) (hs : ∀ b ∈ bs, Spec.Silent W0 j b.1) :
    ∃ s1 n1 W0' W1' rest', Net.trainAll junk bs s n = .ok (s1, n1) ∧ Spec.model s1 n1 = (lr0, la0, Act.relu, W0') :: (lr1, la1, f1, W1') :: rest' ∧
      (∀ i < p + 1, W0'.f i j = (1 - lr0 * la0) ^ bs.length * W0.f i j) ∧ (∀ k < W1.nc, W1'.f (j + 1) k = (1 - lr1 * la1) ^ bs.length * W1.f (j + 1) k) ∧
      ∀ x : Mat ℝ, x.nc = p → Spec.Silent W0 j x → Spec.Silent W0' j x := by
  obtain ⟨L0, R0, l1, l2, l3⟩ := List.map_eq_cons_iff.1 hm
  obtain ⟨L1, R1, l4, l5, l6⟩ := List.map_eq_cons_iff.1 l3
  subst l4
  simp only [Prod.mk.injEq] at l2 l5
  obtain ⟨rfl, rfl, hact, rfl⟩ := l2
  obtain ⟨rfl, rfl, rfl, rfl⟩ := l5
  obtain ⟨s1, n1, M0, M1, rest', e1, e2, e3, k0, k1, e4, e5⟩ := dead_train (junk := junk) h l1 hact hj hlr hd hb hs
  have hfit := h.fits
  rw [l1] at hfit
  simp only [List.map_cons, Spec.Fits] at hfit
  simp only [confKey, Prod.mk.injEq] at k0 k1
  refine ⟨s1, n1, M0.W, M1.W, rest'.map (fun L => (L.lrate, L.lambda, L.actfunc, L.W)), e1, ?_, fun i hi => e4 i (by omega), e5, fun x hx hsx => ?_⟩
  · show (n1.layers s1).map _ = _
    rw [e3, List.map_cons, List.map_cons, k0.1.1, k0.1.2.1, k0.1.2.2, k1.1.1, k1.1.2.1, k1.1.2.2, hact]
  · exact silent_scaled (pow_pos (by linarith) _) e4 (by rw [hfit.1, hx]) hsx

/-! The hypotheses are met, with regularisation: a 2-3-2 network with a rectified hidden layer whose unit 1 has bias -10; the features of `exX` are between 0 and 4. Unit 0 is not silent. -/

/-- The weights into the hidden units. -/
def exDeadW : Mat ℝ := Mat.of 3 3 (fun i j => if i = 0 then (if j = 1 then -10 else 1) else 2)

/-- A rectified hidden layer. -/
def exStoreD : Store := fun _ => ⟨{ exLayer Act.relu exDeadW with lambda := 1 / 5 }, .dense⟩

theorem exDead_wf : exNet.WF exStoreD 2 2 := by
  refine ⟨by simp [exNet], fun _ _ => rfl, by omega, ?_⟩
  simp [Net.layers, Net.hiddenLayers, exNet, exStoreD, exLayer, exDeadW, Spec.Fits]

theorem exDead_pre {i j : Nat} (hi : i < 5) (hj : j < 3) : exDeadW.f 0 j + ∑ k ∈ range 2, exX.f i k * exDeadW.f (k + 1) j = (if j = 1 then -10 else 1) + 2 * (i : ℝ) := by
  rw [sum_range_succ, sum_range_one]
  unfold exDeadW exX
  rw [Mat.of_f' (by omega) hj, Mat.of_f' (by omega) hj, Mat.of_f' (by omega) hj, Mat.of_f' hi (by omega), Mat.of_f' hi (by omega)]
  norm_num
  ring

example (junk : Nat → Nat → ℝ) (t : Nat) : ¬ Spec.Silent exDeadW 0 exX ∧
    ∃ s1 n1 W0' W1' rest', Net.trainAll junk (List.replicate t (exX, exY)) exStoreD exNet = .ok (s1, n1) ∧
      Spec.model s1 n1 = (1 / 10, 1 / 5, Act.relu, W0') :: (1 / 10, 0, Act.identity, W1') :: rest' ∧ W0'.f 0 1 = (49 / 50) ^ t * -10 ∧ W1'.f 2 1 = 3 := by
  constructor
  · intro h
    have := h 0 (by show 0 < 5; omega)
    rw [show exX.nc = 2 from rfl, exDead_pre (by omega) (by omega)] at this
    norm_num at this
  · obtain ⟨s1, n1, W0', W1', rest', e1, e2, e3, e4, -⟩ := C94_dead_unit (junk := junk) (bs := List.replicate t (exX, exY)) (j := 1) (lr0 := 1 / 10) (la0 := 1 / 5) (lr1 := 1 / 10) (la1 := 0)
      (W0 := exDeadW) (rest := []) exDead_wf rfl (by show 1 < 3; omega) (by norm_num) C54_costs.1
      (fun b hb => by rw [List.eq_of_mem_replicate hb]; exact ⟨by show 0 < 5; omega, rfl, rfl, rfl⟩)
      (fun b hb i hi => by
        rw [List.eq_of_mem_replicate hb] at hi ⊢
        replace hi : i < 5 := hi
        show exDeadW.f 0 1 + ∑ k ∈ range 2, exX.f i k * exDeadW.f (k + 1) 1 < 0
        rw [exDead_pre hi (by omega), if_pos rfl]
        have : (i : ℝ) ≤ 4 := by exact_mod_cast (by omega : i ≤ 4)
        linarith)
    refine ⟨s1, n1, W0', W1', rest', e1, e2, ?_, ?_⟩
    · rw [e3 0 (by omega), List.length_replicate]
      unfold exDeadW
      rw [Mat.of_f' (by omega) (by omega)]
      norm_num
    · have := e4 1 (by show 1 < 2; omega)
      rw [this]
      show _ * (Mat.of 4 2 (fun i j => (i : ℝ) + j)).f 2 1 = 3
      rw [Mat.of_f' (by omega) (by omega)]
      norm_num

end
end Nnet.NN
