import Verif.NN.PropsOffset
/-!
# C111: what the training data cannot tell apart is never learned
-/
namespace Nnet.NN
open Finset
noncomputable section

/-! ## Specification -/

/-- The direction `v` (`v 0` for the bias, `v (k + 1)` for feature `k`) is orthogonal to every sample in `x`: moving the weights of a unit along `v` changes its sum for none of them. -/
def Spec.Blind (v : Nat → ℝ) (x : Mat ℝ) : Prop := ∀ i < x.nr, v 0 + ∑ k ∈ range x.nc, x.f i k * v (k + 1) = 0

/-- `W'` is `W` with `u` added. -/
structure Spec.Differ (u : Nat → Nat → ℝ) (W W' : Mat ℝ) : Prop where
  nr : W'.nr = W.nr
  nc : W'.nc = W.nc
  at' : ∀ i < W.nr, ∀ j < W.nc, W'.f i j = W.f i j + u i j

/-! ## Lemmas -/

theorem pre_blind {u : Nat → Nat → ℝ} {W W' x : Mat ℝ} (h : Spec.Differ u W W') (hW : W.nr = x.nc + 1) (hu : ∀ j < W.nc, Spec.Blind (fun i => u i j) x) : Spec.pre W' x = Spec.pre W x := by
  unfold Spec.pre
  refine Mat.ext' rfl h.nc fun i j hi hj => ?_
  replace hi : i < x.nr := hi
  replace hj : j < W'.nc := hj
  have hj' : j < W.nc := by rw [← h.nc]; exact hj
  rw [Mat.of_f' hi hj, Mat.of_f' hi hj', h.at' 0 (by omega) j hj']
  have : ∀ k ∈ range x.nc, x.f i k * W'.f (k + 1) j = x.f i k * W.f (k + 1) j + x.f i k * u (k + 1) j := by
    intro k hk
    rw [h.at' (k + 1) (by have := mem_range.1 hk; omega) j hj']
    ring
  rw [sum_congr rfl this, sum_add_distrib]
  have := hu j hj' i hi
  simp only at this
  linarith

/-- The first layer's weights after a step with the derivative `G` at its sums. -/
def firstStep (lr la : ℝ) (x G W : Mat ℝ) : Mat ℝ := Mat.of W.nr W.nc (fun i j => W.f i j - lr * ((Layer.gradOf (ones1 x) G).f i j + la * W.f i j))

theorem upd_firstStep (L : Layer) (x G : Mat ℝ) : (Layer.upd { L.fwd x with delta := G, grad := (L.fwd x).regGrad G }).core = (L.lrate, L.lambda, L.actfunc, firstStep L.lrate L.lambda x G L.W) := by
  unfold Layer.core
  refine Prod.ext rfl (Prod.ext rfl (Prod.ext rfl ?_))
  show Mat.of L.W.nr L.W.nc (fun i j => L.W.f i j - L.lrate * ((L.fwd x).regGrad G).f i j) = firstStep L.lrate L.lambda x G L.W
  refine Mat.ext' rfl rfl fun i j hi hj => ?_
  replace hi : i < L.W.nr := hi
  replace hj : j < L.W.nc := hj
  unfold firstStep Layer.regGrad
  rw [Mat.of_f' hi hj, Mat.of_f' hi hj, Mat.of_f' (by exact hi) (by exact hj)]
  rfl

theorem firstStep_blind {lr la : ℝ} {x G W : Mat ℝ} {v : Nat → ℝ} (hv : Spec.Blind v x) (hW : W.nr = x.nc + 1) (hG : G.nc = W.nc) {j : Nat} (hj : j < W.nc) :
    ∑ i ∈ range W.nr, v i * (firstStep lr la x G W).f i j = (1 - lr * la) * ∑ i ∈ range W.nr, v i * W.f i j := by
  have e : ∀ i ∈ range W.nr, v i * (firstStep lr la x G W).f i j = (1 - lr * la) * (v i * W.f i j) - lr * ∑ t ∈ range x.nr, (v i * (ones1 x).f t i) * G.f t j := by
    intro i hi
    have hi := mem_range.1 hi
    unfold firstStep Layer.gradOf
    rw [Mat.of_f' hi hj, Mat.of_f' (by show i < x.nc + 1; omega) (by omega), show (ones1 x).nr = x.nr from rfl]
    have : ∑ t ∈ range x.nr, (v i * (ones1 x).f t i) * G.f t j = v i * ∑ t ∈ range x.nr, (ones1 x).f t i * G.f t j := by
      rw [mul_sum]
      exact sum_congr rfl fun t _ => by ring
    rw [this]
    ring
  rw [sum_congr rfl e, sum_sub_distrib, ← mul_sum, ← mul_sum, sum_comm]
  have z : ∀ t ∈ range x.nr, ∑ i ∈ range W.nr, (v i * (ones1 x).f t i) * G.f t j = 0 := by
    intro t ht
    have ht := mem_range.1 ht
    rw [← sum_mul, hW, sum_range_succ']
    have e1 : ∀ k ∈ range x.nc, v (k + 1) * (ones1 x).f t (k + 1) = x.f t k * v (k + 1) := by
      intro k hk
      unfold ones1
      rw [Mat.of_f' ht (by have := mem_range.1 hk; omega), if_neg (by omega), Nat.add_sub_cancel]
      ring
    have e2 : (ones1 x).f t 0 = 1 := by
      unfold ones1
      rw [Mat.of_f' ht (by omega), if_pos rfl]
    rw [sum_congr rfl e1, e2, mul_one, add_comm, hv t ht, zero_mul]
  rw [sum_eq_zero z, mul_zero, sub_zero]

theorem model_first {s : Store} {n : Net} {lr la : ℝ} {f : ActFunc ℝ} {W : Mat ℝ} {rest : List (ℝ × ℝ × ActFunc ℝ × Mat ℝ)} {p q : Nat} (h : n.WF s p q) (hm : Spec.model s n = (lr, la, f, W) :: rest) :
    W.nr = p + 1 ∧ 0 < W.nc := by
  have hf := h.fits
  have e : (n.layers s).map (·.W) = ((lr, la, f, W) :: rest).map (fun c => c.2.2.2) := by rw [← hm]; unfold Spec.model; rw [List.map_map]; rfl
  rw [e] at hf
  exact ⟨hf.1, hf.2.1⟩

/-- The passes on networks that agree except in the first layer, whose sums agree. -/
theorem passed_first {s s' : Store} {n n' : Net} {p q : Nat} {lr la : ℝ} {f : ActFunc ℝ} {W W' x : Mat ℝ} {rest : List (ℝ × ℝ × ActFunc ℝ × Mat ℝ)} {u : Nat → Nat → ℝ} (h : n.WF s p q)
    (hm : Spec.model s n = (lr, la, f, W) :: rest) (hm' : Spec.model s' n' = (lr, la, f, W') :: rest) (hd : Spec.Differ u W W') (hc : x.nc = p) (hu : ∀ j < W.nc, Spec.Blind (fun i => u i j) x) :
    outL (n'.layers s') x = outL (n.layers s) x ∧ n'.outputZ s' x = n.outputZ s x ∧ n'.output.actfunc = n.output.actfunc ∧
    ∀ D : Mat ℝ, D.nr = x.nr → D.nc = q → ∃ G rest1, G.nr = x.nr ∧ G.nc = W.nc ∧ ((n.passed s x D).map Layer.upd).map Layer.core = (lr, la, f, firstStep lr la x G W) :: rest1 ∧
      ((n'.passed s' x D).map Layer.upd).map Layer.core = (lr, la, f, firstStep lr la x G W') :: rest1 := by
  obtain ⟨w1, w2⟩ := model_first h hm
  have hpre : Spec.pre W' x = Spec.pre W x := pre_blind hd (by omega) hu
  obtain ⟨r, f1, f2, f3, f4⟩ := h.split
  have m0 : (n.hiddenLayers s).map Layer.core ++ [n.output.toLayer.core] = (lr, la, f, W) :: rest := by
    rw [← hm]; unfold Spec.model Net.layers; rw [List.map_append]; rfl
  have m0' : (n'.hiddenLayers s').map Layer.core ++ [n'.output.toLayer.core] = (lr, la, f, W') :: rest := by
    rw [← hm']; unfold Spec.model Net.layers; rw [List.map_append]; rfl
  cases hH : n.hiddenLayers s with
  | nil =>
    rw [hH] at m0
    simp only [List.map_nil, List.nil_append, List.cons.injEq] at m0
    obtain ⟨m1, rfl⟩ := m0
    have hH' : n'.hiddenLayers s' = [] := by
      have := congrArg List.length m0'
      simp only [List.length_append, List.length_map, List.length_cons, List.length_nil] at this
      exact List.length_eq_zero_iff.1 (by omega)
    rw [hH'] at m0'
    simp only [List.map_nil, List.nil_append, List.cons.injEq, and_true] at m0'
    simp only [Layer.core, Prod.mk.injEq] at m1 m0'
    obtain ⟨a1, a2, a3, a4⟩ := m1
    obtain ⟨b1, b2, b3, b4⟩ := m0'
    have hz : n'.outputZ s' x = n.outputZ s x := by
      rw [outputZ_eq, outputZ_eq, hH, hH', a4, b4]; exact hpre
    refine ⟨?_, hz, b3.trans a3.symm, fun D hD1 hD2 => ⟨D, [], hD1, ?_, ?_, ?_⟩⟩
    · unfold Net.layers
      rw [hH, hH']
      show (Spec.pre n'.output.W x).map n'.output.actfunc.act = (Spec.pre n.output.W x).map n.output.actfunc.act
      rw [a3, b3, a4, b4, hpre]
    · rw [hD2, ← f4, a4]
    · unfold Net.passed bwdNet
      rw [hH]
      show [(Layer.upd { n.output.toLayer.fwd x with delta := D, grad := (n.output.toLayer.fwd x).regGrad D }).core] = _
      rw [upd_firstStep, a1, a2, a3, a4]
    · unfold Net.passed bwdNet
      rw [hH']
      show [(Layer.upd { n'.output.toLayer.fwd x with delta := D, grad := (n'.output.toLayer.fwd x).regGrad D }).core] = _
      rw [upd_firstStep, b1, b2, b3, b4]
  | cons L Ls =>
    rw [hH] at m0
    simp only [List.map_cons, List.cons_append, List.cons.injEq] at m0
    obtain ⟨m1, m2⟩ := m0
    cases hH' : n'.hiddenLayers s' with
    | nil =>
      rw [hH'] at m0'
      have := congrArg List.length m0'
      rw [← m2] at this
      simp at this
    | cons L' Ls' =>
      rw [hH'] at m0'
      simp only [List.map_cons, List.cons_append, List.cons.injEq] at m0'
      obtain ⟨m1', m2'⟩ := m0'
      obtain ⟨c1, c2⟩ := List.append_inj' (m2'.trans m2.symm) rfl
      have c2 := List.singleton_injective c2
      have c3 := c2
      simp only [Layer.core, Prod.mk.injEq] at m1 m1' c3
      obtain ⟨a1, a2, a3, a4⟩ := m1
      obtain ⟨b1, b2, b3, b4⟩ := m1'
      obtain ⟨-, -, o3, o4⟩ := c3
      have ha : (L'.fwd x).a = (L.fwd x).a := by
        show (Spec.pre L'.W x).map L'.actfunc.act = (Spec.pre L.W x).map L.actfunc.act
        rw [a3, b3, a4, b4, hpre]
      have hx : outL (n'.hiddenLayers s') x = outL (n.hiddenLayers s) x := by
        rw [hH, hH']
        show outL Ls' (L'.fwd x).a = outL Ls (L.fwd x).a
        rw [ha]
        exact outL_congr _ c1
      have hz : n'.outputZ s' x = n.outputZ s x := by rw [outputZ_eq, outputZ_eq, hx, o4]
      refine ⟨?_, hz, o3, fun D hD1 hD2 => ?_⟩
      · unfold Net.layers
        rw [outL_append, outL_append, hx]
        exact outL_congr _ (by rw [List.map_cons, List.map_cons, c2])
      · have hb := bwdL_congr (L.fwd x).a (Layer.backOf D n.output.W) c1
        have hP : n.passed s x D = (L.fwd x).bwd (bwdL (fwdL Ls (L.fwd x).a) (Layer.backOf D n.output.W)).2 :: ((bwdL (fwdL Ls (L.fwd x).a) (Layer.backOf D n.output.W)).1 ++
            [{ n.output.toLayer.fwd (outL Ls (L.fwd x).a) with delta := D, grad := (n.output.toLayer.fwd (outL Ls (L.fwd x).a)).regGrad D }]) := by
          unfold Net.passed bwdNet
          rw [hH]; rfl
        have hP' : n'.passed s' x D = (L'.fwd x).bwd (bwdL (fwdL Ls (L.fwd x).a) (Layer.backOf D n.output.W)).2 :: ((bwdL (fwdL Ls (L.fwd x).a) (Layer.backOf D n.output.W)).1 ++
            [{ n'.output.toLayer.fwd (outL Ls (L.fwd x).a) with delta := D, grad := (n'.output.toLayer.fwd (outL Ls (L.fwd x).a)).regGrad D }]) := by
          have hx' : outL Ls' (L.fwd x).a = outL Ls (L.fwd x).a := outL_congr _ c1
          unfold Net.passed bwdNet
          rw [hH']
          show (L'.fwd x).bwd (bwdL (fwdL Ls' (L'.fwd x).a) (Layer.backOf D n'.output.W)).2 :: ((bwdL (fwdL Ls' (L'.fwd x).a) (Layer.backOf D n'.output.W)).1 ++
            [{ n'.output.toLayer.fwd (outL Ls' (L'.fwd x).a) with delta := D, grad := (n'.output.toLayer.fwd (outL Ls' (L'.fwd x).a)).regGrad D }]) = _
          rw [ha, o4, hb, hx']
        have hdz : (L'.fwd x).dz (bwdL (fwdL Ls (L.fwd x).a) (Layer.backOf D n.output.W)).2 = (L.fwd x).dz (bwdL (fwdL Ls (L.fwd x).a) (Layer.backOf D n.output.W)).2 := by
          unfold Layer.dz
          have : (L'.fwd x).z = (L.fwd x).z := by
            show Spec.pre L'.W x = Spec.pre L.W x
            rw [a4, b4, hpre]
          have h2 : (L'.fwd x).actfunc = (L.fwd x).actfunc := b3.trans a3.symm
          simp only [this, h2]
        have hdim : ((L.fwd x).dz (bwdL (fwdL Ls (L.fwd x).a) (Layer.backOf D n.output.W)).2).nr = x.nr ∧ ((L.fwd x).dz (bwdL (fwdL Ls (L.fwd x).a) (Layer.backOf D n.output.W)).2).nc = L.W.nc := by
          rw [hH] at f1
          exact bwdL_dims (Ls := fwdL Ls (L.fwd x).a) (d := Layer.backOf D n.output.W) (q := r) (by rw [fwdL_W]; exact f1.2.2) hD1 (by show n.output.W.nr - 1 = r; omega)
        refine ⟨(L.fwd x).dz (bwdL (fwdL Ls (L.fwd x).a) (Layer.backOf D n.output.W)).2, ((((bwdL (fwdL Ls (L.fwd x).a) (Layer.backOf D n.output.W)).1 ++
            [{ n.output.toLayer.fwd (outL Ls (L.fwd x).a) with delta := D, grad := (n.output.toLayer.fwd (outL Ls (L.fwd x).a)).regGrad D }]).map Layer.upd).map Layer.core), ?_, ?_, ?_, ?_⟩
        rotate_left 2
        · rw [hP, List.map_cons, List.map_cons]
          congr 1
          exact (upd_firstStep L x _).trans (by rw [a1, a2, a3, a4])
        · rw [hP', List.map_cons, List.map_cons]
          congr 1
          · rw [← hdz]
            exact (upd_firstStep L' x _).trans (by rw [b1, b2, b3, b4])
          · rw [List.map_append, List.map_append, List.map_append, List.map_append]
            congr 1
            simp only [List.map_cons, List.map_nil]
            rw [upd_firstStep, upd_firstStep]
            simp only [Layer.core, Prod.mk.injEq] at c2
            rw [c2.1, c2.2.1, c2.2.2.1, c2.2.2.2]
        · exact hdim.1
        · exact hdim.2.trans (by rw [a4])

/-- Two networks that differ in the first layer, in a direction that the samples of one step do not see. -/
theorem step_unseen {junk junk' : Nat → Nat → ℝ} {s s' : Store} {n n' : Net} {p q : Nat} {x y : Mat ℝ} {rest : List (ℝ × ℝ × ActFunc ℝ × Mat ℝ)} {lr la : ℝ} {f : ActFunc ℝ} {W W' : Mat ℝ}
    {u : Nat → Nat → ℝ} (h : n.WF s p q) (h' : n'.WF s' p q) (hm : Spec.model s n = (lr, la, f, W) :: rest) (hm' : Spec.model s' n' = (lr, la, f, W') :: rest) (hd : Spec.Differ u W W')
    (hcd : n'.output.costd = n.output.costd) (hok : OutputLayer.DeltaOK n.output.costd) (hr : 0 < x.nr) (hc : x.nc = p) (hyr : y.nr = x.nr) (hyc : y.nc = q)
    (hu : ∀ j < W.nc, Spec.Blind (fun i => u i j) x) :
    ∃ s1 n1 s2 n2 rest1 V V', n.trainOn junk s x y = .ok (s1, n1) ∧ n'.trainOn junk' s' x y = .ok (s2, n2) ∧ Spec.model s1 n1 = (lr, la, f, V) :: rest1 ∧ Spec.model s2 n2 = (lr, la, f, V') :: rest1 ∧
      Spec.Differ (fun i j => (1 - lr * la) * u i j) V V' ∧ n1.WF s1 p q ∧ n2.WF s2 p q ∧ n1.output.costd = n.output.costd ∧ n2.output.costd = n.output.costd ∧ n1.cost = n.cost ∧ n2.cost = n'.cost ∧
      V.nr = W.nr ∧ V.nc = W.nc ∧ ∀ v : Nat → ℝ, Spec.Blind v x → ∀ j < W.nc, ∑ i ∈ range W.nr, v i * V.f i j = (1 - lr * la) * ∑ i ∈ range W.nr, v i * W.f i j := by
  obtain ⟨w1, w2⟩ := model_first h hm
  obtain ⟨-, hz, hac, hpass⟩ := passed_first h hm hm' hd hc hu
  obtain ⟨d1, d2⟩ := outputZ_dims h hc
  obtain ⟨D, hD, hD1, hD2⟩ := hok y ((n.outputZ s x).map n.output.actfunc.act) (n.outputZ s x) (by rw [Mat.map_nr]; omega) (by rw [Mat.map_nc]; omega) (by omega) (by omega)
  have hDn' : n'.deltaOn s' x y = .ok D := by
    unfold Net.deltaOn
    rw [hcd, hz, hac]; exact hD
  obtain ⟨G, rest1, g1, g2, g3, g4⟩ := hpass D (by omega) (by omega)
  obtain ⟨s1, n1, e1, b1, -, r1⟩ := trainOn_ok (junk := junk) h hr hc hD (by omega) (by omega)
  obtain ⟨s2, n2, e2, b2, -, r2⟩ := trainOn_ok (junk := junk') h' hr hc hDn' (by omega) (by omega)
  have m1 : Spec.model s1 n1 = ((n.passed s x D).map Layer.upd).map Layer.core := by
    show (n1.layers s1).map Layer.core = _
    rw [b1.layers]
  have m2 : Spec.model s2 n2 = ((n'.passed s' x D).map Layer.upd).map Layer.core := by
    show (n2.layers s2).map Layer.core = _
    rw [b2.layers]
  refine ⟨s1, n1, s2, n2, rest1, firstStep lr la x G W, firstStep lr la x G W', e1, e2, m1.trans g3, m2.trans g4, ?_, r1.wf, r2.wf, b1.conf.ocostd, b2.conf.ocostd.trans hcd, b1.conf.cost, b2.conf.cost, rfl, rfl, ?_⟩
  · refine ⟨hd.nr, hd.nc, fun i hi j hj => ?_⟩
    replace hi : i < W.nr := hi
    replace hj : j < W.nc := hj
    unfold firstStep
    rw [Mat.of_f' (by rw [hd.nr]; exact hi) (by rw [hd.nc]; exact hj), Mat.of_f' hi hj, hd.at' i hi j hj]
    ring
  · intro v hv j hj
    exact firstStep_blind hv (by omega) g2 hj

theorem train_unseen {junk junk' : Nat → Nat → ℝ} {p q : Nat} {lr la : ℝ} {f : ActFunc ℝ} :
    ∀ {bs : List (Mat ℝ × Mat ℝ)} {s s' : Store} {n n' : Net} {rest : List (ℝ × ℝ × ActFunc ℝ × Mat ℝ)} {W W' : Mat ℝ} {u : Nat → Nat → ℝ}, n.WF s p q → n'.WF s' p q →
    Spec.model s n = (lr, la, f, W) :: rest → Spec.model s' n' = (lr, la, f, W') :: rest → Spec.Differ u W W' → n'.output.costd = n.output.costd → OutputLayer.DeltaOK n.output.costd →
    Spec.BatchesFit p q bs → (∀ b ∈ bs, ∀ j < W.nc, Spec.Blind (fun i => u i j) b.1) →
    ∃ s1 n1 s2 n2 rest1 V V', Net.trainAll junk bs s n = .ok (s1, n1) ∧ Net.trainAll junk' bs s' n' = .ok (s2, n2) ∧ Spec.model s1 n1 = (lr, la, f, V) :: rest1 ∧
      Spec.model s2 n2 = (lr, la, f, V') :: rest1 ∧ Spec.Differ (fun i j => (1 - lr * la) ^ bs.length * u i j) V V' ∧ n1.WF s1 p q ∧ n2.WF s2 p q ∧ n1.cost = n.cost ∧ n2.cost = n'.cost ∧
      V.nr = W.nr ∧ V.nc = W.nc ∧ ∀ v : Nat → ℝ, (∀ b ∈ bs, Spec.Blind v b.1) → ∀ j < W.nc, ∑ i ∈ range W.nr, v i * V.f i j = (1 - lr * la) ^ bs.length * ∑ i ∈ range W.nr, v i * W.f i j
  | [], s, s', n, n', rest, W, W', u, h, h', hm, hm', hd, _, _, _, _ =>
    ⟨s, n, s', n', rest, W, W', rfl, rfl, hm, hm', by simpa using hd, h, h', rfl, rfl, rfl, rfl, fun v _ j _ => by simp⟩
  | (x, y) :: bs, s, s', n, n', rest, W, W', u, h, h', hm, hm', hd, hcd, hok, hb, hu => by
    obtain ⟨b1, b2, b3, b4⟩ := hb (x, y) (by simp)
    obtain ⟨s1, n1, s2, n2, rest1, V, V', e1, e2, e3, e4, e5, e6, e7, e8, e9, e10, e11, e12, e13, e14⟩ :=
      step_unseen (junk := junk) (junk' := junk') h h' hm hm' hd hcd hok b1 b2 b3 b4 (hu (x, y) (by simp))
    obtain ⟨s3, n3, s4, n4, rest3, U, U', i1, i2, i3, i4, i5, i6, i7, i8, i9, i10, i11, i12⟩ := train_unseen (junk := junk) (junk' := junk') (bs := bs) e6 e7 e3 e4 e5 (e9.trans e8.symm) (by rw [e8]; exact hok)
      (fun c hc => hb c (by simp [hc])) (fun c hc j hj t ht => by
        have := hu c (by simp [hc]) j (by omega) t ht
        have e : ∀ k ∈ range c.1.nc, c.1.f t k * ((1 - lr * la) * u (k + 1) j) = (1 - lr * la) * (c.1.f t k * u (k + 1) j) := fun k _ => by ring
        rw [sum_congr rfl e, ← mul_sum, ← mul_add, this, mul_zero])
    refine ⟨s3, n3, s4, n4, rest3, U, U', ?_, ?_, i3, i4, ?_, i6, i7, i8.trans e10, i9.trans e11, i10.trans e12, i11.trans e13, fun v hv j hj => ?_⟩
    · simp only [Net.trainAll]
      rw [e1, ok_bind]; exact i1
    · simp only [Net.trainAll]
      rw [e2, ok_bind]; exact i2
    · have : (fun i j => (1 - lr * la) ^ ((x, y) :: bs).length * u i j) = fun i j => (1 - lr * la) ^ bs.length * ((1 - lr * la) * u i j) := by
        funext i j
        rw [List.length_cons, pow_succ]
        ring
      rw [this]
      exact i5
    · have a := i12 v (fun c hc => hv c (by simp [hc])) j (by omega)
      rw [e12] at a
      rw [a, e14 v (hv (x, y) (by simp)) j hj, List.length_cons, pow_succ]
      ring

/-! ## C111 -/

/-- **C111** (unseen). Two well-formed dense networks with the same settings, costs and later layers, whose first layers (of any width, possibly the output layer) differ by `u`, where no sample
of the training data has a component along the columns of `u`. After training on the same batches, from any initial caches, their later layers are still equal, the first layers differ by
`(1 - rate * lambda)^k u` after `k` batches, and the networks compute the same output for every matrix of samples that do not see `u`: but what they do with other samples was never learned. -/
theorem C111_unseen {junk junk' : Nat → Nat → ℝ} {p q : Nat} {lr la : ℝ} {f : ActFunc ℝ} {bs : List (Mat ℝ × Mat ℝ)} {s s' : Store} {n n' : Net} {rest : List (ℝ × ℝ × ActFunc ℝ × Mat ℝ)} {W W' : Mat ℝ}
    {u : Nat → Nat → ℝ} (h : n.WF s p q) (h' : n'.WF s' p q) (hm : Spec.model s n = (lr, la, f, W) :: rest) (hm' : Spec.model s' n' = (lr, la, f, W') :: rest) (hd : Spec.Differ u W W')
    (hcd : n'.output.costd = n.output.costd) (hok : OutputLayer.DeltaOK n.output.costd) (hb : Spec.BatchesFit p q bs) (hu : ∀ b ∈ bs, ∀ j < W.nc, Spec.Blind (fun i => u i j) b.1) :
    ∃ s1 n1 s2 n2 rest1 V V', Net.trainAll junk bs s n = .ok (s1, n1) ∧ Net.trainAll junk' bs s' n' = .ok (s2, n2) ∧ Spec.model s1 n1 = (lr, la, f, V) :: rest1 ∧
      Spec.model s2 n2 = (lr, la, f, V') :: rest1 ∧ Spec.Differ (fun i j => (1 - lr * la) ^ bs.length * u i j) V V' ∧
      ∀ x : Mat ℝ, 0 < x.nr → x.nc = p → (∀ j < W.nc, Spec.Blind (fun i => u i j) x) →
        ∃ a t1 m1 t2 m2, n1.forwardprop junk s1 x = .ok (a, t1, m1) ∧ n2.forwardprop junk' s2 x = .ok (a, t2, m2) := by
  obtain ⟨s1, n1, s2, n2, rest1, V, V', e1, e2, e3, e4, e5, e6, e7, -, -, e10, e11, -⟩ := train_unseen (junk := junk) (junk' := junk') h h' hm hm' hd hcd hok hb hu
  refine ⟨s1, n1, s2, n2, rest1, V, V', e1, e2, e3, e4, e5, fun x hr hc hx => ?_⟩
  obtain ⟨o, -⟩ := passed_first e6 e3 e4 e5 hc (fun j hj t ht => by
    have := hx j (by omega) t ht
    have e : ∀ k ∈ range x.nc, x.f t k * ((1 - lr * la) ^ bs.length * u (k + 1) j) = (1 - lr * la) ^ bs.length * (x.f t k * u (k + 1) j) := fun k _ => by ring
    rw [sum_congr rfl e, ← mul_sum, ← mul_add, this, mul_zero])
  obtain ⟨t1, m1, g1, -⟩ := Net.forwardprop_ok (junk := junk) e6 hr hc
  obtain ⟨t2, m2, g2, -⟩ := Net.forwardprop_ok (junk := junk') e7 hr hc
  exact ⟨_, t1, m1, t2, m2, g1, by rw [g2, o]⟩

/-- **C111** (invariant). Let no sample of the training data have a component along `v`. Then the component along `v` of the weights of every unit of the first layer is multiplied by
`1 - rate * lambda` for each batch, whatever the samples and labels. Without regularisation it never changes. -/
theorem C111_invariant {junk : Nat → Nat → ℝ} {p q : Nat} {lr la : ℝ} {f : ActFunc ℝ} {bs : List (Mat ℝ × Mat ℝ)} {s : Store} {n : Net} {rest : List (ℝ × ℝ × ActFunc ℝ × Mat ℝ)} {W : Mat ℝ}
    {v : Nat → ℝ} (h : n.WF s p q) (hm : Spec.model s n = (lr, la, f, W) :: rest) (hok : OutputLayer.DeltaOK n.output.costd) (hb : Spec.BatchesFit p q bs) (hv : ∀ b ∈ bs, Spec.Blind v b.1) :
    ∃ s1 n1 rest1 V, Net.trainAll junk bs s n = .ok (s1, n1) ∧ Spec.model s1 n1 = (lr, la, f, V) :: rest1 ∧ V.nr = p + 1 ∧ V.nc = W.nc ∧
      ∀ j < W.nc, ∑ i ∈ range (p + 1), v i * V.f i j = (1 - lr * la) ^ bs.length * ∑ i ∈ range (p + 1), v i * W.f i j := by
  obtain ⟨w1, w2⟩ := model_first h hm
  obtain ⟨s1, n1, s2, n2, rest1, V, V', e1, e2, e3, e4, e5, e6, e7, e8, e9, e10, e11, e12⟩ := train_unseen (junk := junk) (junk' := junk) (u := fun _ _ => 0) h h hm hm
    ⟨rfl, rfl, fun i _ j _ => (add_zero _).symm⟩ rfl hok hb (fun b _ j _ i _ => by simp)
  exact ⟨s1, n1, rest1, V, e1, e3, by omega, e11, fun j hj => by rw [← w1]; exact e12 v hv j hj⟩

/-- **C111** (unused feature). The weights from a feature that is zero in all the training data are only multiplied by `1 - rate * lambda` for each batch: without regularisation they keep their
initial random values, so that a sample that does have the feature gets an output that depends on them. -/
theorem C111_unused {junk : Nat → Nat → ℝ} {p q : Nat} {lr la : ℝ} {f : ActFunc ℝ} {bs : List (Mat ℝ × Mat ℝ)} {s : Store} {n : Net} {rest : List (ℝ × ℝ × ActFunc ℝ × Mat ℝ)} {W : Mat ℝ} {c : Nat}
    (h : n.WF s p q) (hm : Spec.model s n = (lr, la, f, W) :: rest) (hok : OutputLayer.DeltaOK n.output.costd) (hb : Spec.BatchesFit p q bs) (hc : c < p) (hz : ∀ b ∈ bs, ∀ i < b.1.nr, b.1.f i c = 0) :
    ∃ s1 n1 rest1 V, Net.trainAll junk bs s n = .ok (s1, n1) ∧ Spec.model s1 n1 = (lr, la, f, V) :: rest1 ∧
      ∀ j < W.nc, V.f (c + 1) j = (1 - lr * la) ^ bs.length * W.f (c + 1) j := by
  obtain ⟨s1, n1, rest1, V, e1, e2, -, -, e5⟩ := C111_invariant (junk := junk) (v := fun i => if i = c + 1 then 1 else 0) h hm hok hb (by
    intro b hbm i hi
    obtain ⟨-, b2, -⟩ := hb b hbm
    simp only [Nat.add_right_cancel_iff, mul_ite, mul_one, mul_zero, sum_ite_eq', mem_range]
    rw [if_neg (by omega), if_pos (by omega), hz b hbm i hi, add_zero])
  refine ⟨s1, n1, rest1, V, e1, e2, fun j hj => ?_⟩
  have := e5 j hj
  simpa only [ite_mul, one_mul, zero_mul, sum_ite_eq', mem_range, if_pos (show c + 1 < p + 1 by omega)] using this

/-- **C111** (repeated feature). If two features are equal in all the training data then the differences of their weights are only multiplied by `1 - rate * lambda` for each batch: training never
decides between them. -/
theorem C111_repeated {junk : Nat → Nat → ℝ} {p q : Nat} {lr la : ℝ} {f : ActFunc ℝ} {bs : List (Mat ℝ × Mat ℝ)} {s : Store} {n : Net} {rest : List (ℝ × ℝ × ActFunc ℝ × Mat ℝ)} {W : Mat ℝ} {c d : Nat}
    (h : n.WF s p q) (hm : Spec.model s n = (lr, la, f, W) :: rest) (hok : OutputLayer.DeltaOK n.output.costd) (hb : Spec.BatchesFit p q bs) (hc : c < p) (hd : d < p)
    (hz : ∀ b ∈ bs, ∀ i < b.1.nr, b.1.f i c = b.1.f i d) :
    ∃ s1 n1 rest1 V, Net.trainAll junk bs s n = .ok (s1, n1) ∧ Spec.model s1 n1 = (lr, la, f, V) :: rest1 ∧
      ∀ j < W.nc, V.f (c + 1) j - V.f (d + 1) j = (1 - lr * la) ^ bs.length * (W.f (c + 1) j - W.f (d + 1) j) := by
  obtain ⟨s1, n1, rest1, V, e1, e2, -, -, e5⟩ := C111_invariant (junk := junk) (v := fun i => (if i = c + 1 then 1 else 0) - (if i = d + 1 then 1 else 0)) h hm hok hb (by
    intro b hbm i hi
    obtain ⟨-, b2, -⟩ := hb b hbm
    simp only [Nat.add_right_cancel_iff, mul_sub, mul_ite, mul_one, mul_zero, sum_sub_distrib, sum_ite_eq', mem_range]
    rw [if_neg (by omega), if_neg (by omega), if_pos (by omega), if_pos (by omega), hz b hbm i hi]
    ring)
  refine ⟨s1, n1, rest1, V, e1, e2, fun j hj => ?_⟩
  have := e5 j hj
  simpa only [sub_mul, ite_mul, one_mul, zero_mul, sum_sub_distrib, sum_ite_eq', mem_range, if_pos (show c + 1 < p + 1 by omega), if_pos (show d + 1 < p + 1 by omega)] using this

/-- **C111** (constant feature). If a feature has the same value `r` in all the training data then its weight minus `r` times the bias is only multiplied by `1 - rate * lambda` for each batch:
the feature and the bias are learned together, at rates fixed by `r`. -/
theorem C111_constant {junk : Nat → Nat → ℝ} {p q : Nat} {lr la r : ℝ} {f : ActFunc ℝ} {bs : List (Mat ℝ × Mat ℝ)} {s : Store} {n : Net} {rest : List (ℝ × ℝ × ActFunc ℝ × Mat ℝ)} {W : Mat ℝ} {c : Nat}
    (h : n.WF s p q) (hm : Spec.model s n = (lr, la, f, W) :: rest) (hok : OutputLayer.DeltaOK n.output.costd) (hb : Spec.BatchesFit p q bs) (hc : c < p) (hz : ∀ b ∈ bs, ∀ i < b.1.nr, b.1.f i c = r) :
    ∃ s1 n1 rest1 V, Net.trainAll junk bs s n = .ok (s1, n1) ∧ Spec.model s1 n1 = (lr, la, f, V) :: rest1 ∧
      ∀ j < W.nc, V.f (c + 1) j - r * V.f 0 j = (1 - lr * la) ^ bs.length * (W.f (c + 1) j - r * W.f 0 j) := by
  obtain ⟨s1, n1, rest1, V, e1, e2, -, -, e5⟩ := C111_invariant (junk := junk) (v := fun i => (if i = c + 1 then 1 else 0) - (if i = 0 then r else 0)) h hm hok hb (by
    intro b hbm i hi
    obtain ⟨-, b2, -⟩ := hb b hbm
    simp only [Nat.add_right_cancel_iff, Nat.add_eq_zero_iff, one_ne_zero, and_false, if_false, sub_zero, mul_ite, mul_one, mul_zero, sum_ite_eq', mem_range, if_true]
    rw [if_neg (by omega), if_pos (by omega), hz b hbm i hi]
    ring)
  refine ⟨s1, n1, rest1, V, e1, e2, fun j hj => ?_⟩
  have := e5 j hj
  simpa only [sub_mul, ite_mul, one_mul, zero_mul, sum_sub_distrib, sum_ite_eq', mem_range, if_pos (show c + 1 < p + 1 by omega), if_pos (show 0 < p + 1 by omega)] using this

end
end Nnet.NN
