import Verif.NN.PropsUpdate
/-!
# C56: the batch gradient is the average of the sample gradients
-/
namespace Nnet.NN
open Finset
noncomputable section

/-! ## Specification -/

/-- `forwardprop(x); backprop(y)`. -/
def Net.gradPass (junk : Nat → Nat → ℝ) (s : Store) (n : Net) (x y : Mat ℝ) : Res (Store × Net) := do
  let (_, s, n) ← n.forwardprop junk s x
  n.backprop junk s y

/-- A `costd` that treats the rows of a batch separately and divides by their number. -/
def Spec.RowMean (costd : MatFuncD) : Prop :=
  ∀ y a z : Mat ℝ, a.nr = y.nr → a.nc = y.nc → z.nr = y.nr → z.nc = y.nc → 0 < y.nr →
    ∃ D, costd y a z = .ok D ∧ D.nr = y.nr ∧ D.nc = y.nc ∧
      ∀ i < y.nr, costd (y.rowMat i) (a.rowMat i) (z.rowMat i) = .ok ((D.rowMat i).smul (y.nr : ℝ))

/-! ## Lemmas -/

theorem rowMat_f (m : Mat ℝ) {i j : Nat} (hj : j < m.nc) : (m.rowMat i).f 0 j = m.f i j := Mat.of_f' (by omega) hj

theorem map_rowMat {m : Mat ℝ} {i : Nat} (hi : i < m.nr) (g : ℝ → ℝ) : (m.map g).rowMat i = (m.rowMat i).map g := by
  refine Mat.ext' rfl rfl fun a b ha hb => ?_
  replace ha : a < 1 := ha
  obtain rfl : a = 0 := by omega
  rw [rowMat_f _ (by exact hb), Mat.map_f' hi (by exact hb), Mat.map_f' (by exact ha) (by exact hb), rowMat_f _ (by exact hb)]

theorem ones1_rowMat {x : Mat ℝ} {i : Nat} (hi : i < x.nr) : ones1 (x.rowMat i) = (ones1 x).rowMat i := by
  refine Mat.ext' rfl rfl fun a b ha hb => ?_
  replace ha : a < 1 := ha
  replace hb : b < x.nc + 1 := hb
  obtain rfl : a = 0 := by omega
  rw [rowMat_f _ (by exact hb)]
  unfold ones1
  rw [Mat.of_f' (by exact ha) (by exact hb), Mat.of_f' hi hb]
  split
  · rfl
  · rw [rowMat_f _ (by omega)]

theorem pre_rowMat {W x : Mat ℝ} {i : Nat} (hi : i < x.nr) : Spec.pre W (x.rowMat i) = (Spec.pre W x).rowMat i := by
  refine Mat.ext' rfl rfl fun a b ha hb => ?_
  replace ha : a < 1 := ha
  replace hb : b < W.nc := hb
  obtain rfl : a = 0 := by omega
  rw [rowMat_f _ (by exact hb)]
  unfold Spec.pre
  rw [Mat.of_f' (by exact ha) (by exact hb), Mat.of_f' hi hb]
  congr 1
  refine sum_congr rfl fun k hk => ?_
  rw [rowMat_f _ (by exact mem_range.1 hk)]

theorem fwd_a_rowMat {L : Layer} {x : Mat ℝ} {i : Nat} (hi : i < x.nr) : (L.fwd (x.rowMat i)).a = (L.fwd x).a.rowMat i := by
  show (Spec.pre L.W (x.rowMat i)).map _ = ((Spec.pre L.W x).map _).rowMat i
  rw [pre_rowMat hi, map_rowMat (by exact hi)]

theorem outL_rowMat : ∀ (Ls : List Layer) {x : Mat ℝ} {i : Nat}, i < x.nr → outL Ls (x.rowMat i) = (outL Ls x).rowMat i
  | [], _, _, _ => rfl
  | L :: Ls, x, i, hi => by
    show outL Ls (L.fwd (x.rowMat i)).a = (outL Ls (L.fwd x).a).rowMat i
    rw [fwd_a_rowMat hi]
    exact outL_rowMat Ls (x := (L.fwd x).a) hi

theorem dz_rowMat {L : Layer} {x d : Mat ℝ} {i : Nat} (hi : i < x.nr) (h1 : d.nr = x.nr) (h2 : d.nc = L.W.nc) :
    (L.fwd (x.rowMat i)).dz (d.rowMat i) = ((L.fwd x).dz d).rowMat i := by
  refine Mat.ext' rfl rfl fun a b ha hb => ?_
  replace ha : a < 1 := ha
  replace hb : b < d.nc := hb
  obtain rfl : a = 0 := by omega
  rw [rowMat_f _ (by exact hb)]
  unfold Layer.dz
  rw [Mat.of_f' (by exact ha) (by exact hb), Mat.of_f' (by omega) hb, rowMat_f _ hb]
  show _ * L.actfunc.actd ((Spec.pre L.W (x.rowMat i)).f 0 b) = _ * L.actfunc.actd ((Spec.pre L.W x).f i b)
  rw [pre_rowMat hi, rowMat_f _ (by show b < L.W.nc; omega)]

theorem backOf_rowMat {D W : Mat ℝ} {i : Nat} (hi : i < D.nr) : Layer.backOf (D.rowMat i) W = (Layer.backOf D W).rowMat i := by
  refine Mat.ext' rfl rfl fun a b ha hb => ?_
  replace ha : a < 1 := ha
  replace hb : b < W.nr - 1 := hb
  obtain rfl : a = 0 := by omega
  rw [rowMat_f _ (by exact hb)]
  unfold Layer.backOf
  rw [Mat.of_f' (by exact ha) (by exact hb), Mat.of_f' hi hb]
  refine sum_congr rfl fun k hk => ?_
  rw [rowMat_f _ (by exact mem_range.1 hk)]

/-- The delta that reaches a layer is computed row by row. -/
theorem bwd_row : ∀ {Ls : List Layer} {x d : Mat ℝ} {q i : Nat}, Spec.Fits x.nc (Ls.map (·.W)) q → i < x.nr → d.nr = x.nr → d.nc = q →
    (bwdL (fwdL Ls (x.rowMat i)) (d.rowMat i)).2 = (bwdL (fwdL Ls x) d).2.rowMat i
  | [], _, _, _, _, _, _, _, _ => rfl
  | L :: Ls, x, d, q, i, hf, hi, h1, h2 => by
    simp only [List.map_cons, Spec.Fits] at hf
    have ih := bwd_row (Ls := Ls) (x := (L.fwd x).a) (d := d) (i := i) hf.2.2 hi h1 h2
    obtain ⟨hb1, hb2⟩ := bwdL_dims (Ls := fwdL Ls (L.fwd x).a) (d := d) (m := x.nr) (p := L.W.nc) (q := q) (by rw [fwdL_W]; exact hf.2.2) h1 h2
    show Layer.backOf ((L.fwd (x.rowMat i)).dz (bwdL (fwdL Ls (L.fwd (x.rowMat i)).a) (d.rowMat i)).2) L.W =
      (Layer.backOf ((L.fwd x).dz (bwdL (fwdL Ls (L.fwd x).a) d).2) L.W).rowMat i
    rw [fwd_a_rowMat hi, ih, dz_rowMat hi hb1 hb2, backOf_rowMat (by show i < (bwdL _ _).2.nr; omega)]

theorem gradOf_rows {pa D : Mat ℝ} (h : D.nr = pa.nr) (a b : Nat) :
    (Layer.gradOf pa D).f a b = ∑ i ∈ range pa.nr, (Layer.gradOf (pa.rowMat i) (D.rowMat i)).f a b := by
  by_cases hab : a < pa.nc ∧ b < D.nc
  · unfold Layer.gradOf
    rw [Mat.of_f' hab.1 hab.2]
    refine sum_congr rfl fun i _ => ?_
    rw [Mat.of_f' (by exact hab.1) (by exact hab.2)]
    show _ = ∑ k ∈ range 1, _
    rw [sum_range_one, rowMat_f _ hab.1, rowMat_f _ hab.2]
  · rw [Mat.out _ a b (by exact hab)]
    symm
    exact sum_eq_zero fun i _ => Mat.out _ a b (by exact hab)

theorem dataGrad_at (L : Layer) (D : Mat ℝ) {a b : Nat} (ha : a < L.W.nr) (hb : b < L.W.nc) :
    ({ L with delta := D, grad := L.regGrad D } : Layer).dataGrad.f a b = (Layer.gradOf L.pa D).f a b := by
  unfold Layer.dataGrad Layer.regGrad
  simp only
  rw [Mat.of_f' ha hb, Mat.of_f' ha hb]
  ring

/-- Layer by layer, the batch gradient is the sum of the gradients of the rows. -/
theorem grad_rows : ∀ {Ls : List Layer} {x d : Mat ℝ} {q l : Nat} {L : Layer}, Spec.Fits x.nc (Ls.map (·.W)) q → d.nr = x.nr → d.nc = q →
    Ls[l]? = some L → ∃ (B : Layer) (Bi : Nat → Layer), (bwdL (fwdL Ls x) d).1[l]? = some B ∧
      (∀ i < x.nr, (bwdL (fwdL Ls (x.rowMat i)) (d.rowMat i)).1[l]? = some (Bi i)) ∧
      ∀ a < L.W.nr, ∀ b < L.W.nc, B.dataGrad.f a b = ∑ i ∈ range x.nr, (Bi i).dataGrad.f a b
  | [], _, _, _, l, _, _, _, _, h => by simp at h
  | M :: Ls, x, d, q, 0, L, hf, h1, h2, h => by
    simp only [List.getElem?_cons_zero, Option.some.injEq] at h
    subst h
    simp only [List.map_cons, Spec.Fits] at hf
    obtain ⟨hb1, hb2⟩ := bwdL_dims (Ls := fwdL Ls (M.fwd x).a) (d := d) (m := x.nr) (p := M.W.nc) (q := q) (by rw [fwdL_W]; exact hf.2.2) h1 h2
    refine ⟨_, fun i => (M.fwd (x.rowMat i)).bwd (bwdL (fwdL Ls (M.fwd (x.rowMat i)).a) (d.rowMat i)).2, rfl, fun i _ => rfl, fun a ha b hb => ?_⟩
    show ((M.fwd x).bwd (bwdL (fwdL Ls (M.fwd x).a) d).2).dataGrad.f a b = _
    unfold Layer.bwd
    rw [dataGrad_at (M.fwd x) _ (by exact ha) (by exact hb), gradOf_rows (by exact hb1)]
    refine sum_congr rfl fun i hi => ?_
    have hi' : i < x.nr := mem_range.1 hi
    rw [dataGrad_at (M.fwd (x.rowMat i)) _ (by exact ha) (by exact hb), fwd_a_rowMat hi', bwd_row (x := (M.fwd x).a) hf.2.2 hi' h1 h2,
      dz_rowMat hi' hb1 hb2]
    show (Layer.gradOf ((ones1 x).rowMat i) _).f a b = (Layer.gradOf (ones1 (x.rowMat i)) _).f a b
    rw [ones1_rowMat hi']
  | M :: Ls, x, d, q, l + 1, L, hf, h1, h2, h => by
    simp only [List.map_cons, Spec.Fits] at hf
    simp only [List.getElem?_cons_succ] at h
    obtain ⟨B, Bi, e1, e2, e3⟩ := grad_rows (x := (M.fwd x).a) (d := d) hf.2.2 h1 h2 h
    refine ⟨B, Bi, e1, fun i hi => ?_, e3⟩
    have := e2 i hi
    rw [← fwd_a_rowMat hi] at this
    exact this

theorem get_smul {Ls : List Layer} {d : Mat ℝ} {c : ℝ} {l : Nat} {B : Layer} (h : (bwdL Ls d).1[l]? = some B) :
    ∃ B', (bwdL Ls (d.smul c)).1[l]? = some B' ∧ B'.dataGrad = B.dataGrad.smul c := by
  have h2 := congrArg (fun v : List (Mat ℝ) => v[l]?) (bwdL_smul Ls d c).2
  simp only [List.getElem?_map, h, Option.map_some] at h2
  cases hb : (bwdL Ls (d.smul c)).1[l]? with
  | none => rw [hb] at h2; simp at h2
  | some B' =>
    rw [hb] at h2
    exact ⟨B', rfl, by simpa using h2⟩

theorem grad_of_data {B : Layer} (a b : Nat) (ha : a < B.W.nr) (hb : b < B.W.nc) : B.grad.f a b = B.dataGrad.f a b + B.lambda * B.W.f a b := by
  unfold Layer.dataGrad
  rw [Mat.of_f' ha hb]
  ring

/-! ## C56 -/

/-- **C56.** For a well-formed dense network whose output treats rows separately, `forwardprop(x); backprop(y)` succeeds for the batch and for
each of its `n` rows alone, and the gradient of every weight of every layer for the batch is the sum of the gradients for the rows divided
by `n` (with regularisation too, since every gradient contains the same term). -/
theorem C56_average {junk : Nat → Nat → ℝ} {s : Store} {n : Net} {p q : Nat} {x y : Mat ℝ} (h : n.WF s p q) (hr : 0 < x.nr) (hc : x.nc = p)
    (hyr : y.nr = x.nr) (hyc : y.nc = q) (hd : Spec.RowMean n.output.costd) :
    ∃ s2 n2, ∃ S : Nat → Store, ∃ N : Nat → Net, n.gradPass junk s x y = .ok (s2, n2) ∧
      (∀ i < x.nr, n.gradPass junk s (x.rowMat i) (y.rowMat i) = .ok (S i, N i)) ∧
      (∀ l L, n.gethidden s l = .ok L → ∃ (B : Layer) (Bi : Nat → Layer), n2.gethidden s2 l = .ok B ∧ (∀ i < x.nr, (N i).gethidden (S i) l = .ok (Bi i)) ∧
        ∀ a < L.W.nr, ∀ b < L.W.nc, B.grad.f a b = (∑ i ∈ range x.nr, (Bi i).grad.f a b) / x.nr) ∧
      (∀ a < n.output.W.nr, ∀ b < n.output.W.nc, n2.output.grad.f a b = (∑ i ∈ range x.nr, (N i).output.grad.f a b) / x.nr) := by
  obtain ⟨d1, d2⟩ := outputZ_dims h hc
  obtain ⟨D, hD, hD1, hD2, hrow⟩ := hd y ((n.outputZ s x).map n.output.actfunc.act) (n.outputZ s x) (by rw [Mat.map_nr]; omega) (by rw [Mat.map_nc]; omega)
    (by omega) (by omega) (by omega)
  obtain ⟨s1, n1, s2, n2, e1, e2, _, _, hhid, hout⟩ := forward_backward (junk := junk) h hr hc hyr hD (by omega) (by omega)
  have hne : (x.nr : ℝ) ≠ 0 := by exact_mod_cast hr.ne'
  have hrows : ∀ i : Nat, ∃ (S : Store) (N : Net), i < x.nr → n.gradPass junk s (x.rowMat i) (y.rowMat i) = .ok (S, N) ∧
      N.hiddenLayers S = (bwdL (fwdL (n.hiddenLayers s) (x.rowMat i)) (Layer.backOf ((D.rowMat i).smul (x.nr : ℝ)) n.output.W)).1 ∧
      N.output.toLayer = { n.output.toLayer.fwd (outL (n.hiddenLayers s) (x.rowMat i)) with
        delta := (D.rowMat i).smul (x.nr : ℝ), grad := (n.output.toLayer.fwd (outL (n.hiddenLayers s) (x.rowMat i))).regGrad ((D.rowMat i).smul (x.nr : ℝ)) } := by
    intro i
    by_cases hi : i < x.nr
    · have hz : n.outputZ s (x.rowMat i) = (n.outputZ s x).rowMat i := by
        rw [outputZ_eq, outputZ_eq, outL_rowMat _ hi, pre_rowMat]
        rw [outputZ_eq] at d1
        exact lt_of_lt_of_eq hi d1.symm
      have := hrow i (by omega)
      rw [map_rowMat (by omega), ← hz, hyr] at this
      obtain ⟨s1', n1', s2', n2', f1, f2, _, _, f5, f6⟩ := forward_backward (junk := junk) (x := x.rowMat i) (y := y.rowMat i) h (by show 0 < 1; omega) hc rfl this rfl
        (by show D.nc = q; omega)
      refine ⟨s2', n2', fun _ => ⟨?_, f5, f6⟩⟩
      unfold Net.gradPass
      rw [f1, ok_bind]
      exact f2
    · exact ⟨s, n, fun h => absurd h hi⟩
  choose S N hSN using hrows
  have hfit := h.fits
  unfold Net.layers at hfit
  rw [List.map_append, fits_append] at hfit
  obtain ⟨r0, hf1, hf2⟩ := hfit
  simp only [List.map_cons, List.map_nil, Spec.Fits] at hf2
  refine ⟨s2, n2, S, N, ?_, fun i hi => (hSN i hi).1, fun l L hL => ?_, fun a ha b hb => ?_⟩
  · unfold Net.gradPass
    rw [e1, ok_bind]
    exact e2
  · have hget := hiddenLayer_get hL
    obtain ⟨B, Bi, g1, g2, g3⟩ := grad_rows (x := x) (d := Layer.backOf D n.output.W) (q := r0) (by rw [hc]; exact hf1) (by show D.nr = _; omega)
      (by show n.output.W.nr - 1 = r0; omega) hget
    obtain ⟨B0, hB0, hBW, hBl, _⟩ := bwd_get (x := x) (d := Layer.backOf D n.output.W) hget
    rw [g1] at hB0
    cases hB0
    have hrow2 : ∀ i : Nat, ∃ Bi' : Layer, i < x.nr → (N i).gethidden (S i) l = .ok Bi' ∧ Bi'.W = L.W ∧ Bi'.lambda = L.lambda ∧
        Bi'.dataGrad = (Bi i).dataGrad.smul (x.nr : ℝ) := by
      intro i
      by_cases hi : i < x.nr
      · have q1 := g2 i hi
        rw [← backOf_rowMat (by omega)] at q1
        obtain ⟨B', q2, q3⟩ := get_smul (c := (x.nr : ℝ)) q1
        rw [← backOf_smul] at q2
        obtain ⟨B1, hB1, w1, w2, _⟩ := bwd_get (x := x.rowMat i) (d := Layer.backOf ((D.rowMat i).smul (x.nr : ℝ)) n.output.W) hget
        rw [q2] at hB1
        cases hB1
        exact ⟨B', fun _ => ⟨gethidden_of (by rw [(hSN i hi).2.1]; exact q2), w1, w2, q3⟩⟩
      · exact ⟨L, fun h => absurd h hi⟩
    choose Bi' hBi' using hrow2
    refine ⟨B, Bi', gethidden_of (by rw [hhid]; exact g1), fun i hi => (hBi' i hi).1, fun a ha b hb => ?_⟩
    have e : ∀ i ∈ range x.nr, (Bi' i).grad.f a b = x.nr * (Bi i).dataGrad.f a b + L.lambda * L.W.f a b := by
      intro i hi
      obtain ⟨_, w1, w2, w3⟩ := hBi' i (mem_range.1 hi)
      rw [grad_of_data a b (by rw [w1]; exact ha) (by rw [w1]; exact hb), w3, Mat.smul_f, w1, w2]
    rw [sum_congr rfl e, sum_add_distrib, ← mul_sum, ← g3 a ha b hb, sum_const, card_range, nsmul_eq_mul,
      grad_of_data a b (by rw [hBW]; exact ha) (by rw [hBW]; exact hb), hBW, hBl]
    field_simp
  · have hb' := outL_dims (Ls := n.hiddenLayers s) (x := x) (q := r0) (by rw [hc]; exact hf1)
    have e : ∀ i ∈ range x.nr, (N i).output.grad.f a b =
        x.nr * (Layer.gradOf ((ones1 (outL (n.hiddenLayers s) x)).rowMat i) (D.rowMat i)).f a b + n.output.lambda * n.output.W.f a b := by
      intro i hi
      have hi' := mem_range.1 hi
      have : (N i).output.grad = (n.output.toLayer.fwd (outL (n.hiddenLayers s) (x.rowMat i))).regGrad ((D.rowMat i).smul (x.nr : ℝ)) := by
        rw [(hSN i hi').2.2]
      rw [this]
      unfold Layer.regGrad
      rw [Mat.of_f' (by exact ha) (by exact hb)]
      congr 1
      show (Layer.gradOf (ones1 (outL (n.hiddenLayers s) (x.rowMat i))) _).f a b = _
      rw [outL_rowMat _ hi', ones1_rowMat (by omega), gradOf_smul, Mat.smul_f]
    rw [sum_congr rfl e, sum_add_distrib, ← mul_sum, sum_const, card_range, nsmul_eq_mul]
    have g : n2.output.grad = (n.output.toLayer.fwd (outL (n.hiddenLayers s) x)).regGrad D := by rw [hout]
    rw [g]
    unfold Layer.regGrad
    rw [Mat.of_f' (by exact ha) (by exact hb)]
    show (Layer.gradOf (ones1 (outL (n.hiddenLayers s) x)) D).f a b + _ = _
    rw [gradOf_rows (by show D.nr = (outL (n.hiddenLayers s) x).nr; omega)]
    show (∑ i ∈ range (outL (n.hiddenLayers s) x).nr, _) + _ = _
    rw [hb'.1, eq_div_iff hne]
    show _ = _ + _ * (n.output.lambda * n.output.W.f a b)
    show (_ + n.output.lambda * n.output.W.f a b) * _ = _
    ring

/-- **C56, the library's outputs.** All four predefined outputs treat the rows separately. -/
theorem C56_outputs : Spec.RowMean Quadratic.costd ∧ Spec.RowMean CrossEntropy.costd ∧ Spec.RowMean Softmax.costd ∧
    Spec.RowMean KullbackLeibler.costd := by
  have hq : Spec.RowMean Quadratic.costd := by
    intro y a z h1 h2 _ _ hy
    have hne : (y.nr : ℝ) ≠ 0 := by exact_mod_cast hy.ne'
    refine ⟨_, diff_costd h1 h2, h1, h2, fun i hi => ?_⟩
    unfold Quadratic.costd
    rw [diff_costd (by rfl) (by exact h2)]
    congr 1
    refine Mat.ext' rfl rfl fun k j hk hj => ?_
    replace hk : k < 1 := hk
    replace hj : j < a.nc := hj
    obtain rfl : k = 0 := by omega
    rw [Mat.smul_f, rowMat_f _ (by exact hj), Mat.of_f' (by exact hk) (by exact hj), Mat.of_f' (by omega) hj, rowMat_f _ hj, rowMat_f _ (by omega)]
    show (_ - _) / ((1 : Nat) : ℝ) = _
    field_simp
    simp
  refine ⟨hq, hq, ?_, ?_⟩
  · intro y a z h1 h2 _ _ hy
    have hne : (y.nr : ℝ) ≠ 0 := by exact_mod_cast hy.ne'
    refine ⟨_, softmax_costd h1 h2, h1, h2, fun i hi => ?_⟩
    rw [softmax_costd (by rfl) (by exact h2)]
    congr 1
    refine Mat.ext' rfl rfl fun k j hk hj => ?_
    replace hk : k < 1 := hk
    replace hj : j < a.nc := hj
    obtain rfl : k = 0 := by omega
    rw [Mat.smul_f, rowMat_f _ (by exact hj), Mat.of_f' (by exact hk) (by exact hj), Mat.of_f' (by omega) hj, rowMat_f _ (by omega)]
    have hs : Spec.softmaxAt (a.rowMat i) 0 j = Spec.softmaxAt a i j := by
      unfold Spec.softmaxAt
      rw [rowMat_f _ hj]
      congr 1
      refine sum_congr rfl fun k hk => ?_
      rw [rowMat_f _ (by exact mem_range.1 hk)]
    rw [hs]
    show (_ - _) / ((1 : Nat) : ℝ) = _
    field_simp
    simp
  · intro y a z h1 h2 _ _ hy
    have hne : (y.nr : ℝ) ≠ 0 := by exact_mod_cast hy.ne'
    refine ⟨(Mat.of y.nr y.nc (fun i j => y.f i j / a.f i j)).divS y.nr, ?_, rfl, rfl, fun i hi => ?_⟩
    · unfold KullbackLeibler.costd
      rw [Mat.ediv_ok h1.symm h2.symm, ok_bind]
    · unfold KullbackLeibler.costd
      rw [Mat.ediv_ok (by rfl) (by exact h2.symm), ok_bind]
      congr 1
      refine Mat.ext' rfl rfl fun k j hk hj => ?_
      replace hk : k < 1 := hk
      replace hj : j < y.nc := hj
      obtain rfl : k = 0 := by omega
      rw [Mat.smul_f, rowMat_f _ (by exact hj), Mat.divS_f, Mat.divS_f, Mat.of_f' (by exact hk) (by exact hj), Mat.of_f' (by omega) hj, rowMat_f _ hj, rowMat_f _ (by omega)]
      show _ / ((1 : Nat) : ℝ) = _
      field_simp
      simp

/-- The hypotheses hold of a concrete network and batch. -/
example : exNet.WF exStore 2 2 ∧ 0 < exX.nr ∧ exX.nc = 2 ∧ exY.nr = exX.nr ∧ exY.nc = 2 ∧ Spec.RowMean exNet.output.costd :=
  ⟨exNet_wf, by show 0 < 5; omega, rfl, rfl, rfl, C56_outputs.1⟩

end
end Nnet.NN
