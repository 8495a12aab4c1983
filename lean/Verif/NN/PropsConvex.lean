import Verif.NN.PropsLinear
import Verif.NN.ConvexLoss
import Verif.NN.HeavyBall
/-!
# C88: training a network without hidden layers converges
-/
namespace Nnet.NN
open Finset
noncomputable section

/-! ## Specification -/

/-- A network without hidden layers whose output and cost are one of the three matching pairs. -/
structure Spec.Shallow (s : Store) (n : Net) (p q : Nat) (l : Spec.Loss) : Prop where
  wf : n.WF s p q
  nohidden : n.hidden = []
  act : n.output.actfunc = l.act
  costd : n.output.costd = l.costd
  cost : n.cost = l.cost

/-- Mean cost over the samples `x`, labels `y`, of a network without hidden layers and with the weights `V`. -/
def Spec.trainCost (l : Spec.Loss) (x y : Mat ℝ) (V : Nat → Nat → ℝ) : ℝ :=
  (∑ i ∈ range x.nr, l.sample y.nc (y.f i) (fun j => ∑ k ∈ range (x.nc + 1), Spec.withOne x i k * V k j)) / x.nr

/-- Sum of the squares of the first `d` rows and `q` columns. -/
def Spec.squares (d q : Nat) (V : Nat → Nat → ℝ) : ℝ := ∑ k ∈ range d, ∑ j ∈ range q, V k j ^ 2

/-- The cost with the penalty of the weights. -/
def Spec.penalised (l : Spec.Loss) (lam : ℝ) (x y : Mat ℝ) (V : Nat → Nat → ℝ) : ℝ :=
  Spec.trainCost l x y V + lam / 2 * Spec.squares (x.nc + 1) y.nc V

/-- The weights after `t` times `forwardprop(x); backprop(y); update()`. -/
def Spec.weightsAfter (junk : Nat → Nat → ℝ) (s : Store) (n : Net) (x y : Mat ℝ) (t : Nat) : Res (Mat ℝ) := do
  let (_, n) ← Net.trainAll junk (List.replicate t (x, y)) s n
  .ok n.output.W

/-- What `predict(x)` returns after `t` times `forwardprop(x); backprop(y); update()`. -/
def Spec.predictAfter (junk : Nat → Nat → ℝ) (s : Store) (n : Net) (x y : Mat ℝ) (t : Nat) : Res (Mat ℝ) := do
  let (s, n) ← Net.trainAll junk (List.replicate t (x, y)) s n
  let (r, _, _) ← n.predict junk s x
  .ok r

/-- What `forwardprop(x)` returns after `t` times `forwardprop(x); backprop(y); update()`. -/
def Spec.outputAfter (junk : Nat → Nat → ℝ) (s : Store) (n : Net) (x y : Mat ℝ) (t : Nat) : Res (Mat ℝ) := do
  let (s, n) ← Net.trainAll junk (List.replicate t (x, y)) s n
  let (r, _, _) ← n.forwardprop junk s x
  .ok r

/-- The rows and columns fit together. -/
structure Spec.Batch (x y : Mat ℝ) (p q : Nat) (l : Spec.Loss) : Prop where
  rows : 0 < x.nr
  cols : x.nc = p
  lrows : y.nr = x.nr
  lcols : y.nc = q
  labels : ∀ i < x.nr, l.Labels q (y.f i)

/-- Mean squared length of the samples, counting the leading 1. -/
def Spec.meanSquare (x : Mat ℝ) : ℝ := (∑ i ∈ range x.nr, (1 + ∑ k ∈ range x.nc, x.f i k ^ 2)) / x.nr

/-! ## The library's functions -/

theorem loss_costd (l : Spec.Loss) {y z z' : Mat ℝ} (h1 : z.nr = y.nr) (h2 : z.nc = y.nc) :
    l.costd y (z.map l.act.act) z' = .ok (Mat.of z.nr z.nc (fun i j => l.deriv y.nc (y.f i) (z.f i) j / y.nr)) := by
  cases l with
  | quadratic =>
    show Quadratic.costd y _ z' = _
    unfold Quadratic.costd
    rw [diff_costd (by exact h1) (by exact h2)]
    congr 1
    refine Mat.of_congr fun i j hi hj => ?_
    rw [Mat.map_f' (by exact hi) (by exact hj)]
    rfl
  | logistic =>
    show CrossEntropy.costd y _ z' = _
    unfold CrossEntropy.costd
    rw [diff_costd (by exact h1) (by exact h2)]
    congr 1
    refine Mat.of_congr fun i j hi hj => ?_
    rw [Mat.map_f' (by exact hi) (by exact hj)]
    rfl
  | softmax =>
    show Softmax.costd y _ z' = _
    rw [softmax_costd (by exact h1) (by exact h2)]
    congr 1
    refine Mat.of_congr fun i j hi hj => ?_
    unfold Spec.softmaxAt
    replace hi : i < z.nr := hi
    rw [Mat.map_f' hi (by exact hj)]
    have : ∑ k ∈ range (z.map Spec.Loss.softmax.act.act).nc, Real.exp ((z.map Spec.Loss.softmax.act.act).f i k) = ∑ k ∈ range y.nc, Real.exp (z.f i k) := by
      rw [← h2]
      refine sum_congr rfl fun k hk => ?_
      rw [Mat.map_f' hi (mem_range.1 hk)]
      rfl
    rw [this]
    rfl

theorem loss_cost (l : Spec.Loss) {y z : Mat ℝ} (h1 : y.nr = z.nr) (h2 : y.nc = z.nc) :
    (do let J ← l.cost y (z.map l.act.act); Except.ok (sumall J) : Res ℝ) = .ok ((∑ i ∈ range y.nr, l.sample y.nc (y.f i) (z.f i)) / y.nr) := by
  have fin : ∀ g : Nat → Nat → ℝ, (∀ i < y.nr, ∑ j ∈ range y.nc, g i j = l.sample y.nc (y.f i) (z.f i)) →
      l.cost y (z.map l.act.act) = .ok (Mat.of y.nr y.nc (fun i j => g i j / y.nr)) →
      (do let J ← l.cost y (z.map l.act.act); Except.ok (sumall J) : Res ℝ) = .ok ((∑ i ∈ range y.nr, l.sample y.nc (y.f i) (z.f i)) / y.nr) := by
    intro g hg e
    rw [e, ok_bind]
    unfold sumall
    rw [Mat.accu_of, Finset.sum_div]
    congr 1
    refine sum_congr rfl fun i hi => ?_
    rw [← hg i (mem_range.1 hi), Finset.sum_div]
  cases l with
  | quadratic =>
    refine fin (fun i j => (z.f i j - y.f i j) ^ 2 / 2) (fun i _ => rfl) ?_
    show Quadratic.cost y _ = _
    rw [quadratic_cost (by exact h1) (by exact h2)]
    congr 1
    refine Mat.of_congr fun i j hi hj => ?_
    rw [Mat.map_f' (by omega) (by omega)]
    show (y.f i j - z.f i j) * (y.f i j - z.f i j) / 2 / _ = _
    ring
  | logistic =>
    refine fin (fun i j => -(y.f i j * Real.log (1 / (1 + Real.exp (-z.f i j))) + (1 - y.f i j) * Real.log (1 - 1 / (1 + Real.exp (-z.f i j))))) (fun i _ => rfl) ?_
    show CrossEntropy.cost y _ = _
    rw [crossEntropy_cost (by exact h1) (by exact h2)]
    congr 1
    refine Mat.of_congr fun i j hi hj => ?_
    rw [Mat.map_f' (by omega) (by omega)]
    rfl
  | softmax =>
    refine fin (fun i j => -(y.f i j * Real.log (Real.exp (z.f i j) / ∑ k ∈ range y.nc, Real.exp (z.f i k)))) (fun i _ => rfl) ?_
    show Softmax.cost y _ = _
    rw [softmax_cost (by exact h1) (by exact h2)]
    congr 1
    refine Mat.of_congr fun i j hi hj => ?_
    unfold Spec.softmaxAt
    have hi' : i < z.nr := by omega
    rw [Mat.map_f' hi' (by omega)]
    have : ∑ k ∈ range (z.map Spec.Loss.softmax.act.act).nc, Real.exp ((z.map Spec.Loss.softmax.act.act).f i k) = ∑ k ∈ range y.nc, Real.exp (z.f i k) := by
      rw [h2]
      refine sum_congr rfl fun k hk => ?_
      rw [Mat.map_f' hi' (mem_range.1 hk)]
      rfl
    rw [this]
    rfl

theorem loss_sample_congr (l : Spec.Loss) {q : Nat} (y : Nat → ℝ) {z v : Nat → ℝ} (h : ∀ j < q, z j = v j) : l.sample q y z = l.sample q y v := by
  cases l with
  | quadratic => exact sum_congr rfl fun j hj => by rw [h j (mem_range.1 hj)]
  | logistic => exact sum_congr rfl fun j hj => by rw [h j (mem_range.1 hj)]
  | softmax =>
    have : ∑ k ∈ range q, Real.exp (z k) = ∑ k ∈ range q, Real.exp (v k) := sum_congr rfl fun j hj => by rw [h j (mem_range.1 hj)]
    show ∑ j ∈ range q, _ = ∑ j ∈ range q, _
    rw [this]
    exact sum_congr rfl fun j hj => by rw [h j (mem_range.1 hj)]

theorem loss_deriv_congr (l : Spec.Loss) {q : Nat} (y : Nat → ℝ) {z v : Nat → ℝ} (h : ∀ j < q, z j = v j) {j : Nat} (hj : j < q) : l.deriv q y z j = l.deriv q y v j := by
  cases l with
  | quadratic => show z j - _ = v j - _; rw [h j hj]
  | logistic => show 1 / (1 + Real.exp (-z j)) - _ = 1 / (1 + Real.exp (-v j)) - _; rw [h j hj]
  | softmax =>
    have : ∑ k ∈ range q, Real.exp (z k) = ∑ k ∈ range q, Real.exp (v k) := sum_congr rfl fun j hj => by rw [h j (mem_range.1 hj)]
    show Real.exp (z j) / _ - _ = Real.exp (v j) / _ - _
    rw [this, h j hj]

/-! ## The network -/

variable {junk : Nat → Nat → ℝ} {s : Store} {n : Net} {p q : Nat} {x y : Mat ℝ} {l : Spec.Loss}

theorem shallow_dims (h : Spec.Shallow s n p q l) : n.output.W.nr = p + 1 ∧ n.output.W.nc = q ∧ n.layers s = [n.output.toLayer] := by
  obtain ⟨r, hf1, hf2, hf3, hf4⟩ := h.wf.split
  have hl : n.hiddenLayers s = [] := by unfold Net.hiddenLayers; rw [h.nohidden]; rfl
  rw [hl] at hf1
  have hrp : p = r := hf1
  exact ⟨by omega, hf4, by unfold Net.layers; rw [hl]; rfl⟩

theorem shallow_q (h : Spec.Shallow s n p q l) : 0 < q :=
   fits_pos h.wf.pos h.wf.fits

theorem shallow_pre (W : Mat ℝ) (x : Mat ℝ) {i j : Nat} (hi : i < x.nr) (hj : j < W.nc) :
    (Spec.pre W x).f i j = GD.pred (x.nc + 1) (Spec.withOne x) W.f i j := by
  unfold Spec.pre GD.pred
  rw [Mat.of_f' hi hj, Finset.sum_range_succ']
  unfold Spec.withOne
  simp only [Nat.add_one_ne_zero, if_false, Nat.add_sub_cancel, if_true, one_mul]
  ring

theorem shallow_out (h : Spec.Shallow s n p q l) (x : Mat ℝ) : outL (n.layers s) x = (Spec.pre n.output.W x).map l.act.act := by
  rw [(shallow_dims h).2.2]
  show (Spec.pre n.output.W x).map n.output.actfunc.act = _
  rw [h.act]

theorem shallow_step (h : Spec.Shallow s n p q l) (b : Spec.Batch x y p q l) :
    ∃ s' n', n.trainOn junk s x y = .ok (s', n') ∧ Spec.Shallow s' n' p q l ∧ n'.output.lrate = n.output.lrate ∧ n'.output.lambda = n.output.lambda ∧
      GD.IsStep x.nr (p + 1) q (Spec.withOne x) (fun i => l.deriv q (y.f i)) n.output.lambda n.output.lrate n.output.W.f n'.output.W.f := by
  obtain ⟨w1, w2, w3⟩ := shallow_dims h
  have hc := b.cols
  have hr := b.rows
  have hyr := b.lrows
  have hyc := b.lcols
  set Z := Spec.pre n.output.W x with hZ
  have z1 : Z.nr = x.nr := rfl
  have z2 : Z.nc = q := w2
  set D := Mat.of Z.nr Z.nc (fun i j => l.deriv y.nc (y.f i) (Z.f i) j / y.nr) with hDdef
  have hD : n.output.costd y (outL (n.layers s) x) (n.outputZ s x) = .ok D := by
    rw [h.costd, shallow_out h]
    exact loss_costd l (by rw [← hZ]; omega) (by rw [← hZ]; omega)
  have hDa := hD
  rw [outL_layers] at hDa
  obtain ⟨s1, n1, e1, b1, -, r1⟩ := trainOn_ok (junk := junk) h.wf hr hc hDa (by show Z.nr = _; omega) (by show Z.nc = _; omega)
  have hhl : n.hiddenLayers s = [] := by unfold Net.hiddenLayers; rw [h.nohidden]; rfl
  have hp : n.passed s x D = [{ n.output.toLayer.fwd x with delta := D, grad := (n.output.toLayer.fwd x).regGrad D }] := by
    unfold Net.passed bwdNet
    rw [hhl]
    rfl
  have hh : n1.hidden = [] := by rw [b1.conf.hidden]; exact h.nohidden
  have hlay := b1.layers
  rw [hp] at hlay
  have hl1 : n1.layers s1 = [n1.output.toLayer] := by unfold Net.layers Net.hiddenLayers; rw [hh]; rfl
  rw [hl1] at hlay
  have hL : n1.output.toLayer = Layer.upd { n.output.toLayer.fwd x with delta := D, grad := (n.output.toLayer.fwd x).regGrad D } := by
    simpa using hlay
  refine ⟨s1, n1, e1, ⟨r1.wf, hh, ?_, by rw [b1.conf.ocostd]; exact h.costd, by rw [b1.conf.cost]; exact h.cost⟩, ?_, ?_, fun k hk j hj => ?_⟩
  · rw [hL]; exact h.act
  · rw [hL]; rfl
  · rw [hL]; rfl
  · rw [hL]
    show (Mat.of n.output.W.nr n.output.W.nc (fun i j => n.output.W.f i j - n.output.lrate * ((n.output.toLayer.fwd x).regGrad D).f i j)).f k j = _
    rw [Mat.of_f' (by omega) (by omega)]
    unfold Layer.regGrad
    rw [Mat.of_f' (by show k < n.output.W.nr; omega) (by show j < n.output.W.nc; omega)]
    show n.output.W.f k j - n.output.lrate * ((Layer.gradOf (ones1 x) D).f k j + n.output.lambda * n.output.W.f k j) = _
    unfold GD.grad Layer.gradOf
    rw [Mat.of_f' (by show k < x.nc + 1; omega) (by show j < Z.nc; omega), Finset.sum_div]
    congr 3
    refine Finset.sum_congr rfl fun i hi => ?_
    replace hi : i < x.nr := Finset.mem_range.1 hi
    rw [hDdef, Mat.of_f' (by omega) (by omega), hyr, hyc]
    rw [loss_deriv_congr l (y.f i) (v := GD.pred (p + 1) (Spec.withOne x) n.output.W.f i) (fun a ha => by rw [← hc]; exact shallow_pre _ _ hi (by omega)) hj]
    rw [mul_div_assoc]
    congr 1
    unfold ones1 Spec.withOne
    rw [Mat.of_f' hi (by omega)]

theorem shallow_cost (h : Spec.Shallow s n p q l) (b : Spec.Batch x y p q l) :
    (do let (out, _, n) ← n.forwardprop junk s x; n.computecost out y) = Except.ok (Spec.trainCost l x y n.output.W.f) := by
  obtain ⟨w1, w2, w3⟩ := shallow_dims h
  have hyr := b.lrows
  have hyc := b.lcols
  obtain ⟨s1, n1, e1, b1, -⟩ := Net.forwardprop_ok (junk := junk) h.wf b.rows b.cols
  rw [e1, ok_bind]
  show n1.computecost _ y = _
  unfold Net.computecost
  rw [b1.conf.cost, h.cost, shallow_out h, loss_cost l (by exact hyr) (by show y.nc = n.output.W.nc; omega)]
  unfold Spec.trainCost
  rw [hyr]
  congr 2
  refine Finset.sum_congr rfl fun i hi => ?_
  exact loss_sample_congr l _ fun j hj => shallow_pre _ _ (Finset.mem_range.1 hi) (by omega)

/-- The run of training. -/
theorem shallow_run (h : Spec.Shallow s n p q l) (b : Spec.Batch x y p q l) :
    ∃ W : Nat → Mat ℝ, W 0 = n.output.W ∧ (∀ t, Spec.weightsAfter junk s n x y t = .ok (W t)) ∧ (∀ t, Spec.costAfter junk s n x y t = .ok (Spec.trainCost l x y (W t).f)) ∧
      GD.Run x.nr (p + 1) q (Spec.withOne x) (fun i => l.deriv q (y.f i)) n.output.lambda n.output.lrate (fun t => (W t).f) ∧
      ∀ t, ∃ s' n', Net.trainAll junk (List.replicate t (x, y)) s n = .ok (s', n') ∧ Spec.Shallow s' n' p q l ∧ n'.output.W = W t := by
  have key : ∀ t, ∃ r : Store × Net, Net.trainAll junk (List.replicate t (x, y)) s n = .ok r ∧ Spec.Shallow r.1 r.2 p q l ∧ r.2.output.lrate = n.output.lrate ∧ r.2.output.lambda = n.output.lambda := by
    intro t
    induction t with
    | zero => exact ⟨(s, n), rfl, h, rfl, rfl⟩
    | succ t ih =>
      obtain ⟨⟨s1, n1⟩, e1, l1, r1, m1⟩ := ih
      obtain ⟨s2, n2, e2, l2, r2, m2, -⟩ := shallow_step (junk := junk) l1 b
      refine ⟨(s2, n2), ?_, l2, by rw [r2]; exact r1, by rw [m2]; exact m1⟩
      rw [List.replicate_succ', trainAll_append, e1, ok_bind]
      show (do let (s, n) ← n1.trainOn junk s1 x y; Net.trainAll junk [] s n) = _
      rw [e2]
      rfl
  choose R h1 h2 h3 h4 using key
  refine ⟨fun t => (R t).2.output.W, ?_, fun t => ?_, fun t => ?_, ⟨fun t => ?_⟩, fun t => ⟨_, _, h1 t, h2 t, rfl⟩⟩
  · have := Except.ok.inj (h1 0)
    show (R 0).2.output.W = _
    rw [← this]
  · unfold Spec.weightsAfter
    rw [h1 t, ok_bind]
  · unfold Spec.costAfter
    rw [h1 t, ok_bind]
    exact shallow_cost (h2 t) b
  · obtain ⟨s2, n2, e2, l2, r2, m2, w2⟩ := shallow_step (junk := junk) (h2 t) b
    have := h1 (t + 1)
    rw [List.replicate_succ', trainAll_append, h1 t, ok_bind] at this
    have e : R (t + 1) = (s2, n2) := by
      have e3 : (do let (s, n) ← (R t).2.trainOn junk (R t).1 x y; Net.trainAll junk [] s n) = Except.ok (R (t + 1)) := this
      rw [e2] at e3
      exact (Except.ok.inj e3).symm
    rw [h3 t, h4 t] at w2
    show GD.IsStep _ _ _ _ _ _ _ _ ((R (t + 1)).2.output.W.f)
    rw [e]
    exact w2

theorem penalised_obj (l : Spec.Loss) (lam : ℝ) (b : Spec.Batch x y p q l) (V : Nat → Nat → ℝ) :
    Spec.penalised l lam x y V = GD.obj x.nr (p + 1) q (Spec.withOne x) (fun i => l.sample q (y.f i)) lam V := by
  unfold Spec.penalised Spec.trainCost Spec.squares
  rw [b.cols, b.lcols]
  rfl

theorem meanSquare_eq (x : Mat ℝ) : Spec.meanSquare x = (∑ i ∈ range x.nr, ∑ k ∈ range (x.nc + 1), Spec.withOne x i k ^ 2) / x.nr := by
  unfold Spec.meanSquare
  congr 1
  refine sum_congr rfl fun i _ => ?_
  rw [sum_range_succ', add_comm]
  congr 1
  simp [Spec.withOne]

theorem curvature_nonneg (l : Spec.Loss) : 0 ≤ l.curvature := by cases l <;> norm_num [Spec.Loss.curvature]

theorem penalised_bdd {lam : ℝ} (hlam : 0 ≤ lam) (hq : 0 < q) (b : Spec.Batch x y p q l) : BddBelow (Set.range (GD.obj x.nr (p + 1) q (Spec.withOne x) (fun i => l.sample q (y.f i)) lam)) := by
  refine ⟨0, ?_⟩
  rintro _ ⟨V, rfl⟩
  unfold GD.obj
  have h1 : 0 ≤ ∑ i ∈ range x.nr, l.sample q (y.f i) (GD.pred (p + 1) (Spec.withOne x) V i) := sum_nonneg fun i hi => loss_nonneg l hq (b.labels i (mem_range.1 hi)) _
  have h2 := GD.sq_nonneg' (p + 1) q V
  positivity

/-! ## C88 -/

/-- **C88** (descent). At every learning rate with `lrate * (curvature * mean (1 + |x|^2) + lambda) ≤ 2` the cost plus `lambda / 2` times the squared weights never rises. -/
theorem C88_descends (h : Spec.Shallow s n p q l) (b : Spec.Batch x y p q l) (h0 : 0 ≤ n.output.lrate)
    (h2 : n.output.lrate * (l.curvature * Spec.meanSquare x + n.output.lambda) ≤ 2) :
    ∃ W : Nat → Mat ℝ, (∀ t, Spec.weightsAfter junk s n x y t = .ok (W t)) ∧ (∀ t, Spec.costAfter junk s n x y t = .ok (Spec.trainCost l x y (W t).f)) ∧
      Antitone fun t => Spec.penalised l n.output.lambda x y (W t).f := by
  obtain ⟨W, -, w1, w2, w3, -⟩ := shallow_run (junk := junk) h b
  refine ⟨W, w1, w2, ?_⟩
  simp only [penalised_obj l _ b]
  rw [meanSquare_eq, b.cols] at h2
  exact GD.run_antitone (loss_good l (shallow_q h) y.f b.labels) (curvature_nonneg l) h0 h2 w3

/-- **C88** (rate). At half that rate, after `t` rounds the penalised cost is at most that of any weights `V` plus the squared distance of the initial weights from `V` over `2 * lrate * t`. -/
theorem C88_rate (h : Spec.Shallow s n p q l) (b : Spec.Batch x y p q l) (hlam : 0 ≤ n.output.lambda) (h0 : 0 < n.output.lrate)
    (h1 : n.output.lrate * (l.curvature * Spec.meanSquare x + n.output.lambda) ≤ 1) :
    ∃ W : Nat → Mat ℝ, (∀ t, Spec.weightsAfter junk s n x y t = .ok (W t)) ∧ (∀ t, Spec.costAfter junk s n x y t = .ok (Spec.trainCost l x y (W t).f)) ∧
      ∀ V : Nat → Nat → ℝ, ∀ t, 0 < t → Spec.penalised l n.output.lambda x y (W t).f ≤
        Spec.penalised l n.output.lambda x y V + Spec.squares (p + 1) q (fun k j => n.output.W.f k j - V k j) / (2 * n.output.lrate * t) := by
  obtain ⟨W, w0, w1, w2, w3, -⟩ := shallow_run (junk := junk) h b
  refine ⟨W, w1, w2, fun V t ht => ?_⟩
  rw [meanSquare_eq, b.cols] at h1
  have := GD.run_rate (loss_good l (shallow_q h) y.f b.labels) (curvature_nonneg l) hlam h0 h1 w3 V ht
  simp only [w0] at this
  rw [penalised_obj l _ b, penalised_obj l _ b]
  exact this

open Filter Topology in
/-- **C88** (optimum). Below the rate `2 / a` the penalised cost converges to the smallest that any weights reach; without regularisation that is the cost `computecost` reports. If some weights reach it then the
weights converge to weights that reach it. -/
theorem C88_optimal (h : Spec.Shallow s n p q l) (b : Spec.Batch x y p q l) (hlam : 0 ≤ n.output.lambda) (h0 : 0 < n.output.lrate)
    (h1 : n.output.lrate * (l.curvature * Spec.meanSquare x + n.output.lambda) < 2) :
    ∃ W : Nat → Mat ℝ, (∀ t, Spec.weightsAfter junk s n x y t = .ok (W t)) ∧ (∀ t, Spec.costAfter junk s n x y t = .ok (Spec.trainCost l x y (W t).f)) ∧
      Tendsto (fun t => Spec.penalised l n.output.lambda x y (W t).f) atTop (𝓝 (⨅ V, Spec.penalised l n.output.lambda x y V)) ∧
      (n.output.lambda = 0 → Tendsto (fun t => Spec.trainCost l x y (W t).f) atTop (𝓝 (⨅ V, Spec.trainCost l x y V))) ∧
      ∀ V, (∀ U, Spec.penalised l n.output.lambda x y V ≤ Spec.penalised l n.output.lambda x y U) → ∃ V', (∀ U, Spec.penalised l n.output.lambda x y V' ≤ Spec.penalised l n.output.lambda x y U) ∧
        ∀ k < p + 1, ∀ j < q, Tendsto (fun t => (W t).f k j) atTop (𝓝 (V' k j)) := by
  obtain ⟨W, w0, w1, w2, w3, -⟩ := shallow_run (junk := junk) h b
  rw [meanSquare_eq, b.cols] at h1
  have g := loss_good l (shallow_q h) y.f b.labels
  obtain ⟨B, hB⟩ := penalised_bdd hlam (shallow_q h) b
  have := GD.mrun_optimal g (curvature_nonneg l) hlam h0 le_rfl one_pos h1 (fun V => hB ⟨V, rfl⟩) w3.mrun
  have conv := fun V => GD.mrun_converges (V := V) g (curvature_nonneg l) hlam h0 le_rfl one_pos h1 w3.mrun
  simp only [← penalised_obj l _ b] at this conv
  refine ⟨W, w1, w2, this, fun hz => ?_, conv⟩
  rw [hz] at this
  have e : ∀ V, Spec.penalised l 0 x y V = Spec.trainCost l x y V := fun V => by unfold Spec.penalised; ring
  simp only [e] at this
  exact this

open Filter Topology in
/-- **C88** (regularised: convergence of the weights). With `lambda > 0` there is exactly one optimum, and the weights approach it by the factor `1 - lrate * lambda` in each round. -/
theorem C88_converges (h : Spec.Shallow s n p q l) (b : Spec.Batch x y p q l) (hlam : 0 < n.output.lambda) (h0 : 0 < n.output.lrate)
    (h1 : n.output.lrate * (l.curvature * Spec.meanSquare x + n.output.lambda) ≤ 1) :
    ∃ (W : Nat → Mat ℝ) (V : Nat → Nat → ℝ), (∀ t, Spec.weightsAfter junk s n x y t = .ok (W t)) ∧
      (∀ U, Spec.penalised l n.output.lambda x y V ≤ Spec.penalised l n.output.lambda x y U) ∧
      (∀ U, (∀ U', Spec.penalised l n.output.lambda x y U ≤ Spec.penalised l n.output.lambda x y U') → ∀ k < p + 1, ∀ j < q, U k j = V k j) ∧
      (∀ t, Spec.squares (p + 1) q (fun k j => (W t).f k j - V k j) ≤ (1 - n.output.lrate * n.output.lambda) ^ t * Spec.squares (p + 1) q (fun k j => n.output.W.f k j - V k j)) ∧
      ∀ k < p + 1, ∀ j < q, Tendsto (fun t => (W t).f k j) atTop (𝓝 (V k j)) := by
  obtain ⟨W, w0, w1, w2, w3, -⟩ := shallow_run (junk := junk) h b
  rw [meanSquare_eq, b.cols] at h1
  have g := loss_good l (shallow_q h) y.f b.labels
  obtain ⟨V, v1, v2, v3⟩ := GD.run_converges g (curvature_nonneg l) hlam h0 h1 (penalised_bdd hlam.le (shallow_q h) b) w3
  refine ⟨W, V, w1, fun U => by rw [penalised_obj l _ b, penalised_obj l _ b]; exact v1 U, fun U hU k hk j hj => ?_, fun t => by have := v2 t; simp only [w0] at this; exact this, v3⟩
  have a := GD.midpoint (d := p + 1) (X := Spec.withOne x) (lam := n.output.lambda) g U V
  have c := hU V
  have d := v1 (fun k j => (U k j + V k j) / 2)
  rw [penalised_obj l _ b, penalised_obj l _ b] at c
  have e : GD.sq (p + 1) q (fun k j => U k j - V k j) ≤ 0 := by
    by_contra hcon
    have := mul_pos (show 0 < n.output.lambda / 4 by linarith) (not_le.1 hcon)
    linarith
  have f := le_antisymm e (GD.sq_nonneg' _ _ _)
  unfold GD.sq at f
  rw [sum_eq_zero_iff_of_nonneg fun _ _ => sum_nonneg fun _ _ => sq_nonneg _] at f
  have f2 := f k (mem_range.2 hk)
  rw [sum_eq_zero_iff_of_nonneg fun _ _ => sq_nonneg _] at f2
  have f3 := f2 j (mem_range.2 hj)
  have := pow_eq_zero_iff (two_ne_zero) |>.1 f3
  linarith

open Filter Topology in
/-- If scaling up some weights makes the cost of every sample vanish, the cost of every sample gets below every bound. -/
theorem fits_of_optimal (hq : 0 < q) (b : Spec.Batch x y p q l) {U : Nat → Nat → Nat → ℝ}
    (opt : Tendsto (fun t => GD.obj x.nr (p + 1) q (Spec.withOne x) (fun i => l.sample q (y.f i)) 0 (U t)) atTop (𝓝 (⨅ U, GD.obj x.nr (p + 1) q (Spec.withOne x) (fun i => l.sample q (y.f i)) 0 U)))
    (V : Nat → Nat → ℝ) (hV : ∀ i < x.nr, Tendsto (fun a : ℝ => l.sample q (y.f i) (fun j => a * GD.pred (p + 1) (Spec.withOne x) V i j)) atTop (𝓝 0)) {ε : ℝ} (hε : 0 < ε) :
    ∃ T, ∀ t ≥ T, ∀ i < x.nr, l.sample q (y.f i) (GD.pred (p + 1) (Spec.withOne x) (U t) i) < ε := by
  have hm : (0 : ℝ) < x.nr := by exact_mod_cast b.rows
  have bdd := penalised_bdd le_rfl hq b
  have inf : (⨅ U, GD.obj x.nr (p + 1) q (Spec.withOne x) (fun i => l.sample q (y.f i)) 0 U) ≤ 0 := by
    have lim : Tendsto (fun a : ℝ => GD.obj x.nr (p + 1) q (Spec.withOne x) (fun i => l.sample q (y.f i)) 0 (fun k j => a * V k j)) atTop (𝓝 0) := by
      have e : ∀ a : ℝ, GD.obj x.nr (p + 1) q (Spec.withOne x) (fun i => l.sample q (y.f i)) 0 (fun k j => a * V k j) =
          (∑ i ∈ range x.nr, l.sample q (y.f i) (fun j => a * GD.pred (p + 1) (Spec.withOne x) V i j)) / x.nr := by
        intro a
        unfold GD.obj
        rw [zero_div, zero_mul, add_zero]
        congr 1
        refine sum_congr rfl fun i _ => congrArg _ (funext fun j => ?_)
        unfold GD.pred
        rw [mul_sum]
        exact sum_congr rfl fun k _ => by ring
      simp only [e]
      have := (tendsto_finsetSum (range x.nr) fun i hi => hV i (mem_range.1 hi)).div_const (x.nr : ℝ)
      simpa using this
    exact ge_of_tendsto' lim fun a => ciInf_le bdd _
  have ev : ∀ᶠ t in atTop, GD.obj x.nr (p + 1) q (Spec.withOne x) (fun i => l.sample q (y.f i)) 0 (U t) < ε / x.nr :=
    opt.eventually_lt_const (lt_of_le_of_lt inf (div_pos hε hm))
  obtain ⟨T, hT⟩ := eventually_atTop.1 ev
  refine ⟨T, fun t ht i hi => ?_⟩
  have h5 := hT t ht
  unfold GD.obj at h5
  rw [zero_div, zero_mul, add_zero, div_lt_div_iff_of_pos_right hm] at h5
  exact lt_of_le_of_lt (single_le_sum (f := fun i => l.sample q (y.f i) (GD.pred (p + 1) (Spec.withOne x) (U t) i)) (fun k hk => loss_nonneg l hq (b.labels k (mem_range.1 hk)) _) (mem_range.2 hi)) h5

open Filter Topology in
theorem shallow_fits (h : Spec.Shallow s n p q l) (b : Spec.Batch x y p q l) (hlam : n.output.lambda = 0) (h0 : 0 < n.output.lrate) (h1 : n.output.lrate * (l.curvature * Spec.meanSquare x) < 2)
    (V : Nat → Nat → ℝ) (hV : ∀ i < x.nr, Tendsto (fun a : ℝ => l.sample q (y.f i) (fun j => a * GD.pred (p + 1) (Spec.withOne x) V i j)) atTop (𝓝 0)) {ε : ℝ} (hε : 0 < ε) :
    ∃ T, ∀ t ≥ T, ∃ s' n', Net.trainAll junk (List.replicate t (x, y)) s n = .ok (s', n') ∧ Spec.Shallow s' n' p q l ∧
      ∀ i < x.nr, l.sample q (y.f i) (GD.pred (p + 1) (Spec.withOne x) n'.output.W.f i) < ε := by
  obtain ⟨W, w0, w1, w2, w3, w4⟩ := shallow_run (junk := junk) h b
  have h1' : n.output.lrate * (l.curvature * Spec.meanSquare x + n.output.lambda) < 2 := by rw [hlam, add_zero]; exact h1
  rw [meanSquare_eq, b.cols] at h1'
  obtain ⟨B, hB⟩ := penalised_bdd hlam.ge (shallow_q h) b
  have opt := GD.mrun_optimal (loss_good l (shallow_q h) y.f b.labels) (curvature_nonneg l) hlam.ge h0 le_rfl one_pos h1' (fun V => hB ⟨V, rfl⟩) w3.mrun
  rw [hlam] at opt
  obtain ⟨T, hT⟩ := fits_of_optimal (shallow_q h) b opt V hV hε
  refine ⟨T, fun t ht => ?_⟩
  obtain ⟨s', n', e1, e2, e3⟩ := w4 t
  exact ⟨s', n', e1, e2, fun i hi => by rw [e3]; exact hT t ht i hi⟩

theorem exp_scale_tendsto {a : ℝ} (ha : a < 0) : Filter.Tendsto (fun c : ℝ => Real.exp (c * a)) Filter.atTop (nhds 0) :=
  Real.tendsto_exp_atBot.comp (Filter.tendsto_id.atTop_mul_const_of_neg ha)

/-- Softmax cost of a sample of class `c`. -/
theorem softmax_onehot {q c : Nat} (hc : c < q) {y : Nat → ℝ} (hy : ∀ j < q, y j = if j = c then 1 else 0) (z : Nat → ℝ) :
    Spec.Loss.softmax.sample q y z = Real.log (∑ j ∈ range q, Real.exp (z j - z c)) := by
  have h1 : ∀ g : Nat → ℝ, ∑ j ∈ range q, y j * g j = g c := fun g => by
    have : ∀ j ∈ range q, y j * g j = if j = c then g c else 0 := fun j hj => by
      rw [hy j (mem_range.1 hj)]
      split
      · next e => rw [e, one_mul]
      · rw [zero_mul]
    rw [sum_congr rfl this, sum_ite_eq', if_pos (mem_range.2 hc)]
  have hs : ∑ j ∈ range q, y j = 1 := by have := h1 (fun _ => 1); simpa using this
  have e : ∑ j ∈ range q, Real.exp (z j - z c) = (∑ j ∈ range q, Real.exp (z j)) / Real.exp (z c) := by
    rw [Finset.sum_div]
    exact sum_congr rfl fun j _ => Real.exp_sub _ _
  rw [softmax_sample (by omega) hs, h1, e, Real.log_div (sumExp_pos (by omega) z).ne' (Real.exp_pos _).ne', Real.log_exp]

theorem pred_bias (x : Mat ℝ) (V : Nat → Nat → ℝ) (i j : Nat) (hc : x.nc = p) : GD.pred (p + 1) (Spec.withOne x) V i j = V 0 j + ∑ k ∈ range p, x.f i k * V (k + 1) j := by
  unfold GD.pred
  rw [sum_range_succ', add_comm]
  simp [Spec.withOne]

open Filter Topology in
theorem softmax_vanishes {c : Nat} (hcl : c < q) {y z : Nat → ℝ} (hy : ∀ j < q, y j = if j = c then 1 else 0) (hz : ∀ j < q, j ≠ c → z j < z c) :
    Tendsto (fun a : ℝ => Spec.Loss.softmax.sample q y (fun j => a * z j)) atTop (𝓝 0) := by
  have e : ∀ a : ℝ, Spec.Loss.softmax.sample q y (fun j => a * z j) = Real.log (∑ j ∈ range q, Real.exp (a * (z j - z c))) := fun a => by
    rw [softmax_onehot hcl hy]
    congr 1
    exact sum_congr rfl fun j _ => by rw [mul_sub]
  simp only [e]
  have lim : Tendsto (fun a : ℝ => ∑ j ∈ range q, Real.exp (a * (z j - z c))) atTop (𝓝 (∑ j ∈ range q, if j = c then 1 else 0)) := tendsto_finsetSum _ fun j hj => by
    by_cases hjc : j = c
    · rw [if_pos hjc, hjc]; simp
    · rw [if_neg hjc]
      exact exp_scale_tendsto (by linarith [hz j (mem_range.1 hj) hjc])
  rw [sum_ite_eq', if_pos (mem_range.2 hcl)] at lim
  have := (Real.continuousAt_log one_ne_zero).tendsto.comp lim
  rw [Real.log_one] at this
  exact this

theorem softmax_batch (hr : 0 < x.nr) (hc : x.nc = p) (hyr : y.nr = x.nr) (hyc : y.nc = q) {c : Nat → Nat} (hcl : ∀ i < x.nr, c i < q)
    (hy : ∀ i < x.nr, ∀ j < q, y.f i j = if j = c i then 1 else 0) : Spec.Batch x y p q .softmax :=
  ⟨hr, hc, hyr, hyc, fun i hi => ⟨fun j hj => by rw [hy i hi j hj]; split <;> norm_num, by
    rw [sum_congr rfl fun j hj => hy i hi j (mem_range.1 hj), sum_ite_eq', if_pos (mem_range.2 (hcl i hi))]⟩⟩

/-- If the cost of every sample is below log 2 then `predict` is right. -/
theorem softmax_predicts (e2 : Spec.Shallow s n p q .softmax) (hr : 0 < x.nr) (hc : x.nc = p) {c : Nat → Nat} (hcl : ∀ i < x.nr, c i < q) (hy : ∀ i < x.nr, ∀ j < q, y.f i j = if j = c i then 1 else 0)
    (e3 : ∀ i < x.nr, Spec.Loss.softmax.sample q (y.f i) (GD.pred (p + 1) (Spec.withOne x) n.output.W.f i) < Real.log 2) :
    ∃ r s' n', n.predict junk s x = .ok (r, s', n') ∧ ∀ i < x.nr, r.f i 0 = c i := by
  obtain ⟨r, s2, n2, f1, -, -, -, f2⟩ := C32_predict (junk := junk) e2.wf hr hc
  refine ⟨r, s2, n2, f1, fun i hi => ?_⟩
  obtain ⟨k, k1, -, k2, k3, -⟩ := f2 i hi
  rw [k1]
  have hW := (shallow_dims e2).2.1
  have out : ∀ j < q, (Spec.denseNet (n.params s) x).f i j = GD.pred (p + 1) (Spec.withOne x) n.output.W.f i j := fun j hj => by
    rw [show Spec.denseNet (n.params s) x = outL (n.layers s) x from (outL_eq_denseNet _ _).symm, shallow_out e2, Mat.map_f' (by exact hi) (by show j < n.output.W.nc; omega)]
    rw [← hc]
    exact shallow_pre _ _ hi (by omega)
  have h5 := e3 i hi
  rw [softmax_onehot (hcl i hi) (hy i hi)] at h5
  have h6 := (Real.log_lt_log_iff (sum_pos (fun j _ => Real.exp_pos _) ⟨c i, mem_range.2 (hcl i hi)⟩) (by norm_num)).1 h5
  by_contra hne
  have hkc : k ≠ c i := fun e => hne (by rw [e])
  have h7 : Real.exp (GD.pred (p + 1) (Spec.withOne x) n.output.W.f i k - GD.pred (p + 1) (Spec.withOne x) n.output.W.f i (c i)) + 1 ≤
      ∑ j ∈ range q, Real.exp (GD.pred (p + 1) (Spec.withOne x) n.output.W.f i j - GD.pred (p + 1) (Spec.withOne x) n.output.W.f i (c i)) := by
    have := sum_pair (f := fun j => Real.exp (GD.pred (p + 1) (Spec.withOne x) n.output.W.f i j - GD.pred (p + 1) (Spec.withOne x) n.output.W.f i (c i))) hkc
    simp only [sub_self, Real.exp_zero] at this
    rw [← this]
    exact sum_le_sum_of_subset_of_nonneg (fun a ha => by
      rcases mem_insert.1 ha with rfl | ha
      · exact mem_range.2 k2
      · rw [mem_singleton.1 ha]; exact mem_range.2 (hcl i hi)) fun _ _ _ => (Real.exp_pos _).le
  have h8 := k3 (c i) (hcl i hi)
  rw [out _ (hcl i hi), out _ k2] at h8
  have h9 : 1 ≤ Real.exp (GD.pred (p + 1) (Spec.withOne x) n.output.W.f i k - GD.pred (p + 1) (Spec.withOne x) n.output.W.f i (c i)) := Real.one_le_exp (by linarith)
  linarith

/-- **C88** (separable classes are learnt, softmax). If some weights tell the classes of the samples apart, then from some round on `predict` returns the class of every sample. -/
theorem C88_separable_softmax (h : Spec.Shallow s n p q .softmax) (hr : 0 < x.nr) (hc : x.nc = p) (hyr : y.nr = x.nr) (hyc : y.nc = q)
    (c : Nat → Nat) (hcl : ∀ i < x.nr, c i < q) (hy : ∀ i < x.nr, ∀ j < q, y.f i j = if j = c i then 1 else 0)
    (hlam : n.output.lambda = 0) (h0 : 0 < n.output.lrate) (h1 : n.output.lrate * Spec.meanSquare x < 4)
    (V : Nat → Nat → ℝ) (hV : ∀ i < x.nr, ∀ j < q, j ≠ c i → V 0 j + ∑ k ∈ range p, x.f i k * V (k + 1) j < V 0 (c i) + ∑ k ∈ range p, x.f i k * V (k + 1) (c i)) :
    ∃ T, ∀ t ≥ T, ∃ r, Spec.predictAfter junk s n x y t = .ok r ∧ ∀ i < x.nr, r.f i 0 = c i := by
  obtain ⟨T, hT⟩ := shallow_fits (junk := junk) h (softmax_batch hr hc hyr hyc hcl hy) hlam h0 (by show n.output.lrate * (1 / 2 * _) < 2; linarith) V
    (fun i hi => softmax_vanishes (hcl i hi) (hy i hi) fun j hj hne => by rw [pred_bias _ _ _ _ hc, pred_bias _ _ _ _ hc]; exact hV i hi j hj hne) (Real.log_pos (show (1 : ℝ) < 2 by norm_num))
  refine ⟨T, fun t ht => ?_⟩
  obtain ⟨s', n', e1, e2, e3⟩ := hT t ht
  obtain ⟨r, s2, n2, f1, f2⟩ := softmax_predicts (junk := junk) e2 hr hc hcl hy e3
  refine ⟨r, ?_, f2⟩
  unfold Spec.predictAfter
  rw [e1, ok_bind]
  show (do let (r, _, _) ← n'.predict junk s' x; Except.ok r) = _
  rw [f1]
  rfl

theorem logistic_labels {q : Nat} {y : Nat → ℝ} (hy : ∀ j < q, y j = 0 ∨ y j = 1) (z : Nat → ℝ) :
    Spec.Loss.logistic.sample q y z = ∑ j ∈ range q, Real.log (1 + Real.exp (if y j = 1 then -z j else z j)) := by
  have one : ∀ z : ℝ, Real.log (1 + Real.exp z) - z = Real.log (1 + Real.exp (-z)) := fun z => by
    have : 1 + Real.exp z = Real.exp z * (1 + Real.exp (-z)) := by
      rw [mul_add, ← Real.exp_add, add_neg_cancel, Real.exp_zero, mul_one, add_comm]
    rw [this, Real.log_mul (Real.exp_pos _).ne' (by positivity), Real.log_exp]
    ring
  refine sum_congr rfl fun j hj => ?_
  show -(y j * Real.log (1 / (1 + Real.exp (-z j))) + (1 - y j) * Real.log (1 - 1 / (1 + Real.exp (-z j)))) = _
  rw [logistic_term]
  rcases hy j (mem_range.1 hj) with h0 | h0 <;> rw [h0]
  · rw [if_neg (by norm_num)]; ring
  · rw [if_pos rfl, one_mul]; exact one _

open Filter Topology in
theorem logistic_vanishes {y z : Nat → ℝ} (hy : ∀ j < q, y j = 0 ∨ y j = 1) (hz : ∀ j < q, (y j = 1 → 0 < z j) ∧ (y j = 0 → z j < 0)) :
    Tendsto (fun a : ℝ => Spec.Loss.logistic.sample q y (fun j => a * z j)) atTop (𝓝 0) := by
  simp only [logistic_labels hy]
  have : (0 : ℝ) = ∑ j ∈ range q, 0 := by simp
  rw [this]
  refine tendsto_finsetSum _ fun j hj => ?_
  have lim : Tendsto (fun a : ℝ => 1 + Real.exp (if y j = 1 then -(a * z j) else a * z j)) atTop (𝓝 (1 + 0)) := by
    refine tendsto_const_nhds.add ?_
    rcases hy j (mem_range.1 hj) with h0 | h0
    · have hn : ¬ y j = 1 := by rw [h0]; norm_num
      simp only [if_neg hn]
      exact exp_scale_tendsto ((hz j (mem_range.1 hj)).2 h0)
    · simp only [if_pos h0, ← mul_neg]
      exact exp_scale_tendsto (by linarith [(hz j (mem_range.1 hj)).1 h0])
  rw [add_zero] at lim
  have := (Real.continuousAt_log one_ne_zero).tendsto.comp lim
  rw [Real.log_one] at this
  exact this

/-- If the cost of every sample is below log 2 then every output is on the right side of 1/2. -/
theorem logistic_sides (e2 : Spec.Shallow s n p q .logistic) (hr : 0 < x.nr) (hc : x.nc = p) (hy : ∀ i < x.nr, ∀ j < q, y.f i j = 0 ∨ y.f i j = 1)
    (e3 : ∀ i < x.nr, Spec.Loss.logistic.sample q (y.f i) (GD.pred (p + 1) (Spec.withOne x) n.output.W.f i) < Real.log 2) :
    ∃ r s' n', n.forwardprop junk s x = .ok (r, s', n') ∧ ∀ i < x.nr, ∀ j < q, (y.f i j = 1 → 1 / 2 < r.f i j) ∧ (y.f i j = 0 → r.f i j < 1 / 2) := by
  obtain ⟨s1, n1, f1, -⟩ := Net.forwardprop_ok (junk := junk) e2.wf hr hc
  refine ⟨outL (n.layers s) x, s1, n1, f1, fun i hi j hj => ?_⟩
  have hW := (shallow_dims e2).2.1
  rw [shallow_out e2, Mat.map_f' (by exact hi) (by show j < n.output.W.nc; omega), shallow_pre _ _ hi (by omega), hc]
  show (_ → 1 / 2 < 1 / (1 + Real.exp (-_))) ∧ (_ → 1 / (1 + Real.exp (-_)) < 1 / 2)
  set z := GD.pred (p + 1) (Spec.withOne x) n.output.W.f i j with hz
  have h5 := e3 i hi
  rw [logistic_labels (hy i hi)] at h5
  have h6 : Real.log (1 + Real.exp (if y.f i j = 1 then -z else z)) < Real.log 2 := lt_of_le_of_lt
    (single_le_sum (f := fun j => Real.log (1 + Real.exp (if y.f i j = 1 then -GD.pred (p + 1) (Spec.withOne x) n.output.W.f i j else GD.pred (p + 1) (Spec.withOne x) n.output.W.f i j)))
      (fun k _ => Real.log_nonneg (by linarith [Real.exp_pos (if y.f i k = 1 then -GD.pred (p + 1) (Spec.withOne x) n.output.W.f i k else GD.pred (p + 1) (Spec.withOne x) n.output.W.f i k)])) (mem_range.2 hj)) h5
  have h7 := (Real.log_lt_log_iff (by positivity) (by norm_num)).1 h6
  constructor
  · intro h8
    rw [if_pos h8] at h7
    exact one_div_lt_one_div_of_lt (by positivity) (by linarith)
  · intro h8
    rw [if_neg (by rw [h8]; norm_num)] at h7
    have h9 : z < 0 := by
      have : Real.exp z < Real.exp 0 := by rw [Real.exp_zero]; linarith
      exact Real.exp_lt_exp.1 this
    have h10 : 1 < Real.exp (-z) := Real.one_lt_exp_iff.2 (by linarith)
    exact one_div_lt_one_div_of_lt (by norm_num) (by linarith)

/-- **C88** (separable labels are learnt, logistic). If some weights give every output of every sample the right sign, then from some round on every output is above 1/2 where the label is 1 and below 1/2
where it is 0. -/
theorem C88_separable_logistic (h : Spec.Shallow s n p q .logistic) (hr : 0 < x.nr) (hc : x.nc = p) (hyr : y.nr = x.nr) (hyc : y.nc = q)
    (hy : ∀ i < x.nr, ∀ j < q, y.f i j = 0 ∨ y.f i j = 1)
    (hlam : n.output.lambda = 0) (h0 : 0 < n.output.lrate) (h1 : n.output.lrate * Spec.meanSquare x < 8)
    (V : Nat → Nat → ℝ) (hV : ∀ i < x.nr, ∀ j < q, (y.f i j = 1 → 0 < V 0 j + ∑ k ∈ range p, x.f i k * V (k + 1) j) ∧ (y.f i j = 0 → V 0 j + ∑ k ∈ range p, x.f i k * V (k + 1) j < 0)) :
    ∃ T, ∀ t ≥ T, ∃ r, Spec.outputAfter junk s n x y t = .ok r ∧ ∀ i < x.nr, ∀ j < q, (y.f i j = 1 → 1 / 2 < r.f i j) ∧ (y.f i j = 0 → r.f i j < 1 / 2) := by
  have b : Spec.Batch x y p q .logistic := ⟨hr, hc, hyr, hyc, fun i hi j hj => by rcases hy i hi j hj with e | e <;> rw [e] <;> norm_num⟩
  obtain ⟨T, hT⟩ := shallow_fits (junk := junk) h b hlam h0 (by show n.output.lrate * (1 / 4 * _) < 2; linarith) V
    (fun i hi => logistic_vanishes (hy i hi) fun j hj => by rw [pred_bias _ _ _ _ hc]; exact hV i hi j hj) (Real.log_pos (show (1 : ℝ) < 2 by norm_num))
  refine ⟨T, fun t ht => ?_⟩
  obtain ⟨s', n', e1, e2, e3⟩ := hT t ht
  obtain ⟨r, s1, n1, f1, f2⟩ := logistic_sides (junk := junk) e2 hr hc hy e3
  refine ⟨r, ?_, f2⟩
  unfold Spec.outputAfter
  rw [e1, ok_bind]
  show (do let (r, _, _) ← n'.forwardprop junk s' x; Except.ok r) = _
  rw [f1]
  rfl

/-! ## The hypotheses are met -/

/-- A network of one input and `q` outputs with zero weights and learning rate 1/2. -/
def shNet (l : Spec.Loss) (q : Nat) (lam : ℝ) : Net :=
  { result := .empty, cost := l.cost, costd := l.costd, input := exLayer Act.identity .empty, hidden := [],
    output := { exLayer l.act (Mat.of 2 q (fun _ _ => 0)) with lrate := 1 / 2, lambda := lam, cost := l.cost, costd := l.costd, y := .empty } }

theorem shNet_shallow (l : Spec.Loss) {q : Nat} (hq : 0 < q) (lam : ℝ) (s : Store) : Spec.Shallow s (shNet l q lam) 1 q l := by
  refine ⟨⟨by simp [shNet], fun _ h => absurd h (by simp [shNet]), by omega, ?_⟩, rfl, rfl, rfl, rfl⟩
  simp [Net.layers, Net.hiddenLayers, shNet, exLayer, Spec.Fits]
  omega

/-- Two samples, -1 and 1. -/
def shX : Mat ℝ := Mat.of 2 1 (fun i _ => if i = 0 then -1 else 1)

theorem shX_mean : Spec.meanSquare shX = 2 := by
  show (∑ i ∈ range 2, (1 + ∑ k ∈ range 1, shX.f i k ^ 2)) / ((2 : ℕ) : ℝ) = 2
  simp only [sum_range_succ, sum_range_zero]
  unfold shX
  rw [Mat.of_f' (by omega) (by omega), Mat.of_f' (by omega) (by omega)]
  norm_num

theorem shX_f {i : Nat} (hi : i < 2) : shX.f i 0 = if i = 0 then -1 else 1 := by unfold shX; rw [Mat.of_f' hi (by omega)]

/-- Two classes told apart by the sign of the sample are learnt by a softmax output that starts with zero weights. -/
example (junk : Nat → Nat → ℝ) (s : Store) : ∃ T, ∀ t ≥ T, ∃ r, Spec.predictAfter junk s (shNet .softmax 2 0) shX (Mat.of 2 2 (fun i j => if j = i then 1 else 0)) t = .ok r ∧ ∀ i < 2, r.f i 0 = i :=
  C88_separable_softmax (junk := junk) (q := 2) (shNet_shallow .softmax (by omega) 0 s) (x := shX) (y := Mat.of 2 2 (fun i j => if j = i then 1 else 0)) (by show 0 < 2; omega) rfl rfl rfl (fun i => i) (fun i hi => hi)
    (fun i hi j hj => by rw [Mat.of_f' (by exact hi) hj]) rfl (by norm_num [shNet]) (by rw [shX_mean]; norm_num [shNet])
    (fun k j => if k = 1 then (if j = 0 then -1 else 1) else 0) (fun i hi j hj hne => by
      replace hi : i < 2 := hi
      simp only [sum_range_one, shX_f hi]
      interval_cases i <;> interval_cases j <;> simp_all <;> norm_num)

/-- The same with one logistic output. -/
example (junk : Nat → Nat → ℝ) (s : Store) : ∃ T, ∀ t ≥ T, ∃ r, Spec.outputAfter junk s (shNet .logistic 1 0) shX (Mat.of 2 1 (fun i _ => i)) t = .ok r ∧
    ∀ i < 2, ∀ j < 1, ((Mat.of 2 1 (fun i _ => (i : ℝ))).f i j = 1 → 1 / 2 < r.f i j) ∧ ((Mat.of 2 1 (fun i _ => (i : ℝ))).f i j = 0 → r.f i j < 1 / 2) :=
  C88_separable_logistic (junk := junk) (q := 1) (shNet_shallow .logistic (by omega) 0 s) (x := shX) (y := Mat.of 2 1 (fun i _ => (i : ℝ))) (by show 0 < 2; omega) rfl rfl rfl
    (fun i hi j hj => by
      replace hi : i < 2 := hi
      rw [Mat.of_f' hi hj]; interval_cases i <;> simp) rfl (by norm_num [shNet]) (by rw [shX_mean]; norm_num [shNet])
    (fun k _ => if k = 1 then 1 else 0) (fun i hi j hj => by
      replace hi : i < 2 := hi
      rw [Mat.of_f' hi hj]
      simp only [sum_range_one, shX_f hi]
      interval_cases i <;> simp)

theorem shBatch (l : Spec.Loss) : Spec.Batch shX (Mat.of 2 2 (fun i j => if j = i then 1 else 0)) 1 2 l := by
  refine ⟨by show 0 < 2; omega, rfl, rfl, rfl, fun i hi => ?_⟩
  replace hi : i < 2 := hi
  cases l with
  | quadratic => trivial
  | logistic => intro j hj; rw [Mat.of_f' hi hj]; split <;> norm_num
  | softmax =>
    refine ⟨fun j hj => by rw [Mat.of_f' hi hj]; split <;> norm_num, ?_⟩
    rw [sum_congr rfl fun j hj => Mat.of_f' hi (mem_range.1 hj), sum_ite_eq', if_pos (mem_range.2 hi)]

open Filter Topology in
/-- The weights of a regularised softmax output and of a regularised logistic output converge. -/
example (junk : Nat → Nat → ℝ) (s : Store) (l : Spec.Loss) (hl : l ≠ .quadratic) : ∃ (W : Nat → Mat ℝ) (V : Nat → Nat → ℝ),
    (∀ t, Spec.weightsAfter junk s (shNet l 2 (1 / 2)) shX (Mat.of 2 2 (fun i j => if j = i then 1 else 0)) t = .ok (W t)) ∧ ∀ k < 2, ∀ j < 2, Tendsto (fun t => (W t).f k j) atTop (𝓝 (V k j)) := by
  obtain ⟨W, V, h1, -, -, -, h2⟩ := C88_converges (junk := junk) (shNet_shallow l (by omega) (1 / 2) s) (shBatch l) (by norm_num [shNet]) (by norm_num [shNet]) (by
    rw [shX_mean]
    cases l
    · exact absurd rfl hl
    · norm_num [shNet, Spec.Loss.curvature]
    · norm_num [shNet, Spec.Loss.curvature])
  exact ⟨W, V, h1, h2⟩

/-- The other conditions on the learning rate are met. -/
example (l : Spec.Loss) : (shNet l 2 0).output.lrate * (l.curvature * Spec.meanSquare shX + (shNet l 2 0).output.lambda) ≤ 1 := by
  rw [shX_mean]
  cases l <;> norm_num [shNet, Spec.Loss.curvature]

end
end Nnet.NN
