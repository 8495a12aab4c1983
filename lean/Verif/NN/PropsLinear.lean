import Verif.NN.PropsSizes
import Mathlib.Algebra.Order.BigOperators.Ring.Finset
import Mathlib.Analysis.SpecificLimits.Basic
/-!
# C68: a linear network with the quadratic cost learns
-/
namespace Nnet.NN
open Finset
noncomputable section

/-- A network without hidden layers, with a linear output, the quadratic cost and no regularisation. -/
structure Spec.LinearNet (s : Store) (n : Net) (p q : Nat) : Prop where
  wf : n.WF s p q
  nohidden : n.hidden = []
  act : n.output.actfunc = Act.identity
  costd : n.output.costd = Quadratic.costd
  cost : n.cost = Quadratic.cost
  lambda : n.output.lambda = 0

/-- Entry `k` of sample `i` with the leading 1. -/
def Spec.withOne (x : Mat ℝ) (i k : Nat) : ℝ := if k = 0 then 1 else x.f i (k - 1)

theorem linear_out {s : Store} {n : Net} {p q : Nat} {x : Mat ℝ} (h : Spec.LinearNet s n p q) (hc : x.nc = p) {i j : Nat} (hi : i < x.nr) (hj : j < q) :
    (outL (n.layers s) x).f i j = ∑ k ∈ range (p + 1), Spec.withOne x i k * n.output.W.f k j := by
  have hW : n.output.W.nc = q := by
    obtain ⟨r, -, -, -, h4⟩ := h.wf.split
    exact h4
  have hl : n.layers s = [n.output.toLayer] := by unfold Net.layers Net.hiddenLayers; rw [h.nohidden]; rfl
  rw [hl]
  show ((Spec.pre n.output.W x).map n.output.actfunc.act).f i j = _
  rw [h.act, Mat.map_f' (by exact hi) (by show j < n.output.W.nc; omega)]
  show (Spec.pre n.output.W x).f i j = _
  unfold Spec.pre
  rw [Mat.of_f' hi (by omega), hc, Finset.sum_range_succ']
  unfold Spec.withOne
  simp only [Nat.add_one_ne_zero, if_false, Nat.add_sub_cancel, if_true, one_mul]
  ring

/-- One step of training. -/
theorem linear_step {junk : Nat → Nat → ℝ} {s : Store} {n : Net} {p q : Nat} {x y : Mat ℝ} (h : Spec.LinearNet s n p q) (hr : 0 < x.nr) (hc : x.nc = p) (hyr : y.nr = x.nr) (hyc : y.nc = q) :
    ∃ s' n', n.trainOn junk s x y = .ok (s', n') ∧ Spec.LinearNet s' n' p q ∧ n'.output.lrate = n.output.lrate ∧
      ∀ k < p + 1, ∀ j < q, n'.output.W.f k j = n.output.W.f k j - n.output.lrate * ∑ i ∈ range x.nr, Spec.withOne x i k * (((outL (n.layers s) x).f i j - y.f i j) / x.nr) := by
  obtain ⟨d1, d2⟩ := outL_dims (Ls := n.layers s) (x := x) (q := q) (by rw [hc]; exact h.wf.fits)
  obtain ⟨r, hf1, hf2, hf3, hf4⟩ := h.wf.split
  have hrp : r = p := by
    have : n.hiddenLayers s = [] := by unfold Net.hiddenLayers; rw [h.nohidden]; rfl
    rw [this] at hf1
    exact (show p = r from hf1).symm
  set D := Mat.of (outL (n.layers s) x).nr (outL (n.layers s) x).nc (fun i j => ((outL (n.layers s) x).f i j - y.f i j) / y.nr) with hDdef
  have hD : n.output.costd y (outL (n.layers s) x) (n.outputZ s x) = .ok D := by
    rw [h.costd]
    exact diff_costd (by omega) (by omega)
  have hDa := hD
  rw [outL_layers] at hDa
  obtain ⟨s1, n1, e1, b1, -, w1⟩ := trainOn_ok (junk := junk) h.wf hr hc hDa (by show (outL (n.layers s) x).nr = _; omega) (by show (outL (n.layers s) x).nc = _; omega)
  have hp : n.passed s x D = [{ n.output.toLayer.fwd x with delta := D, grad := (n.output.toLayer.fwd x).regGrad D }] := by
    unfold Net.passed bwdNet
    have : n.hiddenLayers s = [] := by unfold Net.hiddenLayers; rw [h.nohidden]; rfl
    rw [this]
    rfl
  have hh : n1.hidden = [] := by rw [b1.conf.hidden]; exact h.nohidden
  have hlay := b1.layers
  rw [hp] at hlay
  have hl1 : n1.layers s1 = [n1.output.toLayer] := by unfold Net.layers Net.hiddenLayers; rw [hh]; rfl
  rw [hl1] at hlay
  have hL : n1.output.toLayer = Layer.upd { n.output.toLayer.fwd x with delta := D, grad := (n.output.toLayer.fwd x).regGrad D } := by
    simpa using hlay
  refine ⟨s1, n1, e1, ⟨w1.wf, hh, ?_, by rw [b1.conf.ocostd]; exact h.costd, by rw [b1.conf.cost]; exact h.cost, ?_⟩, ?_, fun k hk j hj => ?_⟩
  · rw [hL]; exact h.act
  · rw [hL]; exact h.lambda
  · rw [hL]; rfl
  · rw [hL]
    show (Mat.of n.output.W.nr n.output.W.nc (fun i j => n.output.W.f i j - n.output.lrate * ((n.output.toLayer.fwd x).regGrad D).f i j)).f k j = _
    rw [Mat.of_f' (by omega) (by omega)]
    unfold Layer.regGrad
    rw [Mat.of_f' (by show k < n.output.W.nr; omega) (by show j < n.output.W.nc; omega)]
    show n.output.W.f k j - n.output.lrate * ((Layer.gradOf (ones1 x) D).f k j + n.output.lambda * n.output.W.f k j) = _
    rw [h.lambda, zero_mul, add_zero]
    unfold Layer.gradOf
    rw [Mat.of_f' (by show k < x.nc + 1; omega) (by show j < (outL (n.layers s) x).nc; omega)]
    congr 2
    refine Finset.sum_congr rfl fun i hi => ?_
    replace hi : i < x.nr := Finset.mem_range.1 hi
    rw [hDdef, Mat.of_f' (by omega) (by omega), hyr]
    congr 1
    unfold ones1 Spec.withOne
    rw [Mat.of_f' hi (by omega)]

/-- The prediction errors after a step. -/
theorem linear_error {junk : Nat → Nat → ℝ} {s : Store} {n : Net} {p q : Nat} {x y : Mat ℝ} (h : Spec.LinearNet s n p q) (hr : 0 < x.nr) (hc : x.nc = p) (hyr : y.nr = x.nr) (hyc : y.nc = q) :
    ∃ s' n', n.trainOn junk s x y = .ok (s', n') ∧ Spec.LinearNet s' n' p q ∧ n'.output.lrate = n.output.lrate ∧
      ∀ i < x.nr, ∀ j < q, (outL (n'.layers s') x).f i j - y.f i j = (outL (n.layers s) x).f i j - y.f i j -
        n.output.lrate / x.nr * ∑ k ∈ range (p + 1), Spec.withOne x i k * ∑ l ∈ range x.nr, Spec.withOne x l k * ((outL (n.layers s) x).f l j - y.f l j) := by
  obtain ⟨s1, n1, e1, h1, h2, h3⟩ := linear_step (junk := junk) h hr hc hyr hyc
  refine ⟨s1, n1, e1, h1, h2, fun i hi j hj => ?_⟩
  rw [linear_out h1 hc hi hj, linear_out h hc hi hj]
  have : ∀ k ∈ range (p + 1), Spec.withOne x i k * n1.output.W.f k j = Spec.withOne x i k * n.output.W.f k j -
      n.output.lrate / x.nr * (Spec.withOne x i k * ∑ l ∈ range x.nr, Spec.withOne x l k * ((outL (n.layers s) x).f l j - y.f l j)) := by
    intro k hk
    rw [h3 k (Finset.mem_range.1 hk) j hj]
    have : ∑ i ∈ range x.nr, Spec.withOne x i k * (((outL (n.layers s) x).f i j - y.f i j) / x.nr) =
        (∑ l ∈ range x.nr, Spec.withOne x l k * ((outL (n.layers s) x).f l j - y.f l j)) / x.nr := by
      rw [Finset.sum_div]
      exact Finset.sum_congr rfl fun l _ => by ring
    rw [this]
    ring
  rw [Finset.sum_congr rfl this, Finset.sum_sub_distrib, ← Finset.mul_sum]
  ring

/-- Squared errors of a linear least squares step do not grow. -/
theorem step_contracts {m d : Nat} (X : Nat → Nat → ℝ) (e : Nat → ℝ) {r : ℝ} (hr : 0 ≤ r) (hb : r * ∑ i ∈ range m, ∑ k ∈ range d, X i k ^ 2 ≤ 2) :
    ∑ i ∈ range m, (e i - r * ∑ k ∈ range d, X i k * ∑ l ∈ range m, X l k * e l) ^ 2 ≤ ∑ i ∈ range m, e i ^ 2 := by
  set G : Nat → ℝ := fun k => ∑ l ∈ range m, X l k * e l with hG
  have h1 : ∑ i ∈ range m, (e i - r * ∑ k ∈ range d, X i k * G k) ^ 2 =
      ∑ i ∈ range m, e i ^ 2 - 2 * r * ∑ i ∈ range m, e i * ∑ k ∈ range d, X i k * G k + r ^ 2 * ∑ i ∈ range m, (∑ k ∈ range d, X i k * G k) ^ 2 := by
    rw [Finset.mul_sum, Finset.mul_sum, ← Finset.sum_sub_distrib, ← Finset.sum_add_distrib]
    exact Finset.sum_congr rfl fun i _ => by ring
  have h2 : ∑ i ∈ range m, e i * ∑ k ∈ range d, X i k * G k = ∑ k ∈ range d, G k ^ 2 := by
    simp_rw [Finset.mul_sum]
    rw [Finset.sum_comm]
    refine Finset.sum_congr rfl fun k _ => ?_
    rw [sq, show G k * G k = (∑ l ∈ range m, X l k * e l) * G k from rfl, Finset.sum_mul]
    exact Finset.sum_congr rfl fun i _ => by ring
  have h3 : ∑ i ∈ range m, (∑ k ∈ range d, X i k * G k) ^ 2 ≤ (∑ i ∈ range m, ∑ k ∈ range d, X i k ^ 2) * ∑ k ∈ range d, G k ^ 2 := by
    rw [Finset.sum_mul]
    exact Finset.sum_le_sum fun i _ => Finset.sum_mul_sq_le_sq_mul_sq _ _ _
  have h4 : 0 ≤ ∑ k ∈ range d, G k ^ 2 := Finset.sum_nonneg fun k _ => sq_nonneg _
  rw [h1, h2]
  nlinarith [mul_le_mul_of_nonneg_left h3 (sq_nonneg r), mul_le_mul_of_nonneg_right hb (mul_nonneg hr h4)]

/-- One least squares step brings the weights closer to any better weights. -/
theorem step_approaches {m d : Nat} (X : Nat → Nat → ℝ) (w v y : Nat → ℝ) {r : ℝ} (hr : 0 ≤ r) (hb : r * ∑ i ∈ range m, ∑ k ∈ range d, X i k ^ 2 ≤ 1)
    (w' : Nat → ℝ) (hw : ∀ k < d, w' k = w k - r * ∑ l ∈ range m, X l k * (∑ a ∈ range d, X l a * w a - y l)) :
    ∑ k ∈ range d, (w' k - v k) ^ 2 + r * ∑ i ∈ range m, (∑ k ∈ range d, X i k * w' k - y i) ^ 2 ≤
      ∑ k ∈ range d, (w k - v k) ^ 2 + r * ∑ i ∈ range m, (∑ k ∈ range d, X i k * v k - y i) ^ 2 := by
  set e : Nat → ℝ := fun l => ∑ a ∈ range d, X l a * w a - y l with he
  set G : Nat → ℝ := fun k => ∑ l ∈ range m, X l k * e l with hG
  set u : Nat → ℝ := fun k => w k - v k with hu
  have hXG : ∀ g : Nat → ℝ, ∑ i ∈ range m, e i * ∑ k ∈ range d, X i k * g k = ∑ k ∈ range d, G k * g k := by
    intro g
    simp_rw [Finset.mul_sum]
    rw [Finset.sum_comm]
    refine Finset.sum_congr rfl fun k _ => ?_
    rw [show G k * g k = (∑ l ∈ range m, X l k * e l) * g k from rfl, Finset.sum_mul]
    exact Finset.sum_congr rfl fun i _ => by ring
  have h1 : ∑ k ∈ range d, (w' k - v k) ^ 2 = ∑ k ∈ range d, u k ^ 2 - 2 * r * ∑ k ∈ range d, G k * u k + r ^ 2 * ∑ k ∈ range d, G k ^ 2 := by
    rw [Finset.mul_sum, Finset.mul_sum, ← Finset.sum_sub_distrib, ← Finset.sum_add_distrib]
    refine Finset.sum_congr rfl fun k hk => ?_
    rw [hw k (Finset.mem_range.1 hk)]
    show (w k - r * G k - v k) ^ 2 = (w k - v k) ^ 2 - 2 * r * (G k * (w k - v k)) + r ^ 2 * G k ^ 2
    ring
  have h2 : ∑ i ∈ range m, (∑ k ∈ range d, X i k * w' k - y i) ^ 2 = ∑ i ∈ range m, e i ^ 2 - 2 * r * ∑ k ∈ range d, G k ^ 2 + r ^ 2 * ∑ i ∈ range m, (∑ k ∈ range d, X i k * G k) ^ 2 := by
    have := hXG G
    simp_rw [← sq] at this
    rw [← this, Finset.mul_sum, Finset.mul_sum, ← Finset.sum_sub_distrib, ← Finset.sum_add_distrib]
    refine Finset.sum_congr rfl fun i _ => ?_
    have : ∑ k ∈ range d, X i k * w' k = ∑ k ∈ range d, X i k * w k - r * ∑ k ∈ range d, X i k * G k := by
      rw [Finset.mul_sum, ← Finset.sum_sub_distrib]
      refine Finset.sum_congr rfl fun k hk => ?_
      rw [hw k (Finset.mem_range.1 hk)]
      show X i k * (w k - r * G k) = _
      ring
    rw [this]
    show _ = (∑ k ∈ range d, X i k * w k - y i) ^ 2 - 2 * r * ((∑ k ∈ range d, X i k * w k - y i) * _) + _
    ring
  have h3 : ∑ i ∈ range m, (∑ k ∈ range d, X i k * G k) ^ 2 ≤ (∑ i ∈ range m, ∑ k ∈ range d, X i k ^ 2) * ∑ k ∈ range d, G k ^ 2 := by
    rw [Finset.sum_mul]
    exact Finset.sum_le_sum fun i _ => Finset.sum_mul_sq_le_sq_mul_sq _ _ _
  have h4 : 0 ≤ ∑ k ∈ range d, G k ^ 2 := Finset.sum_nonneg fun k _ => sq_nonneg _
  have h5 : ∑ i ∈ range m, e i ^ 2 - 2 * ∑ k ∈ range d, G k * u k ≤ ∑ i ∈ range m, (∑ k ∈ range d, X i k * v k - y i) ^ 2 := by
    rw [← hXG u, Finset.mul_sum, ← Finset.sum_sub_distrib]
    refine Finset.sum_le_sum fun i _ => ?_
    have : ∑ k ∈ range d, X i k * v k - y i = e i - ∑ k ∈ range d, X i k * u k := by
      have : ∑ k ∈ range d, X i k * v k = ∑ k ∈ range d, X i k * w k - ∑ k ∈ range d, X i k * u k := by
        rw [← Finset.sum_sub_distrib]
        exact Finset.sum_congr rfl fun k _ => by show _ = X i k * w k - X i k * (w k - v k); ring
      rw [this]
      show _ = ∑ a ∈ range d, X i a * w a - y i - _
      ring
    rw [this]
    nlinarith [sq_nonneg (∑ k ∈ range d, X i k * u k)]
  rw [h1, h2]
  have h6 := mul_le_mul_of_nonneg_left h5 hr
  have h7 := mul_le_mul_of_nonneg_left h3 (pow_nonneg hr 3)
  have h8 := mul_le_mul_of_nonneg_right hb (mul_nonneg (sq_nonneg r) h4)
  nlinarith

/-! ## Specification -/

/-- Half the mean squared error of the predictions `[1 x] V`. -/
def Spec.fitCost (x y : Mat ℝ) (V : Nat → Nat → ℝ) : ℝ :=
  ∑ i ∈ range x.nr, ∑ j ∈ range y.nc, (∑ k ∈ range (x.nc + 1), Spec.withOne x i k * V k j - y.f i j) ^ 2 / 2 / x.nr

/-- `computecost(forwardprop(x), y)` after `t` times `forwardprop(x); backprop(y); update()`. -/
def Spec.costAfter (junk : Nat → Nat → ℝ) (s : Store) (n : Net) (x y : Mat ℝ) (t : Nat) : Res ℝ := do
  let (s, n) ← Net.trainAll junk (List.replicate t (x, y)) s n
  let (out, _, n) ← n.forwardprop junk s x
  n.computecost out y

theorem linear_cost {junk : Nat → Nat → ℝ} {s : Store} {n : Net} {p q : Nat} {x y : Mat ℝ} (h : Spec.LinearNet s n p q) (hr : 0 < x.nr) (hc : x.nc = p) (hyr : y.nr = x.nr) (hyc : y.nc = q) :
    (do let (out, _, n) ← n.forwardprop junk s x; n.computecost out y) = Except.ok (Spec.fitCost x y n.output.W.f) := by
  obtain ⟨d1, d2⟩ := outL_dims (Ls := n.layers s) (x := x) (q := q) (by rw [hc]; exact h.wf.fits)
  obtain ⟨s1, n1, e1, b1, -⟩ := Net.forwardprop_ok (junk := junk) h.wf hr hc
  rw [e1, ok_bind]
  show n1.computecost _ y = _
  unfold Net.computecost
  rw [b1.conf.cost, h.cost, quadratic_cost (by omega) (by omega), ok_bind]
  unfold sumall Spec.fitCost
  rw [Mat.accu_of, hyr]
  congr 1
  refine Finset.sum_congr rfl fun i hi => Finset.sum_congr rfl fun j hj => ?_
  rw [linear_out h hc (Finset.mem_range.1 hi) (by have := Finset.mem_range.1 hj; omega), hc]
  ring

/-- The run of training: all the networks on the way. -/
theorem linear_run {junk : Nat → Nat → ℝ} {s : Store} {n : Net} {p q : Nat} {x y : Mat ℝ} (h : Spec.LinearNet s n p q) (hr : 0 < x.nr) (hc : x.nc = p) (hyr : y.nr = x.nr) (hyc : y.nc = q) :
    ∃ W : Nat → Nat → Nat → ℝ, W 0 = n.output.W.f ∧ (∀ t, Spec.costAfter junk s n x y t = .ok (Spec.fitCost x y (W t))) ∧
      (∀ t, ∀ k < p + 1, ∀ j < q, W (t + 1) k j = W t k j - n.output.lrate / x.nr * ∑ l ∈ range x.nr, Spec.withOne x l k * (∑ a ∈ range (p + 1), Spec.withOne x l a * W t a j - y.f l j)) ∧
      ∀ t, ∃ s' n', Net.trainAll junk (List.replicate t (x, y)) s n = .ok (s', n') ∧ Spec.LinearNet s' n' p q ∧ n'.output.lrate = n.output.lrate ∧ n'.output.W.f = W t := by
  have key : ∀ t, ∃ r : Store × Net, Net.trainAll junk (List.replicate t (x, y)) s n = .ok r ∧ Spec.LinearNet r.1 r.2 p q ∧ r.2.output.lrate = n.output.lrate := by
    intro t
    induction t with
    | zero => exact ⟨(s, n), rfl, h, rfl⟩
    | succ t ih =>
      obtain ⟨⟨s1, n1⟩, e1, l1, r1⟩ := ih
      obtain ⟨s2, n2, e2, l2, r2, -⟩ := linear_step (junk := junk) l1 hr hc hyr hyc
      refine ⟨(s2, n2), ?_, l2, by rw [r2]; exact r1⟩
      rw [List.replicate_succ', trainAll_append, e1, ok_bind]
      show (do let (s, n) ← n1.trainOn junk s1 x y; Net.trainAll junk [] s n) = _
      rw [e2]
      rfl
  choose R h1 h2 h3 using key
  refine ⟨fun t => (R t).2.output.W.f, ?_, fun t => ?_, fun t k hk j hj => ?_, fun t => ⟨_, _, h1 t, h2 t, h3 t, rfl⟩⟩
  · have := Except.ok.inj (h1 0)
    show (R 0).2.output.W.f = _
    rw [← this]
  · unfold Spec.costAfter
    rw [h1 t, ok_bind]
    exact linear_cost (h2 t) hr hc hyr hyc
  · obtain ⟨s2, n2, e2, l2, r2, w2⟩ := linear_step (junk := junk) (h2 t) hr hc hyr hyc
    have := h1 (t + 1)
    rw [List.replicate_succ', trainAll_append, h1 t, ok_bind] at this
    have e : R (t + 1) = (s2, n2) := by
      have e3 : (do let (s, n) ← (R t).2.trainOn junk (R t).1 x y; Net.trainAll junk [] s n) = Except.ok (R (t + 1)) := this
      rw [e2] at e3
      exact (Except.ok.inj e3).symm
    show (R (t + 1)).2.output.W.f k j = _
    rw [e, w2 k hk j hj, h3 t]
    have : ∑ i ∈ range x.nr, Spec.withOne x i k * (((outL ((R t).2.layers (R t).1) x).f i j - y.f i j) / x.nr) =
        (∑ l ∈ range x.nr, Spec.withOne x l k * (∑ a ∈ range (p + 1), Spec.withOne x l a * (R t).2.output.W.f a j - y.f l j)) / x.nr := by
      rw [Finset.sum_div]
      refine Finset.sum_congr rfl fun l hl => ?_
      rw [linear_out (h2 t) hc (Finset.mem_range.1 hl) hj]
      ring
    rw [this]
    ring

theorem fitCost_cols (x y : Mat ℝ) (V : Nat → Nat → ℝ) :
    Spec.fitCost x y V = (∑ j ∈ range y.nc, ∑ i ∈ range x.nr, (∑ k ∈ range (x.nc + 1), Spec.withOne x i k * V k j - y.f i j) ^ 2) / 2 / x.nr := by
  unfold Spec.fitCost
  rw [Finset.sum_comm, Finset.sum_div, Finset.sum_div]
  refine Finset.sum_congr rfl fun j _ => ?_
  rw [Finset.sum_div, Finset.sum_div]

/-- **C68** (the cost never grows). Training a linear network with the quadratic cost again and again on one batch never throws, and if the learning rate times the mean squared length of the
samples (with the leading 1) is at most 2 the cost after `t + 1` rounds is at most the cost after `t`. -/
theorem C68_descends {junk : Nat → Nat → ℝ} {s : Store} {n : Net} {p q : Nat} {x y : Mat ℝ} (h : Spec.LinearNet s n p q) (hr : 0 < x.nr) (hc : x.nc = p) (hyr : y.nr = x.nr) (hyc : y.nc = q)
    (h0 : 0 ≤ n.output.lrate) (h2 : n.output.lrate * ((∑ i ∈ range x.nr, (1 + ∑ k ∈ range x.nc, x.f i k ^ 2)) / x.nr) ≤ 2) :
    ∃ c : Nat → ℝ, (∀ t, Spec.costAfter junk s n x y t = .ok (c t)) ∧ Antitone c := by
  obtain ⟨W, -, w1, w2, -⟩ := linear_run (junk := junk) h hr hc hyr hyc
  refine ⟨_, w1, antitone_nat_of_succ_le fun t => ?_⟩
  rw [fitCost_cols, fitCost_cols]
  refine div_le_div_of_nonneg_right (div_le_div_of_nonneg_right (Finset.sum_le_sum fun j hj => ?_) (by norm_num)) (Nat.cast_nonneg _)
  have hj' : j < q := by have := Finset.mem_range.1 hj; omega
  have hb : n.output.lrate / x.nr * ∑ i ∈ range x.nr, ∑ k ∈ range (p + 1), Spec.withOne x i k ^ 2 ≤ 2 := by
    refine le_of_eq_of_le ?_ h2
    have : ∀ i ∈ range x.nr, ∑ k ∈ range (p + 1), Spec.withOne x i k ^ 2 = 1 + ∑ k ∈ range x.nc, x.f i k ^ 2 := by
      intro i _
      rw [Finset.sum_range_succ', hc]
      unfold Spec.withOne
      simp [add_comm]
    rw [Finset.sum_congr rfl this]
    ring
  have := step_contracts (m := x.nr) (d := p + 1) (Spec.withOne x) (fun i => ∑ k ∈ range (p + 1), Spec.withOne x i k * W t k j - y.f i j) (div_nonneg h0 (Nat.cast_nonneg _)) hb
  refine le_of_eq_of_le (Finset.sum_congr rfl fun i _ => ?_) (le_of_le_of_eq this (by rw [hc]))
  congr 1
  have e : ∑ k ∈ range (p + 1), Spec.withOne x i k * W (t + 1) k j = ∑ k ∈ range (p + 1), (Spec.withOne x i k * W t k j - n.output.lrate / x.nr * (Spec.withOne x i k * ∑ l ∈ range x.nr, Spec.withOne x l k * (∑ a ∈ range (p + 1), Spec.withOne x l a * W t a j - y.f l j))) :=
    Finset.sum_congr rfl fun k hk => by rw [w2 t k (Finset.mem_range.1 hk) j hj']; ring
  rw [hc, e, Finset.sum_sub_distrib, ← Finset.mul_sum]
  ring

/-- **C68** (rate). If the learning rate is positive and its product with the mean squared length of the samples is at most 1, then after `t` rounds the cost exceeds that of any other
weights `V` by at most the squared distance of the initial weights from `V` over `2 * lrate * t`. -/
theorem C68_rate {junk : Nat → Nat → ℝ} {s : Store} {n : Net} {p q : Nat} {x y : Mat ℝ} (h : Spec.LinearNet s n p q) (hr : 0 < x.nr) (hc : x.nc = p) (hyr : y.nr = x.nr) (hyc : y.nc = q)
    (h0 : 0 < n.output.lrate) (h1 : n.output.lrate * ((∑ i ∈ range x.nr, (1 + ∑ k ∈ range x.nc, x.f i k ^ 2)) / x.nr) ≤ 1) :
    ∃ c : Nat → ℝ, (∀ t, Spec.costAfter junk s n x y t = .ok (c t)) ∧ Antitone c ∧ (∀ t, ∃ V, c t = Spec.fitCost x y V) ∧
      ∀ (V : Nat → Nat → ℝ) (t : Nat), 0 < t → c t ≤ Spec.fitCost x y V + (∑ k ∈ range (p + 1), ∑ j ∈ range q, (n.output.W.f k j - V k j) ^ 2) / (2 * n.output.lrate * t) := by
  obtain ⟨c, hc1, hc2⟩ := C68_descends (junk := junk) h hr hc hyr hyc h0.le (h1.trans (by norm_num))
  obtain ⟨W, w0, w1, w2, -⟩ := linear_run (junk := junk) h hr hc hyr hyc
  have hcW : ∀ t, c t = Spec.fitCost x y (W t) := fun t => Except.ok.inj ((hc1 t).symm.trans (w1 t))
  refine ⟨c, hc1, hc2, fun t => ⟨W t, hcW t⟩, fun V t ht => ?_⟩
  have hb : n.output.lrate / x.nr * ∑ i ∈ range x.nr, ∑ k ∈ range (p + 1), Spec.withOne x i k ^ 2 ≤ 1 := by
    refine le_of_eq_of_le ?_ h1
    have : ∀ i ∈ range x.nr, ∑ k ∈ range (p + 1), Spec.withOne x i k ^ 2 = 1 + ∑ k ∈ range x.nc, x.f i k ^ 2 := by
      intro i _
      rw [Finset.sum_range_succ', hc]
      unfold Spec.withOne
      simp [add_comm]
    rw [Finset.sum_congr rfl this]
    ring
  set N : Nat → ℝ := fun t => ∑ j ∈ range q, ∑ k ∈ range (p + 1), (W t k j - V k j) ^ 2 with hN
  have hx0 : (x.nr : ℝ) ≠ 0 := by positivity
  have step : ∀ t, N (t + 1) + 2 * n.output.lrate * c (t + 1) ≤ N t + 2 * n.output.lrate * Spec.fitCost x y V := by
    intro t
    have key : ∀ j ∈ range q, ∑ k ∈ range (p + 1), (W (t + 1) k j - V k j) ^ 2 + n.output.lrate / x.nr * ∑ i ∈ range x.nr, (∑ k ∈ range (p + 1), Spec.withOne x i k * W (t + 1) k j - y.f i j) ^ 2 ≤
        ∑ k ∈ range (p + 1), (W t k j - V k j) ^ 2 + n.output.lrate / x.nr * ∑ i ∈ range x.nr, (∑ k ∈ range (p + 1), Spec.withOne x i k * V k j - y.f i j) ^ 2 := fun j hj =>
      step_approaches (Spec.withOne x) (fun k => W t k j) (fun k => V k j) (fun i => y.f i j) (div_nonneg h0.le (Nat.cast_nonneg _)) hb (fun k => W (t + 1) k j)
        (fun k hk => w2 t k hk j (Finset.mem_range.1 hj))
    have := Finset.sum_le_sum key
    rw [Finset.sum_add_distrib, Finset.sum_add_distrib, ← Finset.mul_sum, ← Finset.mul_sum] at this
    have f1 : ∀ U : Nat → Nat → ℝ, 2 * n.output.lrate * Spec.fitCost x y U = n.output.lrate / x.nr * ∑ j ∈ range q, ∑ i ∈ range x.nr, (∑ k ∈ range (p + 1), Spec.withOne x i k * U k j - y.f i j) ^ 2 := by
      intro U
      rw [fitCost_cols, hc, hyc]
      field_simp
    rw [hcW, f1, f1]
    exact this
  have all : ∀ t : Nat, 2 * n.output.lrate * t * (c t - Spec.fitCost x y V) ≤ N 0 - N t := by
    intro t
    induction t with
    | zero => simp
    | succ t ih =>
      have h3 := hc2 (Nat.le_succ t)
      have h4 : 2 * n.output.lrate * t * (c (t + 1) - Spec.fitCost x y V) ≤ 2 * n.output.lrate * t * (c t - Spec.fitCost x y V) :=
        mul_le_mul_of_nonneg_left (by simpa using h3) (by positivity)
      have h5 := step t
      push_cast
      nlinarith
  have hN0 : N 0 = ∑ k ∈ range (p + 1), ∑ j ∈ range q, (n.output.W.f k j - V k j) ^ 2 := by
    rw [hN, Finset.sum_comm, ← w0]
  have hNt : 0 ≤ N t := Finset.sum_nonneg fun _ _ => Finset.sum_nonneg fun _ _ => sq_nonneg _
  have ht' : (0 : ℝ) < t := by exact_mod_cast ht
  rw [← hN0, ← sub_le_iff_le_add', le_div_iff₀ (by positivity)]
  have := all t
  nlinarith

open Filter Topology in
/-- **C68** (least squares). Under the same condition the cost converges to the smallest half mean squared error that any weights reach on the batch. -/
theorem C68_optimal {junk : Nat → Nat → ℝ} {s : Store} {n : Net} {p q : Nat} {x y : Mat ℝ} (h : Spec.LinearNet s n p q) (hr : 0 < x.nr) (hc : x.nc = p) (hyr : y.nr = x.nr) (hyc : y.nc = q)
    (h0 : 0 < n.output.lrate) (h1 : n.output.lrate * ((∑ i ∈ range x.nr, (1 + ∑ k ∈ range x.nc, x.f i k ^ 2)) / x.nr) ≤ 1) :
    ∃ c : Nat → ℝ, (∀ t, Spec.costAfter junk s n x y t = .ok (c t)) ∧ Antitone c ∧ Tendsto c atTop (𝓝 (⨅ V, Spec.fitCost x y V)) := by
  obtain ⟨c, hc1, hc2, hc3, hc4⟩ := C68_rate (junk := junk) h hr hc hyr hyc h0 h1
  refine ⟨c, hc1, hc2, ?_⟩
  have hbdd : BddBelow (Set.range (Spec.fitCost x y)) := ⟨0, by
    rintro _ ⟨V, rfl⟩
    exact Finset.sum_nonneg fun _ _ => Finset.sum_nonneg fun _ _ => by positivity⟩
  have lower : ∀ t, (⨅ V, Spec.fitCost x y V) ≤ c t := fun t => by
    obtain ⟨V, hV⟩ := hc3 t
    rw [hV]
    exact ciInf_le hbdd V
  rw [Metric.tendsto_atTop]
  intro ε hε
  obtain ⟨V, hV⟩ := exists_lt_of_ciInf_lt (show (⨅ V, Spec.fitCost x y V) < (⨅ V, Spec.fitCost x y V) + ε / 2 by linarith)
  set D := ∑ k ∈ range (p + 1), ∑ j ∈ range q, (n.output.W.f k j - V k j) ^ 2 with hD
  have hD0 : 0 ≤ D := Finset.sum_nonneg fun _ _ => Finset.sum_nonneg fun _ _ => sq_nonneg _
  obtain ⟨T, hT⟩ := exists_nat_gt (D / (2 * n.output.lrate) / (ε / 2))
  refine ⟨T + 1, fun t ht => ?_⟩
  have h5 := hc4 V t (by omega)
  have ht' : (T : ℝ) + 1 ≤ t := by exact_mod_cast ht
  have hT0 : (0 : ℝ) ≤ T := Nat.cast_nonneg _
  have h6 : D / (2 * n.output.lrate * t) < ε / 2 := by
    have htp : (0 : ℝ) < t := by linarith
    rw [div_lt_iff₀ (by positivity)] at hT ⊢
    rw [div_lt_iff₀ (by positivity)] at hT
    nlinarith [mul_pos hε h0]
  rw [Real.dist_eq, abs_of_nonneg (sub_nonneg.2 (lower t))]
  linarith

open Filter Topology in
/-- **C68** (an attainable fit is learnt). If some weights fit the batch exactly, the cost converges to 0. -/
theorem C68_learns {junk : Nat → Nat → ℝ} {s : Store} {n : Net} {p q : Nat} {x y : Mat ℝ} (h : Spec.LinearNet s n p q) (hr : 0 < x.nr) (hc : x.nc = p) (hyr : y.nr = x.nr) (hyc : y.nc = q)
    (h0 : 0 < n.output.lrate) (h1 : n.output.lrate * ((∑ i ∈ range x.nr, (1 + ∑ k ∈ range x.nc, x.f i k ^ 2)) / x.nr) ≤ 1)
    (V : Nat → Nat → ℝ) (hV : ∀ i < x.nr, ∀ j < q, V 0 j + ∑ k ∈ range p, x.f i k * V (k + 1) j = y.f i j) :
    ∃ c : Nat → ℝ, (∀ t, Spec.costAfter junk s n x y t = .ok (c t)) ∧ Tendsto c atTop (𝓝 0) := by
  obtain ⟨c, hc1, -, hc3⟩ := C68_optimal (junk := junk) h hr hc hyr hyc h0 h1
  have hz : Spec.fitCost x y V = 0 := by
    refine Finset.sum_eq_zero fun i hi => Finset.sum_eq_zero fun j hj => ?_
    have : ∑ k ∈ range (x.nc + 1), Spec.withOne x i k * V k j = y.f i j := by
      rw [← hV i (Finset.mem_range.1 hi) j (by have := Finset.mem_range.1 hj; omega), Finset.sum_range_succ', hc]
      unfold Spec.withOne
      simp [add_comm]
    rw [this]; simp
  have hnn : ∀ U, 0 ≤ Spec.fitCost x y U := fun U => Finset.sum_nonneg fun _ _ => Finset.sum_nonneg fun _ _ => by positivity
  have : (⨅ V, Spec.fitCost x y V) = 0 := le_antisymm (by rw [← hz]; exact ciInf_le ⟨0, by rintro _ ⟨U, rfl⟩; exact hnn U⟩ V) (le_ciInf hnn)
  rw [this] at hc3
  exact ⟨c, hc1, hc3⟩

open Filter Topology in
/-- The hypotheses are met: one input, one output, weights 7, lrate 1/2, the sample 1 with the label 3. -/
example (junk : Nat → Nat → ℝ) (s : Store) : ∃ c : Nat → ℝ, (∀ t, Spec.costAfter junk s (oneNet 7) (Mat.of 1 1 (fun _ _ => 1)) (Mat.of 1 1 (fun _ _ => 3)) t = .ok (c t)) ∧ Tendsto c atTop (𝓝 0) :=
  C68_learns (p := 1) (q := 1) ⟨oneNet_wf 7 s, rfl, rfl, rfl, rfl, by simp [oneNet, exLayer, Layer.default]⟩ (by show 0 < 1; omega) rfl rfl rfl (by simp [oneNet])
    (by
      show 1 / 2 * ((∑ i ∈ range 1, (1 + ∑ k ∈ range 1, (Mat.of 1 1 (fun _ _ => (1 : ℝ))).f i k ^ 2)) / ((1 : ℕ) : ℝ)) ≤ 1
      rw [Finset.sum_range_one, Finset.sum_range_one, Mat.of_f' (by omega) (by omega)]
      norm_num) (fun k _ => if k = 0 then 1 else 2) (by
      intro i hi j hj
      replace hi : i < 1 := hi
      simp [Mat.of_f' (r := 1) (c := 1) hi (show 0 < 1 by omega), Mat.of_f' (r := 1) (c := 1) hi hj]
      norm_num)

/-- **C68** (one sample). Training again and again on one sample multiplies the cost by `(1 - lrate * (1 + |x|^2))^2` each round: it falls to 0 at any rate below `2 / (1 + |x|^2)` and grows
without bound above. -/
theorem C68_single {junk : Nat → Nat → ℝ} {s : Store} {n : Net} {p q : Nat} {x y : Mat ℝ} (h : Spec.LinearNet s n p q) (hr : x.nr = 1) (hc : x.nc = p) (hyr : y.nr = 1) (hyc : y.nc = q) :
    ∃ c : Nat → ℝ, (∀ t, Spec.costAfter junk s n x y t = .ok (c t)) ∧ ∀ t, c t = ((1 - n.output.lrate * (1 + ∑ k ∈ range p, x.f 0 k ^ 2)) ^ 2) ^ t * c 0 := by
  obtain ⟨W, w0, w1, w2, -⟩ := linear_run (junk := junk) h (by omega) hc (by omega) hyc
  refine ⟨_, w1, fun t => ?_⟩
  induction t with
  | zero => simp
  | succ t ih =>
    rw [pow_succ, mul_comm _ ((1 - _) ^ 2), mul_assoc, ← ih, fitCost_cols, fitCost_cols, hr, hc, hyc]
    simp only [Finset.sum_range_one]
    rw [← mul_div_assoc, ← mul_div_assoc, Finset.mul_sum]
    congr 2
    refine Finset.sum_congr rfl fun j hj => ?_
    have e : ∑ k ∈ range (p + 1), Spec.withOne x 0 k * W (t + 1) k j = ∑ k ∈ range (p + 1), (Spec.withOne x 0 k * W t k j - n.output.lrate * (∑ a ∈ range (p + 1), Spec.withOne x 0 a * W t a j - y.f 0 j) * Spec.withOne x 0 k ^ 2) :=
      Finset.sum_congr rfl fun k hk => by
        rw [w2 t k (Finset.mem_range.1 hk) j (Finset.mem_range.1 hj), hr]
        simp only [Finset.sum_range_one, Nat.cast_one, div_one]
        ring
    rw [e, Finset.sum_sub_distrib, ← Finset.mul_sum]
    have e2 : ∑ k ∈ range (p + 1), Spec.withOne x 0 k ^ 2 = 1 + ∑ k ∈ range p, x.f 0 k ^ 2 := by
      rw [Finset.sum_range_succ']
      unfold Spec.withOne
      simp [add_comm]
    rw [e2]
    ring

end
end Nnet.NN
