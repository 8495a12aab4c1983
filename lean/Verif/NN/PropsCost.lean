import Verif.NN.GradCore
import Mathlib.Tactic.FieldSimp
import Mathlib.Tactic.Positivity
import Mathlib.Analysis.SpecialFunctions.Log.Deriv
import Mathlib.Algebra.Order.BigOperators.Group.Finset
/-!
# C30 output-layer deltas match their costs, C31 costs are non-negative
-/
namespace Nnet.NN
open Finset
noncomputable section

/-- The matrix with element `(i, j)` replaced by `v`. -/
def Mat.put {R : Type} [Zero R] (m : Mat R) (i j : Nat) (v : R) : Mat R :=
  Mat.of m.nr m.nc (fun a b => if a = i ∧ b = j then v else m.f a b)

/-- The matrix of size `r x c` with a 1 at `(i, j)` and 0 elsewhere. -/
def unitMat (r c i j : Nat) : Mat ℝ := Mat.of r c (fun a b => if a = i ∧ b = j then 1 else 0)

theorem ip_unit {D : Mat ℝ} {i j : Nat} (hi : i < D.nr) (hj : j < D.nc) : ip D (unitMat D.nr D.nc i j) = D.f i j := by
  unfold ip
  rw [sum_eq_single i, sum_eq_single j]
  · unfold unitMat; rw [Mat.of_f' hi hj, if_pos ⟨rfl, rfl⟩, mul_one]
  · intro b hb hne
    unfold unitMat; rw [Mat.of_f' hi (mem_range.1 hb), if_neg (by tauto), mul_zero]
  · intro h; exact absurd (mem_range.2 hj) h
  · intro b hb hne
    refine sum_eq_zero fun c hc => ?_
    unfold unitMat; rw [Mat.of_f' (mem_range.1 hb) (mem_range.1 hc), if_neg (by tauto), mul_zero]
  · intro h; exact absurd (mem_range.2 hi) h

/-- `D` is the matrix of the partial derivatives, at `z`, of the total cost as a function of the pre-activations. -/
def Spec.PartialDerivs (act : ℝ → ℝ) (cost : MatFunc) (y z D : Mat ℝ) : Prop :=
  D.nr = z.nr ∧ D.nc = z.nc ∧ ∀ i < z.nr, ∀ j < z.nc, ∃ J : ℝ → ℝ,
    (∀ t, ∃ M, cost y ((z.put i j t).map act) = .ok M ∧ J t = sumall M) ∧ HasDerivAt J (D.f i j) (z.f i j)

theorem Spec.CostGrad.partials {act : ℝ → ℝ} {cost : MatFunc} {y z D : Mat ℝ} (h : Spec.CostGrad act cost y z D) :
    Spec.PartialDerivs act cost y z D := by
  refine ⟨h.1, h.2.1, fun i hi j hj => ?_⟩
  obtain ⟨J, h1, h2⟩ := h.2.2 (fun t => z.put i j (z.f i j + t)) (unitMat z.nr z.nc i j) ⟨fun _ => rfl, fun _ => rfl, fun a b ha hb => by
    replace ha : a < z.nr := ha
    replace hb : b < z.nc := hb
    unfold Mat.put unitMat
    rw [Mat.of_f' ha hb]
    have e : (fun t => (Mat.of z.nr z.nc (fun a b => if a = i ∧ b = j then z.f i j + t else z.f a b)).f a b) =
        fun t => if a = i ∧ b = j then z.f i j + t else z.f a b := by
      funext t; rw [Mat.of_f' ha hb]
    rw [e]
    by_cases hab : a = i ∧ b = j
    · simp only [if_pos hab]
      exact ((hasDerivAt_id (0 : ℝ)).const_add _)
    · simp only [if_neg hab]
      exact hasDerivAt_const _ _⟩ (by
    unfold Mat.put
    conv_rhs => rw [← Mat.of_self z]
    apply Mat.of_congr
    intro a b _ _
    split
    · rename_i hh; rw [hh.1, hh.2, add_zero]
    · rfl)
  refine ⟨fun t => J (t - z.f i j), fun t => ?_, ?_⟩
  · obtain ⟨M, hM, hJ⟩ := h1 (t - z.f i j)
    refine ⟨M, ?_, hJ⟩
    rw [← hM]
    simp only [add_sub_cancel]
  · have hs : HasDerivAt (fun t : ℝ => t - z.f i j) 1 (z.f i j) := (hasDerivAt_id _).sub_const _
    have h2' : HasDerivAt J (ip D (unitMat z.nr z.nc i j)) (z.f i j - z.f i j) := by rw [sub_self]; exact h2
    refine (HasDerivAt.comp (h := fun t => t - z.f i j) (z.f i j) h2' hs).congr_deriv ?_
    rw [mul_one, ← h.1, ← h.2.1]
    exact ip_unit (by rw [h.1]; exact hi) (by rw [h.2.1]; exact hj)

/-- Partial derivatives are unique. -/
theorem Spec.PartialDerivs.unique {act : ℝ → ℝ} {cost : MatFunc} {y z D D' : Mat ℝ} (h : Spec.PartialDerivs act cost y z D)
    (h' : Spec.PartialDerivs act cost y z D') : D = D' := by
  refine Mat.ext' (h.1.trans h'.1.symm) (h.2.1.trans h'.2.1.symm) fun i j hi hj => ?_
  obtain ⟨J, a1, a2⟩ := h.2.2 i (by rw [← h.1]; exact hi) j (by rw [← h.2.1]; exact hj)
  obtain ⟨J', b1, b2⟩ := h'.2.2 i (by rw [← h.1]; exact hi) j (by rw [← h.2.1]; exact hj)
  have : J = J' := by
    funext t
    obtain ⟨M, hM, e⟩ := a1 t
    obtain ⟨M', hM', e'⟩ := b1 t
    rw [hM] at hM'; cases hM'
    rw [e, e']
  subst this
  exact a2.unique b2

/-! ### The quadratic cost -/

theorem quadratic_cost {y h : Mat ℝ} (h1 : y.nr = h.nr) (h2 : y.nc = h.nc) :
    Quadratic.cost y h = .ok (Mat.of y.nr y.nc (fun i j => (y.f i j - h.f i j) * (y.f i j - h.f i j) / 2 / y.nr)) := by
  unfold Quadratic.cost
  rw [Mat.sub_ok h1 h2, ok_bind, Mat.schur_ok rfl rfl, ok_bind]
  congr 1
  refine Mat.ext' rfl rfl fun i j hi hj => ?_
  replace hi : i < y.nr := hi
  replace hj : j < y.nc := hj
  rw [Mat.divS_f, Mat.divS_f, Mat.of_f' (by exact hi) (by exact hj), Mat.of_f' hi hj, Mat.of_f' hi hj]

theorem diff_costd {y a : Mat ℝ} (h1 : a.nr = y.nr) (h2 : a.nc = y.nc) :
    (do let d ← a.sub y; .ok (d.divS y.nr) : Res (Mat ℝ)) = .ok (Mat.of a.nr a.nc (fun i j => (a.f i j - y.f i j) / y.nr)) := by
  rw [Mat.sub_ok h1 h2, ok_bind]
  congr 1
  refine Mat.ext' rfl rfl fun i j hi hj => ?_
  rw [Mat.divS_f, Mat.of_f' (by exact hi) (by exact hj), Mat.of_f' (by exact hi) (by exact hj)]

theorem hasD_at {Z : ℝ → Mat ℝ} {Z' z : Mat ℝ} (h : HasD Z Z') (h0 : Z 0 = z) : Z'.nr = z.nr ∧ Z'.nc = z.nc :=
  ⟨by rw [← h0, h.nr 0], by rw [← h0, h.nc 0]⟩

/-- For the quadratic cost with any activation, the derivative of the cost is `(a - y)/n * act'(z)`. -/
theorem quadratic_costGrad {f : ActFunc ℝ} {y z : Mat ℝ} (h1 : z.nr = y.nr) (h2 : z.nc = y.nc)
    (hf : ∀ i < z.nr, ∀ j < z.nc, f.DerivAt (z.f i j)) :
    Spec.CostGrad f.act Quadratic.cost y z
      (Mat.of z.nr z.nc (fun i j => (f.act (z.f i j) - y.f i j) / y.nr * f.actd (z.f i j))) := by
  refine ⟨rfl, rfl, fun Z Z' hZ h0 => ?_⟩
  obtain ⟨d1, d2⟩ := hasD_at hZ h0
  refine ⟨fun t => ∑ i ∈ range z.nr, ∑ j ∈ range z.nc, (y.f i j - f.act ((Z t).f i j)) * (y.f i j - f.act ((Z t).f i j)) / 2 / y.nr, ?_, ?_⟩
  · intro t
    refine ⟨_, quadratic_cost (by rw [Mat.map_nr, hZ.nr, d1, h1]) (by rw [Mat.map_nc, hZ.nc, d2, h2]), ?_⟩
    unfold sumall
    rw [Mat.accu_of, h1, h2]
    refine sum_congr rfl fun i hi => sum_congr rfl fun j hj => ?_
    rw [Mat.map_f' (by rw [hZ.nr, d1, h1]; exact mem_range.1 hi) (by rw [hZ.nc, d2, h2]; exact mem_range.1 hj)]
  · have key : ∀ i ∈ range z.nr, ∀ j ∈ range z.nc, HasDerivAt (fun t => (y.f i j - f.act ((Z t).f i j)) * (y.f i j - f.act ((Z t).f i j)) / 2 / y.nr)
        ((f.act (z.f i j) - y.f i j) / y.nr * f.actd (z.f i j) * Z'.f i j) 0 := by
      intro i hi j hj
      have hi' := mem_range.1 hi
      have hj' := mem_range.1 hj
      have ha : HasDerivAt (fun t => f.act ((Z t).f i j)) (f.actd (z.f i j) * Z'.f i j) 0 := by
        refine HasDerivAt.comp (0 : ℝ) (h₂ := f.act) (h := fun t => (Z t).f i j) ?_ (hZ.deriv i j (by omega) (by omega))
        rw [h0]
        exact hf i hi' j hj'
      have hb := ha.const_sub (y.f i j)
      refine (((hb.mul hb).div_const 2).div_const (y.nr : ℝ)).congr_deriv ?_
      rw [h0]
      ring
    refine (HasDerivAt.fun_sum fun i hi => HasDerivAt.fun_sum fun j hj => key i hi j hj).congr_deriv ?_
    unfold ip
    show _ = ∑ i ∈ range z.nr, ∑ j ∈ range z.nc, _
    refine sum_congr rfl fun i hi => sum_congr rfl fun j hj => ?_
    rw [Mat.of_f' (mem_range.1 hi) (mem_range.1 hj)]

/-- **C30, quadratic output** (identity activation): for labels and pre-activations of one size, `costd` is the derivative of the total
cost with respect to `z`, elementwise and along every differentiable curve. -/
theorem C30_quadratic {y z : Mat ℝ} (h1 : z.nr = y.nr) (h2 : z.nc = y.nc) :
    ∃ D, Quadratic.costd y (z.map Act.identity.act) z = .ok D ∧ Spec.PartialDerivs Act.identity.act Quadratic.cost y z D ∧
      Spec.CostGrad Act.identity.act Quadratic.cost y z D := by
  have h := quadratic_costGrad (f := Act.identity) h1 h2 (fun i _ j _ => Act.C25_identity _)
  refine ⟨_, ?_, h.partials, h⟩
  unfold Quadratic.costd
  rw [diff_costd (by exact h1) (by exact h2)]
  congr 1
  refine Mat.of_congr fun i j hi hj => ?_
  rw [Mat.map_f' (by exact hi) (by exact hj)]
  show _ = _ * (1 : ℝ)
  rw [mul_one]

/-- **C30, `QuadraticOutput(param)`** takes the caller's activation `f`: then `costd` is the derivative exactly when at every element the
prediction equals the label or `f'(z) = 1`; otherwise the gradients are wrong. -/
theorem C30_quadratic_param {f : ActFunc ℝ} {y z : Mat ℝ} (h1 : z.nr = y.nr) (h2 : z.nc = y.nc)
    (hf : ∀ i < z.nr, ∀ j < z.nc, f.DerivAt (z.f i j)) :
    ∃ D, Quadratic.costd y (z.map f.act) z = .ok D ∧ (Spec.PartialDerivs f.act Quadratic.cost y z D ↔
      ∀ i < z.nr, ∀ j < z.nc, f.act (z.f i j) = y.f i j ∨ f.actd (z.f i j) = 1) := by
  have h := quadratic_costGrad h1 h2 hf
  refine ⟨_, diff_costd (by exact h1) (by exact h2), fun hp i hi j hj => ?_, fun hp => ?_⟩
  · have e := congrArg (fun m : Mat ℝ => m.f i j) (hp.unique h.partials)
    rw [Mat.of_f' (by exact hi) (by exact hj), Mat.of_f' hi hj, Mat.map_f' hi hj] at e
    by_cases ha : f.act (z.f i j) = y.f i j
    · exact Or.inl ha
    · right
      have hn : (y.nr : ℝ) ≠ 0 := by
        have : 0 < y.nr := by omega
        exact_mod_cast this.ne'
      have hne : (f.act (z.f i j) - y.f i j) / y.nr ≠ 0 := div_ne_zero (sub_ne_zero.2 ha) hn
      have : (f.act (z.f i j) - y.f i j) / y.nr * (f.actd (z.f i j) - 1) = 0 := by rw [mul_sub, mul_one, ← e, sub_self]
      rcases mul_eq_zero.1 this with h | h
      · exact absurd h hne
      · linarith
  · have e : Mat.of (z.map f.act).nr (z.map f.act).nc (fun i j => ((z.map f.act).f i j - y.f i j) / y.nr) =
        Mat.of z.nr z.nc (fun i j => (f.act (z.f i j) - y.f i j) / y.nr * f.actd (z.f i j)) := by
      refine Mat.of_congr fun i j hi hj => ?_
      rw [Mat.map_f' (by exact hi) (by exact hj)]
      rcases hp i hi j hj with h | h
      · rw [h]; simp
      · rw [h, mul_one]
    rw [e]
    exact h.partials

/-- **C30 is false of `QuadraticOutput(param)` with a sigmoid activation**: whenever some prediction differs from its label. -/
theorem C30_quadratic_param_refuted {y z D : Mat ℝ} (h1 : z.nr = y.nr) (h2 : z.nc = y.nc) {i j : Nat} (hi : i < z.nr) (hj : j < z.nc)
    (hne : Act.sigmoid.act (z.f i j) ≠ y.f i j) (hD : Quadratic.costd y (z.map Act.sigmoid.act) z = .ok D) :
    ¬ Spec.PartialDerivs Act.sigmoid.act Quadratic.cost y z D := by
  obtain ⟨D', e, hiff⟩ := C30_quadratic_param (f := Act.sigmoid) h1 h2 (fun i _ j _ => Act.C25_sigmoid _)
  rw [e] at hD; cases hD
  rw [hiff]
  intro hc
  rcases hc i hi j hj with h | h
  · exact hne h
  · change Real.exp (-z.f i j) / (1 + Real.exp (-z.f i j)) / (1 + Real.exp (-z.f i j)) = 1 at h
    have hp := Real.exp_pos (-z.f i j)
    rw [div_div, div_eq_one_iff_eq (by positivity)] at h
    nlinarith

/-! ### Cross entropy -/

theorem crossEntropy_cost {y h : Mat ℝ} (h1 : y.nr = h.nr) (h2 : y.nc = h.nc) :
    CrossEntropy.cost y h = .ok (Mat.of y.nr y.nc (fun i j =>
      -(y.f i j * Real.log (h.f i j) + (1 - y.f i j) * Real.log (1 - h.f i j)) / y.nr)) := by
  unfold CrossEntropy.cost logorithm
  rw [Mat.schur_ok (by exact h1) (by exact h2), ok_bind, Mat.schur_ok (by exact h1) (by exact h2), ok_bind,
    Mat.add_ok (by rfl) (by rfl), ok_bind]
  congr 1
  refine Mat.ext' rfl rfl fun i j hi hj => ?_
  replace hi : i < y.nr := hi
  replace hj : j < y.nc := hj
  have hi' : i < h.nr := by omega
  have hj' : j < h.nc := by omega
  rw [Mat.divS_f, Mat.map_f' (by exact hi) (by exact hj), Mat.of_f' (by exact hi) (by exact hj), Mat.of_f' hi hj,
    Mat.of_f' (by exact hi) (by exact hj), Mat.of_f' (by exact hi) (by exact hj), Mat.map_f' hi' hj', Mat.map_f' hi hj,
    Mat.map_f' (by exact hi') (by exact hj'), Mat.map_f' hi' hj']
  rfl

theorem sigmoid_bounds (z : ℝ) : 0 < Act.sigmoidF z ∧ Act.sigmoidF z < 1 := by
  have := Real.exp_pos (-z)
  unfold Act.sigmoidF
  refine ⟨by positivity, ?_⟩
  rw [div_lt_one (by positivity)]
  linarith

theorem sigmoidG_eq (z : ℝ) : Act.sigmoidG z = Act.sigmoidF z * (1 - Act.sigmoidF z) := by
  have := Real.exp_pos (-z)
  unfold Act.sigmoidF Act.sigmoidG
  simp only
  have : (1 + Real.exp (-z)) ≠ 0 := by positivity
  field_simp
  ring

theorem crossEntropy_costGrad {y z : Mat ℝ} (h1 : z.nr = y.nr) (h2 : z.nc = y.nc) :
    Spec.CostGrad Act.sigmoid.act CrossEntropy.cost y z (Mat.of z.nr z.nc (fun i j => (Act.sigmoid.act (z.f i j) - y.f i j) / y.nr)) := by
  refine ⟨rfl, rfl, fun Z Z' hZ h0 => ?_⟩
  obtain ⟨d1, d2⟩ := hasD_at hZ h0
  refine ⟨fun t => ∑ i ∈ range z.nr, ∑ j ∈ range z.nc, -(y.f i j * Real.log (Act.sigmoidF ((Z t).f i j)) +
    (1 - y.f i j) * Real.log (1 - Act.sigmoidF ((Z t).f i j))) / y.nr, ?_, ?_⟩
  · intro t
    refine ⟨_, crossEntropy_cost (by rw [Mat.map_nr, hZ.nr, d1, h1]) (by rw [Mat.map_nc, hZ.nc, d2, h2]), ?_⟩
    unfold sumall
    rw [Mat.accu_of, h1, h2]
    refine sum_congr rfl fun i hi => sum_congr rfl fun j hj => ?_
    rw [Mat.map_f' (by rw [hZ.nr, d1, h1]; exact mem_range.1 hi) (by rw [hZ.nc, d2, h2]; exact mem_range.1 hj)]
    rfl
  · have key : ∀ i ∈ range z.nr, ∀ j ∈ range z.nc, HasDerivAt (fun t => -(y.f i j * Real.log (Act.sigmoidF ((Z t).f i j)) +
        (1 - y.f i j) * Real.log (1 - Act.sigmoidF ((Z t).f i j))) / y.nr)
        ((Act.sigmoidF (z.f i j) - y.f i j) / y.nr * Z'.f i j) 0 := by
      intro i hi j hj
      have hi' := mem_range.1 hi
      have hj' := mem_range.1 hj
      have ha : HasDerivAt (fun t => Act.sigmoidF ((Z t).f i j)) (Act.sigmoidG (z.f i j) * Z'.f i j) 0 := by
        refine HasDerivAt.comp (0 : ℝ) (h₂ := Act.sigmoidF) (h := fun t => (Z t).f i j) ?_ (hZ.deriv i j (by omega) (by omega))
        rw [h0]
        exact Act.C25_sigmoid _
      obtain ⟨b1, b2⟩ := sigmoid_bounds (z.f i j)
      have hl1 := ha.log (by rw [h0]; exact b1.ne')
      have hl2 := (ha.const_sub 1).log (by rw [h0]; linarith)
      refine (((hl1.const_mul (y.f i j)).add (hl2.const_mul (1 - y.f i j))).neg.div_const (y.nr : ℝ)).congr_deriv ?_
      rw [h0, sigmoidG_eq]
      have c1 : Act.sigmoidF (z.f i j) ≠ 0 := b1.ne'
      have c2 : 1 - Act.sigmoidF (z.f i j) ≠ 0 := by linarith
      by_cases hn : (y.nr : ℝ) = 0
      · simp [hn]
      · field_simp
        ring
    refine (HasDerivAt.fun_sum fun i hi => HasDerivAt.fun_sum fun j hj => key i hi j hj).congr_deriv ?_
    unfold ip
    show _ = ∑ i ∈ range z.nr, ∑ j ∈ range z.nc, _
    refine sum_congr rfl fun i hi => sum_congr rfl fun j hj => ?_
    rw [Mat.of_f' (mem_range.1 hi) (mem_range.1 hj)]
    rfl

/-- **C30, cross-entropy output** (sigmoid activation), for all labels and pre-activations of one size. -/
theorem C30_crossentropy {y z : Mat ℝ} (h1 : z.nr = y.nr) (h2 : z.nc = y.nc) :
    ∃ D, CrossEntropy.costd y (z.map Act.sigmoid.act) z = .ok D ∧ Spec.PartialDerivs Act.sigmoid.act CrossEntropy.cost y z D ∧
      Spec.CostGrad Act.sigmoid.act CrossEntropy.cost y z D := by
  have h := crossEntropy_costGrad h1 h2
  refine ⟨_, ?_, h.partials, h⟩
  unfold CrossEntropy.costd
  rw [diff_costd (by exact h1) (by exact h2)]
  congr 1
  refine Mat.of_congr fun i j hi hj => ?_
  rw [Mat.map_f' (by exact hi) (by exact hj)]

/-! ### Softmax -/

/-- Softmax of a row. -/
def Spec.softmaxAt (h : Mat ℝ) (i j : Nat) : ℝ := Real.exp (h.f i j) / ∑ k ∈ range h.nc, Real.exp (h.f i k)

theorem softmax_prob {h : Mat ℝ} {c : Nat} (hc : h.nc = c) :
    Softmax.prob c h = .ok (Mat.of h.nr h.nc (Spec.softmaxAt h)) := by
  unfold Softmax.prob repeatM
  simp only
  rw [if_pos (by omega), ok_bind]
  rw [Mat.schur_ok (by show h.nr = h.nr * ((1 : Int).toNat); simp) (by show h.nc = 1 * ((c : Int).toNat); simp [hc])]
  congr 1
  refine Mat.of_congr fun i j hi hj => ?_
  replace hi : i < h.nr := hi
  replace hj : j < h.nc := hj
  unfold exponential
  rw [Mat.map_f' hi hj, Mat.map_f' (by show i < h.nr * ((1 : Int).toNat); simpa using hi) (by show j < 1 * ((c : Int).toNat); simp; omega)]
  unfold Mat.repmat
  rw [Mat.of_f' (by show i < h.nr * ((1 : Int).toNat); simpa using hi) (by show j < 1 * ((c : Int).toNat); simp; omega)]
  show Real.exp (h.f i j) * (1 / (rowsum (h.map Transc.exp)).f (i % h.nr) (j % 1)) = _
  rw [Nat.mod_eq_of_lt hi, Nat.mod_one]
  unfold rowsum
  rw [Mat.sumRows_f (by exact hi)]
  show _ * (1 / ∑ k ∈ range h.nc, _) = Real.exp (h.f i j) / _
  rw [mul_one_div]
  congr 1
  refine sum_congr rfl fun k hk => ?_
  rw [Mat.map_f' hi (mem_range.1 hk)]
  rfl

theorem softmax_cost {y h : Mat ℝ} (h1 : y.nr = h.nr) (h2 : y.nc = h.nc) :
    Softmax.cost y h = .ok (Mat.of y.nr y.nc (fun i j => -(y.f i j * Real.log (Spec.softmaxAt h i j)) / y.nr)) := by
  unfold Softmax.cost logorithm
  rw [softmax_prob h2.symm, ok_bind, Mat.schur_ok (by exact h1) (by exact h2), ok_bind]
  congr 1
  refine Mat.ext' rfl rfl fun i j hi hj => ?_
  replace hi : i < y.nr := hi
  replace hj : j < y.nc := hj
  rw [Mat.divS_f, Mat.map_f' (by exact hi) (by exact hj), Mat.of_f' hi hj, Mat.of_f' hi hj,
    Mat.map_f' (by show i < h.nr; omega) (by show j < h.nc; omega), Mat.of_f' (by omega) (by omega)]
  rfl

theorem softmax_costd {y a z : Mat ℝ} (h1 : a.nr = y.nr) (h2 : a.nc = y.nc) :
    Softmax.costd y a z = .ok (Mat.of a.nr a.nc (fun i j => (Spec.softmaxAt a i j - y.f i j) / y.nr)) := by
  unfold Softmax.costd
  rw [softmax_prob h2, ok_bind, Mat.sub_ok (by exact h1) (by exact h2), ok_bind]
  congr 1
  refine Mat.ext' rfl rfl fun i j hi hj => ?_
  replace hi : i < a.nr := hi
  replace hj : j < a.nc := hj
  rw [Mat.divS_f, Mat.of_f' (by exact hi) (by exact hj), Mat.of_f' hi hj, Mat.of_f' hi hj]

theorem sumExp_pos {n : Nat} (hn : 0 < n) (v : Nat → ℝ) : 0 < ∑ k ∈ range n, Real.exp (v k) :=
  sum_pos (fun _ _ => Real.exp_pos _) ⟨0, mem_range.2 hn⟩

/-- For arbitrary labels, the derivative of the softmax cost is `(P * (sum of the label row) - y) / n`. -/
theorem softmax_costGrad {y z : Mat ℝ} (h1 : z.nr = y.nr) (h2 : z.nc = y.nc) :
    Spec.CostGrad Act.identity.act Softmax.cost y z
      (Mat.of z.nr z.nc (fun i j => (Spec.softmaxAt z i j * (∑ k ∈ range y.nc, y.f i k) - y.f i j) / y.nr)) := by
  refine ⟨rfl, rfl, fun Z Z' hZ h0 => ?_⟩
  obtain ⟨d1, d2⟩ := hasD_at hZ h0
  refine ⟨fun t => ∑ i ∈ range z.nr, ∑ j ∈ range z.nc,
    -(y.f i j * ((Z t).f i j - Real.log (∑ k ∈ range z.nc, Real.exp ((Z t).f i k)))) / y.nr, ?_, ?_⟩
  · intro t
    refine ⟨_, softmax_cost (by rw [Mat.map_nr, hZ.nr, d1, h1]) (by rw [Mat.map_nc, hZ.nc, d2, h2]), ?_⟩
    unfold sumall
    rw [Mat.accu_of, h1, h2]
    refine sum_congr rfl fun i hi => sum_congr rfl fun j hj => ?_
    have hi' : i < (Z t).nr := by rw [hZ.nr, d1, h1]; exact mem_range.1 hi
    have hj' : j < (Z t).nc := by rw [hZ.nc, d2, h2]; exact mem_range.1 hj
    have e : ∀ k ∈ range y.nc, Real.exp (((Z t).map Act.identity.act).f i k) = Real.exp ((Z t).f i k) := fun k hk => by
      rw [Mat.map_f' hi' (by rw [hZ.nc, d2, h2]; exact mem_range.1 hk)]; rfl
    unfold Spec.softmaxAt
    rw [show ((Z t).map Act.identity.act).nc = y.nc by rw [Mat.map_nc, hZ.nc, d2, h2], sum_congr rfl e, e j hj,
      Real.log_div (Real.exp_pos _).ne' (sumExp_pos (by have := mem_range.1 hj; omega) _).ne', Real.log_exp]
  · have hS : ∀ i ∈ range z.nr, 0 < z.nc → HasDerivAt (fun t => Real.log (∑ k ∈ range z.nc, Real.exp ((Z t).f i k)))
        (∑ k ∈ range z.nc, Spec.softmaxAt z i k * Z'.f i k) 0 := by
      intro i hi hc
      have hi' := mem_range.1 hi
      have hsum : HasDerivAt (fun t => ∑ k ∈ range z.nc, Real.exp ((Z t).f i k)) (∑ k ∈ range z.nc, Real.exp ((Z 0).f i k) * Z'.f i k) 0 :=
        HasDerivAt.fun_sum fun k hk => (hZ.deriv i k (by omega) (by have := mem_range.1 hk; omega)).exp
      refine (hsum.log (sumExp_pos hc _).ne').congr_deriv ?_
      rw [h0, sum_div]
      refine sum_congr rfl fun k _ => ?_
      unfold Spec.softmaxAt
      ring
    have key : ∀ i ∈ range z.nr, ∀ j ∈ range z.nc, HasDerivAt
        (fun t => -(y.f i j * ((Z t).f i j - Real.log (∑ k ∈ range z.nc, Real.exp ((Z t).f i k)))) / y.nr)
        (-(y.f i j * (Z'.f i j - ∑ k ∈ range z.nc, Spec.softmaxAt z i k * Z'.f i k)) / y.nr) 0 := by
      intro i hi j hj
      have hi' := mem_range.1 hi
      have hj' := mem_range.1 hj
      exact ((((hZ.deriv i j (by omega) (by omega)).sub (hS i hi (by omega))).const_mul _).neg).div_const _
    refine (HasDerivAt.fun_sum fun i hi => HasDerivAt.fun_sum fun j hj => key i hi j hj).congr_deriv ?_
    unfold ip
    show _ = ∑ i ∈ range z.nr, ∑ j ∈ range z.nc, _
    refine sum_congr rfl fun i hi => ?_
    have e1 : ∑ j ∈ range z.nc, (Mat.of z.nr z.nc (fun i j => (Spec.softmaxAt z i j * (∑ k ∈ range y.nc, y.f i k) - y.f i j) / y.nr)).f i j * Z'.f i j
        = ∑ j ∈ range z.nc, (Spec.softmaxAt z i j * (∑ k ∈ range z.nc, y.f i k) - y.f i j) / y.nr * Z'.f i j := by
      refine sum_congr rfl fun j hj => ?_
      rw [Mat.of_f' (mem_range.1 hi) (mem_range.1 hj), h2]
    rw [e1]
    have e2 : ∀ j, -(y.f i j * (Z'.f i j - ∑ k ∈ range z.nc, Spec.softmaxAt z i k * Z'.f i k)) / (y.nr : ℝ) =
        (∑ k ∈ range z.nc, Spec.softmaxAt z i k * Z'.f i k) / y.nr * y.f i j - y.f i j * Z'.f i j / y.nr := fun j => by ring
    have e3 : ∀ j, (Spec.softmaxAt z i j * (∑ k ∈ range z.nc, y.f i k) - y.f i j) / (y.nr : ℝ) * Z'.f i j =
        (∑ k ∈ range z.nc, y.f i k) / y.nr * (Spec.softmaxAt z i j * Z'.f i j) - y.f i j * Z'.f i j / y.nr := fun j => by ring
    simp only [e2, e3, sum_sub_distrib, ← mul_sum]
    ring

/-- **C30, softmax output** (identity activation): `costd` is the derivative of the total cost exactly when every label row sums to 1. -/
theorem C30_softmax {y z : Mat ℝ} (h1 : z.nr = y.nr) (h2 : z.nc = y.nc) :
    ∃ D, Softmax.costd y (z.map Act.identity.act) z = .ok D ∧
      ((∀ i < y.nr, ∑ j ∈ range y.nc, y.f i j = 1) → Spec.PartialDerivs Act.identity.act Softmax.cost y z D ∧
        Spec.CostGrad Act.identity.act Softmax.cost y z D) ∧
      (0 < y.nc → Spec.PartialDerivs Act.identity.act Softmax.cost y z D → ∀ i < y.nr, ∑ j ∈ range y.nc, y.f i j = 1) := by
  have h := softmax_costGrad h1 h2
  have hid : z.map Act.identity.act = z := by
    refine Mat.ext' rfl rfl fun i j hi hj => ?_
    rw [Mat.map_f' (by exact hi) (by exact hj)]
    rfl
  rw [hid]
  refine ⟨_, softmax_costd h1 h2, fun hs => ?_, fun hc hp i hi => ?_⟩
  · have e : Mat.of z.nr z.nc (fun i j => (Spec.softmaxAt z i j - y.f i j) / (y.nr : ℝ)) =
        Mat.of z.nr z.nc (fun i j => (Spec.softmaxAt z i j * (∑ k ∈ range y.nc, y.f i k) - y.f i j) / y.nr) := by
      refine Mat.of_congr fun i j hi hj => ?_
      rw [hs i (by omega), mul_one]
    rw [e]
    exact ⟨h.partials, h⟩
  · have e := congrArg (fun m : Mat ℝ => m.f i 0) (hp.unique h.partials)
    rw [Mat.of_f' (by omega) (by omega), Mat.of_f' (by omega) (by omega)] at e
    have hn : (y.nr : ℝ) ≠ 0 := by
      have : 0 < y.nr := by omega
      exact_mod_cast this.ne'
    have hP : 0 < Spec.softmaxAt z i 0 := div_pos (Real.exp_pos _) (sumExp_pos (by omega) _)
    rw [div_left_inj' hn] at e
    have : Spec.softmaxAt z i 0 * ((∑ k ∈ range y.nc, y.f i k) - 1) = 0 := by linarith
    rcases mul_eq_zero.1 this with h | h
    · exact absurd h hP.ne'
    · linarith

/-! ### Kullback-Leibler -/

theorem kl_cost {y h : Mat ℝ} (h1 : y.nr = h.nr) (h2 : y.nc = h.nc) :
    KullbackLeibler.cost y h = .ok (Mat.of y.nr y.nc (fun i j => y.f i j * Real.log (y.f i j / h.f i j) / y.nr)) := by
  unfold KullbackLeibler.cost logorithm
  rw [Mat.ediv_ok h1 h2, ok_bind, Mat.schur_ok (by rfl) (by rfl), ok_bind]
  congr 1
  refine Mat.ext' rfl rfl fun i j hi hj => ?_
  replace hi : i < y.nr := hi
  replace hj : j < y.nc := hj
  rw [Mat.divS_f, Mat.of_f' hi hj, Mat.of_f' hi hj, Mat.map_f' (by exact hi) (by exact hj), Mat.of_f' hi hj]
  rfl

theorem kl_costGrad {y z : Mat ℝ} (h1 : z.nr = y.nr) (h2 : z.nc = y.nc) (hy : ∀ i < y.nr, ∀ j < y.nc, 0 < y.f i j)
    (hz : ∀ i < z.nr, ∀ j < z.nc, 0 < z.f i j) :
    Spec.CostGrad Act.identity.act KullbackLeibler.cost y z (Mat.of z.nr z.nc (fun i j => -(y.f i j / z.f i j / y.nr))) := by
  refine ⟨rfl, rfl, fun Z Z' hZ h0 => ?_⟩
  obtain ⟨d1, d2⟩ := hasD_at hZ h0
  refine ⟨fun t => ∑ i ∈ range z.nr, ∑ j ∈ range z.nc, y.f i j * Real.log (y.f i j / (Z t).f i j) / y.nr, ?_, ?_⟩
  · intro t
    refine ⟨_, kl_cost (by rw [Mat.map_nr, hZ.nr, d1, h1]) (by rw [Mat.map_nc, hZ.nc, d2, h2]), ?_⟩
    unfold sumall
    rw [Mat.accu_of, h1, h2]
    refine sum_congr rfl fun i hi => sum_congr rfl fun j hj => ?_
    rw [Mat.map_f' (by rw [hZ.nr, d1, h1]; exact mem_range.1 hi) (by rw [hZ.nc, d2, h2]; exact mem_range.1 hj)]
    rfl
  · have key : ∀ i ∈ range z.nr, ∀ j ∈ range z.nc, HasDerivAt (fun t => y.f i j * Real.log (y.f i j / (Z t).f i j) / y.nr)
        (-(y.f i j / z.f i j / y.nr) * Z'.f i j) 0 := by
      intro i hi j hj
      have hi' := mem_range.1 hi
      have hj' := mem_range.1 hj
      have hzp := hz i hi' j hj'
      have hyp := hy i (by omega) j (by omega)
      have hd := ((hasDerivAt_const (0 : ℝ) (y.f i j)).div (hZ.deriv i j (by omega) (by omega)) (by rw [h0]; exact hzp.ne'))
      have hl := hd.log (by simp only [Pi.div_apply]; rw [h0]; exact (div_pos hyp hzp).ne')
      refine ((hl.const_mul (y.f i j)).div_const (y.nr : ℝ)).congr_deriv ?_
      simp only [Pi.div_apply]
      rw [h0]
      by_cases hn : (y.nr : ℝ) = 0
      · simp [hn]
      · field_simp
        ring
    refine (HasDerivAt.fun_sum fun i hi => HasDerivAt.fun_sum fun j hj => key i hi j hj).congr_deriv ?_
    unfold ip
    show _ = ∑ i ∈ range z.nr, ∑ j ∈ range z.nc, _
    refine sum_congr rfl fun i hi => sum_congr rfl fun j hj => ?_
    rw [Mat.of_f' (mem_range.1 hi) (mem_range.1 hj)]

/-- **C30 is false of the Kullback-Leibler output**: for positive labels and predictions `costd` is the *negative* of the derivative, and so is
never the derivative unless the matrices are empty. -/
theorem C30_kullbackleibler_refuted {y z : Mat ℝ} (h1 : z.nr = y.nr) (h2 : z.nc = y.nc) (hy : ∀ i < y.nr, ∀ j < y.nc, 0 < y.f i j)
    (hz : ∀ i < z.nr, ∀ j < z.nc, 0 < z.f i j) :
    ∃ D, KullbackLeibler.costd y (z.map Act.identity.act) z = .ok D ∧
      Spec.PartialDerivs Act.identity.act KullbackLeibler.cost y z (D.smul (-1)) ∧
      Spec.CostGrad Act.identity.act KullbackLeibler.cost y z (D.smul (-1)) ∧
      (0 < y.nr → 0 < y.nc → ¬ Spec.PartialDerivs Act.identity.act KullbackLeibler.cost y z D) := by
  have h := kl_costGrad h1 h2 hy hz
  have hid : z.map Act.identity.act = z := by
    refine Mat.ext' rfl rfl fun i j hi hj => ?_
    rw [Mat.map_f' (by exact hi) (by exact hj)]
    rfl
  rw [hid]
  have ed : KullbackLeibler.costd y z z = .ok (Mat.of y.nr y.nc (fun i j => y.f i j / z.f i j / y.nr)) := by
    unfold KullbackLeibler.costd
    rw [Mat.ediv_ok h1.symm h2.symm, ok_bind]
    congr 1
    refine Mat.ext' rfl rfl fun i j hi hj => ?_
    rw [Mat.divS_f, Mat.of_f' (by exact hi) (by exact hj), Mat.of_f' (by exact hi) (by exact hj)]
  have es : (Mat.of y.nr y.nc (fun i j => y.f i j / z.f i j / (y.nr : ℝ))).smul (-1) =
      Mat.of z.nr z.nc (fun i j => -(y.f i j / z.f i j / y.nr)) := by
    refine Mat.ext' h1.symm h2.symm fun i j hi hj => ?_
    replace hi : i < y.nr := hi
    replace hj : j < y.nc := hj
    rw [Mat.smul_f, Mat.of_f' hi hj, Mat.of_f' (by omega) (by omega)]
    ring
  refine ⟨_, ed, by rw [es]; exact h.partials, by rw [es]; exact h, fun hr hc hp => ?_⟩
  have e := congrArg (fun m : Mat ℝ => m.f 0 0) (hp.unique h.partials)
  rw [Mat.of_f' hr hc, Mat.of_f' (by omega) (by omega)] at e
  have : 0 < y.f 0 0 / z.f 0 0 / (y.nr : ℝ) := by
    have : (0 : ℝ) < y.nr := by exact_mod_cast hr
    exact div_pos (div_pos (hy 0 hr 0 hc) (hz 0 (by omega) 0 (by omega))) this
  linarith

/-! ## C31 -/

theorem sum2_nonneg {r c : Nat} {g : Nat → Nat → ℝ} (h : ∀ i < r, ∀ j < c, 0 ≤ g i j) : 0 ≤ ∑ i ∈ range r, ∑ j ∈ range c, g i j :=
  sum_nonneg fun i hi => sum_nonneg fun j hj => h i (mem_range.1 hi) j (mem_range.1 hj)

theorem sum2_eq_zero {r c : Nat} {g : Nat → Nat → ℝ} (h : ∀ i < r, ∀ j < c, 0 ≤ g i j) (h0 : ∑ i ∈ range r, ∑ j ∈ range c, g i j = 0) :
    ∀ i < r, ∀ j < c, g i j = 0 := by
  intro i hi j hj
  have h1 := (sum_eq_zero_iff_of_nonneg (fun i hi => sum_nonneg fun j hj => h i (mem_range.1 hi) j (mem_range.1 hj))).1 h0 i (mem_range.2 hi)
  exact (sum_eq_zero_iff_of_nonneg (fun j hj => h i hi j (mem_range.1 hj))).1 h1 j (mem_range.2 hj)

/-- **C31, quadratic.** Non-negative, and 0 exactly at the label. -/
theorem C31_quadratic {y h : Mat ℝ} (h1 : y.nr = h.nr) (h2 : y.nc = h.nc) :
    ∃ M, Quadratic.cost y h = .ok M ∧ 0 ≤ sumall M ∧ (sumall M = 0 ↔ h = y) := by
  refine ⟨_, quadratic_cost h1 h2, ?_⟩
  unfold sumall
  rw [Mat.accu_of]
  have hp : ∀ i < y.nr, ∀ j < y.nc, 0 ≤ (y.f i j - h.f i j) * (y.f i j - h.f i j) / 2 / (y.nr : ℝ) := fun i _ j _ =>
    div_nonneg (div_nonneg (mul_self_nonneg _) (by norm_num)) (Nat.cast_nonneg _)
  refine ⟨sum2_nonneg hp, fun h0 => ?_, fun he => ?_⟩
  · refine Mat.ext' h1.symm h2.symm fun i j hi hj => ?_
    have := sum2_eq_zero hp h0 i (by omega) j (by omega)
    have hn : (y.nr : ℝ) ≠ 0 := by
      have : 0 < y.nr := by omega
      exact_mod_cast this.ne'
    rw [div_eq_zero_iff, or_iff_left hn, div_eq_zero_iff, or_iff_left (by norm_num), mul_self_eq_zero] at this
    linarith
  · rw [he]; simp

/-- `a log(a/b) ≥ a - b` for positive numbers, with equality only for `a = b`. -/
theorem kl_term {a b : ℝ} (ha : 0 < a) (hb : 0 < b) : a - b ≤ a * Real.log (a / b) ∧ (a * Real.log (a / b) = a - b → a = b) := by
  have e : a * Real.log (a / b) = -(a * Real.log (b / a)) := by
    rw [← mul_neg, ← Real.log_inv, inv_div]
  have hba : 0 < b / a := div_pos hb ha
  have hm : a * (b / a - 1) = b - a := by field_simp
  refine ⟨?_, fun h => ?_⟩
  · have := mul_le_mul_of_nonneg_left (Real.log_le_sub_one_of_pos hba) ha.le
    rw [e]; linarith
  · by_contra hne
    have h1 : b / a ≠ 1 := fun h => hne ((div_eq_one_iff_eq ha.ne').1 h).symm
    have := mul_lt_mul_of_pos_left (Real.log_lt_sub_one_of_pos hba h1) ha
    rw [e] at h; linarith

/-- **C31, cross entropy.** Non-negative for labels in [0,1] and predictions in (0,1). -/
theorem C31_crossentropy {y h : Mat ℝ} (h1 : y.nr = h.nr) (h2 : y.nc = h.nc) (hy : ∀ i < y.nr, ∀ j < y.nc, 0 ≤ y.f i j ∧ y.f i j ≤ 1)
    (hh : ∀ i < h.nr, ∀ j < h.nc, 0 < h.f i j ∧ h.f i j < 1) : ∃ M, CrossEntropy.cost y h = .ok M ∧ 0 ≤ sumall M := by
  refine ⟨_, crossEntropy_cost h1 h2, ?_⟩
  unfold sumall
  rw [Mat.accu_of]
  refine sum2_nonneg fun i hi j hj => ?_
  obtain ⟨a1, a2⟩ := hy i hi j hj
  obtain ⟨b1, b2⟩ := hh i (by omega) j (by omega)
  have l1 : Real.log (h.f i j) ≤ 0 := Real.log_nonpos b1.le b2.le
  have l2 : Real.log (1 - h.f i j) ≤ 0 := Real.log_nonpos (by linarith) (by linarith)
  apply div_nonneg _ (Nat.cast_nonneg _)
  nlinarith [mul_nonneg a1 (neg_nonneg.2 l1), mul_nonneg (sub_nonneg.2 a2) (neg_nonneg.2 l2)]

/-- **C31, cross entropy.** For labels strictly between 0 and 1 the cost is smallest exactly at the label. -/
theorem C31_crossentropy_min {y h My Mh : Mat ℝ} (h1 : y.nr = h.nr) (h2 : y.nc = h.nc)
    (hy : ∀ i < y.nr, ∀ j < y.nc, 0 < y.f i j ∧ y.f i j < 1) (hh : ∀ i < h.nr, ∀ j < h.nc, 0 < h.f i j ∧ h.f i j < 1)
    (ey : CrossEntropy.cost y y = .ok My) (eh : CrossEntropy.cost y h = .ok Mh) :
    sumall My ≤ sumall Mh ∧ (sumall My = sumall Mh ↔ h = y) := by
  rw [crossEntropy_cost rfl rfl] at ey
  rw [crossEntropy_cost h1 h2] at eh
  cases ey; cases eh
  unfold sumall
  rw [Mat.accu_of, Mat.accu_of]
  have key : ∀ i < y.nr, ∀ j < y.nc,
      -(y.f i j * Real.log (h.f i j) + (1 - y.f i j) * Real.log (1 - h.f i j)) / (y.nr : ℝ) -
      -(y.f i j * Real.log (y.f i j) + (1 - y.f i j) * Real.log (1 - y.f i j)) / (y.nr : ℝ) =
      (y.f i j * Real.log (y.f i j / h.f i j) + (1 - y.f i j) * Real.log ((1 - y.f i j) / (1 - h.f i j))) / y.nr := by
    intro i hi j hj
    obtain ⟨a1, a2⟩ := hy i hi j hj
    obtain ⟨b1, b2⟩ := hh i (by omega) j (by omega)
    rw [Real.log_div a1.ne' b1.ne', Real.log_div (by linarith) (by linarith)]
    ring
  have hnn : ∀ i < y.nr, ∀ j < y.nc, 0 ≤ -(y.f i j * Real.log (h.f i j) + (1 - y.f i j) * Real.log (1 - h.f i j)) / (y.nr : ℝ) -
      -(y.f i j * Real.log (y.f i j) + (1 - y.f i j) * Real.log (1 - y.f i j)) / (y.nr : ℝ) := by
    intro i hi j hj
    rw [key i hi j hj]
    obtain ⟨a1, a2⟩ := hy i hi j hj
    obtain ⟨b1, b2⟩ := hh i (by omega) j (by omega)
    have k1 := (kl_term a1 b1).1
    have k2 := (kl_term (show 0 < 1 - y.f i j by linarith) (show 0 < 1 - h.f i j by linarith)).1
    apply div_nonneg _ (Nat.cast_nonneg _)
    linarith
  have hs := sum2_nonneg hnn
  simp only [sum_sub_distrib] at hs
  refine ⟨by linarith, fun he => ?_, fun he => by rw [he]⟩
  have h0 : ∑ i ∈ range y.nr, ∑ j ∈ range y.nc, (-(y.f i j * Real.log (h.f i j) + (1 - y.f i j) * Real.log (1 - h.f i j)) / (y.nr : ℝ) -
      -(y.f i j * Real.log (y.f i j) + (1 - y.f i j) * Real.log (1 - y.f i j)) / (y.nr : ℝ)) = 0 := by
    simp only [sum_sub_distrib]; linarith
  refine Mat.ext' h1.symm h2.symm fun i j hi hj => ?_
  have h3 := sum2_eq_zero hnn h0 i (by omega) j (by omega)
  rw [key i (by omega) j (by omega)] at h3
  have hn : (y.nr : ℝ) ≠ 0 := by
    have : 0 < y.nr := by omega
    exact_mod_cast this.ne'
  rw [div_eq_zero_iff, or_iff_left hn] at h3
  obtain ⟨a1, a2⟩ := hy i (by omega) j (by omega)
  obtain ⟨b1, b2⟩ := hh i hi j hj
  have k1 := kl_term a1 b1
  have k2 := (kl_term (show 0 < 1 - y.f i j by linarith) (show 0 < 1 - h.f i j by linarith)).1
  exact (k1.2 (by linarith [k1.1])).symm

/-- **C31, softmax.** Non-negative for non-negative labels, whatever the predictions. -/
theorem C31_softmax {y h : Mat ℝ} (h1 : y.nr = h.nr) (h2 : y.nc = h.nc) (hy : ∀ i < y.nr, ∀ j < y.nc, 0 ≤ y.f i j) :
    ∃ M, Softmax.cost y h = .ok M ∧ 0 ≤ sumall M := by
  refine ⟨_, softmax_cost h1 h2, ?_⟩
  unfold sumall
  rw [Mat.accu_of]
  refine sum2_nonneg fun i hi j hj => ?_
  have hS := sumExp_pos (n := h.nc) (by omega) (h.f i)
  have hle : Spec.softmaxAt h i j ≤ 1 := by
    unfold Spec.softmaxAt
    rw [div_le_one hS]
    exact single_le_sum (f := fun k => Real.exp (h.f i k)) (fun k _ => (Real.exp_pos _).le) (mem_range.2 (by omega))
  have hl : Real.log (Spec.softmaxAt h i j) ≤ 0 := Real.log_nonpos (div_pos (Real.exp_pos _) hS).le hle
  apply div_nonneg _ (Nat.cast_nonneg _)
  nlinarith [hy i hi j hj, mul_nonneg (hy i hi j hj) (neg_nonneg.2 hl)]

/-- **C31, Kullback-Leibler.** For positive label rows and prediction rows that sum to 1 the cost is non-negative, and 0 exactly at the label.
(A label 0 makes the C++ program compute `0 * log 0`, a NaN; Lean's `log 0 = 0` would hide that, so such labels are excluded.) -/
theorem C31_kullbackleibler {y h : Mat ℝ} (h1 : y.nr = h.nr) (h2 : y.nc = h.nc) (hy : ∀ i < y.nr, ∀ j < y.nc, 0 < y.f i j)
    (hh : ∀ i < h.nr, ∀ j < h.nc, 0 < h.f i j) (sy : ∀ i < y.nr, ∑ j ∈ range y.nc, y.f i j = 1)
    (sh : ∀ i < h.nr, ∑ j ∈ range h.nc, h.f i j = 1) :
    ∃ M, KullbackLeibler.cost y h = .ok M ∧ 0 ≤ sumall M ∧ (sumall M = 0 ↔ h = y) := by
  refine ⟨_, kl_cost h1 h2, ?_⟩
  unfold sumall
  rw [Mat.accu_of]
  have e : ∑ i ∈ range y.nr, ∑ j ∈ range y.nc, y.f i j * Real.log (y.f i j / h.f i j) / (y.nr : ℝ) =
      ∑ i ∈ range y.nr, ∑ j ∈ range y.nc, (y.f i j * Real.log (y.f i j / h.f i j) - (y.f i j - h.f i j)) / (y.nr : ℝ) := by
    refine sum_congr rfl fun i hi => ?_
    have a := sy i (mem_range.1 hi)
    have b := sh i (by rw [← h1]; exact mem_range.1 hi)
    rw [← h2] at b
    rw [← sum_div, ← sum_div, sum_sub_distrib, sum_sub_distrib, a, b]
    simp
  rw [e]
  have hp : ∀ i < y.nr, ∀ j < y.nc, 0 ≤ (y.f i j * Real.log (y.f i j / h.f i j) - (y.f i j - h.f i j)) / (y.nr : ℝ) := fun i hi j hj =>
    div_nonneg (sub_nonneg.2 (kl_term (hy i hi j hj) (hh i (by omega) j (by omega))).1) (Nat.cast_nonneg _)
  refine ⟨sum2_nonneg hp, fun h0 => ?_, fun he => ?_⟩
  · refine Mat.ext' h1.symm h2.symm fun i j hi hj => ?_
    have h3 := sum2_eq_zero hp h0 i (by omega) j (by omega)
    have hn : (y.nr : ℝ) ≠ 0 := by
      have : 0 < y.nr := by omega
      exact_mod_cast this.ne'
    rw [div_eq_zero_iff, or_iff_left hn] at h3
    exact ((kl_term (hy i (by omega) j (by omega)) (hh i hi j hj)).2 (by linarith)).symm
  · subst he
    refine sum_eq_zero fun i hi => sum_eq_zero fun j hj => ?_
    rw [div_self (hy i (mem_range.1 hi) j (mem_range.1 hj)).ne']
    simp

/-! Cases that meet the hypotheses. -/

/-- Two samples with labels (1/4, 3/4) and (1/2, 1/2). -/
def exLabels : Mat ℝ := Mat.of 2 2 (fun i j => if i = 0 then (if j = 0 then 1 / 4 else 3 / 4) else 1 / 2)

/-- Predictions (1/3, 2/3), (1/3, 2/3). -/
def exPred : Mat ℝ := Mat.of 2 2 (fun _ j => if j = 0 then 1 / 3 else 2 / 3)

example : exLabels.nr = exPred.nr ∧ exLabels.nc = exPred.nc ∧ (∀ i < exLabels.nr, ∀ j < exLabels.nc, 0 < exLabels.f i j) ∧
    (∀ i < exPred.nr, ∀ j < exPred.nc, 0 < exPred.f i j) ∧ (∀ i < exLabels.nr, ∑ j ∈ range exLabels.nc, exLabels.f i j = 1) ∧
    (∀ i < exPred.nr, ∑ j ∈ range exPred.nc, exPred.f i j = 1) ∧ exPred ≠ exLabels := by
  refine ⟨rfl, rfl, fun i hi j hj => ?_, fun i hi j hj => ?_, fun i hi => ?_, fun i hi => ?_, fun h => ?_⟩
  · rw [exLabels, Mat.of_f' (by exact hi) (by exact hj)]; split <;> [split; skip] <;> norm_num
  · rw [exPred, Mat.of_f' (by exact hi) (by exact hj)]; split <;> norm_num
  · show ∑ j ∈ range 2, exLabels.f i j = 1
    have hi' : i < 2 := hi
    rw [sum_range_succ, sum_range_succ, sum_range_zero, exLabels, Mat.of_f' hi' (by omega), Mat.of_f' hi' (by omega)]
    split <;> norm_num
  · show ∑ j ∈ range 2, exPred.f i j = 1
    have hi' : i < 2 := hi
    rw [sum_range_succ, sum_range_succ, sum_range_zero, exPred, Mat.of_f' hi' (by omega), Mat.of_f' hi' (by omega)]
    norm_num
  · have := congrArg (fun m => m.f 0 0) h
    rw [exPred, exLabels, Mat.of_f' (by omega) (by omega), Mat.of_f' (by omega) (by omega)] at this
    norm_num at this

end
end Nnet.NN
