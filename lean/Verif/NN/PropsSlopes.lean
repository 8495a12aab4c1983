import Verif.NN.PropsAct
import Mathlib.Analysis.Calculus.MeanValue
/-!
# C86: how steep the activation functions are

`C86_slopes` uses bounds on the slopes; here the least possible ones.
-/
namespace Nnet.NN
open Finset
noncomputable section

/-! ## Specification -/

/-- `f` is nowhere steeper than `K`. -/
def Spec.Slope (f : ℝ → ℝ) (K : ℝ) : Prop := ∀ a b, |f a - f b| ≤ K * |a - b|

/-- The activation functions of the library and how steep they are. -/
def Spec.slopes : List (ActFunc ℝ × ℝ) :=
  [(Act.identity, 1), (Act.sigmoid, 1 / 4), (Act.arctan, 1), (Act.comploglog, Real.exp (-1)), (Act.tanhyperbolic, 1), (Act.bipolarsigmoid, 1 / 2),
   (Act.lecuntanh, 1.7159 * (2 / 3)), (Act.hardtanh, 1), (Act.absolute, 1), (Act.relu, 1), (Act.relucos, 2), (Act.relusin, 2),
   (Act.smoothrelu, 1)]

/-! ## The activation functions -/

theorem slope_of_bound {f f' : ℝ → ℝ} {K : ℝ} (h : ∀ z, HasDerivAt f (f' z) z) (hb : ∀ z, |f' z| ≤ K) : Spec.Slope f K := by
  intro a b
  have := Convex.norm_image_sub_le_of_norm_hasDerivWithin_le (f := f) (f' := f') (s := Set.univ) (C := K) (x := b) (y := a)
    (fun z _ => (h z).hasDerivWithinAt) (fun z _ => by simpa using hb z) convex_univ (Set.mem_univ _) (Set.mem_univ _)
  simpa using this

theorem slope_max0 : Spec.Slope (fun z => max 0 z) 1 := by
  intro a b
  rw [one_mul]
  simpa using abs_max_sub_max_le_max 0 a 0 b

theorem slope_add {f g : ℝ → ℝ} {K L : ℝ} (hf : Spec.Slope f K) (hg : Spec.Slope g L) : Spec.Slope (fun z => f z + g z) (K + L) := by
  intro a b
  have := hf a b
  have := hg a b
  have e : f a + g a - (f b + g b) = (f a - f b) + (g a - g b) := by ring
  show |f a + g a - (f b + g b)| ≤ _
  rw [e]
  refine (abs_add_le _ _).trans ?_
  nlinarith

theorem slope_ge {f : ℝ → ℝ} {K d z : ℝ} (h : Spec.Slope f K) (hd : HasDerivAt f d z) : |d| ≤ K := by
  by_contra hlt
  push Not at hlt
  have ht := (hasDerivAt_iff_tendsto_slope.1 hd).abs
  have hev := ht.eventually (lt_mem_nhds hlt)
  obtain ⟨u, hu, hu2⟩ := (hev.and self_mem_nhdsWithin).exists
  have hne : u - z ≠ 0 := sub_ne_zero.2 hu2
  rw [slope_def_field, abs_div, lt_div_iff₀ (abs_pos.2 hne)] at hu
  exact absurd (h u z) (not_le.2 hu)

/-- Each activation function of the library is nowhere steeper than listed, and no smaller number would do. -/
theorem C86_slopes_least : ∀ c ∈ Spec.slopes, Spec.Slope c.1.act c.2 ∧ ∀ K, Spec.Slope c.1.act K → c.2 ≤ K := by
  intro c hc
  simp only [Spec.slopes, List.mem_cons, List.not_mem_nil, or_false] at hc
  have hsig : ∀ z : ℝ, 0 ≤ Act.sigmoidG z ∧ Act.sigmoidG z ≤ 1 / 4 := by
    intro z
    have hp := Real.exp_pos (-z)
    refine ⟨?_, ?_⟩
    · show 0 ≤ Real.exp (-z) / (1 + Real.exp (-z)) / (1 + Real.exp (-z))
      positivity
    · show Real.exp (-z) / (1 + Real.exp (-z)) / (1 + Real.exp (-z)) ≤ 1 / 4
      generalize Real.exp (-z) = e at *
      rw [div_div, div_le_div_iff₀ (by positivity) (by norm_num)]
      nlinarith [sq_nonneg (e - 1)]
  have htanh : ∀ z : ℝ, |1 - Real.tanh z * Real.tanh z| ≤ 1 := by
    intro z
    have := Act.C26_tanh.1 z
    have h2 : -1 < Real.tanh z ∧ Real.tanh z < 1 := this
    rw [abs_le]
    constructor <;> nlinarith [sq_nonneg (Real.tanh z)]
  rcases hc with rfl | rfl | rfl | rfl | rfl | rfl | rfl | rfl | rfl | rfl | rfl | rfl | rfl
  · refine ⟨slope_of_bound Act.C25_identity fun z => ?_, fun K h => ?_⟩
    · show |(1 : ℝ)| ≤ 1; simp
    · have := slope_ge h (Act.C25_identity 0)
      rw [show Act.identity.actd 0 = 1 from rfl, abs_one] at this
      exact this
  · refine ⟨slope_of_bound Act.C25_sigmoid fun z => ?_, fun K h => ?_⟩
    · rw [show Act.sigmoid.actd z = Act.sigmoidG z from rfl, abs_of_nonneg (hsig z).1]; exact (hsig z).2
    · have := slope_ge h (Act.C25_sigmoid 0)
      rw [show Act.sigmoid.actd 0 = 1 / 4 by
        show Real.exp (-0) / (1 + Real.exp (-0)) / (1 + Real.exp (-0)) = 1 / 4
        rw [neg_zero, Real.exp_zero]; norm_num, abs_of_nonneg (by norm_num)] at this
      exact this
  · refine ⟨slope_of_bound Act.C25_arctan fun z => ?_, fun K h => ?_⟩
    · show |1 / (1 + z * z)| ≤ 1
      have := mul_self_nonneg z
      rw [abs_of_nonneg (by positivity), div_le_one (by positivity)]; linarith
    · have := slope_ge h (Act.C25_arctan 0)
      rw [show Act.arctan.actd 0 = 1 by show (1 : ℝ) / (1 + 0 * 0) = 1; norm_num, abs_one] at this
      exact this
  · refine ⟨slope_of_bound Act.C25_comploglog fun z => ?_, fun K h => ?_⟩
    · show |Real.exp z * Real.exp (-Real.exp z)| ≤ Real.exp (-1)
      rw [abs_of_nonneg (by positivity)]
      have h1 := Real.add_one_le_exp (Real.exp z - 1)
      have h2 : Real.exp (-1) = Real.exp (Real.exp z - 1) * Real.exp (-Real.exp z) := by
        rw [← Real.exp_add]; congr 1; ring
      rw [h2]
      exact mul_le_mul_of_nonneg_right (by linarith) (Real.exp_pos _).le
    · have := slope_ge h (Act.C25_comploglog 0)
      rw [show Act.comploglog.actd 0 = Real.exp (-1) by
        show Real.exp 0 * Real.exp (-Real.exp 0) = _
        rw [Real.exp_zero, one_mul], abs_of_pos (Real.exp_pos _)] at this
      exact this
  · refine ⟨slope_of_bound Act.C25_tanhyperbolic fun z => htanh z, fun K h => ?_⟩
    have := slope_ge h (Act.C25_tanhyperbolic 0)
    rw [show Act.tanhyperbolic.actd 0 = 1 by show 1 - Real.tanh 0 * Real.tanh 0 = 1; simp, abs_one] at this
    exact this
  · have e : ∀ z, Act.bipolarsigmoid.actd z = 2 * Act.sigmoidG z := fun z => by
      show (1 - (2 / (1 + Real.exp (-z)) - 1) * (2 / (1 + Real.exp (-z)) - 1)) / 2 = 2 * (Real.exp (-z) / (1 + Real.exp (-z)) / (1 + Real.exp (-z)))
      have hp := Real.exp_pos (-z)
      generalize Real.exp (-z) = e at *
      field_simp
      ring
    refine ⟨slope_of_bound Act.C25_bipolarsigmoid fun z => ?_, fun K h => ?_⟩
    · rw [e, abs_of_nonneg (by linarith [(hsig z).1])]; linarith [(hsig z).2]
    · have := slope_ge h (Act.C25_bipolarsigmoid 0)
      rw [e, show Act.sigmoidG 0 = 1 / 4 by
        show Real.exp (-0) / (1 + Real.exp (-0)) / (1 + Real.exp (-0)) = 1 / 4
        rw [neg_zero, Real.exp_zero]; norm_num, abs_of_nonneg (by norm_num)] at this
      linarith
  · have hd : ∀ z, HasDerivAt Act.lecuntanh.act (1.7159 * ((1 - Real.tanh (2 / 3 * z) * Real.tanh (2 / 3 * z)) * (2 / 3))) z := fun z => by
      have h1 : HasDerivAt (fun z : ℝ => 2 / 3 * z) (2 / 3) z := by
        simpa using (hasDerivAt_id z).const_mul (2 / 3 : ℝ)
      exact (HasDerivAt.comp z (Act.C25_tanhyperbolic (2 / 3 * z)) h1).const_mul (1.7159 : ℝ)
    refine ⟨slope_of_bound hd fun z => ?_, fun K h => ?_⟩
    · rw [abs_mul, abs_mul, abs_of_pos (show (0 : ℝ) < 1.7159 by norm_num), abs_of_pos (show (0 : ℝ) < 2 / 3 by norm_num)]
      have := htanh (2 / 3 * z)
      nlinarith
    · have := slope_ge h (hd 0)
      rw [mul_zero, Real.tanh_zero, mul_zero, sub_zero, one_mul, abs_of_pos (by norm_num)] at this
      exact this
  · refine ⟨fun a b => ?_, fun K h => ?_⟩
    · show |max (-1) (min 1 a) - max (-1) (min 1 b)| ≤ 1 * |a - b|
      have h1 := abs_max_sub_max_le_max (-1 : ℝ) (min 1 a) (-1) (min 1 b)
      have h2 := abs_min_sub_min_le_max (1 : ℝ) a 1 b
      rw [sub_self, abs_zero, max_eq_right (abs_nonneg (min 1 a - min 1 b))] at h1
      rw [sub_self, abs_zero, max_eq_right (abs_nonneg (a - b))] at h2
      linarith
    · have := slope_ge h (Act.C25_hardtanh 0 (by norm_num) (by norm_num))
      rw [show Act.hardtanh.actd 0 = 1 from if_pos ⟨by norm_num, by norm_num⟩, abs_one] at this
      exact this
  · refine ⟨fun a b => ?_, fun K h => ?_⟩
    · rw [one_mul]; exact abs_abs_sub_abs_le a b
    · have := slope_ge h (Act.C25_absolute 1 (by norm_num))
      rw [show Act.absolute.actd 1 = 1 from if_neg (by norm_num), abs_one] at this
      exact this
  · refine ⟨?_, fun K h => ?_⟩
    · show Spec.Slope Act.reluF 1
      rw [show Act.reluF = fun z => max 0 z from funext Act.reluF_eq]
      exact slope_max0
    · have := slope_ge h (Act.C25_relu 1 (by norm_num))
      rw [show Act.relu.actd 1 = 1 from if_pos (by norm_num), abs_one] at this
      exact this
  · refine ⟨?_, fun K h => ?_⟩
    · have h2 : Spec.Slope Real.cos 1 := slope_of_bound Real.hasDerivAt_cos fun z => by rw [abs_neg]; exact Real.abs_sin_le_one z
      have := slope_add slope_max0 h2
      rw [show (1 : ℝ) + 1 = 2 by norm_num] at this
      exact this
    · have hz : (0 : ℝ) < Real.pi + Real.pi / 2 := by positivity
      have := slope_ge h (Act.C25_relucos (Real.pi + Real.pi / 2) hz.ne')
      rw [show Act.relucos.actd (Real.pi + Real.pi / 2) = 2 by
        show (if Real.pi + Real.pi / 2 ≥ 0 then 1 - Real.sin (Real.pi + Real.pi / 2) else _) = 2
        rw [if_pos hz.le, add_comm, Real.sin_add_pi, Real.sin_pi_div_two]; norm_num, abs_of_pos (by norm_num)] at this
      exact this
  · refine ⟨?_, fun K h => ?_⟩
    · have h2 : Spec.Slope Real.sin 1 := slope_of_bound Real.hasDerivAt_sin fun z => Real.abs_cos_le_one z
      have := slope_add slope_max0 h2
      rw [show (1 : ℝ) + 1 = 2 by norm_num] at this
      exact this
    · have hz : (0 : ℝ) < 2 * Real.pi := by positivity
      have := slope_ge h (Act.C25_relusin (2 * Real.pi) hz.ne')
      rw [show Act.relusin.actd (2 * Real.pi) = 2 by
        show (if 2 * Real.pi ≥ 0 then 1 + Real.cos (2 * Real.pi) else _) = 2
        rw [if_pos hz.le, Real.cos_two_pi]; norm_num, abs_of_pos (by norm_num)] at this
      exact this
  · refine ⟨slope_of_bound Act.C25_smoothrelu fun z => ?_, fun K h => ?_⟩
    · show |Real.exp z / (1 + Real.exp z)| ≤ 1
      have := Real.exp_pos z
      rw [abs_of_nonneg (by positivity), div_le_one (by positivity)]; linarith
    · show (1 : ℝ) ≤ K
      by_contra hlt
      push Not at hlt
      have hs : ∀ z : ℝ, 0 ≤ z → z - Real.log 2 ≤ K * z := fun z hz => by
        have h1 : |Real.log (1 + Real.exp z) - Real.log (1 + Real.exp 0)| ≤ K * |z - 0| := h z 0
        rw [Real.exp_zero, sub_zero, abs_of_nonneg hz] at h1
        have h2 : z ≤ Real.log (1 + Real.exp z) := by
          rw [Real.le_log_iff_exp_le (by positivity)]; linarith
        have h3 := le_abs_self (Real.log (1 + Real.exp z) - Real.log (1 + 1))
        norm_num at h1 h3 ⊢
        linarith
      have hp : 0 < 1 - K := by linarith
      have hl : 0 ≤ Real.log 2 := Real.log_nonneg (by norm_num)
      have h4 := hs ((Real.log 2 + 1) / (1 - K)) (by positivity)
      have h5 : (1 - K) * ((Real.log 2 + 1) / (1 - K)) = Real.log 2 + 1 := by field_simp
      linarith

end
end Nnet.NN
