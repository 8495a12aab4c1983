import Verif.NN.PropsConvBack
import Verif.NN.PropsPool
import Verif.NN.PropsParRace
import Verif.NN.PropsSpecial
/-!
# The hypotheses of further theorems are met (4): convolution, pooling, norm and softmax layers
-/
namespace Nnet.NN
open Finset
noncomputable section
namespace Witness

/-- A layer object of a given geometry, with no image cached. -/
def geoConv (h w pn nf sp st pd : Nat) : Conv :=
  { inputwidth := w, inputheight := h, inputsize := (w * h : Nat), outputwidth := Spec.outLen w sp st pd, outputheight := Spec.outLen h sp st pd,
    outputsize := (Spec.outLen w sp st pd * Spec.outLen h sp st pd : Nat), pnfilter := pn, nfilter := nf, spatial := sp, stride := st, padding := pd, images := [] }

theorem geoConv_geo {h w pn nf sp st pd : Nat} (hh : 0 < h) (hw : 0 < w) (hpn : 0 < pn) (hnf : 0 < nf) (hsp : 0 < sp) (hst : 0 < st)
    (fh : sp ≤ h + 2 * pd) (fw : sp ≤ w + 2 * pd) (bh : h + 2 * pd < 2 ^ 31) (bw : w + 2 * pd < 2 ^ 31) :
    (geoConv h w pn nf sp st pd).Geo h w pn nf sp st pd :=
  ⟨rfl, rfl, rfl, rfl, rfl, rfl, rfl, rfl, rfl, rfl, rfl, hh, hw, hpn, hnf, hsp, hst, fh, fw, bh, bw⟩

/-- 5 x 4 images of 3 channels, two 3 x 3 filters, stride 1, padding 1. -/
theorem geoA : (geoConv 5 4 3 2 3 1 1).Geo 5 4 3 2 3 1 1 := by apply geoConv_geo <;> norm_num
/-- 5 x 4 images of 3 channels, two 2 x 2 filters, stride 2, padding 1. -/
theorem geoB : (geoConv 5 4 3 2 2 2 1).Geo 5 4 3 2 2 2 1 := by apply geoConv_geo <;> norm_num
/-- 4 x 4 images of 1 channel, one 2 x 2 filter, stride 1, no padding. -/
theorem geoC : (geoConv 4 4 1 1 2 1 0).Geo 4 4 1 1 2 1 0 := by apply geoConv_geo <;> norm_num
/-- 4 x 6 images of 3 channels, 2 x 2 windows, stride 2: pooling. -/
theorem geoP : (geoConv 4 6 3 3 2 2 0).Geo 4 6 3 3 2 2 0 := by apply geoConv_geo <;> norm_num

def wide (r c : Nat) : Mat ℝ := Mat.of r c (fun i j => 10 * (i : ℝ) + j)

def kernels : Layer := exLayer Act.sigmoid (Mat.of 9 6 (fun i j => (i : ℝ) - j))
def kernels2 : Layer := exLayer Act.sigmoid (Mat.of 6 4 (fun i j => (i : ℝ) - j))
def kernel22 : Layer := exLayer Act.sigmoid (Mat.of 2 2 (fun i j => (i : ℝ) - j))

/-! ## C47, C48, C50 -/

example (junk : Nat → Nat → ℝ) := C47_forward_partial junk (L := kernels) geoA (x := wide 1 60) rfl (by show 60 ≤ 60; omega) rfl rfl
example (junk : Nat → Nat → ℝ) := C47_layout junk (L := exLayer Act.identity (Mat.of 1 1 (fun _ _ => 1))) (c := geoConv 3 4 1 1 1 1 0) (h := 3) (w := 4)
  (by apply geoConv_geo <;> norm_num) rfl rfl (by rw [show (exLayer Act.identity (Mat.of 1 1 (fun _ _ => (1 : ℝ)))).W = Mat.of 1 1 (fun _ _ => 1) from rfl]; simp [Mat.of_f]) rfl
  (x := wide 1 12) rfl (by show 12 ≤ 12; omega)
example (junk : Nat → Nat → ℝ) := C47_stride junk (L := kernels2) geoB (x := wide 3 60) (by show 0 < 3; omega) (by show 60 ≤ 60; omega) rfl rfl (by omega) (by decide)
example (junk : Nat → Nat → ℝ) := C47_exact junk (L := kernels2) geoB (x := wide 3 60) (by show 0 < 3; omega) (by show 60 ≤ 60; omega) rfl rfl rfl rfl
example := C47_refuted (L := exLayer Act.identity (Mat.of 6 4 (fun _ _ => 0))) geoB rfl rfl (by omega) (by decide)
  (by intro i j; show (Mat.of 6 4 (fun _ _ => (0 : ℝ))).f i j = 0; simp [Mat.of_f]) rfl (x := wide 1 60) rfl (by show 60 ≤ 60; omega)
example (junk : Nat → Nat → ℝ) := C48_conv junk (L := kernels) geoA (x := wide 3 60) (by show 0 < 3; omega) rfl rfl rfl
example (junk : Nat → Nat → ℝ) := C48_maxpool junk (L := exLayer Act.identity .empty) geoP (x := wide 3 72) (by show 0 < 3; omega) (by show 72 ≤ 72; omega)
example (junk : Nat → Nat → ℝ) := C48_meanpool junk (L := exLayer Act.identity .empty) geoP (x := wide 3 72) (by show 0 < 3; omega) (by show 72 ≤ 72; omega)
example := C48_single_partial (x := wide 1 60) rfl 20
example (dist : Draws) (junk : Nat → Nat → ℝ) := C50_copy_weights dist junk (geoConv 1 1 1 1 1 1 0) (L := kernels) geoA

/-- The 1 x 1 identity layer gives different outputs for the samples `1` and `2` taken alone, so it does not treat the rows of a batch independently. -/
example (junk : Nat → Nat → ℝ) : ¬ Spec.RowsIndependent (fun x => do
    let s ← Conv.forwardprop junk (exLayer Act.identity (Mat.of 1 1 (fun _ _ => 1))) (geoConv 1 1 1 1 1 1 0) x; .ok s.1) := by
  have G : (geoConv 1 1 1 1 1 1 0).Geo 1 1 1 1 1 1 0 := by apply geoConv_geo <;> norm_num
  have hW : (exLayer Act.identity (Mat.of 1 1 (fun _ _ => (1 : ℝ)))).W.f 0 0 = 1 := by
    rw [show (exLayer Act.identity (Mat.of 1 1 (fun _ _ => (1 : ℝ)))).W = Mat.of 1 1 (fun _ _ => 1) from rfl]; simp [Mat.of_f]
  let x : Mat ℝ := Mat.of 2 1 (fun i _ => (i : ℝ))
  have key : ∀ r : Nat, r < 2 → ∃ s, Conv.forwardprop junk (exLayer Act.identity (Mat.of 1 1 (fun _ _ => (1 : ℝ)))) (geoConv 1 1 1 1 1 1 0) (Mat.of 1 1 (fun _ n => x.f r n)) = .ok s ∧ s.1.f 0 0 = r := by
    intro r hr
    obtain ⟨y, L', c', e, -, hv⟩ := C47_layout junk G rfl rfl hW rfl (x := Mat.of 1 1 (fun _ n => x.f r n)) rfl (by show 1 ≤ 1; omega)
    refine ⟨_, e, ?_⟩
    have := hv 0 0 (by omega) (by omega)
    simp only [Nat.zero_mul, Nat.add_zero] at this
    rw [this, Mat.of_f' (by omega) (by omega), Mat.of_f' hr (by omega)]
  obtain ⟨s0, e0, v0⟩ := key 0 (by omega)
  obtain ⟨s1, e1, v1⟩ := key 1 (by omega)
  exact C48_conv_fails junk G (x := x) rfl rfl rfl (r0 := 0) (r1 := 1) (n := 0) (by show 0 < 2; omega) (by show 1 < 2; omega) e0 e1 (by rw [v0, v1]; norm_num)

/-! ## C49 -/

example (junk : Nat → Nat → ℝ) := C49_after_forward junk (L := kernels) geoA rfl (x := wide 3 60) (del := wide 3 40) (by show 0 < 3; omega) rfl (by show 60 ≤ 60; omega) rfl rfl rfl rfl
  (by show 40 ≤ 40; omega)
example (junk : Nat → Nat → ℝ) := C49_exact junk (L := kernels) (c := { geoConv 5 4 3 2 3 1 1 with images := (List.range 3).map (fun _ => wide 7 6) }) (pd := 1)
  ⟨rfl, rfl, rfl, rfl, rfl, rfl, rfl, rfl, rfl, rfl, rfl, by norm_num, by norm_num, by norm_num, by norm_num, by norm_num, by norm_num, by norm_num, by norm_num, by norm_num, by norm_num⟩
  rfl (del := wide 3 40) (I := fun _ => wide 7 6) (fun _ _ => ⟨rfl, rfl⟩) rfl rfl rfl rfl rfl (by show 40 ≤ 40; omega)
example (junk : Nat → Nat → ℝ) := C49_ignores_delta junk (exLayer Act.identity (Mat.of 9 6 (fun i j => (i : ℝ) - j))) (geoConv 5 4 3 2 3 1 1) 1 (fun _ => rfl) (wide 3 40) (Mat.of 3 40 (fun _ _ => 7)) rfl rfl
example (junk : Nat → Nat → ℝ) := C49_throws junk (L := kernel22) (c := { geoConv 4 4 1 1 2 1 0 with images := (List.range 3).map (fun _ => wide 4 4) }) (pd := 0)
  ⟨rfl, rfl, rfl, rfl, rfl, rfl, rfl, rfl, rfl, rfl, rfl, by norm_num, by norm_num, by norm_num, by norm_num, by norm_num, by norm_num, by norm_num, by norm_num, by norm_num, by norm_num⟩
  (by norm_num) ⟨by norm_num, by norm_num⟩ ⟨by norm_num, by norm_num⟩ (del := wide 3 9) (by show 0 < 3; omega) (I := fun _ => wide 4 4) (fun _ _ => ⟨rfl, rfl⟩) rfl rfl rfl rfl rfl
  (by show 1 * (Spec.outLen 4 2 1 0 * Spec.outLen 4 2 1 0) ≤ 9; decide)

/-! ## C51, C52, C58 -/

example (junk : Nat → Nat → ℝ) := C51_exact junk (L := exLayer Act.identity .empty) geoP rfl (x := wide 3 72) (by show 0 < 3; omega) (by show 72 ≤ 72; omega) rfl rfl
example (junk : Nat → Nat → ℝ) := C51_maxpool_partial junk (L := exLayer Act.identity .empty) geoC rfl (x := wide 1 16) rfl (by show 16 ≤ 16; omega)
  (by intro n; show 0 ≤ (Mat.of 1 16 (fun i j => 10 * (i : ℝ) + j)).f 0 n; rw [Mat.of_f]; split <;> positivity)
example (junk : Nat → Nat → ℝ) := C51_backward junk (L := exLayer Act.identity .empty) (ix := .empty) (x := wide 3 72) geoP (by omega) (by show 0 < 3; omega) rfl
example (junk : Nat → Nat → ℝ) := C52_exact junk (L := exLayer Act.identity .empty) geoP rfl (x := wide 3 72) (by show 0 < 3; omega) (by show 72 ≤ 72; omega) rfl rfl
example (junk : Nat → Nat → ℝ) := C52_meanpool_partial junk (L := exLayer Act.identity .empty) geoC rfl (x := wide 1 16) rfl (by show 16 ≤ 16; omega)
example (σ : Nat → Nat → Nat → Nat) (junk : Nat → Nat → ℝ) := C58_maxpool_few σ junk (exLayer Act.identity .empty) (c := geoConv 4 6 3 3 2 2 0) (wide 3 72) (by show (3 : Int) < 16; omega)
/-- Sixteen channels of 2 x 2 images: the parallel loop races. -/
example (σ : Nat → Nat → Nat → Nat) (junk : Nat → Nat → ℝ) : MaxPool.forwardpropPar σ junk (exLayer Act.identity .empty) (geoConv 2 2 16 16 2 1 0) (wide 3 64) = .error (.ub .dataRace) := by
  obtain ⟨y, L', c', idx, e, -⟩ := C48_maxpool junk (L := exLayer Act.identity .empty) (c := geoConv 2 2 16 16 2 1 0) (h := 2) (w := 2) (nf := 16) (sp := 2) (st := 1)
    (by apply geoConv_geo <;> norm_num) (x := wide 3 64) (by show 0 < 3; omega) (by show 64 ≤ 64; omega)
  exact C58_maxpool_race σ e (by show (16 : Int) ≤ 16; omega) (by show (1 : Int) ≤ 16; omega) (by show 1 ≤ 3; omega)

/-! ## C45, C46 -/

/-- The largest and the smallest entry of a 2 x 3 matrix. -/
theorem wide_extremes : Spec.Extremes (wide 2 3) 12 0 := by
  have hw : ∀ i j, i < 2 → j < 3 → (wide 2 3).f i j = 10 * (i : ℝ) + j := fun i j hi hj => Mat.of_f' hi hj
  refine ⟨?_, ⟨1, 2, by show 1 < 2; omega, by show 2 < 3; omega, ?_⟩, ⟨0, 0, by show 0 < 2; omega, by show 0 < 3; omega, ?_⟩⟩
  · intro i j (hi : i < 2) (hj : j < 3)
    rw [hw i j hi hj]
    have h1 : (i : ℝ) ≤ 1 := by exact_mod_cast Nat.lt_succ_iff.1 hi
    have h2 : (j : ℝ) ≤ 2 := by exact_mod_cast Nat.lt_succ_iff.1 hj
    constructor
    · linarith
    · positivity
  · rw [hw 1 2 (by omega) (by omega)]; norm_num
  · rw [hw 0 0 (by omega) (by omega)]; norm_num
example := C45_span wide_extremes (by norm_num)
example (junk : Nat → Nat → ℝ) (d : Mat ℝ) : ∃ rs h2, (HLayer.mk Layer.default (.norm 7)).calls junk ([.backward d] ++ (.forward (wide 2 3) :: [wide 4 4].map .forward ++ [.backward (wide 2 3)])) =
    .ok (rs, h2) ∧ rs.getLast? = some (Spec.scaled (wide 2 3) (12 - 0)) := by
  obtain ⟨h2, e, -⟩ := C45_history (junk := junk) (L := Layer.default) (v0 := 7) (pre := []) (d0 := d) (d := wide 2 3) rfl wide_extremes (by norm_num) (xs := [wide 4 4])
    (by intro y hy; rw [List.mem_singleton.1 hy]; exact ⟨by show 0 < 4; omega, by show 0 < 4; omega⟩)
  exact ⟨_, h2, e, by simp⟩

/-- The Jacobian that `C46_backward_refuted` compares with exists for all inputs and deltas of the same size. -/
theorem softmax_jacobian_exists (x delta : Mat ℝ) : ∃ D, Spec.SoftmaxJacobian x delta D := by
  refine ⟨Mat.of x.nr x.nc (fun i j => deriv (fun t => ∑ k ∈ range x.nc, delta.f i k * (Spec.softmaxRows (x.put i j t)).f i k) (x.f i j)), rfl, rfl, fun i j hi hj => ?_⟩
  rw [Mat.of_f' hi hj]
  apply DifferentiableAt.hasDerivAt
  have hput : ∀ k, k < x.nc → Differentiable ℝ (fun t => (x.put i j t).f i k) := by
    intro k hkc
    by_cases hk : k = j
    · subst hk
      have : (fun t => (x.put i k t).f i k) = fun t => t := by funext t; unfold Mat.put; rw [Mat.of_f' hi hkc]; simp
      rw [this]; exact differentiable_id
    · have : (fun t => (x.put i j t).f i k) = fun _ => x.f i k := by funext t; unfold Mat.put; rw [Mat.of_f' hi hkc]; simp [hk]
      rw [this]; exact differentiable_const _
  have hs : ∀ k ∈ range x.nc, DifferentiableAt ℝ (fun t => delta.f i k * (Spec.softmaxRows (x.put i j t)).f i k) (x.f i j) := by
    intro k hk
    have hk := mem_range.1 hk
    have e : (fun t => delta.f i k * (Spec.softmaxRows (x.put i j t)).f i k) =
        fun t => delta.f i k * (Real.exp ((x.put i j t).f i k) / ∑ k ∈ range x.nc, Real.exp ((x.put i j t).f i k)) := by
      funext t
      unfold Spec.softmaxRows
      rw [Mat.of_f' (by exact hi) (by exact hk)]
      rfl
    rw [e]
    refine DifferentiableAt.const_mul (DifferentiableAt.div ?_ ?_ ?_) _
    · exact ((hput k hk).exp) _
    · exact DifferentiableAt.fun_sum (fun k' hk' => (hput k' (mem_range.1 hk')).exp _)
    · exact ne_of_gt (Finset.sum_pos (fun _ _ => Real.exp_pos _) ⟨k, mem_range.2 hk⟩)
  exact DifferentiableAt.fun_sum hs

example (junk : Nat → Nat → ℝ) (L : Layer) (p : Mat ℝ) : ∃ D, Spec.SoftmaxJacobian (wide 2 3) (wide 2 3) D ∧ ∃ r h, (HLayer.mk L (.softmax p)).backprop junk (wide 2 3) = .ok (r, h) ∧ r ≠ D := by
  obtain ⟨D, hD⟩ := softmax_jacobian_exists (wide 2 3) (wide 2 3)
  obtain ⟨r, h, e, -, hne⟩ := C46_backward_refuted junk L p (wide 2 3) (wide 2 3) D (by show 0 < 2; omega) (by show 0 < 3; omega) rfl rfl hD
  exact ⟨D, hD, r, h, e, hne⟩

end Witness
end
end Nnet.NN
