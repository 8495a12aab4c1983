import Verif.NN.PropsRound
import Verif.NN.PropsAct
import Mathlib.Analysis.Calculus.MeanValue
import Mathlib.Analysis.Real.Pi.Bounds
/-!
# Rounding errors of the activation functions and cost derivatives

Which activation functions and cost derivatives of the library meet the hypotheses `Computes` and `ComputesCost` of C77 and C78, on every platform whose C library is accurate to `δ`.
-/
namespace Nnet.NN.Flt
namespace Spec
open FV B64
noncomputable section

/-- The functions of the C library are accurate to `δ`: absolutely for `tanh` and `atan`, relative to `1 + exp(x)` for `exp`, which overflows only for results that are too large. -/
structure Libm (P : Platform) (δ : ℝ) : Prop where
  small : 0 ≤ δ ∧ δ ≤ 1
  tanh : ∀ a q, IsDouble (fin a) → P.tanh (fin a) = fin q → |q - Real.tanh a| ≤ δ
  atan : ∀ a q, IsDouble (fin a) → P.atan (fin a) = fin q → |q - Real.arctan a| ≤ δ
  exp : ∀ a q, IsDouble (fin a) → P.exp (fin a) = fin q → |q - Real.exp a| ≤ δ * (1 + Real.exp a)
  exp_inf : ∀ a, IsDouble (fin a) → P.exp (fin a) = pinf → large ≤ Real.exp a

/-- Always. -/
def always (_ : Est) : Prop := True
/-- Estimate of the number 1. -/
def unit : Est := ⟨1, 0⟩
/-- Estimate of `hardtanh`. -/
def estHard (e : Est) : Est := ⟨1, e.E⟩
/-- Estimate of `tanh`. -/
def estTanh (δ : ℝ) (e : Est) : Est := ⟨1, e.E + δ⟩
/-- Estimate of its derivative `1 - t * t`. -/
def estTanhG (δ : ℝ) (e : Est) : Est := unit.add ((estTanh δ e).mul (estTanh δ e))
/-- Estimate of `atan`. -/
def estAtan (δ : ℝ) (e : Est) : Est := ⟨2, e.E + δ⟩
/-- Estimate of its derivative `1 / (1 + z * z)`. -/
def estAtanG (e : Est) : Est := ⟨1, (unit.add (e.mul e)).E + u + tiny⟩
/-- Estimate of the sigmoid function. -/
def estSigmoid (δ : ℝ) (e : Est) : Est := ⟨1, e.E / 4 + (δ + 2 * u + tiny)⟩
/-- Estimate of its derivative. -/
def estSigmoidG (δ : ℝ) (e : Est) : Est := ⟨1, e.E / 4 + (2 * δ + 4 * u + 2 * tiny)⟩
/-- Estimate of `(a - y) / rows`. -/
def estDiff (y a : Est) : Est := (a.add y).divn

end
end Spec
open FV B64 Spec
noncomputable section
variable {P : Platform}

/-! ## Piecewise linear functions -/

theorem computes_identity : Computes (P := P) always id Act.identityF Act.identityF := fun _ _ _ _ h => h
theorem computes_identityG : Computes (P := P) always (fun _ => unit) Act.identityG Act.identityG := fun _ _ _ _ _ => ⟨1, rfl, by simp [unit], by simp [unit, Act.identityG], by simp [unit, Act.identityG]⟩

theorem computes_relu : Computes (P := P) always id Act.reluF Act.reluF := by
  rintro e x r _ ⟨q, hq, h1, h2, h3⟩
  have hx : (Act.reluF x).v = fin (max 0 q) := by
    unfold Act.reluF
    by_cases h : 0 ≤ q
    · have : Arith.le (0 : Double P) x = true := (Ieee.le_iff (0 : Double P) x).2 (by show Le (fin 0) x.v; rw [hq]; exact h)
      rw [if_pos this, hq, max_eq_right h]
    · have : ¬ Arith.le (0 : Double P) x = true := fun hc => h (by
        have : Le (fin 0) x.v := (Ieee.le_iff (0 : Double P) x).1 hc
        rw [hq] at this
        exact this)
      rw [if_neg this, max_eq_left (not_le.1 h).le]
      rfl
  have hr : (Act.reluF r : ℝ) = max 0 r := by
    show (if decide (0 ≤ r) = true then r else 0) = _
    by_cases h : 0 ≤ r
    · rw [if_pos (decide_eq_true h), max_eq_right h]
    · rw [if_neg (by simpa using h), max_eq_left (not_le.1 h).le]
  refine ⟨_, hx, ?_, ?_, ?_⟩
  · exact (abs_max_le_max_abs_abs).trans (max_le (by simpa using (abs_nonneg q).trans h1) h1)
  · rw [hr]; exact (abs_max_le_max_abs_abs).trans (max_le (by simpa using (abs_nonneg q).trans h1) h2)
  · rw [hr]
    refine (abs_max_sub_max_le_max _ _ _ _).trans ?_
    exact max_le (by rw [sub_self, abs_zero]; exact (abs_nonneg _).trans h3) h3

theorem computes_absolute : Computes (P := P) always id Act.absoluteF Act.absoluteF := by
  rintro e x r _ ⟨q, hq, h1, h2, h3⟩
  refine ⟨|q|, ?_, by simpa using h1, ?_, ?_⟩
  · show x.v.abs = _
    rw [hq]; rfl
  · show |(|r|)| ≤ _
    simpa using h2
  · exact (abs_abs_sub_abs_le _ _).trans h3

theorem computes_hardtanh : Computes (P := P) always estHard Act.hardtanhF Act.hardtanhF := by
  rintro e x r _ ⟨q, hq, h1, h2, h3⟩
  have hx : (Act.hardtanhF x).v = fin (max (-1) (min 1 q)) := by
    show FV.max (rnd ((-1 : ℚ) : ℝ)) (FV.min (fin 1) x.v) = _
    rw [hq]
    have h1 : rnd ((-1 : ℚ) : ℝ) = fin (-1) := by push_cast; exact rnd_neg_one
    have h2 : FV.min (fin 1) (fin q) = fin (min 1 q) := by
      unfold FV.min
      rw [if_neg (by simp), if_neg (by simp)]
      by_cases h : (1 : ℝ) ≤ q
      · rw [if_pos (by exact h), min_eq_left h]
      · rw [if_neg (by exact h), min_eq_right (not_le.1 h).le]
    rw [h1, h2]
    unfold FV.max
    rw [if_neg (by simp), if_neg (by simp)]
    by_cases h : (-1 : ℝ) ≤ min 1 q
    · rw [if_pos (by exact h), max_eq_right h]
    · rw [if_neg (by exact h), max_eq_left (not_le.1 h).le]
  have hr : (Act.hardtanhF r : ℝ) = max (-1) (min 1 r) := by
    show max (((-1 : ℚ) : ℝ)) (min 1 r) = _
    push_cast; rfl
  have hb : ∀ t : ℝ, |max (-1) (min 1 t)| ≤ 1 := fun t => abs_le.2 ⟨le_max_left _ _, max_le (by norm_num) (min_le_left _ _)⟩
  refine ⟨_, hx, hb _, by rw [hr]; exact hb _, ?_⟩
  rw [hr]
  refine (abs_max_sub_max_le_max _ _ _ _).trans (max_le (by rw [sub_self, abs_zero]; exact (abs_nonneg _).trans h3) ((abs_min_sub_min_le_max _ _ _ _).trans (max_le (by rw [sub_self, abs_zero]; exact (abs_nonneg _).trans h3) h3)))

/-! ## Smooth functions -/

theorem lip {f f' : ℝ → ℝ} {C : ℝ} (hd : ∀ x, HasDerivAt f (f' x) x) (hb : ∀ x, |f' x| ≤ C) (a b : ℝ) : |f a - f b| ≤ C * |a - b| :=
  Convex.norm_image_sub_le_of_norm_hasDerivWithin_le (s := Set.univ) (fun x _ => (hd x).hasDerivWithinAt) (fun x _ => hb x) convex_univ (Set.mem_univ b) (Set.mem_univ a)

theorem tanh_lip (a b : ℝ) : |Real.tanh a - Real.tanh b| ≤ |a - b| := by
  have := lip (f := Real.tanh) (f' := fun z => 1 - Real.tanh z * Real.tanh z) (C := 1) (fun z => (NN.Act.C25_tanhyperbolic z : HasDerivAt Real.tanh (1 - Real.tanh z * Real.tanh z) z)) (fun z => by
    have h1 := Real.tanh_lt_one z
    have h2 := Real.neg_one_lt_tanh z
    rw [abs_le]
    constructor <;> nlinarith) a b
  simpa using this

theorem computes_tanh {δ : ℝ} (hP : Libm P δ) : Computes (P := P) always (estTanh δ) Act.tanhF Act.tanhF := by
  rintro e x r _ ⟨q, hq, h1, h2, h3⟩
  obtain ⟨t, ht, t1, t2⟩ : IsTanh (fin q) (P.tanh (fin q)) := P.isTanh (fin q) (double_of hq)
  refine ⟨t, ?_, abs_le.2 ⟨t1, t2⟩, abs_le.2 ⟨(Real.neg_one_lt_tanh r).le, (Real.tanh_lt_one r).le⟩, ?_⟩
  · show P.tanh x.v = _
    rw [hq, ht]
  · have a1 := hP.tanh q t (double_of hq) ht
    have a2 := tanh_lip q r
    have a3 := abs_add_le (t - Real.tanh q) (Real.tanh q - Real.tanh r)
    rw [sub_add_sub_cancel] at a3
    show |t - Real.tanh r| ≤ e.E + δ
    linarith

theorem large_ge : (2 : ℝ) ^ (10 : ℕ) ≤ large := by unfold large; exact pow_le_pow_right₀ (by norm_num) (by norm_num)

theorem app_unit : App unit (1 : Double P) 1 := ⟨1, rfl, by simp [unit], by simp [unit], by simp [unit]⟩

theorem computes_tanhG {δ : ℝ} (hP : Libm P δ) : Computes (P := P) always (estTanhG δ) Act.tanhG Act.tanhG := by
  intro e x r ho h
  have ht := computes_tanh hP e x r ho h
  have hl := large_ge
  exact app_sub app_unit (app_mul ht ht (by simp only [estTanh]; linarith)) (by simp only [unit, Est.mul, estTanh]; linarith)

theorem atan_lip (a b : ℝ) : |Real.arctan a - Real.arctan b| ≤ |a - b| := by
  have := lip (f := Real.arctan) (C := 1) (fun z => Real.hasDerivAt_arctan z) (fun z => by
    rw [abs_of_pos (by positivity), div_le_one (by positivity)]
    nlinarith [sq_nonneg z]) a b
  simpa using this

theorem computes_arctan {δ : ℝ} (hP : Libm P δ) : Computes (P := P) always (estAtan δ) Act.arctanF Act.arctanF := by
  rintro e x r _ ⟨q, hq, h1, h2, h3⟩
  obtain ⟨t, ht, t1, t2⟩ : IsAtan (fin q) (P.atan (fin q)) := P.isAtan (fin q) (double_of hq)
  have hpi := Real.pi_le_four
  refine ⟨t, ?_, abs_le.2 ⟨t1, t2⟩, abs_le.2 ⟨?_, ?_⟩, ?_⟩
  · show P.atan x.v = _
    rw [hq, ht]
  · show -2 ≤ Real.arctan r
    have := Real.neg_pi_div_two_lt_arctan r; linarith
  · show Real.arctan r ≤ 2
    have := Real.arctan_lt_pi_div_two r; linarith
  · have a1 := hP.atan q t (double_of hq) ht
    have a2 := atan_lip q r
    have a3 := abs_add_le (t - Real.arctan q) (Real.arctan q - Real.arctan r)
    rw [sub_add_sub_cancel] at a3
    show |t - Real.arctan r| ≤ e.E + δ
    linarith

theorem r64_one' : r64 1 = 1 := by simpa using r64_int (n := 1) (by norm_num)

/-- `1 / s` for a number `s` from 1 on. -/
theorem inv_double {x : Double P} {s : ℝ} (h : x.v = fin s) (h1 : 1 ≤ s) : ((1 : Double P) / x).v = fin (r64 (1 / s)) ∧ |r64 (1 / s) - 1 / s| ≤ u + tiny ∧ 0 ≤ r64 (1 / s) ∧ r64 (1 / s) ≤ 1 := by
  have h0 : 0 ≤ 1 / s := by positivity
  have h2 : 1 / s ≤ 1 := by rw [div_le_one (by linarith)]; exact h1
  have hl := large_ge
  refine ⟨?_, ?_, r64_nonneg h0, ?_⟩
  · have := div_fin (F := Double P) (x := 1) (y := x) (a := 1) rfl h (by linarith)
    refine this.trans (rnd_of_le ?_)
    rw [abs_of_nonneg h0]
    linarith
  · refine (r64_near _).trans ?_
    rw [abs_of_nonneg h0]
    have := u_pos
    nlinarith
  · have := r64_mono h2
    rwa [r64_one'] at this

theorem computes_arctanG : Computes (P := P) (fun e => 1 + 2 * (e.B * e.B) ≤ large) estAtanG Act.arctanG Act.arctanG := by
  intro e x r ho h
  have hl := large_ge
  have hB := h.B_nonneg
  have hm := app_mul h h (by nlinarith)
  have ha := app_add app_unit hm (by simp only [unit, Est.mul]; exact ho)
  obtain ⟨q, hq, _, _, _⟩ := h
  obtain ⟨m, hm', _⟩ := hm
  obtain ⟨s, hs, _, _, s3⟩ := ha
  have hm0 : 0 ≤ m := by
    have : (x * x).v = rnd (q * q) := by show FV.mul rnd x.v x.v = _; rw [hq]; rfl
    rw [this] at hm'
    rw [(rnd_eq hm').1]
    exact r64_nonneg (mul_self_nonneg q)
  have hs1 : 1 ≤ s := by
    have : (1 + x * x).v = rnd (1 + m) := by show FV.add rnd (fin 1) (x * x).v = _; rw [hm']; rfl
    rw [this] at hs
    rw [(rnd_eq hs).1]
    have := r64_mono (show (1 : ℝ) ≤ 1 + m by linarith)
    rwa [r64_one'] at this
  obtain ⟨h1, h2, h3, h4⟩ := inv_double hs hs1
  have hr : (1 : ℝ) ≤ 1 + r * r := by nlinarith [mul_self_nonneg r]
  refine ⟨_, h1, by simp only [estAtanG]; rw [abs_of_nonneg h3]; exact h4, ?_, ?_⟩
  · show |1 / (1 + r * r)| ≤ 1
    rw [abs_of_nonneg (by positivity), div_le_one (by linarith)]
    exact hr
  · show |r64 (1 / s) - 1 / (1 + r * r)| ≤ (unit.add (e.mul e)).E + u + tiny
    have h5 : |1 / s - 1 / (1 + r * r)| ≤ (unit.add (e.mul e)).E := by
      refine le_trans ?_ s3
      rw [div_sub_div _ _ (by linarith) (by linarith), abs_div, abs_of_pos (show 0 < s * (1 + r * r) by positivity)]
      rw [div_le_iff₀ (by positivity)]
      rw [show 1 * (1 + r * r) - s * 1 = -(s - (1 + r * r)) by ring, abs_neg]
      have : 1 ≤ s * (1 + r * r) := by nlinarith
      nlinarith [abs_nonneg (s - (1 + r * r))]
    have h6 := abs_add_le (r64 (1 / s) - 1 / s) (1 / s - 1 / (1 + r * r))
    rw [sub_add_sub_cancel] at h6
    linarith

/-! ## The sigmoid function -/

/-- The exact sigmoid function. -/
def sig (z : ℝ) : ℝ := 1 / (1 + Real.exp (-z))

theorem sig_pos (z : ℝ) : 0 < sig z := by unfold sig; positivity
theorem sig_le (z : ℝ) : sig z ≤ 1 := by
  unfold sig
  rw [div_le_one (by positivity)]
  linarith [Real.exp_pos (-z)]

theorem sig_lip (a b : ℝ) : |sig a - sig b| ≤ 1 / 4 * |a - b| :=
  lip (f := sig) NN.Act.hasDerivAt_sigmoid (fun z => by
    have := Real.exp_pos (-z)
    rw [abs_of_pos (by positivity), div_div, div_le_iff₀ (by positivity)]
    nlinarith [sq_nonneg (1 - Real.exp (-z))]) a b

theorem sigG_eq (z : ℝ) : Real.exp (-z) / (1 + Real.exp (-z)) / (1 + Real.exp (-z)) = sig z - sig z * sig z := by
  unfold sig
  have := Real.exp_pos (-z)
  field_simp
  ring

theorem sigG_lip (a b : ℝ) : |(sig a - sig a * sig a) - (sig b - sig b * sig b)| ≤ 1 / 4 * |a - b| := by
  have h := sig_lip a b
  have e : (sig a - sig a * sig a) - (sig b - sig b * sig b) = (sig a - sig b) * (1 - sig a - sig b) := by ring
  rw [e, abs_mul]
  have h1 : |1 - sig a - sig b| ≤ 1 := by
    have := sig_pos a; have := sig_pos b; have := sig_le a; have := sig_le b
    rw [abs_le]; constructor <;> linarith
  have := mul_le_mul h h1 (abs_nonneg _) (by positivity)
  linarith

/-- How far `1 / s` is from the exact sigmoid, if `s` is `1 + e` up to rounding and `e` is accurate to `δ`. -/
theorem sig_near {δ e s x : ℝ} (hx : 0 < x) (he : 0 ≤ e) (hδ : |e - x| ≤ δ * (1 + x)) (hs : 1 ≤ s) (hu : |s - (1 + e)| ≤ u * (1 + e)) : |1 / s - 1 / (1 + x)| ≤ δ + u := by
  have hup := u_pos
  have h1 : |1 / s - 1 / (1 + e)| ≤ u := by
    rw [div_sub_div _ _ (by linarith) (by linarith), abs_div, abs_of_pos (show 0 < s * (1 + e) by positivity), div_le_iff₀ (by positivity),
      show 1 * (1 + e) - s * 1 = -(s - (1 + e)) by ring, abs_neg]
    have : u * (1 + e) ≤ u * (s * (1 + e)) := mul_le_mul_of_nonneg_left (by nlinarith) hup.le
    linarith
  have h2 : |1 / (1 + e) - 1 / (1 + x)| ≤ δ := by
    rw [div_sub_div _ _ (by linarith) (by linarith), abs_div, abs_of_pos (show 0 < (1 + e) * (1 + x) by positivity), div_le_iff₀ (by positivity),
      show 1 * (1 + x) - (1 + e) * 1 = -(e - x) by ring, abs_neg]
    have : 0 ≤ δ := by
      by_contra hc
      have := abs_nonneg (e - x)
      nlinarith
    nlinarith [mul_nonneg this (mul_nonneg he hx.le), mul_nonneg this he]
  have := abs_add_le (1 / s - 1 / (1 + e)) (1 / (1 + e) - 1 / (1 + x))
  rw [sub_add_sub_cancel] at this
  linarith

theorem two_large : 2 / large ≤ u := by
  rw [div_le_iff₀ (by have := large_ge; linarith)]
  unfold large u
  rw [show (1023 : ℕ) = 53 + 970 by norm_num, pow_add]
  have : (2 : ℝ) ≤ 2 ^ 970 := by
    calc (2 : ℝ) = 2 ^ 1 := by norm_num
      _ ≤ 2 ^ 970 := pow_le_pow_right₀ (by norm_num) (by norm_num)
  have h : (1 : ℝ) / 2 ^ 53 * (2 ^ 53 * 2 ^ 970) = 2 ^ 970 := by
    rw [← mul_assoc, div_mul_cancel₀ _ (by positivity), one_mul]
  rw [h]
  exact this

theorem large_of_inf {x : ℝ} (h : rnd x = pinf) : large < x := by
  by_contra hc
  rcases le_or_gt (-large) x with h1 | h1
  · have := rnd_of_le (x := x) (abs_le.2 ⟨h1, not_lt.1 hc⟩)
    rw [h] at this
    cases this
  · have h2 := rnd_mono x 0 (by have := large_ge; linarith)
    rw [h, rnd_zero] at h2
    exact h2

/-- `1 + exp(-z)` is infinite, and the sigmoid tiny, or a number close to the exact one. -/
theorem denom_near {δ : ℝ} (hP : Libm P δ) {x : Double P} {q : ℝ} (hq : x.v = fin q) :
    ((1 + Arith.exp (-x)).v = pinf ∧ sig q ≤ u) ∨
    ∃ e s, (Arith.exp (-x)).v = fin e ∧ (1 + Arith.exp (-x)).v = fin s ∧ 0 ≤ e ∧ e ≤ s ∧ 1 ≤ s ∧ |e - Real.exp (-q)| ≤ δ * (1 + Real.exp (-q)) ∧ |s - (1 + e)| ≤ u * (1 + e) := by
  have hn : (-x).v = fin (-q) := by show x.v.neg = _; rw [hq]; rfl
  have hd := double_of hn
  have hl := large_ge
  have h2l := two_large
  have hx := Real.exp_pos (-q)
  have hev : (Arith.exp (-x)).v = P.exp (fin (-q)) := by show P.exp (-x).v = _; rw [hn]
  obtain ⟨δ0, δ1⟩ := hP.small
  have hbig : ∀ t : ℝ, large ≤ (1 + δ) * (1 + t) → 0 < t → 1 / (1 + t) ≤ u := fun t h1 h2 => by
    refine le_trans ?_ h2l
    rw [div_le_div_iff₀ (by linarith) (by linarith)]
    nlinarith
  rcases exp_cases (F := Double P) (x := -x) (by show (-x).v ≠ nan; rw [hn]; simp) with h | ⟨e, he, h⟩
  · have h : (Arith.exp (-x)).v = pinf := h
    left
    refine ⟨?_, ?_⟩
    · show FV.add rnd (fin 1) (Arith.exp (-x)).v = _
      rw [h]; rfl
    · rw [hev] at h
      have := hP.exp_inf _ hd h
      exact hbig _ (by nlinarith) hx
  · have h : (Arith.exp (-x)).v = fin e := h
    have hacc := hP.exp (-q) e hd (by rw [← hev]; exact h)
    have hsv : (1 + Arith.exp (-x)).v = rnd (1 + e) := by
      show FV.add rnd (fin 1) (Arith.exp (-x)).v = _
      rw [h]; rfl
    cases hr : rnd (1 + e) with
    | nan => exact absurd hr (rnd_ne_nan _)
    | ninf =>
      have h2 := rnd_mono 0 (1 + e) (by linarith)
      rw [hr, rnd_zero] at h2
      exact h2.elim
    | pinf =>
      left
      refine ⟨by rw [hsv, hr], ?_⟩
      have := large_of_inf hr
      have := (abs_le.1 hacc).2
      exact hbig _ (by nlinarith) hx
    | fin s =>
      right
      have hs := (rnd_eq hr).1
      have hde : IsDouble (fin e) := double_of h
      refine ⟨e, s, h, by rw [hsv, hr], he, ?_, ?_, hacc, ?_⟩
      · rw [hs]
        have := r64_mono (show e ≤ 1 + e by linarith)
        have h3 := (rnd_eq (show rnd e = fin e from hde)).1
        linarith
      · rw [hs]
        have := r64_mono (show (1 : ℝ) ≤ 1 + e by linarith)
        rwa [r64_one'] at this
      · rw [hs]
        have := r64_near_grid ((isDouble_grid (rnd_one : IsDouble (fin 1))).add (isDouble_grid hde))
        rwa [abs_of_nonneg (show 0 ≤ 1 + e by linarith)] at this

theorem computes_sigmoid {δ : ℝ} (hP : Libm P δ) : Computes (P := P) always (estSigmoid δ) Act.sigmoidF Act.sigmoidF := by
  rintro e x r _ ⟨q, hq, h1, h2, h3⟩
  have hu := u_pos
  have ht := tiny_pos
  have hr1 : |sig r| ≤ 1 := by rw [abs_of_pos (sig_pos r)]; exact sig_le r
  have hl := sig_lip q r
  obtain ⟨δ0, δ1⟩ := hP.small
  have key : ∀ t, |t - sig q| ≤ δ + 2 * u + tiny → |t - sig r| ≤ e.E / 4 + (δ + 2 * u + tiny) := fun t h => by
    have := abs_add_le (t - sig q) (sig q - sig r)
    rw [sub_add_sub_cancel] at this
    linarith
  rcases denom_near hP hq with ⟨a1, a2⟩ | ⟨ex, s, b1, b2, b3, b4, b5, b6, b7⟩
  · refine ⟨0, ?_, by simp [estSigmoid], hr1, key 0 ?_⟩
    · have := Ieee.val_div (1 : Double P) (1 + Arith.exp (-x))
      rw [show Ieee.val (1 + Arith.exp (-x)) = pinf from a1, show Ieee.val (1 : Double P) = fin 1 from rfl] at this
      exact this
    · rw [zero_sub, abs_neg, abs_of_pos (sig_pos q)]
      linarith
  · obtain ⟨c1, c2, c3, c4⟩ := inv_double b2 b5
    refine ⟨_, c1, by rw [abs_of_nonneg c3]; exact c4, hr1, key _ ?_⟩
    have := sig_near (Real.exp_pos (-q)) b3 b6 b5 b7
    have h4 := abs_add_le (r64 (1 / s) - 1 / s) (1 / s - 1 / (1 + Real.exp (-q)))
    rw [sub_add_sub_cancel] at h4
    show |r64 (1 / s) - 1 / (1 + Real.exp (-q))| ≤ _
    linarith

theorem computes_sigmoidG {δ : ℝ} (hP : Libm P δ) : Computes (P := P) (fun e => e.B ≤ 700) (estSigmoidG δ) Act.sigmoidG Act.sigmoidG := by
  rintro e x r ho ⟨q, hq, h1, h2, h3⟩
  have hu := u_pos
  have ht := tiny_pos
  have hll := large_ge
  obtain ⟨δ0, δ1⟩ := hP.small
  have hval : ∀ r : ℝ, (Act.sigmoidG r : ℝ) = sig r - sig r * sig r := fun r => sigG_eq r
  have hr1 : |(Act.sigmoidG r : ℝ)| ≤ 1 := by
    rw [hval]
    have := sig_pos r
    have := sig_le r
    rw [abs_le]; constructor <;> nlinarith
  have hl := sigG_lip q r
  rcases denom_near hP hq with ⟨a1, a2⟩ | ⟨ex, s, b1, b2, b3, b4, b5, b6, b7⟩
  · exfalso
    have hn : (-x).v = fin (-q) := by show x.v.neg = _; rw [hq]; rfl
    have hx := P.isExp (fin (-q)) (double_of hn)
    have hq7 : -q ≤ 700 := by have := (abs_le.1 h1).1; linarith
    obtain ⟨v, hv, v0, v1⟩ := Le_fin hx.1 (hx.2.2.1 hq7)
    have : (1 + Arith.exp (-x)).v = rnd (1 + v) := by
      show FV.add rnd (fin 1) (P.exp (-x).v) = _
      rw [hn, hv]; rfl
    rw [this] at a1
    have := large_of_inf a1
    linarith
  · set X := Real.exp (-q) with hX
    have hX0 : 0 < X := Real.exp_pos _
    have hs0 : 0 < s := by linarith
    -- the first quotient
    have d0 : 0 ≤ ex / s := by positivity
    have d1 : ex / s ≤ 1 := by rw [div_le_one hs0]; exact b4
    have d2 : (Arith.exp (-x) / (1 + Arith.exp (-x))).v = fin (r64 (ex / s)) := by
      refine (div_fin (F := Double P) (x := Arith.exp (-x)) (y := 1 + Arith.exp (-x)) b1 b2 hs0.ne').trans (rnd_of_le ?_)
      rw [abs_of_nonneg d0]; linarith
    have t0 : 0 ≤ r64 (ex / s) := r64_nonneg d0
    have t1 : r64 (ex / s) ≤ 1 := by have := r64_mono d1; rwa [r64_one'] at this
    have t2 : |r64 (ex / s) - ex / s| ≤ u + tiny := by
      refine (r64_near _).trans ?_
      rw [abs_of_nonneg d0]
      nlinarith
    have t3 : |ex / s - ex / (1 + ex)| ≤ u := by
      rw [div_sub_div _ _ hs0.ne' (by linarith), abs_div, abs_of_pos (show 0 < s * (1 + ex) by positivity), div_le_iff₀ (by positivity),
        show ex * (1 + ex) - s * ex = -(ex * (s - (1 + ex))) by ring, abs_neg, abs_mul, abs_of_nonneg b3]
      have e1 := mul_le_mul_of_nonneg_left b7 b3
      have e2 : ex * (u * (1 + ex)) ≤ s * (u * (1 + ex)) := mul_le_mul_of_nonneg_right b4 (by positivity)
      nlinarith
    have t4 : |ex / (1 + ex) - X / (1 + X)| ≤ δ := by
      rw [div_sub_div _ _ (by linarith) (by linarith), abs_div, abs_of_pos (show 0 < (1 + ex) * (1 + X) by positivity), div_le_iff₀ (by positivity),
        show ex * (1 + X) - (1 + ex) * X = ex - X by ring]
      refine b6.trans ?_
      rw [← mul_assoc]
      exact mul_le_mul_of_nonneg_right (by nlinarith) (by linarith)
    have hq0 : 0 ≤ 1 / (1 + X) := by positivity
    have hq1 : 1 / (1 + X) ≤ 1 := by rw [div_le_one (by linarith)]; linarith
    have t5 : |r64 (ex / s) - X / (1 + X)| ≤ δ + 2 * u + tiny := by
      have e1 := abs_add_le (r64 (ex / s) - ex / s) (ex / s - ex / (1 + ex))
      have e2 := abs_add_le (r64 (ex / s) - ex / (1 + ex)) (ex / (1 + ex) - X / (1 + X))
      rw [sub_add_sub_cancel] at e1 e2
      linarith
    -- the second
    have f0 : 0 ≤ r64 (ex / s) / s := by positivity
    have f1 : r64 (ex / s) / s ≤ 1 := by rw [div_le_one hs0]; linarith
    have f2 : (Act.sigmoidG x).v = fin (r64 (r64 (ex / s) / s)) := by
      refine (div_fin (F := Double P) (x := Arith.exp (-x) / (1 + Arith.exp (-x))) (y := 1 + Arith.exp (-x)) d2 b2 hs0.ne').trans (rnd_of_le ?_)
      rw [abs_of_nonneg f0]; linarith
    have g0 : 0 ≤ r64 (r64 (ex / s) / s) := r64_nonneg f0
    have g1 : r64 (r64 (ex / s) / s) ≤ 1 := by have := r64_mono f1; rwa [r64_one'] at this
    have g2 : |r64 (r64 (ex / s) / s) - r64 (ex / s) / s| ≤ u + tiny := by
      refine (r64_near _).trans ?_
      rw [abs_of_nonneg f0]
      nlinarith
    have g3 := sig_near hX0 b3 b6 b5 b7
    have g4 : |r64 (ex / s) / s - X / (1 + X) / (1 + X)| ≤ 2 * δ + 3 * u + tiny := by
      have e : r64 (ex / s) / s - X / (1 + X) / (1 + X) = r64 (ex / s) * (1 / s - 1 / (1 + X)) + (1 / (1 + X)) * (r64 (ex / s) - X / (1 + X)) := by
        field_simp
        ring
      rw [e]
      refine (abs_add_le _ _).trans ?_
      rw [abs_mul, abs_mul, abs_of_nonneg t0, abs_of_nonneg hq0]
      have e1 := mul_le_mul t1 g3 (abs_nonneg _) zero_le_one
      have e2 := mul_le_mul hq1 t5 (abs_nonneg _) zero_le_one
      linarith
    refine ⟨_, f2, by rw [abs_of_nonneg g0]; exact g1, hr1, ?_⟩
    rw [hval]
    have hXq : X / (1 + X) / (1 + X) = sig q - sig q * sig q := sigG_eq q
    rw [hXq] at g4
    have e1 := abs_add_le (r64 (r64 (ex / s) / s) - r64 (ex / s) / s) (r64 (ex / s) / s - (sig q - sig q * sig q))
    have e2 := abs_add_le (r64 (r64 (ex / s) / s) - (sig q - sig q * sig q)) ((sig q - sig q * sig q) - (sig r - sig r * sig r))
    rw [sub_add_sub_cancel] at e1 e2
    show _ ≤ e.E / 4 + (2 * δ + 4 * u + 2 * tiny)
    linarith

/-! ## Costs -/

theorem computes_diff {f : MatFuncD (Double P)} {g : MatFuncD ℝ} (hf : f = fun y a _ => do let d ← Mat.zip (· - ·) a y; .ok (divN d y.nr)) (hg : g = fun y a _ => do let d ← Mat.zip (· - ·) a y; .ok (divN d y.nr)) :
    ComputesCost (fun y a => 2 * (a.B + y.B) ≤ large) estDiff f g := by
  intro y a Y A Z Y' A' Z' ho hr hy ha
  subst hf hg
  have hB : 0 ≤ a.B + y.B := add_nonneg ha.pos.1 hy.pos.1
  dsimp only
  cases h : Mat.zip (· - ·) A' Y' with
  | error s =>
    have := mapp_zip (e' := a.add y) (op := (· - ·)) (op' := (· - ·)) (fun _ _ _ _ h1 h2 => app_sub h1 h2 (by linarith)) ha hy
    rw [h] at this
    generalize Mat.zip (· - ·) A Y = D at this ⊢
    cases this
    exact .err _
  | ok D' =>
    have := mapp_zip (e' := a.add y) (op := (· - ·)) (op' := (· - ·)) (fun _ _ _ _ h1 h2 => app_sub h1 h2 (by linarith)) ha hy
    rw [h] at this
    obtain ⟨z1, z2, z3, z4, z5⟩ := zip_spec h
    generalize Mat.zip (· - ·) A Y = D at this ⊢
    cases this with
    | ok hd =>
      have hdB : (a.add y).B ≤ large := ho
      have hp : 0 ≤ (estDiff y a).B ∧ 0 ≤ (estDiff y a).E := by
        have := u_pos
        have := tiny_pos
        have := hd.pos
        simp only [estDiff, Est.divn]
        constructor
        · linarith
        · have := mul_nonneg u_pos.le hd.pos.1; linarith
      refine .ok ⟨hd.nr, hd.nc, hp, fun i j hi hj => ?_⟩
      have hi : i < D'.nr := hi
      have hj : j < D'.nc := hj
      unfold divN
      rw [Mat.map_f' (by rw [hd.nr]; exact hi) (by rw [hd.nc]; exact hj), Mat.map_f' hi hj, hy.nr]
      have hn : Y'.nr < 2 ^ 50 := by exact_mod_cast hr
      have := app_divn (n := Y'.nr) (hd.app i j hi hj) (by omega) (by have : (2 : ℕ) ^ 50 ≤ 2 ^ 53 := by norm_num
                                                                      omega) hdB
      exact this

theorem computes_quadratic : ComputesCost (P := P) (fun y a => 2 * (a.B + y.B) ≤ large) estDiff Quadratic.costd Quadratic.costd := computes_diff rfl rfl
theorem computes_crossentropy : ComputesCost (P := P) (fun y a => 2 * (a.B + y.B) ≤ large) estDiff CrossEntropy.costd CrossEntropy.costd := computes_diff rfl rfl

/-! ## A platform with correctly rounded functions -/

theorem u_tiny : u + tiny ≤ 2 * u := by
  have h1 : tiny ≤ (2 : ℝ) ^ (-53 : ℤ) := by unfold tiny; exact zpow_le_zpow_right₀ (by norm_num) (by norm_num)
  have h2 : u = (2 : ℝ) ^ (-53 : ℤ) := by unfold u; rw [zpow_neg, one_div]; norm_num
  linarith

theorem libm_exact : Libm Platform.exact (2 * u) where
  small := ⟨by have := u_pos; linarith, by unfold u; norm_num⟩
  tanh a q _ h := by
    have h : rnd (Real.tanh a) = fin q := h
    rw [(rnd_eq h).1]
    refine (r64_near _).trans (le_trans ?_ u_tiny)
    have h1 : |Real.tanh a| ≤ 1 := abs_le.2 ⟨(Real.neg_one_lt_tanh a).le, (Real.tanh_lt_one a).le⟩
    have := u_pos
    nlinarith
  atan a q _ h := by
    have h : rnd (Real.arctan a) = fin q := h
    rw [(rnd_eq h).1]
    have hu := u_pos
    have hp := Real.pi_lt_d2
    have h1 : |Real.arctan a| ≤ 1.6 := abs_le.2 ⟨by have := Real.neg_pi_div_two_lt_arctan a; linarith, by have := Real.arctan_lt_pi_div_two a; linarith⟩
    have h2 := (r64_near (Real.arctan a))
    have h3 : tiny ≤ 0.4 * u := by
      have h1 : tiny ≤ (2 : ℝ) ^ (-55 : ℤ) := by unfold tiny; exact zpow_le_zpow_right₀ (by norm_num) (by norm_num)
      refine h1.trans ?_
      unfold u
      rw [zpow_neg]
      norm_num
    nlinarith
  exp a q _ h := by
    have h : rnd (Real.exp a) = fin q := h
    rw [(rnd_eq h).1]
    refine (r64_near _).trans ?_
    have hu := u_pos
    have h1 := Real.exp_pos a
    have h2 := u_tiny
    rw [abs_of_pos h1]
    nlinarith
  exp_inf a _ h := (large_of_inf (show rnd (Real.exp a) = pinf from h)).le

end
end Nnet.NN.Flt
