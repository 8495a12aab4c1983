import Verif.NN.TextLemmas
import Verif.NN.PropsFile
/-!
# C35, C36 with the library's number format

PropsFile.lean proves saving and loading for every pair of conversions; here the conversions are those of the C++ library: six significant digits.
-/
namespace Nnet.NN
noncomputable section

/-- Rounding to six significant decimal digits. -/
def Spec.round6 (v : ℝ) : ℝ :=
  if v = 0 then 0 else (if v < 0 then -1 else 1) * ((sixDigits |v|).1 : ℝ) * (10 : ℝ) ^ ((sixDigits |v|).2 - 5)

/-- **C35, the format.** What `out << v` writes is read back by `in >>` completely and gives `v` rounded to six significant digits. -/
theorem C35_format : Spec.Converts libText Spec.round6 := by
  have key : ∀ v : ℝ, fmtG v ≠ [] ∧ takeNumber .init (fmtG v) = (fmtG v, []) ∧ strtod (fmtG v) = (Spec.round6 v, true) := by
    intro v
    unfold fmtG Spec.round6
    by_cases hv : v = 0
    · rw [if_pos hv, if_pos hv]
      have : ['0'] = decText false [0] [] none := rfl
      rw [this]
      refine ⟨by decide, takeNumber_run _ _ (run_decText false none (by simp) (by simp) (by simp)), ?_⟩
      rw [strtod_decText false none (by simp) (by simp) (by simp)]
      simp [val]
    · rw [if_neg hv, if_neg hv]
      obtain ⟨-, h2, -⟩ := sixDigits_spec (abs_pos.2 hv)
      obtain ⟨ip, fp, ex, h, h3, h4, h5, h6⟩ := gText_shape (decide (v < 0)) (m := (sixDigits |v|).1) (X := (sixDigits |v|).2) h2
      rw [h]
      refine ⟨?_, takeNumber_run _ _ (run_decText _ ex h3 h4 h5), ?_⟩
      · intro h0
        have hr := congrArg List.length h0
        unfold decText at hr
        simp only [List.length_append, List.length_map, List.length_nil] at hr
        exact h3 (List.eq_nil_of_length_eq_zero (by omega))
      · rw [strtod_decText _ ex h3 h4 h5, mul_assoc, h6, ← mul_assoc]
        simp only [decide_eq_true_eq]
  exact ⟨fun v => (key v).1, fun v => (key v).2.1, fun v => (key v).2.2⟩

/-- **C35, precision.** The number read back differs from the one written by at most 5 parts in a million. -/
theorem C35_precision (v : ℝ) : |Spec.round6 v - v| ≤ 5 / 10 ^ 6 * |v| := by
  unfold Spec.round6
  by_cases hv : v = 0
  · rw [if_pos hv, hv]; simp
  · rw [if_neg hv]
    obtain ⟨-, -, h⟩ := sixDigits_spec (abs_pos.2 hv)
    have h' : |(((sixDigits |v|).1 : ℝ) * (10 : ℝ) ^ ((sixDigits |v|).2 - 5) - |v|)| ≤ 5 / 10 ^ 6 * |v| := by
      refine h.trans (le_of_eq ?_)
      norm_num [zpow_neg]
    rcases lt_or_gt_of_ne hv with hn | hp
    · rw [if_pos hn]
      rw [abs_of_neg hn] at h' ⊢
      rw [show (-1 : ℝ) * ((sixDigits (-v)).1 : ℝ) * (10 : ℝ) ^ ((sixDigits (-v)).2 - 5) - v =
        -(((sixDigits (-v)).1 : ℝ) * (10 : ℝ) ^ ((sixDigits (-v)).2 - 5) - -v) by ring, abs_neg]
      exact h'
    · rw [if_neg hp.not_gt, one_mul]
      rw [abs_of_pos hp] at h' ⊢
      exact h'

theorem round6_sixDigits {v : ℝ} (hv : v ≠ 0) : Spec.round6 v ≠ 0 ∧ (Spec.round6 v < 0 ↔ v < 0) ∧ sixDigits |Spec.round6 v| = sixDigits |v| := by
  obtain ⟨h1, h2, -⟩ := sixDigits_spec (abs_pos.2 hv)
  have hm : (0 : ℝ) < (sixDigits |v|).1 := by
    have : 0 < (sixDigits |v|).1 := by omega
    exact_mod_cast this
  have hpos : (0 : ℝ) < ((sixDigits |v|).1 : ℝ) * (10 : ℝ) ^ ((sixDigits |v|).2 - 5) := mul_pos hm (zpow_pos (by norm_num) _)
  have hfix := sixDigits_fix (X := (sixDigits |v|).2) h1 h2
  unfold Spec.round6
  rw [if_neg hv, mul_assoc]
  rcases lt_or_gt_of_ne hv with hn | hp
  · rw [if_pos hn, neg_one_mul, abs_neg, abs_of_pos hpos, hfix]
    exact ⟨(neg_neg_of_pos hpos).ne, ⟨fun _ => hn, fun _ => neg_neg_of_pos hpos⟩, rfl⟩
  · rw [if_neg hp.not_gt, one_mul, abs_of_pos hpos, hfix]
    exact ⟨hpos.ne', ⟨fun h => absurd h hpos.not_gt, fun h => absurd h hp.not_gt⟩, rfl⟩

/-- **C35, stability.** Writing a rounded number gives the same text again. -/
theorem C35_stable (v : ℝ) : fmtG (Spec.round6 v) = fmtG v := by
  by_cases hv : v = 0
  · rw [hv]
    have : Spec.round6 0 = 0 := if_pos rfl
    rw [this]
  · obtain ⟨h1, h2, h3⟩ := round6_sixDigits hv
    unfold fmtG
    rw [if_neg hv, if_neg h1, h3]
    simp only [h2]

/-- **C35 for the library's format.** Save a network, load the file into any network of the same architecture: every weight comes back with a relative error of at most
5 parts in a million, nothing but weights changes, and saving again gives the identical file. -/
theorem C35_library {s s' : Store} {n n' : Net} (hsh : Spec.SameShapes s n s' n') (hnd : n'.hidden.Nodup) (path : String) (fs : Files) :
    ∃ fs' s'' n'', n.save libText s path true fs = .ok fs' ∧ (∀ q, q ≠ path → fs' q = fs q) ∧ n'.load libText s' path fs' = .ok (s'', n'') ∧
      Spec.OnlyWeights s' n' s'' n'' ∧ Spec.SameShapes s n s'' n'' ∧
      (∀ (l : Nat) (L L'' : Layer), (n.layers s)[l]? = some L → (n''.layers s'')[l]? = some L'' → ∀ i j,
        |L''.W.f i j - L.W.f i j| ≤ 5 / 10 ^ 6 * |L.W.f i j|) ∧
      ∀ path' gs, ∃ gs', n''.save libText s'' path' true gs = .ok gs' ∧ gs' path' = fs' path := by
  obtain ⟨fs', s'', n'', h1, h2, h3, h4, h5, h6⟩ := C35_roundtrip C35_format hsh hnd path fs
  refine ⟨fs', s'', n'', h1, h2, h3, h4, h4.shapes.trans hsh, ?_, h6 C35_stable⟩
  intro l L L'' hL hL'' i j
  have := congrArg (·[l]?) h5
  simp only [List.getElem?_map, hL, hL'', Option.map_some, Option.some.injEq] at this
  rw [this]
  by_cases hij : i < L.W.nr ∧ j < L.W.nc
  · rw [Mat.map_f' hij.1 hij.2]
    exact C35_precision _
  · rw [L.W.out i j hij, Mat.out _ i j (by exact hij)]
    simp

/-! Texts of some numbers. -/
example : fmtG (1 / 4) = ['0', '.', '2', '5'] := by
  have h : sixDigits |(1 / 4 : ℝ)| = (250000, -1) := by
    have := sixDigits_fix (m := 250000) (X := -1) (by norm_num) (by norm_num)
    rw [← this]
    norm_num [zpow_neg]
  unfold fmtG
  rw [if_neg (by norm_num), h]
  simp only [decide_eq_false (show ¬ ((1 / 4 : ℝ) < 0) by norm_num)]
  decide

example : fmtG (-12345678) = ['-', '1', '.', '2', '3', '4', '5', '7', 'e', '+', '0', '7'] := by
  have hlog : Int.log 10 (12345678 : ℝ) = 7 := by
    refine le_antisymm ?_ ?_
    · have := (Int.lt_zpow_iff_log_lt (b := 10) (x := 8) (r := (12345678 : ℝ)) (by norm_num) (by norm_num)).1 (by norm_num)
      omega
    · exact (Int.zpow_le_iff_le_log (b := 10) (x := 7) (r := (12345678 : ℝ)) (by norm_num) (by norm_num)).1 (by norm_num)
  have hfl : ⌊(123456.78 : ℝ)⌋ = 123456 := by rw [Int.floor_eq_iff]; norm_num
  have hr : roundEven (123456.78 : ℝ) = 123457 := by
    unfold roundEven
    rw [Int.fract, hfl]
    norm_num
  have h : sixDigits |(-12345678 : ℝ)| = (123457, 7) := by
    rw [show |(-12345678 : ℝ)| = 12345678 by norm_num]
    unfold sixDigits
    rw [hlog]
    simp only
    rw [show (12345678 : ℝ) / (10 : ℝ) ^ ((7 : ℤ) - 5) = 123456.78 by norm_num, hr]
    rfl
  unfold fmtG
  rw [if_neg (by norm_num), h]
  simp only [decide_eq_true (show ((-12345678 : ℝ) < 0) by norm_num)]
  decide

end
end Nnet.NN
