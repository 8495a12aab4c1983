import Verif.NN.FloatFileLemmas2
/-!
# C35: what the numbers in a weight file look like
-/
namespace Nnet.NN
noncomputable section

theorem digitChar_ne {d : Nat} (h : d < 10) : digitChar d ≠ 'e' := by
  unfold digitChar
  interval_cases d <;> decide

theorem e_notin_digits {ds : List Nat} (h : ∀ d ∈ ds, d < 10) : 'e' ∉ ds.map digitChar := by
  intro hc
  obtain ⟨d, hd, he⟩ := List.mem_map.1 hc
  exact digitChar_ne (h d hd) he

theorem e_mem_decText {neg : Bool} {ip fp : List Nat} {ex : Option Int} (h1 : ∀ d ∈ ip, d < 10) (h2 : ∀ d ∈ fp, d < 10) :
    'e' ∈ decText neg ip fp ex ↔ ex ≠ none := by
  unfold decText
  rw [List.mem_append, List.mem_append, List.mem_append]
  have a : 'e' ∉ (if neg then ['-'] else []) := by cases neg <;> simp
  have c : 'e' ∉ (if fp = [] then [] else '.' :: fp.map digitChar) := by
    split
    · simp
    · rw [List.mem_cons]
      rintro (h | h)
      · revert h; decide
      · exact e_notin_digits h2 h
  constructor
  · rintro (((h | h) | h) | h)
    · exact (a h).elim
    · exact (e_notin_digits h1 h).elim
    · exact (c h).elim
    · rintro rfl; simp [expText] at h
  · intro h
    obtain ⟨e, rfl⟩ := Option.ne_none_iff_exists'.1 h
    exact .inr (by simp [expText])

theorem e_mem_gText (neg : Bool) (m : Nat) (X : ℤ) : 'e' ∈ gText neg m X ↔ X < -4 ∨ 6 ≤ X := by
  have hd := digitsN_lt 6 m
  unfold gText
  simp only
  split_ifs with h h0
  · rw [e_mem_decText (fun d hd' => hd d (List.mem_of_mem_take hd')) (fun d hd' => hd d (List.mem_of_mem_drop (strip_mem hd')))]
    simp; omega
  · rw [e_mem_decText (by simp) (fun d hd' => by
      rcases List.mem_append.1 (strip_mem hd') with h' | h'
      · rw [(List.mem_replicate.1 h').2]; omega
      · exact hd d h')]
    simp; omega
  · rw [e_mem_decText (fun d hd' => hd d (List.mem_of_mem_take hd')) (fun d hd' => hd d (List.mem_of_mem_drop (strip_mem hd')))]
    simp; omega

/-- **C35, scientific notation.** The text `save` writes for a weight has an exponent part exactly if the weight, rounded to six significant digits, is not 0 and its magnitude is
less than 0.0001 or at least 1000000. -/
theorem C35_layout (v : ℝ) : 'e' ∈ libText.fmt v ↔ v ≠ 0 ∧ (|Spec.round6 v| < 1 / 10 ^ 4 ∨ 10 ^ 6 ≤ |Spec.round6 v|) := by
  show 'e' ∈ fmtG v ↔ _
  unfold fmtG
  by_cases hv : v = 0
  · rw [if_pos hv]
    simp [hv]
  rw [if_neg hv, e_mem_gText, Flt.B64.round6_abs hv]
  obtain ⟨h1, h2, -⟩ := sixDigits_spec (abs_pos.2 hv)
  set m := (sixDigits |v|).1
  set X := (sixDigits |v|).2
  have h10 : (1 : ℝ) < 10 := by norm_num
  have hp : (0 : ℝ) < (10 : ℝ) ^ (X - 5) := zpow_pos (by norm_num) _
  have h1' : (10 : ℝ) ^ (5 : ℤ) ≤ m := by exact_mod_cast h1
  have h2' : (m : ℝ) < (10 : ℝ) ^ (6 : ℤ) := by exact_mod_cast h2
  have lo : (10 : ℝ) ^ X ≤ m * (10 : ℝ) ^ (X - 5) := by
    calc (10 : ℝ) ^ X = (10 : ℝ) ^ (5 : ℤ) * (10 : ℝ) ^ (X - 5) := by rw [← zpow_add₀ (by norm_num)]; congr 1; ring
      _ ≤ _ := mul_le_mul_of_nonneg_right h1' hp.le
  have hi : m * (10 : ℝ) ^ (X - 5) < (10 : ℝ) ^ (X + 1) := by
    calc (m : ℝ) * (10 : ℝ) ^ (X - 5) < (10 : ℝ) ^ (6 : ℤ) * (10 : ℝ) ^ (X - 5) := mul_lt_mul_of_pos_right h2' hp
      _ = _ := by rw [← zpow_add₀ (by norm_num)]; congr 1; ring
  have e4 : (1 : ℝ) / 10 ^ 4 = (10 : ℝ) ^ (-4 : ℤ) := by norm_num
  have e6 : (10 : ℝ) ^ 6 = (10 : ℝ) ^ (6 : ℤ) := by norm_num
  rw [e4, e6]
  constructor
  · rintro (h | h)
    · exact ⟨hv, .inl (lt_of_lt_of_le hi (zpow_le_zpow_right₀ h10.le (by omega)))⟩
    · exact ⟨hv, .inr (le_trans (zpow_le_zpow_right₀ h10.le h) lo)⟩
  · rintro ⟨-, h | h⟩
    · left
      exact (zpow_lt_zpow_iff_right₀ h10).1 (lt_of_le_of_lt lo h)
    · right
      have := (zpow_lt_zpow_iff_right₀ h10).1 (lt_of_le_of_lt h hi)
      omega

end
end Nnet.NN
