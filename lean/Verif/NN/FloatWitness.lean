import Verif.NN.FloatSpec
import Mathlib.Analysis.Complex.ExponentialBounds
import Mathlib.Tactic.NormNum
import Mathlib.Tactic.Positivity
import Mathlib.Tactic.Linarith
/-!
# The assumptions about `double` can be met

An arithmetic with all the properties listed in `Ieee`: values are exact except that results of at least `2 ^ 1024` overflow, numbers just above 1 are rounded to 1 and `exp` overflows and underflows.
It is not binary64; it only shows that the hypotheses of the theorems about special values are not contradictory.
-/
namespace Nnet.NN.Flt

theorem large_pos : 0 < large := by unfold large; positivity
theorem one_le_large : 1 ≤ large := by unfold large; exact one_le_pow₀ (by norm_num)
theorem overflow_eq : overflow = 2 * large := by unfold overflow large; rw [← pow_succ']
theorem sumMax_pos : 0 < sumMax := by unfold sumMax; positivity
theorem sumMax_le : sumMax * 2 ^ 23 = large := by unfold sumMax large; rw [← pow_add]
theorem int_le_large : (2 : ℝ) ^ 53 ≤ large := by unfold large; exact pow_le_pow_right₀ (by norm_num) (by norm_num)
theorem sumMax_big : (2 : ℝ) ^ 200 ≤ sumMax := by unfold sumMax; exact pow_le_pow_right₀ (by norm_num) (by norm_num)

namespace Witness
open FV
noncomputable section

/-- Rounding of the witness. -/
def rnd (r : ℝ) : FV :=
  if overflow ≤ r then pinf else if r ≤ -overflow then ninf
  else if 1 ≤ r ∧ r ≤ 1 + 1 / 2 ^ 53 then fin 1 else if r ≤ -1 ∧ -1 - 1 / 2 ^ 53 ≤ r then fin (-1) else fin r

theorem lt_big {r : ℝ} (h : r ≤ large) : r < overflow := by
  have := large_pos
  rw [overflow_eq]; linarith

theorem big_one : (1 : ℝ) + 1 / 2 ^ 53 < overflow := by
  have h2 := one_le_large
  have h3 : (1 : ℝ) / 2 ^ 53 < 1 := by norm_num
  rw [overflow_eq]; linarith

theorem rnd_of_lt {r : ℝ} (h : |r| < overflow) : ∃ q, rnd r = fin q ∧ |q| ≤ |r| := by
  obtain ⟨h1, h2⟩ := abs_lt.1 h
  unfold rnd
  rw [if_neg (by linarith), if_neg (by linarith)]
  split
  · rename_i h
    refine ⟨1, rfl, ?_⟩
    rw [abs_one]
    exact h.1.trans (le_abs_self r)
  · split
    · rename_i h
      refine ⟨-1, rfl, ?_⟩
      rw [abs_neg, abs_one]
      exact (by linarith [h.1] : (1 : ℝ) ≤ -r).trans (neg_le_abs r)
    · exact ⟨r, rfl, le_refl _⟩

theorem mono (r s : ℝ) (h : r ≤ s) : Le (rnd r) (rnd s) := by
  have hp := large_pos
  have ho := overflow_eq
  have hb := big_one
  have he : (0 : ℝ) < 1 / 2 ^ 53 := by positivity
  unfold rnd
  by_cases a1 : overflow ≤ r
  · rw [if_pos a1, if_pos (a1.trans h)]; trivial
  rw [if_neg a1]
  by_cases a2 : r ≤ -overflow
  · rw [if_pos a2]
    split_ifs <;> trivial
  rw [if_neg a2]
  by_cases b1 : overflow ≤ s
  · rw [if_pos b1]
    split_ifs <;> trivial
  rw [if_neg b1, if_neg (by linarith : ¬ s ≤ -overflow)]
  generalize (1 : ℝ) / 2 ^ 53 = e at *
  by_cases a3 : 1 ≤ r ∧ r ≤ 1 + e
  · rw [if_pos a3, if_neg (fun h' => by linarith [a3.1, h'.1] : ¬ (s ≤ -1 ∧ -1 - e ≤ s))]
    split_ifs <;> simp only [Le] <;> linarith [a3.1]
  rw [if_neg a3]
  by_cases b4 : s ≤ -1 ∧ -1 - e ≤ s
  · rw [if_neg (fun h' => by linarith [b4.1, h'.1] : ¬ (1 ≤ s ∧ s ≤ 1 + e)), if_pos b4]
    split_ifs <;> simp only [Le] <;> linarith [b4.1]
  rw [if_neg b4]
  by_cases a4 : r ≤ -1 ∧ -1 - e ≤ r
  · rw [if_pos a4]
    split_ifs <;> simp only [Le]
    · linarith
    · by_contra hc
      push Not at hc
      exact b4 ⟨by linarith, by linarith [a4.2]⟩
  rw [if_neg a4]
  split_ifs with b3 <;> simp only [Le]
  · by_contra hc
    push Not at hc
    exact a3 ⟨by linarith, by linarith [b3.2]⟩
  · exact h

theorem rnd_fix {q : ℝ} (h : |q| < overflow) (h1 : q ≤ 1 ∨ 1 + 1 / 2 ^ 53 < q) (h2 : -1 ≤ q ∨ q < -1 - 1 / 2 ^ 53) : rnd q = fin q := by
  obtain ⟨g1, g2⟩ := abs_lt.1 h
  unfold rnd
  rw [if_neg (by linarith), if_neg (by linarith)]
  split_ifs with h3 h4
  · congr 1
    rcases h1 with h1 | h1 <;> linarith [h3.1, h3.2]
  · congr 1
    rcases h2 with h2 | h2 <;> linarith [h4.1, h4.2]
  · rfl

theorem rnd_idem {r q : ℝ} (h : rnd r = fin q) : rnd q = fin q := by
  have hb := big_one
  have ho := overflow_eq
  have hl := large_pos
  have he : (0 : ℝ) < 1 / 2 ^ 53 := by positivity
  have h' := h
  unfold rnd at h
  split_ifs at h with a b c d <;> injection h with h
  · exact rnd_fix (by rw [← h, abs_one]; linarith) (.inl (by linarith)) (.inl (by linarith))
  · exact rnd_fix (by rw [← h, abs_neg, abs_one]; linarith) (.inl (by linarith)) (.inl (by linarith))
  · rw [← h]
    rw [← h] at h'
    exact h'

theorem rnd_neg (r : ℝ) : rnd (-r) = (rnd r).neg := by
  have hb := big_one
  have ho := overflow_eq
  have hl := large_pos
  unfold rnd
  by_cases a1 : overflow ≤ r
  · rw [if_neg (by linarith), if_pos (by linarith), if_pos a1]; rfl
  by_cases a2 : r ≤ -overflow
  · rw [if_pos (by linarith), if_neg a1, if_pos a2]; rfl
  rw [if_neg (by linarith), if_neg (by linarith), if_neg a1, if_neg a2]
  by_cases a3 : 1 ≤ r ∧ r ≤ 1 + 1 / 2 ^ 53
  · rw [if_neg (fun h => by linarith [h.1, a3.1]), if_pos ⟨by linarith [a3.1], by linarith [a3.2]⟩, if_pos a3]; rfl
  by_cases a4 : r ≤ -1 ∧ -1 - 1 / 2 ^ 53 ≤ r
  · rw [if_pos ⟨by linarith [a4.1], by linarith [a4.2]⟩, if_neg a3, if_pos a4]
    simp [FV.neg]
  · rw [if_neg (fun h => a4 ⟨by linarith [h.1], by linarith [h.2]⟩), if_neg (fun h => a3 ⟨by linarith [h.1], by linarith [h.2]⟩), if_neg a3, if_neg a4]
    rfl

theorem rounding : Rounding rnd where
  notNan r := by unfold rnd; split_ifs <;> simp
  mono := mono
  int n hn := by
    have h1 : |(n : ℝ)| ≤ 2 ^ 53 := by exact_mod_cast hn
    have he : (1 : ℝ) / 2 ^ 53 < 1 := by norm_num
    refine rnd_fix (lt_big (h1.trans int_le_large)) ?_ ?_
    · by_cases h : n ≤ 1
      · exact .inl (by exact_mod_cast h)
      · have : (2 : ℝ) ≤ n := by exact_mod_cast (by omega : 2 ≤ n)
        exact .inr (by linarith)
    · by_cases h : -1 ≤ n
      · exact .inl (by exact_mod_cast h)
      · have : (n : ℝ) ≤ -2 := by exact_mod_cast (by omega : n ≤ -2)
        exact .inr (by linarith)
  one r h1 h2 := by
    have hb := big_one
    have hp := large_pos
    have ho := overflow_eq
    unfold rnd
    rw [if_neg (by linarith), if_neg (by linarith), if_pos ⟨h1, h2⟩]
  finite r h := by
    obtain ⟨q, h1, h2⟩ := rnd_of_lt (lt_big h)
    exact ⟨q, h1, by have := abs_nonneg r; linarith⟩
  big r h := if_pos h
  small r h := by
    have hp := large_pos
    have ho := overflow_eq
    unfold rnd
    rw [if_neg (by linarith), if_pos h]

theorem rnd_zero : rnd 0 = fin 0 := by simpa using rounding.int 0 (by norm_num)
theorem rnd_one : rnd 1 = fin 1 := by simpa using rounding.int 1 (by norm_num)

/-- Rounding of a value. -/
def rndV : FV → FV
  | fin r => rnd r
  | v => v

/-- The numbers of the witness: values not changed by rounding. -/
def T := { v : FV // rndV v = v }

theorem rndV_rnd (r : ℝ) : rndV (rnd r) = rnd r := by
  cases h : rnd r with
  | fin q => exact rnd_idem h
  | _ => rfl

theorem rndV_idem (v : FV) : rndV (rndV v) = rndV v := by
  cases v with
  | fin r => exact rndV_rnd r
  | _ => rfl

/-- Rounds a value. -/
def mk (v : FV) : T := ⟨rndV v, rndV_idem v⟩

theorem Le_pinf {v : FV} (h : v ≠ nan) : Le v pinf := by cases v <;> first | trivial | exact absurd rfl h
theorem ninf_Le {v : FV} (h : v ≠ nan) : Le ninf v := by cases v <;> first | trivial | exact absurd rfl h

theorem rndV_mono {v w : FV} (h : Le v w) : Le (rndV v) (rndV w) := by
  cases v <;> cases w <;> first | exact h.elim | trivial | exact mono _ _ h | exact ninf_Le (rounding.notNan _) | exact Le_pinf (rounding.notNan _)

theorem rndV_neg {v : FV} (h : rndV v = v) : rndV v.neg = v.neg := by
  cases v with
  | fin r => show rnd (-r) = _; rw [rnd_neg, show rnd r = fin r from h]
  | _ => rfl

theorem rndV_infSign (a : ℝ) : rndV (infSign a) = infSign a := by unfold infSign; split_ifs <;> rfl

theorem rndV_add (v w : FV) : rndV (FV.add rnd v w) = FV.add rnd v w := by
  cases v <;> cases w <;> first | rfl | exact rndV_rnd _

theorem rndV_mul (v w : FV) : rndV (FV.mul rnd v w) = FV.mul rnd v w := by
  cases v <;> cases w <;> first | rfl | exact rndV_rnd _ | exact rndV_infSign _

/-- Division of the witness. -/
def div : FV → FV → FV
  | nan, _ | _, nan => nan
  | pinf, pinf | pinf, ninf | ninf, pinf | ninf, ninf => nan
  | pinf, fin b => if b = 0 then pinf else infSign b
  | ninf, fin b => if b = 0 then ninf else infSign (-b)
  | fin _, pinf | fin _, ninf => fin 0
  | fin a, fin b => if b = 0 then (if a = 0 then nan else pinf) else rnd (a / b)

/-- `exp` of the witness. -/
def exp : FV → FV
  | nan => nan
  | pinf => pinf
  | ninf => fin 0
  | fin a => if 710 ≤ a then pinf else if a ≤ -746 then fin 0 else fin (Real.exp a)

/-- `log` of the witness. -/
def log : FV → FV
  | nan | ninf => nan
  | pinf => pinf
  | fin a => if a < 0 then nan else if a = 0 then ninf else fin (max (-1000) (min 1000 (Real.log a)))

/-- A function with numbers as values, NaN only for NaN. -/
def lift (f : ℝ → ℝ) (p n : FV) : FV → FV
  | nan => nan
  | pinf => p
  | ninf => n
  | fin a => fin (f a)

open Classical in
instance arith : Arith T where
  zero := mk (fin 0)
  one := mk (fin 1)
  add x y := mk (FV.add rnd x.1 y.1)
  sub x y := mk (FV.add rnd x.1 y.1.neg)
  mul x y := mk (FV.mul rnd x.1 y.1)
  div x y := mk (div x.1 y.1)
  neg x := mk (FV.neg x.1)
  lit q := mk (fin q)
  exp x := mk (exp x.1)
  log x := mk (log x.1)
  tanh x := mk (lift Real.tanh (fin 1) (fin (-1)) x.1)
  atan x := mk (lift Real.arctan (fin 1) (fin (-1)) x.1)
  cos x := mk (lift Real.cos nan nan x.1)
  sin x := mk (lift Real.sin nan nan x.1)
  fabs x := mk (FV.abs x.1)
  fmax x y := mk (FV.max x.1 y.1)
  fmin x y := mk (FV.min x.1 y.1)
  lt x y := decide (Lt x.1 y.1)
  le x y := decide (Le x.1 y.1)
  dot l := mk (l.foldr (fun p s => FV.add fin (FV.mul fin p.1.1 p.2.1) s) (fin 0))
  total l := mk (l.foldr (fun p s => FV.add fin p.1 s) (fin 0))

theorem exp_bound : Real.exp (-38) ≤ 1 / 2 ^ 53 := by
  have h : (2.7 : ℝ) ^ 38 ≤ Real.exp 1 ^ 38 := pow_le_pow_left₀ (by norm_num) (le_of_lt (lt_trans (by norm_num) Real.exp_one_gt_d9)) 38
  rw [show (-38 : ℝ) = -((38 : ℕ) * 1) by norm_num, Real.exp_neg, Real.exp_nat_mul, ← one_div]
  refine one_div_le_one_div_of_le (by norm_num) (le_trans ?_ h)
  norm_num

theorem exp_700 : Real.exp 700 < large / 8 := by
  have h : Real.exp 1 ^ 175 ≤ (2.7182818286 : ℝ) ^ 175 := pow_le_pow_left₀ (Real.exp_pos 1).le (le_of_lt Real.exp_one_lt_d9) 175
  have h1 : (2.7182818286 : ℝ) ^ 175 < 2 ^ 255 := by norm_num
  have h2 : Real.exp 700 = (Real.exp 1 ^ 175) ^ 4 := by rw [← pow_mul, ← Real.exp_nat_mul]; norm_num
  have h3 : large / 8 = (2 ^ 255 : ℝ) ^ 4 := by
    unfold large
    rw [← pow_mul, show (1023 : ℕ) = 255 * 4 + 3 by norm_num, pow_add]
    ring
  rw [h2, h3]
  exact pow_lt_pow_left₀ (lt_of_le_of_lt h h1) (by positivity) (by norm_num)

theorem exp_m700 : 8 / large ≤ Real.exp (-700) := by
  rw [Real.exp_neg, ← one_div, show 8 / large = 1 / (large / 8) by rw [one_div_div]]
  exact one_div_le_one_div_of_le (Real.exp_pos _) exp_700.le

theorem exp_600 : Real.exp 600 ≤ sumMax / 2 ^ 100 := by
  have h : Real.exp 1 ^ 150 ≤ (2.7182818286 : ℝ) ^ 150 := pow_le_pow_left₀ (Real.exp_pos 1).le (le_of_lt Real.exp_one_lt_d9) 150
  have h1 : (2.7182818286 : ℝ) ^ 150 ≤ 2 ^ 225 := by norm_num
  have h2 : Real.exp 600 = (Real.exp 1 ^ 150) ^ 4 := by rw [← pow_mul, ← Real.exp_nat_mul]; norm_num
  have h3 : sumMax / 2 ^ 100 = (2 ^ 225 : ℝ) ^ 4 := by
    unfold sumMax
    rw [← pow_mul, show (1000 : ℕ) = 225 * 4 + 100 by norm_num, pow_add, mul_div_cancel_right₀ _ (by positivity)]
  rw [h2, h3]
  exact pow_le_pow_left₀ (by positivity) (h.trans h1) 4

theorem rndV_pos {q : ℝ} (h : 0 < q) : Lt (fin 0) (rnd q) := by
  have hp := large_pos
  have ho := overflow_eq
  unfold rnd
  split_ifs with a b c d <;> simp only [Lt]
  · linarith
  · norm_num
  · linarith [d.1]
  · exact h

theorem rnd_le_fin {q b : ℝ} (h : q ≤ b) (hb : rnd b = fin b) : Le (rnd q) (fin b) := by rw [← hb]; exact mono _ _ h
theorem fin_le_rnd {q b : ℝ} (h : b ≤ q) (hb : rnd b = fin b) : Le (fin b) (rnd q) := by rw [← hb]; exact mono _ _ h

theorem rnd_53 : rnd (1 / 2 ^ 53) = fin (1 / 2 ^ 53) := by
  have := one_le_large
  have := overflow_eq
  have h : (1 : ℝ) / 2 ^ 53 ≤ 1 := by norm_num
  have h' : (0 : ℝ) ≤ 1 / 2 ^ 53 := by norm_num
  exact rnd_fix (by rw [abs_of_nonneg h']; linarith) (.inl h) (.inl (by linarith))

theorem rnd_8 : rnd (large / 8) = fin (large / 8) := by
  have h := large_pos
  have h1 := int_le_large
  have h2 := overflow_eq
  have h3 : (1 : ℝ) / 2 ^ 53 < 1 := by norm_num
  have h4 : (16 : ℝ) < 2 ^ 53 := by norm_num
  have h5 : (0 : ℝ) ≤ large / 8 := by linarith
  refine rnd_fix ?_ (.inr ?_) (.inl ?_)
  · rw [abs_of_nonneg h5]
    linarith
  · generalize (1 : ℝ) / 2 ^ 53 = e at *
    linarith
  · linarith

theorem rnd_tiny : rnd (8 / large) = fin (8 / large) := by
  have h := large_pos
  have h1 := int_le_large
  have h2 := overflow_eq
  have h3 : (0 : ℝ) ≤ 8 / large := by positivity
  have h4 : 8 / large ≤ 1 := by
    rw [div_le_one h]
    have : (8 : ℝ) ≤ 2 ^ 53 := by norm_num
    linarith
  refine rnd_fix ?_ (.inl h4) (.inl (by linarith))
  rw [abs_of_nonneg h3]
  have := one_le_large
  linarith

theorem rnd_900 : rnd (sumMax / 2 ^ 100) = fin (sumMax / 2 ^ 100) := by
  have h := sumMax_pos
  have h1 := sumMax_big
  have h2 := overflow_eq
  have h0 := sumMax_le
  have h5 : (2 : ℝ) ^ 100 ≤ sumMax / 2 ^ 100 := by
    rw [le_div_iff₀ (by positivity), ← pow_add]
    exact h1
  have h6 : sumMax / 2 ^ 100 ≤ sumMax := div_le_self h.le (by norm_num)
  have h7 : (2 : ℝ) < 2 ^ 100 := by norm_num
  have h8 : (1 : ℝ) / 2 ^ 53 < 1 := by norm_num
  generalize sumMax / 2 ^ 100 = e at *
  generalize (1 : ℝ) / 2 ^ 53 = d at *
  refine rnd_fix ?_ (.inr (by linarith)) (.inl (by linarith))
  rw [abs_of_nonneg (by linarith)]
  have : (0 : ℝ) < 2 ^ 23 := by norm_num
  nlinarith

theorem isExp (x : FV) : IsExp x (rndV (exp x)) := by
  cases x with
  | nan => rfl
  | pinf => rfl
  | ninf => exact rnd_zero
  | fin a =>
    simp only [exp, IsExp]
    by_cases h1 : 710 ≤ a
    · rw [if_pos h1]
      refine ⟨trivial, fun _ => rfl, fun h => by linarith, fun h => by linarith, fun h => by linarith, fun _ => trivial, fun h => by linarith, fun _ => trivial, fun h => by linarith⟩
    rw [if_neg h1]
    by_cases h2 : a ≤ -746
    · rw [if_pos h2, show rndV (fin 0) = fin 0 from rnd_zero]
      refine ⟨le_refl (0 : ℝ), fun h => absurd h h1, fun h => (by have := large_pos; linarith : (0 : ℝ) ≤ large / 8), fun h => rfl, fun h => ?_, fun h => by linarith, fun h => ?_, fun h => by linarith, fun _ => ?_⟩
      · show (0 : ℝ) ≤ 1 / 2 ^ 53
        positivity
      · exact zero_le_one (α := ℝ)
      · exact div_nonneg sumMax_pos.le (by positivity)
    rw [if_neg h2]
    refine ⟨fin_le_rnd (Real.exp_pos a).le rnd_zero, fun h => absurd h h1, fun h => ?_, fun h => absurd h h2, fun h => ?_, fun h => ?_, fun h => ?_, fun h => ?_, fun h => ?_⟩
    · exact rnd_le_fin (((Real.exp_le_exp.2 h).trans_lt exp_700).le) rnd_8
    · exact rnd_le_fin ((Real.exp_le_exp.2 h).trans exp_bound) rnd_53
    · exact fin_le_rnd (exp_m700.trans (Real.exp_le_exp.2 h)) rnd_tiny
    · exact rnd_le_fin (Real.exp_le_one_iff.2 h) rnd_one
    · exact fin_le_rnd (Real.one_le_exp h) rnd_one
    · exact rnd_le_fin ((Real.exp_le_exp.2 h).trans exp_600) rnd_900

theorem isLog (x : FV) : IsLog x (rndV (log x)) := by
  cases x with
  | nan => rfl
  | pinf => rfl
  | ninf => rfl
  | fin a =>
    simp only [log, IsLog]
    by_cases h1 : a < 0
    · rw [if_pos h1]
      exact ⟨fun _ => rfl, fun h => by linarith, fun h => by linarith, fun h => by linarith, fun h => by linarith, fun h => by linarith⟩
    rw [if_neg h1]
    by_cases h2 : a = 0
    · rw [if_pos h2]
      exact ⟨fun h => absurd h h1, fun _ => rfl, fun h => by linarith, fun h => by linarith, fun h => by linarith, fun h => by linarith⟩
    rw [if_neg h2]
    refine ⟨fun h => absurd h h1, fun h => absurd h h2, fun h => ?_, fun h => ?_, fun h => fin_le_rnd ((le_min (by norm_num) (Real.log_nonneg h)).trans (le_max_right _ _)) rnd_zero,
      fun h h' => rnd_le_fin (max_le (by norm_num) ((min_le_right _ _).trans (Real.log_nonpos h.le h'))) rnd_zero⟩
    · have h3 : |max (-1000) (min 1000 (Real.log a))| ≤ 1000 := abs_le.2 ⟨le_max_left _ _, max_le (by norm_num) (min_le_left _ _)⟩
      have h4 : (1000 : ℝ) ≤ large := by
        have := int_le_large
        have : (1000 : ℝ) ≤ 2 ^ 53 := by norm_num
        linarith
      obtain ⟨q, hq, hq2⟩ := rnd_of_lt (lt_big (h3.trans h4))
      exact ⟨q, hq, hq2.trans h3⟩
    · rw [h, Real.log_one, min_eq_right (by norm_num), max_eq_right (by norm_num)]
      exact rnd_zero

theorem isDiv (x y : FV) : IsDiv rnd x y (rndV (div x y)) := by
  cases x <;> cases y <;> simp only [IsDiv, div] <;> (try split_ifs) <;> first | rfl | exact rnd_zero | exact rndV_rnd _ | exact rndV_infSign _ | exact .inl rfl | exact .inr rfl

theorem foldr_dot_bound : ∀ (l : List (T × T)) (B : ℝ), (∀ p ∈ l, ∃ a b, p.1.1 = fin a ∧ p.2.1 = fin b ∧ |a * b| ≤ B) →
    ∃ r, l.foldr (fun p s => FV.add fin (FV.mul fin p.1.1 p.2.1) s) (fin 0) = fin r ∧ |r| ≤ l.length * B
  | [], B, _ => ⟨0, rfl, by simp⟩
  | p :: l, B, h => by
    obtain ⟨a, b, h1, h2, h3⟩ := h p (by simp)
    obtain ⟨r, h4, h5⟩ := foldr_dot_bound l B (fun p hp => h p (by simp [hp]))
    refine ⟨a * b + r, ?_, ?_⟩
    · rw [List.foldr_cons, h4, h1, h2]
      rfl
    · rw [List.length_cons, Nat.cast_succ]
      exact (abs_add_le _ _).trans (by linarith)

theorem foldr_total_bound : ∀ (l : List T) (B : ℝ), (∀ x ∈ l, ∃ a, x.1 = fin a ∧ |a| ≤ B) → ∃ r, l.foldr (fun p s => FV.add fin p.1 s) (fin 0) = fin r ∧ |r| ≤ l.length * B
  | [], B, _ => ⟨0, rfl, by simp⟩
  | p :: l, B, h => by
    obtain ⟨a, h1, h3⟩ := h p (by simp)
    obtain ⟨r, h4, h5⟩ := foldr_total_bound l B (fun p hp => h p (by simp [hp]))
    refine ⟨a + r, ?_, ?_⟩
    · rw [List.foldr_cons, h4, h1]
      rfl
    · rw [List.length_cons, Nat.cast_succ]
      exact (abs_add_le _ _).trans (by linarith)

theorem foldr_nan {α : Type} (g : α → FV) : ∀ l : List α, (∃ x ∈ l, g x = nan) → l.foldr (fun p s => FV.add fin (g p) s) (fin 0) = nan
  | [], ⟨_, h, _⟩ => by cases h
  | p :: l, ⟨x, hx, h⟩ => by
    rw [List.foldr_cons]
    rcases List.mem_cons.1 hx with rfl | hx
    · rw [h]
      cases l.foldr (fun p s => FV.add fin (g p) s) (fin 0) <;> rfl
    · rw [foldr_nan g l ⟨x, hx, h⟩]
      cases g p <;> rfl

theorem foldr_nonneg : ∀ l : List T, (∀ x ∈ l, Le (fin 0) x.1) →
    Le (fin 0) (l.foldr (fun p s => FV.add fin p.1 s) (fin 0)) ∧ (∀ x ∈ l, Le x.1 (l.foldr (fun p s => FV.add fin p.1 s) (fin 0))) ∧
      ((∃ x ∈ l, x.1 = pinf) → l.foldr (fun p s => FV.add fin p.1 s) (fin 0) = pinf)
  | [], _ => ⟨le_refl (0 : ℝ), fun _ h => by simp at h, fun ⟨_, h, _⟩ => by simp at h⟩
  | p :: l, h => by
    obtain ⟨h1, h2, h3⟩ := foldr_nonneg l fun x hx => h x (by simp [hx])
    have hp := h p (by simp)
    rw [List.foldr_cons]
    generalize l.foldr (fun p s => FV.add fin p.1 s) (fin 0) = t at h1 h2 h3 ⊢
    refine ⟨?_, fun x hx => ?_, fun ⟨x, hx, e⟩ => ?_⟩
    · generalize p.1 = p at hp
      cases p <;> cases t <;> first | exact hp.elim | exact h1.elim | trivial | exact add_nonneg (α := ℝ) hp h1
    · rcases List.mem_cons.1 hx with rfl | hx
      · generalize x.1 = x at hp
        cases x <;> cases t <;> first | exact hp.elim | exact h1.elim | trivial | exact le_add_of_nonneg_right (α := ℝ) h1
      · have h4 := h2 x hx
        generalize x.1 = x at h4
        generalize p.1 = p at hp
        cases p <;> cases t <;> cases x <;> first | exact hp.elim | exact h1.elim | exact h4.elim | trivial | skip
        exact le_trans (α := ℝ) h4 (le_add_of_nonneg_left (α := ℝ) hp)
    · rcases List.mem_cons.1 hx with rfl | hx
      · rw [e]
        cases t <;> first | exact h1.elim | rfl
      · rw [h3 ⟨x, hx, e⟩]
        generalize p.1 = p at hp
        cases p <;> first | exact hp.elim | rfl

theorem foldr_zero : ∀ l : List T, (∀ x ∈ l, x.1 = fin 0) → l.foldr (fun p s => FV.add fin p.1 s) (fin 0) = fin 0
  | [], _ => rfl
  | p :: l, h => by
    rw [List.foldr_cons, foldr_zero l fun x hx => h x (by simp [hx]), h p (by simp)]
    show fin (0 + 0) = fin 0
    rw [add_zero]

theorem between_rnd {q : ℝ} (n : ℤ) (hn : |n| ≤ 2 ^ 53) (h1 : -(n : ℝ) ≤ q) (h2 : q ≤ n) : ∃ r, rnd q = fin r ∧ -(n : ℝ) ≤ r ∧ r ≤ n := by
  have h3 := rnd_le_fin h2 (rounding.int n hn)
  have h4 := rounding.int (-n) (by rw [abs_neg]; exact hn)
  push_cast at h4
  have h5 := fin_le_rnd h1 h4
  cases h : rnd q with
  | nan => exact absurd h (rounding.notNan q)
  | pinf => rw [h] at h3; exact h3.elim
  | ninf => rw [h] at h5; exact h5.elim
  | fin r => rw [h] at h3 h5; exact ⟨r, rfl, h5, h3⟩

theorem rndV_max {a b : FV} (ha : rndV a = a) (hb : rndV b = b) : rndV (FV.max a b) = FV.max a b := by
  unfold FV.max; split_ifs <;> assumption
theorem rndV_min {a b : FV} (ha : rndV a = a) (hb : rndV b = b) : rndV (FV.min a b) = FV.min a b := by
  unfold FV.min; split_ifs <;> assumption

theorem rndV_abs {a : FV} (ha : rndV a = a) : rndV a.abs = a.abs := by
  cases a with
  | fin r =>
    show rnd |r| = fin |r|
    rcases abs_choice r with h | h <;> rw [h]
    · exact ha
    · exact rndV_neg ha
  | _ => rfl

theorem small_lt {r : ℝ} {n : Nat} {B : ℝ} (h : |r| ≤ n * B) (hB : n * B ≤ sumMax) : |r| < overflow := by
  have := sumMax_le
  have := sumMax_pos
  have := overflow_eq
  linarith

open Classical in
/-- The assumptions are met. -/
instance ieee : Ieee T where
  toArith := arith
  val x := x.1
  rnd := rnd
  rounding := rounding
  rnd_val x q h := by
    have := x.2
    rw [h] at this
    exact this
  val_zero := rnd_zero
  val_one := rnd_one
  val_lit _ := rfl
  val_neg x := rndV_neg x.2
  val_add _ _ := rndV_add _ _
  val_sub _ _ := rndV_add _ _
  val_mul _ _ := rndV_mul _ _
  val_div _ _ := isDiv _ _
  val_exp _ := isExp _
  val_log _ := isLog _
  val_tanh x := by
    show IsTanh x.1 (rndV (lift Real.tanh (fin 1) (fin (-1)) x.1))
    cases x.1 with
    | nan => rfl
    | pinf => exact rnd_one
    | ninf => exact (rnd_neg 1).trans (by rw [rnd_one]; rfl)
    | fin a =>
      obtain ⟨r, h1, h2, h3⟩ := between_rnd (q := Real.tanh a) 1 (by norm_num) (by push_cast; exact (Real.neg_one_lt_tanh a).le) (by push_cast; exact (Real.tanh_lt_one a).le)
      exact ⟨r, h1, by simpa using h2, by simpa using h3⟩
  val_atan x := by
    show IsAtan x.1 (rndV (lift Real.arctan (fin 1) (fin (-1)) x.1))
    have hpi := Real.pi_le_four
    cases x.1 with
    | nan => rfl
    | pinf => exact ⟨1, rnd_one, by norm_num, by norm_num⟩
    | ninf => exact ⟨-1, (rnd_neg 1).trans (by rw [rnd_one]; rfl), by norm_num, by norm_num⟩
    | fin a =>
      obtain ⟨r, h1, h2, h3⟩ := between_rnd (q := Real.arctan a) 2 (by norm_num) (by push_cast; linarith [Real.neg_pi_div_two_lt_arctan a]) (by push_cast; linarith [Real.arctan_lt_pi_div_two a])
      exact ⟨r, h1, by simpa using h2, by simpa using h3⟩
  val_sin x := by
    show IsTrig x.1 (rndV (lift Real.sin nan nan x.1))
    cases x.1 with
    | fin a =>
      obtain ⟨r, h1, h2, h3⟩ := between_rnd (q := Real.sin a) 1 (by norm_num) (by push_cast; exact Real.neg_one_le_sin a) (by push_cast; exact Real.sin_le_one a)
      exact ⟨r, h1, by simpa using h2, by simpa using h3⟩
    | _ => rfl
  val_cos x := by
    show IsTrig x.1 (rndV (lift Real.cos nan nan x.1))
    cases x.1 with
    | fin a =>
      obtain ⟨r, h1, h2, h3⟩ := between_rnd (q := Real.cos a) 1 (by norm_num) (by push_cast; exact Real.neg_one_le_cos a) (by push_cast; exact Real.cos_le_one a)
      exact ⟨r, h1, by simpa using h2, by simpa using h3⟩
    | _ => rfl
  val_fabs x := rndV_abs x.2
  val_fmax x y := rndV_max x.2 y.2
  val_fmin x y := rndV_min x.2 y.2
  lt_iff x y := decide_eq_true_iff
  le_iff x y := decide_eq_true_iff
  dot_nan l h := by
    refine congrArg rndV (foldr_nan (fun p : T × T => FV.mul fin p.1.1 p.2.1) l ?_)
    obtain ⟨p, hp, h⟩ := h
    refine ⟨p, hp, ?_⟩
    rcases h with ⟨h, _⟩ | ⟨_, h⟩ <;> rw [h]
    · cases p.2.1 <;> rfl
    · cases p.1.1 <;> rfl
  dot_bound l B h _ hB := by
    obtain ⟨r, h1, h2⟩ := foldr_dot_bound l B h
    obtain ⟨q, h3, h4⟩ := rnd_of_lt (small_lt h2 hB)
    exact ⟨q, (congrArg rndV h1).trans h3, by have := (abs_nonneg r).trans h2; linarith⟩
  total_nan l h := congrArg rndV (foldr_nan (fun x : T => x.1) l h)
  total_pinf l h h' := congrArg rndV ((foldr_nonneg l h).2.2 h')
  total_zero l h := (congrArg rndV (foldr_zero l h)).trans rnd_zero
  total_nonneg l h := by
    obtain ⟨h1, h2, _⟩ := foldr_nonneg l h
    refine ⟨?_, fun x hx => ?_⟩
    · have := rndV_mono h1
      rw [show rndV (fin 0) = fin 0 from rnd_zero] at this
      exact this
    · have := rndV_mono (h2 x hx)
      rw [x.2] at this
      exact this
  total_bound l B h _ hB := by
    obtain ⟨r, h1, h2⟩ := foldr_total_bound l B h
    obtain ⟨q, h3, h4⟩ := rnd_of_lt (small_lt h2 hB)
    exact ⟨q, (congrArg rndV h1).trans h3, by have := (abs_nonneg r).trans h2; linarith⟩

end
end Witness
end Nnet.NN.Flt
