import Verif.NN.Binary64Lemmas
/-!
# Binary64 is an instance of `Ieee`

`Double P` is binary64 on the platform `P` (C library, BLAS). `ieee P` shows that it has all the properties the theorems about special values assume, for every platform; `Platform.exact` is a platform:
correctly rounded functions and sums from left to right.
-/
namespace Nnet.NN.Flt.B64
open FV
noncomputable section

theorem rnd_zero : rnd 0 = fin 0 := by simpa using rounding.int 0 (by norm_num)
theorem rnd_one : rnd 1 = fin 1 := by simpa using rounding.int 1 (by norm_num)

theorem isDouble_rnd (x : ℝ) : IsDouble (rnd x) := isDouble_rnd_of (fun _ _ => rnd_idem) x

theorem isDouble_infSign (a : ℝ) : IsDouble (infSign a) := by unfold infSign; split_ifs <;> trivial

theorem isDouble_add (v w : FV) : IsDouble (FV.add rnd v w) := by
  cases v <;> cases w <;> first | trivial | exact isDouble_rnd _

theorem isDouble_mul (v w : FV) : IsDouble (FV.mul rnd v w) := by
  cases v <;> cases w <;> first | trivial | exact isDouble_rnd _ | exact isDouble_infSign _

theorem isDouble_neg {v : FV} (h : IsDouble v) : IsDouble v.neg := by
  cases v with
  | fin r =>
    show rnd (-r) = fin (-r)
    rw [rnd_neg, show rnd r = fin r from h]
    rfl
  | _ => trivial

theorem isDouble_abs {v : FV} (h : IsDouble v) : IsDouble v.abs := by
  cases v with
  | fin r =>
    show rnd |r| = fin |r|
    rcases abs_choice r with h' | h' <;> rw [h']
    · exact h
    · exact isDouble_neg h
  | _ => trivial

theorem isDouble_max {v w : FV} (h : IsDouble v) (h' : IsDouble w) : IsDouble (FV.max v w) := by unfold FV.max; split_ifs <;> assumption
theorem isDouble_min {v w : FV} (h : IsDouble v) (h' : IsDouble w) : IsDouble (FV.min v w) := by unfold FV.min; split_ifs <;> assumption

theorem isDouble_div (x y : Dbl) : IsDouble (div x y) := by
  unfold div
  split <;> (try split_ifs) <;> first | trivial | exact rnd_zero | exact isDouble_rnd _

theorem isDouble_fma (x y : FV) {z : FV} (h : IsDouble z) : IsDouble (fma x y z) := by
  unfold fma
  split
  · split
    · exact isDouble_rnd _
    · exact h
  · exact isDouble_add _ _

theorem isDouble_eval (l : List (FV × FV)) : ∀ p : Plan, IsDouble (p.eval l)
  | .zero => rnd_zero
  | .prod i => isDouble_mul _ _
  | .add s t => isDouble_add _ _
  | .fma i t => isDouble_fma _ _ (isDouble_eval l t)

/-- Binary64 on a platform. -/
def Double (_ : Platform) := Dbl

open Classical in
/-- The operations. The sign of a zero sum or difference is that of both operands if they agree, else plus. -/
instance arith (P : Platform) : Arith (Double P) where
  zero := ⟨fin 0, false, rnd_zero⟩
  one := ⟨fin 1, false, rnd_one⟩
  add x y := ⟨FV.add rnd x.v y.v, sign x && sign y, isDouble_add _ _⟩
  sub x y := ⟨FV.add rnd x.v y.v.neg, sign x && !sign y, isDouble_add _ _⟩
  mul x y := ⟨FV.mul rnd x.v y.v, sign x != sign y, isDouble_mul _ _⟩
  div x y := ⟨div x y, sign x != sign y, isDouble_div x y⟩
  neg x := ⟨x.v.neg, !x.negz, isDouble_neg x.ok⟩
  lit q := ⟨rnd q, decide (q < 0), isDouble_rnd _⟩
  exp x := ⟨P.exp x.v, P.sgn x.v, P.exp_double _ x.ok⟩
  log x := ⟨P.log x.v, P.sgn x.v, P.log_double _ x.ok⟩
  tanh x := ⟨P.tanh x.v, P.sgn x.v, P.tanh_double _ x.ok⟩
  atan x := ⟨P.atan x.v, P.sgn x.v, P.atan_double _ x.ok⟩
  cos x := ⟨P.cos x.v, P.sgn x.v, P.cos_double _ x.ok⟩
  sin x := ⟨P.sin x.v, P.sgn x.v, P.sin_double _ x.ok⟩
  fabs x := ⟨x.v.abs, false, isDouble_abs x.ok⟩
  fmax x y := ⟨FV.max x.v y.v, P.sgn x.v, isDouble_max x.ok y.ok⟩
  fmin x y := ⟨FV.min x.v y.v, P.sgn x.v, isDouble_min x.ok y.ok⟩
  lt x y := decide (Lt x.v y.v)
  le x y := decide (Le x.v y.v)
  dot l := let m := l.map fun p => (p.1.v, p.2.v); ⟨(P.dotPlan m).eval m, P.sumSgn m, isDouble_eval _ _⟩
  total l := let m := l.map fun x => x.v; ⟨(P.sumPlan m).eval (m.map fun v => (v, fin 1)), P.sumSgn (m.map fun v => (v, fin 1)), isDouble_eval _ _⟩

/-! ## Sums -/

theorem fma_nan {a b c : FV} (h : a = nan ∨ b = nan ∨ c = nan) : fma a b c = nan := by
  rcases h with rfl | rfl | rfl
  · cases b <;> cases c <;> rfl
  · cases a <;> cases c <;> rfl
  · unfold fma
    cases FV.mul fin a b <;> rfl

theorem add_nan {a b : FV} (h : a = nan ∨ b = nan) : FV.add rnd a b = nan := by
  rcases h with rfl | rfl
  · cases b <;> rfl
  · cases a <;> rfl

theorem mul_nan {a b : FV} (h : a = nan ∨ b = nan) : FV.mul rnd a b = nan := by
  rcases h with rfl | rfl
  · cases b <;> rfl
  · cases a <;> rfl

theorem eval_nan (l : List (FV × FV)) {i : Nat} {q : FV × FV} (hq : l[i]? = some q) (hn : q.1 = nan ∨ q.2 = nan) : ∀ p : Plan, i ∈ p.leaves → p.eval l = nan
  | .zero, h => by cases h
  | .prod j, h => by
    obtain rfl : i = j := by simpa [Plan.leaves] using h
    simp only [Plan.eval, List.getD_eq_getElem?_getD, hq, Option.getD_some]
    exact mul_nan hn
  | .add s t, h => by
    simp only [Plan.eval]
    rcases List.mem_append.1 h with h | h
    · exact add_nan (.inl (eval_nan l hq hn s h))
    · exact add_nan (.inr (eval_nan l hq hn t h))
  | .fma j t, h => by
    simp only [Plan.eval]
    rcases List.mem_cons.1 h with rfl | h
    · simp only [List.getD_eq_getElem?_getD, hq, Option.getD_some]
      exact fma_nan (hn.elim .inl fun h => .inr (.inl h))
    · exact fma_nan (.inr (.inr (eval_nan l hq hn t h)))

theorem eval_empty (l : List (FV × FV)) : ∀ p : Plan, p.leaves = [] → p.eval l = fin 0
  | .zero, _ => rfl
  | .prod _, h => by cases h
  | .add s t, h => by
    obtain ⟨h1, h2⟩ := List.append_eq_nil_iff.1 h
    simp only [Plan.eval, eval_empty l s h1, eval_empty l t h2]
    show rnd (0 + 0) = fin 0
    rw [add_zero, rnd_zero]
  | .fma _ _, h => by cases h

theorem u_pow_le : ∀ k : ℕ, k < 2 ^ 50 → (1 + u) ^ k ≤ 1 + 2 * k * u
  | 0, _ => by norm_num
  | k + 1, h => by
    have h1 := u_pow_le k (by omega)
    have hu : (0 : ℝ) < u := by unfold u; positivity
    have hk : (k : ℝ) ≤ 2 ^ 50 := by exact_mod_cast (by omega : k ≤ 2 ^ 50)
    have hku : 2 * k * u ≤ 1 := by
      have : 2 * (2 : ℝ) ^ 50 * u ≤ 1 := by unfold u; norm_num
      nlinarith
    rw [pow_succ]
    push_cast
    have := mul_le_mul_of_nonneg_right h1 (by linarith : (0 : ℝ) ≤ 1 + u)
    nlinarith

theorem u_pow_two {k : ℕ} (h : k < 2 ^ 50) : (1 + u) ^ k ≤ 2 := by
  have h1 := u_pow_le k h
  have hu : (0 : ℝ) < u := by unfold u; positivity
  have hk : (k : ℝ) ≤ 2 ^ 50 := by exact_mod_cast h.le
  have : 2 * (2 : ℝ) ^ 50 * u ≤ 1 := by unfold u; norm_num
  nlinarith

theorem isDouble_grid {a : ℝ} (h : IsDouble (fin a)) : Grid a := by
  rw [(rnd_eq h).1]
  exact r64_grid a

theorem four_sumMax : 4 * sumMax + 4 * sumMax ≤ large := by
  have h1 := sumMax_le
  have h2 := sumMax_pos
  have : (8 : ℝ) ≤ 2 ^ 23 := by norm_num
  nlinarith

theorem two_k_bound {k : ℕ} {B : ℝ} (hk : k < 2 ^ 50) (hB : 0 ≤ B) : (1 + u) ^ k * (2 * k * B) ≤ 4 * (k * B) := by
  have := u_pow_two hk
  have h : 0 ≤ 2 * k * B := by positivity
  nlinarith

theorem eval_bound (l : List (FV × FV)) {B : ℝ} (hB0 : 0 ≤ B) : ∀ p : Plan, (∀ i ∈ p.leaves, ∃ a b, l.getD i (fin 0, fin 0) = (fin a, fin b) ∧ |a * b| ≤ B) → p.leaves.length < 2 ^ 50 →
    p.leaves.length * B ≤ sumMax → ∃ r, p.eval l = fin r ∧ |r| ≤ (1 + u) ^ p.leaves.length * (2 * p.leaves.length * B)
  | .zero, _, _, _ => ⟨0, rfl, by simp [Plan.leaves]⟩
  | .prod i, h, _, hs => by
    obtain ⟨a, b, h1, h2⟩ := h i (by simp [Plan.leaves])
    simp only [Plan.eval, h1]
    have hs' : B ≤ sumMax := by simpa [Plan.leaves] using hs
    have hl := four_sumMax
    have hp := sumMax_pos
    refine ⟨r64 (a * b), rnd_of_le (by linarith), ?_⟩
    have := r64_double (a * b)
    have hu : (0 : ℝ) < u := by unfold u; positivity
    simp only [Plan.leaves, List.length_singleton, pow_one]
    push_cast
    nlinarith
  | .add s t, h, hn, hs => by
    simp only [Plan.leaves, List.length_append] at hn hs ⊢
    push_cast at hs ⊢
    have hs1 : (0 : ℝ) ≤ s.leaves.length * B := by positivity
    have hs2 : (0 : ℝ) ≤ t.leaves.length * B := by positivity
    obtain ⟨x, hx, hx2⟩ := eval_bound l hB0 s (fun i hi => h i (List.mem_append_left _ hi)) (by omega) (by linarith)
    obtain ⟨y, hy, hy2⟩ := eval_bound l hB0 t (fun i hi => h i (List.mem_append_right _ hi)) (by omega) (by linarith)
    have dx : IsDouble (fin x) := hx ▸ isDouble_eval l s
    have dy : IsDouble (fin y) := hy ▸ isDouble_eval l t
    simp only [Plan.eval, hx, hy]
    by_cases e1 : s.leaves = []
    · have : x = 0 := by rw [eval_empty l s e1] at hx; injection hx with hx; exact hx.symm
      refine ⟨y, ?_, ?_⟩
      · show rnd (x + y) = fin y
        rw [this, zero_add]
        exact dy
      · rw [e1]
        simpa using hy2
    by_cases e2 : t.leaves = []
    · have : y = 0 := by rw [eval_empty l t e2] at hy; injection hy with hy; exact hy.symm
      refine ⟨x, ?_, ?_⟩
      · show rnd (x + y) = fin x
        rw [this, add_zero]
        exact dx
      · rw [e2]
        simpa using hx2
    have k1 : 1 ≤ s.leaves.length := List.length_pos_iff.2 e1
    have k2 : 1 ≤ t.leaves.length := List.length_pos_iff.2 e2
    generalize s.leaves.length = k at *
    generalize t.leaves.length = m at *
    have hu : (0 : ℝ) < u := by unfold u; positivity
    have b1 := hx2.trans (two_k_bound (by omega) hB0)
    have b2 := hy2.trans (two_k_bound (by omega) hB0)
    have hl := four_sumMax
    have hxy : |x + y| ≤ |x| + |y| := abs_add_le x y
    refine ⟨r64 (x + y), rnd_of_le (by linarith), ?_⟩
    have h3 := r64_sum (p := 0) ((isDouble_grid dx).add (isDouble_grid dy))
    rw [zero_add, abs_zero, mul_zero, zero_add] at h3
    have p1 : (1 + u) ^ k ≤ (1 + u) ^ (k + m - 1) := pow_le_pow_right₀ (by linarith) (by omega)
    have p2 : (1 + u) ^ m ≤ (1 + u) ^ (k + m - 1) := pow_le_pow_right₀ (by linarith) (by omega)
    have p3 : (1 + u) ^ (k + m) = (1 + u) ^ (k + m - 1) * (1 + u) := by rw [← pow_succ]; congr 1; omega
    have q1 : |x| ≤ (1 + u) ^ (k + m - 1) * (2 * k * B) := hx2.trans (mul_le_mul_of_nonneg_right p1 (by positivity))
    have q2 : |y| ≤ (1 + u) ^ (k + m - 1) * (2 * m * B) := hy2.trans (mul_le_mul_of_nonneg_right p2 (by positivity))
    rw [p3]
    generalize (1 + u) ^ (k + m - 1) = c at *
    calc |r64 (x + y)| ≤ (1 + u) * |x + y| := h3
      _ ≤ (1 + u) * (c * (2 * k * B) + c * (2 * m * B)) := mul_le_mul_of_nonneg_left (by linarith) (by linarith)
      _ = c * (1 + u) * (2 * (k + m) * B) := by ring
  | .fma i t, h, hn, hs => by
    simp only [Plan.leaves, List.length_cons] at hn hs ⊢
    push_cast at hs ⊢
    have hs2 : (0 : ℝ) ≤ t.leaves.length * B := by positivity
    obtain ⟨a, b, h1, h2⟩ := h i (List.mem_cons_self ..)
    obtain ⟨y, hy, hy2⟩ := eval_bound l hB0 t (fun i hi => h i (List.mem_cons_of_mem _ hi)) (by omega) (by linarith)
    have dy : IsDouble (fin y) := hy ▸ isDouble_eval l t
    simp only [Plan.eval, h1, hy]
    generalize t.leaves.length = m at *
    have hu : (0 : ℝ) < u := by unfold u; positivity
    have b2 := hy2.trans (two_k_bound (by omega) hB0)
    have hl := four_sumMax
    have hp := sumMax_pos
    have hxy : |a * b + y| ≤ |a * b| + |y| := abs_add_le _ y
    refine ⟨r64 (a * b + y), rnd_of_le (by linarith), ?_⟩
    have h3 := r64_sum (p := a * b) (isDouble_grid dy)
    have p1 : 1 ≤ (1 + u) ^ m := one_le_pow₀ (by linarith)
    rw [pow_succ]
    generalize (1 + u) ^ m = c at *
    calc |r64 (a * b + y)| ≤ (1 + u) * (2 * |a * b| + |y|) := h3
      _ ≤ (1 + u) * (c * (2 * B) + c * (2 * m * B)) := mul_le_mul_of_nonneg_left (by nlinarith) (by linarith)
      _ = c * (1 + u) * (2 * (m + 1) * B) := by ring

theorem getD_of_lt {α : Type} {l : List α} {i : Nat} {d : α} (h : i < l.length) : l.getD i d = l[i] := by
  rw [List.getD_eq_getElem?_getD, List.getElem?_eq_getElem h]
  rfl

theorem leaves_le {l : List (FV × FV)} {p : Plan} (h : p.For l) : p.leaves.length ≤ l.length := by
  have := (List.subperm_of_subset h.nodup (fun i hi => List.mem_range.2 (h.inside i hi) : p.leaves ⊆ List.range l.length)).length_le
  simpa using this

theorem eval_bound' {l : List (FV × FV)} {p : Plan} (h : p.For l) {B : ℝ} (hl : ∀ q ∈ l, ∃ a b, q.1 = fin a ∧ q.2 = fin b ∧ |a * b| ≤ B) (hn : l.length < 2 ^ 50) (hs : l.length * B ≤ sumMax) :
    ∃ r, p.eval l = fin r ∧ |r| ≤ 4 * l.length * B := by
  rcases lt_or_ge B 0 with hB | hB
  · have : l = [] := by
      cases l with
      | nil => rfl
      | cons q l =>
        obtain ⟨a, b, _, _, h⟩ := hl q (by simp)
        linarith [abs_nonneg (a * b)]
    subst this
    have h1 := leaves_le h
    exact ⟨0, eval_empty _ p (List.length_eq_zero_iff.1 (by simpa using h1)), by simp⟩
  have hk := leaves_le h
  have hk' : (p.leaves.length : ℝ) ≤ l.length := by exact_mod_cast hk
  obtain ⟨r, h1, h2⟩ := eval_bound l hB p (fun i hi => by
    have hi' := h.inside i hi
    obtain ⟨a, b, e1, e2, e3⟩ := hl l[i] (List.getElem_mem hi')
    refine ⟨a, b, ?_, e3⟩
    rw [getD_of_lt hi', ← e1, ← e2]) (by omega) (by nlinarith)
  refine ⟨r, h1, ?_⟩
  have := h2.trans (two_k_bound (by omega) hB)
  nlinarith

theorem mul_one_double {v : FV} (h : IsDouble v) : FV.mul rnd v (fin 1) = v := by
  cases v with
  | fin r =>
    show rnd (r * 1) = fin r
    rw [mul_one]
    exact h
  | nan => rfl
  | pinf => show infSign 1 = pinf; unfold infSign; rw [if_pos one_pos]
  | ninf => show infSign (-1) = ninf; unfold infSign; rw [if_neg (by norm_num), if_pos (by norm_num)]

theorem fma_one (v t : FV) : fma v (fin 1) t = FV.add rnd v t := by
  cases v with
  | fin r =>
    cases t with
    | fin c => show rnd (r * 1 + c) = rnd (r + c); rw [mul_one]
    | _ => rfl
  | nan => cases t <;> rfl
  | pinf =>
    have h : FV.mul fin pinf (fin 1) = pinf := by show infSign 1 = pinf; unfold infSign; rw [if_pos one_pos]
    unfold fma
    rw [h]
  | ninf =>
    have h : FV.mul fin ninf (fin 1) = ninf := by show infSign (-1) = ninf; unfold infSign; rw [if_neg (by norm_num), if_pos (by norm_num)]
    unfold fma
    rw [h]

theorem add_nonneg_double {s t : FV} (ds : IsDouble s) (dt : IsDouble t) (hs : Le (fin 0) s) (ht : Le (fin 0) t) :
    Le (fin 0) (FV.add rnd s t) ∧ Le s (FV.add rnd s t) ∧ Le t (FV.add rnd s t) ∧ ((s = pinf ∨ t = pinf) → FV.add rnd s t = pinf) := by
  cases s with
  | nan => exact hs.elim
  | ninf => exact hs.elim
  | pinf => cases t <;> first | exact ht.elim | exact ⟨trivial, trivial, trivial, fun _ => rfl⟩
  | fin a =>
    cases t with
    | nan => exact ht.elim
    | ninf => exact ht.elim
    | pinf => exact ⟨trivial, trivial, trivial, fun _ => rfl⟩
    | fin b =>
      have ha : (0 : ℝ) ≤ a := hs
      have hb : (0 : ℝ) ≤ b := ht
      refine ⟨?_, ?_, ?_, fun h => by rcases h with h | h <;> cases h⟩
      · have := rnd_mono 0 (a + b) (by linarith)
        rwa [rnd_zero] at this
      · have := rnd_mono a (a + b) (by linarith)
        rwa [show rnd a = fin a from ds] at this
      · have := rnd_mono b (a + b) (by linarith)
        rwa [show rnd b = fin b from dt] at this

theorem Le_trans {a b c : FV} (h : Le a b) (h' : Le b c) : Le a c := by
  cases a <;> cases b <;> cases c <;> first | exact h.elim | exact h'.elim | trivial | exact le_trans (α := ℝ) h h'

/-- Sums of non-negative values. -/
theorem eval_nonneg (l : List FV) (hd : ∀ v ∈ l, IsDouble v) (h0 : ∀ v ∈ l, Le (fin 0) v) : ∀ p : Plan, (∀ i ∈ p.leaves, i < l.length) →
    Le (fin 0) (p.eval (l.map fun v => (v, fin 1))) ∧ (∀ i ∈ p.leaves, ∀ v, l[i]? = some v → Le v (p.eval (l.map fun v => (v, fin 1))) ∧ (v = pinf → p.eval (l.map fun v => (v, fin 1)) = pinf))
  | .zero, _ => ⟨le_refl (0 : ℝ), fun _ h => by cases h⟩
  | .prod i, h => by
    have hi := h i (by simp [Plan.leaves])
    simp only [Plan.eval, Plan.leaves, List.mem_singleton]
    rw [getD_of_lt (by simpa using hi), List.getElem_map, mul_one_double (hd _ (List.getElem_mem hi))]
    refine ⟨h0 _ (List.getElem_mem hi), fun j hj v hv => ?_⟩
    subst hj
    rw [List.getElem?_eq_getElem hi] at hv
    cases hv
    refine ⟨?_, fun h => h⟩
    have := h0 _ (List.getElem_mem hi)
    cases hv : l[j] <;> rw [hv] at this <;> first | exact this.elim | trivial | exact le_refl (_ : ℝ)
  | .add s t, h => by
    obtain ⟨a1, a2⟩ := eval_nonneg l hd h0 s fun i hi => h i (List.mem_append_left _ hi)
    obtain ⟨b1, b2⟩ := eval_nonneg l hd h0 t fun i hi => h i (List.mem_append_right _ hi)
    obtain ⟨c1, c2, c3, c4⟩ := add_nonneg_double (isDouble_eval _ s) (isDouble_eval _ t) a1 b1
    simp only [Plan.eval]
    refine ⟨c1, fun i hi v hv => ?_⟩
    rcases List.mem_append.1 hi with hi | hi
    · obtain ⟨d1, d2⟩ := a2 i hi v hv
      exact ⟨Le_trans d1 c2, fun h => c4 (.inl (d2 h))⟩
    · obtain ⟨d1, d2⟩ := b2 i hi v hv
      exact ⟨Le_trans d1 c3, fun h => c4 (.inr (d2 h))⟩
  | .fma j t, h => by
    obtain ⟨b1, b2⟩ := eval_nonneg l hd h0 t fun i hi => h i (List.mem_cons_of_mem _ hi)
    have hj := h j (List.mem_cons_self ..)
    obtain ⟨c1, c2, c3, c4⟩ := add_nonneg_double (hd _ (List.getElem_mem hj)) (isDouble_eval _ t) (h0 _ (List.getElem_mem hj)) b1
    simp only [Plan.eval]
    rw [getD_of_lt (by simpa using hj), List.getElem_map, fma_one]
    refine ⟨c1, fun i hi v hv => ?_⟩
    rcases List.mem_cons.1 hi with rfl | hi
    · rw [List.getElem?_eq_getElem hj] at hv
      cases hv
      exact ⟨c2, fun h => c4 (.inl h)⟩
    · obtain ⟨d1, d2⟩ := b2 i hi v hv
      exact ⟨Le_trans d1 c3, fun h => c4 (.inr (d2 h))⟩

theorem eval_zero (l : List FV) (hz : ∀ v ∈ l, v = fin 0) : ∀ p : Plan, p.eval (l.map fun v => (v, fin 1)) = fin 0
  | .zero => rfl
  | .prod i => by
    have h : ∀ q, (l.map fun v => (v, (fin 1 : FV))).getD i (fin 0, fin 0) = q → FV.mul rnd q.1 q.2 = fin 0 := fun q hq => by
      rw [List.getD_eq_getElem?_getD, List.getElem?_map] at hq
      cases hl : l[i]? with
      | none => rw [hl] at hq; cases hq; show rnd (0 * 0) = _; rw [mul_zero, rnd_zero]
      | some v =>
        rw [hl, hz v (List.mem_of_getElem? hl)] at hq
        cases hq
        show rnd (0 * 1) = _
        rw [zero_mul, rnd_zero]
    exact h _ rfl
  | .add s t => by
    simp only [Plan.eval, eval_zero l hz s, eval_zero l hz t]
    show rnd (0 + 0) = _
    rw [add_zero, rnd_zero]
  | .fma i t => by
    have h : ∀ q, (l.map fun v => (v, (fin 1 : FV))).getD i (fin 0, fin 0) = q → fma q.1 q.2 (fin 0) = fin 0 := fun q hq => by
      rw [List.getD_eq_getElem?_getD, List.getElem?_map] at hq
      cases hl : l[i]? with
      | none => rw [hl] at hq; cases hq; show rnd (0 * 0 + 0) = _; rw [mul_zero, add_zero, rnd_zero]
      | some v =>
        rw [hl, hz v (List.mem_of_getElem? hl)] at hq
        cases hq
        show rnd (0 * 1 + 0) = _
        rw [zero_mul, add_zero, rnd_zero]
    simp only [Plan.eval, eval_zero l hz t]
    exact h _ rfl

theorem sign_pinf {x : Dbl} (h : x.v = pinf) : sign x = false := by unfold sign; rw [h]
theorem sign_ninf {x : Dbl} (h : x.v = ninf) : sign x = true := by unfold sign; rw [h]
theorem sign_neg {x : Dbl} {a : ℝ} (h : x.v = fin a) (ha : a < 0) : sign x = true := by
  unfold sign
  rw [h]
  simp [ha, ha.ne]
theorem sign_pos {x : Dbl} {a : ℝ} (h : x.v = fin a) (ha : 0 < a) : sign x = false := by
  unfold sign
  rw [h]
  simp [ha.le, ha.ne']

theorem isDiv (x y : Dbl) : IsDiv rnd x.v y.v (div x y) := by
  unfold div
  cases hx : x.v <;> cases hy : y.v <;> simp only [IsDiv]
  · rename_i b
    by_cases hb : b = 0
    · rw [if_pos hb]
      split_ifs <;> first | exact .inl rfl | exact .inr rfl
    · rw [if_neg hb, sign_pinf hx]
      unfold infSign
      rcases lt_or_gt_of_ne hb with h | h
      · rw [if_neg (not_lt.2 h.le), if_pos h, sign_neg hy h]
        rfl
      · rw [if_pos h, sign_pos hy h]
        rfl
  · rename_i b
    by_cases hb : b = 0
    · rw [if_pos hb]
      split_ifs <;> first | exact .inl rfl | exact .inr rfl
    · rw [if_neg hb, sign_ninf hx]
      unfold infSign
      rcases lt_or_gt_of_ne hb with h | h
      · rw [if_pos (by linarith : 0 < -b), sign_neg hy h]
        rfl
      · rw [if_neg (by linarith : ¬ 0 < -b), if_pos (by linarith : -b < 0), sign_pos hy h]
        rfl
  · rename_i a b
    by_cases hb : b = 0
    · rw [if_pos hb, if_pos hb]
      by_cases ha : a = 0
      · rw [if_pos ha, if_pos ha]
      · rw [if_neg ha, if_neg ha]
        split_ifs <;> first | exact .inl rfl | exact .inr rfl
    · rw [if_neg hb, if_neg hb]

open Classical in
/-- Binary64 has all the properties the theorems about special values assume, on every platform. -/
instance ieee (P : Platform) : Ieee (Double P) where
  toArith := arith P
  val x := x.v
  rnd := rnd
  rounding := rounding
  rnd_val x q h := by
    have := x.ok
    rw [h] at this
    exact this
  val_zero := rfl
  val_one := rfl
  val_lit _ := rfl
  val_neg _ := rfl
  val_add _ _ := rfl
  val_sub _ _ := rfl
  val_mul _ _ := rfl
  val_div x y := isDiv x y
  val_exp x := P.isExp _ x.ok
  val_log x := P.isLog _ x.ok
  val_tanh x := P.isTanh _ x.ok
  val_atan x := P.isAtan _ x.ok
  val_sin x := P.isSin _ x.ok
  val_cos x := P.isCos _ x.ok
  val_fabs _ := rfl
  val_fmax _ _ := rfl
  val_fmin _ _ := rfl
  lt_iff _ _ := decide_eq_true_iff
  le_iff _ _ := decide_eq_true_iff
  dot_nan l h := by
    obtain ⟨p, hp, h⟩ := h
    obtain ⟨i, hi, rfl⟩ := List.getElem_of_mem hp
    have hq : (l.map fun p => (p.1.v, p.2.v))[i]? = some (l[i].1.v, l[i].2.v) := by
      rw [List.getElem?_map, List.getElem?_eq_getElem hi]
      rfl
    refine eval_nan _ hq (h.elim (fun h => .inl h.1) fun h => .inr h.2) _ ?_
    have hne : ∀ {v : FV}, v = nan → v ≠ fin 0 := fun h => by rw [h]; simp
    rcases (P.dotPlan_ok (l.map fun p => (p.1.v, p.2.v))).all i _ hq with h1 | h1 | h1
    · exact h1
    · exact (h.elim (fun h => hne h.1 h1) fun h => h.1 h1).elim
    · exact (h.elim (fun h => h.2 h1) fun h => hne h.2 h1).elim
  dot_bound l B h hn hs := by
    have := eval_bound' (P.dotPlan_ok (l.map fun p => (p.1.v, p.2.v))) (B := B) (fun q hq => by
      obtain ⟨p, hp, rfl⟩ := List.mem_map.1 hq
      exact h p hp) (by simpa using hn) (by simpa using hs)
    simp only [List.length_map] at this
    exact this
  total_nan l h := by
    obtain ⟨x, hp, h⟩ := h
    obtain ⟨i, hi, rfl⟩ := List.getElem_of_mem hp
    have hq : ((l.map fun x => x.v).map fun v => (v, (fin 1 : FV)))[i]? = some (l[i].v, fin 1) := by
      rw [List.getElem?_map, List.getElem?_map, List.getElem?_eq_getElem hi]
      rfl
    refine eval_nan _ hq (.inl h) _ ?_
    rcases (P.sumPlan_ok (l.map fun x => x.v)).all i _ hq with h1 | h1 | h1
    · exact h1
    · have h : l[i].v = nan := h
      rw [h] at h1
      cases h1
    · have h1 : (fin 1 : FV) = fin 0 := h1
      injection h1 with h1
      exact absurd h1 one_ne_zero
  total_pinf l h h' := by
    obtain ⟨x, hp, h'⟩ := h'
    obtain ⟨i, hi, rfl⟩ := List.getElem_of_mem hp
    have hok := P.sumPlan_ok (l.map fun x => x.v)
    have hq : ((l.map fun x => x.v).map fun v => (v, (fin 1 : FV)))[i]? = some (l[i].v, fin 1) := by
      rw [List.getElem?_map, List.getElem?_map, List.getElem?_eq_getElem hi]
      rfl
    have hleaf : i ∈ (P.sumPlan (l.map fun x => x.v)).leaves := by
      rcases hok.all i _ hq with h1 | h1 | h1
      · exact h1
      · have h : l[i].v = pinf := h'
        rw [h] at h1
        cases h1
      · have h1 : (fin 1 : FV) = fin 0 := h1
        injection h1 with h1
        exact absurd h1 one_ne_zero
    obtain ⟨_, h2⟩ := eval_nonneg (l.map fun x => x.v) (fun v hv => by
      obtain ⟨x, hx, rfl⟩ := List.mem_map.1 hv
      exact x.ok) (fun v hv => by
      obtain ⟨x, hx, rfl⟩ := List.mem_map.1 hv
      exact h x hx) _ (fun i hi => by simpa using hok.inside i hi)
    exact (h2 i hleaf l[i].v (by rw [List.getElem?_map, List.getElem?_eq_getElem hi]; rfl)).2 h'
  total_zero l h := eval_zero _ (fun v hv => by
    obtain ⟨x, hx, rfl⟩ := List.mem_map.1 hv
    exact h x hx) _
  total_nonneg l h := by
    have hok := P.sumPlan_ok (l.map fun x => x.v)
    obtain ⟨h1, h2⟩ := eval_nonneg (l.map fun x => x.v) (fun v hv => by
      obtain ⟨x, hx, rfl⟩ := List.mem_map.1 hv
      exact x.ok) (fun v hv => by
      obtain ⟨x, hx, rfl⟩ := List.mem_map.1 hv
      exact h x hx) _ (fun i hi => by simpa using hok.inside i hi)
    refine ⟨h1, fun x hx => ?_⟩
    obtain ⟨i, hi, rfl⟩ := List.getElem_of_mem hx
    have hv : (l.map fun x => x.v)[i]? = some l[i].v := by rw [List.getElem?_map, List.getElem?_eq_getElem hi]; rfl
    have hq : ((l.map fun x => x.v).map fun v => (v, (fin 1 : FV)))[i]? = some (l[i].v, fin 1) := by
      rw [List.getElem?_map, hv]
      rfl
    rcases hok.all i _ hq with h3 | h3 | h3
    · exact (h2 i h3 _ hv).1
    · have h3 : l[i].v = fin 0 := h3
      show Le l[i].v _
      rw [h3]
      exact h1
    · have h3 : (fin 1 : FV) = fin 0 := h3
      injection h3 with h3
      exact absurd h3 one_ne_zero
  total_bound l B h hn hs := by
    have := eval_bound' (P.sumPlan_ok (l.map fun x => x.v)) (B := B) (fun q hq => by
      obtain ⟨v, hv, rfl⟩ := List.mem_map.1 hq
      obtain ⟨x, hx, rfl⟩ := List.mem_map.1 hv
      obtain ⟨a, h1, h2⟩ := h x hx
      exact ⟨a, 1, h1, rfl, by rwa [mul_one]⟩) (by simpa using hn) (by simpa using hs)
    simp only [List.length_map] at this
    exact this

/-! ## A platform: correctly rounded functions, sums from left to right -/

theorem r64_tiny {x : ℝ} (h0 : 0 < x) (h : x < 2 ^ (-1075 : ℤ)) : r64 x = 0 := by
  have h1 : Int.log 2 |x| < -1075 := by
    rw [abs_of_pos h0]
    exact (zpow_lt_zpow_iff_right₀ (by norm_num : (1 : ℝ) < 2)).1 ((log_le h0).trans_lt h)
  have he : expo x = -1074 := by unfold expo; omega
  have hq := two_zpow_pos (-1074)
  have h2 : x / 2 ^ (-1074 : ℤ) < 1 / 2 := by
    rw [div_lt_iff₀ hq]
    have : (2 : ℝ) ^ (-1075 : ℤ) = 1 / 2 * 2 ^ (-1074 : ℤ) := by
      rw [show (-1075 : ℤ) = -1 + -1074 by norm_num, zpow_add₀ (by norm_num)]
      norm_num
    rwa [← this]
  have hf : ⌊x / 2 ^ (-1074 : ℤ)⌋ = 0 := by
    rw [Int.floor_eq_iff]
    push_cast
    have : 0 < x / 2 ^ (-1074 : ℤ) := div_pos h0 hq
    constructor <;> linarith
  unfold r64
  rw [he]
  unfold roundEven
  rw [hf, if_pos (by push_cast; linarith)]
  simp

theorem exp_710 : overflow ≤ Real.exp 710 := by
  have h : (2.7182818283 : ℝ) ^ 71 ≤ Real.exp 1 ^ 71 := pow_le_pow_left₀ (by norm_num) (le_of_lt Real.exp_one_gt_d9) 71
  have h1 : (2 ^ 102 * 1.32 : ℝ) ≤ 2.7182818283 ^ 71 := by norm_num
  have h2 : Real.exp 710 = (Real.exp 1 ^ 71) ^ 10 := by rw [← pow_mul, ← Real.exp_nat_mul]; norm_num
  have h3 : overflow ≤ (2 ^ 102 * 1.32 : ℝ) ^ 10 := by
    unfold overflow
    rw [mul_pow, ← pow_mul, show (1024 : ℕ) = 102 * 10 + 4 by norm_num, pow_add]
    exact mul_le_mul_of_nonneg_left (by norm_num) (by positivity)
  rw [h2]
  exact h3.trans (pow_le_pow_left₀ (by positivity) (h1.trans h) 10)

theorem exp_746 : Real.exp (-746) < 2 ^ (-1075 : ℤ) := by
  have h : (2.7182818283 : ℝ) ^ 124 ≤ Real.exp 1 ^ 124 := pow_le_pow_left₀ (by norm_num) (le_of_lt Real.exp_one_gt_d9) 124
  have h1 : (2 ^ 178 * 1.8 : ℝ) ≤ 2.7182818283 ^ 124 := by norm_num
  have h2 : Real.exp 746 = (Real.exp 1 ^ 124) ^ 6 * Real.exp 1 ^ 2 := by rw [← pow_mul, ← pow_add, ← Real.exp_nat_mul]; norm_num
  have h4 : (4 : ℝ) < Real.exp 1 ^ 2 := by
    have := Real.exp_one_gt_d9
    nlinarith
  have h3 : (2 : ℝ) ^ 1075 < Real.exp 746 := by
    rw [h2]
    have h5 : (2 ^ 178 * 1.8 : ℝ) ^ 6 ≤ (Real.exp 1 ^ 124) ^ 6 := pow_le_pow_left₀ (by positivity) (h1.trans h) 6
    have h6 : (2 : ℝ) ^ 1075 ≤ (2 ^ 178 * 1.8 : ℝ) ^ 6 * 4 := by
      rw [mul_pow, ← pow_mul, show (1075 : ℕ) = 178 * 6 + 7 by norm_num, pow_add, mul_assoc]
      exact mul_le_mul_of_nonneg_left (by norm_num) (by positivity)
    have h7 : (0 : ℝ) < (Real.exp 1 ^ 124) ^ 6 := by positivity
    calc (2 : ℝ) ^ 1075 ≤ (2 ^ 178 * 1.8 : ℝ) ^ 6 * 4 := h6
      _ ≤ (Real.exp 1 ^ 124) ^ 6 * 4 := mul_le_mul_of_nonneg_right h5 (by norm_num)
      _ < (Real.exp 1 ^ 124) ^ 6 * Real.exp 1 ^ 2 := mul_lt_mul_of_pos_left h4 h7
  rw [Real.exp_neg, show (2 : ℝ) ^ (-1075 : ℤ) = (2 ^ 1075)⁻¹ by rw [← zpow_natCast, Nat.cast_ofNat, ← zpow_neg]]
  exact inv_strictAnti₀ (by positivity) h3

theorem rnd_le_fin {q b : ℝ} (h : q ≤ b) (hb : rnd b = fin b) : Le (rnd q) (fin b) := by rw [← hb]; exact rnd_mono _ _ h
theorem fin_le_rnd {q b : ℝ} (h : b ≤ q) (hb : rnd b = fin b) : Le (fin b) (rnd q) := by rw [← hb]; exact rnd_mono _ _ h

theorem rnd_zpow {e : ℤ} (h1 : -1074 ≤ e) (h2 : e ≤ 1023) : rnd (2 ^ e) = fin (2 ^ e) := by
  rw [rnd_of_le, r64_zpow h1]
  rw [abs_of_pos (two_zpow_pos e), large_zpow]
  exact zpow_le_zpow_right₀ (by norm_num) h2

theorem between_rnd {q : ℝ} (n : ℤ) (hn : |n| ≤ 2 ^ 53) (h1 : -(n : ℝ) ≤ q) (h2 : q ≤ n) : ∃ r, rnd q = fin r ∧ -(n : ℝ) ≤ r ∧ r ≤ n := by
  have h3 := rnd_le_fin h2 (rounding.int n hn)
  have h4 := rounding.int (-n) (by rw [abs_neg]; exact hn)
  push_cast at h4
  have h5 := fin_le_rnd h1 h4
  cases h : rnd q with
  | nan => exact absurd h (rounding.notNan q)
  | pinf => rw [h] at h3; exact h3.elim
  | ninf => rw [h] at h5; exact h5.elim
  | fin r => rw [h] at h3 h5; exact ⟨r, rfl, h5, h3⟩

/-- A correctly rounded function with the given values at the infinities. -/
def lift (f : ℝ → ℝ) (p n : FV) : FV → FV
  | nan => nan
  | pinf => p
  | ninf => n
  | fin a => rnd (f a)

theorem lift_double {f : ℝ → ℝ} {p n : FV} (hp : IsDouble p) (hn : IsDouble n) (v : FV) : IsDouble (lift f p n v) := by
  cases v <;> first | trivial | assumption | exact isDouble_rnd _

open Classical in
/-- Correctly rounded logarithm. -/
def logR : FV → FV
  | nan | ninf => nan
  | pinf => pinf
  | fin a => if a < 0 then nan else if a = 0 then ninf else rnd (Real.log a)

theorem double_pos {a : ℝ} (h : IsDouble (fin a)) (ha : 0 < a) : 2 ^ (-1074 : ℤ) ≤ a := by
  obtain ⟨n, hn⟩ := isDouble_grid h
  have hq := two_zpow_pos (-1074)
  have : (0 : ℝ) < n := by
    by_contra hc
    rw [hn] at ha
    nlinarith
  have : (1 : ℝ) ≤ n := by exact_mod_cast (by exact_mod_cast this : 0 < n)
  rw [hn]
  nlinarith

theorem log_bound {a : ℝ} (h : IsDouble (fin a)) (ha : 0 < a) : |Real.log a| ≤ 1000 := by
  have h1 := Real.log_le_log (two_zpow_pos _) (double_pos h ha)
  have h2 := Real.log_le_log ha ((le_abs_self a).trans (rnd_eq h).2.le)
  rw [overflow_zpow] at h2
  rw [Real.log_zpow] at h1 h2
  have h3 := Real.log_two_gt_d9
  have h4 := Real.log_two_lt_d9
  push_cast at h1 h2
  rw [abs_le]
  constructor <;> linarith

theorem logR_double (v : FV) : IsDouble (logR v) := by
  unfold logR
  split <;> (try split_ifs) <;> first | trivial | exact isDouble_rnd _

theorem logR_ok (v : FV) (hv : IsDouble v) : IsLog v (logR v) := by
  cases v with
  | nan => rfl
  | pinf => rfl
  | ninf => rfl
  | fin a =>
    simp only [logR, IsLog]
    by_cases h1 : a < 0
    · rw [if_pos h1]
      exact ⟨fun _ => rfl, fun h => by linarith, fun h => by linarith, fun h => by linarith, fun h => by linarith, fun h => by linarith⟩
    rw [if_neg h1]
    by_cases h2 : a = 0
    · rw [if_pos h2]
      exact ⟨fun h => absurd h h1, fun _ => rfl, fun h => by linarith, fun h => by linarith, fun h => by linarith, fun h => by linarith⟩
    rw [if_neg h2]
    refine ⟨fun h => absurd h h1, fun h => absurd h h2, fun h => ?_, fun h => ?_, fun h => fin_le_rnd (Real.log_nonneg h) rnd_zero, fun h h' => rnd_le_fin (Real.log_nonpos h.le h') rnd_zero⟩
    · obtain ⟨h3, h4⟩ := abs_le.1 (log_bound hv h)
      obtain ⟨r, e1, e2, e3⟩ := between_rnd (q := Real.log a) 1000 (by norm_num) (by push_cast; exact h3) (by push_cast; exact h4)
      push_cast at e2 e3
      exact ⟨r, e1, abs_le.2 ⟨e2, e3⟩⟩
    · rw [h, Real.log_one, rnd_zero]

theorem large_8 : large / 8 = (2 : ℝ) ^ (1020 : ℤ) := by
  rw [large_zpow, show (1023 : ℤ) = 1020 + 3 by norm_num, zpow_add₀ (by norm_num)]
  norm_num

theorem tiny_8 : 8 / large = (2 : ℝ) ^ (-1020 : ℤ) := by
  rw [zpow_neg, ← large_8, inv_div]

theorem sum_900 : sumMax / 2 ^ 100 = (2 : ℝ) ^ (900 : ℤ) := by
  unfold sumMax
  rw [show (1000 : ℕ) = 900 + 100 by norm_num, pow_add, mul_div_cancel_right₀ _ (by positivity), ← zpow_natCast, Nat.cast_ofNat]

theorem exp_ok (v : FV) : IsExp v (lift Real.exp pinf (fin 0) v) := by
  cases v with
  | nan => rfl
  | pinf => rfl
  | ninf => rfl
  | fin a =>
    simp only [lift, IsExp]
    refine ⟨fin_le_rnd (Real.exp_pos a).le rnd_zero, fun h => rounding.big _ (exp_710.trans (Real.exp_le_exp.2 h)), fun h => ?_, fun h => ?_, fun h => ?_, fun h => ?_, fun h => ?_, fun h => ?_, fun h => ?_⟩
    · refine rnd_le_fin (((Real.exp_le_exp.2 h).trans_lt Witness.exp_700).le) ?_
      rw [large_8]
      exact rnd_zpow (by norm_num) (by norm_num)
    · have := r64_tiny (Real.exp_pos a) ((Real.exp_le_exp.2 h).trans_lt exp_746)
      rw [rnd_fin, this]
      rw [this, abs_zero]
      unfold overflow
      positivity
    · refine rnd_le_fin ((Real.exp_le_exp.2 h).trans Witness.exp_bound) ?_
      rw [show (1 : ℝ) / 2 ^ 53 = 2 ^ (-53 : ℤ) by norm_num]
      exact rnd_zpow (by norm_num) (by norm_num)
    · refine fin_le_rnd (Witness.exp_m700.trans (Real.exp_le_exp.2 h)) ?_
      rw [tiny_8]
      exact rnd_zpow (by norm_num) (by norm_num)
    · exact rnd_le_fin (Real.exp_le_one_iff.2 h) rnd_one
    · exact fin_le_rnd (Real.one_le_exp h) rnd_one
    · refine rnd_le_fin ((Real.exp_le_exp.2 h).trans Witness.exp_600) ?_
      rw [sum_900]
      exact rnd_zpow (by norm_num) (by norm_num)

/-- Sum of the first `n` products from left to right, starting with 0. -/
def leftPlan : Nat → Plan
  | 0 => .zero
  | n + 1 => .add (leftPlan n) (.prod n)

theorem leftPlan_leaves : ∀ n, (leftPlan n).leaves = List.range n
  | 0 => rfl
  | n + 1 => by rw [List.range_succ, ← leftPlan_leaves n]; rfl

theorem leftPlan_ok (l : List (FV × FV)) : (leftPlan l.length).For l where
  nodup := by rw [leftPlan_leaves]; exact List.nodup_range
  inside i hi := by rw [leftPlan_leaves] at hi; exact List.mem_range.1 hi
  all i q h := .inl (by
    rw [leftPlan_leaves]
    exact List.mem_range.2 (List.getElem?_eq_some_iff.1 h).1)

theorem rnd_neg_one : rnd (-1) = fin (-1) := by rw [rnd_neg, rnd_one]; rfl

/-- Correctly rounded functions, sums from left to right. -/
def Platform.exact : Platform where
  exp := lift Real.exp pinf (fin 0)
  log := logR
  tanh := lift Real.tanh (fin 1) (fin (-1))
  atan := lift Real.arctan (rnd (Real.pi / 2)) (rnd (-(Real.pi / 2)))
  cos := lift Real.cos nan nan
  sin := lift Real.sin nan nan
  exp_double v _ := lift_double (p := pinf) (n := fin 0) trivial rnd_zero v
  log_double v _ := logR_double v
  tanh_double v _ := lift_double (p := fin 1) (n := fin (-1)) rnd_one rnd_neg_one v
  atan_double v _ := lift_double (isDouble_rnd _) (isDouble_rnd _) v
  cos_double v _ := lift_double (p := nan) (n := nan) trivial trivial v
  sin_double v _ := lift_double (p := nan) (n := nan) trivial trivial v
  isExp v _ := exp_ok v
  isLog := logR_ok
  isTanh v _ := by
    cases v with
    | nan => rfl
    | pinf => rfl
    | ninf => rfl
    | fin a =>
      obtain ⟨r, h1, h2, h3⟩ := between_rnd (q := Real.tanh a) 1 (by norm_num) (by push_cast; exact (Real.neg_one_lt_tanh a).le) (by push_cast; exact (Real.tanh_lt_one a).le)
      exact ⟨r, h1, by simpa using h2, by simpa using h3⟩
  isAtan v _ := by
    have hpi := Real.pi_le_four
    have hpi0 := Real.pi_pos
    have key : ∀ q : ℝ, |q| ≤ Real.pi / 2 → ∃ r, rnd q = fin r ∧ -2 ≤ r ∧ r ≤ 2 := fun q hq => by
      obtain ⟨a, b⟩ := abs_le.1 hq
      obtain ⟨r, h1, h2, h3⟩ := between_rnd (q := q) 2 (by norm_num) (by push_cast; linarith) (by push_cast; linarith)
      exact ⟨r, h1, by simpa using h2, by simpa using h3⟩
    cases v with
    | nan => rfl
    | pinf => exact key _ (by rw [abs_of_pos (by linarith)])
    | ninf => exact key _ (by rw [abs_neg, abs_of_pos (by linarith)])
    | fin a => exact key _ (abs_le.2 ⟨(Real.neg_pi_div_two_lt_arctan a).le, (Real.arctan_lt_pi_div_two a).le⟩)
  isCos v _ := by
    cases v with
    | fin a =>
      obtain ⟨r, h1, h2, h3⟩ := between_rnd (q := Real.cos a) 1 (by norm_num) (by push_cast; exact Real.neg_one_le_cos a) (by push_cast; exact Real.cos_le_one a)
      exact ⟨r, h1, by simpa using h2, by simpa using h3⟩
    | _ => rfl
  isSin v _ := by
    cases v with
    | fin a =>
      obtain ⟨r, h1, h2, h3⟩ := between_rnd (q := Real.sin a) 1 (by norm_num) (by push_cast; exact Real.neg_one_le_sin a) (by push_cast; exact Real.sin_le_one a)
      exact ⟨r, h1, by simpa using h2, by simpa using h3⟩
    | _ => rfl
  sgn _ := false
  sumSgn _ := false
  dotPlan l := leftPlan l.length
  sumPlan l := leftPlan l.length
  dotPlan_ok := leftPlan_ok
  sumPlan_ok l := by
    have := leftPlan_ok (l.map fun v => (v, (fin 1 : FV)))
    rwa [List.length_map] at this

end
end Nnet.NN.Flt.B64
