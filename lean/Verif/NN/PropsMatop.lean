import Verif.NN.MatLemmas
import Verif.NN.Layer
/-!
# C27 matrix helper functions
-/
namespace Nnet.NN
open Finset

/-- `m` is the `r x c` matrix whose element in row `i`, column `j` (from 0) is `g i j`. -/
def Mat.Is {R : Type} [Zero R] (m : Mat R) (r c : Nat) (g : Nat → Nat → R) : Prop :=
  m.nr = r ∧ m.nc = c ∧ ∀ i j, i < r → j < c → m.f i j = g i j

theorem Mat.is_of {R : Type} [Zero R] (r c : Nat) (g : Nat → Nat → R) : (Mat.of r c g).Is r c g := ⟨rfl, rfl, fun _ _ hi hj => Mat.of_f' hi hj⟩

section
variable {R : Type} [Field R]

/-- `addcol` puts a column of ones in front of a matrix that has at least one row and one column, and throws for any other. -/
theorem C27_addcol (m : Mat R) :
    (0 < m.nr ∧ 0 < m.nc → ∃ n, addcol m = .ok n ∧ n.Is m.nr (m.nc + 1) (fun i j => match j with | 0 => 1 | j + 1 => m.f i j)) ∧
    (¬ (0 < m.nr ∧ 0 < m.nc) → addcol m = .error .throw) := by
  refine ⟨fun h => ⟨_, addcol_ok h.1 h.2, rfl, rfl, fun i j hi hj => ?_⟩, fun h => addcol_throw (by omega)⟩
  refine Eq.trans (Mat.of_f' hi hj) ?_
  simp only [Mat.of_nr, Mat.of_nc]
  cases j <;> simp

/-- `addrow` puts a row of ones on top, for every matrix. -/
theorem C27_addrow (m : Mat R) :
    ∃ n, addrow m = .ok n ∧ n.Is (m.nr + 1) m.nc (fun i j => match i with | 0 => 1 | i + 1 => m.f i j) := by
  unfold addrow
  refine ⟨_, Mat.insertRows_ok (by omega) (by omega) rfl, rfl, rfl, fun i j hi hj => ?_⟩
  refine Eq.trans (Mat.of_f' hi hj) ?_
  simp only [Mat.of_nr, Mat.of_nc]
  cases i with
  | zero => simp [Mat.of_f' (show 0 < 1 by omega) hj]
  | succ i => simp

/-- `addrows(m, k, v)` inserts a row of `v` before row `k` and keeps the other rows in order; it throws exactly when `k` is negative or
greater than the number of rows. -/
theorem C27_addrows [DecidableEq R] (m : Mat R) (k : Int) (v : R) :
    (0 ≤ k ∧ k ≤ m.nr → ∃ n, addrows m k v = .ok n ∧
      n.Is (m.nr + 1) m.nc (fun i j => if (i : Int) < k then m.f i j else if (i : Int) = k then v else m.f (i - 1) j)) ∧
    (k < 0 ∨ (m.nr : Int) < k → addrows m k v = .error .throw) := by
  unfold addrows
  rw [constMat_eq]
  refine ⟨fun h => ?_, fun h => Mat.insertRows_throw h⟩
  refine ⟨_, Mat.insertRows_ok h.1 h.2 rfl, rfl, rfl, fun i j hi hj => ?_⟩
  refine Eq.trans (Mat.of_f' hi hj) ?_
  simp only [Mat.of_nr, Mat.of_nc]
  by_cases h1 : (i : Int) < k
  · rw [if_pos (by omega), if_pos h1]
  · rw [if_neg (by omega), if_neg h1]
    by_cases h2 : (i : Int) = k
    · rw [if_pos (by omega), if_pos h2, Mat.of_f' (by omega) hj]
    · rw [if_neg (by omega), if_neg h2]

/-- `addcols(m, k, v)` inserts a column of `v` before column `k` and keeps the other columns in order; it throws exactly when `k` is
negative or greater than the number of columns. -/
theorem C27_addcols [DecidableEq R] (m : Mat R) (k : Int) (v : R) :
    (0 ≤ k ∧ k ≤ m.nc → ∃ n, addcols m k v = .ok n ∧
      n.Is m.nr (m.nc + 1) (fun i j => if (j : Int) < k then m.f i j else if (j : Int) = k then v else m.f i (j - 1))) ∧
    (k < 0 ∨ (m.nc : Int) < k → addcols m k v = .error .throw) := by
  unfold addcols
  rw [constMat_eq]
  refine ⟨fun h => ?_, fun h => Mat.insertCols_throw h⟩
  refine ⟨_, Mat.insertCols_ok h.1 h.2 rfl, rfl, rfl, fun i j hi hj => ?_⟩
  refine Eq.trans (Mat.of_f' hi hj) ?_
  simp only [Mat.of_nr, Mat.of_nc]
  by_cases h1 : (j : Int) < k
  · rw [if_pos (by omega), if_pos h1]
  · rw [if_neg (by omega), if_neg h1]
    by_cases h2 : (j : Int) = k
    · rw [if_pos (by omega), if_pos h2, Mat.of_f' hi (by omega)]
    · rw [if_neg (by omega), if_neg h2]

/-- `funcop` applies the function to every element. -/
theorem C27_funcop (m : Mat R) (g : R → R) : (funcop m g).Is m.nr m.nc (fun i j => g (m.f i j)) := Mat.is_of _ _ _

/-- `rowsum` is the column of row sums, `sumall` the sum of all elements and also of all row sums. -/
theorem C27_sums (m : Mat R) :
    (rowsum m).Is m.nr 1 (fun i _ => ∑ j ∈ range m.nc, m.f i j) ∧ sumall m = ∑ i ∈ range m.nr, ∑ j ∈ range m.nc, m.f i j ∧
    sumall (rowsum m) = sumall m := by
  refine ⟨Mat.is_of _ _ _, rfl, ?_⟩
  unfold sumall rowsum Mat.sumRows
  rw [Mat.accu_of]
  simp [Mat.accu]

/-- `repeat(m, r, c)` tiles `m`, `r` times down and `c` times across; negative counts throw. -/
theorem C27_repeat (m : Mat R) (r c : Int) :
    (0 ≤ r ∧ 0 ≤ c → ∃ n, repeatM m r c = .ok n ∧
      n.nr = m.nr * r.toNat ∧ n.nc = m.nc * c.toNat ∧
      ∀ a b i j, a < r.toNat → b < c.toNat → i < m.nr → j < m.nc → n.f (a * m.nr + i) (b * m.nc + j) = m.f i j) ∧
    (r < 0 ∨ c < 0 → repeatM m r c = .error .throw) := by
  unfold repeatM
  refine ⟨fun h => ⟨_, if_pos h, rfl, rfl, ?_⟩, fun h => if_neg (by omega)⟩
  intro a b i j ha hb hi hj
  unfold Mat.repmat
  have h1 : a * m.nr + i < m.nr * r.toNat := by
    calc a * m.nr + i < a * m.nr + m.nr := by omega
      _ = m.nr * (a + 1) := by ring
      _ ≤ m.nr * r.toNat := Nat.mul_le_mul_left _ ha
  have h2 : b * m.nc + j < m.nc * c.toNat := by
    calc b * m.nc + j < b * m.nc + m.nc := by omega
      _ = m.nc * (b + 1) := by ring
      _ ≤ m.nc * c.toNat := Nat.mul_le_mul_left _ hb
  rw [Mat.of_f' h1 h2, Nat.mul_comm a, Nat.mul_add_mod, Nat.mod_eq_of_lt hi, Nat.mul_comm b, Nat.mul_add_mod, Nat.mod_eq_of_lt hj]

end

/-- `exponential` and `logorithm` over the reals. -/
theorem C27_exp_log (m : Mat ℝ) :
    (exponential m).Is m.nr m.nc (fun i j => Real.exp (m.f i j)) ∧ (logorithm m).Is m.nr m.nc (fun i j => Real.log (m.f i j)) :=
  ⟨Mat.is_of _ _ _, Mat.is_of _ _ _⟩

/-- The hypotheses are met: inserting a row of 5 in the middle of a 2 x 1 matrix. -/
example : ∃ n, addrows (Mat.of 2 1 (fun i _ => (i : ℚ))) 1 5 = .ok n ∧ n.nr = 3 ∧ n.f 0 0 = 0 ∧ n.f 1 0 = 5 ∧ n.f 2 0 = 1 := by
  obtain ⟨n, h, hr, hc, he⟩ := (C27_addrows (Mat.of 2 1 (fun i _ => (i : ℚ))) 1 5).1 (by decide)
  refine ⟨n, h, hr, ?_, ?_, ?_⟩
  · rw [he 0 0 (by decide) (by decide)]; simp [Mat.of_f]
  · rw [he 1 0 (by decide) (by decide)]; simp
  · rw [he 2 0 (by decide) (by decide)]; simp [Mat.of_f]

end Nnet.NN
