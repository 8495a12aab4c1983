import Verif.NN.Mat
import Mathlib.Tactic.Ring
import Mathlib.Algebra.BigOperators.Ring.Finset
/-! # Lemmas about matrices -/
namespace Nnet.NN
open Finset

namespace Mat
section
variable {R : Type} [Zero R]

@[simp] theorem of_nr (r c : Nat) (g : Nat → Nat → R) : (of r c g).nr = r := id rfl
@[simp] theorem of_nc (r c : Nat) (g : Nat → Nat → R) : (of r c g).nc = c := id rfl
theorem of_f (r c : Nat) (g : Nat → Nat → R) (i j : Nat) : (of r c g).f i j = if i < r ∧ j < c then g i j else 0 := rfl
theorem of_f' {r c : Nat} {g : Nat → Nat → R} {i j : Nat} (hi : i < r) (hj : j < c) : (of r c g).f i j = g i j := if_pos ⟨hi, hj⟩

theorem ext' {a b : Mat R} (hr : a.nr = b.nr) (hc : a.nc = b.nc) (h : ∀ i j, i < a.nr → j < a.nc → a.f i j = b.f i j) : a = b := by
  apply Mat.ext hr hc
  funext i j
  by_cases hij : i < a.nr ∧ j < a.nc
  · exact h i j hij.1 hij.2
  · rw [a.out i j hij, b.out i j (by rwa [← hr, ← hc])]

theorem of_congr {r c : Nat} {g g' : Nat → Nat → R} (h : ∀ i j, i < r → j < c → g i j = g' i j) : of r c g = of r c g' := by
  refine ext' rfl rfl ?_
  intro i j hi hj
  rw [of_nr] at hi; rw [of_nc] at hj
  rw [of_f' hi hj, of_f' hi hj, h i j hi hj]

theorem of_self (m : Mat R) : of m.nr m.nc m.f = m := by
  refine ext' rfl rfl ?_
  intro i j hi hj
  exact of_f' hi hj

@[simp] theorem map_nr (g : R → R) (m : Mat R) : (m.map g).nr = m.nr := id rfl
@[simp] theorem map_nc (g : R → R) (m : Mat R) : (m.map g).nc = m.nc := id rfl
theorem map_f' {g : R → R} {m : Mat R} {i j : Nat} (hi : i < m.nr) (hj : j < m.nc) : (m.map g).f i j = g (m.f i j) := of_f' hi hj
@[simp] theorem tr_nr (m : Mat R) : m.tr.nr = m.nc := id rfl
@[simp] theorem tr_nc (m : Mat R) : m.tr.nc = m.nr := id rfl
theorem tr_f (m : Mat R) (i j : Nat) : m.tr.f i j = m.f j i := by
  unfold tr
  rw [of_f]
  split
  · rfl
  · rw [m.out]; tauto

theorem zip_ok {g : R → R → R} {a b : Mat R} (h1 : a.nr = b.nr) (h2 : a.nc = b.nc) :
    zip g a b = .ok (of a.nr a.nc (fun i j => g (a.f i j) (b.f i j))) := if_pos ⟨h1, h2⟩

theorem zip_eq_ok {g : R → R → R} {a b r : Mat R} (h : zip g a b = .ok r) :
    a.nr = b.nr ∧ a.nc = b.nc ∧ r = of a.nr a.nc (fun i j => g (a.f i j) (b.f i j)) := by
  unfold zip at h
  split at h
  · rename_i hh; exact ⟨hh.1, hh.2, by cases h; rfl⟩
  · cases h

theorem at_ok {m : Mat R} {i j : Nat} (hi : i < m.nr) (hj : j < m.nc) : m.at' (i : Int) (j : Int) = .ok (m.f i j) := by
  unfold at'
  rw [if_pos (by omega)]
  simp

theorem at_ok' {m : Mat R} {i j : Int} {a b : Nat} (ha : i = a) (hb : j = b) (hi : a < m.nr) (hj : b < m.nc) :
    m.at' i j = .ok (m.f a b) := by
  subst ha hb; exact at_ok hi hj

theorem setAt_ok {m : Mat R} {i j : Int} {a b : Nat} (v : R) (ha : i = a) (hb : j = b) (hi : a < m.nr) (hj : b < m.nc) :
    m.setAt i j v = .ok (of m.nr m.nc (fun p q => if p = a ∧ q = b then v else m.f p q)) := by
  subst ha hb
  unfold setAt
  rw [if_pos (by omega)]
  simp

theorem insertRows_ok {m v : Mat R} {k : Int} (h0 : 0 ≤ k) (h1 : k ≤ m.nr) (hc : v.nc = m.nc) :
    m.insertRows k v = .ok (of (m.nr + v.nr) m.nc (fun i j =>
      if i < k.toNat then m.f i j else if i < k.toNat + v.nr then v.f (i - k.toNat) j else m.f (i - v.nr) j)) := by
  unfold insertRows
  rw [if_neg (by omega), if_neg (by rw [hc]; simp), hc, max_self]

theorem insertCols_ok {m v : Mat R} {k : Int} (h0 : 0 ≤ k) (h1 : k ≤ m.nc) (hc : v.nr = m.nr) :
    m.insertCols k v = .ok (of m.nr (m.nc + v.nc) (fun i j =>
      if j < k.toNat then m.f i j else if j < k.toNat + v.nc then v.f i (j - k.toNat) else m.f i (j - v.nc))) := by
  unfold insertCols
  rw [if_neg (by omega), if_neg (by rw [hc]; simp), hc, max_self]

theorem insertRows_throw {m v : Mat R} {k : Int} (h : k < 0 ∨ (m.nr : Int) < k) : m.insertRows k v = .error .throw := if_pos h
theorem insertCols_throw {m v : Mat R} {k : Int} (h : k < 0 ∨ (m.nc : Int) < k) : m.insertCols k v = .error .throw := if_pos h

theorem submat_ok {m : Mat R} {r1 c1 r2 c2 : Int} (h : m.InView r1 c1 r2 c2) :
    m.submat r1 c1 r2 c2 = .ok (of (r2 - r1 + 1).toNat (c2 - c1 + 1).toNat (fun i j => m.f (i + r1.toNat) (j + c1.toNat))) := if_pos h

theorem updSubmat_ok {g : R → R → R} {m v : Mat R} {r1 c1 r2 c2 : Int} (h : m.InView r1 c1 r2 c2)
    (h1 : v.nr = (r2 - r1 + 1).toNat) (h2 : v.nc = (c2 - c1 + 1).toNat) :
    m.updSubmat g r1 c1 r2 c2 v = .ok (of m.nr m.nc (fun i j =>
        if r1 ≤ i ∧ (i : Int) ≤ r2 ∧ c1 ≤ j ∧ (j : Int) ≤ c2 then g (m.f i j) (v.f (i - r1.toNat) (j - c1.toNat)) else m.f i j)) := by
  unfold updSubmat
  rw [if_pos h, if_pos ⟨h1, h2⟩]

end

section
variable {R : Type} [Field R]

theorem mul_ok {a b : Mat R} (h : a.nc = b.nr) :
    a.mul b = .ok (of a.nr b.nc (fun i j => ∑ k ∈ range a.nc, a.f i k * b.f k j)) := if_pos h

theorem mul_eq_ok {a b r : Mat R} (h : a.mul b = .ok r) :
    a.nc = b.nr ∧ r = of a.nr b.nc (fun i j => ∑ k ∈ range a.nc, a.f i k * b.f k j) := by
  unfold mul at h
  split at h
  · rename_i hh; exact ⟨hh, by cases h; rfl⟩
  · cases h

theorem add_ok {a b : Mat R} (h1 : a.nr = b.nr) (h2 : a.nc = b.nc) :
    a.add b = .ok (of a.nr a.nc (fun i j => a.f i j + b.f i j)) := zip_ok h1 h2
theorem sub_ok {a b : Mat R} (h1 : a.nr = b.nr) (h2 : a.nc = b.nc) :
    a.sub b = .ok (of a.nr a.nc (fun i j => a.f i j - b.f i j)) := zip_ok h1 h2
theorem schur_ok {a b : Mat R} (h1 : a.nr = b.nr) (h2 : a.nc = b.nc) :
    a.schur b = .ok (of a.nr a.nc (fun i j => a.f i j * b.f i j)) := zip_ok h1 h2
theorem ediv_ok {a b : Mat R} (h1 : a.nr = b.nr) (h2 : a.nc = b.nc) :
    a.ediv b = .ok (of a.nr a.nc (fun i j => a.f i j / b.f i j)) := zip_ok h1 h2

@[simp] theorem smul_nr (c : R) (m : Mat R) : (m.smul c).nr = m.nr := id rfl
@[simp] theorem smul_nc (c : R) (m : Mat R) : (m.smul c).nc = m.nc := id rfl
theorem smul_f (c : R) (m : Mat R) (i j : Nat) : (m.smul c).f i j = c * m.f i j := by
  unfold smul map
  rw [of_f]
  split
  · rfl
  · rename_i h; rw [m.out i j h, mul_zero]
@[simp] theorem divS_nr (m : Mat R) (c : R) : (m.divS c).nr = m.nr := id rfl
@[simp] theorem divS_nc (m : Mat R) (c : R) : (m.divS c).nc = m.nc := id rfl
theorem divS_f (m : Mat R) (c : R) (i j : Nat) : (m.divS c).f i j = m.f i j / c := by
  unfold divS map
  rw [of_f]
  split
  · rfl
  · rename_i h; rw [m.out i j h, zero_div]

@[simp] theorem sumRows_nr (m : Mat R) : m.sumRows.nr = m.nr := id rfl
@[simp] theorem sumRows_nc (m : Mat R) : m.sumRows.nc = 1 := id rfl
theorem sumRows_f {m : Mat R} {i : Nat} (hi : i < m.nr) : m.sumRows.f i 0 = ∑ j ∈ range m.nc, m.f i j := of_f' hi (by omega)

theorem accu_of (r c : Nat) (g : Nat → Nat → R) : (of r c g).accu = ∑ i ∈ range r, ∑ j ∈ range c, g i j := by
  unfold accu
  refine sum_congr rfl fun i hi => sum_congr rfl fun j hj => ?_
  exact of_f' (mem_range.1 hi) (mem_range.1 hj)

end
end Mat

section
variable {R : Type} [Field R]
open Mat

theorem addcol_ok {m : Mat R} (hr : 0 < m.nr) (hc : 0 < m.nc) :
    addcol m = .ok (of m.nr (m.nc + 1) (fun i j => if j = 0 then 1 else m.f i (j - 1))) := by
  unfold addcol
  simp only
  rw [updSubmat_ok (by unfold InView; simp only [of_nr, of_nc]; omega) (by simp only [of_nr, of_nc]; omega)
    (by simp only [of_nr, of_nc]; omega)]
  congr 1
  apply of_congr
  intro i j hi hj
  rw [of_nr] at hi; rw [of_nc] at hj
  by_cases h : j = 0
  · subst h
    rw [if_neg (by omega), of_f' hi hj, if_pos rfl]
  · rw [if_pos (by simp only [of_nr, of_nc] at *; omega), if_neg h]
    simp

theorem addcol_throw {m : Mat R} (h : m.nr = 0 ∨ m.nc = 0) : addcol m = .error .throw := by
  unfold addcol
  simp only
  unfold updSubmat
  rw [if_neg (by unfold InView; simp only [of_nr, of_nc]; omega)]

theorem addcol_eq_ok {m n : Mat R} (h : addcol m = .ok n) : 0 < m.nr ∧ 0 < m.nc := by
  by_contra hc
  rw [addcol_throw (by omega)] at h
  cases h

theorem constMat_eq [DecidableEq R] (r c : Nat) (v : R) : constMat r c v = of r c (fun _ _ => v) := by
  unfold constMat
  split
  · rename_i h; subst h; rfl
  · split
    · rename_i h; subst h; rfl
    · refine ext' rfl rfl ?_
      intro i j (hi : i < r) (hj : j < c)
      rw [map_f' (by simpa using hi) (by simpa using hj), of_f' hi hj, of_f' hi hj, one_mul]

end
end Nnet.NN
