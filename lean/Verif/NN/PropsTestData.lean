import Verif.NN.TestData
import Verif.NN.PropsOrder
import Verif.NN.PropsChecker
import Mathlib.Algebra.Order.Floor.Semifield
/-!
# C104: shuffling, splitting and scoring data as the test programs do
-/
namespace Nnet.NN
open Finset
noncomputable section

/-! ## Lemmas -/

namespace TestData
open Spec

theorem swapLoop_ok {m : Mat ℝ} {a b : Nat} (ha : a < m.nr) (hb : b < m.nr) :
    swapLoop m (m.rowMat a) (m.rowMat b) a b = .ok (reorder m (Equiv.swap a b)) := by
  have key := loop_eq (n := m.nc) (s := m) (body := fun j (s : Mat ℝ) => do
      let v ← (Mat.of 1 m.nc (fun _ j => m.f b j)).at' 0 j
      let s ← s.setAt a j v
      let v ← (Mat.of 1 m.nc (fun _ j => m.f a j)).at' 0 j
      s.setAt b j v) (fun j => Mat.of m.nr m.nc (fun p q => if q < j then m.f (Equiv.swap a b p) q else m.f p q))
    (by refine Mat.ext' rfl rfl fun i j hi hj => ?_; rw [Mat.of_f' (by exact hi) (by exact hj), if_neg (by omega)]) (fun j hj => ?_)
  · rw [show swapLoop m (m.rowMat a) (m.rowMat b) a b = _ from key]
    congr 1
    refine Mat.of_congr fun i j hi hj => ?_
    rw [if_pos hj]
  · rw [Mat.at_ok' (i := 0) (j := (j : Int)) (a := 0) (b := j) rfl rfl (by show 0 < 1; omega) (by exact hj), ok_bind, Mat.setAt_ok (a := a) (b := j) _ rfl rfl (by exact ha) (by exact hj), ok_bind,
      Mat.at_ok' (i := 0) (j := (j : Int)) (a := 0) (b := j) rfl rfl (by show 0 < 1; omega) (by exact hj), ok_bind, Mat.setAt_ok (a := b) (b := j) _ rfl rfl (by exact hb) (by exact hj)]
    congr 1
    refine Mat.of_congr fun p q hp hq => ?_
    replace hp : p < m.nr := hp
    replace hq : q < m.nc := hq
    rw [Mat.of_f' (r := 1) (by omega) hj, Mat.of_f' (r := 1) (by omega) hj, Mat.of_f' (by exact hp) (by exact hq), Mat.of_f' (by exact hp) (by exact hq)]
    rw [Equiv.swap_apply_def]
    by_cases h1 : p = b ∧ q = j
    · obtain ⟨rfl, rfl⟩ := h1
      rw [if_pos ⟨rfl, rfl⟩, if_pos (show q < q + 1 by omega)]
      by_cases h2 : p = a
      · rw [if_pos h2, h2]
      · rw [if_neg h2, if_pos rfl]
    · rw [if_neg h1]
      by_cases h2 : p = a ∧ q = j
      · obtain ⟨rfl, rfl⟩ := h2
        rw [if_pos ⟨rfl, rfl⟩, if_pos (show q < q + 1 by omega), if_pos rfl]
      · rw [if_neg h2]
        by_cases h3 : q < j
        · rw [if_pos h3, if_pos (show q < j + 1 by omega)]
        · rw [if_neg h3]
          by_cases h4 : q = j
          · subst h4
            rw [if_pos (show q < q + 1 by omega), if_neg (by tauto), if_neg (by tauto)]
          · rw [if_neg (show ¬ q < j + 1 by omega)]

theorem reorder_mul {m : Mat ℝ} {σ τ : Equiv.Perm Nat} (hτ : Permutes τ m.nr) : reorder (reorder m σ) τ = reorder m (σ * τ) := by
  refine Mat.of_congr fun i j hi hj => ?_
  unfold reorder
  rw [Mat.of_f' (hτ i hi) (by exact hj)]
  rfl

theorem permutes_swap {a b m : Nat} (ha : a < m) (hb : b < m) : Permutes (Equiv.swap a b) m := by
  intro i hi
  rw [Equiv.swap_apply_def]
  split
  · exact hb
  · split
    · exact ha
    · exact hi

theorem permutes_mul {σ τ : Equiv.Perm Nat} {m : Nat} (h1 : Permutes σ m) (h2 : Permutes τ m) : Permutes (σ * τ) m := fun i hi => h1 _ (h2 i hi)

theorem trainsize_eq (m : Nat) : trainsize m = 4 * m / 5 := by
  unfold trainsize
  rw [← Nat.floor_div_eq_div (K := ℝ)]
  congr 1
  push_cast
  ring

end TestData

/-- The matrix `d` consists of `k` rows of `src`, the `i`-th of them being row `pos i`. -/
structure Spec.RowsOf (d src : Mat ℝ) (k : Nat) (pos : Nat → Nat) : Prop where
  nr : d.nr = k
  nc : d.nc = src.nc
  entry : ∀ i < k, ∀ j < src.nc, d.f i j = src.f (pos i) j

/-- The matrix `y` is the one-hot coding of `k` labels out of `q` classes. -/
structure Spec.OneHotOf (y : Mat ℝ) (k q : Nat) (cls : Nat → Nat) : Prop where
  nr : y.nr = k
  nc : y.nc = q
  entry : ∀ i < k, ∀ j < q, y.f i j = if j = cls i then 1 else 0

/-- The share of the positions below `k` at which `g` and `c` agree. -/
def Spec.agreement (k : Nat) (g c : Nat → Nat) : ℝ := (((range k).filter (fun i => g i = c i)).card : ℝ) / k

namespace TestData
open Spec

theorem split_ok {rnd : Nat → Nat} {x y : Mat ℝ} {m : Nat} (hx : x.nr = m) (hy : y.nr = m) (hm : 2 ≤ m) (cx : 0 < x.nc) (cy : 0 < y.nc)
    {π : Equiv.Perm Nat} (hπ : shuffledata rnd x y = .ok (reorder x π, reorder y π)) :
    ∃ d, split rnd x y = .ok d ∧ RowsOf d.trainx x (4 * m / 5) π ∧ RowsOf d.trainy y (4 * m / 5) π ∧
      RowsOf d.testx x (m - 4 * m / 5) (fun i => π (i + 4 * m / 5)) ∧ RowsOf d.testy y (m - 4 * m / 5) (fun i => π (i + 4 * m / 5)) := by
  have key : split rnd x y = (do
      let trainx ← (reorder x π).submat 0 0 (((4 * m / 5 : Nat) : Int) - 1) ((x.nc : Int) - 1)
      let trainy ← (reorder y π).submat 0 0 (((4 * m / 5 : Nat) : Int) - 1) ((y.nc : Int) - 1)
      let testx ← (reorder x π).submat ((4 * m / 5 : Nat) : Int) 0 ((x.nr : Int) - 1) ((x.nc : Int) - 1)
      let testy ← (reorder y π).submat ((4 * m / 5 : Nat) : Int) 0 ((y.nr : Int) - 1) ((y.nc : Int) - 1)
      .ok ⟨trainx, trainy, testx, testy⟩ : Res Split) := by
    unfold split
    rw [hπ, ok_bind]
    show (do
      let trainx ← (reorder x π).submat 0 0 ((trainsize x.nr : Int) - 1) ((x.nc : Int) - 1)
      let trainy ← (reorder y π).submat 0 0 ((trainsize x.nr : Int) - 1) ((y.nc : Int) - 1)
      let testx ← (reorder x π).submat (trainsize x.nr : Int) 0 ((x.nr : Int) - 1) ((x.nc : Int) - 1)
      let testy ← (reorder y π).submat (trainsize x.nr : Int) 0 ((y.nr : Int) - 1) ((y.nc : Int) - 1)
      .ok ⟨trainx, trainy, testx, testy⟩ : Res Split) = _
    rw [trainsize_eq, hx]
  have first : ∀ a : Mat ℝ, a.nr = m → 0 < a.nc → ∃ d, (reorder a π).submat 0 0 (((4 * m / 5 : Nat) : Int) - 1) ((a.nc : Int) - 1) = .ok d ∧ RowsOf d a (4 * m / 5) π := by
    intro a h1 h2
    refine ⟨_, Mat.submat_ok ⟨by omega, by omega, by omega, by omega, by show _ < (a.nr : Int); omega, by show _ < (a.nc : Int); omega⟩, ?_, ?_, fun i hi j hj => ?_⟩
    · show Int.toNat _ = _; omega
    · show Int.toNat _ = _; omega
    · rw [Mat.of_f' (by omega) (by omega), reorder_f (by rw [h1, Int.toNat_zero]; omega) (by rw [Int.toNat_zero]; omega)]
      rfl
  have last : ∀ a : Mat ℝ, a.nr = m → 0 < a.nc → ∃ d, (reorder a π).submat ((4 * m / 5 : Nat) : Int) 0 ((a.nr : Int) - 1) ((a.nc : Int) - 1) = .ok d ∧
      RowsOf d a (m - 4 * m / 5) (fun i => π (i + 4 * m / 5)) := by
    intro a h1 h2
    refine ⟨_, Mat.submat_ok ⟨by omega, by omega, by omega, by omega, by show _ < (a.nr : Int); omega, by show _ < (a.nc : Int); omega⟩, ?_, ?_, fun i hi j hj => ?_⟩
    · show Int.toNat _ = _; omega
    · show Int.toNat _ = _; omega
    · rw [Mat.of_f' (by omega) (by omega), reorder_f (by rw [h1, Int.toNat_natCast]; omega) (by rw [Int.toNat_zero]; omega), Int.toNat_natCast]
      rfl
  obtain ⟨d1, e1, r1⟩ := first x hx cx
  obtain ⟨d2, e2, r2⟩ := first y hy cy
  obtain ⟨d3, e3, r3⟩ := last x hx cx
  obtain ⟨d4, e4, r4⟩ := last y hy cy
  exact ⟨⟨d1, d2, d3, d4⟩, by rw [key, e1, ok_bind, e2, ok_bind, e3, ok_bind, e4, ok_bind], r1, r2, r3, r4⟩

end TestData

open TestData Spec

/-! ## C104 -/

/-- **C104** (shuffling). For every sequence of numbers that `rand()` delivers, `shuffledata(x, y)` puts the samples in another order, the same for the features and the labels: nothing is lost or
duplicated, and every sample keeps its label. -/
theorem C104_shuffle (rnd : Nat → Nat) {x y : Mat ℝ} (hy : y.nr = x.nr) : ∃ π, Permutes π x.nr ∧ shuffledata rnd x y = .ok (reorder x π, reorder y π) := by
  suffices key : ∃ s', shuffledata rnd x y = .ok s' ∧ ∃ π, Permutes π x.nr ∧ s' = (reorder x π, reorder y π) by
    obtain ⟨s', e, π, h1, rfl⟩ := key
    exact ⟨π, h1, e⟩
  unfold shuffledata
  refine loop_inv (fun _ xy => ∃ π, Permutes π x.nr ∧ xy = (reorder x π, reorder y π)) ⟨1, fun i hi => hi, ?_⟩ (fun i xy hi h => ?_)
  · congr 1 <;> exact (Mat.ext' rfl rfl fun i j hi hj => by unfold reorder; rw [Mat.of_f' hi hj]; rfl)
  · obtain ⟨π, h1, rfl⟩ := h
    have n1 : rnd (2 * i) % x.nr < x.nr := Nat.mod_lt _ (by omega)
    have n2 : rnd (2 * i + 1) % x.nr < x.nr := Nat.mod_lt _ (by omega)
    refine ⟨_, ?_, π * Equiv.swap (rnd (2 * i) % x.nr) (rnd (2 * i + 1) % x.nr), permutes_mul h1 (permutes_swap n1 n2), rfl⟩
    show (do
      let xrow1 ← (reorder x π).row ((rnd (2 * i) % x.nr : Nat) : Int)
      let xrow2 ← (reorder x π).row ((rnd (2 * i + 1) % x.nr : Nat) : Int)
      let yrow1 ← (reorder y π).row ((rnd (2 * i) % x.nr : Nat) : Int)
      let yrow2 ← (reorder y π).row ((rnd (2 * i + 1) % x.nr : Nat) : Int)
      let x' ← swapLoop (reorder x π) xrow1 xrow2 (rnd (2 * i) % x.nr) (rnd (2 * i + 1) % x.nr)
      let y' ← swapLoop (reorder y π) yrow1 yrow2 (rnd (2 * i) % x.nr) (rnd (2 * i + 1) % x.nr)
      .ok (x', y') : Res (Mat ℝ × Mat ℝ)) = _
    rw [row_ok (by exact n1), ok_bind, row_ok (by exact n2), ok_bind, row_ok (by show _ < y.nr; omega), ok_bind, row_ok (by show _ < y.nr; omega), ok_bind]
    rw [swapLoop_ok (by exact n1) (by exact n2), ok_bind, swapLoop_ok (by show _ < y.nr; omega) (by show _ < y.nr; omega), ok_bind]
    rw [reorder_mul (permutes_swap n1 n2), reorder_mul (by rw [hy]; exact permutes_swap n1 n2)]

/-- **C104** (splitting). The training set is the first four fifths (rounded down) of the shuffled samples and the test set the others: every sample is in exactly one of them, at one place, with its label. -/
theorem C104_split (rnd : Nat → Nat) {x y : Mat ℝ} {m : Nat} (hx : x.nr = m) (hy : y.nr = m) (hm : 2 ≤ m) (cx : 0 < x.nc) (cy : 0 < y.nc) :
    ∃ π, Permutes π m ∧ ∃ d, split rnd x y = .ok d ∧ RowsOf d.trainx x (4 * m / 5) π ∧ RowsOf d.trainy y (4 * m / 5) π ∧
      RowsOf d.testx x (m - 4 * m / 5) (fun i => π (i + 4 * m / 5)) ∧ RowsOf d.testy y (m - 4 * m / 5) (fun i => π (i + 4 * m / 5)) := by
  obtain ⟨π, h1, h2⟩ := C104_shuffle rnd (hy.trans hx.symm)
  exact ⟨π, hx ▸ h1, split_ok hx hy hm cx cy h2⟩

/-- **C104** (nothing to split). With one sample or none, the training set would be empty and the program stops with an exception instead. -/
theorem C104_too_few (rnd : Nat → Nat) {x y : Mat ℝ} (hy : y.nr = x.nr) (hm : x.nr ≤ 1) : split rnd x y = .error .throw := by
  obtain ⟨π, -, h2⟩ := C104_shuffle rnd hy
  unfold split
  rw [h2, ok_bind]
  show (do
      let trainx ← (reorder x π).submat 0 0 ((trainsize x.nr : Int) - 1) ((x.nc : Int) - 1)
      let trainy ← (reorder y π).submat 0 0 ((trainsize x.nr : Int) - 1) ((y.nc : Int) - 1)
      let testx ← (reorder x π).submat (trainsize x.nr : Int) 0 ((x.nr : Int) - 1) ((x.nc : Int) - 1)
      let testy ← (reorder y π).submat (trainsize x.nr : Int) 0 ((y.nr : Int) - 1) ((y.nc : Int) - 1)
      .ok ⟨trainx, trainy, testx, testy⟩ : Res Split) = _
  rw [trainsize_eq, Mat.submat, if_neg (fun h => by have := h.2.2.1; omega)]
  rfl

/-- The features and labels after `i` samples were read. -/
def TestData.st (junk : Nat → Nat → ℝ) (n o m : Nat) (xs : Nat → Nat → ℝ) (cls : Nat → Nat) (i : Nat) : Mat ℝ × Mat ℝ :=
  (Mat.of m n (fun a b => if a < i then xs a b else junk a b), Mat.of m o (fun a b => if a < i ∧ b = cls a then 1 else 0))

theorem TestData.read_x {junk : Nat → Nat → ℝ} {n m i : Nat} {xs : Nat → Nat → ℝ} (hi : i < m) :
    loop n (fun j (x : Mat ℝ) => x.setAt i j (xs i j)) (Mat.of m n (fun a b => if a < i then xs a b else junk a b)) =
      .ok (Mat.of m n (fun a b => if a < i + 1 then xs a b else junk a b)) := by
  rw [loop_eq (n := n) (fun j => Mat.of m n (fun a b => if a < i ∨ (a = i ∧ b < j) then xs a b else junk a b))]
  · congr 1
    refine Mat.of_congr fun a b ha hb => ?_
    exact if_congr (by omega) rfl rfl
  · exact Mat.of_congr fun a b ha hb => if_congr (by omega) rfl rfl
  · intro j hj
    rw [Mat.setAt_ok (a := i) (b := j) _ rfl rfl (by exact hi) (by exact hj)]
    congr 1
    refine Mat.of_congr fun a b ha hb => ?_
    rw [Mat.of_f' (by exact ha) (by exact hb)]
    by_cases h : a = i ∧ b = j
    · rw [if_pos h, if_pos (by omega), h.1, h.2]
    · rw [if_neg h]
      exact if_congr (by omega) rfl rfl

theorem TestData.read_y {o m i : Nat} {cls : Nat → Nat} {c : Int} (hi : i < m) (hc : c = cls i) (ho : cls i < o) :
    (Mat.of m o (fun a b => if a < i ∧ b = cls a then (1 : ℝ) else 0)).setAt i c 1 = .ok (Mat.of m o (fun a b => if a < i + 1 ∧ b = cls a then 1 else 0)) := by
  rw [Mat.setAt_ok (a := i) (b := cls i) _ rfl hc (by exact hi) (by exact ho)]
  congr 1
  refine Mat.of_congr fun a b ha hb => ?_
  rw [Mat.of_f' (by exact ha) (by exact hb)]
  by_cases h : a = i ∧ b = cls i
  · rw [if_pos h, if_pos ⟨by omega, by rw [h.1]; exact h.2⟩]
  · rw [if_neg h]
    refine if_congr ⟨fun q => ⟨by omega, q.2⟩, fun q => ⟨?_, q.2⟩⟩ rfl rfl
    rcases Nat.lt_or_ge a i with r | r
    · exact r
    · have e : a = i := by omega
      subst e
      exact absurd ⟨rfl, q.2⟩ h

theorem TestData.st_zero {junk : Nat → Nat → ℝ} {n o m : Nat} {xs : Nat → Nat → ℝ} {cls : Nat → Nat} :
    st junk n o m xs cls 0 = (Mat.of m n junk, (Mat.of m o junk).map (fun _ => 0)) := by
  refine Prod.ext ?_ ?_
  · exact Mat.of_congr fun i j hi hj => by rw [if_neg (by omega)]
  · refine Mat.ext' rfl rfl fun i j hi hj => ?_
    replace hi : i < m := hi
    replace hj : j < o := hj
    show (Mat.of m o _).f i j = (Mat.map (fun _ => 0) (Mat.of m o junk)).f i j
    rw [Mat.of_f' hi hj, if_neg (by omega), Mat.map_f' (by exact hi) (by exact hj)]

/-- Reading the samples of `load`, before they are shuffled. -/
theorem TestData.load_eq {junk : Nat → Nat → ℝ} {rnd : Nat → Nat} {n o m : Nat} {xs : Nat → Nat → ℝ} {cls : Nat → Nat} (hc : ∀ i < m, cls i < o) :
    load junk rnd n o m xs (fun i => (cls i : Int)) = split rnd (Mat.of m n xs) (Mat.of m o (fun i j => if j = cls i then 1 else 0)) := by
  unfold load
  rw [Mat.mk', if_pos ⟨by omega, by omega⟩, ok_bind, Mat.mk', if_pos ⟨by omega, by omega⟩, ok_bind]
  simp only [Int.toNat_natCast]
  rw [loop_eq (n := m) (st junk n o m xs cls) st_zero (fun i hi => ?_), ok_bind]
  · show split rnd (Mat.of m n _) (Mat.of m o _) = _
    congr 1
    · exact Mat.of_congr fun i j hi hj => by rw [if_pos hi]
    · refine Mat.of_congr fun i j hi hj => ?_
      simp only [hi, true_and]
  · unfold st
    dsimp only
    rw [read_x hi, ok_bind, read_y hi rfl (hc i hi), ok_bind]

/-- **C104** (bad label). A label that is not one of the classes makes `load` stop with an exception. -/
theorem C104_bad_label {junk : Nat → Nat → ℝ} {rnd : Nat → Nat} {n o m : Nat} {xs : Nat → Nat → ℝ} {cls : Nat → Int} {k : Nat} (hk : k < m) (hc : cls k < 0 ∨ (o : Int) ≤ cls k) :
    load junk rnd n o m xs cls = .error .throw := by
  classical
  have hex : ∃ k, k < m ∧ (cls k < 0 ∨ (o : Int) ≤ cls k) := ⟨k, hk, hc⟩
  obtain ⟨h1, h2⟩ := Nat.find_spec hex
  have h3 : ∀ i < Nat.find hex, 0 ≤ cls i ∧ cls i < o := by
    intro i hi
    have := Nat.find_min hex hi
    push Not at this
    exact this (by omega)
  unfold load
  rw [Mat.mk', if_pos ⟨by omega, by omega⟩, ok_bind, Mat.mk', if_pos ⟨by omega, by omega⟩, ok_bind]
  simp only [Int.toNat_natCast]
  rw [loop_error (n := m) (e := .throw) (st junk n o m xs (fun i => (cls i).toNat)) st_zero h1 (fun i hi => by
    unfold st
    dsimp only
    rw [read_x (by omega), ok_bind, read_y (cls := fun i => (cls i).toNat) (by omega) (by have := h3 i hi; omega) (by have := h3 i hi; omega), ok_bind]) ?_]
  · rfl
  · unfold st
    dsimp only
    rw [read_x h1, ok_bind, Mat.setAt, if_neg (by show ¬ (_ ∧ _ ∧ _ ∧ _ < (o : Int)); omega)]
    rfl

/-- **C104** (loading). For every input with at least one feature, one class and two samples and labels in range, `load` delivers the samples that were read, in some order, split into training
and test set, with the one-hot coding of their labels. -/
theorem C104_load {junk : Nat → Nat → ℝ} {rnd : Nat → Nat} {n o m : Nat} {xs : Nat → Nat → ℝ} {cls : Nat → Nat} (hn : 0 < n) (hm : 2 ≤ m) (hc : ∀ i < m, cls i < o) :
    ∃ π, Permutes π m ∧ ∃ d, load junk rnd n o m xs (fun i => (cls i : Int)) = .ok d ∧
      (d.trainx.nr = 4 * m / 5 ∧ d.trainx.nc = n ∧ ∀ i < 4 * m / 5, ∀ j < n, d.trainx.f i j = xs (π i) j) ∧
      OneHotOf d.trainy (4 * m / 5) o (fun i => cls (π i)) ∧
      (d.testx.nr = m - 4 * m / 5 ∧ d.testx.nc = n ∧ ∀ i < m - 4 * m / 5, ∀ j < n, d.testx.f i j = xs (π (i + 4 * m / 5)) j) ∧
      OneHotOf d.testy (m - 4 * m / 5) o (fun i => cls (π (i + 4 * m / 5))) := by
  have ho : 0 < o := by have := hc 0 (by omega); omega
  obtain ⟨π, h1, d, e, a1, a2, a3, a4⟩ := C104_split rnd (m := m) (x := Mat.of m n xs) (y := Mat.of m o (fun i j => if j = cls i then 1 else 0)) rfl rfl hm hn ho
  refine ⟨π, h1, d, by rw [load_eq hc]; exact e, ⟨a1.nr, a1.nc, fun i hi j hj => ?_⟩, ⟨a2.nr, a2.nc, fun i hi j hj => ?_⟩, ⟨a3.nr, a3.nc, fun i hi j hj => ?_⟩,
    ⟨a4.nr, a4.nc, fun i hi j hj => ?_⟩⟩
  · rw [a1.entry i hi j hj, Mat.of_f' (h1 i (by omega)) hj]
  · rw [a2.entry i hi j hj, Mat.of_f' (h1 i (by omega)) hj]
  · rw [a3.entry i hi j hj, Mat.of_f' (h1 _ (by omega)) hj]
  · rw [a4.entry i hi j hj, Mat.of_f' (h1 _ (by omega)) hj]

theorem TestData.toInt_nat (k : Nat) : toInt (k : ℝ) = k := by
  unfold toInt
  rw [if_pos (by positivity)]
  exact Int.floor_natCast k

/-- **C104** (accuracy). The accuracy is the share of the rows in which the predicted class is the labelled one. -/
theorem C104_accuracy {answer prediction : Mat ℝ} {k q : Nat} {g c : Nat → Nat} (ha : OneHotOf answer k q c) (hr : k ≤ prediction.nr) (hp : 0 < prediction.nc)
    (hg : ∀ i < k, prediction.f i 0 = g i ∧ g i < q) : accuracy answer prediction = .ok (agreement k g c) := by
  unfold accuracy
  rw [ha.nr, loop_eq (n := k) (fun t => (((range t).filter (fun i => g i = c i)).card : ℝ)) (by simp) (fun t ht => ?_), ok_bind]
  · rfl
  · rw [Mat.at_ok' (i := (t : Int)) (j := 0) (a := t) (b := 0) rfl rfl (by omega) hp, ok_bind, (hg t ht).1, toInt_nat,
      Mat.at_ok' (a := t) (b := g t) rfl rfl (by rw [ha.nr]; exact ht) (by rw [ha.nc]; exact (hg t ht).2), ok_bind, ha.entry t ht _ (hg t ht).2]
    congr 1
    rw [range_add_one, filter_insert]
    by_cases h : g t = c t
    · rw [if_pos h, if_pos rfl, if_pos h, card_insert_of_notMem (by simp)]
      push_cast
      rfl
    · rw [if_neg h, if_neg (by norm_num), if_neg h]

/-- **C104** (evaluating). For every network and every data set of its sizes, `evaluate` succeeds, does not change what the network computes, and returns for the training and for the test set the share
of the samples whose label is the first of the largest outputs. -/
theorem C104_evaluate {junk : Nat → Nat → ℝ} {s : Store} {n : Net} {p q : Nat} {d : Split} {k1 k2 : Nat} {c1 c2 : Nat → Nat} (h : n.WF s p q) (r1 : d.trainx.nr = k1) (q1 : d.trainx.nc = p)
    (y1 : OneHotOf d.trainy k1 q c1) (r2 : d.testx.nr = k2) (q2 : d.testx.nc = p) (y2 : OneHotOf d.testy k2 q c2) (p1 : 0 < k1) (p2 : 0 < k2) :
    ∃ g1 g2 s' n', evaluate junk s n d = .ok ((agreement k1 g1 c1, agreement k2 g2 c2), s', n') ∧ n'.WF s' p q ∧ n'.params s' = n.params s ∧
      (∀ i < k1, FirstMax ((denseNet (n.params s) d.trainx).f i) q (g1 i)) ∧ ∀ i < k2, FirstMax ((denseNet (n.params s) d.testx).f i) q (g2 i) := by
  have step : ∀ {s : Store} {n : Net} {x y : Mat ℝ} {k : Nat} {c : Nat → Nat}, n.WF s p q → x.nr = k → x.nc = p → OneHotOf y k q c → 0 < k →
      ∃ g r s' n', n.predict junk s x = .ok (r, s', n') ∧ accuracy y r = .ok (agreement k g c) ∧ n'.WF s' p q ∧ n'.params s' = n.params s ∧
        ∀ i < k, FirstMax ((denseNet (n.params s) x).f i) q (g i) := by
    intro s n x y k c h hr hc hy hk
    obtain ⟨r, s', n', e, e1, e2, -, e4⟩ := C32_predict (junk := junk) h (by omega : 0 < x.nr) hc
    obtain ⟨r'', s'', n'', f, f1, f2, -⟩ := query_ok (junk := junk) (c := .predict x) h (by show 0 < x.nr; omega) hc
    have ff := e.symm.trans (show n.predict junk s x = _ from f)
    injection ff with ff
    injection ff with ff1 ff2
    injection ff2 with ff2 ff3
    subst ff1 ff2 ff3
    choose! g hg using e4
    refine ⟨g, r, s', n', e, ?_, f1, sameModel_params f2, fun i hi => (hg i (by omega)).2.2⟩
    exact C104_accuracy hy (by omega) (by omega) (fun i hi => ⟨(hg i (by omega)).1, (hg i (by omega)).2.2.1⟩)
  obtain ⟨g1, r1', s1, n1, e1, a1, w1, m1, f1⟩ := step h r1 q1 y1 p1
  obtain ⟨g2, r2', s2, n2, e2, a2, w2, m2, f2⟩ := step w1 r2 q2 y2 p2
  refine ⟨g1, g2, s2, n2, ?_, w2, m2.trans m1, f1, by rw [← m1]; exact f2⟩
  unfold evaluate
  rw [e1, ok_bind]
  dsimp only
  rw [a1, ok_bind, e2, ok_bind]
  dsimp only
  rw [a2, ok_bind]

/-- **C104** (shuffling and training). A training step on all the samples gives the same weights whether or not they are shuffled before. -/
theorem C104_shuffle_training {junk junk' : Nat → Nat → ℝ} {s : Store} {n : Net} {p q : Nat} {x y : Mat ℝ} (rnd : Nat → Nat) (h : n.WF s p q) (hcost : RowMean n.output.costd)
    (hr : 0 < x.nr) (hc : x.nc = p) (hy : y.nr = x.nr) (hq : y.nc = q) :
    ∃ x' y' s1 n1 s2 n2, shuffledata rnd x y = .ok (x', y') ∧ n.trainOn junk s x y = .ok (s1, n1) ∧ n.trainOn junk' s x' y' = .ok (s2, n2) ∧
      (n1.hiddenLayers s1).map (·.W) = (n2.hiddenLayers s2).map (·.W) ∧ n1.output.W = n2.output.W := by
  obtain ⟨π, h1, h2⟩ := C104_shuffle rnd hy
  obtain ⟨s1, n1, s2, n2, e1, e2, a, b⟩ := C59_training (junk := junk) (junk' := junk') (bs := [(x, y, π)]) h hcost (by
    intro b hb
    rw [List.mem_singleton] at hb
    subst hb
    exact ⟨hr, hc, hy, hq, h1⟩)
  have one : ∀ (jk : Nat → Nat → ℝ) (x y : Mat ℝ) (s' : Store) (n' : Net), Net.trainAll jk [(x, y)] s n = .ok (s', n') → n.trainOn jk s x y = .ok (s', n') := by
    intro jk x y s' n' e
    unfold Net.trainAll at e
    obtain ⟨⟨sa, na⟩, ha, hb⟩ := bind_eq_ok e
    unfold Net.trainAll at hb
    rw [ha]
    exact hb
  exact ⟨_, _, s1, n1, s2, n2, h2, one _ _ _ _ _ e1, one _ _ _ _ _ e2, a, b⟩

/-- **C104** (trainer). Whatever name is given, the trainer that is set up is the plain gradient-descent trainer with the given decay, and no further number is read. -/
theorem C104_trainer (self : Trainer) (w : World) (nnet : Nat) (name : String) (r0 k : ℝ) (step : Nat) (rest : List ℝ) :
    setuptrainer self w nnet name r0 k step rest = ({ nnet, iters := 0, step, usedecay := true, k, r0 }, rest) := by
  unfold setuptrainer
  by_cases h : name = "gd"
  · subst h
    rw [if_neg (by simp), if_pos (by decide)]
    rfl
  · rw [if_pos h]
    rfl

/-- Full statement refuted: asking for mini-batches makes the program read the batch size, asking for momentum the momentum. -/
theorem C104_trainer_name_refuted : ¬ ∀ (self : Trainer) (w : World) (nnet : Nat) (name : String) (r0 k : ℝ) (step : Nat) (a : ℝ) (rest : List ℝ), name = "batch" ∨ name = "momentum" →
    (setuptrainer self w nnet name r0 k step (a :: rest)).2 = rest := by
  intro h
  have := h (Trainer.new 0) ⟨fun _ => exNet, exStore⟩ 0 "batch" 1 1 1 32 [] (Or.inl rfl)
  rw [C104_trainer] at this
  simp at this

/-- The hypotheses can be met: five samples of the class given by their parity, loaded, then scored by the example network. -/
example : ∃ d, load (fun _ _ => 0) (fun i => 7 * i + 3) 1 2 5 (fun i _ => i) (fun i => ((i % 2 : Nat) : Int)) = .ok d ∧ d.trainx.nr = 4 ∧ d.testx.nr = 1 ∧ d.testy.nc = 2 := by
  obtain ⟨π, -, d, e, a, -, b, c⟩ := C104_load (junk := fun _ _ => 0) (rnd := fun i => 7 * i + 3) (n := 1) (o := 2) (m := 5) (xs := fun i _ => (i : ℝ)) (cls := fun i => i % 2) (by norm_num)
    (by norm_num) (fun i _ => Nat.mod_lt _ (by norm_num))
  exact ⟨d, e, a.1, b.1, c.nc⟩

example : accuracy (Mat.of 2 2 (fun i j => if j = i then 1 else 0)) (Mat.of 2 1 (fun _ _ => 1)) = .ok (1 / 2) := by
  rw [C104_accuracy (k := 2) (q := 2) (g := fun _ => 1) (c := fun i => i) ⟨rfl, rfl, fun i hi j hj => Mat.of_f' hi hj⟩ (by exact le_refl _) (by show 0 < 1; norm_num)
    (fun i hi => ⟨by rw [Mat.of_f' (by exact hi) (by norm_num)]; norm_num, by norm_num⟩)]
  unfold agreement
  rw [show ((range 2).filter (fun i => 1 = i)).card = 1 from by decide]
  norm_num

end
end Nnet.NN
