import Verif.NN.PropsUnseen
/-!
# C112: rotating the features, mirroring units
-/
namespace Nnet.NN
open Finset
noncomputable section

/-! ## Specification -/

/-- The `m` rows of `A` are orthonormal: `A` is a rotation, possibly with reflections, of `m` coordinates. -/
def Spec.Orth (m : Nat) (A : Nat → Nat → ℝ) : Prop := ∀ l < m, ∀ k < m, ∑ j ∈ range m, A l j * A k j = if l = k then 1 else 0

/-- No change. -/
def Spec.same : Nat → Nat → ℝ := fun i j => if i = j then 1 else 0

/-- A change of sign of the coordinates where `σ` is -1. -/
def Spec.mirror (σ : Nat → ℝ) : Nat → Nat → ℝ := fun i j => if i = j then σ i else 0

/-- The matrix product `m B`: each row of `m` transformed by `B`. -/
def Spec.turn (B : Nat → Nat → ℝ) (m : Mat ℝ) : Mat ℝ := Mat.of m.nr m.nc (fun i j => ∑ k ∈ range m.nc, m.f i k * B k j)

/-- The weights of a layer when its inputs are transformed by `A` and its units by `B`: row 0 holds the biases, row `k + 1` the weights from input `k`. -/
def Spec.turnW (A B : Nat → Nat → ℝ) (W : Mat ℝ) : Mat ℝ :=
  Mat.of W.nr W.nc (fun i j => if i = 0 then ∑ l ∈ range W.nc, W.f 0 l * B l j else ∑ k ∈ range (W.nr - 1), A k (i - 1) * ∑ l ∈ range W.nc, W.f (k + 1) l * B l j)

/-- The layers of a network when the features are transformed by `A` and the units of each layer by the transformations in the list, first layer first. -/
def Spec.turnAll : (Nat → Nat → ℝ) → List (Nat → Nat → ℝ) → List (ℝ × ℝ × ActFunc ℝ × Mat ℝ) → List (ℝ × ℝ × ActFunc ℝ × Mat ℝ)
  | _, _, [] => []
  | A, Bs, (lrate, lambda, act, W) :: cs => (lrate, lambda, act, Spec.turnW A (Bs.headD Spec.same) W) :: Spec.turnAll (Bs.headD Spec.same) Bs.tail cs

/-- Batches with the features transformed by `A` and the labels by `K`. -/
def Spec.turnBatches (A K : Nat → Nat → ℝ) (bs : List (Mat ℝ × Mat ℝ)) : List (Mat ℝ × Mat ℝ) := bs.map (fun b => (Spec.turn A b.1, Spec.turn K b.2))

/-- Transforming the `m` sums of a layer by `B` transforms what its units compute in the same way. -/
def Spec.ActTurns (f : ActFunc ℝ) (m : Nat) (B : Nat → Nat → ℝ) : Prop := ∀ z : Nat → ℝ, ∀ j < m, f.act (∑ k ∈ range m, z k * B k j) = ∑ k ∈ range m, f.act (z k) * B k j

/-- The same for the derivative: the product of derivatives `d` with the derivative of the activation is transformed in the same way. -/
def Spec.ActdTurns (f : ActFunc ℝ) (m : Nat) (B : Nat → Nat → ℝ) : Prop :=
  ∀ z d : Nat → ℝ, ∀ j < m, (∑ k ∈ range m, d k * B k j) * f.actd (∑ k ∈ range m, z k * B k j) = ∑ k ∈ range m, d k * f.actd (z k) * B k j

/-- The derivative of the cost is transformed when labels and outputs are. -/
def Spec.CostTurns (costd : MatFuncD) (m : Nat) (K : Nat → Nat → ℝ) : Prop :=
  ∀ y a z D : Mat ℝ, y.nc = m → a.nr = y.nr → a.nc = m → costd y a z = .ok D → costd (Spec.turn K y) (Spec.turn K a) (Spec.turn K z) = .ok (Spec.turn K D)

/-- One transformation for each hidden layer, orthogonal and respected by its activation function. -/
def Spec.TurnsFit (Bs : List (Nat → Nat → ℝ)) (s : Store) (n : Net) : Prop :=
  List.Forall₂ (fun B (L : Layer) => Spec.Orth L.W.nc B ∧ Spec.ActTurns L.actfunc L.W.nc B ∧ Spec.ActdTurns L.actfunc L.W.nc B) Bs (n.hiddenLayers s)

/-- An odd activation function with an even derivative. -/
structure Spec.Odd (f : ActFunc ℝ) : Prop where
  act : ∀ z, f.act (-z) = -f.act z
  actd : ∀ z, f.actd (-z) = f.actd z

/-- The weights of a layer when the signs of its inputs are changed by `σ` and those of its units by `τ`. -/
def Spec.flip (σ τ : Nat → ℝ) (W : Mat ℝ) : Mat ℝ := Mat.of W.nr W.nc (fun i j => (if i = 0 then 1 else σ (i - 1)) * W.f i j * τ j)

/-- The layers of a network when the signs of the inputs are changed by `σ` and those of the units of the hidden layers by the signs in the list, first layer first. The outputs (the layer left when the
list is used up) keep their signs. -/
def Spec.flipAll : (Nat → ℝ) → List (Nat → ℝ) → List (ℝ × ℝ × ActFunc ℝ × Mat ℝ) → List (ℝ × ℝ × ActFunc ℝ × Mat ℝ)
  | _, _, [] => []
  | σ, τs, (lrate, lambda, act, W) :: cs => (lrate, lambda, act, Spec.flip σ (τs.headD fun _ => 1) W) :: Spec.flipAll (τs.headD fun _ => 1) τs.tail cs

/-- Signs for the units of each hidden layer, where only units with odd activation functions change sign. -/
def Spec.SignsFit (τs : List (Nat → ℝ)) (s : Store) (n : Net) : Prop :=
  List.Forall₂ (fun τ (L : Layer) => (∀ j < L.W.nc, τ j = 1) ∨ (Spec.Odd L.actfunc ∧ ∀ j < L.W.nc, τ j = 1 ∨ τ j = -1)) τs (n.hiddenLayers s)

/-! ## Lemmas -/

open Spec

theorem turn_f {B : Nat → Nat → ℝ} {m : Mat ℝ} {i j : Nat} (hi : i < m.nr) (hj : j < m.nc) : (turn B m).f i j = ∑ k ∈ range m.nc, m.f i k * B k j := Mat.of_f' hi hj

theorem turnW_nr (A B : Nat → Nat → ℝ) (W : Mat ℝ) : (turnW A B W).nr = W.nr := rfl
theorem turnW_nc (A B : Nat → Nat → ℝ) (W : Mat ℝ) : (turnW A B W).nc = W.nc := rfl

theorem turnW_zero {A B : Nat → Nat → ℝ} {W : Mat ℝ} {j : Nat} (hi : 0 < W.nr) (hj : j < W.nc) : (turnW A B W).f 0 j = ∑ l ∈ range W.nc, W.f 0 l * B l j := by
  unfold turnW
  rw [Mat.of_f' hi hj, if_pos rfl]

theorem turnW_succ {A B : Nat → Nat → ℝ} {W : Mat ℝ} {i j : Nat} (hi : i + 1 < W.nr) (hj : j < W.nc) :
    (turnW A B W).f (i + 1) j = ∑ k ∈ range (W.nr - 1), A k i * ∑ l ∈ range W.nc, W.f (k + 1) l * B l j := by
  unfold turnW
  rw [Mat.of_f' hi hj, if_neg (by omega), Nat.add_sub_cancel]

/-- `Σ_j (Σ_k u k A k j) (Σ_l A l j w l) = Σ_k u k w k` for orthonormal rows. -/
theorem orth_dot {m : Nat} {A : Nat → Nat → ℝ} (h : Orth m A) (u w : Nat → ℝ) :
    ∑ j ∈ range m, (∑ k ∈ range m, u k * A k j) * (∑ l ∈ range m, A l j * w l) = ∑ k ∈ range m, u k * w k := by
  have e : ∀ j ∈ range m, (∑ k ∈ range m, u k * A k j) * (∑ l ∈ range m, A l j * w l) = ∑ k ∈ range m, ∑ l ∈ range m, u k * w l * (A k j * A l j) := by
    intro j _
    rw [sum_mul_sum]
    exact sum_congr rfl fun k _ => sum_congr rfl fun l _ => by ring
  rw [sum_congr rfl e, sum_comm]
  refine sum_congr rfl fun k hk => ?_
  rw [sum_comm]
  have e2 : ∀ l ∈ range m, ∑ j ∈ range m, u k * w l * (A k j * A l j) = if k = l then u k * w l else 0 := by
    intro l hl
    rw [← mul_sum, h k (mem_range.1 hk) l (mem_range.1 hl)]
    split <;> simp
  rw [sum_congr rfl e2, sum_ite_eq, if_pos hk]

theorem pre_turn {W x : Mat ℝ} {A B : Nat → Nat → ℝ} (h : Orth x.nc A) (hW : W.nr = x.nc + 1) : Spec.pre (turnW A B W) (turn A x) = turn B (Spec.pre W x) := by
  refine Mat.ext' rfl rfl fun a b ha hb => ?_
  replace ha : a < x.nr := ha
  replace hb : b < W.nc := hb
  rw [turn_f (by exact ha) (by exact hb)]
  have e0 : (Spec.pre (turnW A B W) (turn A x)).f a b = (turnW A B W).f 0 b + ∑ k ∈ range x.nc, (turn A x).f a k * (turnW A B W).f (k + 1) b := by
    unfold Spec.pre
    exact Mat.of_f' (by exact ha) (by exact hb)
  have e1 : ∀ k ∈ range x.nc, (turn A x).f a k * (turnW A B W).f (k + 1) b = (∑ t ∈ range x.nc, x.f a t * A t k) * ∑ t ∈ range x.nc, A t k * ∑ l ∈ range W.nc, W.f (t + 1) l * B l b := by
    intro k hk
    have hk := mem_range.1 hk
    rw [turn_f ha hk, turnW_succ (by omega) hb, show W.nr - 1 = x.nc by omega]
  rw [e0, sum_congr rfl e1, orth_dot h, turnW_zero (by omega) hb]
  have e2 : ∀ l ∈ range (Spec.pre W x).nc, (Spec.pre W x).f a l * B l b = W.f 0 l * B l b + ∑ k ∈ range x.nc, x.f a k * (W.f (k + 1) l * B l b) := by
    intro l hl
    have hl : l < W.nc := mem_range.1 hl
    unfold Spec.pre
    rw [Mat.of_f' ha hl, add_mul, sum_mul]
    exact congrArg₂ (· + ·) rfl (sum_congr rfl fun k _ => by ring)
  rw [sum_congr rfl e2, sum_add_distrib]
  refine congrArg₂ (· + ·) rfl ?_
  rw [show (Spec.pre W x).nc = W.nc from rfl, sum_comm]
  exact sum_congr rfl fun k _ => by rw [mul_sum]

theorem map_turn {m : Mat ℝ} {B : Nat → Nat → ℝ} {f : ActFunc ℝ} (h : ActTurns f m.nc B) : (turn B m).map f.act = turn B (m.map f.act) := by
  refine Mat.ext' rfl rfl fun a b ha hb => ?_
  replace ha : a < m.nr := ha
  replace hb : b < m.nc := hb
  rw [turn_f (m := m.map f.act) (by exact ha) (by exact hb), Mat.map_f' (m := turn B m) (by exact ha) (by exact hb), turn_f ha hb, h _ b hb]
  refine sum_congr rfl fun k hk => ?_
  rw [Mat.map_f' (m := m) ha (mem_range.1 hk)]

/-- A layer with transformed weights. -/
def Layer.turnd (A B : Nat → Nat → ℝ) (L : Layer) : Layer := { L with W := turnW A B L.W }

theorem fwd_a_turn {L : Layer} {x : Mat ℝ} {A B : Nat → Nat → ℝ} (h : Orth x.nc A) (hW : L.W.nr = x.nc + 1) (hB : ActTurns L.actfunc L.W.nc B) :
    ((L.turnd A B).fwd (turn A x)).a = turn B (L.fwd x).a := by
  show (Spec.pre (turnW A B L.W) (turn A x)).map L.actfunc.act = turn B ((Spec.pre L.W x).map L.actfunc.act)
  rw [pre_turn h hW, map_turn (by exact hB)]

theorem dz_turn {L : Layer} {x d : Mat ℝ} {A B : Nat → Nat → ℝ} (h : Orth x.nc A) (hW : L.W.nr = x.nc + 1) (hB : ActdTurns L.actfunc L.W.nc B) (h1 : d.nr = x.nr) (h2 : d.nc = L.W.nc) :
    ((L.turnd A B).fwd (turn A x)).dz (turn B d) = turn B ((L.fwd x).dz d) := by
  refine Mat.ext' rfl rfl fun a b ha hb => ?_
  replace ha : a < d.nr := ha
  replace hb : b < d.nc := hb
  rw [turn_f (by exact ha) (by exact hb)]
  unfold Layer.dz
  rw [Mat.of_f' (by exact ha) (by exact hb), turn_f ha hb]
  show _ * L.actfunc.actd ((Spec.pre (turnW A B L.W) (turn A x)).f a b) = ∑ k ∈ range d.nc, (Mat.of d.nr d.nc (fun i j => d.f i j * L.actfunc.actd ((Spec.pre L.W x).f i j))).f a k * B k b
  rw [pre_turn h hW, turn_f (by show a < x.nr; omega) (by show b < L.W.nc; omega), show (Spec.pre L.W x).nc = L.W.nc from rfl, h2, hB _ _ b (by omega)]
  refine sum_congr rfl fun k hk => ?_
  rw [Mat.of_f' ha (mem_range.1 hk)]

theorem backOf_turn {D W : Mat ℝ} {A B : Nat → Nat → ℝ} {m : Nat} (hB : Orth W.nc B) (hW : W.nr = m + 1) (hD : D.nc = W.nc) :
    Layer.backOf (turn B D) (turnW A B W) = turn A (Layer.backOf D W) := by
  refine Mat.ext' rfl rfl fun a b ha hb => ?_
  replace ha : a < D.nr := ha
  replace hb : b < W.nr - 1 := hb
  rw [turn_f (by exact ha) (by exact hb)]
  unfold Layer.backOf
  rw [Mat.of_f' (by exact ha) (by exact hb)]
  show ∑ j ∈ range D.nc, (turn B D).f a j * (turnW A B W).f (b + 1) j = ∑ k ∈ range (W.nr - 1), (Mat.of D.nr (W.nr - 1) (fun i k => ∑ j ∈ range D.nc, D.f i j * W.f (k + 1) j)).f a k * A k b
  have e1 : ∀ j ∈ range D.nc, (turn B D).f a j * (turnW A B W).f (b + 1) j =
      ∑ k ∈ range (W.nr - 1), A k b * ((∑ t ∈ range W.nc, D.f a t * B t j) * ∑ l ∈ range W.nc, B l j * W.f (k + 1) l) := by
    intro j hj
    have hj := mem_range.1 hj
    rw [turn_f ha hj, turnW_succ (by omega) (by omega), mul_sum, hD]
    refine sum_congr rfl fun k _ => ?_
    rw [sum_congr rfl fun l _ => mul_comm (B l j) (W.f (k + 1) l)]
    ring
  rw [sum_congr rfl e1, sum_comm]
  refine sum_congr rfl fun k hk => ?_
  rw [← mul_sum, hD, orth_dot hB, Mat.of_f' ha (mem_range.1 hk), mul_comm]

theorem ones1_zero {x : Mat ℝ} {t : Nat} (ht : t < x.nr) : (ones1 x).f t 0 = 1 := by
  unfold ones1
  rw [Mat.of_f' ht (by omega), if_pos rfl]

theorem ones1_succ {x : Mat ℝ} {t k : Nat} (ht : t < x.nr) (hk : k < x.nc) : (ones1 x).f t (k + 1) = x.f t k := by
  unfold ones1
  rw [Mat.of_f' ht (by omega), if_neg (by omega), Nat.add_sub_cancel]

theorem gradOf_turn {x D : Mat ℝ} {A B : Nat → Nat → ℝ} (hD : D.nr = x.nr) : Layer.gradOf (ones1 (turn A x)) (turn B D) = turnW A B (Layer.gradOf (ones1 x) D) := by
  have hg : ∀ k < x.nc + 1, ∀ l < D.nc, (Layer.gradOf (ones1 x) D).f k l = ∑ t ∈ range x.nr, (ones1 x).f t k * D.f t l := by
    intro k hk l hl
    unfold Layer.gradOf
    exact Mat.of_f' (by exact hk) hl
  have hg' : ∀ k < x.nc + 1, ∀ l < D.nc, (Layer.gradOf (ones1 (turn A x)) (turn B D)).f k l = ∑ t ∈ range x.nr, (ones1 (turn A x)).f t k * ∑ r ∈ range D.nc, D.f t r * B r l := by
    intro k hk l hl
    unfold Layer.gradOf
    rw [Mat.of_f' (by exact hk) (by exact hl)]
    refine sum_congr rfl fun t ht => ?_
    rw [turn_f (by rw [hD]; exact mem_range.1 ht) hl]
  -- one row of the right-hand side
  have hr : ∀ k < x.nc + 1, ∀ j < D.nc, ∑ l ∈ range D.nc, (Layer.gradOf (ones1 x) D).f k l * B l j = ∑ t ∈ range x.nr, (ones1 x).f t k * ∑ l ∈ range D.nc, D.f t l * B l j := by
    intro k hk j _
    have e : ∀ l ∈ range D.nc, (Layer.gradOf (ones1 x) D).f k l * B l j = ∑ t ∈ range x.nr, (ones1 x).f t k * (D.f t l * B l j) := by
      intro l hl
      rw [hg k hk l (mem_range.1 hl), sum_mul]
      exact sum_congr rfl fun t _ => by ring
    rw [sum_congr rfl e, sum_comm]
    exact sum_congr rfl fun t _ => by rw [mul_sum]
  refine Mat.ext' rfl rfl fun i j hi hj => ?_
  replace hi : i < x.nc + 1 := hi
  replace hj : j < D.nc := hj
  rw [hg' i hi j hj]
  cases i with
  | zero =>
    rw [turnW_zero (by exact hi) (by exact hj)]
    show _ = ∑ l ∈ range D.nc, (Layer.gradOf (ones1 x) D).f 0 l * B l j
    rw [hr 0 hi j hj]
    refine sum_congr rfl fun t ht => ?_
    rw [ones1_zero (by exact mem_range.1 ht), ones1_zero (by exact mem_range.1 ht)]
  | succ i =>
    rw [turnW_succ (by exact hi) (by exact hj)]
    show _ = ∑ k ∈ range (x.nc + 1 - 1), A k i * ∑ l ∈ range D.nc, (Layer.gradOf (ones1 x) D).f (k + 1) l * B l j
    rw [Nat.add_sub_cancel]
    have e : ∀ k ∈ range x.nc, A k i * ∑ l ∈ range D.nc, (Layer.gradOf (ones1 x) D).f (k + 1) l * B l j = ∑ t ∈ range x.nr, (x.f t k * A k i) * ∑ l ∈ range D.nc, D.f t l * B l j := by
      intro k hk
      have hk := mem_range.1 hk
      rw [hr (k + 1) (by omega) j hj, mul_sum]
      refine sum_congr rfl fun t ht => ?_
      rw [ones1_succ (mem_range.1 ht) hk]
      ring
    rw [sum_congr rfl e, sum_comm]
    refine sum_congr rfl fun t ht => ?_
    have ht := mem_range.1 ht
    rw [ones1_succ (by exact ht) (by show i < x.nc; omega), turn_f ht (by omega), ← sum_mul]

/-- Transformed weights are linear in the weights. -/
theorem turnW_step {A B : Nat → Nat → ℝ} {W G : Mat ℝ} (lr la : ℝ) (h1 : G.nr = W.nr) (h2 : G.nc = W.nc) (h0 : 0 < W.nr) :
    Mat.of W.nr W.nc (fun i j => (turnW A B W).f i j - lr * ((turnW A B G).f i j + la * (turnW A B W).f i j)) =
      turnW A B (Mat.of W.nr W.nc (fun i j => W.f i j - lr * (G.f i j + la * W.f i j))) := by
  have hr : ∀ k < W.nr, ∀ j < W.nc, ∑ l ∈ range W.nc, (Mat.of W.nr W.nc (fun i j => W.f i j - lr * (G.f i j + la * W.f i j))).f k l * B l j =
      (∑ l ∈ range W.nc, W.f k l * B l j) - lr * ((∑ l ∈ range W.nc, G.f k l * B l j) + la * ∑ l ∈ range W.nc, W.f k l * B l j) := by
    intro k hk j _
    have e : ∀ l ∈ range W.nc, (Mat.of W.nr W.nc (fun i j => W.f i j - lr * (G.f i j + la * W.f i j))).f k l * B l j = W.f k l * B l j - lr * (G.f k l * B l j + la * (W.f k l * B l j)) := by
      intro l hl
      rw [Mat.of_f' hk (mem_range.1 hl)]
      ring
    rw [sum_congr rfl e, sum_sub_distrib, ← mul_sum, sum_add_distrib, ← mul_sum]
  refine Mat.ext' rfl rfl fun i j hi hj => ?_
  replace hi : i < W.nr := hi
  replace hj : j < W.nc := hj
  rw [Mat.of_f' hi hj]
  cases i with
  | zero =>
    rw [turnW_zero (W := W) hi hj, turnW_zero (W := G) (by omega) (by omega), h2, turnW_zero (by exact hi) (by exact hj)]
    exact (hr 0 hi j hj).symm
  | succ i =>
    rw [turnW_succ (W := W) hi hj, turnW_succ (W := G) (by omega) (by omega), h1, h2, turnW_succ (by exact hi) (by exact hj)]
    show _ = ∑ k ∈ range (W.nr - 1), A k i * ∑ l ∈ range W.nc, (Mat.of W.nr W.nc (fun i j => W.f i j - lr * (G.f i j + la * W.f i j))).f (k + 1) l * B l j
    have e : ∀ k ∈ range (W.nr - 1), A k i * ∑ l ∈ range W.nc, (Mat.of W.nr W.nc (fun i j => W.f i j - lr * (G.f i j + la * W.f i j))).f (k + 1) l * B l j =
        A k i * (∑ l ∈ range W.nc, W.f (k + 1) l * B l j) - lr * (A k i * (∑ l ∈ range W.nc, G.f (k + 1) l * B l j) + la * (A k i * ∑ l ∈ range W.nc, W.f (k + 1) l * B l j)) := by
      intro k hk
      rw [hr (k + 1) (by have := mem_range.1 hk; omega) j hj]
      ring
    rw [sum_congr rfl e, sum_sub_distrib, ← mul_sum, sum_add_distrib, ← mul_sum]

theorem firstStep_turn {lr la : ℝ} {x D W : Mat ℝ} {A B : Nat → Nat → ℝ} (hW : W.nr = x.nc + 1) (h1 : D.nr = x.nr) (h2 : D.nc = W.nc) :
    firstStep lr la (turn A x) (turn B D) (turnW A B W) = turnW A B (firstStep lr la x D W) := by
  have g1 : (Layer.gradOf (ones1 x) D).nr = W.nr := by show x.nc + 1 = W.nr; omega
  have g2 : (Layer.gradOf (ones1 x) D).nc = W.nc := h2
  unfold firstStep
  rw [gradOf_turn h1, turnW_nr, turnW_nc]
  generalize Layer.gradOf (ones1 x) D = G at g1 g2 ⊢
  exact turnW_step lr la g1 g2 (by omega)

/-- Layers transformed. -/
def turnL : (Nat → Nat → ℝ) → List (Nat → Nat → ℝ) → List Layer → List Layer
  | _, _, [] => []
  | A, Bs, L :: Ls => L.turnd A (Bs.headD same) :: turnL (Bs.headD same) Bs.tail Ls

theorem turnL_core : ∀ (A : Nat → Nat → ℝ) (Bs : List (Nat → Nat → ℝ)) (Ls : List Layer), (turnL A Bs Ls).map Layer.core = turnAll A Bs (Ls.map Layer.core)
  | _, _, [] => rfl
  | A, Bs, L :: Ls => by
    show Layer.core (L.turnd A (Bs.headD same)) :: (turnL (Bs.headD same) Bs.tail Ls).map Layer.core = _ :: turnAll (Bs.headD same) Bs.tail (Ls.map Layer.core)
    rw [turnL_core]
    rfl

/-- The transformation of the units of the last hidden layer. -/
def lastT : (Nat → Nat → ℝ) → List (Nat → Nat → ℝ) → Nat → Nat → ℝ
  | A, [] => A
  | _, B :: Bs => lastT B Bs

theorem turnL_snoc : ∀ (A K : Nat → Nat → ℝ) (Bs : List (Nat → Nat → ℝ)) (Ls : List Layer) (O : Layer), Bs.length = Ls.length →
    turnL A (Bs ++ [K]) (Ls ++ [O]) = turnL A Bs Ls ++ [O.turnd (lastT A Bs) K]
  | _, _, [], [], _, _ => rfl
  | _, _, _ :: _, [], _, h => by simp at h
  | _, _, [], _ :: _, _, h => by simp at h
  | A, K, B :: Bs, L :: Ls, O, h => by
    show L.turnd A B :: turnL B (Bs ++ [K]) (Ls ++ [O]) = L.turnd A B :: (turnL B Bs Ls ++ [O.turnd (lastT B Bs) K])
    rw [turnL_snoc B K Bs Ls O (by simpa using h)]

theorem turnAll_snoc : ∀ (A K : Nat → Nat → ℝ) (Bs : List (Nat → Nat → ℝ)) (cs : List (ℝ × ℝ × ActFunc ℝ × Mat ℝ)) (lr la : ℝ) (f : ActFunc ℝ) (W : Mat ℝ), Bs.length = cs.length →
    turnAll A (Bs ++ [K]) (cs ++ [(lr, la, f, W)]) = turnAll A Bs cs ++ [(lr, la, f, turnW (lastT A Bs) K W)]
  | _, _, [], [], _, _, _, _, _ => rfl
  | _, _, _ :: _, [], _, _, _, _, h => by simp at h
  | _, _, [], _ :: _, _, _, _, _, h => by simp at h
  | A, K, B :: Bs, (_, _, _, _) :: cs, lr, la, f, W, h => by
    show _ :: turnAll B (Bs ++ [K]) (cs ++ [(lr, la, f, W)]) = _ :: (turnAll B Bs cs ++ [(lr, la, f, turnW (lastT B Bs) K W)])
    rw [turnAll_snoc B K Bs cs lr la f W (by simpa using h)]
    rfl

abbrev TurnsFitL (Bs : List (Nat → Nat → ℝ)) (Ls : List Layer) : Prop :=
  List.Forall₂ (fun B (L : Layer) => Orth L.W.nc B ∧ ActTurns L.actfunc L.W.nc B ∧ ActdTurns L.actfunc L.W.nc B) Bs Ls

theorem outL_turn : ∀ {Ls : List Layer} {Bs : List (Nat → Nat → ℝ)} {x : Mat ℝ} {A : Nat → Nat → ℝ} {q : Nat}, Spec.Fits x.nc (Ls.map (·.W)) q → Orth x.nc A → TurnsFitL Bs Ls →
    outL (turnL A Bs Ls) (turn A x) = turn (lastT A Bs) (outL Ls x) ∧ Orth q (lastT A Bs)
  | [], _, x, A, q, hf, h, .nil => by
    simp only [List.map_nil, Spec.Fits] at hf
    exact ⟨rfl, by rw [← hf]; exact h⟩
  | L :: Ls, B :: Bs, x, A, q, hf, h, .cons hB hBs => by
    simp only [List.map_cons, Spec.Fits] at hf
    show outL (turnL B Bs Ls) ((L.turnd A B).fwd (turn A x)).a = _ ∧ _
    rw [fwd_a_turn h hf.1 hB.2.1]
    exact outL_turn (x := (L.fwd x).a) hf.2.2 hB.1 hBs

theorem bwd_step (L : Layer) (x d : Mat ℝ) : (Layer.upd ((L.fwd x).bwd d)).core = (L.lrate, L.lambda, L.actfunc, firstStep L.lrate L.lambda x ((L.fwd x).dz d) L.W) := upd_firstStep L x ((L.fwd x).dz d)

theorem bwdL_turn : ∀ {Ls : List Layer} {Bs : List (Nat → Nat → ℝ)} {x d : Mat ℝ} {A : Nat → Nat → ℝ} {q : Nat}, Spec.Fits x.nc (Ls.map (·.W)) q → Orth x.nc A → TurnsFitL Bs Ls →
    d.nr = x.nr → d.nc = q →
    (bwdL (fwdL (turnL A Bs Ls) (turn A x)) (turn (lastT A Bs) d)).2 = turn A (bwdL (fwdL Ls x) d).2 ∧
      ((bwdL (fwdL (turnL A Bs Ls) (turn A x)) (turn (lastT A Bs) d)).1.map Layer.upd).map Layer.core = turnAll A Bs (((bwdL (fwdL Ls x) d).1.map Layer.upd).map Layer.core)
  | [], _, x, d, A, q, hf, h, .nil, h1, h2 => ⟨rfl, rfl⟩
  | L :: Ls, B :: Bs, x, d, A, q, hf, h, .cons hB hBs, h1, h2 => by
    simp only [List.map_cons, Spec.Fits] at hf
    have ih := bwdL_turn (x := (L.fwd x).a) (d := d) hf.2.2 hB.1 hBs h1 h2
    obtain ⟨hb1, hb2⟩ := bwdL_dims (Ls := fwdL Ls (L.fwd x).a) (d := d) (m := x.nr) (p := L.W.nc) (q := q) (by rw [fwdL_W]; exact hf.2.2) h1 h2
    constructor
    · show Layer.backOf (((L.turnd A B).fwd (turn A x)).dz (bwdL (fwdL (turnL B Bs Ls) ((L.turnd A B).fwd (turn A x)).a) (turn (lastT B Bs) d)).2) (turnW A B L.W) =
        turn A (Layer.backOf ((L.fwd x).dz (bwdL (fwdL Ls (L.fwd x).a) d).2) L.W)
      rw [fwd_a_turn h hf.1 hB.2.1, ih.1, dz_turn h hf.1 hB.2.2 hb1 hb2, backOf_turn hB.1 hf.1 (by exact hb2)]
    · show Layer.core (Layer.upd (((L.turnd A B).fwd (turn A x)).bwd (bwdL (fwdL (turnL B Bs Ls) ((L.turnd A B).fwd (turn A x)).a) (turn (lastT B Bs) d)).2)) ::
          ((bwdL (fwdL (turnL B Bs Ls) ((L.turnd A B).fwd (turn A x)).a) (turn (lastT B Bs) d)).1.map Layer.upd).map Layer.core =
        turnAll A (B :: Bs) (Layer.core (Layer.upd ((L.fwd x).bwd (bwdL (fwdL Ls (L.fwd x).a) d).2)) :: (((bwdL (fwdL Ls (L.fwd x).a) d).1.map Layer.upd).map Layer.core))
      rw [fwd_a_turn h hf.1 hB.2.1, ih.2, ih.1]
      rw [bwd_step (L.turnd A B), bwd_step L]
      show _ = (L.lrate, L.lambda, L.actfunc, turnW A B (firstStep L.lrate L.lambda x ((L.fwd x).dz (bwdL (fwdL Ls (L.fwd x).a) d).2) L.W)) :: turnAll B Bs _
      rw [dz_turn h hf.1 hB.2.2 hb1 hb2, ← firstStep_turn hf.1 (by exact hb1) (by exact hb2)]
      rfl

theorem core_turn {s s' : Store} {n n' : Net} {A K : Nat → Nat → ℝ} {Bs : List (Nat → Nat → ℝ)} (hl : Bs.length = (n.hiddenLayers s).length)
    (hm : Spec.model s' n' = turnAll A (Bs ++ [K]) (Spec.model s n)) :
    (n'.hiddenLayers s').map Layer.core = (turnL A Bs (n.hiddenLayers s)).map Layer.core ∧ n'.output.toLayer.core = (n.output.toLayer.turnd (lastT A Bs) K).core := by
  have e : (n'.layers s').map Layer.core = (turnL A (Bs ++ [K]) (n.layers s)).map Layer.core := by
    rw [turnL_core]; exact hm
  unfold Net.layers at e
  rw [turnL_snoc _ _ _ _ _ hl, List.map_append, List.map_append] at e
  obtain ⟨h3, h4⟩ := List.append_inj' e rfl
  exact ⟨h3, List.singleton_injective h4⟩

theorem turnsFit_congr {Bs : List (Nat → Nat → ℝ)} : ∀ {Ls Ms : List Layer}, Ls.map (fun L => (L.actfunc, L.W.nc)) = Ms.map (fun L => (L.actfunc, L.W.nc)) → TurnsFitL Bs Ms → TurnsFitL Bs Ls := by
  induction Bs with
  | nil =>
    intro Ls Ms e h
    cases h
    cases Ls with
    | nil => exact .nil
    | cons => simp at e
  | cons B Bs ih =>
    intro Ls Ms e h
    cases h with
    | cons h1 h2 =>
      cases Ls with
      | nil => simp at e
      | cons L Ls =>
        simp only [List.map_cons, List.cons.injEq, Prod.mk.injEq] at e
        exact .cons (by rw [e.1.1, e.1.2]; exact h1) (ih e.2 h2)

/-- One training step from networks of which the second is the first transformed. -/
theorem step_turn {junk junk' : Nat → Nat → ℝ} {s s' : Store} {n n' : Net} {p q : Nat} {x y : Mat ℝ} {A K : Nat → Nat → ℝ} {Bs : List (Nat → Nat → ℝ)} (h : n.WF s p q) (h' : n'.WF s' p q)
    (hA : Orth p A) (hK : Orth q K) (hBs : Spec.TurnsFit Bs s n) (hm : Spec.model s' n' = turnAll A (Bs ++ [K]) (Spec.model s n)) (hdd : n'.output.costd = n.output.costd)
    (hr : 0 < x.nr) (hc : x.nc = p) (hyr : y.nr = x.nr) (hyc : y.nc = q) (hd : OutputLayer.DeltaOK n.output.costd) (hka : ActTurns n.output.actfunc q K) (hkc : CostTurns n.output.costd q K) :
    ∃ s1 n1 s2 n2, n.trainOn junk s x y = .ok (s1, n1) ∧ n'.trainOn junk' s' (turn A x) (turn K y) = .ok (s2, n2) ∧ Spec.model s2 n2 = turnAll A (Bs ++ [K]) (Spec.model s1 n1) ∧
      n1.WF s1 p q ∧ n2.WF s2 p q ∧ n1.output.costd = n.output.costd ∧ n2.output.costd = n.output.costd ∧ n1.output.actfunc = n.output.actfunc ∧ Spec.TurnsFit Bs s1 n1 := by
  have hps0 : TurnsFitL Bs (n.hiddenLayers s) := hBs
  obtain ⟨c1, c2⟩ := core_turn hps0.length_eq hm
  obtain ⟨r, f1, f2, f3, f4⟩ := h.split
  have hf1 : Spec.Fits x.nc ((n.hiddenLayers s).map (·.W)) r := by rw [hc]; exact f1
  have hAx : Orth x.nc A := by rw [hc]; exact hA
  have hKW : Orth n.output.W.nc K := by rw [f4]; exact hK
  obtain ⟨d1, d2⟩ := outputZ_dims h hc
  have hd0 := outL_dims (Ls := n.hiddenLayers s) (x := x) (q := r) hf1
  obtain ⟨o1, o2⟩ := outL_turn (x := x) (A := A) hf1 hAx hps0
  simp only [Layer.core, Prod.mk.injEq] at c2
  obtain ⟨k1, k2, k3, k4⟩ := c2
  replace k4 : n'.output.W = turnW (lastT A Bs) K n.output.W := k4
  replace k3 : n'.output.actfunc = n.output.actfunc := k3
  replace k2 : n'.output.lambda = n.output.lambda := k2
  replace k1 : n'.output.lrate = n.output.lrate := k1
  have ho : outL (n'.hiddenLayers s') (turn A x) = turn (lastT A Bs) (outL (n.hiddenLayers s) x) := by rw [outL_congr _ c1, o1]
  have hp2 : Orth (outL (n.hiddenLayers s) x).nc (lastT A Bs) := by rw [hd0.2]; exact o2
  have hz : n'.outputZ s' (turn A x) = turn K (n.outputZ s x) := by
    rw [outputZ_eq, outputZ_eq, k4, ho, pre_turn hp2 (by rw [hd0.2]; exact f2)]
  obtain ⟨D, hD, hD1, hD2⟩ := hd y ((n.outputZ s x).map n.output.actfunc.act) (n.outputZ s x) (by rw [Mat.map_nr]; omega) (by rw [Mat.map_nc]; omega)
    (by omega) (by omega)
  have hD' : n'.deltaOn s' (turn A x) (turn K y) = .ok (turn K D) := by
    unfold Net.deltaOn
    rw [hz, hdd, k3, map_turn (by rw [d2]; exact hka)]
    exact hkc y _ _ D hyc (by rw [Mat.map_nr]; omega) (by rw [Mat.map_nc]; omega) hD
  obtain ⟨s1, n1, e1, b1, -, w1⟩ := trainOn_ok (junk := junk) h hr hc hD (by omega) (by omega)
  obtain ⟨s2, n2, e2, b2, -, w2⟩ := trainOn_ok (junk := junk') (x := turn A x) h' (by exact hr) (by exact hc) hD' (by show D.nr = x.nr; omega) (by show D.nc = q; omega)
  have m1 : Spec.model s1 n1 = ((n.passed s x D).map Layer.upd).map Layer.core := by
    show (n1.layers s1).map Layer.core = _
    rw [b1.layers]
  have m2 : Spec.model s2 n2 = ((n'.passed s' (turn A x) (turn K D)).map Layer.upd).map Layer.core := by
    show (n2.layers s2).map Layer.core = _
    rw [b2.layers]
  have split : ∀ (t : Store) (m : Net) (x D : Mat ℝ), ((m.passed t x D).map Layer.upd).map Layer.core = (((bwdL (fwdL (m.hiddenLayers t) x) (Layer.backOf D m.output.W)).1).map Layer.upd).map Layer.core ++
      [(m.output.lrate, m.output.lambda, m.output.actfunc, firstStep m.output.lrate m.output.lambda (outL (m.hiddenLayers t) x) D m.output.W)] := by
    intro t m x D
    unfold Net.passed bwdNet
    rw [List.map_append, List.map_append]
    simp only [List.map_cons, List.map_nil]
    rw [upd_firstStep m.output.toLayer]
    rfl
  have hlen : Bs.length = ((((bwdL (fwdL (n.hiddenLayers s) x) (Layer.backOf D n.output.W)).1).map Layer.upd).map Layer.core).length := by
    have a1 := congrArg List.length (bwdL_W (fwdL (n.hiddenLayers s) x) (Layer.backOf D n.output.W))
    rw [fwdL_W, List.length_map, List.length_map] at a1
    rw [List.length_map, List.length_map, a1]; exact hps0.length_eq
  have hmodel : Spec.model s2 n2 = turnAll A (Bs ++ [K]) (Spec.model s1 n1) := by
    rw [m1, m2, split, split, turnAll_snoc _ _ _ _ _ _ _ _ hlen]
    have hg := bwdL_turn (x := x) (A := A) (d := Layer.backOf D n.output.W) (q := r) hf1 hAx hps0 (show D.nr = x.nr by omega) (show n.output.W.nr - 1 = r by omega)
    congr 1
    · rw [← hg.2, bwdL_congr _ _ c1, k4, backOf_turn (m := r) hKW f2 (by omega)]
    · rw [k1, k2, k3, k4, ho, firstStep_turn (by rw [hd0.2]; exact f2) (by omega) (by omega)]
  refine ⟨s1, n1, s2, n2, e1, e2, hmodel, w1.wf, w2.wf, b1.conf.ocostd, by rw [b2.conf.ocostd, hdd], ?_, ?_⟩
  · have e3 := m1
    rw [split] at e3
    exact (model_split e3).2.2.2.1
  · refine turnsFit_congr (Ms := n.hiddenLayers s) ?_ hps0
    have e3 := m1
    rw [split] at e3
    have e4 := (model_split e3).1
    have e5 : ((bwdL (fwdL (n.hiddenLayers s) x) (Layer.backOf D n.output.W)).1.map Layer.upd).map (fun L => (L.actfunc, L.W.nc)) = (n.hiddenLayers s).map (fun L => (L.actfunc, L.W.nc)) := by
      have a1 := congrArg (List.map (fun c : ℝ × ℝ × ActFunc ℝ × Mat ℝ => (c.2.2.1, c.2.2.2.nc))) (bwdL_core (fwdL (n.hiddenLayers s) x) (Layer.backOf D n.output.W))
      rw [List.map_map, List.map_map, ] at a1
      have a2 := congrArg (List.map (fun c : ℝ × ℝ × ActFunc ℝ × Mat ℝ => (c.2.2.1, c.2.2.2.nc))) (fwdL_core (n.hiddenLayers s) x)
      rw [List.map_map, List.map_map] at a2
      rw [List.map_map]
      exact a1.trans a2
    have e6 := congrArg (List.map (fun c : ℝ × ℝ × ActFunc ℝ × Mat ℝ => (c.2.2.1, c.2.2.2.nc))) e4
    rw [List.map_map, List.map_map] at e6
    exact e6.trans e5

theorem out_turn {s s' : Store} {n n' : Net} {p q : Nat} {x : Mat ℝ} {A K : Nat → Nat → ℝ} {Bs : List (Nat → Nat → ℝ)} (h : n.WF s p q) (hA : Orth p A)
    (hBs : Spec.TurnsFit Bs s n) (hm : Spec.model s' n' = turnAll A (Bs ++ [K]) (Spec.model s n)) (hka : ActTurns n.output.actfunc q K) (hc : x.nc = p) :
    outL (n'.layers s') (turn A x) = turn K (outL (n.layers s) x) := by
  have hps0 : TurnsFitL Bs (n.hiddenLayers s) := hBs
  obtain ⟨r, f1, f2, f3, f4⟩ := h.split
  have hf1 : Spec.Fits x.nc ((n.hiddenLayers s).map (·.W)) r := by rw [hc]; exact f1
  have hd0 := outL_dims (Ls := n.hiddenLayers s) (x := x) (q := r) hf1
  obtain ⟨o1, o2⟩ := outL_turn (x := x) (A := A) hf1 (by rw [hc]; exact hA) hps0
  have e : (n'.layers s').map Layer.core = (turnL A (Bs ++ [K]) (n.layers s)).map Layer.core := by
    rw [turnL_core]; exact hm
  rw [outL_congr _ e]
  unfold Net.layers
  rw [turnL_snoc _ _ _ _ _ hps0.length_eq, outL_append, outL_append, o1]
  show ((n.output.toLayer.turnd (lastT A Bs) K).fwd (turn (lastT A Bs) (outL (n.hiddenLayers s) x))).a = turn K (n.output.toLayer.fwd (outL (n.hiddenLayers s) x)).a
  rw [fwd_a_turn (by rw [hd0.2]; exact o2) (by rw [hd0.2]; exact f2) (by rw [f4]; exact hka)]

theorem train_turn {junk junk' : Nat → Nat → ℝ} {p q : Nat} {A K : Nat → Nat → ℝ} {Bs : List (Nat → Nat → ℝ)} (hA : Orth p A) (hK : Orth q K) :
    ∀ {bs : List (Mat ℝ × Mat ℝ)} {s s' : Store} {n n' : Net}, n.WF s p q → n'.WF s' p q → Spec.TurnsFit Bs s n → Spec.model s' n' = turnAll A (Bs ++ [K]) (Spec.model s n) →
    n'.output.costd = n.output.costd → OutputLayer.DeltaOK n.output.costd → ActTurns n.output.actfunc q K → CostTurns n.output.costd q K → Spec.BatchesFit p q bs →
    ∃ s1 n1 s2 n2, Net.trainAll junk bs s n = .ok (s1, n1) ∧ Net.trainAll junk' (Spec.turnBatches A K bs) s' n' = .ok (s2, n2) ∧ Spec.model s2 n2 = turnAll A (Bs ++ [K]) (Spec.model s1 n1) ∧
      n1.WF s1 p q ∧ n2.WF s2 p q ∧ n1.output.actfunc = n.output.actfunc ∧ Spec.TurnsFit Bs s1 n1
  | [], s, s', n, n', h, h', hB, hm, _, _, _, _, _ => ⟨s, n, s', n', rfl, rfl, hm, h, h', rfl, hB⟩
  | (x, y) :: bs, s, s', n, n', h, h', hB, hm, hdd, hd, hka, hkc, hb => by
    obtain ⟨b1, b2, b3, b4⟩ := hb (x, y) (by simp)
    obtain ⟨s1, n1, s2, n2, e1, e2, e3, w1, w2, e4, e5, e6, e7⟩ := step_turn (junk := junk) (junk' := junk') h h' hA hK hB hm hdd b1 b2 b3 b4 hd hka hkc
    obtain ⟨s3, n3, s4, n4, f1, f2, f3, f4, f5, f6, f7⟩ := train_turn hA hK (bs := bs) (junk := junk) (junk' := junk') w1 w2 e7 e3 (by rw [e4, e5]) (by rw [e4]; exact hd) (by rw [e6]; exact hka) (by rw [e4]; exact hkc)
      (fun c hc => hb c (by simp [hc]))
    refine ⟨s3, n3, s4, n4, ?_, ?_, f3, f4, f5, f6.trans e6, f7⟩
    · simp only [Net.trainAll]
      rw [e1, ok_bind]; exact f1
    · show Net.trainAll junk' ((turn A x, turn K y) :: Spec.turnBatches A K bs) s' n' = _
      simp only [Net.trainAll]
      rw [e2, ok_bind]; exact f2

theorem same_orth (m : Nat) : Orth m same := by
  intro l hl k _
  unfold same
  simp only [ite_mul, one_mul, zero_mul]
  rw [sum_ite_eq, if_pos (mem_range.2 hl)]
  simp only [eq_comm]

theorem same_sum {m j : Nat} (hj : j < m) (z : Nat → ℝ) : ∑ k ∈ range m, z k * same k j = z j := by
  unfold same
  simp only [mul_ite, mul_one, mul_zero]
  rw [sum_ite_eq', if_pos (mem_range.2 hj)]

theorem turn_same (m : Mat ℝ) : turn same m = m := Mat.ext' rfl rfl fun i j hi hj => by rw [turn_f (by exact hi) (by exact hj), same_sum (by exact hj)]

theorem turnBatches_same (A : Nat → Nat → ℝ) (bs : List (Mat ℝ × Mat ℝ)) : turnBatches A same bs = bs.map (fun b => (turn A b.1, b.2)) := by
  unfold turnBatches
  simp only [turn_same]

theorem turnBatches_same2 (bs : List (Mat ℝ × Mat ℝ)) : turnBatches same same bs = bs := by
  rw [turnBatches_same]
  simp only [turn_same, Prod.mk.eta, List.map_id']

theorem mirror_sum {m j : Nat} (hj : j < m) (z σ : Nat → ℝ) : ∑ k ∈ range m, z k * mirror σ k j = z j * σ j := by
  unfold mirror
  simp only [mul_ite, mul_zero]
  rw [sum_ite_eq', if_pos (mem_range.2 hj)]

theorem mirror_orth {m : Nat} {σ : Nat → ℝ} (h : ∀ j < m, σ j = 1 ∨ σ j = -1) : Orth m (mirror σ) := by
  intro l hl k _
  unfold mirror
  simp only [ite_mul, zero_mul]
  rw [sum_ite_eq, if_pos (mem_range.2 hl)]
  by_cases e : l = k
  · subst e
    rw [if_pos rfl, if_pos rfl]
    rcases h l hl with h | h <;> rw [h] <;> norm_num
  · rw [if_neg (Ne.symm e), if_neg e, mul_zero]

/-- The outputs used with `K` unchanged. -/
theorem same_act (f : ActFunc ℝ) (m : Nat) : ActTurns f m same := fun z j hj => by rw [same_sum hj, same_sum hj (fun k => f.act (z k))]

theorem same_actd (f : ActFunc ℝ) (m : Nat) : ActdTurns f m same := fun z d j hj => by rw [same_sum hj, same_sum hj, same_sum hj (fun k => d k * f.actd (z k))]

theorem same_cost (costd : MatFuncD) (m : Nat) : CostTurns costd m same := fun y a z D _ _ _ h => by simp only [turn_same]; exact h

theorem turnW_same (W : Mat ℝ) : turnW same same W = W := by
  refine Mat.ext' rfl rfl fun i j hi hj => ?_
  replace hi : i < W.nr := hi
  replace hj : j < W.nc := hj
  cases i with
  | zero => rw [turnW_zero hi hj, same_sum hj]
  | succ i =>
    rw [turnW_succ hi hj]
    have e : ∀ k ∈ range (W.nr - 1), same k i * ∑ l ∈ range W.nc, W.f (k + 1) l * same l j = W.f (k + 1) j * same k i := by
      intro k _
      rw [same_sum hj, mul_comm]
    rw [sum_congr rfl e, same_sum (by omega) (fun k => W.f (k + 1) j)]

theorem turnAll_same : ∀ (k : Nat) (cs : List (ℝ × ℝ × ActFunc ℝ × Mat ℝ)), turnAll same (List.replicate k same) cs = cs
  | _, [] => by simp [turnAll]
  | 0, (lr, la, f, W) :: cs => by
    show (lr, la, f, turnW same same W) :: turnAll same [] cs = _
    rw [turnW_same, ← List.replicate_zero (a := same), turnAll_same 0 cs]
  | k + 1, (lr, la, f, W) :: cs => by
    show (lr, la, f, turnW same same W) :: turnAll same (List.replicate k same) cs = _
    rw [turnW_same, turnAll_same k cs]

theorem turnAll_nil (cs : List (ℝ × ℝ × ActFunc ℝ × Mat ℝ)) : turnAll same [] cs = cs := turnAll_same 0 cs

theorem flip_one (W : Mat ℝ) : Spec.flip (fun _ => 1) (fun _ => 1) W = W := by
  refine Mat.ext' rfl rfl fun i j hi hj => ?_
  unfold Spec.flip
  rw [Mat.of_f' (by exact hi) (by exact hj)]
  simp

theorem flipAll_nil : ∀ (cs : List (ℝ × ℝ × ActFunc ℝ × Mat ℝ)), Spec.flipAll (fun _ => 1) [] cs = cs
  | [] => rfl
  | (lr, la, f, W) :: cs => by
    show (lr, la, f, Spec.flip (fun _ => 1) (fun _ => 1) W) :: Spec.flipAll (fun _ => 1) [] cs = _
    rw [flip_one, flipAll_nil cs]

/-! ## C112 -/

/-- **C112** (general). Take a well-formed dense network, and a second one that is the first with the features transformed by an orthogonal `A`, the units of each hidden layer by an orthogonal
transformation its activation function respects (`Bs`) and the outputs by an orthogonal `K` that output activation and cost respect. Train the first on any batches and the second on the same
batches, transformed: the second stays the first transformed, and its outputs for transformed inputs are the first's, transformed. -/
theorem C112_transformed {junk junk' : Nat → Nat → ℝ} {p q : Nat} {A K : Nat → Nat → ℝ} {Bs : List (Nat → Nat → ℝ)} {bs : List (Mat ℝ × Mat ℝ)} {s s' : Store} {n n' : Net} (h : n.WF s p q)
    (h' : n'.WF s' p q) (hA : Spec.Orth p A) (hK : Spec.Orth q K) (hB : Spec.TurnsFit Bs s n) (hm : Spec.model s' n' = Spec.turnAll A (Bs ++ [K]) (Spec.model s n))
    (hdd : n'.output.costd = n.output.costd) (hd : OutputLayer.DeltaOK n.output.costd) (hka : Spec.ActTurns n.output.actfunc q K) (hkc : Spec.CostTurns n.output.costd q K) (hb : Spec.BatchesFit p q bs) :
    ∃ s1 n1 s2 n2, Net.trainAll junk bs s n = .ok (s1, n1) ∧ Net.trainAll junk' (Spec.turnBatches A K bs) s' n' = .ok (s2, n2) ∧ Spec.model s2 n2 = Spec.turnAll A (Bs ++ [K]) (Spec.model s1 n1) ∧
      ∀ x : Mat ℝ, 0 < x.nr → x.nc = p → ∃ out t1 m1 t2 m2, n1.forwardprop junk s1 x = .ok (out, t1, m1) ∧ n2.forwardprop junk' s2 (Spec.turn A x) = .ok (Spec.turn K out, t2, m2) := by
  obtain ⟨s1, n1, s2, n2, e1, e2, e3, w1, w2, e4, e5⟩ := train_turn (junk := junk) (junk' := junk') hA hK h h' hB hm hdd hd hka hkc hb
  refine ⟨s1, n1, s2, n2, e1, e2, e3, fun x hr hc => ?_⟩
  obtain ⟨t1, m1, g1, -⟩ := Net.forwardprop_ok (junk := junk) w1 hr hc
  obtain ⟨t2, m2, g2, -⟩ := Net.forwardprop_ok (junk := junk') (x := turn A x) w2 (by exact hr) (by exact hc)
  rw [out_turn w1 hA e5 e3 (by rw [e4]; exact hka) hc] at g2
  exact ⟨_, t1, m1, t2, m2, g1, g2⟩

/-- **C112** (features). Rotate or reflect the features of all data by any orthogonal `A`, and the first layer's initial weights with them. Then training, with any activation functions, cost and
regularisation, gives the same network up to the rotation of the first layer's weights, and it computes the same outputs for the rotated inputs: a dense network does not care about the axes of its
input. -/
theorem C112_features {junk junk' : Nat → Nat → ℝ} {p q : Nat} {A : Nat → Nat → ℝ} {bs : List (Mat ℝ × Mat ℝ)} {s s' : Store} {n n' : Net} {lr la : ℝ} {f : ActFunc ℝ} {W : Mat ℝ}
    {rest : List (ℝ × ℝ × ActFunc ℝ × Mat ℝ)} (h : n.WF s p q) (h' : n'.WF s' p q) (hA : Spec.Orth p A) (hm : Spec.model s n = (lr, la, f, W) :: rest)
    (hm' : Spec.model s' n' = (lr, la, f, Spec.turnW A Spec.same W) :: rest) (hdd : n'.output.costd = n.output.costd) (hd : OutputLayer.DeltaOK n.output.costd) (hb : Spec.BatchesFit p q bs) :
    ∃ s1 n1 s2 n2 V rest1, Net.trainAll junk bs s n = .ok (s1, n1) ∧ Net.trainAll junk' (bs.map (fun b => (Spec.turn A b.1, b.2))) s' n' = .ok (s2, n2) ∧
      Spec.model s1 n1 = (lr, la, f, V) :: rest1 ∧ Spec.model s2 n2 = (lr, la, f, Spec.turnW A Spec.same V) :: rest1 ∧
      ∀ x : Mat ℝ, 0 < x.nr → x.nc = p → ∃ out t1 m1 t2 m2, n1.forwardprop junk s1 x = .ok (out, t1, m1) ∧ n2.forwardprop junk' s2 (Spec.turn A x) = .ok (out, t2, m2) := by
  have hlen : (n.hiddenLayers s).length = rest.length := by
    have := congrArg List.length hm
    unfold Spec.model Net.layers at this
    simpa using this
  have hall : ∀ (W : Mat ℝ) (cs : List (ℝ × ℝ × ActFunc ℝ × Mat ℝ)), turnAll A (List.replicate (n.hiddenLayers s).length same ++ [same]) ((lr, la, f, W) :: cs) = (lr, la, f, turnW A same W) :: cs := by
    intro W cs
    have e : List.replicate (n.hiddenLayers s).length same ++ [same] = List.replicate ((n.hiddenLayers s).length + 1) same := by rw [List.replicate_succ', ]
    rw [e, List.replicate_succ]
    show (lr, la, f, turnW A same W) :: turnAll same (List.replicate (n.hiddenLayers s).length same) cs = _
    rw [turnAll_same _ cs]
  have hB : Spec.TurnsFit (List.replicate (n.hiddenLayers s).length same) s n := by
    unfold Spec.TurnsFit
    induction n.hiddenLayers s with
    | nil => exact .nil
    | cons L Ls ih => exact .cons ⟨same_orth _, same_act _ _, same_actd _ _⟩ ih
  obtain ⟨s1, n1, s2, n2, e1, e2, e3, e4⟩ := C112_transformed (junk := junk) (junk' := junk') (A := A) (K := same) h h' hA (same_orth q) hB (by rw [hm', hm, hall]) hdd hd (same_act _ _) (same_cost _ _) hb
  obtain ⟨t1, m1, t2, m2, V, V1, V2, g1, g2, g3, -⟩ := train_unseen (junk := junk) (junk' := junk) (u := fun _ _ => 0) h h hm hm ⟨rfl, rfl, fun i _ j _ => (add_zero _).symm⟩ rfl hd hb (fun b _ j _ i _ => by simp)
  rw [e1] at g1
  cases g1
  rw [turnBatches_same] at e2
  refine ⟨s1, n1, s2, n2, V1, V, e1, e2, g3, by rw [e3, g3, hall], fun x hr hc => ?_⟩
  obtain ⟨out, t1, m1, t2, m2, i1, i2⟩ := e4 x hr hc
  rw [turn_same] at i2
  exact ⟨out, t1, m1, t2, m2, i1, i2⟩

theorem odd_turns {f : ActFunc ℝ} {m : Nat} {τ : Nat → ℝ} (hf : Spec.Odd f) (h : ∀ j < m, τ j = 1 ∨ τ j = -1) : ActTurns f m (mirror τ) ∧ ActdTurns f m (mirror τ) := by
  constructor
  · intro z j hj
    rw [mirror_sum hj, mirror_sum hj (fun k => f.act (z k))]
    rcases h j hj with e | e <;> rw [e]
    · rw [mul_one, mul_one]
    · rw [mul_neg_one, mul_neg_one, hf.act]
  · intro z d j hj
    rw [mirror_sum hj, mirror_sum hj, mirror_sum hj (fun k => d k * f.actd (z k))]
    rcases h j hj with e | e <;> rw [e]
    · simp only [mul_one]
    · simp only [mul_neg_one, hf.actd, neg_mul]

theorem ones_turns (f : ActFunc ℝ) {m : Nat} {τ : Nat → ℝ} (h : ∀ j < m, τ j = 1) : ActTurns f m (mirror τ) ∧ ActdTurns f m (mirror τ) := by
  constructor
  · intro z j hj
    rw [mirror_sum hj, mirror_sum hj (fun k => f.act (z k)), h j hj, mul_one, mul_one]
  · intro z d j hj
    rw [mirror_sum hj, mirror_sum hj, mirror_sum hj (fun k => d k * f.actd (z k)), h j hj]
    simp only [mul_one]

theorem mirror_one : mirror (fun _ => 1) = same := rfl

theorem flip_turn (σ τ : Nat → ℝ) (W : Mat ℝ) : turnW (mirror σ) (mirror τ) W = Spec.flip σ τ W := by
  refine Mat.ext' rfl rfl fun i j hi hj => ?_
  replace hi : i < W.nr := hi
  replace hj : j < W.nc := hj
  unfold Spec.flip
  rw [Mat.of_f' hi hj]
  cases i with
  | zero => rw [turnW_zero hi hj, mirror_sum hj, if_pos rfl, one_mul]
  | succ i =>
    rw [turnW_succ hi hj, if_neg (by omega), Nat.add_sub_cancel]
    have e : ∀ k ∈ range (W.nr - 1), mirror σ k i * ∑ l ∈ range W.nc, W.f (k + 1) l * mirror τ l j = (W.f (k + 1) j * τ j) * mirror σ k i := by
      intro k _
      rw [mirror_sum hj, mul_comm]
    rw [sum_congr rfl e, mirror_sum (by omega) (fun k => W.f (k + 1) j * τ j)]
    ring

theorem flipAll_turn : ∀ (σ : Nat → ℝ) (τs : List (Nat → ℝ)) (cs : List (ℝ × ℝ × ActFunc ℝ × Mat ℝ)), turnAll (mirror σ) (τs.map mirror ++ [same]) cs = Spec.flipAll σ τs cs
  | _, _, [] => rfl
  | σ, [], (lr, la, f, W) :: cs => by
    show (lr, la, f, turnW (mirror σ) (mirror fun _ => 1) W) :: turnAll (mirror fun _ => 1) [] cs = (lr, la, f, Spec.flip σ (fun _ => 1) W) :: Spec.flipAll (fun _ => 1) [] cs
    rw [flip_turn, mirror_one, turnAll_nil, flipAll_nil]
  | σ, τ :: τs, (lr, la, f, W) :: cs => by
    show (lr, la, f, turnW (mirror σ) (mirror τ) W) :: turnAll (mirror τ) (τs.map mirror ++ [same]) cs = (lr, la, f, Spec.flip σ τ W) :: Spec.flipAll τ τs cs
    rw [flip_turn, flipAll_turn]

/-- **C112** (signs). Take a well-formed dense network, and a second one that is the first with the weights into and out of any units of its hidden layers negated, units with odd activation functions.
Train both on the same batches: the second stays the first with the same units negated, and both compute the same outputs for every input. -/
theorem C112_signs {junk junk' : Nat → Nat → ℝ} {p q : Nat} {τs : List (Nat → ℝ)} {bs : List (Mat ℝ × Mat ℝ)} {s s' : Store} {n n' : Net} (h : n.WF s p q) (h' : n'.WF s' p q)
    (hτ : Spec.SignsFit τs s n) (hm : Spec.model s' n' = Spec.flipAll (fun _ => 1) τs (Spec.model s n)) (hdd : n'.output.costd = n.output.costd) (hd : OutputLayer.DeltaOK n.output.costd)
    (hb : Spec.BatchesFit p q bs) :
    ∃ s1 n1 s2 n2, Net.trainAll junk bs s n = .ok (s1, n1) ∧ Net.trainAll junk' bs s' n' = .ok (s2, n2) ∧ Spec.model s2 n2 = Spec.flipAll (fun _ => 1) τs (Spec.model s1 n1) ∧
      ∀ x : Mat ℝ, 0 < x.nr → x.nc = p → ∃ out t1 m1 t2 m2, n1.forwardprop junk s1 x = .ok (out, t1, m1) ∧ n2.forwardprop junk' s2 x = .ok (out, t2, m2) := by
  have hB : Spec.TurnsFit (τs.map mirror) s n := by
    unfold Spec.TurnsFit
    rw [List.forall₂_map_left_iff]
    refine hτ.imp fun τ L hL => ?_
    rcases hL with hL | ⟨ho, hL⟩
    · exact ⟨mirror_orth fun j hj => Or.inl (hL j hj), ones_turns _ hL⟩
    · exact ⟨mirror_orth hL, odd_turns ho hL⟩
  obtain ⟨s1, n1, s2, n2, e1, e2, e3, e4⟩ := C112_transformed (junk := junk) (junk' := junk') (A := mirror fun _ => 1) (K := same) (Bs := τs.map mirror) h h' (by rw [mirror_one]; exact same_orth p) (same_orth q) hB
    (by rw [flipAll_turn]; exact hm) hdd hd (same_act _ _) (same_cost _ _) hb
  rw [mirror_one, turnBatches_same2] at e2
  rw [flipAll_turn] at e3
  refine ⟨s1, n1, s2, n2, e1, e2, e3, fun x hr hc => ?_⟩
  obtain ⟨out, t1, m1, t2, m2, i1, i2⟩ := e4 x hr hc
  rw [mirror_one, turn_same, turn_same] at i2
  exact ⟨out, t1, m1, t2, m2, i1, i2⟩

/-- **C112** (which activations are odd). Of the library's activation functions these six are odd with an even derivative; the other seven are not odd. -/
theorem C112_odd : (Spec.Odd Act.identity ∧ Spec.Odd Act.arctan ∧ Spec.Odd Act.tanhyperbolic ∧ Spec.Odd Act.bipolarsigmoid ∧ Spec.Odd Act.lecuntanh ∧ Spec.Odd Act.hardtanh) ∧
    ¬ Spec.Odd Act.sigmoid ∧ ¬ Spec.Odd Act.comploglog ∧ ¬ Spec.Odd Act.absolute ∧ ¬ Spec.Odd Act.relu ∧ ¬ Spec.Odd Act.relucos ∧ ¬ Spec.Odd Act.relusin ∧ ¬ Spec.Odd Act.smoothrelu := by
  have zero : ∀ f : ActFunc ℝ, Spec.Odd f → f.act 0 = 0 := fun f h => by
    have := h.act 0
    rw [neg_zero] at this
    linarith
  have bip : ∀ z, Act.bipolarsigmoidF (-z) = -Act.bipolarsigmoidF z := by
    intro z
    unfold Act.bipolarsigmoidF
    rw [neg_neg, Real.exp_neg]
    have := Real.exp_pos z
    field_simp
    ring
  refine ⟨⟨⟨fun z => rfl, fun z => rfl⟩, ⟨fun z => Real.arctan_neg z, fun z => ?_⟩, ⟨fun z => Real.tanh_neg z, fun z => ?_⟩, ⟨bip, fun z => ?_⟩, ⟨fun z => ?_, fun z => ?_⟩, ⟨fun z => ?_, fun z => ?_⟩⟩, ?_, ?_, ?_, ?_, ?_, ?_, ?_⟩
  · show Act.arctanG (-z) = Act.arctanG z
    unfold Act.arctanG
    rw [neg_mul_neg]
  · show Act.tanhG (-z) = Act.tanhG z
    unfold Act.tanhG
    simp only [Real.tanh_neg, neg_mul_neg]
  · show Act.bipolarsigmoidG (-z) = Act.bipolarsigmoidG z
    unfold Act.bipolarsigmoidG
    simp only [bip, neg_mul_neg]
  · show Act.lecuntanhF (-z) = -Act.lecuntanhF z
    unfold Act.lecuntanhF
    rw [mul_neg, Real.tanh_neg, mul_neg]
  · show Act.lecuntanhG (-z) = Act.lecuntanhG z
    unfold Act.lecuntanhG
    simp only [mul_neg, neg_neg, add_comm (Real.exp (-(2 / 3 * z)))]
  · show max (-1) (min 1 (-z)) = -max (-1) (min 1 z)
    rcases le_total z (-1) with a | a
    · rw [min_eq_right (by linarith : z ≤ 1), max_eq_left a, min_eq_left (by linarith), max_eq_right (by norm_num)]
      norm_num
    · rcases le_total z 1 with b | b
      · rw [min_eq_right b, max_eq_right a, min_eq_right (by linarith), max_eq_right (by linarith)]
      · rw [min_eq_left b, min_eq_right (by linarith : -z ≤ 1), max_eq_left (by linarith), max_eq_right (by norm_num)]
  · show (if -z ≥ -1 ∧ -z ≤ 1 then (1 : ℝ) else 0) = if z ≥ -1 ∧ z ≤ 1 then 1 else 0
    have : (-z ≥ -1 ∧ -z ≤ 1) ↔ (z ≥ -1 ∧ z ≤ 1) := by constructor <;> rintro ⟨a, b⟩ <;> constructor <;> linarith
    simp only [this]
  · intro h
    have : Act.sigmoidF 0 = 0 := zero _ h
    unfold Act.sigmoidF at this
    norm_num at this
  · intro h
    have : Act.comploglogF 0 = 0 := zero _ h
    unfold Act.comploglogF at this
    rw [Real.exp_zero] at this
    have h1 := Real.exp_lt_one_iff.2 (show (-1 : ℝ) < 0 by norm_num)
    linarith
  · intro h
    have : Act.absoluteF (-1) = -Act.absoluteF 1 := h.act 1
    unfold Act.absoluteF at this
    norm_num at this
  · intro h
    have : Act.reluF (-1) = -Act.reluF 1 := h.act 1
    unfold Act.reluF at this
    norm_num at this
  · intro h
    have : Act.relucosF 0 = 0 := zero _ h
    unfold Act.relucosF at this
    norm_num at this
  · intro h
    have : Act.relusinF (-1) = -Act.relusinF 1 := h.act 1
    unfold Act.relusinF at this
    rw [Real.sin_neg, max_eq_left (by norm_num), max_eq_right (by norm_num)] at this
    linarith
  · intro h
    have : Act.smoothreluF 0 = 0 := zero _ h
    unfold Act.smoothreluF at this
    rw [Real.exp_zero] at this
    have h1 := Real.log_pos (show (1 : ℝ) < 1 + 1 by norm_num)
    linarith

/-- **C112** (linear layers). The identity activation respects every transformation, and the quadratic cost too: with an identity output the labels of a quadratic network may be rotated as well. -/
theorem C112_linear (m : Nat) (B : Nat → Nat → ℝ) : Spec.ActTurns Act.identity m B ∧ Spec.ActdTurns Act.identity m B ∧ Spec.CostTurns Quadratic.costd m B := by
  refine ⟨fun z j _ => rfl, fun z d j _ => ?_, fun y a z D hy h1 h2 hD => ?_⟩
  · show (∑ k ∈ range m, d k * B k j) * 1 = ∑ k ∈ range m, d k * 1 * B k j
    simp only [mul_one]
  · have e := diff_costd (y := y) (a := a) h1 (h2.trans hy.symm)
    have e2 : Quadratic.costd y a z = _ := e
    rw [e2] at hD
    cases hD
    refine (diff_costd (y := turn B y) (a := turn B a) h1 (h2.trans hy.symm)).trans ?_
    congr 1
    refine Mat.ext' rfl rfl fun i j hi hj => ?_
    replace hi : i < a.nr := hi
    replace hj : j < a.nc := hj
    rw [Mat.of_f' (by exact hi) (by exact hj), turn_f hi hj, turn_f (by omega) (by omega), turn_f (by exact hi) (by exact hj), h2, hy, ← sum_sub_distrib, sum_div]
    refine sum_congr rfl fun k hk => ?_
    have hk := mem_range.1 hk
    rw [Mat.of_f' hi (by exact hk)]
    show _ = (a.f i k - y.f i k) / (y.nr : ℝ) * B k j
    rw [show ((turn B y).nr : ℝ) = y.nr from rfl]
    ring

end
end Nnet.NN
