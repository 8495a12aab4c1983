import Verif.NN.NetLemmas2
import Verif.NN.PropsAct
import Mathlib.Tactic.Linarith
import Mathlib.Analysis.Calculus.Deriv.Mul
import Mathlib.Analysis.Calculus.Deriv.Comp
/-!
# Derivatives along curves of matrices

The derivative of a dense network along a curve of inputs and weights, and its adjoint: what `backprop` computes.
-/
namespace Nnet.NN
open Finset
noncomputable section

/-- Sum of the products of corresponding elements. -/
def ip (A B : Mat ℝ) : ℝ := ∑ i ∈ range A.nr, ∑ j ∈ range A.nc, A.f i j * B.f i j

/-- `X` is a curve of matrices of one size whose elements have the derivatives `X'` at time 0. -/
structure HasD (X : ℝ → Mat ℝ) (X' : Mat ℝ) : Prop where
  nr : ∀ t, (X t).nr = X'.nr
  nc : ∀ t, (X t).nc = X'.nc
  deriv : ∀ i j, i < X'.nr → j < X'.nc → HasDerivAt (fun t => (X t).f i j) (X'.f i j) 0

theorem HasD.const (x : Mat ℝ) : HasD (fun _ => x) (Mat.of x.nr x.nc (fun _ _ => 0)) :=
  ⟨fun _ => rfl, fun _ => rfl, fun i j hi hj => (hasDerivAt_const _ _).congr_deriv (by rw [Mat.of_f]; split <;> rfl)⟩

theorem ip_zero (A : Mat ℝ) (r c : Nat) : ip A (Mat.of r c (fun _ _ => 0)) = 0 := by
  unfold ip
  refine sum_eq_zero fun i _ => sum_eq_zero fun j _ => ?_
  rw [Mat.of_f]; split <;> simp

/-- The weights moved by `t` in direction `V`. -/
def Mat.along (W V : Mat ℝ) (t : ℝ) : Mat ℝ := Mat.of W.nr W.nc (fun i j => W.f i j + t * V.f i j)

theorem Mat.along_zero (W V : Mat ℝ) : W.along V 0 = W := by
  unfold Mat.along
  conv_rhs => rw [← Mat.of_self W]
  apply Mat.of_congr
  intros; simp

/-- A layer with the weights moved. -/
def Layer.along (L : Layer) (V : Mat ℝ) (t : ℝ) : Layer := { L with W := L.W.along V t }

theorem Layer.along_zero (L : Layer) (V : Mat ℝ) : L.along V 0 = L := by
  unfold Layer.along
  rw [Mat.along_zero]

/-- Derivative of the pre-activations. -/
def preD (W V x X' : Mat ℝ) : Mat ℝ :=
  Mat.of X'.nr W.nc (fun i j => V.f 0 j + ∑ k ∈ range X'.nc, (X'.f i k * W.f (k + 1) j + x.f i k * V.f (k + 1) j))

theorem pre_hasD {W V X' : Mat ℝ} {X : ℝ → Mat ℝ} (hX : HasD X X') (hW : W.nr = X'.nc + 1) :
    HasD (fun t => Spec.pre (W.along V t) (X t)) (preD W V (X 0) X') := by
  refine ⟨fun t => hX.nr t, fun _ => rfl, fun i j hi hj => ?_⟩
  replace hi : i < X'.nr := hi
  replace hj : j < W.nc := hj
  have e : (fun t => (Spec.pre (W.along V t) (X t)).f i j) =
      fun t => (W.f 0 j + t * V.f 0 j) + ∑ k ∈ range X'.nc, (X t).f i k * (W.f (k + 1) j + t * V.f (k + 1) j) := by
    funext t
    unfold Spec.pre
    rw [Mat.of_f' (by rw [hX.nr t]; exact hi) (by exact hj), hX.nc t]
    unfold Mat.along
    rw [Mat.of_f' (by omega) hj]
    congr 1
    refine sum_congr rfl fun k hk => ?_
    rw [Mat.of_f' (by have := mem_range.1 hk; omega) hj]
  rw [e]
  have hlin : ∀ w v : ℝ, HasDerivAt (fun t : ℝ => w + t * v) v 0 := fun w v =>
    (((hasDerivAt_id (0 : ℝ)).mul_const v).const_add w).congr_deriv (by simp)
  refine ((hlin _ _).add (HasDerivAt.fun_sum fun k hk => (hX.deriv i k hi (mem_range.1 hk)).mul (hlin _ _))).congr_deriv ?_
  unfold preD
  rw [Mat.of_f' hi hj]
  congr 1
  refine sum_congr rfl fun k _ => ?_
  simp

/-- The two adjoints of the pre-activation. -/
theorem preD_adjoint {W V x X' D : Mat ℝ} (hx1 : x.nr = X'.nr) (hx2 : x.nc = X'.nc) (hW : W.nr = X'.nc + 1) (hD1 : D.nr = X'.nr)
    (hD2 : D.nc = W.nc) : ip D (preD W V x X') = ip (Layer.gradOf (ones1 x) D) V + ip (Layer.backOf D W) X' := by
  have e0 : ip D (preD W V x X') = ∑ i ∈ range X'.nr, ∑ j ∈ range W.nc, (D.f i j * V.f 0 j +
      ((∑ k ∈ range X'.nc, D.f i j * (x.f i k * V.f (k + 1) j)) + ∑ k ∈ range X'.nc, D.f i j * W.f (k + 1) j * X'.f i k)) := by
    unfold ip
    rw [hD1, hD2]
    refine sum_congr rfl fun i hi => sum_congr rfl fun j hj => ?_
    unfold preD
    rw [Mat.of_f' (mem_range.1 hi) (mem_range.1 hj), mul_add, mul_sum, ← sum_add_distrib]
    congr 1
    refine sum_congr rfl fun k _ => ?_
    ring
  have e1 : ip (Layer.gradOf (ones1 x) D) V = (∑ i ∈ range X'.nr, ∑ j ∈ range W.nc, D.f i j * V.f 0 j) +
      ∑ i ∈ range X'.nr, ∑ j ∈ range W.nc, ∑ k ∈ range X'.nc, D.f i j * (x.f i k * V.f (k + 1) j) := by
    have : ip (Layer.gradOf (ones1 x) D) V = ∑ k ∈ range (X'.nc + 1), ∑ j ∈ range W.nc,
        (∑ i ∈ range X'.nr, (ones1 x).f i k * D.f i j) * V.f k j := by
      unfold ip
      show ∑ k ∈ range (x.nc + 1), ∑ j ∈ range D.nc, _ = _
      rw [hx2, hD2]
      refine sum_congr rfl fun k hk => sum_congr rfl fun j hj => ?_
      congr 1
      unfold Layer.gradOf
      rw [Mat.of_f' (by show k < x.nc + 1; rw [hx2]; exact mem_range.1 hk) (by rw [hD2]; exact mem_range.1 hj)]
      show ∑ i ∈ range x.nr, _ = _
      rw [hx1]
    rw [this, sum_range_succ', add_comm]
    congr 1
    · rw [sum_comm]
      refine sum_congr rfl fun j hj => ?_
      rw [sum_mul]
      refine sum_congr rfl fun i hi => ?_
      unfold ones1
      rw [Mat.of_f' (by rw [hx1]; exact mem_range.1 hi) (by omega), if_pos rfl, one_mul]
    · rw [sum_comm' (s := range X'.nr) (t := fun _ => range W.nc) (t' := range W.nc) (s' := fun _ => range X'.nr) (fun _ _ => by simp only [mem_range])]
      rw [sum_comm' (s := range X'.nc) (t := fun _ => range W.nc) (t' := range W.nc) (s' := fun _ => range X'.nc) (fun _ _ => by simp only [mem_range])]
      refine sum_congr rfl fun j hj => ?_
      rw [sum_comm' (s := range X'.nr) (t := fun _ => range X'.nc) (t' := range X'.nc) (s' := fun _ => range X'.nr) (fun _ _ => by simp only [mem_range])]
      refine sum_congr rfl fun k hk => ?_
      rw [sum_mul]
      refine sum_congr rfl fun i hi => ?_
      unfold ones1
      rw [Mat.of_f' (by rw [hx1]; exact mem_range.1 hi) (by rw [hx2]; have := mem_range.1 hk; omega), if_neg (by omega)]
      simp only [Nat.add_sub_cancel]
      ring
  have e2 : ip (Layer.backOf D W) X' = ∑ i ∈ range X'.nr, ∑ j ∈ range W.nc, ∑ k ∈ range X'.nc, D.f i j * W.f (k + 1) j * X'.f i k := by
    unfold ip
    show ∑ i ∈ range D.nr, ∑ k ∈ range (W.nr - 1), _ = _
    rw [hD1, hW, Nat.add_sub_cancel]
    refine sum_congr rfl fun i hi => ?_
    rw [sum_comm]
    refine sum_congr rfl fun k hk => ?_
    unfold Layer.backOf
    rw [Mat.of_f' (by rw [hD1]; exact mem_range.1 hi) (by rw [hW]; exact mem_range.1 hk), sum_mul, hD2]
  rw [e0, e1, e2]
  simp only [sum_add_distrib]
  ring

/-- Activations differentiable at every pre-activation that occurs in the forward pass of `x`. -/
def Spec.SmoothAt : List (ActFunc ℝ × Mat ℝ) → Mat ℝ → Prop
  | [], _ => True
  | (f, W) :: ls, x => (∀ i < x.nr, ∀ j < W.nc, f.DerivAt ((Spec.pre W x).f i j)) ∧ SmoothAt ls (Spec.dense f.act W x)

/-- The layers' activations and weights. -/
def actW (Ls : List Layer) : List (ActFunc ℝ × Mat ℝ) := Ls.map (fun L => (L.actfunc, L.W))

/-- The layers with the weights moved. -/
def alongL (Ls : List Layer) (Vs : List (Mat ℝ)) (t : ℝ) : List Layer := List.zipWith (fun L V => Layer.along L V t) Ls Vs

/-- A layer's reported gradient without the regularisation term. -/
def Layer.dataGrad (L : Layer) : Mat ℝ := Mat.of L.W.nr L.W.nc (fun i j => L.grad.f i j - L.lambda * L.W.f i j)

/-- Sum over the layers of the products of gradient and direction. -/
def pair : List Layer → List (Mat ℝ) → ℝ
  | L :: Ls, V :: Vs => ip L.dataGrad V + pair Ls Vs
  | _, _ => 0

theorem regGrad_dataGrad {L : Layer} {D : Mat ℝ} (h1 : L.pa.nc = L.W.nr) (h2 : D.nc = L.W.nc) (V : Mat ℝ) :
    ip ({ L with delta := D, grad := L.regGrad D } : Layer).dataGrad V = ip (Layer.gradOf L.pa D) V := by
  unfold ip
  show ∑ i ∈ range L.W.nr, ∑ j ∈ range L.W.nc, _ = ∑ i ∈ range L.pa.nc, ∑ j ∈ range D.nc, _
  rw [h1, h2]
  refine sum_congr rfl fun i hi => sum_congr rfl fun j hj => ?_
  congr 1
  unfold Layer.dataGrad
  simp only
  rw [Mat.of_f' (mem_range.1 hi) (mem_range.1 hj)]
  unfold Layer.regGrad
  rw [Mat.of_f' (mem_range.1 hi) (mem_range.1 hj)]
  ring

theorem outL_hasD : ∀ {Ls : List Layer} {Vs : List (Mat ℝ)} {X : ℝ → Mat ℝ} {X' : Mat ℝ} {q : Nat}, HasD X X' →
    Spec.Fits X'.nc (Ls.map (·.W)) q → GradsFit Ls Vs → Spec.SmoothAt (actW Ls) (X 0) →
    ∃ A', HasD (fun t => outL (alongL Ls Vs t) (X t)) A' ∧ A'.nr = X'.nr ∧ A'.nc = q ∧
      ∀ d : Mat ℝ, d.nr = X'.nr → d.nc = q →
        ip d A' = ip (bwdL (fwdL Ls (X 0)) d).2 X' + pair (bwdL (fwdL Ls (X 0)) d).1 Vs
  | [], Vs, X, X', q, hX, hf, _, _ => by
    simp only [List.map_nil, Spec.Fits] at hf
    refine ⟨X', ?_, rfl, hf, fun d _ _ => ?_⟩
    · show HasD (fun t => outL (List.zipWith _ [] Vs) (X t)) X'
      exact hX
    · show ip d X' = ip d X' + 0
      ring
  | L :: Ls, [], X, X', q, _, _, hg, _ => hg.elim
  | L :: Ls, V :: Vs, X, X', q, hX, hf, hg, hs => by
    simp only [List.map_cons, Spec.Fits] at hf
    obtain ⟨hs1, hs2⟩ := hs
    have hz := pre_hasD (V := V) hX hf.1
    have hz0 : Spec.pre (L.W.along V 0) (X 0) = Spec.pre L.W (X 0) := by rw [Mat.along_zero]
    -- derivative of the outputs of this layer
    let Y' : Mat ℝ := Mat.of X'.nr L.W.nc (fun i j => L.actfunc.actd ((Spec.pre L.W (X 0)).f i j) * (preD L.W V (X 0) X').f i j)
    have hY : HasD (fun t => ((L.along V t).fwd (X t)).a) Y' := by
      refine ⟨fun t => hX.nr t, fun _ => rfl, fun i j hi hj => ?_⟩
      replace hi : i < X'.nr := hi
      replace hj : j < L.W.nc := hj
      have e : (fun t => ((L.along V t).fwd (X t)).a.f i j) = fun t => L.actfunc.act ((Spec.pre (L.W.along V t) (X t)).f i j) := by
        funext t
        exact Mat.map_f' (by show i < (X t).nr; rw [hX.nr t]; exact hi) (by exact hj)
      rw [e]
      have ha : HasDerivAt L.actfunc.act (L.actfunc.actd ((Spec.pre L.W (X 0)).f i j)) ((Spec.pre (L.W.along V 0) (X 0)).f i j) := by
        rw [hz0]
        exact hs1 i (by rw [hX.nr 0]; exact hi) j hj
      refine (HasDerivAt.comp (0 : ℝ) (h₂ := L.actfunc.act) (h := fun t => (Spec.pre (L.W.along V t) (X t)).f i j) ha
        (hz.deriv i j hi hj)).congr_deriv ?_
      show _ = Y'.f i j
      rw [Mat.of_f' hi hj]
    have hY0 : ((L.along V 0).fwd (X 0)).a = (L.fwd (X 0)).a := by rw [Layer.along_zero]
    obtain ⟨A', hA, h1, h2, h3⟩ := outL_hasD hY (show Spec.Fits Y'.nc _ q from hf.2.2) hg.2.2
      (by rw [hY0, Layer.fwd_a]; exact hs2)
    refine ⟨A', ?_, h1, h2, fun d hd1 hd2 => ?_⟩
    · exact hA
    · rw [h3 d hd1 hd2]
      simp only [hY0]
      show ip (bwdL (fwdL Ls (L.fwd (X 0)).a) d).2 Y' + pair (bwdL (fwdL Ls (L.fwd (X 0)).a) d).1 Vs =
        ip (Layer.backOf ((L.fwd (X 0)).dz (bwdL (fwdL Ls (L.fwd (X 0)).a) d).2) L.W) X' +
        (ip ((L.fwd (X 0)).bwd (bwdL (fwdL Ls (L.fwd (X 0)).a) d).2).dataGrad V + pair (bwdL (fwdL Ls (L.fwd (X 0)).a) d).1 Vs)
      obtain ⟨hb1, hb2⟩ := bwdL_dims (Ls := fwdL Ls (L.fwd (X 0)).a) (d := d) (m := X'.nr) (p := L.W.nc) (q := q)
        (by rw [fwdL_W]; exact hf.2.2) hd1 hd2
      generalize bwdL (fwdL Ls (L.fwd (X 0)).a) d = B at hb1 hb2
      have ea : ip B.2 Y' = ip ((L.fwd (X 0)).dz B.2) (preD L.W V (X 0) X') := by
        unfold ip
        show _ = ∑ i ∈ range B.2.nr, ∑ j ∈ range B.2.nc, _
        refine sum_congr rfl fun i hi => sum_congr rfl fun j hj => ?_
        have hi' := mem_range.1 hi
        have hj' := mem_range.1 hj
        unfold Layer.dz
        rw [Mat.of_f' hi' hj', show Y'.f i j = _ from Mat.of_f' (by omega) (by omega)]
        show _ = B.2.f i j * L.actfunc.actd ((Spec.pre L.W (X 0)).f i j) * _
        ring
      have eb := preD_adjoint (V := V) (x := X 0) (D := (L.fwd (X 0)).dz B.2) (hX.nr 0) (hX.nc 0) hf.1 hb1 hb2
      have ec := regGrad_dataGrad (L := L.fwd (X 0)) (D := (L.fwd (X 0)).dz B.2)
        (by show (X 0).nc + 1 = L.W.nr; rw [hX.nc 0, hf.1]) hb2 V
      have ed : ip ((L.fwd (X 0)).bwd B.2).dataGrad V = ip (Layer.gradOf (ones1 (X 0)) ((L.fwd (X 0)).dz B.2)) V := ec
      rw [ea, eb, ed]
      ring

/-- `D` is the derivative of the total cost with respect to the pre-activations `z` of the output layer, along every curve. -/
def Spec.CostGrad (act : ℝ → ℝ) (cost : MatFunc) (y z D : Mat ℝ) : Prop :=
  D.nr = z.nr ∧ D.nc = z.nc ∧ ∀ Z Z', HasD Z Z' → Z 0 = z →
    ∃ J : ℝ → ℝ, (∀ t, ∃ M, cost y ((Z t).map act) = .ok M ∧ J t = sumall M) ∧ HasDerivAt J (ip D Z') 0

theorem net_hasD {hs : List Layer} {o : Layer} {Vs : List (Mat ℝ)} {V x y D : Mat ℝ} {cost : MatFunc} {p r : Nat}
    (hc : x.nc = p) (hf1 : Spec.Fits p (hs.map (·.W)) r) (hW : o.W.nr = r + 1) (hg : GradsFit hs Vs)
    (hsm : Spec.SmoothAt (actW hs) x)
    (hD : Spec.CostGrad o.actfunc.act cost y (Spec.pre o.W (outL hs x)) D) :
    ∃ J : ℝ → ℝ, (∀ t, ∃ M, cost y (outL (alongL hs Vs t ++ [o.along V t]) x) = .ok M ∧ J t = sumall M) ∧
      HasDerivAt J (pair (bwdNet (fwdL hs x) (o.fwd (outL hs x)) D) (Vs.take hs.length ++ [V])) 0 := by
  subst hc
  obtain ⟨A', hA, h1, h2, h3⟩ := outL_hasD (Ls := hs) (Vs := Vs) (HasD.const x) hf1 hg hsm
  have hz := pre_hasD (W := o.W) (V := V) hA (by rw [h2]; exact hW)
  have h0 : ∀ (Ls : List Layer) (Vs : List (Mat ℝ)), GradsFit Ls Vs → alongL Ls Vs 0 = Ls := by
    intro Ls
    induction Ls with
    | nil => intro Vs _; rfl
    | cons L Ls ih =>
      intro Vs hg
      cases Vs with
      | nil => exact hg.elim
      | cons V Vs =>
        show Layer.along L V 0 :: alongL Ls Vs 0 = _
        rw [Layer.along_zero, ih Vs hg.2.2]
  have hz0 : Spec.pre (o.W.along V 0) (outL (alongL hs Vs 0) x) = Spec.pre o.W (outL hs x) := by
    rw [h0 hs Vs hg, Mat.along_zero]
  obtain ⟨J, hJ1, hJ2⟩ := hD.2.2 _ _ hz hz0
  refine ⟨J, fun t => ?_, hJ2.congr_deriv ?_⟩
  · obtain ⟨M, hM, hJ⟩ := hJ1 t
    refine ⟨M, ?_, hJ⟩
    rw [outL_append]
    exact hM
  · simp only [h0 hs Vs hg]
    have hd := outL_dims (Ls := hs) (x := x) (q := r) hf1
    have hD1 : D.nr = A'.nr := by rw [hD.1, h1]; exact hd.1
    rw [preD_adjoint (x := outL hs x) (by rw [hd.1, h1]; rfl) (by rw [hd.2, h2]) (by rw [h2]; exact hW) hD1 (show D.nc = o.W.nc from hD.2.1)]
    have hback2 : (Layer.backOf D o.W).nc = r := by show o.W.nr - 1 = r; omega
    rw [h3 (Layer.backOf D o.W) (by show D.nr = _; rw [hD1, h1]) hback2, ip_zero, zero_add]
    have hp : ∀ (Ls : List Layer) (Vs : List (Mat ℝ)) (M : Layer), Vs.length ≥ Ls.length →
        pair (Ls ++ [M]) (Vs.take Ls.length ++ [V]) = pair Ls Vs + ip M.dataGrad V := by
      intro Ls
      induction Ls with
      | nil => intro Vs M _; simp [pair]
      | cons L Ls ih =>
        intro Vs M hl
        cases Vs with
        | nil => simp at hl
        | cons V' Vs =>
          show ip L.dataGrad V' + pair (Ls ++ [M]) (Vs.take Ls.length ++ [V]) = ip L.dataGrad V' + pair Ls Vs + _
          rw [ih Vs M (by simpa using hl)]
          ring
    have hlen : ∀ (Ls : List Layer) (x d : Mat ℝ), (bwdL (fwdL Ls x) d).1.length = Ls.length := by
      intro Ls x d
      have := congrArg List.length (bwdL_W (fwdL Ls x) d)
      rw [fwdL_W] at this
      simpa using this
    have hgl : ∀ (Ls : List Layer) (Vs : List (Mat ℝ)), GradsFit Ls Vs → Vs.length ≥ Ls.length := by
      intro Ls
      induction Ls with
      | nil => intro Vs _; simp
      | cons L Ls ih =>
        intro Vs hg
        cases Vs with
        | nil => exact hg.elim
        | cons V Vs => have := ih Vs hg.2.2; simpa using this
    unfold bwdNet
    have := hp (bwdL (fwdL hs x) (Layer.backOf D o.W)).1 Vs { o.fwd (outL hs x) with delta := D, grad := (o.fwd (outL hs x)).regGrad D }
      (by rw [hlen]; exact hgl hs Vs hg)
    rw [hlen] at this
    refine Eq.trans ?_ this.symm
    have hrg := regGrad_dataGrad (L := o.fwd (outL hs x)) (D := D) (by show (outL hs x).nc + 1 = o.W.nr; rw [hd.2, hW]) hD.2.1 V
    refine Eq.trans (add_comm _ _) (congrArg _ hrg.symm)

end
end Nnet.NN
