import Verif.NN.RoundLemmas
import Verif.NN.PropsFloatSafe
/-!
# Rounding errors of forward passes and training (C77, C78)
-/
namespace Nnet.NN.Flt
open FV B64 Spec
noncomputable section
variable {P : Platform}

theorem app_zero {e : Est} (h : 0 ≤ e.B ∧ 0 ≤ e.E) : App e (0 : Double P) 0 := ⟨0, rfl, by simpa using h.1, by simpa using h.1, by simpa using h.2⟩

theorem app_one {e : Est} (h : 0 ≤ e.E) : App e.one (1 : Double P) 1 := ⟨1, rfl, by simp [Est.one], by simp [Est.one], by simpa [Est.one] using h⟩

theorem Spec.App.one {e : Est} {x : Double P} {r : ℝ} (h : App e x r) : App e.one x r := h.mono (le_max_right _ _) (le_refl _)

theorem Spec.App.pos {e : Est} {x : Double P} {r : ℝ} (h : App e x r) : 0 ≤ e.B ∧ 0 ≤ e.E := ⟨h.B_nonneg, h.E_nonneg⟩

theorem Spec.MApp.all {e : Est} {a : Mat (Double P)} {b : Mat ℝ} (h : MApp e a b) (i j : ℕ) : App e (a.f i j) (b.f i j) := by
  by_cases hc : i < b.nr ∧ j < b.nc
  · exact h.app i j hc.1 hc.2
  · rw [a.out i j (by rw [h.nr, h.nc]; exact hc), b.out i j hc]
    exact app_zero h.pos

theorem Spec.Computes.pos {ok : Est → Prop} {φ : Est → Est} {f : Double P → Double P} {g : ℝ → ℝ} (h : Computes ok φ f g) {e : Est} (ho : ok e) (he : 0 ≤ e.B ∧ 0 ≤ e.E) : 0 ≤ (φ e).B ∧ 0 ≤ (φ e).E :=
  (h e _ _ ho (app_zero he)).pos

/-! ## Matrix operations -/

theorem mapp_map {e : Est} {ok : Est → Prop} {φ : Est → Est} {f : Double P → Double P} {g : ℝ → ℝ} (h : Computes ok φ f g) (ho : ok e) {a : Mat (Double P)} {b : Mat ℝ} (hm : MApp e a b) : MApp (φ e) (a.map f) (b.map g) :=
  ⟨hm.nr, hm.nc, h.pos ho hm.pos, fun i j hi hj => by
    rw [Mat.map_f' (by rw [hm.nr]; exact hi) (by rw [hm.nc]; exact hj), Mat.map_f' (by exact hi) (by exact hj)]
    exact h _ _ _ ho (hm.all i j)⟩

theorem mapp_tr {e : Est} {a : Mat (Double P)} {b : Mat ℝ} (h : MApp e a b) : MApp e a.tr b.tr :=
  ⟨h.nc, h.nr, h.pos, fun i j hi hj => by rw [Mat.tr_f, Mat.tr_f]; exact h.all j i⟩

theorem mapp_zip {e f e' : Est} {op : Double P → Double P → Double P} {op' : ℝ → ℝ → ℝ} (hop : ∀ x y r s, App e x r → App f y s → App e' (op x y) (op' r s))
    {a b : Mat (Double P)} {a' b' : Mat ℝ} (ha : MApp e a a') (hb : MApp f b b') : RelRes (MApp e') (Mat.zip op a b) (Mat.zip op' a' b') := by
  unfold Mat.zip
  rw [ha.nr, ha.nc, hb.nr, hb.nc]
  split
  · rename_i hs
    refine .ok ⟨rfl, rfl, (hop _ _ _ _ (app_zero ha.pos) (app_zero hb.pos)).pos, fun i j hi hj => ?_⟩
    rw [Mat.of_f' (by exact hi) (by exact hj), Mat.of_f' (by exact hi) (by exact hj)]
    exact hop _ _ _ _ (ha.all i j) (hb.all i j)
  · exact .err _

theorem dot_pos {N : ℝ} {e f : Est} (hN : 0 ≤ N) (he : 0 ≤ e.B ∧ 0 ≤ e.E) (hf : 0 ≤ f.B ∧ 0 ≤ f.E) : 0 ≤ (Est.dot N e f).B ∧ 0 ≤ (Est.dot N e f).E := by
  obtain ⟨a, b⟩ := he
  obtain ⟨c, d⟩ := hf
  have := u_pos
  have := tiny_pos
  constructor
  · simp only [Est.dot]; positivity
  · simp only [Est.dot]; positivity

theorem mapp_mul {N : ℝ} {e f : Est} {a b : Mat (Double P)} {a' b' : Mat ℝ} (ha : MApp e a a') (hb : MApp f b b') (hn : (a'.nc : ℝ) ≤ N) (hN : N < 2 ^ 50) (hs : N * (e.B * f.B) ≤ sumMax) :
    RelRes (MApp (Est.dot N e f)) (mul a b) (mul a' b') := by
  unfold mul
  rw [ha.nr, ha.nc, hb.nr, hb.nc]
  split
  · refine .ok ⟨rfl, rfl, dot_pos ((Nat.cast_nonneg _).trans hn) ha.pos hb.pos, fun i j hi hj => ?_⟩
    rw [Mat.of_f' (by exact hi) (by exact hj), Mat.of_f' (by exact hi) (by exact hj)]
    exact app_dot (fun k _ => ha.all i k) (fun k _ => hb.all k j) ha.pos.1 hb.pos.1 ha.pos.2 hb.pos.2 hn hN hs
  · exact .err _

theorem mapp_submat {e : Est} {a : Mat (Double P)} {b : Mat ℝ} (h : MApp e a b) (r1 c1 r2 c2 : ℤ) : RelRes (MApp e) (a.submat r1 c1 r2 c2) (b.submat r1 c1 r2 c2) := by
  have hv : a.InView r1 c1 r2 c2 ↔ b.InView r1 c1 r2 c2 := by unfold Mat.InView; rw [h.nr, h.nc]
  unfold Mat.submat
  simp only [hv]
  split
  · refine .ok ⟨rfl, rfl, h.pos, fun i j hi hj => ?_⟩
    rw [Mat.of_f' (by exact hi) (by exact hj), Mat.of_f' (by exact hi) (by exact hj)]
    exact h.all _ _
  · exact .err _

theorem mapp_shed {e : Est} {a : Mat (Double P)} {b : Mat ℝ} (h : MApp e a b) : RelRes (MApp e) a.shedCol0 b.shedCol0 := by
  unfold Mat.shedCol0
  rw [h.nr, h.nc]
  split
  · refine .ok ⟨rfl, rfl, h.pos, fun i j hi hj => ?_⟩
    rw [Mat.of_f' (by exact hi) (by exact hj), Mat.of_f' (by exact hi) (by exact hj)]
    exact h.all _ _
  · exact .err _

theorem mapp_addcol {e : Est} {a : Mat (Double P)} {b : Mat ℝ} (h : MApp e a b) : RelRes (MApp e.one) (addcol a) (addcol b) := by
  have hp : 0 ≤ e.one.B ∧ 0 ≤ e.one.E := ⟨h.pos.1.trans (le_max_right _ _), h.pos.2⟩
  unfold addcol Mat.updSubmat
  simp only [Mat.of_nr, Mat.of_nc, Mat.InView, h.nr, h.nc]
  split
  · split
    · refine .ok ⟨rfl, rfl, hp, fun i j hi hj => ?_⟩
      rw [Mat.of_f' (by exact hi) (by exact hj)]
      conv => arg 3; rw [Mat.of_f' (by exact hi) (by exact hj)]
      by_cases hc : 0 ≤ (i : ℤ) ∧ (i : ℤ) ≤ (b.nr : ℤ) - 1 ∧ 1 ≤ (j : ℤ) ∧ (j : ℤ) ≤ ((b.nc + 1 : ℕ) : ℤ) - 1
      · rw [if_pos hc, if_pos hc]
        exact (h.all _ _).one
      · rw [if_neg hc, if_neg hc, Mat.of_f' (by exact hi) (by exact hj), Mat.of_f' (by exact hi) (by exact hj)]
        exact app_one h.pos.2
    · exact .err _
  · exact .err _

theorem mapp_smul {e f : Est} {c : Double P} {c' : ℝ} {a : Mat (Double P)} {b : Mat ℝ} (hc : App e c c') (h : MApp f a b) (hl : e.B * f.B ≤ large) : MApp (e.mul f) (smul c a) (smul c' b) :=
  mapp_map (e := f) (ok := fun d => d = f) (φ := fun d => e.mul d) (fun d x r hd hx => by subst hd; exact app_mul hc hx hl) rfl h

/-! ## Layers -/

/-- A layer after a forward pass for inputs with the estimate `x`. -/
structure RReady (l : LayerEst) (x : Est) (L : Layer (Double P)) (R : Layer ℝ) : Prop extends LApp l L R where
  pa : MApp x.one L.pa R.pa
  z : MApp (l.z x) L.z R.z
  a : MApp (l.a x) L.a R.a

theorem mul_dims {F : Type} [Arith F] {a b r : Mat F} (h : mul a b = .ok r) : a.nc = b.nr := (mul_spec h).1

theorem layer_forward_app {l : LayerEst} {x : Est} {L : Layer (Double P)} {R : Layer ℝ} (hL : LApp l L R) (hf : l.Fits x) {X : Mat (Double P)} {X' : Mat ℝ} (hx : MApp x X X') :
    RelRes (fun p q => MApp (l.a x) p.1 q.1 ∧ q.1.nr = X'.nr ∧ q.2.pa.nr = X'.nr ∧ RReady l x p.2 q.2) (L.forwardprop X) (R.forwardprop X') := by
  obtain ⟨h1, h2, h3⟩ := hf
  unfold Layer.forwardprop
  cases h4 : addcol X' with
  | error e =>
    have := mapp_addcol hx
    rw [h4] at this
    cases h5 : addcol X with
    | error e' => rw [h5] at this; cases this; exact .err _
    | ok v => rw [h5] at this; cases this
  | ok v' =>
    have := mapp_addcol hx
    rw [h4] at this
    cases h5 : addcol X with
    | error e' => rw [h5] at this; cases this
    | ok v =>
      rw [h5] at this
      cases this with
      | ok hv =>
        obtain ⟨_, _, p1, _⟩ := addcol_spec h4
        simp only [ok_bind]
        by_cases hd : v'.nc = R.W.nr
        · have hm := mapp_mul hv hL.W (by rw [hd]; exact hL.inputs) h1 h2
          have hz' : ∃ z', mul v' R.W = .ok z' ∧ z'.nr = v'.nr := ⟨_, if_pos hd, rfl⟩
          obtain ⟨z', hz', hzn⟩ := hz'
          rw [hz'] at hm ⊢
          generalize mul v L.W = Z at hm ⊢
          cases hm with
          | ok hm =>
            have ha := mapp_map hL.act h3 hm
            exact .ok ⟨ha, by show z'.nr = _; omega, p1, ⟨⟨hL.W, hL.inputs, hL.units, hL.act, hL.actd, hL.lrate, hL.lambda⟩, hv, hm, ha⟩⟩
        · unfold mul
          rw [if_neg hd, if_neg (by rw [hv.nc, hL.W.nr]; exact hd)]
          exact .err _

theorem layer_backward_app {l : LayerEst} {B : ℝ} {x d : Est} {L : Layer (Double P)} {R : Layer ℝ} (hL : RReady l x L R) (hB : B < 2 ^ 50) (hr : (R.pa.nr : ℝ) ≤ B) (hN : l.N < 2 ^ 50) (hok : l.actdOk (l.z x))
    (hd : d.B * (l.actd (l.z x)).B ≤ large) (hf : l.GradFits B x (l.delta x d)) {D : Mat (Double P)} {D' : Mat ℝ} (hD : MApp d D D') :
    RelRes (fun p q => MApp (l.passed (l.delta x d)) p.1 q.1 ∧ LApp l p.2 q.2 ∧ MApp (l.grad B x (l.delta x d)) p.2.grad q.2.grad) (L.backprop D) (R.backprop D') := by
  unfold Layer.backprop
  refine RelRes.bind (mapp_zip (e' := l.delta x d) (fun _ _ _ _ h1 h2 => app_mul h1 h2 hd) hD (mapp_map hL.actd hok hL.z)) (fun δ δ' hδ => ?_)
  refine RelRes.bind (mapp_mul (mapp_tr hL.pa) hδ (by exact hr) hB hf.inputs) (fun g g' hg => ?_)
  refine RelRes.bind (mapp_zip (e' := l.grad B x (l.delta x d)) (fun _ _ _ _ h1 h2 => app_add h1 h2 hf.grad) hg (mapp_smul hL.lambda hL.W hf.decay)) (fun G G' hG => ?_)
  by_cases hc : δ'.nc = R.W.tr.nr
  · refine RelRes.bind (mapp_mul (N := l.N) hδ (mapp_tr hL.W) (by rw [hc]; exact hL.units) hN hf.passed) (fun p p' hp => ?_)
    rw [hδ.nr, hL.W.nr]
    refine RelRes.bind (mapp_submat hp _ _ _ _) (fun r r' hr => ?_)
    exact .ok ⟨hr, ⟨hL.W, hL.inputs, hL.units, hL.act, hL.actd, hL.lrate, hL.lambda⟩, hG⟩
  · have e1 : mul δ L.W.tr = .error .throw := if_neg (by rw [hδ.nc, Mat.tr_nr, hL.W.nc]; exact hc)
    have e2 : mul δ' R.W.tr = .error .throw := if_neg hc
    rw [e1, e2]
    exact .err _

theorem layer_update_app {l : LayerEst} {g : Est} {L : Layer (Double P)} {R : Layer ℝ} (hL : LApp l L R) (hg : MApp g L.grad R.grad) (h1 : l.lrate.B * g.B ≤ large) (h2 : l.W.B + (l.lrate.mul g).B ≤ large) :
    RelRes (LApp (l.updated g)) L.update R.update := by
  unfold Layer.update
  cases h : Mat.zip (· - ·) R.W (smul R.lrate R.grad) with
  | error e =>
    have := mapp_zip (e' := l.W.add (l.lrate.mul g)) (op := (· - ·)) (op' := (· - ·)) (fun _ _ _ _ h3 h4 => app_sub h3 h4 h2) hL.W (mapp_smul hL.lrate hg h1)
    rw [h] at this
    generalize Mat.zip (· - ·) L.W (smul L.lrate L.grad) = X at this ⊢
    cases this
    exact .err _
  | ok W' =>
    have := mapp_zip (e' := l.W.add (l.lrate.mul g)) (op := (· - ·)) (op' := (· - ·)) (fun _ _ _ _ h3 h4 => app_sub h3 h4 h2) hL.W (mapp_smul hL.lrate hg h1)
    rw [h] at this
    obtain ⟨_, _, n1, n2, _⟩ := zip_spec h
    generalize Mat.zip (· - ·) L.W (smul L.lrate L.grad) = X at this ⊢
    cases this with
    | ok hW => exact .ok ⟨hW, by show (W'.nr : ℝ) ≤ _; rw [n1]; exact hL.inputs, by show (W'.nc : ℝ) ≤ _; rw [n2]; exact hL.units, hL.act, hL.actd, hL.lrate, hL.lambda⟩

/-! ## Hidden layers -/

/-- The hidden layers after a forward pass of `r` samples. -/
inductive HRReady (r : ℕ) : List LayerEst → Est → List (Layer (Double P)) → List (Layer ℝ) → Prop
  | nil {x} : HRReady r [] x [] []
  | cons {l ls x L Ls R Rs} : RReady l x L R → R.pa.nr = r → HRReady r ls (l.a x) Ls Rs → HRReady r (l :: ls) x (L :: Ls) (R :: Rs)

theorem hidden_forward_app : ∀ {ls : List LayerEst} {x : Est} {Ls : List (Layer (Double P))} {Rs : List (Layer ℝ)} {X : Mat (Double P)} {X' : Mat ℝ}, HApp ls Ls Rs → ForwardFits ls x → MApp x X X' →
    RelRes (fun p q => MApp (forward ls x) p.1 q.1 ∧ q.1.nr = X'.nr ∧ HRReady X'.nr ls x p.2 q.2) (Net.hiddenForward Ls X) (Net.hiddenForward Rs X')
  | _, _, _, _, _, _, .nil, _, hx => .ok ⟨hx, rfl, .nil⟩
  | _, _, _, _, _, _, .cons hL hs, hf, hx => by
    unfold Net.hiddenForward
    refine RelRes.bind (layer_forward_app hL hf.1 hx) ?_
    rintro ⟨a, L⟩ ⟨a', R⟩ ⟨h1, h2, h3, h4⟩
    dsimp only at h1 h2 h3 h4
    refine RelRes.bind (hidden_forward_app hs hf.2 h1) ?_
    rintro ⟨b, Ls⟩ ⟨b', Rs⟩ ⟨h5, h6, h7⟩
    dsimp only at h5 h6 h7
    refine .ok ⟨h5, h6.trans h2, .cons h4 h3 ?_⟩
    rw [h2] at h7
    exact h7

/-- The hidden layers before the update: gradients have their estimates. -/
inductive HGrad (B : ℝ) : List LayerEst → Est → Est → List (Layer (Double P)) → List (Layer ℝ) → Prop
  | nil {x d} : HGrad B [] x d [] []
  | cons {l ls x d L Ls R Rs} : LApp l L R → MApp (l.grad B x (l.delta x (backward ls (l.a x) d))) L.grad R.grad → HGrad B ls (l.a x) d Ls Rs → HGrad B (l :: ls) x d (L :: Ls) (R :: Rs)

theorem hidden_backward_app {B : ℝ} {r : ℕ} (hB : B < 2 ^ 50) (hr : (r : ℝ) ≤ B) : ∀ {ls : List LayerEst} {x d : Est} {Ls : List (Layer (Double P))} {Rs : List (Layer ℝ)} {D : Mat (Double P)} {D' : Mat ℝ},
    HRReady r ls x Ls Rs → ForwardFits ls x → BackwardFits B ls x d → MApp d D D' →
    RelRes (fun p q => MApp (backward ls x d) p.1 q.1 ∧ HGrad B ls x d p.2 q.2) (Net.hiddenBackward Ls D) (Net.hiddenBackward Rs D')
  | _, _, _, _, _, _, _, .nil, _, _, hd => .ok ⟨hd, .nil⟩
  | _, _, _, _, _, _, _, .cons hL hn hs, hf, hb, hd => by
    obtain ⟨b1, b2, b3, b4⟩ := hb
    unfold Net.hiddenBackward
    refine RelRes.bind (hidden_backward_app hB hr hs hf.2 b1 hd) ?_
    rintro ⟨a, Ls⟩ ⟨a', Rs⟩ ⟨h1, h2⟩
    dsimp only at h1 h2
    refine RelRes.bind (layer_backward_app hL hB (by rw [hn]; exact hr) hf.1.1 b2 b3 b4 h1) ?_
    rintro ⟨b, L⟩ ⟨b', R⟩ ⟨h5, h6, h7⟩
    exact .ok ⟨h5, .cons h6 h7 h2⟩

theorem hidden_update_app {B : ℝ} : ∀ {ls : List LayerEst} {x d : Est} {Ls : List (Layer (Double P))} {Rs : List (Layer ℝ)}, HGrad B ls x d Ls Rs → BackwardFits B ls x d →
    RelRes (HApp (trained B ls x d)) (Net.hiddenUpdate Ls) (Net.hiddenUpdate Rs)
  | _, _, _, _, _, .nil, _ => .ok .nil
  | _, _, _, _, _, .cons hL hg hs, hb => by
    obtain ⟨b1, b2, b3, b4⟩ := hb
    unfold Net.hiddenUpdate
    refine RelRes.bind (layer_update_app hL hg b4.step b4.weights) (fun L R h1 => ?_)
    refine RelRes.bind (hidden_update_app hs b1) (fun Ls Rs h2 => ?_)
    exact .ok (.cons h1 h2)

/-! ## Networks -/

/-- A network after a forward pass of `r` samples. -/
structure NRReady (r : ℕ) (e : NetEst) (x : Est) (n : Net (Double P)) (m : Net ℝ) : Prop where
  hidden : HRReady r e.hidden x n.hidden m.hidden
  output : RReady e.output (e.last x) n.output.toLayer m.output.toLayer
  rows : m.output.pa.nr = r
  costd : ComputesCost e.costdOk e.costd n.output.costd m.output.costd

theorem forward_app {e : NetEst} {x : Est} {n : Net (Double P)} {m : Net ℝ} {X : Mat (Double P)} {X' : Mat ℝ} (h : NApp e n m) (hf : e.Fits x) (hx : MApp x X X') :
    RelRes (fun p q => MApp (e.out x) p.1 q.1 ∧ q.1.nr = X'.nr ∧ NRReady X'.nr e x p.2 q.2) (n.forwardprop X) (m.forwardprop X') := by
  unfold Net.forwardprop
  refine RelRes.bind (hidden_forward_app h.hidden hf.1 hx) ?_
  rintro ⟨c, Ls⟩ ⟨c', Rs⟩ ⟨h1, h2, h3⟩
  dsimp only at h1 h2 h3
  refine RelRes.bind (Q := fun p q => MApp (e.out x) p.1 q.1 ∧ q.1.nr = X'.nr ∧ q.2.pa.nr = X'.nr ∧ RReady e.output (e.last x) p.2.toLayer q.2.toLayer ∧ p.2.costd = n.output.costd ∧ q.2.costd = m.output.costd) ?_ ?_
  · unfold OutputLayer.forwardprop
    refine RelRes.bind (layer_forward_app h.output hf.2 h1) ?_
    rintro ⟨a, L⟩ ⟨a', R⟩ ⟨g1, g2, g3, g4⟩
    exact .ok ⟨g1, g2.trans h2, g3.trans h2, g4, rfl, rfl⟩
  · rintro ⟨a, o⟩ ⟨a', o'⟩ ⟨g1, g2, g3, g4, g5, g6⟩
    exact .ok ⟨g1, g2, h3, g4, g3, by rw [g5, g6]; exact h.costd⟩

theorem train_app {e : NetEst} {B : ℝ} {x y : Est} {n : Net (Double P)} {m : Net ℝ} {X Y : Mat (Double P)} {X' Y' : Mat ℝ} (h : NApp e n m) (hf : e.TrainFits B x y) (hB : (X'.nr : ℝ) ≤ B) (hB' : (Y'.nr : ℝ) ≤ B)
    (hx : MApp x X X') (hy : MApp y Y Y') : RelRes (NApp (e.trained B x y)) (n.trainOn X Y) (m.trainOn X' Y') := by
  unfold Net.trainOn
  refine RelRes.bind (forward_app h hf.forward hx) ?_
  rintro ⟨a, n1⟩ ⟨a', m1⟩ ⟨h1, h2, h3⟩
  dsimp only at h1 h2 h3
  refine RelRes.bind (Q := fun n m => HGrad B e.hidden x (e.output.passed (e.delta x y)) n.hidden m.hidden ∧ LApp e.output n.output.toLayer m.output.toLayer ∧
      MApp (e.output.grad B (e.last x) (e.delta x y)) n.output.grad m.output.grad ∧ ComputesCost e.costdOk e.costd n.output.costd m.output.costd) ?_ ?_
  · unfold Net.backprop
    refine RelRes.bind (Q := fun p q => MApp (e.output.passed (e.delta x y)) p.1 q.1 ∧ LApp e.output p.2.toLayer q.2.toLayer ∧ MApp (e.output.grad B (e.last x) (e.delta x y)) p.2.grad q.2.grad ∧
      p.2.costd = n1.output.costd ∧ q.2.costd = m1.output.costd) ?_ ?_
    · unfold OutputLayer.backprop
      have hL := h3.output
      have hg := hf.output
      refine RelRes.bind (h3.costd _ _ _ _ _ _ _ _ hf.cost (lt_of_le_of_lt hB' hf.rows) hy hL.a) (fun δ δ' hδ => ?_)
      refine RelRes.bind (mapp_mul (mapp_tr hL.pa) hδ (by rw [Mat.tr_nc, h3.rows]; exact hB) hf.rows hg.inputs) (fun g g' hgg => ?_)
      refine RelRes.bind (mapp_zip (e' := e.output.grad B (e.last x) (e.delta x y)) (fun _ _ _ _ h1 h2 => app_add h1 h2 hg.grad) hgg (mapp_smul hL.lambda hL.W hg.decay)) (fun G G' hG => ?_)
      by_cases hc : δ'.nc = m1.output.W.tr.nr
      · refine RelRes.bind (mapp_mul (N := e.output.N) hδ (mapp_tr hL.W) (by rw [hc]; exact hL.units) hf.forward.2.1 hg.passed) (fun p p' hp => ?_)
        refine RelRes.bind (mapp_shed hp) (fun r r' hr => ?_)
        exact .ok ⟨hr, ⟨hL.W, hL.inputs, hL.units, hL.act, hL.actd, hL.lrate, hL.lambda⟩, hG, rfl, rfl⟩
      · have e1 : mul δ n1.output.W.tr = .error .throw := if_neg (by rw [hδ.nc, Mat.tr_nr, hL.W.nc]; exact hc)
        have e2 : mul δ' m1.output.W.tr = .error .throw := if_neg hc
        rw [e1, e2]
        exact .err _
    · rintro ⟨d, o⟩ ⟨d', o'⟩ ⟨g1, g2, g3, g4, g5⟩
      dsimp only at g1 g2 g3 g4 g5
      refine RelRes.bind (hidden_backward_app hf.rows hB h3.hidden hf.forward.1 hf.hidden g1) ?_
      rintro ⟨b, Ls⟩ ⟨b', Rs⟩ ⟨g6, g7⟩
      exact .ok ⟨g7, g2, g3, by rw [g4, g5]; exact h3.costd⟩
  · rintro n2 m2 ⟨g1, g2, g3, g4⟩
    unfold Net.update
    refine RelRes.bind (layer_update_app g2 g3 hf.output.step hf.output.weights) (fun L R h1 => ?_)
    refine RelRes.bind (hidden_update_app g1 hf.hidden) (fun Ls Rs h2 => ?_)
    exact .ok ⟨h2, h1, g4⟩

/-! ## C77: forward passes and predictions -/

/-- C77. A forward pass in `double`s fails if and only if the exact one does; otherwise every output is a number within the estimated error of the exact output. -/
theorem C77_forward {e : NetEst} {x : Est} {n : Net (Double P)} {m : Net ℝ} {X : Mat (Double P)} {X' : Mat ℝ} (h : NApp e n m) (hf : e.Fits x) (hx : MApp x X X') :
    (∀ s, n.forwardprop X = .error s ↔ m.forwardprop X' = .error s) ∧
    ∀ a n', n.forwardprop X = .ok (a, n') → ∃ a' m', m.forwardprop X' = .ok (a', m') ∧ a.nr = a'.nr ∧ a.nc = a'.nc ∧
      ∀ i j, i < a'.nr → j < a'.nc → ∃ q, (a.f i j).v = fin q ∧ |q - a'.f i j| ≤ (e.out x).E := by
  have := forward_app h hf hx
  generalize n.forwardprop X = A at this ⊢
  generalize m.forwardprop X' = A' at this ⊢
  cases this with
  | err s => exact ⟨fun s' => by simp only [Except.error.injEq], fun a n' h => by cases h⟩
  | ok hr =>
    rename_i p q
    obtain ⟨a, n1⟩ := p
    obtain ⟨a', m1⟩ := q
    refine ⟨fun s => by simp, fun b n' hb => ?_⟩
    cases hb
    refine ⟨a', m1, rfl, hr.1.nr, hr.1.nc, fun i j hi hj => ?_⟩
    obtain ⟨q, h1, _, _, h2⟩ := hr.1.app i j hi hj
    exact ⟨q, h1, h2⟩

/-- C77. If for some sample the exact output of one class exceeds the others by more than twice the estimated error, `predict` in `double`s answers this class, and the value it answers is within the error. -/
theorem C77_predict {e : NetEst} {x : Est} {n n' : Net (Double P)} {m m' : Net ℝ} {X am : Mat (Double P)} {X' a' : Mat ℝ} (h : NApp e n m) (hf : e.Fits x) (hx : MApp x X X') (hp : n.predict X = .ok (am, n'))
    (hm : m.forwardprop X' = .ok (a', m')) {i k : ℕ} (hi : i < a'.nr) (hk : k < a'.nc) (hgap : ∀ j, j < a'.nc → j ≠ k → a'.f i j + 2 * (e.out x).E < a'.f i k) :
    am.f i 0 = Arith.lit (k : ℚ) ∧ ∃ q, (am.f i 1).v = fin q ∧ |q - a'.f i k| ≤ (e.out x).E := by
  obtain ⟨a, h1, h2⟩ := predict_spec hp
  have hr := forward_app h hf hx
  rw [h1, hm] at hr
  obtain ⟨ha, _, _⟩ : MApp (e.out x) a a' ∧ a'.nr = X'.nr ∧ NRReady X'.nr e x n' m' := by
    cases hr with
    | ok hr => exact hr
  have hna : n'.output.a = a := by
    obtain ⟨⟨c, hid⟩, _, h1⟩ := bind_eq_ok h1
    obtain ⟨⟨r, out⟩, h5, h1⟩ := bind_eq_ok h1
    cases h1
    exact (out_forwardprop_spec h5).1.a_eq
  obtain ⟨pa, hfw, hrr, h3⟩ := predict_out hp
  rw [hna] at hfw h3
  have f1 := hfw.a_nr
  have f2 := hfw.a_nc
  have f3 := ha.nr
  have f4 := ha.nc
  obtain ⟨h4, h5⟩ := h3 (by omega) i (by omega)
  obtain ⟨b1, b2⟩ := best_le (a.f i) (n.output.W.nc - 1)
  have hnum : ∀ j, j ≤ n.output.W.nc - 1 → Number (a.f i j) := fun j _ => by
    obtain ⟨q, hq, _⟩ := ha.all i j
    exact ⟨q, hq⟩
  obtain ⟨m1, _⟩ := best_max (g := a.f i) (n.output.W.nc - 1) hnum
  rw [b2] at m1 h5
  set b := (best (a.f i) (n.output.W.nc - 1)).2 with hb
  have hbk : b = k := by
    by_contra hne
    have hg := hgap b (by omega) hne
    obtain ⟨q, hq, _, _, q3⟩ := ha.all i b
    obtain ⟨p, hp', _, _, p3⟩ := ha.all i k
    have hle := m1 k (by omega)
    have hle : Le (a.f i k).v (a.f i b).v := hle
    rw [hq, hp'] at hle
    have hle : p ≤ q := hle
    rw [abs_le] at q3 p3
    linarith
  rw [hbk] at h4 h5
  obtain ⟨q, hq, _, _, q3⟩ := ha.all i k
  exact ⟨h4, q, by rw [h5]; exact hq, q3⟩

/-! ## C78: training -/

theorem train_all_app {B : ℝ} {x y : Est} : ∀ {bs : List (Mat (Double P) × Mat (Double P))} {bs' : List (Mat ℝ × Mat ℝ)} {e : NetEst} {n : Net (Double P)} {m : Net ℝ}, NApp e n m →
    (∀ k, k < bs.length → (e.after B x y k).TrainFits B x y) →
    List.Forall₂ (fun b b' => MApp x b.1 b'.1 ∧ MApp y b.2 b'.2 ∧ (b'.1.nr : ℝ) ≤ B ∧ (b'.2.nr : ℝ) ≤ B) bs bs' → RelRes (NApp (e.after B x y bs.length)) (trainAll n bs) (trainAll m bs')
  | [], _, _, _, _, h, _, .nil => .ok h
  | b :: bs, _, e, n, m, h, hf, .cons hb hbs => by
    have hs : ∀ k, (e.trained B x y).after B x y k = e.after B x y (k + 1) := by
      intro k
      induction k with
      | zero => rfl
      | succ k ih => show ((e.trained B x y).after B x y k).trained B x y = _; rw [ih]; rfl
    unfold trainAll
    refine RelRes.bind (train_app h (hf 0 (by simp)) hb.2.2.1 hb.2.2.2 hb.1 hb.2.1) (fun n' m' h' => ?_)
    have := train_all_app h' (fun k hk => by rw [hs]; exact hf (k + 1) (by simp; omega)) hbs
    rw [hs] at this
    exact this

/-- C78. Training on any sequence of batches in `double`s fails if and only if exact training does; otherwise all weights of the trained network are within the estimated errors of the exact ones,
and so are the outputs of the trained network for any further samples. -/
theorem C78_train {B : ℝ} {x y : Est} {bs : List (Mat (Double P) × Mat (Double P))} {bs' : List (Mat ℝ × Mat ℝ)} {e : NetEst} {n : Net (Double P)} {m : Net ℝ} (h : NApp e n m)
    (hf : ∀ k, k < bs.length → (e.after B x y k).TrainFits B x y)
    (hbs : List.Forall₂ (fun b b' => MApp x b.1 b'.1 ∧ MApp y b.2 b'.2 ∧ (b'.1.nr : ℝ) ≤ B ∧ (b'.2.nr : ℝ) ≤ B) bs bs') :
    (∀ s, trainAll n bs = .error s ↔ trainAll m bs' = .error s) ∧
    ∀ n', trainAll n bs = .ok n' → ∃ m', trainAll m bs' = .ok m' ∧ NApp (e.after B x y bs.length) n' m' := by
  have := train_all_app h hf hbs
  generalize trainAll n bs = A at this ⊢
  generalize trainAll m bs' = A' at this ⊢
  cases this with
  | err s => exact ⟨fun s' => by simp only [Except.error.injEq], fun n' h => by cases h⟩
  | ok hr => exact ⟨fun s => by simp, fun n' hn => by cases hn; exact ⟨_, rfl, hr⟩⟩

theorem mapp_clip {e : Est} {a : Mat (Double P)} {b : Mat ℝ} {M : ℝ} (h : MApp e a b) (hM : 0 ≤ M) (hb : ∀ i j, i < b.nr → j < b.nc → |b.f i j| ≤ M) : MApp ⟨M + e.E, e.E⟩ a b :=
  ⟨h.nr, h.nc, ⟨add_nonneg hM h.pos.2, h.pos.2⟩, fun i j hi hj => by
    obtain ⟨q, h1, _, _, h4⟩ := h.app i j hi hj
    have h5 := hb i j hi hj
    refine ⟨q, h1, ?_, by show _ ≤ M + e.E; have := h.pos.2; linarith, h4⟩
    have := abs_add_le (b.f i j) (q - b.f i j)
    rw [add_sub_cancel] at this
    show _ ≤ M + e.E
    linarith⟩

theorem lapp_clip {l : LayerEst} {L : Layer (Double P)} {R : Layer ℝ} {M : ℝ} (h : LApp l L R) (hM : 0 ≤ M) (hb : ∀ i j, i < R.W.nr → j < R.W.nc → |R.W.f i j| ≤ M) :
    LApp { l with W := ⟨M + l.W.E, l.W.E⟩ } L R := ⟨mapp_clip h.W hM hb, h.inputs, h.units, h.act, h.actd, h.lrate, h.lambda⟩

theorem happ_clip {M : ℝ} (hM : 0 ≤ M) : ∀ {ls : List LayerEst} {Ls : List (Layer (Double P))} {Rs : List (Layer ℝ)}, HApp ls Ls Rs → (∀ R ∈ Rs, ∀ i j, i < R.W.nr → j < R.W.nc → |R.W.f i j| ≤ M) →
    HApp (ls.map fun l => { l with W := ⟨M + l.W.E, l.W.E⟩ }) Ls Rs
  | _, _, _, .nil, _ => .nil
  | _, _, _, .cons h t, hb => .cons (lapp_clip h hM (hb _ (by simp))) (happ_clip hM t fun R hR => hb R (by simp [hR]))

theorem napp_clip {e : NetEst} {n : Net (Double P)} {m : Net ℝ} {M : ℝ} (h : NApp e n m) (hw : WeightsUpTo M m) : NApp (e.clip M) n m :=
  ⟨happ_clip hw.pos h.hidden hw.hidden, lapp_clip h.output hw.pos hw.output, h.costd⟩

theorem train_clip_app {M B : ℝ} {x y : Est} {e : NetEst} : ∀ {bs : List (Mat (Double P) × Mat (Double P))} {bs' : List (Mat ℝ × Mat ℝ)} {n : Net (Double P)} {m : Net ℝ} {k0 : ℕ}, NApp (e.afterClip M B x y k0) n m →
    (∀ k, k < bs.length → (e.afterClip M B x y (k0 + k)).TrainFits B x y) → (∀ k m', k ≤ bs'.length → trainAll m (bs'.take k) = .ok m' → WeightsUpTo M m') →
    List.Forall₂ (fun b b' => MApp x b.1 b'.1 ∧ MApp y b.2 b'.2 ∧ (b'.1.nr : ℝ) ≤ B ∧ (b'.2.nr : ℝ) ≤ B) bs bs' → RelRes (NApp (e.afterClip M B x y (k0 + bs.length))) (trainAll n bs) (trainAll m bs')
  | [], _, _, _, _, h, _, _, .nil => .ok h
  | b :: bs, b' :: bs', n, m, k0, h, hf, hw, .cons hb hbs => by
    unfold trainAll
    have ht := train_app h (hf 0 (by simp)) hb.2.2.1 hb.2.2.2 hb.1 hb.2.1
    generalize h1 : n.trainOn b.1 b.2 = A at ht ⊢
    generalize h2 : m.trainOn b'.1 b'.2 = A' at ht ⊢
    cases ht with
    | err s => exact .err s
    | ok hr =>
      rename_i n' m'
      have hm' : WeightsUpTo M m' := hw 1 m' (by simp) (by
        rw [List.take_succ_cons, List.take_zero]
        unfold trainAll
        rw [h2]
        rfl)
      have := train_clip_app (k0 := k0 + 1) (napp_clip hr hm') (fun k hk => by rw [show k0 + 1 + k = k0 + (k + 1) by omega]; exact hf (k + 1) (by simp; omega)) (fun k m'' hk hk' => by
        refine hw (k + 1) m'' (by simp; omega) ?_
        rw [List.take_succ_cons]
        unfold trainAll
        rw [h2]
        exact hk') hbs
      rw [List.length_cons, show k0 + (bs.length + 1) = k0 + 1 + bs.length by omega]
      exact this

/-- C78. If no weight of the exact network exceeds `M` in absolute value after any of the steps, only the errors accumulate, not the bounds. -/
theorem C78_bounded {M B : ℝ} {x y : Est} {bs : List (Mat (Double P) × Mat (Double P))} {bs' : List (Mat ℝ × Mat ℝ)} {e : NetEst} {n : Net (Double P)} {m : Net ℝ} (h : NApp e n m)
    (hw : ∀ k m', k ≤ bs'.length → trainAll m (bs'.take k) = .ok m' → WeightsUpTo M m') (hf : ∀ k, k < bs.length → (e.afterClip M B x y k).TrainFits B x y)
    (hbs : List.Forall₂ (fun b b' => MApp x b.1 b'.1 ∧ MApp y b.2 b'.2 ∧ (b'.1.nr : ℝ) ≤ B ∧ (b'.2.nr : ℝ) ≤ B) bs bs') :
    (∀ s, trainAll n bs = .error s ↔ trainAll m bs' = .error s) ∧
    ∀ n', trainAll n bs = .ok n' → ∃ m', trainAll m bs' = .ok m' ∧ NApp (e.afterClip M B x y bs.length) n' m' := by
  have := train_clip_app (k0 := 0) (napp_clip h (hw 0 m (by simp) rfl)) (fun k hk => by rw [zero_add]; exact hf k hk) hw hbs
  rw [zero_add] at this
  generalize trainAll n bs = A at this ⊢
  generalize trainAll m bs' = A' at this ⊢
  cases this with
  | err s => exact ⟨fun s' => by simp only [Except.error.injEq], fun n' h => by cases h⟩
  | ok hr => exact ⟨fun s => by simp, fun n' hn => by cases hn; exact ⟨_, rfl, hr⟩⟩

end
end Nnet.NN.Flt
