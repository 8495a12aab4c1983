import Verif.NN.PropsAssign
import Verif.NN.Float
import Mathlib.Algebra.BigOperators.Fin
import Mathlib.Algebra.BigOperators.Group.List.Basic
/-!
# The generic network at the reals is the real model

Ties `NN/Float.lean` to `NN/Act.lean`, `NN/Layer.lean` and `NN/Net.lean`: every definition there, instantiated with real arithmetic, is the corresponding definition of the real model.
-/
namespace Nnet.NN.Flt
noncomputable section

/-- Exact real arithmetic. -/
instance instArithReal : Arith ℝ where
  lit q := q
  exp := Real.exp
  log := Real.log
  tanh := Real.tanh
  atan := Real.arctan
  cos := Real.cos
  sin := Real.sin
  fabs x := |x|
  fmax := max
  fmin := min
  lt x y := decide (x < y)
  le x y := decide (x ≤ y)
  dot l := (l.map fun p => p.1 * p.2).sum
  total := List.sum

/-! ## Activation functions -/

theorem real_act :
    (Act.identityF : ℝ → ℝ) = NN.Act.identityF ∧ (Act.identityG : ℝ → ℝ) = NN.Act.identityG ∧ (Act.sigmoidF : ℝ → ℝ) = NN.Act.sigmoidF ∧ (Act.sigmoidG : ℝ → ℝ) = NN.Act.sigmoidG ∧
    (Act.arctanF : ℝ → ℝ) = NN.Act.arctanF ∧ (Act.arctanG : ℝ → ℝ) = NN.Act.arctanG ∧ (Act.tanhF : ℝ → ℝ) = NN.Act.tanhF ∧ (Act.tanhG : ℝ → ℝ) = NN.Act.tanhG ∧
    (Act.bipolarsigmoidF : ℝ → ℝ) = NN.Act.bipolarsigmoidF ∧ (Act.bipolarsigmoidG : ℝ → ℝ) = NN.Act.bipolarsigmoidG ∧ (Act.comploglogF : ℝ → ℝ) = NN.Act.comploglogF ∧
    (Act.comploglogG : ℝ → ℝ) = NN.Act.comploglogG ∧ (Act.lecuntanhF : ℝ → ℝ) = NN.Act.lecuntanhF ∧ (Act.lecuntanhG : ℝ → ℝ) = NN.Act.lecuntanhG ∧
    (Act.hardtanhF : ℝ → ℝ) = NN.Act.hardtanhF ∧ (Act.hardtanhG : ℝ → ℝ) = NN.Act.hardtanhG ∧ (Act.absoluteF : ℝ → ℝ) = NN.Act.absoluteF ∧ (Act.absoluteG : ℝ → ℝ) = NN.Act.absoluteG ∧
    (Act.reluF : ℝ → ℝ) = NN.Act.reluF ∧ (Act.reluG : ℝ → ℝ) = NN.Act.reluG ∧ (Act.relucosF : ℝ → ℝ) = NN.Act.relucosF ∧ (Act.relucosG : ℝ → ℝ) = NN.Act.relucosG ∧
    (Act.relusinF : ℝ → ℝ) = NN.Act.relusinF ∧ (Act.relusinG : ℝ → ℝ) = NN.Act.relusinG ∧ (Act.smoothreluF : ℝ → ℝ) = NN.Act.smoothreluF ∧ (Act.smoothreluG : ℝ → ℝ) = NN.Act.smoothreluG := by
  refine ⟨rfl, rfl, rfl, rfl, rfl, rfl, rfl, rfl, ?_, ?_, rfl, rfl, ?_, ?_, ?_, ?_, rfl, ?_, ?_, ?_, rfl, ?_, rfl, ?_, rfl, rfl⟩ <;> funext z <;>
    simp [Act.bipolarsigmoidF, Act.bipolarsigmoidG, Act.lecuntanhF, Act.lecuntanhG, Act.hardtanhF, Act.hardtanhG, Act.absoluteG, Act.reluF, Act.reluG, Act.relucosG, Act.relusinG,
      NN.Act.bipolarsigmoidF, NN.Act.bipolarsigmoidG, NN.Act.lecuntanhF, NN.Act.lecuntanhG, NN.Act.hardtanhF, NN.Act.hardtanhG, NN.Act.absoluteG, NN.Act.reluF, NN.Act.reluG, NN.Act.relucosG,
      NN.Act.relusinG, Arith.lit, Arith.exp, Arith.tanh, Arith.fmax, Arith.fmin, Arith.le, Arith.lt, Arith.cos, Arith.sin]
  all_goals norm_num

/-! ## Matrices -/

theorem sum_range_list (f : Nat → ℝ) (n : Nat) : ((List.range n).map f).sum = ∑ k ∈ Finset.range n, f k := by
  induction n with
  | zero => rfl
  | succ n ih => rw [List.range_succ, List.map_append, List.sum_append, ih, Finset.sum_range_succ]; simp

theorem real_mul (a b : Mat ℝ) : mul a b = a.mul b := by
  unfold mul Mat.mul
  split
  · congr 2
    funext i j
    show ((List.range a.nc).map _ |>.map _).sum = _
    rw [List.map_map, ← sum_range_list]
    rfl
  · rfl

theorem real_sumall (m : Mat ℝ) : sumall m = NN.sumall m := by
  show (elems m).sum = ∑ i ∈ Finset.range m.nr, ∑ j ∈ Finset.range m.nc, m.f i j
  rw [Finset.sum_comm]
  unfold elems
  have : ∀ n, ((List.range n).flatMap fun j => (List.range m.nr).map fun i => m.f i j).sum = ∑ j ∈ Finset.range n, ∑ i ∈ Finset.range m.nr, m.f i j := by
    intro n
    induction n with
    | zero => rfl
    | succ n ih => rw [List.range_succ, List.flatMap_append, List.sum_append, ih, Finset.sum_range_succ]; simp [sum_range_list]
  exact this _

theorem real_rowsum (m : Mat ℝ) : rowsum m = NN.rowsum m := by
  unfold rowsum NN.rowsum Mat.sumRows
  congr 1

theorem real_addcol (m : Mat ℝ) : addcol m = NN.addcol m := rfl
theorem real_smul (c : ℝ) (m : Mat ℝ) : smul c m = m.smul c := rfl
theorem real_funcop (m : Mat ℝ) (g : ℝ → ℝ) : funcop m g = NN.funcop m g := rfl
theorem real_divN (m : Mat ℝ) (n : Nat) : divN m n = m.divS n := by
  unfold divN Mat.divS
  simp [Arith.lit]

/-! ## Costs -/

theorem real_costs :
    (Quadratic.cost : MatFunc ℝ) = NN.Quadratic.cost ∧ (Quadratic.costd : MatFuncD ℝ) = NN.Quadratic.costd ∧
    (CrossEntropy.cost : MatFunc ℝ) = NN.CrossEntropy.cost ∧ (CrossEntropy.costd : MatFuncD ℝ) = NN.CrossEntropy.costd ∧
    (Softmax.cost : MatFunc ℝ) = NN.Softmax.cost ∧ (Softmax.costd : MatFuncD ℝ) = NN.Softmax.costd ∧
    (KullbackLeibler.cost : MatFunc ℝ) = NN.KullbackLeibler.cost ∧ (KullbackLeibler.costd : MatFuncD ℝ) = NN.KullbackLeibler.costd := by
  have hp : ∀ c (h : Mat ℝ), Softmax.prob c h = NN.Softmax.prob c h := by
    intro c h
    show (repeatM (rowsum (exponential h)) 1 c >>= _) = (NN.repeatM (NN.rowsum (exponential h)) 1 c >>= _)
    rw [real_rowsum]
    rfl
  refine ⟨?_, ?_, ?_, ?_, ?_, ?_, ?_, ?_⟩
  · funext y h
    unfold Quadratic.cost NN.Quadratic.cost
    simp only [real_divN]
    rfl
  · funext y h z
    unfold Quadratic.costd NN.Quadratic.costd
    simp only [real_divN]
    rfl
  · funext y h
    unfold CrossEntropy.cost NN.CrossEntropy.cost
    simp only [real_divN]
    rfl
  · funext y h z
    unfold CrossEntropy.costd NN.CrossEntropy.costd
    simp only [real_divN]
    rfl
  · funext y h
    unfold Softmax.cost NN.Softmax.cost
    simp only [real_divN, hp]
    rfl
  · funext y h z
    unfold Softmax.costd NN.Softmax.costd
    simp only [real_divN, hp]
    rfl
  · funext y h
    unfold KullbackLeibler.cost NN.KullbackLeibler.cost
    simp only [real_divN]
    rfl
  · funext y h z
    unfold KullbackLeibler.costd NN.KullbackLeibler.costd
    simp only [real_divN]
    rfl

/-! ## Layers -/

/-- The same layer in the real model. -/
def Layer.toReal (L : Layer ℝ) : NN.Layer :=
  { lrate := L.lrate, lambda := L.lambda, actfunc := L.actfunc, pa := L.pa, z := L.z, a := L.a, delta := L.delta, W := L.W, grad := L.grad }

/-- The same output layer in the real model. -/
def OutputLayer.toReal (o : OutputLayer ℝ) : NN.OutputLayer := { o.toLayer.toReal with cost := o.cost, costd := o.costd, y := o.y }

theorem bind_map {α β γ : Type} {g : β → γ} {a b : Res α} {f : α → Res γ} {f' : α → Res β} (h : a = b) (hf : ∀ v, f v = (f' v).map g) : (a >>= f) = (b >>= f').map g := by
  subst h
  cases a with
  | error e => rfl
  | ok v => exact hf v

theorem real_forwardprop (L : Layer ℝ) (pa : Mat ℝ) : L.toReal.forwardprop pa = (L.forwardprop pa).map fun p => (p.1, p.2.toReal) :=
  bind_map rfl fun pa' => bind_map (real_mul pa' L.W).symm fun _ => rfl

theorem real_backprop (L : Layer ℝ) (d : Mat ℝ) : L.toReal.backprop d = (L.backprop d).map fun p => (p.1, p.2.toReal) :=
  bind_map rfl fun delta => bind_map (real_mul L.pa.tr delta).symm fun _ => bind_map rfl fun _ => bind_map (real_mul delta L.W.tr).symm fun _ => bind_map rfl fun _ => rfl

theorem real_update (L : Layer ℝ) : L.toReal.update = L.update.map Layer.toReal := bind_map rfl fun _ => rfl

theorem real_updateWith (L : Layer ℝ) (g : Mat ℝ) : L.toReal.updateWith g = (L.updateWith g).map Layer.toReal := bind_map rfl fun _ => rfl

theorem real_out_forwardprop (o : OutputLayer ℝ) (pa : Mat ℝ) : o.toReal.forwardprop pa = (o.forwardprop pa).map fun p => (p.1, p.2.toReal) := by
  unfold NN.OutputLayer.forwardprop OutputLayer.forwardprop
  rw [show o.toReal.toLayer = o.toLayer.toReal from rfl, real_forwardprop]
  cases o.toLayer.forwardprop pa <;> rfl

theorem real_out_backprop (o : OutputLayer ℝ) (y : Mat ℝ) : o.toReal.backprop y = (o.backprop y).map fun p => (p.1, p.2.toReal) :=
  bind_map rfl fun delta => bind_map (real_mul o.pa.tr delta).symm fun _ => bind_map rfl fun _ => bind_map (real_mul delta o.W.tr).symm fun _ => bind_map rfl fun _ => rfl

theorem real_argmaxRow (a : Mat ℝ) (i : Nat) : argmaxRow a i = NN.OutputLayer.argmaxRow a i := by
  unfold argmaxRow NN.OutputLayer.argmaxRow
  simp only [Arith.lt, decide_eq_true_eq, gt_iff_lt]

theorem real_argmax (o : OutputLayer ℝ) : o.argmax = o.toReal.argmax := by
  unfold OutputLayer.argmax NN.OutputLayer.argmax
  simp only [real_argmaxRow, Arith.lit, Rat.cast_natCast]
  rfl

/-! ## Networks -/

/-- The network `n` whose hidden layers live in the store `s` is the network `m`: same dense layers, none used twice. -/
structure Is (s : Store) (n : NN.Net) (m : Net ℝ) : Prop where
  nodup : n.hidden.Nodup
  hidden : n.hidden.map s = m.hidden.map fun L => ⟨L.toReal, .dense⟩
  output : n.output = m.output.toReal
  cost : n.cost = m.output.cost
  costd : n.costd = m.output.costd

/-- The layers named by `ps` in the store `s` are the dense layers `Ls`. -/
def Holds (s : Store) (ps : List Nat) (Ls : List (Layer ℝ)) : Prop := ps.map s = Ls.map fun L => ⟨L.toReal, .dense⟩

theorem Holds.put {s : Store} {p : Nat} {ps : List Nat} {Ls : List (Layer ℝ)} (h : Holds s ps Ls) (hp : p ∉ ps) (v : HLayer) : Holds (s.put p v) ps Ls := by
  unfold Holds at *
  rw [← h]
  refine List.map_congr_left fun q hq => ?_
  have hqp : q ≠ p := fun e => hp (e ▸ hq)
  exact if_neg hqp

theorem Holds.cons {s' : Store} {p : Nat} {ps : List Nat} {Ls : List (Layer ℝ)} {L : Layer ℝ} (h : Holds s' ps Ls) (hp : s' p = ⟨L.toReal, .dense⟩) : Holds s' (p :: ps) (L :: Ls) := by
  unfold Holds at *
  rw [List.map_cons, List.map_cons, h, hp]

theorem real_hiddenForward (junk : Nat → Nat → ℝ) : ∀ (ps : List Nat) (Ls : List (Layer ℝ)) (s : Store) (x : Mat ℝ), ps.Nodup → Holds s ps Ls →
    RelRes (fun (a : Mat ℝ × List (Layer ℝ)) (b : Mat ℝ × Store) => a.1 = b.1 ∧ Holds b.2 ps a.2 ∧ ∀ q, q ∉ ps → b.2 q = s q) (Net.hiddenForward Ls x) (NN.Net.hiddenForward junk ps s x)
  | [], [], s, x, _, _ => .ok ⟨rfl, rfl, fun _ _ => rfl⟩
  | p :: ps, L :: Ls, s, x, hn, h => by
    obtain ⟨h1, h2⟩ := List.cons.inj h
    obtain ⟨hn1, hn2⟩ := List.nodup_cons.1 hn
    unfold Net.hiddenForward NN.Net.hiddenForward NN.HLayer.forwardprop
    rw [h1]
    show RelRes _ (L.forwardprop x >>= _) ((L.toReal.forwardprop x >>= _) >>= _)
    rw [real_forwardprop]
    cases L.forwardprop x with
    | error e => exact .err e
    | ok v =>
      obtain ⟨r, L'⟩ := v
      have ih := real_hiddenForward junk ps Ls (s.put p ⟨L'.toReal, .dense⟩) r hn2 (Holds.put h2 hn1 _)
      show RelRes _ (Net.hiddenForward Ls r >>= _) (NN.Net.hiddenForward junk ps (s.put p ⟨L'.toReal, .dense⟩) r)
      generalize Net.hiddenForward Ls r = X at ih ⊢
      generalize NN.Net.hiddenForward junk ps (s.put p ⟨L'.toReal, .dense⟩) r = Y at ih ⊢
      cases ih with
      | err e => exact .err e
      | ok ih =>
        obtain ⟨i1, i2, i3⟩ := ih
        refine .ok ⟨i1, i2.cons ?_, fun q hq => ?_⟩
        · rw [i3 p hn1]; exact if_pos rfl
        · rw [i3 q fun e => hq (List.mem_cons_of_mem _ e)]
          have hqp : q ≠ p := fun e => hq (e ▸ List.mem_cons_self)
          exact if_neg hqp

theorem real_hiddenBackward (junk : Nat → Nat → ℝ) : ∀ (ps : List Nat) (Ls : List (Layer ℝ)) (s : Store) (d : Mat ℝ) (rs : List Nat), ps.Nodup → Holds s ps Ls →
    match Net.hiddenBackward Ls d with
    | .error e => NN.Net.hiddenBackward junk (ps.reverse ++ rs) s d = .error e
    | .ok v => ∃ s', Holds s' ps v.2 ∧ (∀ q, q ∉ ps → s' q = s q) ∧ NN.Net.hiddenBackward junk (ps.reverse ++ rs) s d = NN.Net.hiddenBackward junk rs s' v.1
  | [], [], s, d, rs, _, _ => ⟨s, rfl, fun _ _ => rfl, rfl⟩
  | p :: ps, L :: Ls, s, d, rs, hn, h => by
    obtain ⟨h1, h2⟩ := List.cons.inj h
    obtain ⟨hn1, hn2⟩ := List.nodup_cons.1 hn
    have ih := real_hiddenBackward junk ps Ls s d (p :: rs) hn2 h2
    rw [List.reverse_cons, List.append_assoc, List.singleton_append]
    unfold Net.hiddenBackward
    cases h3 : Net.hiddenBackward Ls d with
    | error e => rw [h3] at ih; exact ih
    | ok v =>
      rw [h3] at ih
      obtain ⟨s', i1, i2, i3⟩ := ih
      rw [i3]
      have hb : NN.Net.hiddenBackward junk (p :: rs) s' v.1 = (L.toReal.backprop v.1 >>= fun a => NN.Net.hiddenBackward junk rs (s'.put p ⟨a.2, .dense⟩) a.1) := by
        conv_lhs => unfold NN.Net.hiddenBackward NN.HLayer.backprop
        rw [i2 p hn1, h1]
        show ((L.toReal.backprop v.1 >>= _) >>= _) = _
        cases L.toReal.backprop v.1 <;> rfl
      rw [hb, real_backprop]
      show match (L.backprop v.1 >>= fun a => Except.ok (a.1, a.2 :: v.2) : Res (Mat ℝ × List (Layer ℝ))) with
        | .error e => _
        | .ok v => _
      cases L.backprop v.1 with
      | error e => rfl
      | ok a => 
        refine ⟨s'.put p ⟨a.2.toReal, .dense⟩, (i1.put hn1 _).cons (if_pos rfl), fun q hq => ?_, rfl⟩
        have hqp : q ≠ p := fun e => hq (e ▸ List.mem_cons_self)
        exact (if_neg hqp).trans (i2 q fun e => hq (List.mem_cons_of_mem _ e))

theorem real_hiddenUpdate : ∀ (ps : List Nat) (Ls : List (Layer ℝ)) (s : Store), ps.Nodup → Holds s ps Ls →
    RelRes (fun (a : List (Layer ℝ)) (b : Store) => Holds b ps a ∧ ∀ q, q ∉ ps → b q = s q) (Net.hiddenUpdate Ls) (NN.Net.hiddenUpdate ps s)
  | [], [], s, _, _ => .ok ⟨rfl, fun _ _ => rfl⟩
  | p :: ps, L :: Ls, s, hn, h => by
    obtain ⟨h1, h2⟩ := List.cons.inj h
    obtain ⟨hn1, hn2⟩ := List.nodup_cons.1 hn
    unfold Net.hiddenUpdate NN.Net.hiddenUpdate NN.HLayer.update
    rw [h1]
    show RelRes _ (L.update >>= _) ((L.toReal.update >>= _) >>= _)
    rw [real_update]
    cases L.update with
    | error e => exact .err e
    | ok L' =>
      have ih := real_hiddenUpdate ps Ls (s.put p ⟨L'.toReal, .dense⟩) hn2 (Holds.put h2 hn1 _)
      show RelRes _ (Net.hiddenUpdate Ls >>= _) (NN.Net.hiddenUpdate ps (s.put p ⟨L'.toReal, .dense⟩))
      generalize Net.hiddenUpdate Ls = X at ih ⊢
      generalize NN.Net.hiddenUpdate ps (s.put p ⟨L'.toReal, .dense⟩) = Y at ih ⊢
      cases ih with
      | err e => exact .err e
      | ok ih =>
        obtain ⟨i2, i3⟩ := ih
        refine .ok ⟨i2.cons ?_, fun q hq => ?_⟩
        · rw [i3 p hn1]; exact if_pos rfl
        · rw [i3 q fun e => hq (List.mem_cons_of_mem _ e)]
          have hqp : q ≠ p := fun e => hq (e ▸ List.mem_cons_self)
          exact if_neg hqp

theorem real_hiddenUpdateWith : ∀ (ps : List Nat) (Ls : List (Layer ℝ)) (gs : List (Mat ℝ)) (s : Store), ps.Nodup → Holds s ps Ls →
    RelRes (fun (a : List (Layer ℝ)) (b : Store) => Holds b ps a ∧ ∀ q, q ∉ ps → b q = s q) (Net.hiddenUpdateWith Ls gs) (NN.Net.hiddenUpdateWith ps gs s)
  | [], [], _, s, _, _ => .ok ⟨rfl, fun _ _ => rfl⟩
  | _ :: _, _ :: _, [], s, _, _ => .err _
  | p :: ps, L :: Ls, g :: gs, s, hn, h => by
    obtain ⟨h1, h2⟩ := List.cons.inj h
    obtain ⟨hn1, hn2⟩ := List.nodup_cons.1 hn
    unfold Net.hiddenUpdateWith NN.Net.hiddenUpdateWith NN.HLayer.updateWith
    rw [h1]
    show RelRes _ (L.updateWith g >>= _) ((L.toReal.updateWith g >>= _) >>= _)
    rw [real_updateWith]
    cases L.updateWith g with
    | error e => exact .err e
    | ok L' =>
      have ih := real_hiddenUpdateWith ps Ls gs (s.put p ⟨L'.toReal, .dense⟩) hn2 (Holds.put h2 hn1 _)
      show RelRes _ (Net.hiddenUpdateWith Ls gs >>= _) (NN.Net.hiddenUpdateWith ps gs (s.put p ⟨L'.toReal, .dense⟩))
      generalize Net.hiddenUpdateWith Ls gs = X at ih ⊢
      generalize NN.Net.hiddenUpdateWith ps gs (s.put p ⟨L'.toReal, .dense⟩) = Y at ih ⊢
      cases ih with
      | err e => exact .err e
      | ok ih =>
        obtain ⟨i2, i3⟩ := ih
        refine .ok ⟨i2.cons ?_, fun q hq => ?_⟩
        · rw [i3 p hn1]; exact if_pos rfl
        · rw [i3 q fun e => hq (List.mem_cons_of_mem _ e)]
          have hqp : q ≠ p := fun e => hq (e ▸ List.mem_cons_self)
          exact if_neg hqp

theorem out_forwardprop_costs {o o' : OutputLayer ℝ} {x r : Mat ℝ} (h : o.forwardprop x = .ok (r, o')) : o'.cost = o.cost ∧ o'.costd = o.costd := by
  unfold OutputLayer.forwardprop at h
  cases h4 : o.toLayer.forwardprop x with
  | error e => rw [h4] at h; cases h
  | ok v => rw [h4] at h; cases h; exact ⟨rfl, rfl⟩

theorem out_backprop_costs {o o' : OutputLayer ℝ} {y r : Mat ℝ} (h : o.backprop y = .ok (r, o')) : o'.cost = o.cost ∧ o'.costd = o.costd := by
  unfold OutputLayer.backprop at h
  cases h1 : o.costd y o.a o.z with
  | error e => rw [h1] at h; cases h
  | ok delta =>
    rw [h1] at h
    replace h : (mul o.pa.tr delta >>= _) = _ := h
    cases h2 : mul o.pa.tr delta with
    | error e => rw [h2] at h; cases h
    | ok g =>
      rw [h2] at h
      replace h : (Mat.zip _ g (smul o.lambda o.W) >>= _) = _ := h
      cases h3 : Mat.zip (· + ·) g (smul o.lambda o.W) with
      | error e => rw [h3] at h; cases h
      | ok g =>
        rw [h3] at h
        replace h : (mul delta o.W.tr >>= _) = _ := h
        cases h4 : mul delta o.W.tr with
        | error e => rw [h4] at h; cases h
        | ok p =>
          rw [h4] at h
          replace h : (p.shedCol0 >>= _) = _ := h
          cases h5 : p.shedCol0 with
          | error e => rw [h5] at h; cases h
          | ok p => rw [h5] at h; cases h; exact ⟨rfl, rfl⟩

/-- `NeuralNet::forwardprop`: same result or same failure, and the networks stay the same network. -/
theorem real_net_forwardprop (junk : Nat → Nat → ℝ) {s : Store} {n : NN.Net} {m : Net ℝ} (h : Is s n m) (x : Mat ℝ) :
    RelRes (fun (a : Mat ℝ × Net ℝ) (b : Mat ℝ × Store × NN.Net) => a.1 = b.1 ∧ Is b.2.1 b.2.2 a.2 ∧ b.2.2.result = a.1) (m.forwardprop x) (n.forwardprop junk s x) := by
  have hf := real_hiddenForward junk n.hidden m.hidden s x h.nodup h.hidden
  unfold Net.forwardprop NN.Net.forwardprop
  refine RelRes.bind hf ?_
  rintro ⟨c, Ls⟩ ⟨c', s'⟩ ⟨i1, i2, i3⟩
  dsimp only at i1 i2 i3 ⊢
  subst i1
  rw [h.output, real_out_forwardprop]
  cases h3 : m.output.forwardprop c with
  | error e => exact .err e
  | ok v => 
    obtain ⟨c1, c2⟩ := out_forwardprop_costs h3
    exact .ok ⟨rfl, ⟨h.nodup, i2, rfl, h.cost.trans c1.symm, h.costd.trans c2.symm⟩, rfl⟩

/-- `NeuralNet::backprop`. -/
theorem real_net_backprop (junk : Nat → Nat → ℝ) {s : Store} {n : NN.Net} {m : Net ℝ} (h : Is s n m) (y : Mat ℝ) :
    RelRes (fun (a : Net ℝ) (b : Store × NN.Net) => Is b.1 b.2 a ∧ b.2.result = n.result) (m.backprop y) (n.backprop junk s y) := by
  unfold Net.backprop NN.Net.backprop
  rw [h.output, real_out_backprop]
  cases h3 : m.output.backprop y with
  | error e => exact .err e
  | ok v =>
    obtain ⟨c1, c2⟩ := out_backprop_costs h3
    have hb := real_hiddenBackward junk n.hidden m.hidden s v.1 [] h.nodup h.hidden
    rw [List.append_nil] at hb
    show RelRes _ (Net.hiddenBackward m.hidden v.1 >>= _) (NN.Net.hiddenBackward junk n.hidden.reverse s v.1 >>= _)
    cases h4 : Net.hiddenBackward m.hidden v.1 with
    | error e =>
      rw [h4] at hb
      rw [show NN.Net.hiddenBackward junk n.hidden.reverse s v.1 = .error e from hb]
      exact .err e
    | ok w =>
      rw [h4] at hb
      obtain ⟨s', i1, _, i3⟩ := hb
      rw [i3]
      exact .ok ⟨⟨h.nodup, i1, rfl, h.cost.trans c1.symm, h.costd.trans c2.symm⟩, rfl⟩

/-- `NeuralNet::update()`. -/
theorem real_net_update {s : Store} {n : NN.Net} {m : Net ℝ} (h : Is s n m) :
    RelRes (fun (a : Net ℝ) (b : Store × NN.Net) => Is b.1 b.2 a ∧ b.2.result = n.result) m.update (n.update s) := by
  unfold Net.update NN.Net.update
  rw [h.output, show m.output.toReal.toLayer = m.output.toLayer.toReal from rfl, real_update]
  cases m.output.toLayer.update with
  | error e => exact .err e
  | ok L =>
    show RelRes _ (Net.hiddenUpdate m.hidden >>= _) (NN.Net.hiddenUpdate n.hidden s >>= _)
    refine RelRes.bind (real_hiddenUpdate n.hidden m.hidden s h.nodup h.hidden) ?_
    rintro Ls s' ⟨i1, _⟩
    exact .ok ⟨⟨h.nodup, i1, rfl, h.cost, h.costd⟩, rfl⟩

/-- `NeuralNet::update(ograd, hgrad)`. -/
theorem real_net_updateWith {s : Store} {n : NN.Net} {m : Net ℝ} (h : Is s n m) (og : Mat ℝ) (hg : List (Mat ℝ)) :
    RelRes (fun (a : Net ℝ) (b : Store × NN.Net) => Is b.1 b.2 a ∧ b.2.result = n.result) (m.updateWith og hg) (n.updateWith s og hg) := by
  unfold Net.updateWith NN.Net.updateWith
  rw [h.output, show m.output.toReal.toLayer = m.output.toLayer.toReal from rfl, real_updateWith]
  cases m.output.toLayer.updateWith og with
  | error e => exact .err e
  | ok L =>
    show RelRes _ (Net.hiddenUpdateWith m.hidden hg >>= _) (NN.Net.hiddenUpdateWith n.hidden hg s >>= _)
    refine RelRes.bind (real_hiddenUpdateWith n.hidden m.hidden hg s h.nodup h.hidden) ?_
    rintro Ls s' ⟨i1, _⟩
    exact .ok ⟨⟨h.nodup, i1, rfl, h.cost, h.costd⟩, rfl⟩

/-- `NeuralNet::predict`. -/
theorem real_net_predict (junk : Nat → Nat → ℝ) {s : Store} {n : NN.Net} {m : Net ℝ} (h : Is s n m) (x : Mat ℝ) :
    RelRes (fun (a : Mat ℝ × Net ℝ) (b : Mat ℝ × Store × NN.Net) => a.1 = b.1 ∧ Is b.2.1 b.2.2 a.2) (m.predict x) (n.predict junk s x) := by
  unfold Net.predict NN.Net.predict
  refine RelRes.bind (real_net_forwardprop junk h x) ?_
  rintro ⟨r, m'⟩ ⟨r', s', n'⟩ ⟨i1, i2, i3⟩
  dsimp only at i1 i2 i3 ⊢
  rw [i2.output, ← real_argmax]
  cases m'.output.argmax with
  | error e => exact .err e
  | ok v => exact .ok ⟨rfl, ⟨i2.nodup, i2.hidden, rfl, i2.cost, i2.costd⟩⟩

/-- `NeuralNet::computecost`. -/
theorem real_net_computecost {s : Store} {n : NN.Net} {m : Net ℝ} (h : Is s n m) (p y : Mat ℝ) : m.computecost p y = n.computecost p y := by
  unfold Net.computecost NN.Net.computecost
  rw [h.cost]
  cases m.output.cost y p with
  | error e => rfl
  | ok J => exact congrArg Except.ok (real_sumall J)

/-- One step of training. -/
theorem real_net_trainOn (junk : Nat → Nat → ℝ) {s : Store} {n : NN.Net} {m : Net ℝ} (h : Is s n m) (x y : Mat ℝ) :
    RelRes (fun (a : Net ℝ) (b : Store × NN.Net) => Is b.1 b.2 a) (m.trainOn x y) (n.trainOn junk s x y) := by
  unfold Net.trainOn NN.Net.trainOn
  refine RelRes.bind (real_net_forwardprop junk h x) ?_
  rintro ⟨r, m'⟩ ⟨r', s', n'⟩ ⟨_, i2, _⟩
  dsimp only at i2 ⊢
  refine RelRes.bind (real_net_backprop junk i2 y) ?_
  rintro m2 ⟨s2, n2⟩ ⟨j1, _⟩
  dsimp only at j1 ⊢
  have hu := real_net_update j1
  generalize m2.update = X at hu ⊢
  generalize n2.update s2 = Y at hu ⊢
  cases hu with
  | err e => exact .err e
  | ok hu => exact .ok hu.1

end
end Nnet.NN.Flt
