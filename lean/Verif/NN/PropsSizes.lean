import Verif.NN.PropsPerfect
/-!
# C67: wrong sizes are always reported by an exception
-/
namespace Nnet.NN
open Finset
noncomputable section

/-- The layers can be chained behind `p` values: each has one row more than the layer in front of it has units, and only the last may have no unit. -/
def Spec.Chains : Nat → List (Mat ℝ) → Prop
  | _, [] => True
  | p, W :: Ws => 0 < p ∧ W.nr = p + 1 ∧ Spec.Chains W.nc Ws

theorem layer_forward_throw {L : Layer} {x : Mat ℝ} (h : ¬ (0 < x.nr ∧ 0 < x.nc ∧ L.W.nr = x.nc + 1)) : L.forwardprop x = .error .throw := by
  unfold Layer.forwardprop
  by_cases h1 : 0 < x.nr ∧ 0 < x.nc
  · rw [addcol_ok h1.1 h1.2, ok_bind]
    unfold Mat.mul
    rw [if_neg (by simp only [Mat.of_nc]; intro he; exact h ⟨h1.1, h1.2, he.symm⟩)]
    rfl
  · rw [addcol_throw (by omega)]
    rfl

theorem chains_append {p : Nat} {W : Mat ℝ} : ∀ {Ws : List (Mat ℝ)} {p : Nat}, Spec.Chains p (Ws ++ [W]) → Spec.Chains p Ws
  | [], _, _ => trivial
  | _ :: _, _, h => ⟨h.1, h.2.1, chains_append (p := p) h.2.2⟩

/-- The forward loop over dense layers whose weights are given. -/
theorem hiddenForward_exact {junk : Nat → Nat → ℝ} {o : OutputLayer} : ∀ {ps : List Nat} {s t : Store} {x : Mat ℝ}, (∀ p ∈ ps, (t p).kind = .dense) → (∀ p, (t p).base.W = (s p).base.W) → 0 < x.nr →
    (Spec.Chains x.nc (ps.map (fun p => (s p).base.W) ++ [o.W]) → ∃ r t', Net.hiddenForward junk ps t x = .ok (r, t') ∧ 0 < r.nr ∧ 0 < r.nc ∧ o.W.nr = r.nc + 1) ∧
    (¬ Spec.Chains x.nc (ps.map (fun p => (s p).base.W) ++ [o.W]) → Net.hiddenForward junk ps t x = .error .throw ∨
      ∃ r t', Net.hiddenForward junk ps t x = .ok (r, t') ∧ ¬ (0 < r.nr ∧ 0 < r.nc ∧ o.W.nr = r.nc + 1))
  | [], s, t, x, _, _, hx => by
    refine ⟨fun h => ⟨x, t, rfl, hx, h.1, h.2.1⟩, fun h => Or.inr ⟨x, t, rfl, fun hn => h ⟨hn.2.1, hn.2.2, trivial⟩⟩⟩
  | p :: ps, s, t, x, hd, hW, hx => by
    have hstep : ∀ r L, (t p).base.forwardprop x = .ok (r, L) → Net.hiddenForward junk (p :: ps) t x = Net.hiddenForward junk ps (t.put p ⟨L, .dense⟩) r := by
      intro r L e
      conv_lhs => unfold Net.hiddenForward
      have : (t p).forwardprop junk x = .ok (r, ⟨L, .dense⟩) := by
        unfold HLayer.forwardprop
        rw [hd p (by simp)]
        simp only
        rw [e, ok_bind]
      rw [this, ok_bind]
    by_cases hc : 0 < x.nc ∧ (t p).base.W.nr = x.nc + 1
    · have e := Layer.forwardprop_ok (L := (t p).base) hx hc.1 hc.2
      rw [hstep _ _ e]
      obtain ⟨i1, i2⟩ := hiddenForward_exact (o := o) (junk := junk) (ps := ps) (s := s) (t := t.put p ⟨(t p).base.fwd x, .dense⟩) (x := ((t p).base.fwd x).a)
        (fun q hq => by
          by_cases hqp : q = p
          · rw [hqp, put_same]
          · rw [put_other hqp]; exact hd q (by simp [hq]))
        (fun q => by
          by_cases hqp : q = p
          · rw [hqp, put_same]; exact hW p
          · rw [put_other hqp]; exact hW q) hx
      have hn : ((t p).base.fwd x).a.nc = (s p).base.W.nc := by rw [← hW p]; rfl
      rw [hn] at i1 i2
      have hiff : Spec.Chains x.nc ((p :: ps).map (fun p => (s p).base.W) ++ [o.W]) ↔ Spec.Chains (s p).base.W.nc (ps.map (fun p => (s p).base.W) ++ [o.W]) := by
        simp only [List.map_cons, List.cons_append, Spec.Chains]
        rw [← hW p]
        exact ⟨fun h => h.2.2, fun h => ⟨hc.1, hc.2, h⟩⟩
      rw [hiff]
      exact ⟨i1, i2⟩
    · refine ⟨fun h => ?_, fun _ => Or.inl ?_⟩
      · simp only [List.map_cons, List.cons_append, Spec.Chains] at h
        rw [← hW p] at h
        exact absurd ⟨h.1, h.2.1⟩ hc
      · unfold Net.hiddenForward HLayer.forwardprop
        rw [hd p (by simp)]
        simp only
        rw [layer_forward_throw (fun h => hc ⟨h.2.1, h.2.2⟩)]
        rfl

/-- **C67** (forward). A network of dense layers of any sizes, whether or not they fit together: `forwardprop(x)` succeeds if `x` has a sample and the layers chain behind the width of `x`, and throws an
exception otherwise. The behaviour is never undefined. -/
theorem C67_forward {junk : Nat → Nat → ℝ} {s : Store} {n : Net} {x : Mat ℝ} (hd : ∀ p ∈ n.hidden, (s p).kind = .dense) :
    (0 < x.nr ∧ Spec.Chains x.nc (n.hidden.map (fun p => (s p).base.W) ++ [n.output.W]) → ∃ r s' n', n.forwardprop junk s x = .ok (r, s', n')) ∧
    (¬ (0 < x.nr ∧ Spec.Chains x.nc (n.hidden.map (fun p => (s p).base.W) ++ [n.output.W])) → n.forwardprop junk s x = .error .throw) := by
  constructor
  · rintro ⟨hr, hc⟩
    obtain ⟨r, t, e, h1, h2, h3⟩ := (hiddenForward_exact (junk := junk) (o := n.output) (s := s) (t := s) (x := x) hd (fun _ => rfl) hr).1 hc
    unfold Net.forwardprop InputLayer.forwardprop
    simp only
    rw [e, ok_bind]
    simp only
    rw [OutputLayer.forwardprop_ok h1 h2 h3, ok_bind]
    exact ⟨_, _, _, rfl⟩
  · intro hn
    have hout : ∀ {r : Mat ℝ}, ¬ (0 < r.nr ∧ 0 < r.nc ∧ n.output.W.nr = r.nc + 1) → n.output.forwardprop r = .error .throw := by
      intro r h
      unfold OutputLayer.forwardprop
      rw [layer_forward_throw h]
      rfl
    unfold Net.forwardprop InputLayer.forwardprop
    simp only
    by_cases hr : 0 < x.nr
    · rcases (hiddenForward_exact (junk := junk) (o := n.output) (s := s) (t := s) (x := x) hd (fun _ => rfl) hr).2 (fun hc => hn ⟨hr, hc⟩) with e | ⟨r, t, e, h⟩
      · rw [e]; rfl
      · rw [e, ok_bind]
        simp only
        rw [hout h]
        rfl
    · cases hp : n.hidden with
      | nil =>
        show (do let (result, output) ← n.output.forwardprop x; _) = _
        rw [hout (fun h => hr h.1)]
        rfl
      | cons p ps =>
        unfold Net.hiddenForward HLayer.forwardprop
        rw [hd p (by rw [hp]; simp)]
        simp only
        rw [layer_forward_throw (fun h => hr h.1)]
        rfl

theorem chains_of_fits : ∀ {Ws : List (Mat ℝ)} {p q r : Nat}, 0 < p → Spec.Fits p Ws q → (Spec.Chains r Ws ↔ Ws = [] ∨ r = p)
  | [], _, _, _, _, _ => by simp [Spec.Chains]
  | W :: Ws, p, q, r, hp, h => by
    have ih := chains_of_fits (r := W.nc) h.2.1 h.2.2
    simp only [Spec.Chains, ih, or_true, and_true]
    constructor
    · intro h1; right; have := h.1; omega
    · rintro (h1 | rfl)
      · cases h1
      · exact ⟨hp, h.1⟩

/-- **C67** (forward, well-formed networks). `forwardprop` and `predict` of a network with `p` inputs succeed for every matrix with `p` columns and at least one row, and throw for every other matrix. -/
theorem C67_input {junk : Nat → Nat → ℝ} {s : Store} {n : Net} {p q : Nat} (h : n.WF s p q) (x : Mat ℝ) :
    ((0 < x.nr ∧ x.nc = p) → (∃ r s' n', n.forwardprop junk s x = .ok (r, s', n')) ∧ ∃ r s' n', n.predict junk s x = .ok (r, s', n')) ∧
    (¬ (0 < x.nr ∧ x.nc = p) → n.forwardprop junk s x = .error .throw ∧ n.predict junk s x = .error .throw) := by
  have hiff : Spec.Chains x.nc (n.hidden.map (fun p => (s p).base.W) ++ [n.output.W]) ↔ x.nc = p := by
    have hl : (n.layers s).map (·.W) = n.hidden.map (fun p => (s p).base.W) ++ [n.output.W] := by
      unfold Net.layers Net.hiddenLayers
      rw [List.map_append, List.map_map]
      rfl
    have := chains_of_fits (r := x.nc) h.pos h.fits
    rw [hl] at this
    rw [this]
    simp
  have hf := C67_forward (junk := junk) (x := x) h.dense
  rw [hiff] at hf
  refine ⟨fun hx => ⟨hf.1 hx, ?_⟩, fun hx => ⟨hf.2 hx, ?_⟩⟩
  · obtain ⟨s', n', e, -, -, h4, -⟩ := Net.forwardprop_ok (junk := junk) h hx.1 hx.2
    obtain ⟨d1, d2⟩ := outL_dims (Ls := n.layers s) (x := x) (q := q) (by rw [hx.2]; exact h.fits)
    unfold Net.predict
    rw [e, ok_bind]
    simp only
    obtain ⟨am, ha, -⟩ := argmax_ok (o := n'.output) (by rw [h4, d2]; exact fits_pos h.pos h.fits)
    rw [ha, ok_bind]
    exact ⟨_, _, _, rfl⟩
  · unfold Net.predict
    rw [hf.2 hx]
    rfl

theorem zip_throw {g : ℝ → ℝ → ℝ} {a b : Mat ℝ} (h : ¬ (a.nr = b.nr ∧ a.nc = b.nc)) : Mat.zip g a b = .error .throw := if_neg h

/-- A derivative of a cost throws for a label of another size than the prediction. -/
def CostdThrows (costd : MatFuncD) : Prop := ∀ y a z : Mat ℝ, ¬ (y.nr = a.nr ∧ y.nc = a.nc) → costd y a z = .error .throw

theorem softmax_prob_throw {c : Nat} {h : Mat ℝ} (hc : c ≠ h.nc) : Softmax.prob c h = .error .throw := by
  unfold Softmax.prob repeatM
  simp only
  rw [if_pos (by omega), ok_bind]
  refine zip_throw fun hz => ?_
  have h2 := hz.2
  have e1 : (exponential h).nc = h.nc := rfl
  have e2 : (((rowsum (exponential h)).repmat (1 : Int).toNat (c : Int).toNat).map (fun v => 1 / v)).nc = c := by
    show (rowsum (exponential h)).nc * c = c
    show 1 * c = c
    omega
  exact hc (by rw [← e2, ← h2, e1])

theorem library_costd_throws : CostdThrows Quadratic.costd ∧ CostdThrows CrossEntropy.costd ∧ CostdThrows Softmax.costd ∧ CostdThrows KullbackLeibler.costd := by
  have hdiff : ∀ y a : Mat ℝ, ¬ (y.nr = a.nr ∧ y.nc = a.nc) → (do let d ← a.sub y; .ok (d.divS y.nr) : Res (Mat ℝ)) = .error .throw := by
    intro y a h
    rw [show a.sub y = .error .throw from zip_throw fun hz => h ⟨hz.1.symm, hz.2.symm⟩]
    rfl
  refine ⟨fun y a z h => hdiff y a h, fun y a z h => hdiff y a h, fun y a z h => ?_, fun y a z h => ?_⟩
  · unfold Softmax.costd
    by_cases hc : y.nc = a.nc
    · rw [softmax_prob hc.symm, ok_bind, show (Mat.of a.nr a.nc (Spec.softmaxAt a)).sub y = .error .throw from zip_throw fun hz => h ⟨hz.1.symm, hz.2.symm⟩]
      rfl
    · rw [softmax_prob_throw hc]
      rfl
  · unfold KullbackLeibler.costd
    rw [show y.ediv a = .error .throw from zip_throw h]
    rfl

/-- The library's output layers. -/
def Spec.LibraryCostd (costd : MatFuncD) : Prop := costd = Quadratic.costd ∨ costd = CrossEntropy.costd ∨ costd = Softmax.costd ∨ costd = KullbackLeibler.costd

theorem library_cases {costd : MatFuncD} (h : Spec.LibraryCostd costd) : CostdThrows costd ∧ OutputLayer.DeltaOK costd := by
  rcases h with rfl | rfl | rfl | rfl
  exacts [⟨library_costd_throws.1, C54_costs.1⟩, ⟨library_costd_throws.2.1, C54_costs.2.1⟩, ⟨library_costd_throws.2.2.1, C54_costs.2.2.1⟩, ⟨library_costd_throws.2.2.2, C54_costs.2.2.2⟩]

/-- **C67** (labels). After a successful `forwardprop(x)` of a well-formed network with one of the library's outputs, `backprop(y)` succeeds if `y` has a row for every sample and a column for every
output, and throws for every other `y`. -/
theorem C67_label {junk : Nat → Nat → ℝ} {s s1 : Store} {n n1 : Net} {p q : Nat} {x out : Mat ℝ} (h : n.WF s p q) (hl : Spec.LibraryCostd n.output.costd)
    (hf : n.forwardprop junk s x = .ok (out, s1, n1)) (y : Mat ℝ) :
    ((y.nr = x.nr ∧ y.nc = q) → ∃ s2 n2, n1.backprop junk s1 y = .ok (s2, n2)) ∧ (¬ (y.nr = x.nr ∧ y.nc = q) → n1.backprop junk s1 y = .error .throw) := by
  have hx : 0 < x.nr ∧ x.nc = p := by
    by_contra hx
    rw [((C67_input (junk := junk) h x).2 hx).1] at hf
    cases hf
  obtain ⟨t1, m1, e1, b1, -, ha, -⟩ := Net.forwardprop_ok (junk := junk) h hx.1 hx.2
  rw [hf] at e1
  cases e1
  obtain ⟨d1, d2⟩ := outL_dims (Ls := n.layers s) (x := x) (q := q) (by rw [hx.2]; exact h.fits)
  obtain ⟨hc1, hc2⟩ := library_cases hl
  constructor
  · rintro ⟨hy1, hy2⟩
    have hz := outputZ_dims h hx.2
    obtain ⟨D, hD, k1, k2⟩ := hc2 y (outL (n.layers s) x) (n.outputZ s x) (by omega) (by omega) (by omega) (by omega)
    rw [outL_layers] at hD
    obtain ⟨t2, m2, t3, m3, f1, f2, -⟩ := passes_ok (junk := junk) h hx.1 hx.2 (y := y) (D := D) hD (by omega) (by omega)
    rw [hf] at f1
    cases f1
    exact ⟨_, _, f2⟩
  · intro hy
    unfold Net.backprop OutputLayer.backprop
    rw [b1.conf.ocostd, hc1 y n1.output.a n1.output.z (by rw [ha, d1, d2]; exact hy)]
    rfl

/-- **C67** (training). One training step on samples `x` with labels `y` succeeds if the sizes are right, and throws in every other case. -/
theorem C67_training {junk : Nat → Nat → ℝ} {s : Store} {n : Net} {p q : Nat} (h : n.WF s p q) (hl : Spec.LibraryCostd n.output.costd) (x y : Mat ℝ) :
    ((0 < x.nr ∧ x.nc = p ∧ y.nr = x.nr ∧ y.nc = q) → ∃ s' n', n.trainOn junk s x y = .ok (s', n')) ∧
    (¬ (0 < x.nr ∧ x.nc = p ∧ y.nr = x.nr ∧ y.nc = q) → n.trainOn junk s x y = .error .throw) := by
  constructor
  · rintro ⟨h1, h2, h3, h4⟩
    have hz := outputZ_dims h h2
    obtain ⟨d1, d2⟩ := outL_dims (Ls := n.layers s) (x := x) (q := q) (by rw [h2]; exact h.fits)
    obtain ⟨D, hD, k1, k2⟩ := (library_cases hl).2 y (outL (n.layers s) x) (n.outputZ s x) (by omega) (by omega) (by omega) (by omega)
    obtain ⟨s', n', e, -⟩ := trainOn_delta (junk := junk) h h1 h2 hD (by omega) (by omega)
    exact ⟨s', n', e⟩
  · intro hn
    unfold Net.trainOn
    by_cases hx : 0 < x.nr ∧ x.nc = p
    · obtain ⟨s1, n1, e1, -⟩ := Net.forwardprop_ok (junk := junk) h hx.1 hx.2
      rw [e1, ok_bind]
      simp only
      rw [(C67_label h hl e1 y).2 (fun hy => hn ⟨hx.1, hx.2, hy.1, hy.2⟩)]
      rfl
    · rw [((C67_input (junk := junk) h x).2 hx).1]
      rfl

/-- **C67** (cost). `computecost(pred, y)` with one of the library's cost functions succeeds for matrices of the same size and throws for all others. -/
theorem C67_cost {n : Net} (hc : n.cost = Quadratic.cost ∨ n.cost = CrossEntropy.cost ∨ n.cost = Softmax.cost ∨ n.cost = KullbackLeibler.cost) (pred y : Mat ℝ) :
    ((pred.nr = y.nr ∧ pred.nc = y.nc) → ∃ c, n.computecost pred y = .ok c) ∧ (¬ (pred.nr = y.nr ∧ pred.nc = y.nc) → n.computecost pred y = .error .throw) := by
  unfold Net.computecost
  constructor
  · rintro ⟨h1, h2⟩
    have : ∃ M, n.cost y pred = .ok M := by
      rcases hc with e | e | e | e <;> rw [e]
      · exact ⟨_, quadratic_cost h1.symm h2.symm⟩
      · unfold CrossEntropy.cost
        rw [Mat.schur_ok (by exact h1.symm) (by exact h2.symm), ok_bind, Mat.schur_ok (by exact h1.symm) (by exact h2.symm), ok_bind, Mat.add_ok (by rfl) (by rfl), ok_bind]
        exact ⟨_, rfl⟩
      · unfold Softmax.cost
        rw [softmax_prob h2, ok_bind, Mat.schur_ok (by exact h1.symm) (by exact h2.symm), ok_bind]
        exact ⟨_, rfl⟩
      · unfold KullbackLeibler.cost
        rw [Mat.ediv_ok h1.symm h2.symm, ok_bind, Mat.schur_ok (by rfl) (by rfl), ok_bind]
        exact ⟨_, rfl⟩
    obtain ⟨M, hM⟩ := this
    rw [hM, ok_bind]
    exact ⟨_, rfl⟩
  · intro hn
    have hyp : ¬ (y.nr = pred.nr ∧ y.nc = pred.nc) := fun h => hn ⟨h.1.symm, h.2.symm⟩
    have : n.cost y pred = .error .throw := by
      rcases hc with e | e | e | e <;> rw [e]
      · unfold Quadratic.cost
        rw [show y.sub pred = .error .throw from zip_throw hyp]
        rfl
      · unfold CrossEntropy.cost
        rw [show y.schur (logorithm pred) = .error .throw from zip_throw hyp]
        rfl
      · unfold Softmax.cost
        by_cases hcc : y.nc = pred.nc
        · rw [softmax_prob hcc.symm, ok_bind, show y.schur (logorithm (Mat.of pred.nr pred.nc (Spec.softmaxAt pred))) = .error .throw from zip_throw hyp]
          rfl
        · rw [softmax_prob_throw hcc]
          rfl
      · unfold KullbackLeibler.cost
        rw [show y.ediv pred = .error .throw from zip_throw hyp]
        rfl
    rw [this]
    rfl

/-! Networks whose layers do not fit: a hidden layer with 3 units behind 2 inputs, and an output layer for 4 units. No input works. -/
example (x : Mat ℝ) (junk : Nat → Nat → ℝ) : ({ exNet with output := { exNet.output with W := Mat.of 5 2 (fun _ _ => 1) } } : Net).forwardprop junk exStore x = .error .throw := by
  refine (C67_forward (x := x) (fun _ _ => rfl)).2 fun h => ?_
  have := h.2.2.2.2.1
  simp [exStore, exLayer] at this

/-- **C67** (element access). Reading or writing the element in row `i` and column `j` succeeds exactly if there is such an element, and throws otherwise; writing changes that element and no other. -/
theorem C67_access (m : Mat ℝ) (i j : Int) (v : ℝ) :
    ((0 ≤ i ∧ i < m.nr ∧ 0 ≤ j ∧ j < m.nc) → m.at' i j = .ok (m.f i.toNat j.toNat) ∧ ∃ m', m.setAt i j v = .ok m' ∧ m'.nr = m.nr ∧ m'.nc = m.nc ∧ m'.f i.toNat j.toNat = v ∧
      ∀ a b : Nat, ((a : Int) ≠ i ∨ (b : Int) ≠ j) → m'.f a b = m.f a b) ∧
    (¬ (0 ≤ i ∧ i < m.nr ∧ 0 ≤ j ∧ j < m.nc) → m.at' i j = .error .throw ∧ m.setAt i j v = .error .throw) := by
  refine ⟨fun h => ⟨if_pos (by omega), _, if_pos (by omega), rfl, rfl, ?_, fun a b hab => ?_⟩, fun h => ⟨if_neg (by omega), if_neg (by omega)⟩⟩
  · rw [Mat.of_f' (by omega) (by omega), if_pos ⟨rfl, rfl⟩]
  · by_cases hi : a < m.nr ∧ b < m.nc
    · rw [Mat.of_f' hi.1 hi.2, if_neg (by omega)]
    · rw [Mat.out _ a b (by show ¬ (a < m.nr ∧ b < m.nc); exact hi), Mat.out _ a b hi]

/-- **C67** (parts of a matrix). Taking rows or columns or a rectangle of a matrix succeeds exactly if the part is not empty and lies inside, and throws otherwise. -/
theorem C67_parts (m : Mat ℝ) (a b c d : Int) :
    ((∃ r, m.submat a b c d = .ok r) ↔ (0 ≤ a ∧ a ≤ c ∧ c < m.nr) ∧ 0 ≤ b ∧ b ≤ d ∧ d < m.nc) ∧
    ((∃ r, m.rows a c = .ok r) ↔ 0 ≤ a ∧ a ≤ c ∧ c < m.nr) ∧ ((∃ r, m.row a = .ok r) ↔ 0 ≤ a ∧ a < m.nr) ∧ ((∃ r, m.cols b d = .ok r) ↔ 0 ≤ b ∧ b ≤ d ∧ d < m.nc) ∧
    (∀ e, m.submat a b c d = .error e ∨ m.rows a c = .error e ∨ m.row a = .error e ∨ m.cols b d = .error e → e = .throw) := by
  have key : ∀ (P : Prop) [Decidable P] (t : Mat ℝ), ((∃ r, (if P then .ok t else .error .throw : Res (Mat ℝ)) = .ok r) ↔ P) ∧
      ∀ e, (if P then .ok t else .error .throw : Res (Mat ℝ)) = .error e → e = .throw := by
    intro P _ t
    by_cases h : P
    · rw [if_pos h]
      exact ⟨⟨fun _ => h, fun _ => ⟨t, rfl⟩⟩, fun e he => by cases he⟩
    · rw [if_neg h]
      exact ⟨⟨(fun ⟨r, hr⟩ => by cases hr), fun q => absurd q h⟩, fun e he => by cases he; rfl⟩
  refine ⟨(key _ _).1.trans ?_, (key _ _).1, (key _ _).1, (key _ _).1, fun e h => ?_⟩
  · unfold Mat.InView
    omega
  · rcases h with h | h | h | h <;> exact (key _ _).2 e h

/-- Both cases occur: a 2 x 3 matrix has no third row. -/
example : (Mat.of 2 3 (fun _ _ => (1 : ℝ))).at' 2 0 = .error .throw := ((C67_access _ 2 0 0).2 (fun h => by have : (2 : Int) < 2 := h.2.1; omega)).1

end
end Nnet.NN
