import Verif.NN.NetLemmas
/-!
# What the network functions compute: whole networks
-/
namespace Nnet.NN
open Finset
noncomputable section

theorem outL_append (As : List Layer) : ∀ (Ls : List Layer) (x : Mat ℝ), outL (Ls ++ As) x = outL As (outL Ls x)
  | [], _ => rfl
  | L :: Ls, x => outL_append As Ls (L.fwd x).a

theorem fwdL_append (As : List Layer) : ∀ (Ls : List Layer) (x : Mat ℝ), fwdL (Ls ++ As) x = fwdL Ls x ++ fwdL As (outL Ls x)
  | [], _ => rfl
  | L :: Ls, x => by
    show L.fwd x :: fwdL (Ls ++ As) (L.fwd x).a = L.fwd x :: (fwdL Ls (L.fwd x).a ++ fwdL As (outL Ls (L.fwd x).a))
    rw [fwdL_append As Ls]

theorem fwdL_W : ∀ (Ls : List Layer) (x : Mat ℝ), (fwdL Ls x).map (·.W) = Ls.map (·.W)
  | [], _ => rfl
  | L :: Ls, x => by
    show (L.fwd x).W :: (fwdL Ls (L.fwd x).a).map (·.W) = L.W :: Ls.map (·.W)
    rw [fwdL_W Ls]; rfl

theorem bwdL_W : ∀ (Ls : List Layer) (d : Mat ℝ), (bwdL Ls d).1.map (·.W) = Ls.map (·.W)
  | [], _ => rfl
  | L :: Ls, d => by
    show (L.bwd _).W :: ((bwdL Ls d).1).map (·.W) = L.W :: Ls.map (·.W)
    rw [bwdL_W Ls]; rfl

theorem fits_append {Bs : List (Mat ℝ)} {q : Nat} : ∀ {As : List (Mat ℝ)} {p : Nat},
    Spec.Fits p (As ++ Bs) q ↔ ∃ r, Spec.Fits p As r ∧ Spec.Fits r Bs q
  | [], p => by simp [Spec.Fits]
  | A :: As, p => by
    simp only [List.cons_append, Spec.Fits, fits_append (As := As)]
    constructor
    · rintro ⟨h1, h2, r, h3, h4⟩; exact ⟨r, ⟨h1, h2, h3⟩, h4⟩
    · rintro ⟨r, ⟨h1, h2, h3⟩, h4⟩; exact ⟨h1, h2, r, h3, h4⟩

theorem fits_pos : ∀ {As : List (Mat ℝ)} {p q : Nat}, 0 < p → Spec.Fits p As q → 0 < q
  | [], p, q, hp, h => by simp only [Spec.Fits] at h; omega
  | A :: As, p, q, hp, h => fits_pos h.2.1 h.2.2

theorem outL_dims : ∀ {Ls : List Layer} {x : Mat ℝ} {q : Nat}, Spec.Fits x.nc (Ls.map (·.W)) q →
    (outL Ls x).nr = x.nr ∧ (outL Ls x).nc = q
  | [], x, q, h => by simp only [List.map_nil, Spec.Fits] at h; exact ⟨rfl, h⟩
  | L :: Ls, x, q, h => by
    simp only [List.map_cons, Spec.Fits] at h
    exact outL_dims (x := (L.fwd x).a) h.2.2

theorem fwdL_cached : ∀ {Ls : List Layer} {x : Mat ℝ} {q : Nat}, Spec.Fits x.nc (Ls.map (·.W)) q → CachedL (fwdL Ls x) x.nr
  | [], x, q, h => by intro L hL; cases hL
  | L :: Ls, x, q, h => by
    simp only [List.map_cons, Spec.Fits] at h
    intro M hM
    rcases List.mem_cons.1 hM with rfl | hM
    · exact Layer.fwd_cached h.1
    · exact fwdL_cached (x := (L.fwd x).a) h.2.2 M hM

/-- The pure forward pass is the specified one. -/
theorem outL_eq_denseNet : ∀ (Ls : List Layer) (x : Mat ℝ),
    outL Ls x = Spec.denseNet (Ls.map (fun L => (L.actfunc.act, L.W))) x
  | [], _ => rfl
  | L :: Ls, x => by
    show outL Ls (L.fwd x).a = Spec.denseNet _ (Spec.dense L.actfunc.act L.W x)
    rw [outL_eq_denseNet Ls, Layer.fwd_a]

/-- Two states of a network that use the same layer objects and cost functions. -/
structure Net.SameConf (n n' : Net) : Prop where
  hidden : n'.hidden = n.hidden
  cost : n'.cost = n.cost
  costd : n'.costd = n.costd
  ocost : n'.output.cost = n.output.cost
  ocostd : n'.output.costd = n.output.costd

theorem Net.SameConf.rfl {n : Net} : n.SameConf n := ⟨.refl _, .refl _, .refl _, .refl _, .refl _⟩
theorem Net.SameConf.trans {a b c : Net} (h : a.SameConf b) (h' : b.SameConf c) : a.SameConf c :=
  ⟨h'.1.trans h.1, h'.2.trans h.2, h'.3.trans h.3, h'.4.trans h.4, h'.5.trans h.5⟩

/-- A state `(s', n')` reached from `(s, n)` that holds the dense layers `Ls'` in place of the former ones and leaves layers of other networks
alone. -/
structure Net.Becomes (s : Store) (n : Net) (s' : Store) (n' : Net) (Ls' : List Layer) : Prop where
  conf : n.SameConf n'
  layers : n'.layers s' = Ls'
  dense : ∀ id ∈ n.hidden, (s' id).kind = .dense
  frame : ∀ r, r ∉ n.hidden → s' r = s r

theorem Net.Becomes.wf {s s' : Store} {n n' : Net} {Ls : List Layer} {p q : Nat} (h : Net.Becomes s n s' n' Ls) (hw : n.WF s p q)
    (hf : Spec.Fits p (Ls.map (·.W)) q) : n'.WF s' p q :=
  ⟨by rw [h.conf.hidden]; exact hw.nodup, by rw [h.conf.hidden]; exact h.dense, hw.pos, by rw [h.layers]; exact hf⟩

theorem Net.Becomes.trans {s s' s'' : Store} {n n' n'' : Net} {Ls Ls' : List Layer} (h : Net.Becomes s n s' n' Ls)
    (h' : Net.Becomes s' n' s'' n'' Ls') : Net.Becomes s n s'' n'' Ls' :=
  ⟨h.conf.trans h'.conf, h'.layers, fun id hid => h'.dense id (by rw [h.conf.hidden]; exact hid),
    fun r hr => by rw [h'.frame r (by rw [h.conf.hidden]; exact hr), h.frame r hr]⟩

theorem Net.Becomes.refl {s : Store} {n : Net} {p q : Nat} (h : n.WF s p q) : Net.Becomes s n s n (n.layers s) :=
  ⟨.rfl, rfl, h.dense, fun _ _ => rfl⟩

/-- `NeuralNet::forwardprop` on a well-formed dense network. -/
theorem Net.forwardprop_ok {junk : Nat → Nat → ℝ} {s : Store} {n : Net} {p q : Nat} {x : Mat ℝ} (h : n.WF s p q) (hr : 0 < x.nr)
    (hc : x.nc = p) : ∃ s' n', n.forwardprop junk s x = .ok (outL (n.layers s) x, s', n') ∧
      Net.Becomes s n s' n' (fwdL (n.layers s) x) ∧ n'.result = outL (n.layers s) x ∧ n'.output.a = outL (n.layers s) x ∧
      n'.input = { n.input with z := x, a := x } ∧ n'.output.y = n.output.y := by
  subst hc
  have hf := h.fits
  unfold Net.layers at hf
  rw [List.map_append, fits_append] at hf
  obtain ⟨r, hf1, hf2⟩ := hf
  simp only [List.map_cons, List.map_nil, Spec.Fits] at hf2
  obtain ⟨s', e, h1, h2, h3, h4, h5⟩ := hiddenForward_ok (junk := junk) (x := x) h.nodup (Ls := n.hiddenLayers s) (holds_of_dense h.dense) hr h.pos hf1
  have ho := OutputLayer.forwardprop_ok (o := n.output) (x := outL (n.hiddenLayers s) x) (by rw [h3]; exact hr)
    (by rw [h4]; exact h5) (by rw [h4]; exact hf2.1)
  let o' : OutputLayer := { n.output with toLayer := n.output.toLayer.fwd (outL (n.hiddenLayers s) x) }
  refine ⟨s', { n with input := { n.input with z := x, a := x }, output := o', result := o'.a }, ?_, ⟨⟨rfl, rfl, rfl, rfl, rfl⟩, ?_, h1.dense, h2⟩, ?_, ?_, rfl, rfl⟩
  · unfold Net.forwardprop InputLayer.forwardprop
    simp only
    rw [e, ok_bind]
    simp only
    rw [ho, ok_bind]
    simp only [Net.layers, outL_append]
    rfl
  · show List.map _ _ ++ [_] = _
    rw [Net.layers, fwdL_append, h1.bases]
    rfl
  · rw [Net.layers, outL_append]; rfl
  · rw [Net.layers, outL_append]; rfl

/-- `costd` of the output layer accepts matching sizes and returns a matrix of that size. -/
def OutputLayer.DeltaOK (costd : MatFuncD) : Prop :=
  ∀ y a z : Mat ℝ, a.nr = y.nr → a.nc = y.nc → z.nr = y.nr → z.nc = y.nc →
    ∃ D, costd y a z = .ok D ∧ D.nr = y.nr ∧ D.nc = y.nc

/-- Layers of a network after the backward pass, given the derivative `D` of the cost at the output. -/
def bwdNet (hs : List Layer) (o : Layer) (D : Mat ℝ) : List Layer :=
  (bwdL hs (Layer.backOf D o.W)).1 ++ [{ o with delta := D, grad := o.regGrad D }]

/-- `NeuralNet::backprop` on a well-formed dense network whose caches come from a forward pass with as many samples. -/
theorem Net.backprop_ok {junk : Nat → Nat → ℝ} {s : Store} {n : Net} {p q : Nat} {y D : Mat ℝ} (h : n.WF s p q)
    (hca : CachedL (n.layers s) y.nr) (hr : 0 < y.nr) (hD : n.output.costd y n.output.a n.output.z = .ok D)
    (hD1 : D.nr = y.nr) (hD2 : D.nc = q) :
    ∃ s' n', n.backprop junk s y = .ok (s', n') ∧
      Net.Becomes s n s' n' (bwdNet (n.hiddenLayers s) n.output.toLayer D) ∧ n'.result = n.result ∧ n'.input = n.input ∧
      n'.output.a = n.output.a ∧ n'.output.y = y := by
  have hf := h.fits
  unfold Net.layers at hf
  rw [List.map_append, fits_append] at hf
  obtain ⟨r, hf1, hf2⟩ := hf
  simp only [List.map_cons, List.map_nil, Spec.Fits] at hf2
  have hco : n.output.toLayer.Cached y.nr := hca _ (by simp [Net.layers])
  have ho := OutputLayer.backprop_ok (o := n.output) hco (by omega) hD hD1 (by rw [hD2, hf2.2.2])
  have hq : n.output.W.nr - 1 = r := by omega
  obtain ⟨s', e, h1, h2⟩ := bwGo_ok (junk := junk) (m := y.nr) (q := r) (d := Layer.backOf D n.output.W) hr hD1 hq h.nodup
    (holds_of_dense h.dense) (fun L hL => hca L (by simp only [Net.layers, List.mem_append]; exact Or.inl hL)) h.pos hf1
  refine ⟨s', { n with output := n.output.bwd y D }, ?_, ⟨⟨rfl, rfl, rfl, rfl, rfl⟩, ?_, h1.dense, h2⟩, rfl, rfl, rfl, rfl⟩
  · unfold Net.backprop
    rw [ho, ok_bind]
    simp only
    rw [hiddenBackward_eq, e, ok_bind, ok_bind]
  · show List.map _ _ ++ [_] = _
    rw [h1.bases]
    rfl

/-- A layer after `update()`. -/
def Layer.upd (L : Layer) : Layer := { L with W := Mat.of L.W.nr L.W.nc (fun i j => L.W.f i j - L.lrate * L.grad.f i j) }

/-- A layer after `update(g)`. -/
def Layer.updWith (L : Layer) (g : Mat ℝ) : Layer := { L with W := Mat.of L.W.nr L.W.nc (fun i j => L.W.f i j - L.lrate * g.f i j) }

/-- The gradient has the size of the weights. -/
def Layer.GradOK (L : Layer) : Prop := L.grad.nr = L.W.nr ∧ L.grad.nc = L.W.nc

theorem Layer.updateWith_ok {L : Layer} {g : Mat ℝ} (h1 : g.nr = L.W.nr) (h2 : g.nc = L.W.nc) : L.updateWith g = .ok (L.updWith g) := by
  unfold Layer.updateWith
  rw [Mat.sub_ok (by simp [h1]) (by simp [h2])]
  simp only [Mat.smul_f, ok_bind]
  rfl

theorem Layer.update_ok {L : Layer} (h : L.GradOK) : L.update = .ok L.upd := Layer.updateWith_ok (L := L) h.1 h.2

theorem hiddenUpdate_ok : ∀ {ps : List Nat} {s : Store} {Ls : List Layer}, ps.Nodup → Holds s ps Ls → (∀ L ∈ Ls, L.GradOK) →
    ∃ s', Net.hiddenUpdate ps s = .ok s' ∧ Holds s' ps (Ls.map Layer.upd) ∧ (∀ r, r ∉ ps → s' r = s r)
  | [], s, Ls, _, hh, _ => by
    have : Ls = [] := by
      unfold Holds at hh
      cases Ls <;> simp_all
    subst this
    exact ⟨s, rfl, rfl, fun _ _ => rfl⟩
  | p :: ps, s, Ls, hn, hh, hg => by
    obtain ⟨L, Ls', rfl, hp, hps⟩ := hh.cons_inv
    rw [List.nodup_cons] at hn
    obtain ⟨s', e, h1, h2⟩ := hiddenUpdate_ok hn.2 (hps.put (v := ⟨L.upd, .dense⟩) hn.1) (fun L hL => hg L (List.mem_cons_of_mem _ hL))
    refine ⟨s', ?_, ?_, ?_⟩
    · unfold Net.hiddenUpdate HLayer.update
      rw [hp]
      simp only
      rw [Layer.update_ok (hg L (by simp)), ok_bind, ok_bind]
      exact e
    · refine Holds.cons ?_ h1
      rw [h2 p hn.1, put_same]
    · intro r hr'
      simp only [List.mem_cons, not_or] at hr'
      rw [h2 r hr'.2, put_other hr'.1]

theorem Net.update_ok {s : Store} {n : Net} {p q : Nat} (h : n.WF s p q) (hg : ∀ L ∈ n.layers s, L.GradOK) :
    ∃ s' n', n.update s = .ok (s', n') ∧ Net.Becomes s n s' n' ((n.layers s).map Layer.upd) ∧ n'.result = n.result ∧
      n'.input = n.input ∧ n'.output = { n.output with toLayer := n.output.toLayer.upd } := by
  obtain ⟨s', e, h1, h2⟩ := hiddenUpdate_ok h.nodup (holds_of_dense h.dense)
    (fun L hL => hg L (by simp only [Net.layers, List.mem_append]; exact Or.inl hL))
  refine ⟨s', { n with output := { n.output with toLayer := n.output.toLayer.upd } }, ?_,
    ⟨⟨rfl, rfl, rfl, rfl, rfl⟩, ?_, h1.dense, h2⟩, rfl, rfl, rfl⟩
  · unfold Net.update
    rw [Layer.update_ok (hg _ (by simp [Net.layers])), ok_bind, e, ok_bind]
  · show List.map _ _ ++ [_] = _
    rw [h1.bases, Net.layers, List.map_append]
    rfl

/-- Pairing of layers with gradients of the right sizes. -/
def GradsFit : List Layer → List (Mat ℝ) → Prop
  | [], _ => True
  | L :: Ls, g :: gs => g.nr = L.W.nr ∧ g.nc = L.W.nc ∧ GradsFit Ls gs
  | _ :: _, [] => False

theorem hiddenUpdateWith_ok : ∀ {ps : List Nat} {s : Store} {Ls : List Layer} {gs : List (Mat ℝ)}, ps.Nodup → Holds s ps Ls →
    GradsFit Ls gs → ∃ s', Net.hiddenUpdateWith ps gs s = .ok s' ∧ Holds s' ps (List.zipWith Layer.updWith Ls gs) ∧
      (∀ r, r ∉ ps → s' r = s r)
  | [], s, Ls, gs, _, hh, _ => by
    have : Ls = [] := by
      unfold Holds at hh
      cases Ls <;> simp_all
    subst this
    exact ⟨s, rfl, rfl, fun _ _ => rfl⟩
  | p :: ps, s, Ls, gs, hn, hh, hg => by
    obtain ⟨L, Ls', rfl, hp, hps⟩ := hh.cons_inv
    cases gs with
    | nil => exact hg.elim
    | cons g gs =>
    rw [List.nodup_cons] at hn
    obtain ⟨s', e, h1, h2⟩ := hiddenUpdateWith_ok hn.2 (hps.put (v := ⟨L.updWith g, .dense⟩) hn.1) hg.2.2
    refine ⟨s', ?_, ?_, ?_⟩
    · unfold Net.hiddenUpdateWith HLayer.updateWith
      rw [hp]
      simp only
      rw [Layer.updateWith_ok hg.1 hg.2.1, ok_bind, ok_bind]
      exact e
    · refine Holds.cons ?_ h1
      rw [h2 p hn.1, put_same]
    · intro r hr'
      simp only [List.mem_cons, not_or] at hr'
      rw [h2 r hr'.2, put_other hr'.1]

theorem Net.updateWith_ok {s : Store} {n : Net} {p q : Nat} {og : Mat ℝ} {hgs : List (Mat ℝ)} (h : n.WF s p q)
    (h1 : og.nr = n.output.W.nr) (h2 : og.nc = n.output.W.nc) (hg : GradsFit (n.hiddenLayers s) hgs) :
    ∃ s' n', n.updateWith s og hgs = .ok (s', n') ∧
      Net.Becomes s n s' n' (List.zipWith Layer.updWith (n.hiddenLayers s) hgs ++ [n.output.toLayer.updWith og]) ∧
      n'.result = n.result ∧ n'.input = n.input ∧ n'.output = { n.output with toLayer := n.output.toLayer.updWith og } := by
  obtain ⟨s', e, h3, h4⟩ := hiddenUpdateWith_ok h.nodup (holds_of_dense h.dense) hg
  refine ⟨s', { n with output := { n.output with toLayer := n.output.toLayer.updWith og } }, ?_,
    ⟨⟨rfl, rfl, rfl, rfl, rfl⟩, ?_, h3.dense, h4⟩, rfl, rfl, rfl⟩
  · unfold Net.updateWith
    rw [Layer.updateWith_ok h1 h2, ok_bind, e, ok_bind]
  · show List.map _ _ ++ [_] = _
    rw [h3.bases]
    rfl

end
end Nnet.NN
