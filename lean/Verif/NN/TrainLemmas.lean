import Verif.NN.Trainer
import Verif.NN.PropsBatch
import Verif.NN.PropsUpdate
/-!
# One training step of a well-formed dense network
-/
namespace Nnet.NN
open Finset
noncomputable section

/-- A well-formed dense network whose caches come from a forward pass with `m` samples and whose gradients have the size of the weights. -/
structure Net.Ready (s : Store) (n : Net) (p q m : Nat) : Prop where
  wf : n.WF s p q
  cached : CachedL (n.layers s) m
  grads : ∀ L ∈ n.layers s, L.GradOK

/-- The output layer's inputs and outputs on the samples `x`. -/
def Net.deltaOn (s : Store) (n : Net) (x y : Mat ℝ) : Res (Mat ℝ) :=
  n.output.costd y ((n.outputZ s x).map n.output.actfunc.act) (n.outputZ s x)

/-- The layers after `forwardprop(x); backprop(y)` when the derivative of the cost at the output is `D`. -/
def Net.passed (s : Store) (n : Net) (x D : Mat ℝ) : List Layer :=
  bwdNet (fwdL (n.hiddenLayers s) x) (n.output.toLayer.fwd (outL (n.hiddenLayers s) x)) D

theorem fits_congr {q : Nat} : ∀ {As Bs : List (Mat ℝ)} {p : Nat}, As.map (fun W => (W.nr, W.nc)) = Bs.map (fun W => (W.nr, W.nc)) →
    Spec.Fits p Bs q → Spec.Fits p As q
  | [], [], _, _, h => h
  | [], _ :: _, _, h, _ => by simp at h
  | _ :: _, [], _, h, _ => by simp at h
  | A :: As, B :: Bs, p, h, hf => by
    simp only [List.map_cons, List.cons.injEq, Prod.mk.injEq] at h
    obtain ⟨f1, f2, f3⟩ := hf
    exact ⟨by rw [h.1.1]; exact f1, by rw [h.1.2]; exact f2, fits_congr h.2 (by rw [h.1.2]; exact f3)⟩

theorem bwdL_cached {m : Nat} : ∀ {Ls : List Layer} {d : Mat ℝ}, CachedL Ls m → CachedL (bwdL Ls d).1 m
  | [], _, _ => fun L hL => by cases hL
  | L :: Ls, d, h => by
    intro M hM
    rcases List.mem_cons.1 hM with rfl | hM'
    · obtain ⟨h1, h2, h3, h4, h5, h6⟩ := h L (by simp)
      exact ⟨h1, h2, h3, h4, h5, h6⟩
    · exact bwdL_cached (fun K hK => h K (List.mem_cons_of_mem _ hK)) M hM'

theorem bwdNet_cached {m : Nat} {hs : List Layer} {o : Layer} {D : Mat ℝ} (h : CachedL hs m) (ho : o.Cached m) : CachedL (bwdNet hs o D) m := by
  intro L hL
  rcases List.mem_append.1 hL with hL' | hL'
  · exact bwdL_cached h L hL'
  · rw [List.mem_singleton] at hL'
    subst hL'
    obtain ⟨h1, h2, h3, h4, h5, h6⟩ := ho
    exact ⟨h1, h2, h3, h4, h5, h6⟩

theorem upd_cached {m : Nat} {L : Layer} (h : L.Cached m) : L.upd.Cached m := by
  obtain ⟨h1, h2, h3, h4, h5, h6⟩ := h
  exact ⟨h1, h2, h3, h4, h5, h6⟩

theorem updWith_cached {m : Nat} {L : Layer} {g : Mat ℝ} (h : L.Cached m) : (L.updWith g).Cached m := by
  obtain ⟨h1, h2, h3, h4, h5, h6⟩ := h
  exact ⟨h1, h2, h3, h4, h5, h6⟩

theorem Net.WF.split {s : Store} {n : Net} {p q : Nat} (h : n.WF s p q) :
    ∃ r, Spec.Fits p ((n.hiddenLayers s).map (·.W)) r ∧ n.output.W.nr = r + 1 ∧ 0 < n.output.W.nc ∧ n.output.W.nc = q := by
  have hf := h.fits
  unfold Net.layers at hf
  rw [List.map_append, fits_append] at hf
  obtain ⟨r, h1, h2⟩ := hf
  simp only [List.map_cons, List.map_nil, Spec.Fits] at h2
  exact ⟨r, h1, h2⟩

theorem passed_W (s : Store) (n : Net) (x D : Mat ℝ) : (n.passed s x D).map (·.W) = (n.layers s).map (·.W) := by
  have := congrArg (List.map (fun c : ℝ × ℝ × ActFunc ℝ × Mat ℝ => c.2.2.2)) (bwdNet_core (n.hiddenLayers s) n.output.toLayer D x)
  simp only [List.map_map] at this
  exact this

theorem passed_cached {s : Store} {n : Net} {p q : Nat} {x D : Mat ℝ} (h : n.WF s p q) (hc : x.nc = p) : CachedL (n.passed s x D) x.nr := by
  obtain ⟨r, h1, h2, _, _⟩ := h.split
  have hd := outL_dims (Ls := n.hiddenLayers s) (x := x) (q := r) (by rw [hc]; exact h1)
  refine bwdNet_cached (fwdL_cached (q := r) (by rw [hc]; exact h1)) ?_
  have := Layer.fwd_cached (L := n.output.toLayer) (x := outL (n.hiddenLayers s) x) (by rw [hd.2]; exact h2)
  rw [hd.1] at this
  exact this

/-- Backward pass with as many label rows as the derivative says. -/
theorem Net.backprop_ok' {junk : Nat → Nat → ℝ} {s : Store} {n : Net} {p q m : Nat} {y D : Mat ℝ} (h : n.WF s p q)
    (hca : CachedL (n.layers s) m) (hr : 0 < m) (hD : n.output.costd y n.output.a n.output.z = .ok D) (hD1 : D.nr = m) (hD2 : D.nc = q) :
    ∃ s' n', n.backprop junk s y = .ok (s', n') ∧
      Net.Becomes s n s' n' (bwdNet (n.hiddenLayers s) n.output.toLayer D) ∧ n'.result = n.result ∧ n'.input = n.input ∧
      n'.output.a = n.output.a ∧ n'.output.y = y := by
  obtain ⟨r, hf1, hf2⟩ := h.split
  have hco : n.output.toLayer.Cached m := hca _ (by simp [Net.layers])
  have ho := OutputLayer.backprop_ok (o := n.output) hco (by omega) hD hD1 (by rw [hD2, hf2.2.2])
  have hq : n.output.W.nr - 1 = r := by omega
  obtain ⟨s', e, h1, h2⟩ := bwGo_ok (junk := junk) (m := m) (q := r) (d := Layer.backOf D n.output.W) hr hD1 hq h.nodup
    (holds_of_dense h.dense) (fun L hL => hca L (by simp only [Net.layers, List.mem_append]; exact Or.inl hL)) h.pos hf1
  refine ⟨s', { n with output := n.output.bwd y D }, ?_, ⟨⟨rfl, rfl, rfl, rfl, rfl⟩, ?_, h1.dense, h2⟩, rfl, rfl, rfl, rfl⟩
  · unfold Net.backprop
    rw [ho, ok_bind]
    simp only
    rw [hiddenBackward_eq, e, ok_bind, ok_bind]
  · show List.map _ _ ++ [_] = _
    rw [h1.bases]
    rfl

/-- What a forward and backward pass leaves, given the derivative of the cost. -/
theorem passes_ok {junk : Nat → Nat → ℝ} {s : Store} {n : Net} {p q : Nat} {x y D : Mat ℝ} (h : n.WF s p q) (hr : 0 < x.nr) (hc : x.nc = p)
    (hD : n.deltaOn s x y = .ok D) (hD1 : D.nr = x.nr) (hD2 : D.nc = q) :
    ∃ s1 n1 s2 n2, n.forwardprop junk s x = .ok (outL (n.layers s) x, s1, n1) ∧ n1.backprop junk s1 y = .ok (s2, n2) ∧
      Net.Becomes s n s2 n2 (n.passed s x D) ∧ n2.result = outL (n.layers s) x ∧ n2.Ready s2 p q x.nr := by
  obtain ⟨s1, n1, e1, hb1, hres, ha, _⟩ := Net.forwardprop_ok (junk := junk) h hr hc
  have hlay : n1.layers s1 = fwdL (n.hiddenLayers s) x ++ [n.output.toLayer.fwd (outL (n.hiddenLayers s) x)] := by
    rw [hb1.layers, Net.layers, fwdL_append]; rfl
  have hh1 : n1.hiddenLayers s1 = fwdL (n.hiddenLayers s) x ∧ n1.output.toLayer = n.output.toLayer.fwd (outL (n.hiddenLayers s) x) := by
    unfold Net.layers at hlay
    have := List.append_inj' hlay rfl
    exact ⟨this.1, List.singleton_injective this.2⟩
  have hw1 : n1.WF s1 p q := hb1.wf h (by rw [fwdL_W]; exact h.fits)
  have hca : CachedL (n1.layers s1) x.nr := by
    rw [hb1.layers]
    exact fwdL_cached (q := q) (by rw [hc]; exact h.fits)
  have hD' : n1.output.costd y n1.output.a n1.output.z = .ok D := by
    rw [hb1.conf.ocostd, hh1.2]
    unfold Net.deltaOn at hD
    rw [outputZ_eq] at hD
    exact hD
  obtain ⟨s2, n2, e2, hb2, hres2, _, _⟩ := Net.backprop_ok' (junk := junk) hw1 hca hr hD' hD1 hD2
  rw [hh1.1, hh1.2] at hb2
  have hb : Net.Becomes s n s2 n2 (n.passed s x D) := hb1.trans hb2
  refine ⟨s1, n1, s2, n2, e1, e2, hb, by rw [hres2, hres], hb.wf h (by rw [passed_W]; exact h.fits), ?_, ?_⟩
  · rw [hb.layers]; exact passed_cached h hc
  · rw [hb.layers]; exact bwdNet_gradOK _ _ _

theorem update_ready {s : Store} {n : Net} {p q m : Nat} (h : n.Ready s p q m) :
    ∃ s' n', n.update s = .ok (s', n') ∧ Net.Becomes s n s' n' ((n.layers s).map Layer.upd) ∧ n'.result = n.result ∧ n'.Ready s' p q m := by
  obtain ⟨s', n', e, hb, h1, h2, h3⟩ := Net.update_ok h.wf h.grads
  refine ⟨s', n', e, hb, h1, hb.wf h.wf ?_, ?_, ?_⟩
  · refine fits_congr ?_ h.wf.fits
    rw [List.map_map, List.map_map, List.map_map]; rfl
  · rw [hb.layers]
    intro L hL
    obtain ⟨M, hM, rfl⟩ := List.mem_map.1 hL
    exact upd_cached (h.cached M hM)
  · rw [hb.layers]
    intro L hL
    obtain ⟨M, hM, rfl⟩ := List.mem_map.1 hL
    exact h.grads M hM

/-- One training step, given the derivative of the cost. -/
theorem trainOn_ok {junk : Nat → Nat → ℝ} {s : Store} {n : Net} {p q : Nat} {x y D : Mat ℝ} (h : n.WF s p q) (hr : 0 < x.nr) (hc : x.nc = p)
    (hD : n.deltaOn s x y = .ok D) (hD1 : D.nr = x.nr) (hD2 : D.nc = q) :
    ∃ s' n', n.trainOn junk s x y = .ok (s', n') ∧ Net.Becomes s n s' n' ((n.passed s x D).map Layer.upd) ∧
      n'.result = outL (n.layers s) x ∧ n'.Ready s' p q x.nr := by
  obtain ⟨s1, n1, s2, n2, e1, e2, hb, hres, hrd⟩ := passes_ok (junk := junk) h hr hc hD hD1 hD2
  obtain ⟨s3, n3, e3, hb3, hres3, hrd3⟩ := update_ready hrd
  refine ⟨s3, n3, ?_, ?_, by rw [hres3, hres], hrd3⟩
  · unfold Net.trainOn
    rw [e1, ok_bind]
    simp only
    rw [e2, ok_bind]
    exact e3
  · have := hb.trans hb3
    rw [hb.layers] at this
    exact this

theorem mul_eq_ok {a b r : Mat ℝ} (h : a.mul b = .ok r) : a.nc = b.nr ∧ r.nr = a.nr ∧ r.nc = b.nc := by
  unfold Mat.mul at h
  split at h
  · cases h; exact ⟨by assumption, rfl, rfl⟩
  · cases h

theorem zip_eq_ok {g : ℝ → ℝ → ℝ} {a b r : Mat ℝ} (h : Mat.zip g a b = .ok r) :
    a.nr = b.nr ∧ a.nc = b.nc ∧ r = Mat.of a.nr a.nc (fun i j => g (a.f i j) (b.f i j)) := by
  unfold Mat.zip at h
  split at h
  · rename_i hc; cases h; exact ⟨hc.1, hc.2, rfl⟩
  · cases h

/-- If the passes succeed on data that fits the network then the derivative of the cost has the size of the output. -/
theorem delta_of_ok {junk : Nat → Nat → ℝ} {s s1 s2 : Store} {n n1 n2 : Net} {p q : Nat} {x y r : Mat ℝ} (h : n.WF s p q) (hr : 0 < x.nr)
    (hc : x.nc = p) (h1 : n.forwardprop junk s x = .ok (r, s1, n1)) (h2 : n1.backprop junk s1 y = .ok (s2, n2)) :
    ∃ D, n.deltaOn s x y = .ok D ∧ D.nr = x.nr ∧ D.nc = q := by
  obtain ⟨s1', n1', e1, hb1, hres, ha, _⟩ := Net.forwardprop_ok (junk := junk) h hr hc
  rw [e1] at h1
  cases h1
  have hlay : n1.layers s1 = fwdL (n.hiddenLayers s) x ++ [n.output.toLayer.fwd (outL (n.hiddenLayers s) x)] := by
    rw [hb1.layers, Net.layers, fwdL_append]; rfl
  have hh1 : n1.output.toLayer = n.output.toLayer.fwd (outL (n.hiddenLayers s) x) := by
    unfold Net.layers at hlay
    have := List.append_inj' hlay rfl
    exact List.singleton_injective this.2
  have hw1 : n1.WF s1 p q := hb1.wf h (by rw [fwdL_W]; exact h.fits)
  have hca : CachedL (n1.layers s1) x.nr := by
    rw [hb1.layers]
    exact fwdL_cached (q := q) (by rw [hc]; exact h.fits)
  have hco := hca n1.output.toLayer (by simp [Net.layers])
  obtain ⟨r0, _, _, _, hq⟩ := hw1.split
  unfold Net.backprop at h2
  obtain ⟨⟨d, o⟩, h3, h2⟩ := bind_eq_ok h2
  unfold OutputLayer.backprop at h3
  obtain ⟨D, g1, h3⟩ := bind_eq_ok h3
  obtain ⟨gr, g2, h3⟩ := bind_eq_ok h3
  obtain ⟨gr2, g3, h3⟩ := bind_eq_ok h3
  obtain ⟨m1, m2, m3⟩ := mul_eq_ok g2
  obtain ⟨a1, a2, _⟩ := zip_eq_ok g3
  refine ⟨D, ?_, ?_, ?_⟩
  · unfold Net.deltaOn
    rw [outputZ_eq]
    rw [hb1.conf.ocostd, hh1] at g1
    exact g1
  · rw [← m1, Mat.tr_nc, hco.pa_nr]
  · rw [← m3, a2, ← hq]; rfl

/-- A successful training step on data that fits. -/
theorem trainOn_of_ok {junk : Nat → Nat → ℝ} {s s' : Store} {n n' : Net} {p q : Nat} {x y : Mat ℝ} (h : n.WF s p q) (hr : 0 < x.nr) (hc : x.nc = p)
    (e : n.trainOn junk s x y = .ok (s', n')) :
    ∃ D, n.deltaOn s x y = .ok D ∧ D.nr = x.nr ∧ D.nc = q ∧ Net.Becomes s n s' n' ((n.passed s x D).map Layer.upd) ∧
      n'.result = outL (n.layers s) x ∧ n'.Ready s' p q x.nr := by
  have e0 := e
  unfold Net.trainOn at e
  obtain ⟨⟨r, s1, n1⟩, h1, e⟩ := bind_eq_ok e
  obtain ⟨⟨s2, n2⟩, h2, e⟩ := bind_eq_ok e
  obtain ⟨D, hD, hD1, hD2⟩ := delta_of_ok h hr hc h1 h2
  obtain ⟨s3, n3, e3, hb, hres, hrd⟩ := trainOn_ok (junk := junk) h hr hc hD hD1 hD2
  rw [e0] at e3
  cases e3
  exact ⟨D, hD, hD1, hD2, hb, hres, hrd⟩

/-- Setting rates keeps a network ready. -/
theorem setlrate_ready {s : Store} {n : Net} {p q m : Nat} (h : n.Ready s p q m) (r : ℝ) :
    (n.setlrate s r).2.Ready (n.setlrate s r).1 p q m := by
  have hb := setlrate_becomes h.wf r
  refine ⟨hb.wf h.wf ?_, ?_, ?_⟩
  · rw [List.map_map]; exact h.wf.fits
  · rw [hb.layers]
    intro L hL
    obtain ⟨M, hM, rfl⟩ := List.mem_map.1 hL
    obtain ⟨h1, h2, h3, h4, h5, h6⟩ := h.cached M hM
    exact ⟨h1, h2, h3, h4, h5, h6⟩
  · rw [hb.layers]
    intro L hL
    obtain ⟨M, hM, rfl⟩ := List.mem_map.1 hL
    exact h.grads M hM

theorem setlrate_wf {s : Store} {n : Net} {p q : Nat} (h : n.WF s p q) (r : ℝ) : (n.setlrate s r).2.WF (n.setlrate s r).1 p q :=
  (setlrate_becomes h r).wf h (by rw [List.map_map]; exact h.fits)

theorem decay_wf {s : Store} {n : Net} {p q : Nat} (h : n.WF s p q) (t : Trainer) : (t.decay s n).2.WF (t.decay s n).1 p q := by
  unfold Trainer.decay
  split
  · exact setlrate_wf h _
  · exact h

/-! ## Loops -/

theorem loop_congr {σ : Type _} : ∀ {n : Nat} {b1 b2 : Nat → σ → Res σ} {s : σ}, (∀ i < n, ∀ a, b1 i a = b2 i a) → loop n b1 s = loop n b2 s
  | 0, _, _, _, _ => rfl
  | n + 1, b1, b2, s, h => by
    unfold loop
    rw [loop_congr (fun i hi => h i (by omega))]
    congr 1
    funext a
    exact h n (by omega) a

theorem loop_ok_body {σ : Type _} : ∀ {n : Nat} {b : Nat → σ → Res σ} {s s' : σ}, loop n b s = .ok s' → ∀ i < n, ∃ a a', b i a = .ok a'
  | 0, _, _, _, _, i, hi => by omega
  | n + 1, b, s, s', h, i, hi => by
    unfold loop at h
    obtain ⟨s1, h1, h⟩ := bind_eq_ok h
    rcases Nat.lt_or_ge i n with hin | hin
    · exact loop_ok_body h1 i hin
    · have : i = n := by omega
      subst this
      exact ⟨s1, s', h⟩

end
end Nnet.NN
