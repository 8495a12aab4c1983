import Verif.NN.PropsGrad
import Mathlib.Analysis.Calculus.Deriv.Slope
import Mathlib.Tactic.Positivity
/-!
# C33: update is a gradient step that lowers the cost
-/
namespace Nnet.NN
open Finset Filter Topology
noncomputable section

/-! ## Lemmas -/

/-- What the passes never change in a layer. -/
def Layer.core (L : Layer) : ℝ × ℝ × ActFunc ℝ × Mat ℝ := (L.lrate, L.lambda, L.actfunc, L.W)

theorem fwdL_core : ∀ (Ls : List Layer) (x : Mat ℝ), (fwdL Ls x).map Layer.core = Ls.map Layer.core
  | [], _ => rfl
  | L :: Ls, x => by
    show Layer.core (L.fwd x) :: (fwdL Ls (L.fwd x).a).map Layer.core = L.core :: Ls.map Layer.core
    rw [fwdL_core Ls]; rfl

theorem bwdL_core : ∀ (Ls : List Layer) (d : Mat ℝ), (bwdL Ls d).1.map Layer.core = Ls.map Layer.core
  | [], _ => rfl
  | L :: Ls, d => by
    show Layer.core (L.bwd _) :: ((bwdL Ls d).1).map Layer.core = L.core :: Ls.map Layer.core
    rw [bwdL_core Ls]; rfl

theorem bwdNet_core (hs : List Layer) (o : Layer) (D x : Mat ℝ) :
    (bwdNet (fwdL hs x) (o.fwd (outL hs x)) D).map Layer.core = (hs ++ [o]).map Layer.core := by
  unfold bwdNet
  rw [List.map_append, bwdL_core, fwdL_core, List.map_append]
  rfl

theorem fwdL_setlrate (r : ℝ) : ∀ (Ls : List Layer) (x : Mat ℝ), fwdL (Ls.map (·.setlrate r)) x = (fwdL Ls x).map (·.setlrate r)
  | [], _ => rfl
  | L :: Ls, x => by
    show (L.setlrate r).fwd x :: fwdL (Ls.map (·.setlrate r)) (L.fwd x).a = (L.fwd x).setlrate r :: (fwdL Ls (L.fwd x).a).map (·.setlrate r)
    rw [fwdL_setlrate r Ls]; rfl

theorem outL_setlrate (r : ℝ) : ∀ (Ls : List Layer) (x : Mat ℝ), outL (Ls.map (·.setlrate r)) x = outL Ls x
  | [], _ => rfl
  | L :: Ls, x => outL_setlrate r Ls (L.fwd x).a

theorem bwdL_setlrate (r : ℝ) : ∀ (Ls : List Layer) (d : Mat ℝ),
    bwdL (Ls.map (·.setlrate r)) d = ((bwdL Ls d).1.map (·.setlrate r), (bwdL Ls d).2)
  | [], _ => rfl
  | L :: Ls, d => by
    show ((L.setlrate r).bwd (bwdL (Ls.map (·.setlrate r)) d).2 :: (bwdL (Ls.map (·.setlrate r)) d).1, _) = _
    rw [bwdL_setlrate r Ls]; rfl

theorem bwdNet_setlrate (r : ℝ) (hs : List Layer) (o : Layer) (D x : Mat ℝ) :
    bwdNet (fwdL (hs.map (·.setlrate r)) x) ((o.setlrate r).fwd (outL (hs.map (·.setlrate r)) x)) D =
    (bwdNet (fwdL hs x) (o.fwd (outL hs x)) D).map (·.setlrate r) := by
  unfold bwdNet
  rw [fwdL_setlrate, outL_setlrate, List.map_append]
  rw [show ((o.setlrate r).fwd (outL hs x)).W = (o.fwd (outL hs x)).W from rfl, bwdL_setlrate]
  rfl

/-- Gradients after the backward pass have the size of the weights. -/
theorem bwdNet_gradOK (hs : List Layer) (o : Layer) (D : Mat ℝ) : ∀ L ∈ bwdNet hs o D, L.GradOK := by
  have h1 : ∀ (Ls : List Layer) (d : Mat ℝ), ∀ L ∈ (bwdL Ls d).1, L.GradOK := by
    intro Ls
    induction Ls with
    | nil => intro d L hL; cases hL
    | cons M Ls ih =>
      intro d L hL
      rcases List.mem_cons.1 hL with rfl | hL
      · exact ⟨rfl, rfl⟩
      · exact ih d L hL
  intro L hL
  rcases List.mem_append.1 hL with hL | hL
  · exact h1 _ _ L hL
  · rw [List.mem_singleton] at hL
    subst hL
    exact ⟨rfl, rfl⟩

theorem layers_setlrate (s : Store) (n : Net) (r : ℝ) :
    (n.setlrate s r).2.hidden = n.hidden ∧ (n.setlrate s r).2.output.toLayer = n.output.toLayer.setlrate r := ⟨rfl, rfl⟩

/-! ## C33 -/

/-- Weights `w - lrate * grad` of a layer. -/
def Spec.moved (L : Layer) : Mat ℝ := Mat.of L.W.nr L.W.nc (fun i j => L.W.f i j - L.lrate * L.grad.f i j)

/-- **C33, update.** `update()` on a network whose gradients have the size of the weights replaces every weight `w` of every layer by
`w - lrate * grad`, with the layer's own rate and gradient, and changes nothing else: not the other members of the layers, not the other
members of the network, and not the layers of other networks. -/
theorem C33_update {s : Store} {n : Net} {p q : Nat} (h : n.WF s p q)
    (hg : ∀ L ∈ n.layers s, L.grad.nr = L.W.nr ∧ L.grad.nc = L.W.nc) :
    ∃ s' n', n.update s = .ok (s', n') ∧
      (∀ r, r ∉ n.hidden → s' r = s r) ∧
      (∀ r ∈ n.hidden, s' r = ⟨{ (s r).base with W := Spec.moved (s r).base }, .dense⟩) ∧
      n' = { n with output := { n.output with W := Spec.moved n.output.toLayer } } := by
  obtain ⟨s', n', e, hb, h1, h2, h3⟩ := Net.update_ok h hg
  refine ⟨s', n', e, hb.frame, fun r hr => ?_, ?_⟩
  · have hl := hb.layers
    unfold Net.layers at hl
    rw [List.map_append] at hl
    have := (List.append_inj' hl rfl).1
    unfold Net.hiddenLayers at this
    rw [hb.conf.hidden, List.map_map] at this
    have hbase := List.map_inj_left.1 this r hr
    have hk := hb.dense r hr
    calc s' r = ⟨(s' r).base, (s' r).kind⟩ := rfl
      _ = _ := by rw [hbase, hk]; rfl
  · have := hb.conf
    refine Net.ext h1 this.cost this.costd h2 this.hidden ?_
    rw [h3]; rfl

/-- `setlrate(r)` followed by `forwardprop(x); backprop(y); update()`. -/
def Net.stepWith (junk : Nat → Nat → ℝ) (s : Store) (n : Net) (r : ℝ) (x y : Mat ℝ) : Res (Store × Net) :=
  (n.setlrate s r).2.gradStep junk (n.setlrate s r).1 x y

theorem setlrate_becomes {s : Store} {n : Net} {p q : Nat} (h : n.WF s p q) (r : ℝ) :
    Net.Becomes s n (n.setlrate s r).1 (n.setlrate s r).2 ((n.layers s).map (·.setlrate r)) := by
  have key : ∀ (ps : List Nat) (s : Store), ps.Nodup → (∀ p ∈ ps, (ps.foldl (fun s p => s.put p ((s p).setlrate r)) s) p = (s p).setlrate r) ∧
      ∀ p, p ∉ ps → (ps.foldl (fun s p => s.put p ((s p).setlrate r)) s) p = s p := by
    intro ps
    induction ps with
    | nil => intro s _; exact ⟨fun p hp => (by cases hp), fun _ _ => rfl⟩
    | cons a ps ih =>
      intro s hn
      rw [List.nodup_cons] at hn
      obtain ⟨h1, h2⟩ := ih (s.put a ((s a).setlrate r)) hn.2
      refine ⟨fun p hp => ?_, fun p hp => ?_⟩
      · simp only [List.foldl_cons]
        rcases List.mem_cons.1 hp with rfl | hp'
        · rw [h2 p hn.1, put_same]
        · have hpa : p ≠ a := fun he => hn.1 (he ▸ hp')
          rw [h1 p hp', put_other hpa]
      · simp only [List.foldl_cons]
        simp only [List.mem_cons, not_or] at hp
        rw [h2 p hp.2, put_other hp.1]
  obtain ⟨h1, h2⟩ := key n.hidden s h.nodup
  refine ⟨⟨rfl, rfl, rfl, rfl, rfl⟩, ?_, fun p hp => ?_, h2⟩
  · unfold Net.layers Net.hiddenLayers
    rw [List.map_append, List.map_map]
    congr 1
    apply List.map_congr_left
    intro p hp
    show ((n.setlrate s r).1 p).base = _
    unfold Net.setlrate
    simp only
    rw [h1 p hp]; rfl
  · unfold Net.setlrate
    simp only
    rw [h1 p hp]
    exact h.dense p hp

theorem along_step (r : ℝ) (B L : Layer) (h : B.core = L.core) :
    ((B.setlrate r).upd.actfunc, (B.setlrate r).upd.W) = ((L.along (B.grad.smul (-1)) r).actfunc, (L.along (B.grad.smul (-1)) r).W) := by
  have h1 : B.actfunc = L.actfunc := congrArg (fun c => c.2.2.1) h
  have h2 : B.W = L.W := congrArg (fun c => c.2.2.2) h
  unfold Layer.upd Layer.along Layer.setlrate Mat.along
  simp only
  rw [h1, h2]
  congr 1
  apply Mat.of_congr
  intro i j _ _
  rw [Mat.smul_f]; ring

theorem along_stepL (r : ℝ) : ∀ (Bs Ls : List Layer), Bs.map Layer.core = Ls.map Layer.core →
    ((Bs.map (·.setlrate r)).map Layer.upd).map (fun L => (L.actfunc.act, L.W)) =
    (alongL Ls (Bs.map (fun B => B.grad.smul (-1))) r).map (fun L => (L.actfunc.act, L.W))
  | [], [], _ => rfl
  | [], _ :: _, h => by simp at h
  | _ :: _, [], h => by simp at h
  | B :: Bs, L :: Ls, h => by
    simp only [List.map_cons, List.cons.injEq] at h
    have h1 := along_step r B L h.1
    simp only [Prod.mk.injEq] at h1
    show _ :: ((Bs.map (·.setlrate r)).map Layer.upd).map (fun L => (L.actfunc.act, L.W)) =
      _ :: (alongL Ls (Bs.map (fun B => B.grad.smul (-1))) r).map (fun L => (L.actfunc.act, L.W))
    rw [along_stepL r Bs Ls h.2]
    congr 1
    simp only
    rw [h1.1, h1.2]

theorem ip_dataGrad_neg {L : Layer} (hl : L.lambda = 0) :
    ip L.dataGrad (L.grad.smul (-1)) = -∑ i ∈ range L.W.nr, ∑ j ∈ range L.W.nc, L.grad.f i j ^ 2 := by
  unfold ip Layer.dataGrad
  simp only [Mat.of_nr, Mat.of_nc]
  rw [← sum_neg_distrib]
  refine sum_congr rfl fun i hi => ?_
  rw [← sum_neg_distrib]
  refine sum_congr rfl fun j hj => ?_
  rw [Mat.of_f' (mem_range.1 hi) (mem_range.1 hj), Mat.smul_f, hl]
  ring

theorem pair_neg : ∀ (Bs : List Layer), (∀ B ∈ Bs, B.lambda = 0) →
    pair Bs (Bs.map (fun B => B.grad.smul (-1))) ≤ 0 ∧
    ((∃ B ∈ Bs, ∃ i < B.W.nr, ∃ j < B.W.nc, B.grad.f i j ≠ 0) → pair Bs (Bs.map (fun B => B.grad.smul (-1))) < 0)
  | [], _ => ⟨le_refl _, fun ⟨_, h, _⟩ => by cases h⟩
  | B :: Bs, hl => by
    obtain ⟨h1, h2⟩ := pair_neg Bs (fun B hB => hl B (List.mem_cons_of_mem _ hB))
    have e : pair (B :: Bs) ((B :: Bs).map (fun B => B.grad.smul (-1))) =
        ip B.dataGrad (B.grad.smul (-1)) + pair Bs (Bs.map (fun B => B.grad.smul (-1))) := rfl
    rw [e, ip_dataGrad_neg (hl B (by simp))]
    have hn : 0 ≤ ∑ i ∈ range B.W.nr, ∑ j ∈ range B.W.nc, B.grad.f i j ^ 2 := sum_nonneg fun _ _ => sum_nonneg fun _ _ => sq_nonneg _
    refine ⟨by linarith, ?_⟩
    rintro ⟨B', hB', i, hi, j, hj, hne⟩
    rcases List.mem_cons.1 hB' with rfl | hB'
    · have : 0 < ∑ i ∈ range B'.W.nr, ∑ j ∈ range B'.W.nc, B'.grad.f i j ^ 2 := by
        refine sum_pos' (fun _ _ => sum_nonneg fun _ _ => sq_nonneg _) ⟨i, mem_range.2 hi, ?_⟩
        exact sum_pos' (fun _ _ => sq_nonneg _) ⟨j, mem_range.2 hj, by positivity⟩
      linarith
    · have := h2 ⟨B', hB', i, hi, j, hj, hne⟩
      linarith

theorem bwdNet_gradsFit (hs : List Layer) (x d : Mat ℝ) :
    GradsFit hs ((bwdL (fwdL hs x) d).1.map (fun B => B.grad.smul (-1))) := by
  induction hs generalizing x with
  | nil => trivial
  | cons L Ls ih => exact ⟨rfl, rfl, ih (L.fwd x).a⟩

/-- The cost after one gradient step as a function of the learning rate, when the output's delta is `c` times the derivative of the cost: its
derivative at rate 0 is negative for `c = 1` and positive for `c = -1`. -/
theorem step_core {junk : Nat → Nat → ℝ} {s : Store} {n : Net} {p q : Nat} {x y D' : Mat ℝ} {c : ℝ} (h : n.WF s p q) (hr : 0 < x.nr) (hc : x.nc = p)
    (hyr : y.nr = x.nr) (hsm : Spec.SmoothAt (actW (n.hiddenLayers s)) x)
    (hD : n.output.costd y ((n.outputZ s x).map n.output.actfunc.act) (n.outputZ s x) = .ok (D'.smul c))
    (hG : Spec.CostGrad n.output.actfunc.act n.cost y (n.outputZ s x) D') (hlam : ∀ L ∈ n.layers s, L.lambda = 0)
    {out : Mat ℝ} {s1 s2 : Store} {n1 n2 : Net} (hf : n.forwardprop junk s x = .ok (out, s1, n1)) (hb : n1.backprop junk s1 y = .ok (s2, n2))
    (hne : ∃ L ∈ n2.layers s2, ∃ i < L.W.nr, ∃ j < L.W.nc, L.grad.f i j ≠ 0) :
    ∃ (J : ℝ → ℝ) (d : ℝ), n.costOf junk s x y = .ok (J 0) ∧
      (∀ r, ∃ s' n', n.stepWith junk s r x y = .ok (s', n') ∧ n'.costOf junk s' x y = .ok (J r)) ∧ HasDerivAt J d 0 ∧ c * d < 0 := by
  obtain ⟨D, hDdef⟩ : ∃ D, D = D'.smul c := ⟨_, rfl⟩
  rw [← hDdef] at hD
  have hfit := h.fits
  unfold Net.layers at hfit
  rw [List.map_append, fits_append] at hfit
  obtain ⟨r0, hf1, hf2⟩ := hfit
  simp only [List.map_cons, List.map_nil, Spec.Fits] at hf2
  obtain ⟨d1, d2⟩ := outputZ_dims h hc
  have hD1 : D.nr = y.nr := by rw [hDdef]; show D'.nr = _; rw [hG.1, d1, hyr]
  have hD2 : D.nc = q := by rw [hDdef]; show D'.nc = _; rw [hG.2.1, d2]
  obtain ⟨s1', n1', s2', n2', e1, e2, hbe, _⟩ := forward_backward (junk := junk) h hr hc hyr hD hD1 hD2
  rw [hf] at e1
  cases e1
  rw [hb] at e2
  cases e2
  rw [hbe.layers] at hne
  have hcore := bwdNet_core (n.hiddenLayers s) n.output.toLayer D x
  have hlam' : ∀ B ∈ bwdNet (fwdL (n.hiddenLayers s) x) (n.output.toLayer.fwd (outL (n.hiddenLayers s) x)) D, B.lambda = 0 := by
    intro B hB
    have : B.core ∈ ((n.hiddenLayers s) ++ [n.output.toLayer]).map Layer.core := by rw [← hcore]; exact List.mem_map_of_mem hB
    obtain ⟨L, hL, hLc⟩ := List.mem_map.1 this
    have hle : L.lambda = B.lambda := congrArg (fun c => c.2.1) hLc
    rw [← hle]; exact hlam L hL
  have hG' : Spec.CostGrad n.output.actfunc.act n.cost y (Spec.pre n.output.W (outL (n.hiddenLayers s) x)) D' := by
    rw [← outputZ_eq]; exact hG
  let Bh := (bwdL (fwdL (n.hiddenLayers s) x) (Layer.backOf D n.output.W)).1
  let bo : Layer := { n.output.toLayer.fwd (outL (n.hiddenLayers s) x) with delta := D, grad := (n.output.toLayer.fwd (outL (n.hiddenLayers s) x)).regGrad D }
  have hB : bwdNet (fwdL (n.hiddenLayers s) x) (n.output.toLayer.fwd (outL (n.hiddenLayers s) x)) D = Bh ++ [bo] := rfl
  have hlen : Bh.length = (n.hiddenLayers s).length := by
    have := congrArg List.length (bwdL_core (fwdL (n.hiddenLayers s) x) (Layer.backOf D n.output.W))
    rw [fwdL_core] at this
    simpa using this
  obtain ⟨J, hJ1, hJ2⟩ := net_hasD (V := bo.grad.smul (-1)) (o := n.output.toLayer) (y := y) hc hf1 hf2.1
    (bwdNet_gradsFit (n.hiddenLayers s) x (Layer.backOf D n.output.W)) hsm hG'
  have hVs : (Bh.map (fun B => B.grad.smul (-1))).take (n.hiddenLayers s).length ++ [bo.grad.smul (-1)] = (Bh ++ [bo]).map (fun B => B.grad.smul (-1)) := by
    rw [List.take_of_length_le (by simp [hlen]), List.map_append]; rfl
  change HasDerivAt J (pair _ ((Bh.map (fun B => B.grad.smul (-1))).take (n.hiddenLayers s).length ++ [bo.grad.smul (-1)])) 0 at hJ2
  rw [hVs] at hJ2
  have hsm' := pair_bwdNet_smul (fwdL (n.hiddenLayers s) x) (n.output.toLayer.fwd (outL (n.hiddenLayers s) x)) D' c ((Bh ++ [bo]).map (fun B => B.grad.smul (-1)))
  rw [← hDdef, hB] at hsm'
  rw [hB] at hne hlam' hcore
  have hneg := (pair_neg (Bh ++ [bo]) hlam').2 hne
  -- the cost after a step of size r is J r
  have hout : ∀ r : ℝ, outL (((Bh ++ [bo]).map (·.setlrate r)).map Layer.upd) x =
      outL (alongL (n.hiddenLayers s) (Bh.map (fun B => B.grad.smul (-1))) r ++ [n.output.toLayer.along (bo.grad.smul (-1)) r]) x := by
    intro r
    rw [outL_eq_denseNet, outL_eq_denseNet, along_stepL r (Bh ++ [bo]) _ hcore]
    congr 2
    unfold alongL
    rw [List.map_append, List.zipWith_append (by simp [hlen])]
    rfl
  have hal0 : ∀ (Ls : List Layer) (Vs : List (Mat ℝ)), GradsFit Ls Vs → alongL Ls Vs 0 = Ls := by
    intro Ls
    induction Ls with
    | nil => intro Vs _; rfl
    | cons L Ls ih =>
      intro Vs hg
      cases Vs with
      | nil => exact hg.elim
      | cons V Vs =>
        show Layer.along L V 0 :: alongL Ls Vs 0 = _
        rw [Layer.along_zero, ih Vs hg.2.2]
  refine ⟨J, _, ?_, fun r => ?_, hJ2, by rw [← hsm']; exact hneg⟩
  · rw [costOf_eq h hr hc]
    obtain ⟨M, hM, hJ⟩ := hJ1 0
    rw [hal0 _ _ (bwdNet_gradsFit _ _ _), Layer.along_zero] at hM
    unfold Net.layers
    rw [hM, ok_bind, hJ]
  · have hbs := setlrate_becomes h r
    have hws : (n.setlrate s r).2.WF (n.setlrate s r).1 p q := hbs.wf h (by
      have : ∀ Ls : List Layer, (Ls.map (·.setlrate r)).map (·.W) = Ls.map (·.W) := by
        intro Ls; rw [List.map_map]; rfl
      rw [this]; exact h.fits)
    have hhs : (n.setlrate s r).2.hiddenLayers (n.setlrate s r).1 = (n.hiddenLayers s).map (·.setlrate r) := by
      have := hbs.layers
      unfold Net.layers at this
      rw [List.map_append] at this
      exact (List.append_inj' this rfl).1
    have hoz : (n.setlrate s r).2.outputZ (n.setlrate s r).1 x = n.outputZ s x := by
      rw [outputZ_eq, outputZ_eq, hhs, outL_setlrate]; rfl
    obtain ⟨s3, n3, s4, n4, e3, e4, hbe4, _⟩ := forward_backward (junk := junk) (y := y) (D := D) hws hr hc hyr (by rw [hoz]; exact hD) hD1 hD2
    have hl4 : n4.layers s4 = (Bh ++ [bo]).map (·.setlrate r) := by
      rw [hbe4.layers, hhs, ← hB, ← bwdNet_setlrate]; rfl
    have hw4 : n4.WF s4 p q := hbe4.wf hws (by
      rw [← hbe4.layers, hl4]
      have h5 : ((Bh ++ [bo]).map (·.setlrate r)).map (·.W) = (((Bh ++ [bo]).map Layer.core).map (fun c => c.2.2.2)) := by
        rw [List.map_map, List.map_map]; rfl
      rw [h5, hcore, List.map_map]
      exact h.fits)
    have hg4 : ∀ L ∈ n4.layers s4, L.GradOK := by
      rw [hbe4.layers]; exact bwdNet_gradOK _ _ _
    obtain ⟨s5, n5, e5, hb5, _⟩ := Net.update_ok hw4 hg4
    have hw5 : n5.WF s5 p q := hb5.wf hw4 (by
      have h6 : (((n4.layers s4).map Layer.upd).map (·.W)).map (fun W => (W.nr, W.nc)) = ((n4.layers s4).map (·.W)).map (fun W => (W.nr, W.nc)) := by
        rw [List.map_map, List.map_map, List.map_map]; rfl
      have key : ∀ (As Bs : List (Mat ℝ)) (p : Nat), As.map (fun W => (W.nr, W.nc)) = Bs.map (fun W => (W.nr, W.nc)) → Spec.Fits p Bs q → Spec.Fits p As q := by
        intro As
        induction As with
        | nil => intro Bs p he hf; cases Bs <;> simp_all
        | cons A As ih =>
          intro Bs p he hf
          cases Bs with
          | nil => simp at he
          | cons B Bs =>
            simp only [List.map_cons, List.cons.injEq, Prod.mk.injEq] at he
            obtain ⟨f1, f2, f3⟩ := hf
            exact ⟨by rw [he.1.1]; exact f1, by rw [he.1.2]; exact f2, ih Bs _ he.2 (by rw [he.1.2]; exact f3)⟩
      exact key _ _ _ h6 hw4.fits)
    refine ⟨s5, n5, ?_, ?_⟩
    · unfold Net.stepWith Net.gradStep
      rw [e3, ok_bind]
      simp only
      rw [e4, ok_bind]
      exact e5
    · rw [costOf_eq hw5 hr hc, hb5.layers, hl4, hout r]
      obtain ⟨M, hM, hJ⟩ := hJ1 r
      rw [(hbs.conf.trans (hbe4.conf.trans hb5.conf)).cost]
      change n.cost y (outL (alongL (n.hiddenLayers s) (Bh.map (fun B => B.grad.smul (-1))) r ++ [n.output.toLayer.along (bo.grad.smul (-1)) r]) x) = _ at hM
      rw [hM, ok_bind, hJ]

/-- A function with negative derivative at 0 is smaller just to the right of 0. -/
theorem lower_right {J : ℝ → ℝ} {d : ℝ} (hJ : HasDerivAt J d 0) (hd : d < 0) : ∃ ε > 0, ∀ r, 0 < r → r < ε → J r < J 0 := by
  have hsl : ∀ᶠ t in 𝓝[≠] (0 : ℝ), slope J 0 t < 0 := (hasDerivAt_iff_tendsto_slope.1 hJ).eventually_lt_const hd
  rw [eventually_nhdsWithin_iff, Metric.eventually_nhds_iff] at hsl
  obtain ⟨ε, hε, hsl⟩ := hsl
  refine ⟨ε, hε, fun r hr0 hrε => ?_⟩
  have := hsl (y := r) (by rw [Real.dist_eq, sub_zero, abs_of_pos hr0]; exact hrε) (by simp; exact hr0.ne')
  rw [slope_def_field, sub_zero, div_neg_iff] at this
  rcases this with h | h
  · linarith [h.2]
  · linarith [h.1]

/-- **C33, descent.** Take a well-formed dense network, a batch with matching labels, activations differentiable where they are evaluated,
an output layer whose delta is the derivative of the cost, and regularisation 0 in all layers. If after `forwardprop(x); backprop(y)`
the gradient of some weight is not 0, then there is a bound such that for every learning rate between 0 and the bound one gradient step
with that rate succeeds and strictly lowers `computecost(forwardprop(x), y)`. -/
theorem C33_descent {junk : Nat → Nat → ℝ} {s : Store} {n : Net} {p q : Nat} {x y : Mat ℝ} (h : n.WF s p q) (hr : 0 < x.nr) (hc : x.nc = p)
    (hyr : y.nr = x.nr) (hsm : Spec.SmoothAt (actW (n.hiddenLayers s)) x)
    (hm : Spec.OutputMatches n.output n.cost y (n.outputZ s x)) (hlam : ∀ L ∈ n.layers s, L.lambda = 0)
    {out : Mat ℝ} {s1 s2 : Store} {n1 n2 : Net} (hf : n.forwardprop junk s x = .ok (out, s1, n1)) (hb : n1.backprop junk s1 y = .ok (s2, n2))
    (hne : ∃ L ∈ n2.layers s2, ∃ i < L.W.nr, ∃ j < L.W.nc, L.grad.f i j ≠ 0) :
    ∃ ε > 0, ∃ J0, n.costOf junk s x y = .ok J0 ∧ ∀ r, 0 < r → r < ε →
      ∃ s' n' J', n.stepWith junk s r x y = .ok (s', n') ∧ n'.costOf junk s' x y = .ok J' ∧ J' < J0 := by
  obtain ⟨D, hD, hG⟩ := hm
  have hD1 : D.smul 1 = D := Mat.ext' rfl rfl fun i j _ _ => by rw [Mat.smul_f, one_mul]
  obtain ⟨J, d, h0, hst, hJ, hd⟩ := step_core (c := 1) h hr hc hyr hsm (by rw [hD1]; exact hD) hG hlam hf hb hne
  obtain ⟨ε, hε, hlt⟩ := lower_right hJ (by linarith)
  refine ⟨ε, hε, J 0, h0, fun r h1 h2 => ?_⟩
  obtain ⟨s', n', e1, e2⟩ := hst r
  exact ⟨s', n', J r, e1, e2, hlt r h1 h2⟩

/-- **C33, descent, for the library's outputs**: quadratic, cross-entropy, and softmax with label rows that sum to 1. -/
theorem C33_descent_outputs {junk : Nat → Nat → ℝ} {s : Store} {n : Net} {p q : Nat} {x y : Mat ℝ} (h : n.WF s p q) (hr : 0 < x.nr) (hc : x.nc = p)
    (hyr : y.nr = x.nr) (hyc : y.nc = q) (hsm : Spec.SmoothAt (actW (n.hiddenLayers s)) x)
    (ho : (n.output.actfunc = Act.identity ∧ n.cost = Quadratic.cost ∧ n.output.costd = Quadratic.costd) ∨
      (n.output.actfunc = Act.sigmoid ∧ n.cost = CrossEntropy.cost ∧ n.output.costd = CrossEntropy.costd) ∨
      (n.output.actfunc = Act.identity ∧ n.cost = Softmax.cost ∧ n.output.costd = Softmax.costd ∧ ∀ i < y.nr, ∑ j ∈ range y.nc, y.f i j = 1))
    (hlam : ∀ L ∈ n.layers s, L.lambda = 0)
    {out : Mat ℝ} {s1 s2 : Store} {n1 n2 : Net} (hf : n.forwardprop junk s x = .ok (out, s1, n1)) (hb : n1.backprop junk s1 y = .ok (s2, n2))
    (hne : ∃ L ∈ n2.layers s2, ∃ i < L.W.nr, ∃ j < L.W.nc, L.grad.f i j ≠ 0) :
    ∃ ε > 0, ∃ J0, n.costOf junk s x y = .ok J0 ∧ ∀ r, 0 < r → r < ε →
      ∃ s' n' J', n.stepWith junk s r x y = .ok (s', n') ∧ n'.costOf junk s' x y = .ok J' ∧ J' < J0 := by
  refine C33_descent h hr hc hyr hsm ?_ hlam hf hb hne
  obtain ⟨d1, d2⟩ := outputZ_dims h hc
  rcases ho with ⟨ha, hcost, hcostd⟩ | ⟨ha, hcost, hcostd⟩ | ⟨ha, hcost, hcostd, hys⟩
  · obtain ⟨D, e, _, hG⟩ := C30_quadratic (y := y) (z := n.outputZ s x) (by omega) (by omega)
    exact ⟨D, by rw [ha, hcostd]; exact e, by rw [ha, hcost]; exact hG⟩
  · obtain ⟨D, e, _, hG⟩ := C30_crossentropy (y := y) (z := n.outputZ s x) (by omega) (by omega)
    exact ⟨D, by rw [ha, hcostd]; exact e, by rw [ha, hcost]; exact hG⟩
  · obtain ⟨D, e, hG, _⟩ := C30_softmax (y := y) (z := n.outputZ s x) (by omega) (by omega)
    exact ⟨D, by rw [ha, hcostd]; exact e, by rw [ha, hcost]; exact (hG hys).2⟩

/-- **C33 is false of the Kullback-Leibler output**: under the same conditions (positive labels and outputs) every small enough step strictly
*raises* the cost. -/
theorem C33_kullbackleibler_climbs {junk : Nat → Nat → ℝ} {s : Store} {n : Net} {p q : Nat} {x y : Mat ℝ} (h : n.WF s p q) (hr : 0 < x.nr)
    (hc : x.nc = p) (hyr : y.nr = x.nr) (hyc : y.nc = q) (hy : ∀ i < y.nr, ∀ j < y.nc, 0 < y.f i j)
    (hz : ∀ i < y.nr, ∀ j < y.nc, 0 < (n.outputZ s x).f i j)
    (hsm : Spec.SmoothAt (actW (n.hiddenLayers s)) x) (ha : n.output.actfunc = Act.identity)
    (hcost : n.cost = KullbackLeibler.cost) (hcostd : n.output.costd = KullbackLeibler.costd) (hlam : ∀ L ∈ n.layers s, L.lambda = 0)
    {out : Mat ℝ} {s1 s2 : Store} {n1 n2 : Net} (hf : n.forwardprop junk s x = .ok (out, s1, n1)) (hb : n1.backprop junk s1 y = .ok (s2, n2))
    (hne : ∃ L ∈ n2.layers s2, ∃ i < L.W.nr, ∃ j < L.W.nc, L.grad.f i j ≠ 0) :
    ∃ ε > 0, ∃ J0, n.costOf junk s x y = .ok J0 ∧ ∀ r, 0 < r → r < ε →
      ∃ s' n' J', n.stepWith junk s r x y = .ok (s', n') ∧ n'.costOf junk s' x y = .ok J' ∧ J0 < J' := by
  obtain ⟨d1, d2⟩ := outputZ_dims h hc
  obtain ⟨D, e, _, hG, _⟩ := C30_kullbackleibler_refuted (y := y) (z := n.outputZ s x) (by omega) (by omega) hy
    (fun i hi j hj => hz i (by omega) j (by omega))
  have hD1 : (D.smul (-1)).smul (-1) = D := Mat.ext' rfl rfl fun i j _ _ => by rw [Mat.smul_f, Mat.smul_f]; ring
  obtain ⟨J, d, h0, hst, hJ, hd⟩ := step_core (c := -1) (D' := D.smul (-1)) h hr hc hyr hsm (by rw [hD1, ha, hcostd]; exact e)
    (by rw [ha, hcost]; exact hG) hlam hf hb hne
  obtain ⟨ε, hε, hlt⟩ := lower_right (J := fun r => -J r) hJ.neg (by linarith)
  refine ⟨ε, hε, J 0, h0, fun r h1 h2 => ?_⟩
  obtain ⟨s', n', e1, e2⟩ := hst r
  exact ⟨s', n', J r, e1, e2, by have := hlt r h1 h2; linarith⟩

/-! ## A concrete case -/

/-- Five samples. -/
def exX : Mat ℝ := Mat.of 5 2 (fun i j => (i : ℝ) * j)

/-- Labels that are off by one everywhere. -/
def exY : Mat ℝ := Mat.of 5 2 (fun i j => (exNet.outputZ exStore exX).f i j - 1)

theorem exSmooth : Spec.SmoothAt (actW (exNet.hiddenLayers exStore)) exX :=
  ⟨fun _ _ _ _ => Act.C25_sigmoid _, trivial⟩

/-- The hypotheses of C29 and C33 hold of a concrete 2-3-2 network with a sigmoid layer and a non-zero gradient. -/
theorem exDescent (junk : Nat → Nat → ℝ) : ∃ out s1 n1 s2 n2, exNet.forwardprop junk exStore exX = .ok (out, s1, n1) ∧
    n1.backprop junk s1 exY = .ok (s2, n2) ∧ (∃ L ∈ n2.layers s2, ∃ i < L.W.nr, ∃ j < L.W.nc, L.grad.f i j ≠ 0) ∧
    (∀ L ∈ exNet.layers exStore, L.lambda = 0) ∧ Spec.OutputMatches exNet.output exNet.cost exY (exNet.outputZ exStore exX) := by
  have hz : (exNet.outputZ exStore exX).nr = 5 ∧ (exNet.outputZ exStore exX).nc = 2 := outputZ_dims exNet_wf rfl
  obtain ⟨D, e, _, hG⟩ := C30_quadratic (y := exY) (z := exNet.outputZ exStore exX) hz.1 hz.2
  obtain ⟨s1, n1, s2, n2, e1, e2, hb, _, _, hout⟩ := forward_backward (junk := junk) exNet_wf (x := exX) (y := exY) (D := D) (by show 0 < 5; omega) rfl rfl
    e (by rw [hG.1, hz.1]; rfl) (by rw [hG.2.1, hz.2])
  refine ⟨_, s1, n1, s2, n2, e1, e2, ⟨n2.output.toLayer, by simp [Net.layers], 0, ?_, 0, ?_, ?_⟩, ?_, D, e, hG⟩
  · rw [hout]; show 0 < 4; omega
  · rw [hout]; show 0 < 2; omega
  · have hD : D = Mat.of 5 2 (fun _ _ => 1 / 5) := by
      have e' := e
      unfold Quadratic.costd at e'
      rw [Mat.sub_ok (by exact hz.1) (by exact hz.2), ok_bind] at e'
      cases e'
      refine Mat.ext' hz.1 hz.2 fun i j hi hj => ?_
      replace hi : i < 5 := lt_of_lt_of_eq hi hz.1
      replace hj : j < 2 := lt_of_lt_of_eq hj hz.2
      rw [Mat.divS_f, Mat.of_f' (by exact lt_of_lt_of_eq hi hz.1.symm) (by exact lt_of_lt_of_eq hj hz.2.symm), Mat.map_f' (by rw [hz.1]; exact hi) (by rw [hz.2]; exact hj), Mat.of_f' hi hj]
      unfold exY
      rw [Mat.of_f' hi hj]
      show ((exNet.outputZ exStore exX).f i j - ((exNet.outputZ exStore exX).f i j - 1)) / ((5 : Nat) : ℝ) = 1 / 5
      norm_num
    rw [hout]
    show (Layer.regGrad _ D).f 0 0 ≠ 0
    unfold Layer.regGrad
    rw [Mat.of_f' (by show 0 < 4; omega) (by show 0 < 2; omega)]
    unfold Layer.gradOf
    rw [Mat.of_f' (by show 0 < _ + 1; omega) (by rw [hD]; show 0 < 2; omega)]
    have hl : (n1.output.toLayer.lambda : ℝ) = n1.output.toLayer.lambda := rfl
    have hsum : ∀ (o : Layer) (x : Mat ℝ), x.nr = 5 → ∑ i ∈ range (o.fwd x).pa.nr, (o.fwd x).pa.f i 0 * D.f i 0 = 1 := by
      intro o x hx
      have : ∀ i ∈ range x.nr, (ones1 x).f i 0 * D.f i 0 = 1 / 5 := by
        intro i hi
        have hi' := mem_range.1 hi
        unfold ones1
        rw [Mat.of_f' hi' (by omega), hD, Mat.of_f' (by omega) (by omega)]
        norm_num
      show ∑ i ∈ range x.nr, (ones1 x).f i 0 * D.f i 0 = 1
      rw [sum_congr rfl this, hx]
      norm_num
    rw [hsum _ _ rfl]
    show 1 + (0 : ℝ) * _ ≠ 0
    norm_num
  · intro L hL
    simp only [Net.layers, Net.hiddenLayers, exNet, exStore, List.map_cons, List.map_nil, List.cons_append, List.nil_append, List.mem_cons, List.not_mem_nil, or_false] at hL
    rcases hL with rfl | rfl <;> rfl

/-- C29 and C33 applied to it. -/
example (junk : Nat → Nat → ℝ) : Spec.BackpropGives 1 junk exStore exNet exX exY ∧
    ∃ ε > 0, ∃ J0, exNet.costOf junk exStore exX exY = .ok J0 ∧ ∀ r, 0 < r → r < ε →
      ∃ s' n' J', exNet.stepWith junk exStore r exX exY = .ok (s', n') ∧ n'.costOf junk s' exX exY = .ok J' ∧ J' < J0 := by
  obtain ⟨out, s1, n1, s2, n2, e1, e2, hne, hl, hm⟩ := exDescent junk
  exact ⟨C29_gradient exNet_wf (by show 0 < 5; omega) rfl rfl exSmooth hm,
    C33_descent exNet_wf (by show 0 < 5; omega) rfl rfl exSmooth hm hl e1 e2 hne⟩

end
end Nnet.NN
