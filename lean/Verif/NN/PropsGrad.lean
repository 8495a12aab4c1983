import Verif.NN.PropsCost
import Verif.NN.PropsForward
/-!
# C29 backpropagation computes the gradient, C33 update is a descent step
-/
namespace Nnet.NN
open Finset
noncomputable section

/-! ## Specification -/

/-- `computecost(forwardprop(x), y)`. -/
def Net.costOf (junk : Nat → Nat → ℝ) (s : Store) (n : Net) (x y : Mat ℝ) : Res ℝ := do
  let (r, _, n') ← n.forwardprop junk s x
  n'.computecost r y

/-- `F` never throws, and its value as a function of `t` has derivative `d` at `t0`. -/
def Spec.DerivOf (F : ℝ → Res ℝ) (t0 d : ℝ) : Prop := ∃ φ : ℝ → ℝ, (∀ t, F t = .ok (φ t)) ∧ HasDerivAt φ d t0

/-- The output layer's `costd` is the derivative of `cost` with respect to the pre-activations `z`, for the labels `y`. -/
def Spec.OutputMatches (o : OutputLayer) (cost : MatFunc) (y z : Mat ℝ) : Prop :=
  ∃ D, o.costd y (z.map o.actfunc.act) z = .ok D ∧ Spec.CostGrad o.actfunc.act cost y z D

/-- One gradient step: `forwardprop(x); backprop(y); update()`. -/
def Net.gradStep (junk : Nat → Nat → ℝ) (s : Store) (n : Net) (x y : Mat ℝ) : Res (Store × Net) := do
  let (_, s, n) ← n.forwardprop junk s x
  let (s, n) ← n.backprop junk s y
  n.update s

/-- Pre-activations of the output layer in the forward pass of `x`. -/
def Net.outputZ (s : Store) (n : Net) (x : Mat ℝ) : Mat ℝ :=
  Spec.pre n.output.W (Spec.denseNet ((n.hiddenLayers s).map (fun L => (L.actfunc.act, L.W))) x)

theorem outputZ_eq (s : Store) (n : Net) (x : Mat ℝ) : n.outputZ s x = Spec.pre n.output.W (outL (n.hiddenLayers s) x) := by
  unfold Net.outputZ
  rw [outL_eq_denseNet]

/-! ## Lemmas -/

theorem costOf_eq {junk : Nat → Nat → ℝ} {s : Store} {n : Net} {p q : Nat} {x y : Mat ℝ} (h : n.WF s p q) (hr : 0 < x.nr) (hc : x.nc = p) :
    n.costOf junk s x y = (do let J ← n.cost y (outL (n.layers s) x); .ok (sumall J)) := by
  obtain ⟨s', n', e, hb, _⟩ := Net.forwardprop_ok (junk := junk) h hr hc
  unfold Net.costOf
  rw [e, ok_bind]
  simp only
  unfold Net.computecost
  rw [hb.conf.cost]

/-- A matrix of zeros of the size of the weights. -/
def zeroOf (L : Layer) : Mat ℝ := Mat.of L.W.nr L.W.nc (fun _ _ => 0)

theorem along_zeroOf (L : Layer) (t : ℝ) : L.along (zeroOf L) t = L := by
  have : L.W.along (zeroOf L) t = L.W := by
    unfold Mat.along zeroOf
    conv_rhs => rw [← Mat.of_self L.W]
    apply Mat.of_congr
    intro i j hi hj
    rw [Mat.of_f' hi hj]; ring
  unfold Layer.along
  rw [this]

theorem along_unit (L : Layer) (i j : Nat) (t : ℝ) :
    L.along (unitMat L.W.nr L.W.nc i j) (t - L.W.f i j) = L.setw (L.W.put i j t) := by
  have : L.W.along (unitMat L.W.nr L.W.nc i j) (t - L.W.f i j) = L.W.put i j t := by
    unfold Mat.along unitMat Mat.put
    apply Mat.of_congr
    intro a b ha hb
    rw [Mat.of_f' ha hb]
    split
    · rename_i h; rw [h.1, h.2]; ring
    · ring
  unfold Layer.along Layer.setw
  rw [this]

/-- Direction `E` in layer `l`, no change in the others. -/
def dirs : List Layer → Nat → Mat ℝ → List (Mat ℝ)
  | [], _, _ => []
  | _ :: Ls, 0, E => E :: Ls.map zeroOf
  | L :: Ls, l + 1, E => zeroOf L :: dirs Ls l E

theorem alongL_zero : ∀ (Ls : List Layer) (t : ℝ), alongL Ls (Ls.map zeroOf) t = Ls
  | [], _ => rfl
  | L :: Ls, t => by
    show L.along (zeroOf L) t :: alongL Ls (Ls.map zeroOf) t = _
    rw [along_zeroOf, alongL_zero Ls]

theorem gradsFit_zero : ∀ (Ls : List Layer), GradsFit Ls (Ls.map zeroOf)
  | [] => trivial
  | _ :: Ls => ⟨rfl, rfl, gradsFit_zero Ls⟩

theorem dirs_spec : ∀ {Ls : List Layer} {l : Nat} {L : Layer} {i j : Nat}, Ls[l]? = some L →
    GradsFit Ls (dirs Ls l (unitMat L.W.nr L.W.nc i j)) ∧
    ∀ t, alongL Ls (dirs Ls l (unitMat L.W.nr L.W.nc i j)) (t - L.W.f i j) = Ls.set l (L.setw (L.W.put i j t))
  | [], l, L, i, j, h => by simp at h
  | M :: Ls, 0, L, i, j, h => by
    simp only [List.getElem?_cons_zero, Option.some.injEq] at h
    subst h
    refine ⟨⟨rfl, rfl, gradsFit_zero Ls⟩, fun t => ?_⟩
    show M.along _ _ :: alongL Ls (Ls.map zeroOf) _ = _
    rw [alongL_zero, along_unit]
    rfl
  | M :: Ls, l + 1, L, i, j, h => by
    simp only [List.getElem?_cons_succ] at h
    obtain ⟨h1, h2⟩ := dirs_spec (i := i) (j := j) h
    refine ⟨⟨rfl, rfl, h1⟩, fun t => ?_⟩
    show M.along (zeroOf M) _ :: alongL Ls (dirs Ls l _) _ = _
    rw [along_zeroOf, h2]
    rfl

theorem pair_zero : ∀ (Bs Ls : List Layer), pair Bs (Ls.map zeroOf) = 0
  | [], _ => by simp [pair]
  | _ :: _, [] => by simp [pair]
  | B :: Bs, L :: Ls => by
    show ip B.dataGrad (zeroOf L) + pair Bs (Ls.map zeroOf) = 0
    rw [pair_zero Bs Ls, zeroOf, ip_zero, zero_add]

theorem pair_dirs : ∀ {Bs Ls : List Layer} {l : Nat} {L B : Layer} {i j : Nat}, Bs.map (·.W) = Ls.map (·.W) → Ls[l]? = some L → Bs[l]? = some B →
    i < L.W.nr → j < L.W.nc → pair Bs (dirs Ls l (unitMat L.W.nr L.W.nc i j)) = B.grad.f i j - B.lambda * L.W.f i j
  | [], _, l, L, B, i, j, _, _, h, _, _ => by simp at h
  | _ :: _, [], l, L, B, i, j, _, h, _, _, _ => by simp at h
  | B' :: Bs, L' :: Ls, 0, L, B, i, j, hW, h1, h2, hi, hj => by
    simp only [List.getElem?_cons_zero, Option.some.injEq] at h1 h2
    subst h1 h2
    simp only [List.map_cons, List.cons.injEq] at hW
    show ip B'.dataGrad _ + pair Bs (Ls.map zeroOf) = _
    rw [pair_zero, add_zero, ← hW.1]
    rw [← hW.1] at hi hj
    have := ip_unit (D := B'.dataGrad) (i := i) (j := j) hi hj
    refine this.trans ?_
    unfold Layer.dataGrad
    rw [Mat.of_f' hi hj]
  | B' :: Bs, L' :: Ls, l + 1, L, B, i, j, hW, h1, h2, hi, hj => by
    simp only [List.getElem?_cons_succ] at h1 h2
    simp only [List.map_cons, List.cons.injEq] at hW
    show ip B'.dataGrad (zeroOf L') + pair Bs (dirs Ls l _) = _
    rw [pair_dirs hW.2 h1 h2 hi hj, zeroOf, ip_zero, zero_add]

/-- Forward and backward pass of a well-formed network, with the layers they leave. -/
theorem forward_backward {junk : Nat → Nat → ℝ} {s : Store} {n : Net} {p q : Nat} {x y D : Mat ℝ} (h : n.WF s p q) (hr : 0 < x.nr) (hc : x.nc = p)
    (hyr : y.nr = x.nr)
    (hD : n.output.costd y ((n.outputZ s x).map n.output.actfunc.act) (n.outputZ s x) = .ok D) (hD1 : D.nr = y.nr) (hD2 : D.nc = q) :
    ∃ s1 n1 s2 n2, n.forwardprop junk s x = .ok (outL (n.layers s) x, s1, n1) ∧ n1.backprop junk s1 y = .ok (s2, n2) ∧
      Net.Becomes s n s2 n2 (bwdNet (fwdL (n.hiddenLayers s) x) (n.output.toLayer.fwd (outL (n.hiddenLayers s) x)) D) ∧
      n2.getresult = outL (n.layers s) x ∧ n2.hiddenLayers s2 = (bwdL (fwdL (n.hiddenLayers s) x) (Layer.backOf D n.output.W)).1 ∧
      n2.output.toLayer = { n.output.toLayer.fwd (outL (n.hiddenLayers s) x) with
        delta := D, grad := (n.output.toLayer.fwd (outL (n.hiddenLayers s) x)).regGrad D } := by
  obtain ⟨s1, n1, e1, hb1, hres, ha, _⟩ := Net.forwardprop_ok (junk := junk) h hr hc
  have hlay : n1.layers s1 = fwdL (n.hiddenLayers s) x ++ [n.output.toLayer.fwd (outL (n.hiddenLayers s) x)] := by
    rw [hb1.layers, Net.layers, fwdL_append]; rfl
  have hh1 : n1.hiddenLayers s1 = fwdL (n.hiddenLayers s) x ∧ n1.output.toLayer = n.output.toLayer.fwd (outL (n.hiddenLayers s) x) := by
    unfold Net.layers at hlay
    have := List.append_inj' hlay rfl
    exact ⟨this.1, List.singleton_injective this.2⟩
  have hw1 : n1.WF s1 p q := hb1.wf h (by rw [fwdL_W]; exact h.fits)
  have hca : CachedL (n1.layers s1) y.nr := by
    rw [hb1.layers, hyr]
    exact fwdL_cached (q := q) (by rw [hc]; exact h.fits)
  have hD' : n1.output.costd y n1.output.a n1.output.z = .ok D := by
    rw [hb1.conf.ocostd, hh1.2]
    rw [outputZ_eq] at hD
    exact hD
  obtain ⟨s2, n2, e2, hb2, hres2, _, _⟩ := Net.backprop_ok (junk := junk) hw1 hca (by omega) hD' hD1 hD2
  rw [hh1.1, hh1.2] at hb2
  refine ⟨s1, n1, s2, n2, e1, e2, hb1.trans hb2, by rw [Net.getresult, hres2, hres], ?_⟩
  have hl2 := hb2.layers
  unfold Net.layers bwdNet at hl2
  have := List.append_inj' hl2 rfl
  exact ⟨this.1, List.singleton_injective this.2⟩

theorem bind_eq_ok {α β : Type _} {m : Res α} {f : α → Res β} {b : β} (h : (m >>= f) = .ok b) : ∃ a, m = .ok a ∧ f a = .ok b := by
  cases m with
  | error e => cases h
  | ok a => exact ⟨a, rfl, h⟩

theorem vecAt_some {α : Type _} {v : List α} {l : Nat} {r : α} (h : v[l]? = some r) : vecAt v (l : Int) = .ok r := by
  unfold vecAt
  rw [if_pos (by omega), Int.toNat_natCast, h]

theorem vecAt_none {α : Type _} {v : List α} {l : Nat} (h : v[l]? = none) : vecAt v (l : Int) = .error (.ub .vectorIndex) := by
  unfold vecAt
  rw [if_pos (by omega), Int.toNat_natCast, h]

theorem sethiddenw_layers {s : Store} {n : Net} {p q l : Nat} {L : Layer} (h : n.WF s p q) (hl : (n.hiddenLayers s)[l]? = some L) (w : Mat ℝ) :
    ∃ s', n.sethiddenw s l w = .ok s' ∧ n.hiddenLayers s' = (n.hiddenLayers s).set l (L.setw w) ∧ ∀ r ∈ n.hidden, (s' r).kind = .dense := by
  unfold Net.hiddenLayers at hl
  rw [List.getElem?_map] at hl
  cases hp : n.hidden[l]? with
  | none => rw [hp] at hl; simp at hl
  | some r =>
    rw [hp] at hl
    simp only [Option.map_some, Option.some.injEq] at hl
    obtain ⟨hlt, hget⟩ := List.getElem?_eq_some_iff.1 hp
    refine ⟨s.put r ((s r).setw w), ?_, ?_, fun r' hr' => ?_⟩
    · unfold Net.sethiddenw
      rw [vecAt_some hp]
      rfl
    · unfold Net.hiddenLayers
      apply List.ext_getElem
      · simp
      · intro m hm1 hm2
        simp only [List.length_map] at hm1
        rw [List.getElem_map, List.getElem_set, List.getElem_map]
        by_cases hml : l = m
        · subst hml
          rw [if_pos rfl, hget, put_same, ← hl]
          rfl
        · rw [if_neg hml, put_other]
          intro heq
          exact hml ((List.Nodup.getElem_inj_iff h.nodup).1 (hget.trans heq.symm))
    · by_cases hrr : r' = r
      · subst hrr; rw [put_same]; exact h.dense r' hr'
      · rw [put_other hrr]; exact h.dense r' hr'

theorem fits_set : ∀ {Ls : List Layer} {l p q : Nat} {L : Layer} {w : Mat ℝ}, Spec.Fits p (Ls.map (·.W)) q → Ls[l]? = some L → w.nr = L.W.nr →
    w.nc = L.W.nc → Spec.Fits p ((Ls.set l (L.setw w)).map (·.W)) q
  | [], l, p, q, L, w, _, h, _, _ => by simp at h
  | M :: Ls, 0, p, q, L, w, hf, h, h1, h2 => by
    simp only [List.getElem?_cons_zero, Option.some.injEq] at h
    subst h
    simp only [List.map_cons, Spec.Fits] at hf
    show w.nr = p + 1 ∧ 0 < w.nc ∧ Spec.Fits w.nc _ q
    rw [h1, h2]
    exact hf
  | M :: Ls, l + 1, p, q, L, w, hf, h, h1, h2 => by
    simp only [List.map_cons, Spec.Fits] at hf
    simp only [List.getElem?_cons_succ] at h
    exact ⟨hf.1, hf.2.1, fits_set hf.2.2 h h1 h2⟩

theorem hiddenLayer_get {s : Store} {n : Net} {l : Nat} {L : Layer} (h : n.gethidden s l = .ok L) : (n.hiddenLayers s)[l]? = some L := by
  unfold Net.gethidden at h
  unfold Net.hiddenLayers
  rw [List.getElem?_map]
  cases hp : n.hidden[l]? with
  | none => rw [vecAt_none hp] at h; cases h
  | some r =>
    rw [vecAt_some hp] at h
    cases h
    rfl

theorem gethidden_of {s : Store} {n : Net} {l : Nat} {L : Layer} (h : (n.hiddenLayers s)[l]? = some L) : n.gethidden s l = .ok L := by
  unfold Net.hiddenLayers at h
  rw [List.getElem?_map] at h
  unfold Net.gethidden
  cases hp : n.hidden[l]? with
  | none => rw [hp] at h; simp at h
  | some r =>
    rw [hp] at h
    simp only [Option.map_some, Option.some.injEq] at h
    subst h
    rw [vecAt_some hp]
    rfl

/-- Layer by layer, the backward pass keeps weights, lambda, rate and activation. -/
theorem bwd_get : ∀ {Ls : List Layer} {x d : Mat ℝ} {l : Nat} {L : Layer}, Ls[l]? = some L →
    ∃ B, (bwdL (fwdL Ls x) d).1[l]? = some B ∧ B.W = L.W ∧ B.lambda = L.lambda ∧ B.lrate = L.lrate ∧ B.actfunc = L.actfunc
  | [], x, d, l, L, h => by simp at h
  | M :: Ls, x, d, 0, L, h => by
    simp only [List.getElem?_cons_zero, Option.some.injEq] at h
    subst h
    exact ⟨_, rfl, rfl, rfl, rfl, rfl⟩
  | M :: Ls, x, d, l + 1, L, h => by
    simp only [List.getElem?_cons_succ] at h
    exact bwd_get (x := (M.fwd x).a) (d := d) h

/-! ### The backward pass is linear in the derivative it starts from -/

theorem backOf_smul (D W : Mat ℝ) (c : ℝ) : Layer.backOf (D.smul c) W = (Layer.backOf D W).smul c := by
  refine Mat.ext' rfl rfl fun i k hi hk => ?_
  rw [Mat.smul_f]
  unfold Layer.backOf
  rw [Mat.of_f' (by exact hi) (by exact hk), Mat.of_f' (by exact hi) (by exact hk), mul_sum]
  refine sum_congr rfl fun j _ => ?_
  rw [Mat.smul_f]; ring

theorem dz_smul (L : Layer) (d : Mat ℝ) (c : ℝ) : L.dz (d.smul c) = (L.dz d).smul c := by
  refine Mat.ext' rfl rfl fun i k hi hk => ?_
  rw [Mat.smul_f]
  unfold Layer.dz
  rw [Mat.of_f' (by exact hi) (by exact hk), Mat.of_f' (by exact hi) (by exact hk), Mat.smul_f]; ring

theorem gradOf_smul (pa D : Mat ℝ) (c : ℝ) : Layer.gradOf pa (D.smul c) = (Layer.gradOf pa D).smul c := by
  refine Mat.ext' rfl rfl fun i k hi hk => ?_
  rw [Mat.smul_f]
  unfold Layer.gradOf
  rw [Mat.of_f' (by exact hi) (by exact hk), Mat.of_f' (by exact hi) (by exact hk), mul_sum]
  refine sum_congr rfl fun j _ => ?_
  rw [Mat.smul_f]; ring

theorem dataGrad_smul (L : Layer) (D : Mat ℝ) (c : ℝ) :
    ({ L with delta := D.smul c, grad := L.regGrad (D.smul c) } : Layer).dataGrad =
    ({ L with delta := D, grad := L.regGrad D } : Layer).dataGrad.smul c := by
  refine Mat.ext' rfl rfl fun i k hi hk => ?_
  replace hi : i < L.W.nr := hi
  replace hk : k < L.W.nc := hk
  rw [Mat.smul_f]
  unfold Layer.dataGrad Layer.regGrad
  simp only
  rw [Mat.of_f' hi hk, Mat.of_f' hi hk, Mat.of_f' hi hk, Mat.of_f' hi hk, gradOf_smul, Mat.smul_f]
  ring

theorem ip_smul (A V : Mat ℝ) (c : ℝ) : ip (A.smul c) V = c * ip A V := by
  unfold ip
  rw [mul_sum]
  refine sum_congr rfl fun i _ => ?_
  rw [mul_sum]
  refine sum_congr rfl fun j _ => ?_
  rw [Mat.smul_f]; ring

theorem bwdL_smul : ∀ (Ls : List Layer) (d : Mat ℝ) (c : ℝ), (bwdL Ls (d.smul c)).2 = (bwdL Ls d).2.smul c ∧
    (bwdL Ls (d.smul c)).1.map Layer.dataGrad = ((bwdL Ls d).1.map Layer.dataGrad).map (Mat.smul c)
  | [], _, _ => ⟨rfl, rfl⟩
  | L :: Ls, d, c => by
    obtain ⟨h1, h2⟩ := bwdL_smul Ls d c
    refine ⟨?_, ?_⟩
    · show Layer.backOf (L.dz (bwdL Ls (d.smul c)).2) L.W = _
      rw [h1, dz_smul, backOf_smul]
      rfl
    · show (L.bwd (bwdL Ls (d.smul c)).2).dataGrad :: (bwdL Ls (d.smul c)).1.map Layer.dataGrad = _
      rw [h1, h2]
      unfold Layer.bwd
      rw [dz_smul, dataGrad_smul]
      rfl

/-- Sum over the layers of the products of gradient and direction, from the gradients alone. -/
def pairM : List (Mat ℝ) → List (Mat ℝ) → ℝ
  | G :: Gs, V :: Vs => ip G V + pairM Gs Vs
  | _, _ => 0

theorem pair_eq : ∀ (Ls : List Layer) (Vs : List (Mat ℝ)), pair Ls Vs = pairM (Ls.map Layer.dataGrad) Vs
  | [], _ => rfl
  | _ :: _, [] => rfl
  | L :: Ls, V :: Vs => by
    show _ + pair Ls Vs = _ + pairM _ Vs
    rw [pair_eq Ls Vs]

theorem pairM_smul (c : ℝ) : ∀ (Gs Vs : List (Mat ℝ)), pairM (Gs.map (Mat.smul c)) Vs = c * pairM Gs Vs
  | [], _ => by simp [pairM]
  | _ :: _, [] => by simp [pairM]
  | G :: Gs, V :: Vs => by
    show ip (G.smul c) V + pairM (Gs.map (Mat.smul c)) Vs = c * (ip G V + pairM Gs Vs)
    rw [pairM_smul c Gs Vs, ip_smul]; ring

theorem bwdNet_smul (hs : List Layer) (o : Layer) (D : Mat ℝ) (c : ℝ) :
    (bwdNet hs o (D.smul c)).map Layer.dataGrad = ((bwdNet hs o D).map Layer.dataGrad).map (Mat.smul c) := by
  unfold bwdNet
  rw [backOf_smul, List.map_append, (bwdL_smul hs (Layer.backOf D o.W) c).2, List.map_append, List.map_append]
  simp only [List.map_cons, List.map_nil]
  rw [dataGrad_smul]

theorem pair_bwdNet_smul (hs : List Layer) (o : Layer) (D : Mat ℝ) (c : ℝ) (Vs : List (Mat ℝ)) :
    pair (bwdNet hs o (D.smul c)) Vs = c * pair (bwdNet hs o D) Vs := by
  rw [pair_eq, pair_eq, bwdNet_smul, pairM_smul]

/-! ## C29 -/

/-- After `forwardprop(x); backprop(y)`, which succeed, the gradient reported for every weight of every hidden layer and of the output
layer is `c` times the derivative of `computecost(forwardprop(x), y)` as a function of that one weight, at its current value, plus
`lambda` times the weight. -/
def Spec.BackpropGives (c : ℝ) (junk : Nat → Nat → ℝ) (s : Store) (n : Net) (x y : Mat ℝ) : Prop :=
    ∃ out s1 n1 s2 n2, n.forwardprop junk s x = .ok (out, s1, n1) ∧ n1.backprop junk s1 y = .ok (s2, n2) ∧
      (∀ l L, n.gethidden s l = .ok L → ∃ L2, n2.gethidden s2 l = .ok L2 ∧ L2.W = L.W ∧ L2.lambda = L.lambda ∧
        ∀ i < L.W.nr, ∀ j < L.W.nc, ∃ d,
          Spec.DerivOf (fun t => do let s' ← n.sethiddenw s l (L.W.put i j t); n.costOf junk s' x y) (L.W.f i j) d ∧
          L2.grad.f i j = c * d + L.lambda * L.W.f i j) ∧
      n2.output.W = n.output.W ∧ n2.output.lambda = n.output.lambda ∧
      (∀ i < n.output.W.nr, ∀ j < n.output.W.nc, ∃ d,
          Spec.DerivOf (fun t => (n.setoutputw (n.output.W.put i j t)).costOf junk s x y) (n.output.W.f i j) d ∧
          n2.output.grad.f i j = c * d + n.output.lambda * n.output.W.f i j)

theorem backprop_gives {junk : Nat → Nat → ℝ} {s : Store} {n : Net} {p q : Nat} {x y D' : Mat ℝ} {c : ℝ} (h : n.WF s p q) (hr : 0 < x.nr) (hc : x.nc = p)
    (hyr : y.nr = x.nr) (hsm : Spec.SmoothAt (actW (n.hiddenLayers s)) x)
    (hD : n.output.costd y ((n.outputZ s x).map n.output.actfunc.act) (n.outputZ s x) = .ok (D'.smul c))
    (hG : Spec.CostGrad n.output.actfunc.act n.cost y (n.outputZ s x) D') : Spec.BackpropGives c junk s n x y := by
  obtain ⟨D, hDdef⟩ : ∃ D, D = D'.smul c := ⟨_, rfl⟩
  rw [← hDdef] at hD
  have hDn : D.nr = D'.nr ∧ D.nc = D'.nc := by rw [hDdef]; exact ⟨rfl, rfl⟩
  have hf := h.fits
  unfold Net.layers at hf
  rw [List.map_append, fits_append] at hf
  obtain ⟨r, hf1, hf2⟩ := hf
  simp only [List.map_cons, List.map_nil, Spec.Fits] at hf2
  have hfx : Spec.Fits x.nc ((n.hiddenLayers s).map (·.W)) r := by rw [hc]; exact hf1
  have hd := outL_dims (Ls := n.hiddenLayers s) (x := x) hfx
  have hz1 : (n.outputZ s x).nr = x.nr := by rw [outputZ_eq]; exact hd.1
  have hz2 : (n.outputZ s x).nc = q := by rw [outputZ_eq]; exact hf2.2.2
  obtain ⟨s1, n1, s2, n2, e1, e2, hb, _, hhid, hout⟩ := forward_backward (junk := junk) h hr hc hyr hD (by rw [hDn.1, hG.1, hz1, hyr]) (by rw [hDn.2, hG.2.1, hz2])
  have hG' : Spec.CostGrad n.output.actfunc.act n.cost y (Spec.pre n.output.W (outL (n.hiddenLayers s) x)) D' := by
    rw [← outputZ_eq]; exact hG
  refine ⟨_, s1, n1, s2, n2, e1, e2, fun l L hL => ?_, by rw [hout]; rfl, by rw [hout]; rfl, fun i hi j hj => ?_⟩
  · have hget := hiddenLayer_get hL
    obtain ⟨B, hB, hBW, hBl, _⟩ := bwd_get (x := x) (d := Layer.backOf D n.output.W) hget
    refine ⟨B, gethidden_of (by rw [hhid]; exact hB), hBW, hBl, fun i hi j hj => ?_⟩
    obtain ⟨hgf, hal⟩ := dirs_spec (i := i) (j := j) hget
    obtain ⟨J, hJ1, hJ2⟩ := net_hasD (V := zeroOf n.output.toLayer) (o := n.output.toLayer) (y := y) hc hf1 hf2.1 hgf hsm hG'
    have hlen : (dirs (n.hiddenLayers s) l (unitMat L.W.nr L.W.nc i j)).length = (n.hiddenLayers s).length := by
      have : ∀ (Ls : List Layer) (l : Nat) (E : Mat ℝ), (dirs Ls l E).length = Ls.length := by
        intro Ls
        induction Ls with
        | nil => intro l E; rfl
        | cons M Ls ih =>
          intro l E
          cases l with
          | zero => simp [dirs]
          | succ l => simp [dirs, ih]
      exact this _ _ _
    have hpair : pair (bwdNet (fwdL (n.hiddenLayers s) x) (n.output.toLayer.fwd (outL (n.hiddenLayers s) x)) D)
        ((dirs (n.hiddenLayers s) l (unitMat L.W.nr L.W.nc i j)).take (n.hiddenLayers s).length ++ [zeroOf n.output.toLayer]) =
        B.grad.f i j - B.lambda * L.W.f i j := by
      rw [← hlen, List.take_length]
      have ed : ∀ (Ls : List Layer) (l : Nat) (E : Mat ℝ) (o : Layer), l < Ls.length → dirs Ls l E ++ [zeroOf o] = dirs (Ls ++ [o]) l E := by
        intro Ls
        induction Ls with
        | nil => intro l E o h; simp at h
        | cons M Ls ih =>
          intro l E o hl
          cases l with
          | zero => simp [dirs]
          | succ l =>
            show zeroOf M :: (dirs Ls l E ++ [zeroOf o]) = zeroOf M :: dirs (Ls ++ [o]) l E
            rw [ih l E o (by simpa using hl)]
      have hlt : l < (n.hiddenLayers s).length := (List.getElem?_eq_some_iff.1 hget).1
      rw [ed _ _ _ _ hlt]
      refine pair_dirs ?_ (by rw [List.getElem?_append_left hlt]; exact hget) ?_ hi hj
      · unfold bwdNet
        rw [List.map_append, List.map_append, bwdL_W, fwdL_W]
        rfl
      · unfold bwdNet
        rw [List.getElem?_append_left]
        · exact hB
        · exact (List.getElem?_eq_some_iff.1 hB).1
    rw [hDdef, pair_bwdNet_smul] at hpair
    refine ⟨_, ⟨fun t => J (t - L.W.f i j), fun t => ?_, ?_⟩, by rw [hpair, hBl]; ring⟩
    · obtain ⟨s', es, hs', hk⟩ := sethiddenw_layers h hget (L.W.put i j t)
      simp only
      rw [es, ok_bind]
      have hw' : n.WF s' p q := by
        refine ⟨h.nodup, hk, h.pos, ?_⟩
        unfold Net.layers
        rw [hs', List.map_append, fits_append]
        exact ⟨r, fits_set hf1 hget rfl rfl, hf2⟩
      rw [costOf_eq hw' hr hc]
      obtain ⟨M, hM, hJ⟩ := hJ1 (t - L.W.f i j)
      rw [hal t, along_zeroOf] at hM
      have hl' : n.layers s' = (n.hiddenLayers s).set l (L.setw (L.W.put i j t)) ++ [n.output.toLayer] := by
        unfold Net.layers
        rw [hs']
      rw [hl', hM, ok_bind, hJ]
    · have hs : HasDerivAt (fun t : ℝ => t - L.W.f i j) 1 (L.W.f i j) := (hasDerivAt_id _).sub_const _
      rw [← sub_self (L.W.f i j)] at hJ2
      have h2' := hJ2
      exact (HasDerivAt.comp (h := fun t => t - L.W.f i j) (L.W.f i j) h2' hs).congr_deriv (by rw [mul_one])
  · obtain ⟨J, hJ1, hJ2⟩ := net_hasD (V := unitMat n.output.W.nr n.output.W.nc i j) (o := n.output.toLayer) (y := y) hc hf1 hf2.1
      (gradsFit_zero (n.hiddenLayers s)) hsm hG'
    have hpair : pair (bwdNet (fwdL (n.hiddenLayers s) x) (n.output.toLayer.fwd (outL (n.hiddenLayers s) x)) D)
        (((n.hiddenLayers s).map zeroOf).take (n.hiddenLayers s).length ++ [unitMat n.output.W.nr n.output.W.nc i j]) =
        n2.output.grad.f i j - n2.output.lambda * n.output.W.f i j := by
      rw [List.take_of_length_le (by simp)]
      have ed : ∀ (Ls : List Layer) (E : Mat ℝ) (o : Layer), Ls.map zeroOf ++ [E] = dirs (Ls ++ [o]) Ls.length E := by
        intro Ls
        induction Ls with
        | nil => intro E o; rfl
        | cons M Ls ih =>
          intro E o
          show zeroOf M :: (Ls.map zeroOf ++ [E]) = zeroOf M :: dirs (Ls ++ [o]) Ls.length E
          rw [ih]
      rw [ed _ _ n.output.toLayer]
      have hlen : (bwdL (fwdL (n.hiddenLayers s) x) (Layer.backOf D n.output.W)).1.length = (n.hiddenLayers s).length := by
        have := congrArg List.length (bwdL_W (fwdL (n.hiddenLayers s) x) (Layer.backOf D n.output.W))
        rw [fwdL_W] at this
        simpa using this
      refine pair_dirs (L := n.output.toLayer) (B := n2.output.toLayer) ?_ (by simp) ?_ hi hj
      · unfold bwdNet
        rw [List.map_append, List.map_append, bwdL_W, fwdL_W]
        rfl
      · unfold bwdNet
        rw [show (n.output.toLayer.fwd (outL (n.hiddenLayers s) x)).W = n.output.W from rfl, ← hlen, List.getElem?_append_right (le_refl _), Nat.sub_self, hout]
        rfl
    rw [hDdef, pair_bwdNet_smul] at hpair
    have hlam : n2.output.lambda = n.output.lambda := by rw [hout]; rfl
    refine ⟨_, ⟨fun t => J (t - n.output.W.f i j), fun t => ?_, ?_⟩, by rw [hpair, hlam]; ring⟩
    · have hw' : (n.setoutputw (n.output.W.put i j t)).WF s p q := by
        refine ⟨h.nodup, h.dense, h.pos, ?_⟩
        unfold Net.layers
        rw [List.map_append, fits_append]
        exact ⟨r, hf1, hf2⟩
      simp only
      rw [costOf_eq hw' hr hc]
      obtain ⟨M, hM, hJ⟩ := hJ1 (t - n.output.W.f i j)
      rw [alongL_zero, along_unit] at hM
      have hl' : (n.setoutputw (n.output.W.put i j t)).layers s = n.hiddenLayers s ++ [n.output.toLayer.setw (n.output.W.put i j t)] := rfl
      rw [hl', show (n.setoutputw (n.output.W.put i j t)).cost = n.cost from rfl, hM, ok_bind, hJ]
    · have hs : HasDerivAt (fun t : ℝ => t - n.output.W.f i j) 1 (n.output.W.f i j) := (hasDerivAt_id _).sub_const _
      rw [← sub_self (n.output.W.f i j)] at hJ2
      have h2' := hJ2
      exact (HasDerivAt.comp (h := fun t => t - n.output.W.f i j) (n.output.W.f i j) h2' hs).congr_deriv (by rw [mul_one])

/-- **C29.** For a well-formed network of dense layers, a batch `x` of the right width, labels `y` of matching size, hidden activations
differentiable where they are evaluated and an output layer whose `costd` is the derivative of the cost, backpropagation reports the
gradient of the cost (plus `lambda` times the weight). -/
theorem C29_gradient {junk : Nat → Nat → ℝ} {s : Store} {n : Net} {p q : Nat} {x y : Mat ℝ} (h : n.WF s p q) (hr : 0 < x.nr) (hc : x.nc = p)
    (hyr : y.nr = x.nr) (hsm : Spec.SmoothAt (actW (n.hiddenLayers s)) x)
    (hm : Spec.OutputMatches n.output n.cost y (n.outputZ s x)) : Spec.BackpropGives 1 junk s n x y := by
  obtain ⟨D, hD, hG⟩ := hm
  refine backprop_gives (D' := D) h hr hc hyr hsm ?_ hG
  rw [hD]
  congr 1
  refine Mat.ext' rfl rfl fun i j _ _ => ?_
  rw [Mat.smul_f, one_mul]

theorem outputZ_dims {s : Store} {n : Net} {p q : Nat} {x : Mat ℝ} (h : n.WF s p q) (hc : x.nc = p) :
    (n.outputZ s x).nr = x.nr ∧ (n.outputZ s x).nc = q := by
  have hf := h.fits
  unfold Net.layers at hf
  rw [List.map_append, fits_append] at hf
  obtain ⟨r, hf1, hf2⟩ := hf
  simp only [List.map_cons, List.map_nil, Spec.Fits] at hf2
  rw [outputZ_eq]
  exact ⟨(outL_dims (Ls := n.hiddenLayers s) (x := x) (q := r) (by rw [hc]; exact hf1)).1, hf2.2.2⟩

/-- **C29, quadratic output.** -/
theorem C29_quadratic {junk : Nat → Nat → ℝ} {s : Store} {n : Net} {p q : Nat} {x y : Mat ℝ} (h : n.WF s p q) (hr : 0 < x.nr) (hc : x.nc = p)
    (hyr : y.nr = x.nr) (hyc : y.nc = q) (hsm : Spec.SmoothAt (actW (n.hiddenLayers s)) x) (ha : n.output.actfunc = Act.identity)
    (hcost : n.cost = Quadratic.cost) (hcostd : n.output.costd = Quadratic.costd) : Spec.BackpropGives 1 junk s n x y := by
  refine C29_gradient h hr hc hyr hsm ?_
  obtain ⟨d1, d2⟩ := outputZ_dims h hc
  obtain ⟨D, e, _, hG⟩ := C30_quadratic (y := y) (z := n.outputZ s x) (by omega) (by omega)
  exact ⟨D, by rw [ha, hcostd]; exact e, by rw [ha, hcost]; exact hG⟩

/-- **C29, cross-entropy output.** -/
theorem C29_crossentropy {junk : Nat → Nat → ℝ} {s : Store} {n : Net} {p q : Nat} {x y : Mat ℝ} (h : n.WF s p q) (hr : 0 < x.nr) (hc : x.nc = p)
    (hyr : y.nr = x.nr) (hyc : y.nc = q) (hsm : Spec.SmoothAt (actW (n.hiddenLayers s)) x) (ha : n.output.actfunc = Act.sigmoid)
    (hcost : n.cost = CrossEntropy.cost) (hcostd : n.output.costd = CrossEntropy.costd) : Spec.BackpropGives 1 junk s n x y := by
  refine C29_gradient h hr hc hyr hsm ?_
  obtain ⟨d1, d2⟩ := outputZ_dims h hc
  obtain ⟨D, e, _, hG⟩ := C30_crossentropy (y := y) (z := n.outputZ s x) (by omega) (by omega)
  exact ⟨D, by rw [ha, hcostd]; exact e, by rw [ha, hcost]; exact hG⟩

/-- **C29, softmax output**, for label rows that sum to 1. -/
theorem C29_softmax {junk : Nat → Nat → ℝ} {s : Store} {n : Net} {p q : Nat} {x y : Mat ℝ} (h : n.WF s p q) (hr : 0 < x.nr) (hc : x.nc = p)
    (hyr : y.nr = x.nr) (hyc : y.nc = q) (hys : ∀ i < y.nr, ∑ j ∈ range y.nc, y.f i j = 1)
    (hsm : Spec.SmoothAt (actW (n.hiddenLayers s)) x) (ha : n.output.actfunc = Act.identity)
    (hcost : n.cost = Softmax.cost) (hcostd : n.output.costd = Softmax.costd) : Spec.BackpropGives 1 junk s n x y := by
  refine C29_gradient h hr hc hyr hsm ?_
  obtain ⟨d1, d2⟩ := outputZ_dims h hc
  obtain ⟨D, e, hG, _⟩ := C30_softmax (y := y) (z := n.outputZ s x) (by omega) (by omega)
  exact ⟨D, by rw [ha, hcostd]; exact e, by rw [ha, hcost]; exact (hG hys).2⟩

/-- **C29 is false of the Kullback-Leibler output**: with positive labels and outputs every reported gradient is the *negative* of the derivative
(plus the regularisation term), so `update` climbs. -/
theorem C29_kullbackleibler_refuted {junk : Nat → Nat → ℝ} {s : Store} {n : Net} {p q : Nat} {x y : Mat ℝ} (h : n.WF s p q) (hr : 0 < x.nr)
    (hc : x.nc = p) (hyr : y.nr = x.nr) (hyc : y.nc = q) (hy : ∀ i < y.nr, ∀ j < y.nc, 0 < y.f i j)
    (hz : ∀ i < y.nr, ∀ j < y.nc, 0 < (n.outputZ s x).f i j)
    (hsm : Spec.SmoothAt (actW (n.hiddenLayers s)) x) (ha : n.output.actfunc = Act.identity)
    (hcost : n.cost = KullbackLeibler.cost) (hcostd : n.output.costd = KullbackLeibler.costd) : Spec.BackpropGives (-1) junk s n x y := by
  obtain ⟨d1, d2⟩ := outputZ_dims h hc
  obtain ⟨D, e, _, hG, _⟩ := C30_kullbackleibler_refuted (y := y) (z := n.outputZ s x) (by omega) (by omega) hy
    (fun i hi j hj => hz i (by omega) j (by omega))
  refine backprop_gives (D' := D.smul (-1)) h hr hc hyr hsm ?_ (by rw [ha, hcost]; exact hG)
  rw [ha, hcostd, e]
  congr 1
  refine Mat.ext' rfl rfl fun i j _ _ => ?_
  rw [Mat.smul_f, Mat.smul_f]; ring

/-- Networks built by the constructors with the library's output layers meet the conditions on the output layer. -/
theorem C29_constructors {dist : Draws} {junk : Nat → Nat → ℝ} {inp : Layer} {o : OutputLayer} {hid : List Nat} {n : Net} {k c : Int} {r d l : ℝ}
    (hn : Net.new dist junk inp o hid = .ok n) :
    (Quadratic.new dist junk k c r d l = .ok o → n.output.actfunc = Act.identity ∧ n.cost = Quadratic.cost ∧ n.output.costd = Quadratic.costd) ∧
    (CrossEntropy.new dist junk k c r d l = .ok o → n.output.actfunc = Act.sigmoid ∧ n.cost = CrossEntropy.cost ∧ n.output.costd = CrossEntropy.costd) ∧
    (Softmax.new dist junk k c r d l = .ok o → n.output.actfunc = Act.identity ∧ n.cost = Softmax.cost ∧ n.output.costd = Softmax.costd) ∧
    (KullbackLeibler.new dist junk k c r d l = .ok o → n.output.actfunc = Act.identity ∧ n.cost = KullbackLeibler.cost ∧ n.output.costd = KullbackLeibler.costd) := by
  have h1 : n.output.actfunc = o.actfunc ∧ n.cost = o.cost ∧ n.output.costd = o.costd := by
    unfold Net.new at hn
    obtain ⟨i1, _, hn⟩ := bind_eq_ok hn
    obtain ⟨i2, _, hn⟩ := bind_eq_ok hn
    cases hn
    exact ⟨rfl, rfl, rfl⟩
  have h2 : ∀ {act cost costd}, OutputLayer.newDev dist junk k c r d l act cost costd = .ok o → o.actfunc = act ∧ o.cost = cost ∧ o.costd = costd := by
    intro act cost costd ho
    unfold OutputLayer.newDev at ho
    obtain ⟨L, hL, ho⟩ := bind_eq_ok ho
    cases ho
    refine ⟨?_, rfl, rfl⟩
    unfold Layer.newDev at hL
    obtain ⟨W, _, hL⟩ := bind_eq_ok hL
    obtain ⟨g, _, hL⟩ := bind_eq_ok hL
    unfold Layer.randominit at hL
    obtain ⟨w, _, hL⟩ := bind_eq_ok hL
    obtain ⟨dd, _, hL⟩ := bind_eq_ok hL
    cases hL
    rfl
  rw [h1.1, h1.2.1, h1.2.2]
  exact ⟨h2, h2, h2, h2⟩

end
end Nnet.NN
