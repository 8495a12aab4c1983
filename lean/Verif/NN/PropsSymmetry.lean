import Verif.NN.PropsResume
/-!
# C80: renumbering the units of the hidden layers changes nothing, and equal units stay equal
-/
namespace Nnet.NN
open Finset
noncomputable section

/-! ## Specification -/

/-- The row of the weights that holds what unit `k` of the layer before contributes is `k + 1`; row 0 holds the biases. Here the units of the layer before are renumbered by `ρ`. -/
def Spec.rowOf (ρ : Equiv.Perm Nat) : Nat → Nat
  | 0 => 0
  | k + 1 => ρ k + 1

/-- The weights of a layer when its units are renumbered by `π` and those of the layer before by `ρ`. -/
def Spec.renumber (ρ π : Equiv.Perm Nat) (W : Mat ℝ) : Mat ℝ := Mat.of W.nr W.nc (fun i j => W.f (Spec.rowOf ρ i) (π j))

/-- The layers of a network when the units of its hidden layers are renumbered by the permutations in the list, first layer first; `ρ` renumbers the inputs. The units of the
output layer (the one left when the list is used up) keep their numbers. -/
def Spec.renumberAll : Equiv.Perm Nat → List (Equiv.Perm Nat) → List (ℝ × ℝ × ActFunc ℝ × Mat ℝ) → List (ℝ × ℝ × ActFunc ℝ × Mat ℝ)
  | _, _, [] => []
  | ρ, ps, (lrate, lambda, act, W) :: cs => (lrate, lambda, act, Spec.renumber ρ (ps.headD 1) W) :: Spec.renumberAll (ps.headD 1) ps.tail cs

/-- One permutation for each hidden layer, of the numbers of its units. -/
def Spec.PermsFit (ps : List (Equiv.Perm Nat)) (s : Store) (n : Net) : Prop := List.Forall₂ Spec.Permutes ps ((n.hiddenLayers s).map (fun L => L.W.nc))

/-! ## Lemmas -/

open Spec

/-- The columns of `m` in another order. -/
def colsOf (m : Mat ℝ) (π : Equiv.Perm Nat) : Mat ℝ := Mat.of m.nr m.nc (fun i j => m.f i (π j))

theorem colsOf_f {m : Mat ℝ} {π : Equiv.Perm Nat} {i j : Nat} (hi : i < m.nr) (hj : j < m.nc) : (colsOf m π).f i j = m.f i (π j) := Mat.of_f' hi hj

theorem colsOf_one (m : Mat ℝ) : colsOf m 1 = m := Mat.ext' rfl rfl fun _ _ hi hj => colsOf_f (by exact hi) (by exact hj)

theorem renumber_f {ρ π : Equiv.Perm Nat} {W : Mat ℝ} {i j : Nat} (hi : i < W.nr) (hj : j < W.nc) : (renumber ρ π W).f i j = W.f (rowOf ρ i) (π j) := Mat.of_f' hi hj

theorem rowOf_lt {ρ : Equiv.Perm Nat} {m : Nat} (h : Permutes ρ m) : ∀ {i : Nat}, i < m + 1 → rowOf ρ i < m + 1
  | 0, _ => Nat.succ_pos _
  | k + 1, hk => Nat.succ_lt_succ (h k (by omega))

theorem permutes_one (m : Nat) : Permutes 1 m := fun _ h => h

theorem map_cols {m : Mat ℝ} {π : Equiv.Perm Nat} (h : Permutes π m.nc) (g : ℝ → ℝ) : (colsOf m π).map g = colsOf (m.map g) π := by
  refine Mat.ext' rfl rfl fun a b ha hb => ?_
  replace ha : a < m.nr := ha
  replace hb : b < m.nc := hb
  rw [colsOf_f (m := m.map g) (by exact ha) (by exact hb), Mat.map_f' (m := colsOf m π) (by exact ha) (by exact hb), colsOf_f ha hb, Mat.map_f' (m := m) ha (h b hb)]

theorem ones1_cols {x : Mat ℝ} {ρ : Equiv.Perm Nat} (h : Permutes ρ x.nc) {i k : Nat} (hi : i < x.nr) (hk : k < x.nc + 1) : (ones1 (colsOf x ρ)).f i k = (ones1 x).f i (rowOf ρ k) := by
  unfold ones1
  rw [Mat.of_f' (by exact hi) (by exact hk), Mat.of_f' (by exact hi) (rowOf_lt h hk)]
  cases k with
  | zero => rfl
  | succ k =>
    simp only [rowOf, Nat.succ_ne_zero, if_false, Nat.add_sub_cancel]
    exact colsOf_f hi (by omega)

theorem pre_cols {W x : Mat ℝ} {ρ π : Equiv.Perm Nat} (h : Permutes ρ x.nc) (hπ : Permutes π W.nc) (hW : W.nr = x.nc + 1) : Spec.pre (renumber ρ π W) (colsOf x ρ) = colsOf (Spec.pre W x) π := by
  refine Mat.ext' rfl rfl fun a b ha hb => ?_
  replace ha : a < x.nr := ha
  replace hb : b < W.nc := hb
  rw [colsOf_f (by exact ha) (by exact hb)]
  unfold Spec.pre
  rw [Mat.of_f' (by exact ha) (by exact hb), Mat.of_f' (by exact ha) (hπ b hb), renumber_f (by omega) hb, ← sum_reorder h (fun k => x.f a k * W.f (k + 1) (π b))]
  refine congrArg₂ (· + ·) rfl (sum_congr rfl fun k hk => ?_)
  have hk' : k < x.nc := mem_range.1 hk
  rw [colsOf_f ha hk', renumber_f (by omega) hb]
  rfl

/-- A layer with its units renumbered. -/
def Layer.renum (ρ π : Equiv.Perm Nat) (L : Layer) : Layer := { L with W := renumber ρ π L.W }

theorem fwd_a_cols {L : Layer} {x : Mat ℝ} {ρ π : Equiv.Perm Nat} (h : Permutes ρ x.nc) (hπ : Permutes π L.W.nc) (hW : L.W.nr = x.nc + 1) :
    ((L.renum ρ π).fwd (colsOf x ρ)).a = colsOf (L.fwd x).a π := by
  show (Spec.pre (renumber ρ π L.W) (colsOf x ρ)).map _ = colsOf ((Spec.pre L.W x).map _) π
  rw [pre_cols h hπ hW, map_cols (by exact hπ)]
  rfl

theorem dz_cols {L : Layer} {x d : Mat ℝ} {ρ π : Equiv.Perm Nat} (h : Permutes ρ x.nc) (hπ : Permutes π L.W.nc) (hW : L.W.nr = x.nc + 1) (h1 : d.nr = x.nr) (h2 : d.nc = L.W.nc) :
    ((L.renum ρ π).fwd (colsOf x ρ)).dz (colsOf d π) = colsOf ((L.fwd x).dz d) π := by
  refine Mat.ext' rfl rfl fun a b ha hb => ?_
  replace ha : a < d.nr := ha
  replace hb : b < d.nc := hb
  have hb' : π b < d.nc := by rw [h2] at hb ⊢; exact hπ b hb
  rw [colsOf_f (by exact ha) (by exact hb)]
  unfold Layer.dz
  rw [Mat.of_f' (by exact ha) (by exact hb), Mat.of_f' ha hb', colsOf_f ha hb]
  show _ * L.actfunc.actd ((Spec.pre (renumber ρ π L.W) (colsOf x ρ)).f a b) = _ * L.actfunc.actd ((Spec.pre L.W x).f a (π b))
  rw [pre_cols h hπ hW, colsOf_f (by show a < x.nr; omega) (by show b < L.W.nc; omega)]

theorem backOf_cols {D W : Mat ℝ} {ρ π : Equiv.Perm Nat} {m : Nat} (h : Permutes ρ m) (hπ : Permutes π W.nc) (hW : W.nr = m + 1) (hD : D.nc = W.nc) :
    Layer.backOf (colsOf D π) (renumber ρ π W) = colsOf (Layer.backOf D W) ρ := by
  refine Mat.ext' rfl rfl fun a b ha hb => ?_
  replace ha : a < D.nr := ha
  replace hb : b < W.nr - 1 := hb
  have hb' : ρ b < W.nr - 1 := by
    have := h b (by omega); omega
  rw [colsOf_f (by exact ha) (by exact hb)]
  unfold Layer.backOf
  rw [Mat.of_f' (by exact ha) (by exact hb), Mat.of_f' ha hb']
  show ∑ k ∈ range D.nc, (colsOf D π).f a k * (renumber ρ π W).f (b + 1) k = ∑ k ∈ range D.nc, D.f a k * W.f (ρ b + 1) k
  rw [← sum_reorder (π := π) (by rw [hD]; exact hπ) (fun k => D.f a k * W.f (ρ b + 1) k)]
  refine sum_congr rfl fun k hk => ?_
  have hk' : k < D.nc := mem_range.1 hk
  rw [colsOf_f ha hk', renumber_f (by omega) (by omega)]
  rfl

theorem gradOf_cols {x D : Mat ℝ} {ρ π : Equiv.Perm Nat} (h : Permutes ρ x.nc) (hπ : Permutes π D.nc) {i j : Nat} (hi : i < x.nc + 1) (hj : j < D.nc) (hD : D.nr = x.nr) :
    (Layer.gradOf (ones1 (colsOf x ρ)) (colsOf D π)).f i j = (Layer.gradOf (ones1 x) D).f (rowOf ρ i) (π j) := by
  unfold Layer.gradOf
  rw [Mat.of_f' (by exact hi) (by exact hj), Mat.of_f' (by exact rowOf_lt h hi) (hπ j hj)]
  refine sum_congr rfl fun k hk => ?_
  have hk' : k < x.nr := mem_range.1 hk
  rw [ones1_cols h hk' hi, colsOf_f (by omega) hj]

/-- One layer's weights after the update. -/
theorem upd_cols {L : Layer} {x D : Mat ℝ} {ρ π : Equiv.Perm Nat} (h : Permutes ρ x.nc) (hπ : Permutes π L.W.nc) (hW : L.W.nr = x.nc + 1) (h1 : D.nr = x.nr) (h2 : D.nc = L.W.nc) :
    Mat.of L.W.nr L.W.nc (fun i j => (renumber ρ π L.W).f i j - L.lrate * (((L.renum ρ π).fwd (colsOf x ρ)).regGrad (colsOf D π)).f i j) =
      renumber ρ π (Mat.of L.W.nr L.W.nc (fun i j => L.W.f i j - L.lrate * ((L.fwd x).regGrad D).f i j)) := by
  refine Mat.ext' rfl rfl fun i j hi hj => ?_
  replace hi : i < L.W.nr := hi
  replace hj : j < L.W.nc := hj
  have hi' : rowOf ρ i < L.W.nr := by rw [hW] at hi ⊢; exact rowOf_lt h hi
  rw [renumber_f (by exact hi) (by exact hj), Mat.of_f' hi hj, Mat.of_f' hi' (hπ j hj), renumber_f hi hj]
  congr 2
  unfold Layer.regGrad
  rw [Mat.of_f' (by exact hi) (by exact hj), Mat.of_f' (by exact hi') (by exact hπ j hj)]
  show (Layer.gradOf (ones1 (colsOf x ρ)) (colsOf D π)).f i j + L.lambda * (renumber ρ π L.W).f i j = (Layer.gradOf (ones1 x) D).f (rowOf ρ i) (π j) + L.lambda * L.W.f (rowOf ρ i) (π j)
  rw [gradOf_cols h (by rw [h2]; exact hπ) (by omega) (by omega) h1, renumber_f hi hj]

/-- Hidden layers renumbered. -/
def renumL : Equiv.Perm Nat → List (Equiv.Perm Nat) → List Layer → List Layer
  | _, _, [] => []
  | ρ, ps, L :: Ls => L.renum ρ (ps.headD 1) :: renumL (ps.headD 1) ps.tail Ls

theorem renumL_core : ∀ (ρ : Equiv.Perm Nat) (ps : List (Equiv.Perm Nat)) (Ls : List Layer), (renumL ρ ps Ls).map Layer.core = renumberAll ρ ps (Ls.map Layer.core)
  | _, _, [] => rfl
  | ρ, ps, L :: Ls => by
    show Layer.core (L.renum ρ (ps.headD 1)) :: (renumL (ps.headD 1) ps.tail Ls).map Layer.core = _ :: renumberAll (ps.headD 1) ps.tail (Ls.map Layer.core)
    rw [renumL_core]
    rfl

/-- The renumbering of the units of the last hidden layer. -/
def lastP : Equiv.Perm Nat → List (Equiv.Perm Nat) → Equiv.Perm Nat
  | ρ, [] => ρ
  | _, π :: ps => lastP π ps

theorem renumL_append : ∀ (ρ : Equiv.Perm Nat) (ps : List (Equiv.Perm Nat)) (Ls Ms : List Layer), ps.length = Ls.length → renumL ρ ps (Ls ++ Ms) = renumL ρ ps Ls ++ renumL (lastP ρ ps) [] Ms
  | ρ, [], [], Ms, _ => rfl
  | ρ, π :: ps, [], Ms, h => by simp at h
  | ρ, [], _ :: _, Ms, h => by simp at h
  | ρ, π :: ps, L :: Ls, Ms, h => by
    show L.renum ρ π :: renumL π ps (Ls ++ Ms) = L.renum ρ π :: (renumL π ps Ls ++ renumL (lastP π ps) [] Ms)
    rw [renumL_append π ps Ls Ms (by simpa using h)]

abbrev PermsFitL (ps : List (Equiv.Perm Nat)) (Ls : List Layer) : Prop := List.Forall₂ (fun π (L : Layer) => Permutes π L.W.nc) ps Ls

theorem outL_cols : ∀ {Ls : List Layer} {ps : List (Equiv.Perm Nat)} {x : Mat ℝ} {ρ : Equiv.Perm Nat} {q : Nat}, Spec.Fits x.nc (Ls.map (·.W)) q → Permutes ρ x.nc → PermsFitL ps Ls →
    outL (renumL ρ ps Ls) (colsOf x ρ) = colsOf (outL Ls x) (lastP ρ ps) ∧ Permutes (lastP ρ ps) q
  | [], _, x, ρ, q, hf, h, .nil => by
    simp only [List.map_nil, Spec.Fits] at hf
    exact ⟨rfl, by rw [← hf]; exact h⟩
  | L :: Ls, π :: ps, x, ρ, q, hf, h, .cons hπ hps => by
    simp only [List.map_cons, Spec.Fits] at hf
    show outL (renumL π ps Ls) ((L.renum ρ π).fwd (colsOf x ρ)).a = _ ∧ _
    rw [fwd_a_cols h hπ hf.1]
    exact outL_cols (x := (L.fwd x).a) hf.2.2 hπ hps

theorem bwdL_cols : ∀ {Ls : List Layer} {ps : List (Equiv.Perm Nat)} {x d : Mat ℝ} {ρ : Equiv.Perm Nat} {q : Nat}, Spec.Fits x.nc (Ls.map (·.W)) q → Permutes ρ x.nc → PermsFitL ps Ls →
    d.nr = x.nr → d.nc = q →
    (bwdL (fwdL (renumL ρ ps Ls) (colsOf x ρ)) (colsOf d (lastP ρ ps))).2 = colsOf (bwdL (fwdL Ls x) d).2 ρ ∧
      ((bwdL (fwdL (renumL ρ ps Ls) (colsOf x ρ)) (colsOf d (lastP ρ ps))).1.map Layer.upd).map Layer.core =
        renumberAll ρ ps (((bwdL (fwdL Ls x) d).1.map Layer.upd).map Layer.core)
  | [], _, x, d, ρ, q, hf, h, .nil, h1, h2 => ⟨rfl, rfl⟩
  | L :: Ls, π :: ps, x, d, ρ, q, hf, h, .cons hπ hps, h1, h2 => by
    simp only [List.map_cons, Spec.Fits] at hf
    have ih := bwdL_cols (x := (L.fwd x).a) (d := d) hf.2.2 hπ hps h1 h2
    obtain ⟨hb1, hb2⟩ := bwdL_dims (Ls := fwdL Ls (L.fwd x).a) (d := d) (m := x.nr) (p := L.W.nc) (q := q) (by rw [fwdL_W]; exact hf.2.2) h1 h2
    constructor
    · show Layer.backOf (((L.renum ρ π).fwd (colsOf x ρ)).dz (bwdL (fwdL (renumL π ps Ls) ((L.renum ρ π).fwd (colsOf x ρ)).a) (colsOf d (lastP π ps))).2) (renumber ρ π L.W) =
        colsOf (Layer.backOf ((L.fwd x).dz (bwdL (fwdL Ls (L.fwd x).a) d).2) L.W) ρ
      rw [fwd_a_cols h hπ hf.1, ih.1, dz_cols h hπ hf.1 hb1 hb2, backOf_cols h hπ hf.1 (by exact hb2)]
    · show Layer.core (Layer.upd (((L.renum ρ π).fwd (colsOf x ρ)).bwd (bwdL (fwdL (renumL π ps Ls) ((L.renum ρ π).fwd (colsOf x ρ)).a) (colsOf d (lastP π ps))).2)) ::
          ((bwdL (fwdL (renumL π ps Ls) ((L.renum ρ π).fwd (colsOf x ρ)).a) (colsOf d (lastP π ps))).1.map Layer.upd).map Layer.core =
        (L.lrate, L.lambda, L.actfunc, renumber ρ π (Layer.upd ((L.fwd x).bwd (bwdL (fwdL Ls (L.fwd x).a) d).2)).W) ::
          renumberAll π ps (((bwdL (fwdL Ls (L.fwd x).a) d).1.map Layer.upd).map Layer.core)
      rw [fwd_a_cols h hπ hf.1, ih.2, ih.1]
      congr 1
      unfold Layer.core
      refine Prod.ext rfl (Prod.ext rfl (Prod.ext rfl ?_))
      show Mat.of L.W.nr L.W.nc (fun i j => (renumber ρ π L.W).f i j - L.lrate * (((L.renum ρ π).fwd (colsOf x ρ)).regGrad (((L.renum ρ π).fwd (colsOf x ρ)).dz _)).f i j) = _
      rw [dz_cols h hπ hf.1 hb1 hb2]
      exact upd_cols h hπ hf.1 hb1 hb2

theorem core_renum {s s' : Store} {n n' : Net} {ps : List (Equiv.Perm Nat)} (hl : ps.length = (n.hiddenLayers s).length) (hm : Spec.model s' n' = renumberAll 1 ps (Spec.model s n)) :
    (n'.hiddenLayers s').map Layer.core = (renumL 1 ps (n.hiddenLayers s)).map Layer.core ∧ n'.output.toLayer.core = (n.output.toLayer.renum (lastP 1 ps) 1).core := by
  have e : (n'.layers s').map Layer.core = (renumL 1 ps (n.layers s)).map Layer.core := by
    rw [renumL_core]; exact hm
  unfold Net.layers at e
  rw [renumL_append _ _ _ _ hl, List.map_append, List.map_append] at e
  obtain ⟨h3, h4⟩ := List.append_inj' e rfl
  exact ⟨h3, List.singleton_injective h4⟩

/-- One training step from networks that differ in the numbers of the hidden units. -/
theorem step_renum {junk junk' : Nat → Nat → ℝ} {s s' : Store} {n n' : Net} {p q : Nat} {x y : Mat ℝ} {ps : List (Equiv.Perm Nat)} (h : n.WF s p q) (h' : n'.WF s' p q)
    (hps : Spec.PermsFit ps s n) (hm : Spec.model s' n' = renumberAll 1 ps (Spec.model s n)) (hdd : n'.output.costd = n.output.costd)
    (hr : 0 < x.nr) (hc : x.nc = p) (hyr : y.nr = x.nr) (hyc : y.nc = q) (hd : OutputLayer.DeltaOK n.output.costd) :
    ∃ s1 n1 s2 n2, n.trainOn junk s x y = .ok (s1, n1) ∧ n'.trainOn junk' s' x y = .ok (s2, n2) ∧ Spec.model s2 n2 = renumberAll 1 ps (Spec.model s1 n1) ∧
      n1.WF s1 p q ∧ n2.WF s2 p q ∧ n1.output.costd = n.output.costd ∧ n2.output.costd = n.output.costd ∧ Spec.PermsFit ps s1 n1 := by
  have hps0 := hps
  unfold Spec.PermsFit at hps0
  rw [List.forall₂_map_right_iff] at hps0
  obtain ⟨c1, c2⟩ := core_renum hps0.length_eq hm
  obtain ⟨r, f1, f2, f3, f4⟩ := h.split
  have hf1 : Spec.Fits x.nc ((n.hiddenLayers s).map (·.W)) r := by rw [hc]; exact f1
  obtain ⟨d1, d2⟩ := outputZ_dims h hc
  have hd0 := outL_dims (Ls := n.hiddenLayers s) (x := x) (q := r) hf1
  obtain ⟨o1, o2⟩ := outL_cols (x := x) (ρ := 1) hf1 (permutes_one _) hps0
  rw [colsOf_one] at o1
  have hW : n'.output.W = renumber (lastP 1 ps) 1 n.output.W := congrArg (fun c : ℝ × ℝ × ActFunc ℝ × Mat ℝ => c.2.2.2) c2
  have hact : n'.output.actfunc = n.output.actfunc := congrArg (fun c : ℝ × ℝ × ActFunc ℝ × Mat ℝ => c.2.2.1) c2
  have ho : outL (n'.hiddenLayers s') x = colsOf (outL (n.hiddenLayers s) x) (lastP 1 ps) := by rw [outL_congr x c1, o1]
  have hp2 : Permutes (lastP 1 ps) (outL (n.hiddenLayers s) x).nc := by rw [hd0.2]; exact o2
  have hz : n'.outputZ s' x = n.outputZ s x := by
    rw [outputZ_eq, outputZ_eq, hW, ho, pre_cols hp2 (permutes_one _) (by rw [hd0.2]; exact f2), colsOf_one]
  obtain ⟨D, hD, hD1, hD2⟩ := hd y ((n.outputZ s x).map n.output.actfunc.act) (n.outputZ s x) (by rw [Mat.map_nr]; omega) (by rw [Mat.map_nc]; omega)
    (by omega) (by omega)
  have hD' : n'.deltaOn s' x y = .ok D := by
    unfold Net.deltaOn
    rw [hz, hdd, hact]
    exact hD
  obtain ⟨s1, n1, e1, b1, -, w1⟩ := trainOn_ok (junk := junk) h hr hc hD (by omega) (by omega)
  obtain ⟨s2, n2, e2, b2, -, w2⟩ := trainOn_ok (junk := junk') h' hr hc hD' (by omega) (by omega)
  have hnc : (n1.hiddenLayers s1).map (fun L => L.W.nc) = (n.hiddenLayers s).map (fun L => L.W.nc) := by
    have e := congrArg (List.map (fun W : Mat ℝ => W.nc)) (passed_W s n x D)
    rw [List.map_map, List.map_map] at e
    have e3 : (n1.layers s1).map (fun L => L.W.nc) = (n.layers s).map (fun L => L.W.nc) := by
      rw [b1.layers, List.map_map]; exact e
    unfold Net.layers at e3
    rw [List.map_append, List.map_append] at e3
    exact (List.append_inj' e3 rfl).1
  have b1' : n1.layers s1 = (bwdL (fwdL (n.hiddenLayers s) x) (Layer.backOf D n.output.W)).1.map Layer.upd ++
      [Layer.upd { n.output.toLayer.fwd (outL (n.hiddenLayers s) x) with delta := D, grad := (n.output.toLayer.fwd (outL (n.hiddenLayers s) x)).regGrad D }] := b1.layers.trans List.map_append
  have b2' : n2.layers s2 = (bwdL (fwdL (n'.hiddenLayers s') x) (Layer.backOf D n'.output.W)).1.map Layer.upd ++
      [Layer.upd { n'.output.toLayer.fwd (outL (n'.hiddenLayers s') x) with delta := D, grad := (n'.output.toLayer.fwd (outL (n'.hiddenLayers s') x)).regGrad D }] := b2.layers.trans List.map_append
  have hs1 : n1.hiddenLayers s1 = (bwdL (fwdL (n.hiddenLayers s) x) (Layer.backOf D n.output.W)).1.map Layer.upd := (List.append_inj' b1' rfl).1
  have hlen : ps.length = ((bwdL (fwdL (n.hiddenLayers s) x) (Layer.backOf D n.output.W)).1.map Layer.upd).length := by
    rw [← hs1]
    have := congrArg List.length hnc
    rw [List.length_map, List.length_map] at this
    rw [this]; exact hps0.length_eq
  refine ⟨s1, n1, s2, n2, e1, e2, ?_, w1.wf, w2.wf, b1.conf.ocostd, by rw [b2.conf.ocostd, hdd], ?_⟩
  · have key : (n2.layers s2).map Layer.core = renumberAll 1 ps ((n1.layers s1).map Layer.core) := by
      rw [← renumL_core, b1', b2', renumL_append _ _ _ _ hlen, List.map_append, List.map_append, renumL_core]
      have hg := bwdL_cols (x := x) (ρ := 1) (d := Layer.backOf D n.output.W) (q := r) hf1 (permutes_one _) hps0 (show D.nr = x.nr by omega) (show n.output.W.nr - 1 = r by omega)
      rw [colsOf_one] at hg
      congr 1
      · rw [← hg.2, ← bwdL_congr _ _ c1, ← backOf_cols (m := r) o2 (permutes_one _) f2 (by omega), colsOf_one, hW]
      · have hu := upd_cols (L := n.output.toLayer) (x := outL (n.hiddenLayers s) x) (D := D) hp2 (permutes_one _) (by rw [hd0.2]; exact f2) (by omega) (by omega)
        rw [colsOf_one, ← ho] at hu
        have hb : ((n'.output.toLayer.fwd (outL (n'.hiddenLayers s') x)).regGrad D) = (((n.output.toLayer.renum (lastP 1 ps) 1).fwd (outL (n'.hiddenLayers s') x)).regGrad D) := by
          have hl : n'.output.lambda = n.output.lambda := congrArg (fun c : ℝ × ℝ × ActFunc ℝ × Mat ℝ => c.2.1) c2
          unfold Layer.regGrad
          show Mat.of n'.output.W.nr n'.output.W.nc (fun i j => _ + n'.output.lambda * n'.output.W.f i j) = Mat.of (renumber (lastP 1 ps) 1 n.output.W).nr (renumber (lastP 1 ps) 1 n.output.W).nc (fun i j => _ + n.output.lambda * (renumber (lastP 1 ps) 1 n.output.W).f i j)
          rw [hW, hl]
          rfl
        have hlr : n'.output.lrate = n.output.lrate := congrArg (fun c : ℝ × ℝ × ActFunc ℝ × Mat ℝ => c.1) c2
        have hla : n'.output.lambda = n.output.lambda := congrArg (fun c : ℝ × ℝ × ActFunc ℝ × Mat ℝ => c.2.1) c2
        simp only [List.map_cons, List.map_nil]
        show [(n'.output.lrate, n'.output.lambda, n'.output.actfunc, Mat.of n'.output.W.nr n'.output.W.nc (fun i j => n'.output.W.f i j - n'.output.lrate * ((n'.output.toLayer.fwd (outL (n'.hiddenLayers s') x)).regGrad D).f i j))] =
          [(n.output.lrate, n.output.lambda, n.output.actfunc, renumber (lastP 1 ps) 1 (Mat.of n.output.W.nr n.output.W.nc (fun i j => n.output.W.f i j - n.output.lrate * ((n.output.toLayer.fwd (outL (n.hiddenLayers s) x)).regGrad D).f i j)))]
        rw [hb, ← hu, hlr, hla, hact, hW]
        rfl
    exact key
  · unfold Spec.PermsFit
    rw [hnc]
    exact hps

/-- **C80** (outputs). -/
theorem out_renum {s s' : Store} {n n' : Net} {p q : Nat} {x : Mat ℝ} {ps : List (Equiv.Perm Nat)} (h : n.WF s p q)
    (hps : Spec.PermsFit ps s n) (hm : Spec.model s' n' = renumberAll 1 ps (Spec.model s n)) (hc : x.nc = p) : outL (n'.layers s') x = outL (n.layers s) x := by
  unfold Spec.PermsFit at hps
  rw [List.forall₂_map_right_iff] at hps
  obtain ⟨r, f1, f2, f3, f4⟩ := h.split
  have hf1 : Spec.Fits x.nc ((n.hiddenLayers s).map (·.W)) r := by rw [hc]; exact f1
  have hd0 := outL_dims (Ls := n.hiddenLayers s) (x := x) (q := r) hf1
  obtain ⟨o1, o2⟩ := outL_cols (x := x) (ρ := 1) hf1 (permutes_one _) hps
  rw [colsOf_one] at o1
  have e : (n'.layers s').map Layer.core = (renumL 1 ps (n.layers s)).map Layer.core := by
    rw [renumL_core]; exact hm
  rw [outL_congr x e]
  unfold Net.layers
  rw [renumL_append _ _ _ _ hps.length_eq, outL_append, outL_append, o1]
  show ((n.output.toLayer.renum (lastP 1 ps) 1).fwd (colsOf (outL (n.hiddenLayers s) x) (lastP 1 ps))).a = (n.output.toLayer.fwd (outL (n.hiddenLayers s) x)).a
  rw [fwd_a_cols (by rw [hd0.2]; exact o2) (permutes_one _) (by rw [hd0.2]; exact f2), colsOf_one]

theorem train_renum {junk junk' : Nat → Nat → ℝ} {p q : Nat} {ps : List (Equiv.Perm Nat)} : ∀ {bs : List (Mat ℝ × Mat ℝ)} {s s' : Store} {n n' : Net}, n.WF s p q → n'.WF s' p q →
    Spec.PermsFit ps s n → Spec.model s' n' = renumberAll 1 ps (Spec.model s n) → n'.output.costd = n.output.costd → OutputLayer.DeltaOK n.output.costd → Spec.BatchesFit p q bs →
    ∃ s1 n1 s2 n2, Net.trainAll junk bs s n = .ok (s1, n1) ∧ Net.trainAll junk' bs s' n' = .ok (s2, n2) ∧ Spec.model s2 n2 = renumberAll 1 ps (Spec.model s1 n1) ∧
      n1.WF s1 p q ∧ n2.WF s2 p q ∧ Spec.PermsFit ps s1 n1
  | [], s, s', n, n', h, h', hps, hm, _, _, _ => ⟨s, n, s', n', rfl, rfl, hm, h, h', hps⟩
  | (x, y) :: bs, s, s', n, n', h, h', hps, hm, hdd, hd, hb => by
    obtain ⟨b1, b2, b3, b4⟩ := hb (x, y) (by simp)
    obtain ⟨s1, n1, s2, n2, e1, e2, e3, w1, w2, e4, e5, e6⟩ := step_renum (junk := junk) (junk' := junk') h h' hps hm hdd b1 b2 b3 b4 hd
    obtain ⟨s3, n3, s4, n4, f1, f2, f3, f4, f5, f6⟩ := train_renum (bs := bs) (junk := junk) (junk' := junk') w1 w2 e6 e3 (by rw [e4, e5]) (by rw [e4]; exact hd) (fun c hc => hb c (by simp [hc]))
    refine ⟨s3, n3, s4, n4, ?_, ?_, f3, f4, f5, f6⟩
    · simp only [Net.trainAll]
      rw [e1, ok_bind]; exact f1
    · simp only [Net.trainAll]
      rw [e2, ok_bind]; exact f2

/-! ## C80 -/

/-- **C80** (renumbering). Two well-formed dense networks with the same derivative of the cost, of which the second has the layers of the first with the units of every hidden layer in another order
(the columns of the layer's weights, and the rows of the next layer's weights that belong to them, permuted alike; same learning rates, regularisation and activations): trained on the same batches,
the second stays the first with the same renumbering, and both give the same outputs for every input. -/
theorem C80_renumbering {junk junk' : Nat → Nat → ℝ} {p q : Nat} {ps : List (Equiv.Perm Nat)} {bs : List (Mat ℝ × Mat ℝ)} {s s' : Store} {n n' : Net} (h : n.WF s p q) (h' : n'.WF s' p q)
    (hps : Spec.PermsFit ps s n) (hm : Spec.model s' n' = Spec.renumberAll 1 ps (Spec.model s n)) (hdd : n'.output.costd = n.output.costd) (hd : OutputLayer.DeltaOK n.output.costd)
    (hb : Spec.BatchesFit p q bs) :
    ∃ s1 n1 s2 n2, Net.trainAll junk bs s n = .ok (s1, n1) ∧ Net.trainAll junk' bs s' n' = .ok (s2, n2) ∧ Spec.model s2 n2 = Spec.renumberAll 1 ps (Spec.model s1 n1) ∧
      ∀ x : Mat ℝ, 0 < x.nr → x.nc = p → ∃ out t1 m1 t2 m2, n1.forwardprop junk s1 x = .ok (out, t1, m1) ∧ n2.forwardprop junk' s2 x = .ok (out, t2, m2) := by
  obtain ⟨s1, n1, s2, n2, e1, e2, e3, w1, w2, e4⟩ := train_renum (junk := junk) (junk' := junk') h h' hps hm hdd hd hb
  refine ⟨s1, n1, s2, n2, e1, e2, e3, fun x hr hc => ?_⟩
  obtain ⟨t1, m1, g1, -⟩ := Net.forwardprop_ok (junk := junk) w1 hr hc
  obtain ⟨t2, m2, g2, -⟩ := Net.forwardprop_ok (junk := junk') w2 hr hc
  rw [out_renum w1 e4 e3 hc] at g2
  exact ⟨_, t1, m1, t2, m2, g1, g2⟩

/-- Units `a` and `b` of layer `k` (numbered from 0) are twins: they receive equal weights and pass on equal weights. -/
def Spec.Twins (s : Store) (n : Net) (k a b : Nat) : Prop :=
  ∃ (As Bs : List (Mat ℝ)) (V W : Mat ℝ), (n.layers s).map (·.W) = As ++ V :: W :: Bs ∧ As.length = k ∧ a < V.nc ∧ b < V.nc ∧
    (∀ i < V.nr, V.f i a = V.f i b) ∧ (∀ j < W.nc, W.f (a + 1) j = W.f (b + 1) j)

theorem rowOf_one : ∀ i, rowOf 1 i = i
  | 0 => rfl
  | _ + 1 => rfl

theorem renumber_one (W : Mat ℝ) : renumber 1 1 W = W := Mat.ext' rfl rfl fun i j hi hj => by
  rw [renumber_f (by exact hi) (by exact hj), rowOf_one]; rfl

theorem renumberAll_ones : ∀ (m : Nat) (cs : List (ℝ × ℝ × ActFunc ℝ × Mat ℝ)), renumberAll 1 (List.replicate m 1) cs = cs
  | _, [] => rfl
  | 0, (lr, la, f, W) :: cs => by
    show (lr, la, f, renumber 1 1 W) :: renumberAll 1 (List.replicate 0 1) cs = _
    rw [renumber_one, renumberAll_ones]
  | m + 1, (lr, la, f, W) :: cs => by
    show (lr, la, f, renumber 1 1 W) :: renumberAll 1 (List.replicate m 1) cs = _
    rw [renumber_one, renumberAll_ones]

theorem renumberAll_skip (π : Equiv.Perm Nat) (m : Nat) : ∀ (As : List (ℝ × ℝ × ActFunc ℝ × Mat ℝ)) (V W : ℝ × ℝ × ActFunc ℝ × Mat ℝ) (Bs : List (ℝ × ℝ × ActFunc ℝ × Mat ℝ)),
    renumberAll 1 (List.replicate As.length 1 ++ π :: List.replicate m 1) (As ++ V :: W :: Bs) =
      As ++ (V.1, V.2.1, V.2.2.1, renumber 1 π V.2.2.2) :: (W.1, W.2.1, W.2.2.1, renumber π 1 W.2.2.2) :: Bs
  | [], V, W, Bs => by
    cases m with
    | zero =>
      show _ :: _ :: renumberAll 1 (List.replicate 0 1) Bs = _
      rw [renumberAll_ones]; rfl
    | succ m =>
      show _ :: _ :: renumberAll 1 (List.replicate m 1) Bs = _
      rw [renumberAll_ones]; rfl
  | (lr, la, f, A) :: As, V, W, Bs => by
    show (lr, la, f, renumber 1 1 A) :: renumberAll 1 (List.replicate As.length 1 ++ π :: List.replicate m 1) (As ++ V :: W :: Bs) = _
    rw [renumber_one, renumberAll_skip π m As]; rfl

theorem swap_permutes {a b m : Nat} (ha : a < m) (hb : b < m) : Permutes (Equiv.swap a b) m := by
  intro i hi
  rw [Equiv.swap_apply_def]
  split
  · exact hb
  · split
    · exact ha
    · exact hi

theorem renumber_swap_cols {V : Mat ℝ} {a b : Nat} (h : ∀ i < V.nr, V.f i a = V.f i b) : renumber 1 (Equiv.swap a b) V = V := Mat.ext' rfl rfl fun i j hi hj => by
  replace hi : i < V.nr := hi
  rw [renumber_f hi (by exact hj), rowOf_one, Equiv.swap_apply_def]
  split
  · next e => rw [e, h i hi]
  · split
    · next e => rw [e, h i hi]
    · rfl

theorem renumber_swap_rows {W : Mat ℝ} {a b : Nat} (h : ∀ j < W.nc, W.f (a + 1) j = W.f (b + 1) j) : renumber (Equiv.swap a b) 1 W = W := Mat.ext' rfl rfl fun i j hi hj => by
  replace hj : j < W.nc := hj
  rw [renumber_f (by exact hi) hj]
  cases i with
  | zero => rfl
  | succ i =>
    show W.f (Equiv.swap a b i + 1) j = W.f (i + 1) j
    rw [Equiv.swap_apply_def]
    split
    · next e => rw [e, h j hj]
    · split
      · next e => rw [e, h j hj]
      · rfl

theorem fits_next {p q : Nat} {V W : Mat ℝ} {Bs : List (Mat ℝ)} : ∀ {As : List (Mat ℝ)} {p : Nat}, Spec.Fits p (As ++ V :: W :: Bs) q → W.nr = V.nc + 1
  | [], _, h => h.2.2.1
  | _ :: _, _, h => fits_next (p := p) h.2.2

/-- **C80** (twins). In a well-formed dense network two units of a hidden layer that receive equal weights and pass on equal weights still do so after training on any batches: gradient descent never
tells them apart, so a layer whose units all start alike computes no more than one unit. -/
theorem C80_twins {junk : Nat → Nat → ℝ} {p q : Nat} {bs : List (Mat ℝ × Mat ℝ)} {s s1 : Store} {n n1 : Net} {k a b : Nat} (h : n.WF s p q) (hd : OutputLayer.DeltaOK n.output.costd)
    (hb : Spec.BatchesFit p q bs) (ht : Spec.Twins s n k a b) (e : Net.trainAll junk bs s n = .ok (s1, n1)) : Spec.Twins s1 n1 k a b := by
  obtain ⟨As, Bs, V, W, hW, hk, ha, hb', hV, hWr⟩ := ht
  -- split the list of layers
  obtain ⟨As0, rest, g1, g2, g3⟩ := List.map_eq_append_iff.1 hW
  obtain ⟨LV, rest2, g4, g5, g6⟩ := List.map_eq_cons_iff.1 g3
  obtain ⟨LW, Bs0, g7, g8, g9⟩ := List.map_eq_cons_iff.1 g6
  subst g4 g7 g5 g8
  set ps : List (Equiv.Perm Nat) := List.replicate k 1 ++ Equiv.swap a b :: List.replicate Bs0.length 1 with hpsdef
  have hk0 : As0.length = k := by rw [← hk, ← g2, List.length_map]
  have hm : Spec.model s n = renumberAll 1 ps (Spec.model s n) := by
    have : Spec.model s n = As0.map Layer.core ++ LV.core :: LW.core :: Bs0.map Layer.core := by
      show (n.layers s).map Layer.core = _
      rw [g1]; simp
    rw [this, hpsdef, ← hk0, ← List.length_map (f := Layer.core) (as := As0), renumberAll_skip]
    show _ = _ ++ (LV.lrate, LV.lambda, LV.actfunc, renumber 1 (Equiv.swap a b) LV.W) :: (LW.lrate, LW.lambda, LW.actfunc, renumber (Equiv.swap a b) 1 LW.W) :: _
    rw [renumber_swap_cols hV, renumber_swap_rows hWr]
    rfl
  have hps : Spec.PermsFit ps s n := by
    have hh : n.hiddenLayers s = As0 ++ LV :: (LW :: Bs0).dropLast := by
      have := congrArg List.dropLast g1
      unfold Net.layers at this
      rw [List.dropLast_concat] at this
      rw [this, List.dropLast_append_of_ne_nil (by simp)]
      rfl
    unfold Spec.PermsFit
    rw [hh, List.map_append, List.map_cons, hpsdef]
    have hones : ∀ (l : List Nat) (m : Nat), m = l.length → List.Forall₂ Permutes (List.replicate m 1) l := by
      intro l
      induction l with
      | nil => intro m hm; subst hm; exact .nil
      | cons c l ih => intro m hm; subst hm; exact .cons (permutes_one _) (ih _ rfl)
    refine List.rel_append (hones _ _ (by rw [List.length_map, hk0])) (.cons (swap_permutes ha hb') (hones _ _ ?_))
    rw [List.length_map, List.length_dropLast]; rfl
  obtain ⟨s2, n2, s3, n3, e1, e2, e3, w1, w2, e4⟩ := train_renum (junk := junk) (junk' := junk) h h hps hm rfl hd hb
  rw [e] at e1 e2
  cases e1; cases e2
  obtain ⟨s4, n4, -, -, f1, -, -, -, -, -, f2, -⟩ := train_core (junk := junk) (junk' := junk) h h rfl hd hb
  rw [e] at f1
  cases f1
  -- the layers afterwards
  rw [g1] at f2
  rw [List.map_append, List.map_cons, List.map_cons] at f2
  obtain ⟨As1, rest1, k1, k2, k3⟩ := List.map_eq_append_iff.1 f2
  obtain ⟨LV1, rest3, k4, k5, k6⟩ := List.map_eq_cons_iff.1 k3
  obtain ⟨LW1, Bs1, k7, k8, k9⟩ := List.map_eq_cons_iff.1 k6
  subst k4 k7
  have l1 : As1.length = k := by
    have := congrArg List.length k2
    rw [List.length_map, List.length_map] at this
    rw [this, hk0]
  have dV : LV1.W.nr = LV.W.nr ∧ LV1.W.nc = LV.W.nc := by
    have := congrArg Prod.snd k5
    exact ⟨congrArg Prod.fst this, congrArg Prod.snd this⟩
  have hm1 : Spec.model s1 n1 = As1.map Layer.core ++ LV1.core :: LW1.core :: Bs1.map Layer.core := by
    show (n1.layers s1).map Layer.core = _
    rw [k1]; simp
  rw [hm1, hpsdef, ← l1, ← List.length_map (f := Layer.core) (as := As1), renumberAll_skip] at e3
  have e5 := List.append_cancel_left e3
  simp only [List.cons.injEq] at e5
  have eV : LV1.W = renumber 1 (Equiv.swap a b) LV1.W := congrArg (fun c : ℝ × ℝ × ActFunc ℝ × Mat ℝ => c.2.2.2) e5.1
  have eW : LW1.W = renumber (Equiv.swap a b) 1 LW1.W := congrArg (fun c : ℝ × ℝ × ActFunc ℝ × Mat ℝ => c.2.2.2) e5.2.1
  have hfit := w1.fits
  rw [k1, List.map_append, List.map_cons, List.map_cons] at hfit
  have hnr := fits_next (p := p) hfit
  refine ⟨As1.map (·.W), Bs1.map (·.W), LV1.W, LW1.W, by rw [k1]; simp, by rw [List.length_map, l1], by omega, by omega, fun i hi => ?_, fun j hj => ?_⟩
  · have := congrArg (fun m : Mat ℝ => m.f i a) eV
    rw [renumber_f hi (by omega), rowOf_one, Equiv.swap_apply_left] at this
    exact this
  · have := congrArg (fun m : Mat ℝ => m.f (a + 1) j) eW
    rw [renumber_f (by omega) hj] at this
    simp only [rowOf, Equiv.swap_apply_left] at this
    exact this

/-! The hypotheses are met: the 2-3-2 network of `PropsForward` with units 0 and 2 of its hidden layer exchanged, which is another network; and one whose units 0 and 1 are twins and unit 2 is not. -/

/-- The hidden layer of `exNet` with units 0 and 2 exchanged. -/
def exStoreR : Store := fun _ => ⟨exLayer Act.sigmoid (renumber 1 (Equiv.swap 0 2) (Mat.of 3 3 (fun i j => (i : ℝ) - j))), .dense⟩

/-- `exNet` with units 0 and 2 of its hidden layer exchanged. -/
def exNetR : Net := { exNet with output := { exNet.output with toLayer := exLayer Act.identity (renumber (Equiv.swap 0 2) 1 (Mat.of 4 2 (fun i j => (i : ℝ) + j))) } }

theorem exNetR_wf : exNetR.WF exStoreR 2 2 := by
  refine ⟨by simp [exNetR, exNet], fun _ _ => rfl, by omega, ?_⟩
  simp [Net.layers, Net.hiddenLayers, exNetR, exNet, exStoreR, exLayer, Spec.Fits, renumber]

example : exNet.WF exStore 2 2 ∧ exNetR.WF exStoreR 2 2 ∧ Spec.PermsFit [Equiv.swap 0 2] exStore exNet ∧ Spec.model exStoreR exNetR = Spec.renumberAll 1 [Equiv.swap 0 2] (Spec.model exStore exNet) ∧
    exNetR.output.costd = exNet.output.costd ∧ OutputLayer.DeltaOK exNet.output.costd ∧ Spec.BatchesFit 2 2 [(exX, exY), (exX, exY)] ∧ Spec.model exStoreR exNetR ≠ Spec.model exStore exNet := by
  refine ⟨exNet_wf, exNetR_wf, .cons (swap_permutes (by show 0 < 3; omega) (by show 2 < 3; omega)) .nil, rfl, rfl, C54_costs.1, ?_, fun h => ?_⟩
  · intro b hb
    simp only [List.mem_cons, List.not_mem_nil, or_false, or_self] at hb
    subst hb
    exact ⟨by show 0 < 5; omega, rfl, rfl, rfl⟩
  · have h2 := congrArg (fun l : List (ℝ × ℝ × ActFunc ℝ × Mat ℝ) => l.map (fun c => c.2.2.2.f 0 0)) h
    have h3 : (renumber 1 (Equiv.swap 0 2) (Mat.of 3 3 (fun i j => (i : ℝ) - j))).f 0 0 = (Mat.of 3 3 (fun i j => (i : ℝ) - j)).f 0 0 := (List.cons.inj h2).1
    rw [renumber_f (by show 0 < 3; omega) (by show 0 < 3; omega), Equiv.swap_apply_left, rowOf_one, Mat.of_f' (by omega) (by omega), Mat.of_f' (by omega) (by omega)] at h3
    norm_num at h3

/-- A hidden layer whose units 0 and 1 receive equal weights. -/
def exStoreT : Store := fun _ => ⟨exLayer Act.sigmoid (Mat.of 3 3 (fun i j => if j = 2 then (i : ℝ) + 5 else i)), .dense⟩

/-- An output layer that gives the units 0 and 1 of the hidden layer equal weights. -/
def exNetT : Net := { exNet with output := { exNet.output with toLayer := exLayer Act.identity (Mat.of 4 2 (fun i j => if i = 1 ∨ i = 2 then (j : ℝ) + 1 else i)) } }

example : exNetT.WF exStoreT 2 2 ∧ OutputLayer.DeltaOK exNetT.output.costd ∧ Spec.Twins exStoreT exNetT 0 0 1 ∧ ¬ Spec.Twins exStoreT exNetT 0 0 2 := by
  refine ⟨⟨by simp [exNetT, exNet], fun _ _ => rfl, by omega, ?_⟩, C54_costs.1, ?_, ?_⟩
  · simp [Net.layers, Net.hiddenLayers, exNetT, exNet, exStoreT, exLayer, Spec.Fits]
  · refine ⟨[], [], _, _, rfl, rfl, by show 0 < 3; omega, by show 1 < 3; omega, fun i hi => ?_, fun j hj => ?_⟩
    · replace hi : i < 3 := hi
      show (Mat.of 3 3 (fun i j => if j = 2 then (i : ℝ) + 5 else i)).f i 0 = (Mat.of 3 3 (fun i j => if j = 2 then (i : ℝ) + 5 else i)).f i 1
      rw [Mat.of_f' hi (by omega), Mat.of_f' hi (by omega)]
      norm_num
    · replace hj : j < 2 := hj
      show (Mat.of 4 2 (fun i j => if i = 1 ∨ i = 2 then (j : ℝ) + 1 else i)).f 1 j = (Mat.of 4 2 (fun i j => if i = 1 ∨ i = 2 then (j : ℝ) + 1 else i)).f 2 j
      rw [Mat.of_f' (by omega) hj, Mat.of_f' (by omega) hj]
      norm_num
  · rintro ⟨As, Bs, V, W, h, hk, -, -, hV, -⟩
    rw [List.length_eq_zero_iff] at hk
    subst hk
    have hV' : V = Mat.of 3 3 (fun i j => if j = 2 then (i : ℝ) + 5 else i) := (List.cons.inj h).1.symm
    subst hV'
    have := hV 0 (by show 0 < 3; omega)
    rw [Mat.of_f' (by omega) (by omega), Mat.of_f' (by omega) (by omega)] at this
    norm_num at this

end
end Nnet.NN
