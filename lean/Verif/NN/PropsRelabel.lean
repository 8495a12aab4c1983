import Verif.NN.PropsSymmetry
import Verif.NN.PropsBatchCost
/-!
# C93: how the features, the hidden units and the classes are numbered does not matter
-/
namespace Nnet.NN
open Finset
noncomputable section

/-! ## Specification -/

/-- The data with its columns in another order: column `j` of the result is column `π j` of `m`. -/
def Spec.reorderCols (π : Equiv.Perm Nat) (m : Mat ℝ) : Mat ℝ := Mat.of m.nr m.nc (fun i j => m.f i (π j))

/-- Batches with the features (columns of the inputs) reordered by `ρ` and the classes (columns of the labels) by `κ`. -/
def Spec.reorderBatches (ρ κ : Equiv.Perm Nat) (bs : List (Mat ℝ × Mat ℝ)) : List (Mat ℝ × Mat ℝ) := bs.map (fun b => (Spec.reorderCols ρ b.1, Spec.reorderCols κ b.2))

/-- A derivative of a cost that does not look at the numbers of the classes: reorder the columns of labels and outputs, and the columns of the result are reordered alike. -/
def Spec.ClassBlind (costd : MatFuncD) : Prop :=
  ∀ (κ : Equiv.Perm Nat) (y a z D : Mat ℝ), Spec.Permutes κ y.nc → a.nr = y.nr → a.nc = y.nc → costd y a z = .ok D →
    costd (Spec.reorderCols κ y) (Spec.reorderCols κ a) (Spec.reorderCols κ z) = .ok (Spec.reorderCols κ D)

/-- A cost that does not look at the numbers of the classes: the sum of its entries (what `computecost` reports) is the same when the columns of labels and outputs are reordered alike. -/
def Spec.CostBlind (cost : MatFunc) : Prop :=
  ∀ (κ : Equiv.Perm Nat) (y h : Mat ℝ), Spec.Permutes κ y.nc → y.nr = h.nr → y.nc = h.nc →
    ∃ M M', cost y h = .ok M ∧ cost (Spec.reorderCols κ y) (Spec.reorderCols κ h) = .ok M' ∧ sumall M' = sumall M

/-! ## Lemmas -/

open Spec

theorem reorderCols_eq (π : Equiv.Perm Nat) (m : Mat ℝ) : reorderCols π m = colsOf m π := rfl

theorem reorderCols_f {m : Mat ℝ} {π : Equiv.Perm Nat} {i j : Nat} (hi : i < m.nr) (hj : j < m.nc) : (reorderCols π m).f i j = m.f i (π j) := Mat.of_f' hi hj

theorem renumL_snoc : ∀ (ρ κ : Equiv.Perm Nat) (ps : List (Equiv.Perm Nat)) (Ls : List Layer) (O : Layer), ps.length = Ls.length →
    renumL ρ (ps ++ [κ]) (Ls ++ [O]) = renumL ρ ps Ls ++ [O.renum (lastP ρ ps) κ]
  | _, _, [], [], _, _ => rfl
  | _, _, _ :: _, [], _, h => by simp at h
  | _, _, [], _ :: _, _, h => by simp at h
  | ρ, κ, π :: ps, L :: Ls, O, h => by
    show L.renum ρ π :: renumL π (ps ++ [κ]) (Ls ++ [O]) = L.renum ρ π :: (renumL π ps Ls ++ [O.renum (lastP π ps) κ])
    rw [renumL_snoc π κ ps Ls O (by simpa using h)]

theorem core_relabel {s s' : Store} {n n' : Net} {ρ κ : Equiv.Perm Nat} {ps : List (Equiv.Perm Nat)} (hl : ps.length = (n.hiddenLayers s).length)
    (hm : Spec.model s' n' = renumberAll ρ (ps ++ [κ]) (Spec.model s n)) :
    (n'.hiddenLayers s').map Layer.core = (renumL ρ ps (n.hiddenLayers s)).map Layer.core ∧ n'.output.toLayer.core = (n.output.toLayer.renum (lastP ρ ps) κ).core := by
  have e : (n'.layers s').map Layer.core = (renumL ρ (ps ++ [κ]) (n.layers s)).map Layer.core := by
    rw [renumL_core]; exact hm
  unfold Net.layers at e
  rw [renumL_snoc _ _ _ _ _ hl, List.map_append, List.map_append] at e
  obtain ⟨h3, h4⟩ := List.append_inj' e rfl
  exact ⟨h3, List.singleton_injective h4⟩

/-- One training step from networks that differ in the numbers of the features, hidden units and classes. -/
theorem step_relabel {junk junk' : Nat → Nat → ℝ} {s s' : Store} {n n' : Net} {p q : Nat} {x y : Mat ℝ} {ρ κ : Equiv.Perm Nat} {ps : List (Equiv.Perm Nat)} (h : n.WF s p q) (h' : n'.WF s' p q)
    (hρ : Permutes ρ p) (hκ : Permutes κ q) (hps : Spec.PermsFit ps s n) (hm : Spec.model s' n' = renumberAll ρ (ps ++ [κ]) (Spec.model s n)) (hdd : n'.output.costd = n.output.costd)
    (hr : 0 < x.nr) (hc : x.nc = p) (hyr : y.nr = x.nr) (hyc : y.nc = q) (hd : OutputLayer.DeltaOK n.output.costd) (hbl : Spec.ClassBlind n.output.costd) :
    ∃ s1 n1 s2 n2, n.trainOn junk s x y = .ok (s1, n1) ∧ n'.trainOn junk' s' (colsOf x ρ) (colsOf y κ) = .ok (s2, n2) ∧ Spec.model s2 n2 = renumberAll ρ (ps ++ [κ]) (Spec.model s1 n1) ∧
      n1.WF s1 p q ∧ n2.WF s2 p q ∧ n1.output.costd = n.output.costd ∧ n2.output.costd = n.output.costd ∧ n1.cost = n.cost ∧ n2.cost = n'.cost ∧ Spec.PermsFit ps s1 n1 := by
  have hps0 := hps
  unfold Spec.PermsFit at hps0
  rw [List.forall₂_map_right_iff] at hps0
  obtain ⟨c1, c2⟩ := core_relabel hps0.length_eq hm
  obtain ⟨r, f1, f2, f3, f4⟩ := h.split
  have hf1 : Spec.Fits x.nc ((n.hiddenLayers s).map (·.W)) r := by rw [hc]; exact f1
  have hρx : Permutes ρ x.nc := by rw [hc]; exact hρ
  have hκW : Permutes κ n.output.W.nc := by rw [f4]; exact hκ
  obtain ⟨d1, d2⟩ := outputZ_dims h hc
  have hd0 := outL_dims (Ls := n.hiddenLayers s) (x := x) (q := r) hf1
  obtain ⟨o1, o2⟩ := outL_cols (x := x) (ρ := ρ) hf1 hρx hps0
  have hW : n'.output.W = renumber (lastP ρ ps) κ n.output.W := congrArg (fun c : ℝ × ℝ × ActFunc ℝ × Mat ℝ => c.2.2.2) c2
  have hact : n'.output.actfunc = n.output.actfunc := congrArg (fun c : ℝ × ℝ × ActFunc ℝ × Mat ℝ => c.2.2.1) c2
  have ho : outL (n'.hiddenLayers s') (colsOf x ρ) = colsOf (outL (n.hiddenLayers s) x) (lastP ρ ps) := by rw [outL_congr _ c1, o1]
  have hp2 : Permutes (lastP ρ ps) (outL (n.hiddenLayers s) x).nc := by rw [hd0.2]; exact o2
  have hz : n'.outputZ s' (colsOf x ρ) = colsOf (n.outputZ s x) κ := by
    rw [outputZ_eq, outputZ_eq, hW, ho, pre_cols hp2 hκW (by rw [hd0.2]; exact f2)]
  obtain ⟨D, hD, hD1, hD2⟩ := hd y ((n.outputZ s x).map n.output.actfunc.act) (n.outputZ s x) (by rw [Mat.map_nr]; omega) (by rw [Mat.map_nc]; omega)
    (by omega) (by omega)
  have hD' : n'.deltaOn s' (colsOf x ρ) (colsOf y κ) = .ok (colsOf D κ) := by
    unfold Net.deltaOn
    rw [hz, hdd, hact, map_cols (by rw [d2]; exact hκ)]
    exact hbl κ y _ _ D (by rw [hyc]; exact hκ) (by rw [Mat.map_nr]; omega) (by rw [Mat.map_nc]; omega) hD
  obtain ⟨s1, n1, e1, b1, -, w1⟩ := trainOn_ok (junk := junk) h hr hc hD (by omega) (by omega)
  obtain ⟨s2, n2, e2, b2, -, w2⟩ := trainOn_ok (junk := junk') (x := colsOf x ρ) h' (by exact hr) (by exact hc) hD' (by show D.nr = x.nr; omega) (by show D.nc = q; omega)
  have hnc : (n1.hiddenLayers s1).map (fun L => L.W.nc) = (n.hiddenLayers s).map (fun L => L.W.nc) := by
    have e := congrArg (List.map (fun W : Mat ℝ => W.nc)) (passed_W s n x D)
    rw [List.map_map, List.map_map] at e
    have e3 : (n1.layers s1).map (fun L => L.W.nc) = (n.layers s).map (fun L => L.W.nc) := by
      rw [b1.layers, List.map_map]; exact e
    unfold Net.layers at e3
    rw [List.map_append, List.map_append] at e3
    exact (List.append_inj' e3 rfl).1
  have b1' : n1.layers s1 = (bwdL (fwdL (n.hiddenLayers s) x) (Layer.backOf D n.output.W)).1.map Layer.upd ++
      [Layer.upd { n.output.toLayer.fwd (outL (n.hiddenLayers s) x) with delta := D, grad := (n.output.toLayer.fwd (outL (n.hiddenLayers s) x)).regGrad D }] := b1.layers.trans List.map_append
  have b2' : n2.layers s2 = (bwdL (fwdL (n'.hiddenLayers s') (colsOf x ρ)) (Layer.backOf (colsOf D κ) n'.output.W)).1.map Layer.upd ++
      [Layer.upd { n'.output.toLayer.fwd (outL (n'.hiddenLayers s') (colsOf x ρ)) with delta := colsOf D κ, grad := (n'.output.toLayer.fwd (outL (n'.hiddenLayers s') (colsOf x ρ))).regGrad (colsOf D κ) }] :=
    b2.layers.trans List.map_append
  have hs1 : n1.hiddenLayers s1 = (bwdL (fwdL (n.hiddenLayers s) x) (Layer.backOf D n.output.W)).1.map Layer.upd := (List.append_inj' b1' rfl).1
  have hlen : ps.length = ((bwdL (fwdL (n.hiddenLayers s) x) (Layer.backOf D n.output.W)).1.map Layer.upd).length := by
    rw [← hs1]
    have := congrArg List.length hnc
    rw [List.length_map, List.length_map] at this
    rw [this]; exact hps0.length_eq
  refine ⟨s1, n1, s2, n2, e1, e2, ?_, w1.wf, w2.wf, b1.conf.ocostd, by rw [b2.conf.ocostd, hdd], b1.conf.cost, b2.conf.cost, ?_⟩
  · have key : (n2.layers s2).map Layer.core = renumberAll ρ (ps ++ [κ]) ((n1.layers s1).map Layer.core) := by
      rw [← renumL_core, b1', b2', renumL_snoc _ _ _ _ _ hlen, List.map_append, List.map_append, renumL_core]
      have hg := bwdL_cols (x := x) (ρ := ρ) (d := Layer.backOf D n.output.W) (q := r) hf1 hρx hps0 (show D.nr = x.nr by omega) (show n.output.W.nr - 1 = r by omega)
      congr 1
      · rw [← hg.2, ← bwdL_congr _ _ c1, ← backOf_cols (m := r) o2 hκW f2 (by omega), hW]
      · have hu := upd_cols (L := n.output.toLayer) (x := outL (n.hiddenLayers s) x) (D := D) hp2 hκW (by rw [hd0.2]; exact f2) (by omega) (by omega)
        rw [← ho] at hu
        have hb : ((n'.output.toLayer.fwd (outL (n'.hiddenLayers s') (colsOf x ρ))).regGrad (colsOf D κ)) =
            (((n.output.toLayer.renum (lastP ρ ps) κ).fwd (outL (n'.hiddenLayers s') (colsOf x ρ))).regGrad (colsOf D κ)) := by
          have hl : n'.output.lambda = n.output.lambda := congrArg (fun c : ℝ × ℝ × ActFunc ℝ × Mat ℝ => c.2.1) c2
          unfold Layer.regGrad
          show Mat.of n'.output.W.nr n'.output.W.nc (fun i j => _ + n'.output.lambda * n'.output.W.f i j) =
            Mat.of (renumber (lastP ρ ps) κ n.output.W).nr (renumber (lastP ρ ps) κ n.output.W).nc (fun i j => _ + n.output.lambda * (renumber (lastP ρ ps) κ n.output.W).f i j)
          rw [hW, hl]
          rfl
        have hlr : n'.output.lrate = n.output.lrate := congrArg (fun c : ℝ × ℝ × ActFunc ℝ × Mat ℝ => c.1) c2
        have hla : n'.output.lambda = n.output.lambda := congrArg (fun c : ℝ × ℝ × ActFunc ℝ × Mat ℝ => c.2.1) c2
        simp only [List.map_cons, List.map_nil]
        show [(n'.output.lrate, n'.output.lambda, n'.output.actfunc, Mat.of n'.output.W.nr n'.output.W.nc (fun i j => n'.output.W.f i j - n'.output.lrate *
            ((n'.output.toLayer.fwd (outL (n'.hiddenLayers s') (colsOf x ρ))).regGrad (colsOf D κ)).f i j))] =
          [(n.output.lrate, n.output.lambda, n.output.actfunc, renumber (lastP ρ ps) κ (Mat.of n.output.W.nr n.output.W.nc (fun i j => n.output.W.f i j - n.output.lrate * ((n.output.toLayer.fwd (outL (n.hiddenLayers s) x)).regGrad D).f i j)))]
        rw [hb, ← hu, hlr, hla, hact, hW]
        rfl
    exact key
  · unfold Spec.PermsFit
    rw [hnc]
    exact hps

theorem out_relabel {s s' : Store} {n n' : Net} {p q : Nat} {x : Mat ℝ} {ρ κ : Equiv.Perm Nat} {ps : List (Equiv.Perm Nat)} (h : n.WF s p q) (hρ : Permutes ρ p) (hκ : Permutes κ q)
    (hps : Spec.PermsFit ps s n) (hm : Spec.model s' n' = renumberAll ρ (ps ++ [κ]) (Spec.model s n)) (hc : x.nc = p) : outL (n'.layers s') (colsOf x ρ) = colsOf (outL (n.layers s) x) κ := by
  unfold Spec.PermsFit at hps
  rw [List.forall₂_map_right_iff] at hps
  obtain ⟨r, f1, f2, f3, f4⟩ := h.split
  have hf1 : Spec.Fits x.nc ((n.hiddenLayers s).map (·.W)) r := by rw [hc]; exact f1
  have hd0 := outL_dims (Ls := n.hiddenLayers s) (x := x) (q := r) hf1
  obtain ⟨o1, o2⟩ := outL_cols (x := x) (ρ := ρ) hf1 (by rw [hc]; exact hρ) hps
  have e : (n'.layers s').map Layer.core = (renumL ρ (ps ++ [κ]) (n.layers s)).map Layer.core := by
    rw [renumL_core]; exact hm
  rw [outL_congr _ e]
  unfold Net.layers
  rw [renumL_snoc _ _ _ _ _ hps.length_eq, outL_append, outL_append, o1]
  show ((n.output.toLayer.renum (lastP ρ ps) κ).fwd (colsOf (outL (n.hiddenLayers s) x) (lastP ρ ps))).a = colsOf (n.output.toLayer.fwd (outL (n.hiddenLayers s) x)).a κ
  rw [fwd_a_cols (by rw [hd0.2]; exact o2) (by rw [f4]; exact hκ) (by rw [hd0.2]; exact f2)]

theorem train_relabel {junk junk' : Nat → Nat → ℝ} {p q : Nat} {ρ κ : Equiv.Perm Nat} {ps : List (Equiv.Perm Nat)} (hρ : Permutes ρ p) (hκ : Permutes κ q) :
    ∀ {bs : List (Mat ℝ × Mat ℝ)} {s s' : Store} {n n' : Net}, n.WF s p q → n'.WF s' p q →
    Spec.PermsFit ps s n → Spec.model s' n' = renumberAll ρ (ps ++ [κ]) (Spec.model s n) → n'.output.costd = n.output.costd → OutputLayer.DeltaOK n.output.costd → Spec.ClassBlind n.output.costd →
    Spec.BatchesFit p q bs →
    ∃ s1 n1 s2 n2, Net.trainAll junk bs s n = .ok (s1, n1) ∧ Net.trainAll junk' (Spec.reorderBatches ρ κ bs) s' n' = .ok (s2, n2) ∧ Spec.model s2 n2 = renumberAll ρ (ps ++ [κ]) (Spec.model s1 n1) ∧
      n1.WF s1 p q ∧ n2.WF s2 p q ∧ n1.cost = n.cost ∧ n2.cost = n'.cost ∧ Spec.PermsFit ps s1 n1
  | [], s, s', n, n', h, h', hps, hm, _, _, _, _ => ⟨s, n, s', n', rfl, rfl, hm, h, h', rfl, rfl, hps⟩
  | (x, y) :: bs, s, s', n, n', h, h', hps, hm, hdd, hd, hbl, hb => by
    obtain ⟨b1, b2, b3, b4⟩ := hb (x, y) (by simp)
    obtain ⟨s1, n1, s2, n2, e1, e2, e3, w1, w2, e4, e5, e7, e8, e6⟩ := step_relabel (junk := junk) (junk' := junk') h h' hρ hκ hps hm hdd b1 b2 b3 b4 hd hbl
    obtain ⟨s3, n3, s4, n4, f1, f2, f3, f4, f5, f7, f8, f6⟩ := train_relabel hρ hκ (bs := bs) (junk := junk) (junk' := junk') w1 w2 e6 e3 (by rw [e4, e5]) (by rw [e4]; exact hd) (by rw [e4]; exact hbl)
      (fun c hc => hb c (by simp [hc]))
    refine ⟨s3, n3, s4, n4, ?_, ?_, f3, f4, f5, f7.trans e7, f8.trans e8, f6⟩
    · simp only [Net.trainAll]
      rw [e1, ok_bind]; exact f1
    · show Net.trainAll junk' ((colsOf x ρ, colsOf y κ) :: Spec.reorderBatches ρ κ bs) s' n' = _
      simp only [Net.trainAll]
      rw [e2, ok_bind]; exact f2

/-! ## C93 -/

/-- **C93** (training). Take a well-formed dense network, and a second one that is the first with the features numbered differently (`ρ`), the units of the hidden layers (`ps`) and the classes (`κ`).
Train the first on any batches and the second on the same batches with the columns of the inputs and of the labels reordered accordingly: the second stays the first renumbered, and for every input its
outputs are the first's with the classes renumbered. -/
theorem C93_training {junk junk' : Nat → Nat → ℝ} {p q : Nat} {ρ κ : Equiv.Perm Nat} {ps : List (Equiv.Perm Nat)} {bs : List (Mat ℝ × Mat ℝ)} {s s' : Store} {n n' : Net} (h : n.WF s p q)
    (h' : n'.WF s' p q) (hρ : Spec.Permutes ρ p) (hκ : Spec.Permutes κ q) (hps : Spec.PermsFit ps s n) (hm : Spec.model s' n' = Spec.renumberAll ρ (ps ++ [κ]) (Spec.model s n))
    (hdd : n'.output.costd = n.output.costd) (hd : OutputLayer.DeltaOK n.output.costd) (hbl : Spec.ClassBlind n.output.costd) (hb : Spec.BatchesFit p q bs) :
    ∃ s1 n1 s2 n2, Net.trainAll junk bs s n = .ok (s1, n1) ∧ Net.trainAll junk' (Spec.reorderBatches ρ κ bs) s' n' = .ok (s2, n2) ∧
      Spec.model s2 n2 = Spec.renumberAll ρ (ps ++ [κ]) (Spec.model s1 n1) ∧
      ∀ x : Mat ℝ, 0 < x.nr → x.nc = p → ∃ out t1 m1 t2 m2, n1.forwardprop junk s1 x = .ok (out, t1, m1) ∧
        n2.forwardprop junk' s2 (Spec.reorderCols ρ x) = .ok (Spec.reorderCols κ out, t2, m2) := by
  obtain ⟨s1, n1, s2, n2, e1, e2, e3, w1, w2, -, -, e4⟩ := train_relabel (junk := junk) (junk' := junk') hρ hκ h h' hps hm hdd hd hbl hb
  refine ⟨s1, n1, s2, n2, e1, e2, e3, fun x hr hc => ?_⟩
  obtain ⟨t1, m1, g1, -⟩ := Net.forwardprop_ok (junk := junk) w1 hr hc
  obtain ⟨t2, m2, g2, -⟩ := Net.forwardprop_ok (junk := junk') (x := colsOf x ρ) w2 (by exact hr) (by exact hc)
  rw [out_relabel w1 hρ hκ e4 e3 hc] at g2
  exact ⟨_, t1, m1, t2, m2, g1, g2⟩

/-- **C93** (cost). Then the two also report the same cost, `computecost(forwardprop(x), y)`, for every input and label, before and after every training. -/
theorem C93_cost {junk junk' : Nat → Nat → ℝ} {p q : Nat} {ρ κ : Equiv.Perm Nat} {ps : List (Equiv.Perm Nat)} {bs : List (Mat ℝ × Mat ℝ)} {s s' : Store} {n n' : Net} (h : n.WF s p q)
    (h' : n'.WF s' p q) (hρ : Spec.Permutes ρ p) (hκ : Spec.Permutes κ q) (hps : Spec.PermsFit ps s n) (hm : Spec.model s' n' = Spec.renumberAll ρ (ps ++ [κ]) (Spec.model s n))
    (hdd : n'.output.costd = n.output.costd) (hd : OutputLayer.DeltaOK n.output.costd) (hbl : Spec.ClassBlind n.output.costd) (hb : Spec.BatchesFit p q bs) (hcc : n'.cost = n.cost)
    (hcb : Spec.CostBlind n.cost) {x y : Mat ℝ} (hr : 0 < x.nr) (hc : x.nc = p) (hyr : y.nr = x.nr) (hyc : y.nc = q) :
    ∃ s1 n1 s2 n2 J, Net.trainAll junk bs s n = .ok (s1, n1) ∧ Net.trainAll junk' (Spec.reorderBatches ρ κ bs) s' n' = .ok (s2, n2) ∧ n1.costOf junk s1 x y = .ok J ∧
      n2.costOf junk' s2 (Spec.reorderCols ρ x) (Spec.reorderCols κ y) = .ok J := by
  obtain ⟨s1, n1, s2, n2, e1, e2, e3, w1, w2, k1, k2, e4⟩ := train_relabel (junk := junk) (junk' := junk') hρ hκ h h' hps hm hdd hd hbl hb
  obtain ⟨t1, m1, g1, b1, -⟩ := Net.forwardprop_ok (junk := junk) w1 hr hc
  obtain ⟨t2, m2, g2, b2, -⟩ := Net.forwardprop_ok (junk := junk') (x := colsOf x ρ) w2 (by exact hr) (by exact hc)
  rw [out_relabel w1 hρ hκ e4 e3 hc] at g2
  have hdm := outL_dims (Ls := n1.layers s1) (x := x) (q := q) (by rw [hc]; exact w1.fits)
  obtain ⟨M, M', i1, i2, i3⟩ := hcb κ y (outL (n1.layers s1) x) (by rw [hyc]; exact hκ) (by omega) (by omega)
  refine ⟨s1, n1, s2, n2, sumall M, e1, e2, ?_, ?_⟩
  · unfold Net.costOf
    rw [g1, ok_bind]
    unfold Net.computecost
    simp only [b1.conf.cost, k1, i1, ok_bind]
  · unfold Net.costOf
    rw [reorderCols_eq, g2, ok_bind]
    unfold Net.computecost
    rw [reorderCols_eq, reorderCols_eq] at i2
    simp only [b2.conf.cost, k2, hcc, reorderCols_eq, i2, ok_bind, i3]

/-- **C93** (predictions). Then the confidence `predict` reports for each sample is the same, and where the largest output of a sample is taken by one class only, both predict that class
(`κ` maps the number of the class in the second network to its number in the first). -/
theorem C93_predict {junk junk' : Nat → Nat → ℝ} {p q : Nat} {ρ κ : Equiv.Perm Nat} {ps : List (Equiv.Perm Nat)} {bs : List (Mat ℝ × Mat ℝ)} {s s' : Store} {n n' : Net} (h : n.WF s p q)
    (h' : n'.WF s' p q) (hρ : Spec.Permutes ρ p) (hκ : Spec.Permutes κ q) (hps : Spec.PermsFit ps s n) (hm : Spec.model s' n' = Spec.renumberAll ρ (ps ++ [κ]) (Spec.model s n))
    (hdd : n'.output.costd = n.output.costd) (hd : OutputLayer.DeltaOK n.output.costd) (hbl : Spec.ClassBlind n.output.costd) (hb : Spec.BatchesFit p q bs)
    {x : Mat ℝ} (hr : 0 < x.nr) (hc : x.nc = p) :
    ∃ s1 n1 s2 n2 out t1 m1 R u1 v1 R' u2 v2, Net.trainAll junk bs s n = .ok (s1, n1) ∧ Net.trainAll junk' (Spec.reorderBatches ρ κ bs) s' n' = .ok (s2, n2) ∧
      n1.forwardprop junk s1 x = .ok (out, t1, m1) ∧ n1.predict junk s1 x = .ok (R, u1, v1) ∧ n2.predict junk' s2 (Spec.reorderCols ρ x) = .ok (R', u2, v2) ∧
      ∀ i < x.nr, R'.f i 1 = R.f i 1 ∧ ∃ k < q, ∃ k' < q, R.f i 0 = (k : ℝ) ∧ R'.f i 0 = (k' : ℝ) ∧ out.f i (κ k') = out.f i k ∧ ((∀ j < q, j ≠ k → out.f i j < out.f i k) → κ k' = k) := by
  obtain ⟨s1, n1, s2, n2, e1, e2, e3, w1, w2, -, -, e4⟩ := train_relabel (junk := junk) (junk' := junk') hρ hκ h h' hps hm hdd hd hbl hb
  obtain ⟨t1, m1, g1, -⟩ := Net.forwardprop_ok (junk := junk) w1 hr hc
  obtain ⟨R, u1, v1, r1, r2, r3, r4, r5⟩ := C32_predict (junk := junk) w1 hr hc
  obtain ⟨R', u2, v2, r1', r2', r3', r4', r5'⟩ := C32_predict (junk := junk') (x := colsOf x ρ) w2 (by exact hr) (by exact hc)
  have hdm := outL_dims (Ls := n1.layers s1) (x := x) (q := q) (by rw [hc]; exact w1.fits)
  have ho := out_relabel w1 hρ hκ e4 e3 hc
  have o1 : Spec.denseNet (n1.params s1) x = outL (n1.layers s1) x := (outL_eq_denseNet _ _).symm
  have o2 : Spec.denseNet (n2.params s2) (colsOf x ρ) = colsOf (outL (n1.layers s1) x) κ := (outL_eq_denseNet _ _).symm.trans ho
  rw [o1] at r5
  rw [o2] at r5'
  refine ⟨s1, n1, s2, n2, _, t1, m1, R, u1, v1, R', u2, v2, e1, e2, g1, r1, r1', fun i hi => ?_⟩
  obtain ⟨k, a1, a2, a3⟩ := r5 i hi
  obtain ⟨k', b1, b2, b3⟩ := r5' i hi
  obtain ⟨hk, hk2, -⟩ := a3
  obtain ⟨hk', hk2', -⟩ := b3
  have hval : (outL (n1.layers s1) x).f i (κ k') = (outL (n1.layers s1) x).f i k := by
    refine le_antisymm (hk2 _ (hκ _ hk')) ?_
    obtain ⟨j, hj, e⟩ : ∃ j < q, κ j = k := ⟨κ.symm k, (hκ.iff _).2 (by rw [Equiv.apply_symm_apply]; exact hk), Equiv.apply_symm_apply _ _⟩
    have := hk2' j hj
    rw [colsOf_f (by rw [hdm.1]; exact hi) (by rw [hdm.2]; exact hj), colsOf_f (by rw [hdm.1]; exact hi) (by rw [hdm.2]; exact hk'), e] at this
    exact this
  refine ⟨?_, k, hk, k', hk', a1, b1, hval, fun hu => ?_⟩
  · rw [b2, a2, colsOf_f (by rw [hdm.1]; exact hi) (by rw [hdm.2]; exact hk'), hval]
  · by_contra hne
    exact absurd (hu _ (hκ _ hk') hne) (by rw [hval]; exact lt_irrefl _)

theorem classBlind_of {costd : MatFuncD} {F : (Nat → ℝ) → (Nat → ℝ) → Nat → Nat → ℝ}
    (hF : ∀ (u v u' v' : Nat → ℝ) (κ : Equiv.Perm Nat) (c j : Nat), Permutes κ c → j < c → (∀ k < c, u' k = u (κ k)) → (∀ k < c, v' k = v (κ k)) → F u' v' c j = F u v c (κ j))
    (hc : ∀ y a z : Mat ℝ, a.nr = y.nr → a.nc = y.nc → costd y a z = .ok (Mat.of y.nr y.nc (fun i j => F (y.f i) (a.f i) y.nc j / y.nr))) : Spec.ClassBlind costd := by
  intro κ y a z D hκ h1 h2 hD
  rw [hc y a z h1 h2] at hD
  cases hD
  rw [hc _ _ _ (by exact h1) (by exact h2)]
  congr 1
  refine Mat.ext' rfl rfl fun i j hi hj => ?_
  replace hi : i < y.nr := hi
  replace hj : j < y.nc := hj
  rw [reorderCols_f (by exact hi) (by exact hj), Mat.of_f' (by exact hi) (by exact hj), Mat.of_f' hi (hκ j hj)]
  show F _ _ y.nc j / _ = _
  rw [hF (y.f i) (a.f i) _ _ κ y.nc j hκ hj (fun k hk => reorderCols_f hi hk) (fun k hk => reorderCols_f (by omega) (by omega))]
  rfl

theorem costBlind_of {cost : MatFunc} {F : (Nat → ℝ) → (Nat → ℝ) → Nat → Nat → ℝ}
    (hF : ∀ (u v u' v' : Nat → ℝ) (κ : Equiv.Perm Nat) (c j : Nat), Permutes κ c → j < c → (∀ k < c, u' k = u (κ k)) → (∀ k < c, v' k = v (κ k)) → F u' v' c j = F u v c (κ j))
    (hc : ∀ y h : Mat ℝ, y.nr = h.nr → y.nc = h.nc → cost y h = .ok (Mat.of y.nr y.nc (fun i j => F (y.f i) (h.f i) y.nc j / y.nr))) : Spec.CostBlind cost := by
  intro κ y h hκ h1 h2
  refine ⟨_, _, hc y h h1 h2, hc _ _ (by exact h1) (by exact h2), ?_⟩
  unfold sumall
  rw [Mat.accu_of, Mat.accu_of]
  show ∑ i ∈ range y.nr, ∑ j ∈ range y.nc, F _ _ y.nc j / (y.nr : ℝ) = _
  refine sum_congr rfl fun i hi => ?_
  rw [← sum_reorder hκ (fun j => F (y.f i) (h.f i) y.nc j / (y.nr : ℝ))]
  refine sum_congr rfl fun j hj => ?_
  have hi' := mem_range.1 hi
  have hj' := mem_range.1 hj
  rw [hF (y.f i) (h.f i) _ _ κ y.nc j hκ hj' (fun k hk => reorderCols_f hi' hk) (fun k hk => reorderCols_f (by omega) (by omega))]

theorem exp_blind {v v' : Nat → ℝ} {κ : Equiv.Perm Nat} {c : Nat} (hκ : Permutes κ c) (hv : ∀ k < c, v' k = v (κ k)) : ∑ k ∈ range c, Real.exp (v' k) = ∑ k ∈ range c, Real.exp (v k) := by
  rw [← sum_reorder hκ (fun k => Real.exp (v k))]
  exact sum_congr rfl fun k hk => by rw [hv k (mem_range.1 hk)]

/-- **C93** (the library's outputs). None of the four output layers of the library looks at the numbers of the classes, neither in its cost nor in its derivative. -/
theorem C93_outputs : (Spec.ClassBlind Quadratic.costd ∧ Spec.ClassBlind CrossEntropy.costd ∧ Spec.ClassBlind Softmax.costd ∧ Spec.ClassBlind KullbackLeibler.costd) ∧
    Spec.CostBlind Quadratic.cost ∧ Spec.CostBlind CrossEntropy.cost ∧ Spec.CostBlind Softmax.cost ∧ Spec.CostBlind KullbackLeibler.cost := by
  have hq : Spec.ClassBlind Quadratic.costd := by
    refine classBlind_of (F := fun u v _ j => v j - u j) (fun u v u' v' κ c j _ hj hu hv => by simp only [hu j hj, hv j hj]) fun y a z h1 h2 => ?_
    refine (diff_costd h1 h2).trans ?_
    rw [h1, h2]
  refine ⟨⟨hq, hq, ?_, ?_⟩, ?_, ?_, ?_, ?_⟩
  · refine classBlind_of (F := fun u v c j => Real.exp (v j) / (∑ k ∈ range c, Real.exp (v k)) - u j) (fun u v u' v' κ c j hκ hj hu hv => by simp only [hu j hj, hv j hj, exp_blind hκ hv])
      fun y a z h1 h2 => ?_
    rw [softmax_costd h1 h2]
    unfold Spec.softmaxAt
    rw [h1, h2]
  · refine classBlind_of (F := fun u v _ j => u j / v j) (fun u v u' v' κ c j _ hj hu hv => by simp only [hu j hj, hv j hj]) fun y a z h1 h2 => ?_
    unfold KullbackLeibler.costd
    rw [Mat.ediv_ok h1.symm h2.symm, ok_bind]
    congr 1
    refine Mat.ext' rfl rfl fun i j hi hj => ?_
    rw [Mat.divS_f, Mat.of_f' (by exact hi) (by exact hj), Mat.of_f' (by exact hi) (by exact hj)]
  · exact costBlind_of (F := fun u v _ j => (u j - v j) * (u j - v j) / 2) (fun u v u' v' κ c j _ hj hu hv => by simp only [hu j hj, hv j hj]) fun y h h1 h2 => quadratic_cost h1 h2
  · exact costBlind_of (F := fun u v _ j => -(u j * Real.log (v j) + (1 - u j) * Real.log (1 - v j))) (fun u v u' v' κ c j _ hj hu hv => by simp only [hu j hj, hv j hj])
      fun y h h1 h2 => crossEntropy_cost h1 h2
  · refine costBlind_of (F := fun u v c j => -(u j * Real.log (Real.exp (v j) / ∑ k ∈ range c, Real.exp (v k))))
      (fun u v u' v' κ c j hκ hj hu hv => by simp only [hu j hj, hv j hj, exp_blind hκ hv]) fun y h h1 h2 => ?_
    rw [softmax_cost h1 h2]
    unfold Spec.softmaxAt
    rw [h2]
  · exact costBlind_of (F := fun u v _ j => u j * Real.log (u j / v j)) (fun u v u' v' κ c j _ hj hu hv => by simp only [hu j hj, hv j hj]) fun y h h1 h2 => kl_cost h1 h2

/-! The hypotheses are met: the 2-3-2 network of `PropsForward` with its two features, units 0 and 2 of its hidden layer, and its two classes exchanged. -/

/-- The hidden layer of `exNet` with the features and the units 0 and 2 exchanged. -/
def exStoreC : Store := fun _ => ⟨exLayer Act.sigmoid (renumber (Equiv.swap 0 1) (Equiv.swap 0 2) (Mat.of 3 3 (fun i j => (i : ℝ) - j))), .dense⟩

/-- `exNet` with units 0 and 2 of its hidden layer and its classes exchanged. -/
def exNetC : Net := { exNet with output := { exNet.output with toLayer := exLayer Act.identity (renumber (Equiv.swap 0 2) (Equiv.swap 0 1) (Mat.of 4 2 (fun i j => (i : ℝ) + j))) } }

theorem exNetC_wf : exNetC.WF exStoreC 2 2 := by
  refine ⟨by simp [exNetC, exNet], fun _ _ => rfl, by omega, ?_⟩
  simp [Net.layers, Net.hiddenLayers, exNetC, exNet, exStoreC, exLayer, Spec.Fits, renumber]

/-- The three theorems hold of it, for two passes over five samples that the reordering does change. -/
example (junk junk' : Nat → Nat → ℝ) : Spec.reorderCols (Equiv.swap 0 1) exX ≠ exX ∧
    (∃ s1 n1 s2 n2, Net.trainAll junk [(exX, exY), (exX, exY)] exStore exNet = .ok (s1, n1) ∧
      Net.trainAll junk' (Spec.reorderBatches (Equiv.swap 0 1) (Equiv.swap 0 1) [(exX, exY), (exX, exY)]) exStoreC exNetC = .ok (s2, n2) ∧
      Spec.model s2 n2 = Spec.renumberAll (Equiv.swap 0 1) [Equiv.swap 0 2, Equiv.swap 0 1] (Spec.model s1 n1)) ∧
    (∃ s1 n1 s2 n2 J, Net.trainAll junk [(exX, exY), (exX, exY)] exStore exNet = .ok (s1, n1) ∧
      Net.trainAll junk' (Spec.reorderBatches (Equiv.swap 0 1) (Equiv.swap 0 1) [(exX, exY), (exX, exY)]) exStoreC exNetC = .ok (s2, n2) ∧ n1.costOf junk s1 exX exY = .ok J ∧
      n2.costOf junk' s2 (Spec.reorderCols (Equiv.swap 0 1) exX) (Spec.reorderCols (Equiv.swap 0 1) exY) = .ok J) ∧
    ∃ s1 n1 s2 n2 out t1 m1 R u1 v1 R' u2 v2, Net.trainAll junk [(exX, exY), (exX, exY)] exStore exNet = .ok (s1, n1) ∧
      Net.trainAll junk' (Spec.reorderBatches (Equiv.swap 0 1) (Equiv.swap 0 1) [(exX, exY), (exX, exY)]) exStoreC exNetC = .ok (s2, n2) ∧
      n1.forwardprop junk s1 exX = .ok (out, t1, m1) ∧ n1.predict junk s1 exX = .ok (R, u1, v1) ∧ n2.predict junk' s2 (Spec.reorderCols (Equiv.swap 0 1) exX) = .ok (R', u2, v2) ∧
      ∀ i < 5, R'.f i 1 = R.f i 1 := by
  have hs : Permutes (Equiv.swap 0 1) 2 := swap_permutes (by omega) (by omega)
  have hps : Spec.PermsFit [Equiv.swap 0 2] exStore exNet := .cons (swap_permutes (by show 0 < 3; omega) (by show 2 < 3; omega)) .nil
  have hm : Spec.model exStoreC exNetC = Spec.renumberAll (Equiv.swap 0 1) ([Equiv.swap 0 2] ++ [Equiv.swap 0 1]) (Spec.model exStore exNet) := rfl
  have hb : Spec.BatchesFit 2 2 [(exX, exY), (exX, exY)] := by
    intro b hb
    simp only [List.mem_cons, List.not_mem_nil, or_false, or_self] at hb
    subst hb
    exact ⟨by show 0 < 5; omega, rfl, rfl, rfl⟩
  refine ⟨fun h => ?_, ?_, ?_, ?_⟩
  · have := congrArg (fun m : Mat ℝ => m.f 1 0) h
    simp only [exX] at this
    rw [reorderCols_f (by show 1 < 5; omega) (by show 0 < 2; omega), Equiv.swap_apply_left, Mat.of_f' (by omega) (by omega), Mat.of_f' (by omega) (by omega)] at this
    norm_num at this
  · obtain ⟨s1, n1, s2, n2, e1, e2, e3, -⟩ := C93_training (junk := junk) (junk' := junk') exNet_wf exNetC_wf hs hs hps hm rfl C54_costs.1 C93_outputs.1.1 hb
    exact ⟨s1, n1, s2, n2, e1, e2, e3⟩
  · exact C93_cost exNet_wf exNetC_wf hs hs hps hm rfl C54_costs.1 C93_outputs.1.1 hb rfl C93_outputs.2.1 (by show 0 < 5; omega) rfl rfl rfl
  · obtain ⟨s1, n1, s2, n2, out, t1, m1, R, u1, v1, R', u2, v2, e1, e2, e3, e4, e5, e6⟩ :=
      C93_predict (junk := junk) (junk' := junk') exNet_wf exNetC_wf hs hs hps hm rfl C54_costs.1 C93_outputs.1.1 hb (x := exX) (by show 0 < 5; omega) rfl
    exact ⟨s1, n1, s2, n2, out, t1, m1, R, u1, v1, R', u2, v2, e1, e2, e3, e4, e5, fun i hi => (e6 i hi).1⟩

end
end Nnet.NN
