import Verif.NN.PropsOrder
import Verif.NN.PropsFile
import Verif.NN.PropsText
import Verif.NN.PropsSafe
/-!
# C64: training depends on the weights alone, so it can be resumed from a saved file
-/
namespace Nnet.NN
open Finset
noncomputable section

/-- The settings and weights of a network, layer by layer: learning rate, regularisation, activation function, weights. -/
def Spec.model (s : Store) (n : Net) : List (ℝ × ℝ × ActFunc ℝ × Mat ℝ) := (n.layers s).map (fun L => (L.lrate, L.lambda, L.actfunc, L.W))

/-- The settings alone. -/
def Spec.settings (s : Store) (n : Net) : List (ℝ × ℝ × ActFunc ℝ) := (n.layers s).map (fun L => (L.lrate, L.lambda, L.actfunc))

/-- Settings and sizes. -/
def confKey (L : Layer) : (ℝ × ℝ × ActFunc ℝ) × (Nat × Nat) := ((L.lrate, L.lambda, L.actfunc), (L.W.nr, L.W.nc))

theorem core_of_model {s s' : Store} {n n' : Net} (h : Spec.model s n = Spec.model s' n') (hd : n.output.costd = n'.output.costd) : n.core s = n'.core s' := Prod.ext h hd

/-- One training step from networks with the same model. -/
theorem step_model {junk junk' : Nat → Nat → ℝ} {s s' : Store} {n n' : Net} {p q : Nat} {x y : Mat ℝ} (h : n.WF s p q) (h' : n'.WF s' p q)
    (hcore : n.core s = n'.core s') (hr : 0 < x.nr) (hc : x.nc = p) (hyr : y.nr = x.nr) (hyc : y.nc = q) (hd : OutputLayer.DeltaOK n.output.costd) :
    ∃ s1 n1 s2 n2, n.trainOn junk s x y = .ok (s1, n1) ∧ n'.trainOn junk' s' x y = .ok (s2, n2) ∧ n1.core s1 = n2.core s2 ∧
      n1.WF s1 p q ∧ n2.WF s2 p q ∧ n1.output.costd = n.output.costd ∧ (n1.layers s1).map confKey = (n.layers s).map confKey ∧ n1.SameConf n ∧ n2.SameConf n' := by
  obtain ⟨c1, c2, c3⟩ := core_split hcore
  obtain ⟨d1, d2⟩ := outputZ_dims h hc
  have hW : n.output.W = n'.output.W := congrArg (fun c : ℝ × ℝ × ActFunc ℝ × Mat ℝ => c.2.2.2) c2
  have hact : n.output.actfunc = n'.output.actfunc := congrArg (fun c : ℝ × ℝ × ActFunc ℝ × Mat ℝ => c.2.2.1) c2
  have hl : n.output.lambda = n'.output.lambda := congrArg (fun c : ℝ × ℝ × ActFunc ℝ × Mat ℝ => c.2.1) c2
  obtain ⟨D, hD, hD1, hD2⟩ := hd y ((n.outputZ s x).map n.output.actfunc.act) (n.outputZ s x) (by rw [Mat.map_nr]; omega) (by rw [Mat.map_nc]; omega)
    (by omega) (by omega)
  have hz : n'.outputZ s' x = n.outputZ s x := by rw [outputZ_eq, outputZ_eq, ← hW, ← outL_congr _ c1]
  have hD' : n'.deltaOn s' x y = .ok D := by
    unfold Net.deltaOn
    rw [hz, ← c3, ← hact]
    exact hD
  obtain ⟨s1, n1, e1, b1, -, w1⟩ := trainOn_ok (junk := junk) h hr hc hD (by omega) (by omega)
  obtain ⟨s2, n2, e2, b2, -, w2⟩ := trainOn_ok (junk := junk') h' hr hc hD' (by omega) (by omega)
  refine ⟨s1, n1, s2, n2, e1, e2, ?_, w1.wf, w2.wf, b1.conf.ocostd, ?_, ⟨b1.conf.1.symm, b1.conf.2.symm, b1.conf.3.symm, b1.conf.4.symm, b1.conf.5.symm⟩,
    ⟨b2.conf.1.symm, b2.conf.2.symm, b2.conf.3.symm, b2.conf.4.symm, b2.conf.5.symm⟩⟩
  · unfold Net.core
    refine Prod.ext ?_ (by simp only; rw [b1.conf.ocostd, b2.conf.ocostd, c3])
    simp only
    rw [b1.layers, b2.layers]
    refine upd_core_of_gcore ?_
    unfold Net.passed bwdNet
    rw [List.map_append, List.map_append]
    congr 1
    · show _ = List.map Layer.gcore (bwdL (fwdL (n'.hiddenLayers s') x) (Layer.backOf D n'.output.W)).1
      rw [← bwdL_congr _ _ c1, ← hW]
      rfl
    · rw [← outL_congr _ c1]
      simp only [List.map_cons, List.map_nil]
      congr 1
      unfold Layer.gcore
      refine Prod.ext c2 ?_
      show (n.output.toLayer.fwd _).regGrad D = (n'.output.toLayer.fwd _).regGrad D
      unfold Layer.regGrad
      show Mat.of n.output.W.nr n.output.W.nc (fun i j => _ + n.output.lambda * n.output.W.f i j) = Mat.of n'.output.W.nr n'.output.W.nc (fun i j => _ + n'.output.lambda * n'.output.W.f i j)
      rw [← hW, ← hl]
      rfl
  · have hs : confKey = (fun c : ℝ × ℝ × ActFunc ℝ × Mat ℝ => ((c.1, c.2.1, c.2.2.1), (c.2.2.2.nr, c.2.2.2.nc))) ∘ Layer.core := rfl
    rw [b1.layers]
    have : ((n.passed s x D).map Layer.upd).map confKey = (n.passed s x D).map confKey := by
      rw [List.map_map]; rfl
    rw [this, hs, ← List.map_map, ← List.map_map]
    unfold Net.passed
    rw [bwdNet_core]
    rfl

/-- Batches that fit a network with `p` inputs and `q` outputs. -/
def Spec.BatchesFit (p q : Nat) (bs : List (Mat ℝ × Mat ℝ)) : Prop := ∀ b ∈ bs, 0 < b.1.nr ∧ b.1.nc = p ∧ b.2.nr = b.1.nr ∧ b.2.nc = q

theorem train_core {junk junk' : Nat → Nat → ℝ} {p q : Nat} : ∀ {bs : List (Mat ℝ × Mat ℝ)} {s s' : Store} {n n' : Net}, n.WF s p q → n'.WF s' p q → n.core s = n'.core s' →
    OutputLayer.DeltaOK n.output.costd → Spec.BatchesFit p q bs →
    ∃ s1 n1 s2 n2, Net.trainAll junk bs s n = .ok (s1, n1) ∧ Net.trainAll junk' bs s' n' = .ok (s2, n2) ∧ n1.core s1 = n2.core s2 ∧
      n1.WF s1 p q ∧ n2.WF s2 p q ∧ n1.output.costd = n.output.costd ∧ (n1.layers s1).map confKey = (n.layers s).map confKey ∧ n1.SameConf n ∧ n2.SameConf n'
  | [], s, s', n, n', h, h', hcore, _, _ => ⟨s, n, s', n', rfl, rfl, hcore, h, h', rfl, rfl, .rfl, .rfl⟩
  | (x, y) :: bs, s, s', n, n', h, h', hcore, hd, hb => by
    obtain ⟨b1, b2, b3, b4⟩ := hb (x, y) (by simp)
    obtain ⟨s1, n1, s2, n2, e1, e2, e3, w1, w2, e4, e5, e6, e7⟩ := step_model (junk := junk) (junk' := junk') h h' hcore b1 b2 b3 b4 hd
    obtain ⟨s3, n3, s4, n4, f1, f2, f3, f4, f5, f6, f7, f8, f9⟩ := train_core (bs := bs) (junk := junk) (junk' := junk') w1 w2 e3 (by rw [e4]; exact hd) (fun c hc => hb c (by simp [hc]))
    refine ⟨s3, n3, s4, n4, ?_, ?_, f3, f4, f5, f6.trans e4, f7.trans e5, f8.trans e6, f9.trans e7⟩
    · simp only [Net.trainAll]
      rw [e1, ok_bind]; exact f1
    · simp only [Net.trainAll]
      rw [e2, ok_bind]; exact f2

theorem trainAll_append {junk : Nat → Nat → ℝ} (cs : List (Mat ℝ × Mat ℝ)) : ∀ (bs : List (Mat ℝ × Mat ℝ)) (s : Store) (n : Net),
    Net.trainAll junk (bs ++ cs) s n = (do let (s, n) ← Net.trainAll junk bs s n; Net.trainAll junk cs s n)
  | [], s, n => rfl
  | (x, y) :: bs, s, n => by
    simp only [List.cons_append, Net.trainAll, bind_assoc]
    congr 1
    funext r
    exact trainAll_append cs bs r.1 r.2

theorem predict_core {junk junk' : Nat → Nat → ℝ} {s s' : Store} {n n' : Net} {p q : Nat} {x : Mat ℝ} (h : n.WF s p q) (h' : n'.WF s' p q) (hm : Spec.model s n = Spec.model s' n')
    (hr : 0 < x.nr) (hc : x.nc = p) : ∃ out s1 n1 s2 n2, n.forwardprop junk s x = .ok (out, s1, n1) ∧ n'.forwardprop junk' s' x = .ok (out, s2, n2) := by
  obtain ⟨s1, n1, e1, -⟩ := Net.forwardprop_ok (junk := junk) h hr hc
  obtain ⟨s2, n2, e2, -⟩ := Net.forwardprop_ok (junk := junk') h' hr hc
  refine ⟨_, s1, n1, s2, n2, e1, ?_⟩
  rw [e2, outL_congr x (Ms := n.layers s) hm.symm]

/-- **C64** (weights alone). Two well-formed dense networks with the same settings and weights and the same derivative of the cost, whatever other values their members hold (old intermediate
results, gradients, labels, the contents of uninitialised memory): trained on the same batches they end with the same settings and weights and give the same outputs for every input. -/
theorem C64_weights_alone {junk junk' : Nat → Nat → ℝ} {p q : Nat} {bs : List (Mat ℝ × Mat ℝ)} {s s' : Store} {n n' : Net} (h : n.WF s p q) (h' : n'.WF s' p q)
    (hm : Spec.model s n = Spec.model s' n') (hdd : n.output.costd = n'.output.costd) (hd : OutputLayer.DeltaOK n.output.costd) (hb : Spec.BatchesFit p q bs) :
    ∃ s1 n1 s2 n2, Net.trainAll junk bs s n = .ok (s1, n1) ∧ Net.trainAll junk' bs s' n' = .ok (s2, n2) ∧ Spec.model s1 n1 = Spec.model s2 n2 ∧
      ∀ x : Mat ℝ, 0 < x.nr → x.nc = p → ∃ out t1 m1 t2 m2, n1.forwardprop junk s1 x = .ok (out, t1, m1) ∧ n2.forwardprop junk' s2 x = .ok (out, t2, m2) := by
  obtain ⟨s1, n1, s2, n2, e1, e2, e3, e4, e5, -⟩ := train_core (junk := junk) (junk' := junk') h h' (core_of_model hm hdd) hd hb
  have e6 : Spec.model s1 n1 = Spec.model s2 n2 := congrArg Prod.fst e3
  exact ⟨s1, n1, s2, n2, e1, e2, e6, fun x hr hc => predict_core e4 e5 e6 hr hc⟩

theorem map_pair_ext {α β γ : Type} {f : α → β} {g : α → γ} {l m : List α} (h1 : l.map f = m.map f) (h2 : l.map g = m.map g) : l.map (fun a => (f a, g a)) = m.map (fun a => (f a, g a)) := by
  induction l generalizing m with
  | nil => cases m with
    | nil => rfl
    | cons b m => cases h1
  | cons a l ih => cases m with
    | nil => cases h1
    | cons b m =>
      simp only [List.map_cons, List.cons.injEq] at h1 h2 ⊢
      exact ⟨Prod.ext h1.1 h2.1, ih h1.2 h2.2⟩

theorem onlyWeights_settings {s s' : Store} {n n' : Net} (h : Spec.OnlyWeights s n s' n') : Spec.settings s' n' = Spec.settings s n := by
  have h1 : n'.hidden = n.hidden := by rw [h.net]
  have h2 : n'.output.lrate = n.output.lrate ∧ n'.output.lambda = n.output.lambda ∧ n'.output.actfunc = n.output.actfunc := by
    rw [h.net]; exact ⟨rfl, rfl, rfl⟩
  unfold Spec.settings Net.layers Net.hiddenLayers
  rw [h1, List.map_append, List.map_append, List.map_map, List.map_map]
  congr 1
  · refine List.map_congr_left fun p _ => ?_
    show ((s' p).base.lrate, (s' p).base.lambda, (s' p).base.actfunc) = ((s p).base.lrate, (s p).base.lambda, (s p).base.actfunc)
    rw [h.own p]
  · simp only [List.map_cons, List.map_nil]
    rw [h2.1, h2.2.1, h2.2.2]

/-- **C64** (resuming). A well-formed dense network is trained on any batches and saved. Later, another network of the same architecture and settings, whatever its weights, loads the file and is
trained on further batches. If the text of the numbers loses nothing of the weights saved, it ends with exactly the weights, and the outputs, of the first network trained on all the batches without the
interruption. -/
theorem C64_resume {io : TextIO} {round : ℝ → ℝ} (hconv : Spec.Converts io round) {junk junk' : Nat → Nat → ℝ} {p q : Nat} {bs cs : List (Mat ℝ × Mat ℝ)} {s s' : Store} {n n' : Net}
    (h : n.WF s p q) (h' : n'.WF s' p q) (hshape : Spec.SameShapes s n s' n') (hset : Spec.settings s n = Spec.settings s' n') (hdd : n.output.costd = n'.output.costd)
    (hd : OutputLayer.DeltaOK n.output.costd) (hb : Spec.BatchesFit p q bs) (hcs : Spec.BatchesFit p q cs) (path : String) (fs : Files)
    (hexact : ∀ s1 n1, Net.trainAll junk bs s n = .ok (s1, n1) → ∀ L ∈ n1.layers s1, ∀ i j, i < L.W.nr → j < L.W.nc → round (L.W.f i j) = L.W.f i j) :
    ∃ s1 n1 fs1 s2 n2 s3 n3 s4 n4, Net.trainAll junk bs s n = .ok (s1, n1) ∧ n1.save io s1 path true fs = .ok fs1 ∧
      n'.load io s' path fs1 = .ok (s2, n2) ∧ Net.trainAll junk' cs s2 n2 = .ok (s3, n3) ∧ Net.trainAll junk (bs ++ cs) s n = .ok (s4, n4) ∧
      Spec.model s3 n3 = Spec.model s4 n4 ∧
      ∀ x : Mat ℝ, 0 < x.nr → x.nc = p → ∃ out t1 m1 t2 m2, n3.forwardprop junk' s3 x = .ok (out, t1, m1) ∧ n4.forwardprop junk s4 x = .ok (out, t2, m2) := by
  obtain ⟨s1, n1, -, -, e1, -, -, w1, -, e2, e3, e4, -⟩ := train_core (junk := junk) (junk' := junk) h h rfl hd hb
  have hsh1 : Spec.SameShapes s1 n1 s' n' := by
    have := congrArg (List.map Prod.snd) e3
    rw [List.map_map, List.map_map] at this
    unfold Spec.SameShapes at hshape ⊢
    rw [hshape]
    exact this.symm
  have e3' : Spec.settings s1 n1 = Spec.settings s n := by
    have := congrArg (List.map Prod.fst) e3
    rw [List.map_map, List.map_map] at this
    exact this
  obtain ⟨fs1, s2, n2, f1, -, f3, f4, f5, -⟩ := C35_roundtrip hconv hsh1 h'.nodup path fs
  have hround : (n1.layers s1).map (fun L => L.W.map round) = (n1.layers s1).map (·.W) := by
    refine List.map_congr_left fun L hL => ?_
    refine Mat.ext' rfl rfl fun i j hi hj => ?_
    rw [Mat.map_f' (m := L.W) (by exact hi) (by exact hj)]
    exact hexact s1 n1 e1 L hL i j hi hj
  rw [hround] at f5
  have hm : Spec.model s2 n2 = Spec.model s1 n1 := by
    have k1 : Spec.settings s2 n2 = Spec.settings s1 n1 := by rw [onlyWeights_settings f4, ← hset, e3']
    have k2 := map_pair_ext k1 f5
    unfold Spec.model
    have hfun : (fun L : Layer => (L.lrate, L.lambda, L.actfunc, L.W)) = (fun c : (ℝ × ℝ × ActFunc ℝ) × Mat ℝ => (c.1.1, c.1.2.1, c.1.2.2, c.2)) ∘ (fun L : Layer => ((L.lrate, L.lambda, L.actfunc), L.W)) := rfl
    rw [hfun, ← List.map_map, ← List.map_map, k2]
  have w2 : n2.WF s2 p q := by
    have k1 : n2.hidden = n'.hidden := by rw [f4.net]
    refine ⟨by rw [k1]; exact h'.nodup, fun r hr => ?_, h'.pos, ?_⟩
    · rw [f4.own r]
      exact h'.dense r (by rw [← k1]; exact hr)
    · rw [f5]; exact w1.fits
  have hcd : n2.output.costd = n1.output.costd := by
    have : n2.output.costd = n'.output.costd := by rw [f4.net]
    rw [this, ← hdd, e2]
  obtain ⟨s3, n3, s4, n4, g1, g2, g3, g4, g5, -⟩ := train_core (junk := junk') (junk' := junk) w2 w1 (core_of_model hm hcd) (by rw [hcd, e2]; exact hd) hcs
  have hm3 : Spec.model s3 n3 = Spec.model s4 n4 := congrArg Prod.fst g3
  refine ⟨s1, n1, fs1, s2, n2, s3, n3, s4, n4, e1, f1, f3, g1, ?_, hm3, fun x hr hc => predict_core g4 g5 hm3 hr hc⟩
  rw [trainAll_append, e1, ok_bind]
  exact g2

/-! ## The library's text format -/

/-- A number of seven digits whose last digit is 5 lies half way between two numbers of six digits. -/
theorem sixDigits_half {k : Nat} (h1 : 10 ^ 5 ≤ k) (h2 : k + 1 < 10 ^ 6) : sixDigits (10 * k + 5 : ℝ) = (if Even k then k else k + 1, 6) := by
  have h1' : (10 : ℝ) ^ 5 ≤ k := by exact_mod_cast h1
  have h2' : (k : ℝ) + 1 < (10 : ℝ) ^ 6 := by exact_mod_cast h2
  have hpos : (0 : ℝ) < 10 * k + 5 := by linarith
  have hlog : Int.log 10 (10 * k + 5 : ℝ) = 6 := by
    refine le_antisymm ?_ ?_
    · have := (Int.lt_zpow_iff_log_lt (b := 10) (x := 7) (by norm_num) hpos).1 (by norm_num; linarith)
      omega
    · exact (Int.zpow_le_iff_le_log (b := 10) (x := 6) (by norm_num) hpos).1 (by norm_num; linarith)
  have hdiv : (10 * k + 5 : ℝ) / (10 : ℝ) ^ ((6 : ℤ) - 5) = k + 1 / 2 := by norm_num; ring
  have hfl : ⌊(k + 1 / 2 : ℝ)⌋ = (k : ℤ) := by
    rw [Int.floor_eq_iff]; push_cast; constructor <;> linarith
  have hr : roundEven (k + 1 / 2 : ℝ) = ((if Even k then k else k + 1 : Nat) : ℤ) := by
    unfold roundEven
    rw [Int.fract, hfl]
    simp only [Int.cast_natCast, add_sub_cancel_left, lt_irrefl, if_false, Int.even_coe_nat]
    split <;> simp
  unfold sixDigits
  rw [hlog]
  simp only
  rw [hdiv, hr, Int.toNat_natCast, if_neg]
  split <;> omega

/-- **C35** (ties). A number half way between two numbers of six digits is written like the one whose last digit is even. -/
theorem C35_ties {k : Nat} (h1 : 10 ^ 5 ≤ k) (h2 : k + 1 < 10 ^ 6) : fmtG (10 * k + 5) = fmtG (10 * (if Even k then k else k + 1 : Nat)) := by
  set m : Nat := if Even k then k else k + 1 with hm
  have hm1 : 10 ^ 5 ≤ m := by rw [hm]; split <;> omega
  have hm2 : m < 10 ^ 6 := by rw [hm]; split <;> omega
  have h1' : (10 : ℝ) ^ 5 ≤ k := by exact_mod_cast h1
  have hmr : (10 : ℝ) ^ 5 ≤ m := by exact_mod_cast hm1
  have hfix := sixDigits_fix (X := 6) hm1 hm2
  rw [show (m : ℝ) * (10 : ℝ) ^ ((6 : ℤ) - 5) = 10 * m by norm_num; ring] at hfix
  unfold fmtG
  rw [if_neg (by linarith), if_neg (by linarith), abs_of_pos (by linarith), abs_of_pos (by linarith), hfix, sixDigits_half h1 h2, decide_eq_false (by linarith), decide_eq_false (by linarith)]

theorem round6_fix {m : Nat} {X : ℤ} (h1 : 10 ^ 5 ≤ m) (h2 : m < 10 ^ 6) : Spec.round6 ((m : ℝ) * (10 : ℝ) ^ (X - 5)) = (m : ℝ) * (10 : ℝ) ^ (X - 5) := by
  have hm : (0 : ℝ) < m := by
    have : 0 < m := by omega
    exact_mod_cast this
  have hpos : (0 : ℝ) < (m : ℝ) * (10 : ℝ) ^ (X - 5) := mul_pos hm (zpow_pos (by norm_num) _)
  unfold Spec.round6
  rw [if_neg hpos.ne', if_neg hpos.not_gt, abs_of_pos hpos, sixDigits_fix h1 h2, one_mul]

/-- A network of one linear output unit with one input. -/
def oneNet (w : ℝ) : Net :=
  { result := .empty, cost := Quadratic.cost, costd := Quadratic.costd, input := exLayer Act.identity .empty, hidden := [],
    output := { exLayer Act.identity (Mat.of 2 1 (fun _ _ => w)) with lrate := 1 / 2, cost := Quadratic.cost, costd := Quadratic.costd, y := .empty } }

theorem oneNet_wf (w : ℝ) (s : Store) : (oneNet w).WF s 1 1 := by
  refine ⟨by simp [oneNet], fun _ h => absurd h (by simp [oneNet]), by omega, ?_⟩
  simp [Net.layers, Net.hiddenLayers, oneNet, exLayer, Spec.Fits]

/-- **C64 is false of the library's own format without the condition on the digits**: a network with a weight of seven digits, saved and loaded, differs from the one saved, without any training. -/
theorem C64_resume_refuted (s : Store) (path : String) (fs : Files) : ∃ fs1 s2 n2, (oneNet 1000005).save libText s path true fs = .ok fs1 ∧ (oneNet 1000005).load libText s path fs1 = .ok (s2, n2) ∧
    Spec.model s2 n2 ≠ Spec.model s (oneNet 1000005) := by
  obtain ⟨fs1, s2, n2, f1, -, f3, -, f5, -⟩ := C35_roundtrip C35_format (s := s) (n := oneNet 1000005) (s' := s) (n' := oneNet 1000005) rfl (oneNet_wf _ s).nodup path fs
  refine ⟨fs1, s2, n2, f1, f3, fun h => ?_⟩
  have h2 := congrArg (List.map (fun c : ℝ × ℝ × ActFunc ℝ × Mat ℝ => c.2.2.2)) h
  unfold Spec.model at h2
  rw [List.map_map, List.map_map] at h2
  replace h2 : (n2.layers s2).map (·.W) = ((oneNet 1000005).layers s).map (·.W) := h2
  rw [f5] at h2
  have h3 : (Mat.of 2 1 (fun _ _ => (1000005 : ℝ))).map Spec.round6 = Mat.of 2 1 (fun _ _ => (1000005 : ℝ)) := by
    simpa [Net.layers, Net.hiddenLayers, oneNet, exLayer] using h2
  have h4 := congrArg (fun m : Mat ℝ => m.f 0 0) h3
  simp only at h4
  rw [Mat.map_f' (by show 0 < 2; omega) (by show 0 < 1; omega), Mat.of_f' (by omega) (by omega)] at h4
  have h5 := sixDigits_half (k := 100000) (by norm_num) (by norm_num)
  rw [show (10 * ((100000 : ℕ) : ℝ) + 5) = 1000005 by norm_num, if_pos (by decide)] at h5
  unfold Spec.round6 at h4
  rw [if_neg (by norm_num), if_neg (by norm_num), abs_of_pos (by norm_num), h5] at h4
  norm_num at h4

/-! The hypotheses of `C64_resume` are met: one linear unit with weights 0 learns one sample in one step; its weights are then 1/2, which the format keeps. -/
theorem oneNet_step {junk : Nat → Nat → ℝ} {s s1 : Store} {n1 : Net} (h : Net.trainAll junk [(Mat.of 1 1 (fun _ _ => 1), Mat.of 1 1 (fun _ _ => 1))] s (oneNet 0) = .ok (s1, n1)) :
    ∀ L ∈ n1.layers s1, ∀ i j, i < L.W.nr → j < L.W.nc → L.W.f i j = 1 / 2 := by
  have hz : ∀ i j, i < 1 → j < 1 → (((oneNet 0).outputZ s (Mat.of 1 1 (fun _ _ => 1))).map (oneNet 0).output.actfunc.act).f i j = 0 := by
    intro i j hi hj
    obtain ⟨d1, d2⟩ := outputZ_dims (x := Mat.of 1 1 (fun _ _ => 1)) (oneNet_wf 0 s) rfl
    rw [Mat.map_f' (by rw [d1]; exact hi) (by rw [d2]; exact hj)]
    show (oneNet 0 |>.outputZ s _).f i j = 0
    rw [outputZ_eq]
    show (Spec.pre (Mat.of 2 1 (fun _ _ => 0)) (Mat.of 1 1 (fun _ _ => 1))).f i j = 0
    unfold Spec.pre
    rw [Mat.of_f' (by exact hi) (by exact hj)]
    simp [Mat.of]
  have hD : (oneNet 0).deltaOn s (Mat.of 1 1 (fun _ _ => 1)) (Mat.of 1 1 (fun _ _ => 1)) = .ok (Mat.of 1 1 (fun _ _ => -1)) := by
    unfold Net.deltaOn
    obtain ⟨d1, d2⟩ := outputZ_dims (x := Mat.of 1 1 (fun _ _ => 1)) (oneNet_wf 0 s) rfl
    refine (diff_costd (by rw [Mat.map_nr, d1]) (by rw [Mat.map_nc, d2]; rfl)).trans (congrArg _ (Mat.ext' rfl rfl fun i j hi hj => ?_))
    rw [Mat.of_f' (by exact hi) (by exact hj), Mat.of_f' (by exact hi) (by exact hj), hz i j hi hj, Mat.of_f' (by exact hi) (by exact hj)]
    norm_num
  obtain ⟨s2, n2, e1, b1, -⟩ := trainOn_ok (junk := junk) (oneNet_wf 0 s) (x := Mat.of 1 1 (fun _ _ => 1)) (by show 0 < 1; omega) rfl hD rfl rfl
  simp only [Net.trainAll] at h
  rw [e1, ok_bind] at h
  cases h
  rw [b1.layers]
  intro L hL i j hi hj
  replace hL : L ∈ [Layer.upd { (oneNet 0).output.toLayer.fwd (Mat.of 1 1 (fun _ _ => 1)) with delta := Mat.of 1 1 (fun _ _ => -1), grad := ((oneNet 0).output.toLayer.fwd (Mat.of 1 1 (fun _ _ => 1))).regGrad (Mat.of 1 1 (fun _ _ => -1)) }] := hL
  rw [List.mem_singleton] at hL
  subst hL
  replace hi : i < 2 := hi
  replace hj : j < 1 := hj
  show (Mat.of 2 1 (fun i j => (Mat.of 2 1 (fun _ _ => (0 : ℝ))).f i j - 1 / 2 * (((oneNet 0).output.toLayer.fwd (Mat.of 1 1 (fun _ _ => 1))).regGrad (Mat.of 1 1 (fun _ _ => -1))).f i j)).f i j = 1 / 2
  rw [Mat.of_f' hi hj, Mat.of_f' hi hj]
  unfold Layer.regGrad
  rw [Mat.of_f' (by exact hi) (by exact hj)]
  show 0 - 1 / 2 * ((Layer.gradOf (Mat.of 1 2 (fun i k => if k = 0 then 1 else (Mat.of 1 1 (fun _ _ => (1 : ℝ))).f i (k - 1))) (Mat.of 1 1 (fun _ _ => -1))).f i j + 0 * _) = 1 / 2
  unfold Layer.gradOf
  rw [Mat.of_f' (by exact hi) (by exact hj)]
  simp only [Mat.of, Finset.sum_range_one]
  have : i = 0 ∨ i = 1 := by omega
  have hj0 : j = 0 := by omega
  subst hj0
  rcases this with rfl | rfl <;> norm_num

example (s s' : Store) (n' : Net) (h' : n' = oneNet 3) : (oneNet 0).WF s 1 1 ∧ n'.WF s' 1 1 ∧ Spec.SameShapes s (oneNet 0) s' n' ∧ Spec.settings s (oneNet 0) = Spec.settings s' n' ∧
    (oneNet 0).output.costd = n'.output.costd ∧ OutputLayer.DeltaOK (oneNet 0).output.costd ∧ Spec.BatchesFit 1 1 [(Mat.of 1 1 (fun _ _ => 1), Mat.of 1 1 (fun _ _ => 1))] ∧
    ∀ junk s1 n1, Net.trainAll junk [(Mat.of 1 1 (fun _ _ => 1), Mat.of 1 1 (fun _ _ => 1))] s (oneNet 0) = .ok (s1, n1) →
      ∀ L ∈ n1.layers s1, ∀ i j, i < L.W.nr → j < L.W.nc → Spec.round6 (L.W.f i j) = L.W.f i j := by
  subst h'
  refine ⟨oneNet_wf 0 s, oneNet_wf 3 s', rfl, rfl, rfl, C54_costs.1, ?_, fun junk s1 n1 h L hL i j hi hj => ?_⟩
  · intro b hb
    rw [List.mem_singleton] at hb
    subst hb
    exact ⟨by show 0 < 1; omega, rfl, rfl, rfl⟩
  · rw [oneNet_step h L hL i j hi hj]
    have := round6_fix (m := 500000) (X := -1) (by norm_num) (by norm_num)
    rw [show ((500000 : ℕ) : ℝ) * (10 : ℝ) ^ ((-1 : ℤ) - 5) = 1 / 2 by norm_num [zpow_neg]] at this
    exact this

end
end Nnet.NN
