import Verif.NN.PropsDecayBound
import Verif.NN.PropsDecay
import Mathlib.Topology.Algebra.InfiniteSum.Real
/-!
# C100: a learning-rate schedule with a finite sum brings training to rest
-/
namespace Nnet.NN
open Finset
noncomputable section

/-! ## Specification -/

/-- The user's own training loop: before step `t` the rate is set with `setlrate`, then the network is trained on one batch. `sched t` is the rate and the batch of step `t`. -/
def Spec.scheduled (junk : Nat → Nat → ℝ) (sched : Nat → ℝ × Mat ℝ × Mat ℝ) (s : Store) (n : Net) : Nat → Res (Store × Net)
  | 0 => .ok (s, n)
  | t + 1 => do
    let (s, n) ← Spec.scheduled junk sched s n t
    (n.setlrate s (sched t).1).2.trainOn junk (n.setlrate s (sched t).1).1 (sched t).2.1 (sched t).2.2

/-- Entry `(i, j)` of the weights of layer `k` (hidden layers first, then the output layer). -/
def Spec.weight (s : Store) (n : Net) (k i j : Nat) : ℝ := (((n.layers s)[k]?).map (fun L => L.W.f i j)).getD 0

/-! ## Lemmas -/

/-- What of a layer decides the bounds. -/
def Layer.rkey (L : Layer) : ℝ × ActFunc ℝ × Nat := (L.lambda, L.actfunc, L.W.nc)

/-- Bounds of the data parts of the gradients of the hidden layers when the weights start within `M` and the rates sum up to at most `S`, and of the delta that leaves them. -/
def gbounds (A M S : ℝ) : List (ℝ × ActFunc ℝ × Nat) → ℝ → List ℝ × ℝ
  | [], d => ([], d)
  | k :: ks, d => (A * (A * (gbounds A M S ks d).2) :: (gbounds A M S ks d).1, k.2.2 * (M + S * (A * (A * (gbounds A M S ks d).2))) * (A * (gbounds A M S ks d).2))

/-- All weights moved by at most `m`. -/
def Moved (m : ℝ) (L L' : Layer) : Prop := ∀ i j, |L'.W.f i j - L.W.f i j| ≤ m

theorem upd_moves {L : Layer} {D : Mat ℝ} {M G S σ K r : ℝ} (hlr : L.lrate = r) (hr : 0 ≤ r) (hl : 0 ≤ L.lambda) (hrl : r * L.lambda ≤ 1) (hG0 : 0 ≤ G) (hσ : σ ≤ S) (hK : L.lambda * (M + S * G) + G ≤ K)
    (hW : Within (M + σ * G) L) (hG : ∀ a b, |(Layer.gradOf L.pa D).f a b| ≤ G) :
    Within (M + (σ + r) * G) (Layer.upd { L with delta := D, grad := L.regGrad D }) ∧ Moved (r * K) L (Layer.upd { L with delta := D, grad := L.regGrad D }) := by
  subst hlr
  have hB0 : 0 ≤ M + σ * G := (abs_nonneg _).trans (hW 0 0)
  have hσS : σ * G ≤ S * G := mul_le_mul_of_nonneg_right hσ hG0
  have hrG : 0 ≤ L.lrate * G := mul_nonneg hr hG0
  have hK0 : 0 ≤ K := le_trans (by nlinarith) hK
  have key : ∀ i j, |(Layer.upd { L with delta := D, grad := L.regGrad D }).W.f i j| ≤ M + (σ + L.lrate) * G ∧ |(Layer.upd { L with delta := D, grad := L.regGrad D }).W.f i j - L.W.f i j| ≤ L.lrate * K := by
    intro i j
    by_cases h : i < L.W.nr ∧ j < L.W.nc
    · have e : (Layer.upd { L with delta := D, grad := L.regGrad D }).W.f i j = L.W.f i j - L.lrate * ((Layer.gradOf L.pa D).f i j + L.lambda * L.W.f i j) := by
        show (Mat.of L.W.nr L.W.nc _).f i j = _
        rw [Mat.of_f' h.1 h.2]
        unfold Layer.regGrad
        rw [Mat.of_f' h.1 h.2]
        try ring
      rw [e]
      obtain ⟨w1, w2⟩ := abs_le.1 (hW i j)
      obtain ⟨g1, g2⟩ := abs_le.1 (hG i j)
      set w := L.W.f i j
      set g := (Layer.gradOf L.pa D).f i j
      have a1 := mul_le_mul_of_nonneg_left g1 hr
      have a2 := mul_le_mul_of_nonneg_left g2 hr
      have b1 : 0 ≤ (1 - L.lrate * L.lambda) * (M + σ * G - w) := mul_nonneg (by linarith) (by linarith)
      have b2 : 0 ≤ (1 - L.lrate * L.lambda) * (M + σ * G + w) := mul_nonneg (by linarith) (by linarith)
      have c0 : 0 ≤ L.lrate * L.lambda * (M + σ * G) := mul_nonneg (mul_nonneg hr hl) hB0
      refine ⟨abs_le.2 ⟨by nlinarith, by nlinarith⟩, ?_⟩
      rw [show w - L.lrate * (g + L.lambda * w) - w = -(L.lrate * (g + L.lambda * w)) by ring, abs_neg, abs_mul, abs_of_nonneg hr]
      refine mul_le_mul_of_nonneg_left ?_ hr
      have d1 := mul_le_mul_of_nonneg_left w1 hl
      have d2 := mul_le_mul_of_nonneg_left w2 hl
      have d3 : L.lambda * (M + σ * G) ≤ L.lambda * (M + S * G) := mul_le_mul_of_nonneg_left (by linarith) hl
      exact abs_le.2 ⟨by nlinarith, by nlinarith⟩
    · rw [Mat.out _ i j (by exact h), Mat.out L.W i j h, abs_zero, sub_zero, abs_zero]
      exact ⟨by nlinarith, mul_nonneg hr hK0⟩
  exact ⟨fun i j => (key i j).1, fun i j => (key i j).2⟩

theorem hidden_moves {A M S σ r K : ℝ} (hA : 1 ≤ A) (hr : 0 ≤ r) (hσ : σ ≤ S) (hσ0 : 0 ≤ σ) (hM : 0 ≤ M) : ∀ {Ls : List Layer} {x d : Mat ℝ} {q : Nat} {d0 : ℝ}, Spec.Fits x.nc (Ls.map (·.W)) q →
    (∀ i < x.nr, ∀ j < x.nc, |x.f i j| ≤ A) → (∀ L ∈ Ls, Spec.TameAct A L.actfunc ∧ 0 ≤ L.lambda ∧ L.lrate = r ∧ r * L.lambda ≤ 1) → d.nr = x.nr → d.nc = q → 0 ≤ d0 → ColSums d0 d →
    (∀ L ∈ Ls, ∀ G ∈ (gbounds A M S (Ls.map Layer.rkey) d0).1, L.lambda * (M + S * G) + G ≤ K) →
    List.Forall₂ (fun G L => Within (M + σ * G) L) (gbounds A M S (Ls.map Layer.rkey) d0).1 Ls →
    List.Forall₂ (fun G L => Within (M + (σ + r) * G) L) (gbounds A M S (Ls.map Layer.rkey) d0).1 ((bwdL (fwdL Ls x) d).1.map Layer.upd) ∧
      List.Forall₂ (Moved (r * K)) Ls ((bwdL (fwdL Ls x) d).1.map Layer.upd) ∧ ColSums (gbounds A M S (Ls.map Layer.rkey) d0).2 (bwdL (fwdL Ls x) d).2 ∧
      0 ≤ (gbounds A M S (Ls.map Layer.rkey) d0).2 ∧ ((bwdL (fwdL Ls x) d).1.map Layer.upd).map Layer.rkey = Ls.map Layer.rkey
  | [], x, d, q, d0, _, _, _, _, _, h0, hd, _, _ => ⟨List.Forall₂.nil, List.Forall₂.nil, hd, h0, rfl⟩
  | L :: Ls, x, d, q, d0, hf, hx, hL, h1, h2, h0, hd, hKK, hw => by
    simp only [List.map_cons, Spec.Fits] at hf
    rw [List.map_cons] at hw
    obtain ⟨hw1, hw2⟩ := List.forall₂_cons.1 hw
    obtain ⟨ht, hl, hlr, hrl⟩ := hL L (by simp)
    obtain ⟨i1, i1', i2, i3, i4⟩ := hidden_moves hA hr hσ hσ0 hM (Ls := Ls) (x := (L.fwd x).a) (d := d) (q := q) (d0 := d0) hf.2.2 (fwd_a_tame ht x) (fun K hK => hL K (by simp [hK])) h1 h2 h0 hd
      (fun P hP G hG => hKK P (by simp [hP]) G (by rw [List.map_cons]; exact List.mem_cons_of_mem _ hG)) hw2
    obtain ⟨hb1, hb2⟩ := bwdL_dims (Ls := fwdL Ls (L.fwd x).a) (d := d) (m := x.nr) (p := L.W.nc) (q := q) (by rw [fwdL_W]; exact hf.2.2) h1 h2
    set e := (bwdL (fwdL Ls (L.fwd x).a) d).2 with he
    set D := (L.fwd x).dz e with hD
    set d' := (gbounds A M S (Ls.map Layer.rkey) d0).2 with hd'
    have hA0 : 0 ≤ A := by linarith
    have hG0 : 0 ≤ A * (A * d') := by positivity
    have hcs : ColSums (A * d') D := colSums_dz (L := L.fwd x) (by exact ht) i2 hA0
    have hg : ∀ a b, |(Layer.gradOf (L.fwd x).pa D).f a b| ≤ A * (A * d') :=
      fun a b => abs_gradOf (abs_ones1 hA hx) (by exact hb1) hcs hA0 (by positivity) a b
    have hup := upd_moves (L := L.fwd x) (D := D) (M := M) (S := S) (σ := σ) (K := K) (G := A * (A * d')) (by exact hlr) hr (by exact hl)
      (by exact hrl) hG0 hσ (hKK L (by simp) _ (by rw [List.map_cons]; exact List.mem_cons_self)) (by exact hw1) hg
    refine ⟨?_, ?_, ?_, ?_, ?_⟩
    · show List.Forall₂ _ _ (Layer.upd ((L.fwd x).bwd e) :: (bwdL (fwdL Ls (L.fwd x).a) d).1.map Layer.upd)
      exact List.Forall₂.cons hup.1 i1
    · show List.Forall₂ _ _ (Layer.upd ((L.fwd x).bwd e) :: (bwdL (fwdL Ls (L.fwd x).a) d).1.map Layer.upd)
      exact List.Forall₂.cons hup.2 i1'
    · show ColSums _ (Layer.backOf D L.W)
      have := colSums_backOf (D := D) (W := L.W) (B := M + S * (A * (A * d'))) hcs (fun i j => (hw1 i j).trans (by nlinarith)) (by positivity)
      have hnc : D.nc = L.W.nc := hb2
      rw [hnc] at this
      exact this
    · show (0 : ℝ) ≤ L.W.nc * (M + S * (A * (A * d'))) * (A * d')
      have : 0 ≤ S := hσ0.trans hσ
      positivity
    · show Layer.rkey (Layer.upd ((L.fwd x).bwd e)) :: ((bwdL (fwdL Ls (L.fwd x).a) d).1.map Layer.upd).map Layer.rkey = Layer.rkey L :: Ls.map Layer.rkey
      rw [i4]
      rfl

/-- The state that scheduled training keeps when rates with sum `σ` have been used. -/
structure Resting (A M S σ : ℝ) (p q : Nat) (ks : List (ℝ × ActFunc ℝ × Nat)) (ok : ℝ × ActFunc ℝ × Nat) (cd : MatFuncD) (s : Store) (n : Net) : Prop where
  wf : n.WF s p q
  keys : (n.hiddenLayers s).map Layer.rkey = ks
  okey : n.output.toLayer.rkey = ok
  costd : n.output.costd = cd
  hid : List.Forall₂ (fun G L => Within (M + σ * G) L) (gbounds A M S ks (q * (M + S * (A * 1)) * 1)).1 (n.hiddenLayers s)
  out : Within (M + σ * (A * 1)) n.output.toLayer

theorem resting_setlrate {A M S σ : ℝ} {p q : Nat} {ks : List (ℝ × ActFunc ℝ × Nat)} {ok : ℝ × ActFunc ℝ × Nat} {cd : MatFuncD} {s : Store} {n : Net} (h : Resting A M S σ p q ks ok cd s n) (r : ℝ) :
    Resting A M S σ p q ks ok cd (n.setlrate s r).1 (n.setlrate s r).2 ∧ (∀ L ∈ (n.setlrate s r).2.layers (n.setlrate s r).1, L.lrate = r) ∧
      List.Forall₂ (Moved 0) (n.layers s) ((n.setlrate s r).2.layers (n.setlrate s r).1) := by
  have hb := setlrate_becomes h.wf r
  have hlay := hb.layers
  unfold Net.layers at hlay
  rw [List.map_append] at hlay
  obtain ⟨l1, l2⟩ := List.append_inj' hlay rfl
  have l2' : (n.setlrate s r).2.output.toLayer = n.output.toLayer.setlrate r := rfl
  refine ⟨⟨setlrate_wf h.wf r, ?_, ?_, h.costd, ?_, h.out⟩, ?_, ?_⟩
  · rw [l1, List.map_map]; exact h.keys
  · exact h.okey
  · rw [l1, List.forall₂_map_right_iff]; exact h.hid
  · intro L hL
    rw [hb.layers] at hL
    obtain ⟨K, -, rfl⟩ := List.mem_map.1 hL
    rfl
  · rw [hb.layers, List.forall₂_map_right_iff]
    exact List.forall₂_same.2 fun L _ i j => by show |L.W.f i j - L.W.f i j| ≤ 0; simp

theorem resting_train {A M S σ r K : ℝ} {p q : Nat} {ks : List (ℝ × ActFunc ℝ × Nat)} {ok : ℝ × ActFunc ℝ × Nat} {cd : MatFuncD} {junk : Nat → Nat → ℝ} {s : Store} {n : Net} {b : Mat ℝ × Mat ℝ}
    (hA : 1 ≤ A) (hr : 0 ≤ r) (hσ : σ ≤ S) (hσ0 : 0 ≤ σ) (hM : 0 ≤ M) (hks : ∀ k ∈ ks, Spec.TameAct A k.2.1 ∧ 0 ≤ k.1 ∧ r * k.1 ≤ 1) (hok : 0 ≤ ok.1 ∧ r * ok.1 ≤ 1) (hcd : Spec.UnitDelta ok.2.1 cd)
    (hK1 : ∀ k ∈ ks, ∀ G ∈ (gbounds A M S ks (q * (M + S * (A * 1)) * 1)).1, k.1 * (M + S * G) + G ≤ K) (hK2 : ok.1 * (M + S * (A * 1)) + A * 1 ≤ K)
    (h : Resting A M S σ p q ks ok cd s n) (hlr : ∀ L ∈ n.layers s, L.lrate = r) (hb : Spec.UnitBatch A p q b) :
    ∃ s' n', n.trainOn junk s b.1 b.2 = .ok (s', n') ∧ Resting A M S (σ + r) p q ks ok cd s' n' ∧ List.Forall₂ (Moved (r * K)) (n.layers s) (n'.layers s') := by
  have hk1 : n.output.lambda = ok.1 := by rw [← h.okey]; rfl
  have hk3 : n.output.actfunc = ok.2.1 := by rw [← h.okey]; rfl
  have hmh : ∀ L ∈ n.hiddenLayers s, L ∈ n.layers s := fun L hL => by unfold Net.layers; simp [hL]
  have hk2 : n.output.lrate = r := hlr n.output.toLayer (by unfold Net.layers; simp)
  have hA0 : 0 ≤ A := by linarith
  have hS0 : 0 ≤ S := hσ0.trans hσ
  have q1 := hb.pos; have q2 := hb.inputs; have q3 := hb.rows; have q4 := hb.outputs
  obtain ⟨d1, d2⟩ := outputZ_dims (x := b.1) h.wf hb.inputs
  obtain ⟨D, hD, hD1, hD2, hD3⟩ := hcd b.2 (n.outputZ s b.1) (by omega) (by omega) hb.labels
  rw [← hk3, ← h.costd] at hD
  have hpos : (0 : ℝ) < b.2.nr := by exact_mod_cast (by omega : 0 < b.2.nr)
  have hcol : ColSums 1 D := by
    intro j
    by_cases hj : j < D.nc
    · calc ∑ i ∈ range D.nr, |D.f i j| ≤ ∑ _i ∈ range D.nr, 1 / (b.2.nr : ℝ) := sum_le_sum fun i hi => hD3 i (by rw [← hD1]; exact mem_range.1 hi) j (by omega)
        _ = 1 := by rw [sum_const, card_range, nsmul_eq_mul, hD1]; field_simp
    · have : ∀ i, D.f i j = 0 := fun i => Mat.out _ i j (by rintro ⟨-, h⟩; exact hj h)
      simp only [this, abs_zero, sum_const_zero]
      norm_num
  obtain ⟨s1, n1, e1, b1, -, w1⟩ := trainOn_ok (junk := junk) h.wf hb.pos hb.inputs hD (by omega) (by omega)
  refine ⟨s1, n1, e1, ?_⟩
  obtain ⟨rr, f1, f2, f3, f4⟩ := h.wf.split
  have hd0 := outL_dims (Ls := n.hiddenLayers s) (x := b.1) (q := rr) (by rw [q2]; exact f1)
  have hcb := colSums_backOf (B := M + S * (A * 1)) hcol (fun i j => (h.out i j).trans (by nlinarith)) (by norm_num)
  have hDq : D.nc = q := by omega
  rw [hDq] at hcb
  have hmem : ∀ L ∈ n.hiddenLayers s, Spec.TameAct A L.actfunc ∧ 0 ≤ L.lambda ∧ L.lrate = r ∧ r * L.lambda ≤ 1 := by
    intro L hL
    have : L.rkey ∈ ks := by rw [← h.keys]; exact List.mem_map_of_mem hL
    obtain ⟨t1, t2, t3⟩ := hks _ this
    exact ⟨t1, t2, hlr L (hmh L hL), t3⟩
  have hh := hidden_moves (A := A) (M := M) (S := S) (K := K) hA hr hσ hσ0 hM (Ls := n.hiddenLayers s) (x := b.1) (d := Layer.backOf D n.output.W) (q := rr) (d0 := q * (M + S * (A * 1)) * 1)
    (by rw [q2]; exact f1) hb.bounded hmem (by show D.nr = _; omega) (by show n.output.W.nr - 1 = rr; omega) (by positivity) (by exact hcb)
    (fun L hL G hG => hK1 L.rkey (by rw [← h.keys]; exact List.mem_map_of_mem hL) G (by rw [h.keys] at hG; exact hG)) (by rw [h.keys]; exact h.hid)
  rw [h.keys] at hh
  have hlay := b1.layers
  unfold Net.passed bwdNet at hlay
  unfold Net.layers at hlay
  rw [List.map_append] at hlay
  obtain ⟨l1, l2⟩ := List.append_inj' hlay rfl
  have l1' : n1.hiddenLayers s1 = (bwdL (fwdL (n.hiddenLayers s) b.1) (Layer.backOf D n.output.W)).1.map Layer.upd := l1
  have l2' : n1.output.toLayer = Layer.upd { n.output.toLayer.fwd (outL (n.hiddenLayers s) b.1) with delta := D, grad := (n.output.toLayer.fwd (outL (n.hiddenLayers s) b.1)).regGrad D } :=
    List.singleton_injective l2
  have hxo : ∀ i < (outL (n.hiddenLayers s) b.1).nr, ∀ j < (outL (n.hiddenLayers s) b.1).nc, |(outL (n.hiddenLayers s) b.1).f i j| ≤ A := by
    have key : ∀ (Ls : List Layer) (x : Mat ℝ), (∀ i < x.nr, ∀ j < x.nc, |x.f i j| ≤ A) → (∀ L ∈ Ls, Spec.TameAct A L.actfunc) → ∀ i < (outL Ls x).nr, ∀ j < (outL Ls x).nc, |(outL Ls x).f i j| ≤ A := by
      intro Ls
      induction Ls with
      | nil => intro x hx _; exact hx
      | cons L Ls ih => intro x hx hL; exact ih _ (fwd_a_tame (hL L (by simp)) x) fun K hK => hL K (by simp [hK])
    exact key _ _ hb.bounded fun L hL => (hmem L hL).1
  have hout := upd_moves (L := n.output.toLayer.fwd (outL (n.hiddenLayers s) b.1)) (D := D) (M := M) (S := S) (σ := σ) (K := K) (G := A * 1) (by exact hk2) hr
    (by show 0 ≤ n.output.lambda; rw [hk1]; exact hok.1) (by show r * n.output.lambda ≤ 1; rw [hk1]; exact hok.2) (by linarith) hσ (by show n.output.lambda * _ + _ ≤ K; rw [hk1]; exact hK2)
    (by exact h.out) (fun a c => abs_gradOf (abs_ones1 hA hxo) (by show D.nr = (outL (n.hiddenLayers s) b.1).nr; omega) hcol hA0 (by norm_num) a c)
  rw [← l2'] at hout
  refine ⟨⟨w1.wf, ?_, ?_, b1.conf.ocostd.trans h.costd, ?_, hout.1⟩, ?_⟩
  · rw [l1', hh.2.2.2.2]
  · rw [l2', ← h.okey]; rfl
  · rw [l1']; exact hh.1
  · unfold Net.layers
    rw [l1']
    exact List.rel_append hh.2.1 (List.Forall₂.cons hout.2 List.Forall₂.nil)

theorem moved_zero_trans {m : ℝ} : ∀ {Ls Ls' Ls'' : List Layer}, List.Forall₂ (Moved 0) Ls Ls' → List.Forall₂ (Moved m) Ls' Ls'' → List.Forall₂ (Moved m) Ls Ls''
  | _, _, _, .nil, .nil => .nil
  | _, _, _, .cons a as, .cons b bs => .cons (fun i j => by
      have h1 := a i j
      rw [abs_nonpos_iff, sub_eq_zero] at h1
      rw [← h1]
      exact b i j) (moved_zero_trans as bs)

theorem weight_moved {m : ℝ} (hm : 0 ≤ m) {s s' : Store} {n n' : Net} (h : List.Forall₂ (Moved m) (n.layers s) (n'.layers s')) (k i j : Nat) : |Spec.weight s' n' k i j - Spec.weight s n k i j| ≤ m := by
  unfold Spec.weight
  generalize n.layers s = Ls at h
  generalize n'.layers s' = Ls' at h
  induction h generalizing k with
  | nil => simpa using hm
  | cons a _ ih =>
    cases k with
    | zero => exact a i j
    | succ k => exact ih k

theorem weights_bound (Ls : List Layer) : ∃ M : ℝ, 0 ≤ M ∧ ∀ L ∈ Ls, ∀ i j, |L.W.f i j| ≤ M := by
  have hone : ∀ W : Mat ℝ, ∃ M : ℝ, ∀ i j, |W.f i j| ≤ M := by
    intro W
    refine ⟨∑ i ∈ range W.nr, ∑ j ∈ range W.nc, |W.f i j|, fun i j => ?_⟩
    by_cases hij : i < W.nr ∧ j < W.nc
    · refine le_trans ?_ (single_le_sum (f := fun i => ∑ j ∈ range W.nc, |W.f i j|) (fun i _ => sum_nonneg fun j _ => abs_nonneg _) (mem_range.2 hij.1))
      exact single_le_sum (f := fun j => |W.f i j|) (fun j _ => abs_nonneg _) (mem_range.2 hij.2)
    · rw [Mat.out _ i j hij, abs_zero]
      exact sum_nonneg fun i _ => sum_nonneg fun j _ => abs_nonneg _
  induction Ls with
  | nil => exact ⟨0, le_rfl, by simp⟩
  | cons L Ls ih =>
    obtain ⟨M, h0, hM⟩ := ih
    obtain ⟨K, hK⟩ := hone L.W
    refine ⟨max K M, h0.trans (le_max_right _ _), fun P hP i j => ?_⟩
    rcases List.mem_cons.1 hP with rfl | hP
    · exact (hK i j).trans (le_max_left _ _)
    · exact (hM P hP i j).trans (le_max_right _ _)

theorem list_bound (l : List ℝ) (c : ℝ) : ∃ B : ℝ, c ≤ B ∧ ∀ b ∈ l, b ≤ B := by
  induction l with
  | nil => exact ⟨c, le_rfl, by simp⟩
  | cons a l ih =>
    obtain ⟨B, h1, h2⟩ := ih
    refine ⟨max a B, h1.trans (le_max_right _ _), fun b hb => ?_⟩
    rcases List.mem_cons.1 hb with rfl | hb
    · exact le_max_left _ _
    · exact (h2 b hb).trans (le_max_right _ _)

theorem gbounds_start {A M S : ℝ} : ∀ {Ls : List Layer} {d0 : ℝ}, (∀ L ∈ Ls, ∀ i j, |L.W.f i j| ≤ M) → List.Forall₂ (fun G L => Within (M + 0 * G) L) (gbounds A M S (Ls.map Layer.rkey) d0).1 Ls
  | [], _, _ => List.Forall₂.nil
  | L :: Ls, d0, h => List.Forall₂.cons (fun i j => by rw [zero_mul, add_zero]; exact h L (by simp) i j) (gbounds_start fun K hK => h K (by simp [hK]))

theorem gbounds_nonneg {A M S : ℝ} (hA : 0 ≤ A) (hM : 0 ≤ M) (hS : 0 ≤ S) : ∀ (ks : List (ℝ × ActFunc ℝ × Nat)) {d : ℝ}, 0 ≤ d → (∀ G ∈ (gbounds A M S ks d).1, 0 ≤ G) ∧ 0 ≤ (gbounds A M S ks d).2
  | [], d, h => ⟨by simp [gbounds], h⟩
  | k :: ks, d, h => by
    obtain ⟨h1, h2⟩ := gbounds_nonneg hA hM hS ks h
    refine ⟨fun G hG => ?_, ?_⟩
    · rcases List.mem_cons.1 hG with rfl | hG
      · positivity
      · exact h1 G hG
    · show 0 ≤ (k.2.2 : ℝ) * (M + S * (A * (A * (gbounds A M S ks d).2))) * (A * (gbounds A M S ks d).2)
      positivity

/-! ## C100 -/

/-- **C100.** Take a well-formed dense network whose hidden activations and their derivatives stay within `A`, with an output whose delta is bounded by `1 / N`. If the user sets rates `r 0, r 1, …`
with a finite sum, training never fails and comes to rest: every single weight converges, whatever the batches (inputs within `A`, labels in `[0, 1]`) and whatever the depth. -/
theorem C100_rest {A : ℝ} {p q : Nat} {s : Store} {n : Net} (junk : Nat → Nat → ℝ) (hA : 1 ≤ A) (h : n.WF s p q) (hact : ∀ L ∈ n.hiddenLayers s, Spec.TameAct A L.actfunc)
    (hd : Spec.UnitDelta n.output.actfunc n.output.costd) (sched : Nat → ℝ × Mat ℝ × Mat ℝ) (hb : ∀ t, Spec.UnitBatch A p q (sched t).2) (hr : ∀ t, 0 ≤ (sched t).1)
    (hsum : Summable fun t => (sched t).1) (hreg : ∀ L ∈ n.layers s, 0 ≤ L.lambda ∧ ∀ t, (sched t).1 * L.lambda ≤ 1) :
    ∃ run : Nat → Store × Net, (∀ t, Spec.scheduled junk sched s n t = .ok (run t)) ∧
      ∀ k i j, ∃ w, Filter.Tendsto (fun t => Spec.weight (run t).1 (run t).2 k i j) Filter.atTop (nhds w) := by
  obtain ⟨M, hM0, hM⟩ := weights_bound (n.layers s)
  set S := ∑' t, (sched t).1 with hS
  have hS0 : 0 ≤ S := tsum_nonneg hr
  have hA0 : 0 ≤ A := by linarith
  set ks := (n.hiddenLayers s).map Layer.rkey with hks
  set ok := n.output.toLayer.rkey with hok
  have hmh : ∀ L ∈ n.hiddenLayers s, L ∈ n.layers s := fun L hL => by unfold Net.layers; simp [hL]
  have hmo : n.output.toLayer ∈ n.layers s := by unfold Net.layers; simp
  set Gs := (gbounds A M S ks (q * (M + S * (A * 1)) * 1)).1 with hGs
  obtain ⟨Γ, hΓ0, hΓ⟩ := list_bound Gs (A * 1)
  obtain ⟨Λ, hΛ0, hΛ⟩ := list_bound (ks.map (·.1)) (max 0 ok.1)
  have hΛ1 : 0 ≤ Λ := (le_max_left _ _).trans hΛ0
  have hΓ1 : 0 ≤ Γ := le_trans (by linarith) hΓ0
  set K := Λ * (M + S * Γ) + Γ with hK
  have hKK : ∀ l G, l ≤ Λ → 0 ≤ G → G ≤ Γ → l * (M + S * G) + G ≤ K := by
    intro l G h1 h2 h3
    have a1 : l * (M + S * G) ≤ Λ * (M + S * G) := mul_le_mul_of_nonneg_right h1 (by positivity)
    have a2 : Λ * (M + S * G) ≤ Λ * (M + S * Γ) := mul_le_mul_of_nonneg_left (by nlinarith) hΛ1
    rw [hK]
    linarith
  have hGn := (gbounds_nonneg hA0 hM0 hS0 ks (d := q * (M + S * (A * 1)) * 1) (by positivity)).1
  have hK0 : 0 ≤ K := by rw [hK]; positivity
  have hstart : Resting A M S 0 p q ks ok n.output.costd s n :=
    ⟨h, rfl, rfl, rfl, gbounds_start fun L hL => hM L (hmh L hL), fun i j => by rw [zero_mul, add_zero]; exact hM _ hmo i j⟩
  have hpart : ∀ t, ∑ i ∈ range t, (sched i).1 ≤ S := fun t => hsum.sum_le_tsum _ fun i _ => hr i
  have hrun : ∀ t, ∃ st : Store × Net, Spec.scheduled junk sched s n t = .ok st ∧ Resting A M S (∑ i ∈ range t, (sched i).1) p q ks ok n.output.costd st.1 st.2 := by
    intro t
    induction t with
    | zero => exact ⟨(s, n), rfl, by simpa using hstart⟩
    | succ t ih =>
      obtain ⟨⟨s1, n1⟩, e1, h1⟩ := ih
      obtain ⟨h2, h3, -⟩ := resting_setlrate h1 (sched t).1
      obtain ⟨s2, n2, e2, h4, -⟩ := resting_train (junk := junk) (K := K) hA (hr t) (hpart t) (sum_nonneg fun i _ => hr i) hM0
        (fun k hk => by obtain ⟨L, hL, rfl⟩ := List.mem_map.1 hk; exact ⟨hact L hL, (hreg L (hmh L hL)).1, (hreg L (hmh L hL)).2 t⟩) ⟨(hreg _ hmo).1, (hreg _ hmo).2 t⟩ hd
        (fun k hk G hG => hKK _ _ (hΛ _ (List.mem_map_of_mem hk)) (hGn G hG) (hΓ G hG)) (hKK _ _ ((le_max_right _ _).trans hΛ0) (by linarith) hΓ0) h2 h3 (hb t)
      refine ⟨(s2, n2), ?_, by rw [sum_range_succ]; exact h4⟩
      simp only [Spec.scheduled]
      rw [e1, ok_bind]
      exact e2
  choose run hrun1 hrun2 using hrun
  refine ⟨run, hrun1, fun k i j => ?_⟩
  have hstep : ∀ t, dist (Spec.weight (run t).1 (run t).2 k i j) (Spec.weight (run (t + 1)).1 (run (t + 1)).2 k i j) ≤ (sched t).1 * K := by
    intro t
    obtain ⟨h2, h3, h5⟩ := resting_setlrate (hrun2 t) (sched t).1
    obtain ⟨s2, n2, e2, -, h6⟩ := resting_train (junk := junk) (K := K) hA (hr t) (hpart t) (sum_nonneg fun i _ => hr i) hM0
      (fun k hk => by obtain ⟨L, hL, rfl⟩ := List.mem_map.1 hk; exact ⟨hact L hL, (hreg L (hmh L hL)).1, (hreg L (hmh L hL)).2 t⟩) ⟨(hreg _ hmo).1, (hreg _ hmo).2 t⟩ hd
      (fun k hk G hG => hKK _ _ (hΛ _ (List.mem_map_of_mem hk)) (hGn G hG) (hΓ G hG)) (hKK _ _ ((le_max_right _ _).trans hΛ0) (by linarith) hΓ0) h2 h3 (hb t)
    have e3 : run (t + 1) = (s2, n2) := by
      have := hrun1 (t + 1)
      simp only [Spec.scheduled] at this
      rw [hrun1 t, ok_bind] at this
      rw [e2] at this
      exact (Except.ok.inj this).symm
    rw [e3, Real.dist_eq, abs_sub_comm]
    exact weight_moved (mul_nonneg (hr t) hK0) (moved_zero_trans h5 h6) k i j
  exact cauchySeq_tendsto_of_complete (cauchySeq_of_dist_le_of_summable _ hstep (hsum.mul_right K))

/-! ### The decay option of the trainers -/

/-- The state of the run below: a one-unit network with both weights `u`, trained with a rate of at least `ρ`. -/
structure LogState (ρ : ℝ) (r0 k : ℝ) (step : Nat) (u : ℝ) (w : World) (t : Trainer) : Prop where
  hidden : (w.nets 0).hidden = []
  W : (w.nets 0).output.W = w21 u u
  act : (w.nets 0).output.actfunc = Act.sigmoid
  lambda : (w.nets 0).output.lambda = 0
  rate : ρ ≤ (w.nets 0).output.lrate
  costd : (w.nets 0).output.costd = CrossEntropy.costd
  conf : t.nnet = 0 ∧ t.r0 = r0 ∧ t.k = k ∧ t.step = step

theorem log_feed (junk : Nat → Nat → ℝ) {ρ r0 k u : ℝ} {step : Nat} {w : World} {t : Trainer} (hρ : ρ ≤ r0 * Real.exp (-k * step)) (h : LogState ρ r0 k step u w t) :
    ∃ w' t' u', t.feeddata junk w (m11 1) (m11 1) = .ok (w', t') ∧ LogState ρ r0 k step u' w' t' ∧ u + ρ * (1 - Act.sigmoid.act (2 * u)) ≤ u' := by
  obtain ⟨c1, c2, c3, c4⟩ := h.conf
  have hpos : 0 ≤ 1 - Act.sigmoid.act (2 * u) := by linarith [(Act.C26_sigmoid.1 (2 * u)).2]
  obtain ⟨s1, n1, e1, a1, a2, a3, a4, a5, a6⟩ : ∃ s1 n1, t.count.decay w.store (w.nets t.nnet) = (s1, n1) ∧ n1.hidden = [] ∧ n1.output.W = w21 u u ∧ n1.output.actfunc = Act.sigmoid ∧ n1.output.lambda = 0 ∧
      ρ ≤ n1.output.lrate ∧ n1.output.costd = CrossEntropy.costd := by
    rw [c1]
    unfold Trainer.decay
    by_cases hc : t.count.usedecay = true ∧ t.count.iters = t.count.step
    · rw [if_pos hc]
      refine ⟨_, _, rfl, ?_⟩
      refine ⟨h.hidden, h.W, h.act, h.lambda, ?_, h.costd⟩
      show ρ ≤ t.r0 * Real.exp (-t.k * t.count.iters)
      rw [hc.2]
      show ρ ≤ t.r0 * Real.exp (-t.k * t.step)
      rw [c2, c3, c4]
      exact hρ
    · rw [if_neg hc]
      refine ⟨_, _, rfl, ?_⟩
      exact ⟨h.hidden, h.W, h.act, h.lambda, h.rate, h.costd⟩
  obtain ⟨n2, e2, b1, b2, b3, b4, b5, b6⟩ := log_step junk (s := s1) a1 a2 a3 a4 rfl a6
  have hn : (w.put t.count.nnet s1 n2).nets 0 = n2 := by
    show (if 0 = t.nnet then n2 else w.nets 0) = n2
    rw [if_pos c1.symm]
  refine ⟨w.put t.count.nnet s1 n2, t.count, u + n1.output.lrate * (1 - Act.sigmoid.act (2 * u)), ?_, ⟨?_, ?_, ?_, ?_, ?_, ?_, ?_⟩, ?_⟩
  · unfold Trainer.feeddata
    show (do
      let (s, n) ← (t.count.decay w.store (w.nets t.nnet)).2.trainOn junk (t.count.decay w.store (w.nets t.nnet)).1 (m11 1) (m11 1)
      .ok (w.put t.count.nnet s n, t.count) : Res _) = _
    rw [e1]
    simp only
    rw [e2, ok_bind]
  all_goals try rw [hn]
  · exact b1
  · exact b2
  · exact b3
  · exact b4
  · rw [b5]; exact a5
  · exact b6
  · exact ⟨c1, c2, c3, c4⟩
  · linarith [mul_le_mul_of_nonneg_right a5 hpos]

theorem log_feeds (junk : Nat → Nat → ℝ) {ρ r0 k B : ℝ} {step : Nat} (hρ0 : 0 < ρ) (hρ : ρ ≤ r0 * Real.exp (-k * step)) : ∀ (t : Nat) {c u : ℝ} {w : World} {tr : Trainer}, LogState ρ r0 k step u w tr → (B < u ∨ c ≤ u) →
    ∃ w' tr' u', feedAll (fun w (t : Trainer) => t.feeddata junk w) w tr (List.replicate t (m11 1, m11 1)) = .ok (w', tr') ∧ LogState ρ r0 k step u' w' tr' ∧
      (B < u' ∨ c + t * (ρ * (1 - Act.sigmoid.act (2 * B))) ≤ u')
  | 0, c, u, w, tr, h, hc => ⟨w, tr, u, rfl, h, by simpa using hc⟩
  | t + 1, c, u, w, tr, h, hc => by
    obtain ⟨w1, t1, u1, e1, h1, h2⟩ := log_feed junk hρ h
    have hpos : 0 ≤ 1 - Act.sigmoid.act (2 * u) := by linarith [(Act.C26_sigmoid.1 (2 * u)).2]
    have hc1 : B < u1 ∨ c + ρ * (1 - Act.sigmoid.act (2 * B)) ≤ u1 := by
      by_cases hB : B < u
      · left
        nlinarith
      · right
        push Not at hB
        have h3 : Act.sigmoid.act (2 * u) ≤ Act.sigmoid.act (2 * B) := Act.C26_sigmoid.2.monotone (by linarith)
        have h4 := mul_le_mul_of_nonneg_left (show 1 - Act.sigmoid.act (2 * B) ≤ 1 - Act.sigmoid.act (2 * u) by linarith) hρ0.le
        rcases hc with hc | hc
        · linarith
        · linarith
    obtain ⟨w2, t2, u2, e2, h5, h6⟩ := log_feeds junk hρ0 hρ t h1 hc1
    refine ⟨w2, t2, u2, ?_, h5, ?_⟩
    · rw [List.replicate_succ]
      simp only [feedAll]
      rw [e1, ok_bind]
      exact e2
    · rcases h6 with h6 | h6
      · exact Or.inl h6
      · right
        push_cast
        linarith

/-- **C100** (the trainers' decay option is no such schedule). `Trainer(net, r0, k, step)` lowers the rate once and then keeps it: whatever `r0 > 0`, `k` and `step`, feeding the sample 1 with label 1
often enough to a one-unit sigmoid network with the cross-entropy cost (and any rate `r > 0` of its own) carries its weight beyond every bound. -/
theorem C100_decay_option (junk : Nat → Nat → ℝ) (s : Store) {r r0 : ℝ} (hr : 0 < r) (h0 : 0 < r0) (k : ℝ) (step : Nat) (B : ℝ) :
    ∃ t w' tr', feedAll (fun w (t : Trainer) => t.feeddata junk w) ⟨fun _ => logNet r 0 0, s⟩ (Trainer.newDecay 0 r0 k step) (List.replicate t (m11 1, m11 1)) = .ok (w', tr') ∧
      B < (w'.nets 0).output.W.f 1 0 := by
  set ρ := min r (r0 * Real.exp (-k * step)) with hρ
  have hρ0 : 0 < ρ := lt_min hr (mul_pos h0 (Real.exp_pos _))
  have hδ : 0 < ρ * (1 - Act.sigmoid.act (2 * B)) := mul_pos hρ0 (by linarith [(Act.C26_sigmoid.1 (2 * B)).2])
  obtain ⟨t, ht⟩ := exists_nat_gt (B / (ρ * (1 - Act.sigmoid.act (2 * B))))
  rw [div_lt_iff₀ hδ] at ht
  obtain ⟨w', tr', u, e, h1, h2⟩ := log_feeds junk (B := B) hρ0 (min_le_right r _) t (c := 0) (u := 0) (w := ⟨fun _ => logNet r 0 0, s⟩) (tr := Trainer.newDecay 0 r0 k step)
    ⟨rfl, rfl, rfl, rfl, min_le_left _ _, rfl, rfl, rfl, rfl, rfl⟩ (Or.inr le_rfl)
  refine ⟨t, w', tr', e, ?_⟩
  rw [h1.W, w21_f1]
  rcases h2 with h2 | h2
  · exact h2
  · linarith

/-- The hypotheses of `C100_rest` hold of a 2-3-2 network with a sigmoid hidden layer and a softmax output, rates `1, 1/2, 1/4, …` and a batch of two samples. -/
example : ∃ (s : Store) (n : Net) (sched : Nat → ℝ × Mat ℝ × Mat ℝ), n.WF s 2 2 ∧ n.hidden = [7] ∧ (∀ L ∈ n.hiddenLayers s, Spec.TameAct 2 L.actfunc) ∧ Spec.UnitDelta n.output.actfunc n.output.costd ∧
    (∀ t, Spec.UnitBatch 2 2 2 (sched t).2) ∧ (∀ t, 0 < (sched t).1) ∧ (Summable fun t => (sched t).1) ∧ ∀ L ∈ n.layers s, 0 ≤ L.lambda ∧ ∀ t, (sched t).1 * L.lambda ≤ 1 := by
  have hg : ∀ t : Nat, ((1 : ℝ) / 2) ^ t ≤ 1 := fun t => pow_le_one₀ (by norm_num) (by norm_num)
  refine ⟨fun _ => ⟨{ exLayer Act.sigmoid (Mat.of 3 3 (fun i j => (i : ℝ) - j)) with lambda := 1 / 2 }, .dense⟩,
    { exNet with output := { exNet.output with lambda := 1 / 3, cost := Softmax.cost, costd := Softmax.costd } }, fun t => ((1 / 2) ^ t, Mat.of 2 2 (fun i j => (i : ℝ) - j), Mat.of 2 2 (fun _ j => (j : ℝ))),
    ⟨by simp [exNet], fun _ _ => rfl, by omega, ?_⟩, rfl, ?_, C99_outputs.2.2 _, ?_, fun t => by positivity, summable_geometric_of_lt_one (by norm_num) (by norm_num), ?_⟩
  · simp [Net.layers, Net.hiddenLayers, exNet, exLayer, Spec.Fits]
  · intro L hL
    simp only [Net.hiddenLayers, exNet, List.map_cons, List.map_nil, List.mem_singleton] at hL
    subst hL
    exact C99_activations Act.sigmoid (by simp)
  · intro t
    refine ⟨by show 0 < 2; omega, rfl, rfl, rfl, ?_, ?_⟩
    · intro i hi j hj
      have hi' : i < 2 := hi
      have hj' : j < 2 := hj
      rw [Mat.of_f' hi' hj']
      interval_cases i <;> interval_cases j <;> norm_num
    · intro i hi j hj
      have hi' : i < 2 := hi
      have hj' : j < 2 := hj
      rw [Mat.of_f' hi' hj']
      interval_cases j <;> norm_num
  · intro L hL
    simp only [Net.layers, Net.hiddenLayers, exNet, List.map_cons, List.map_nil, List.cons_append, List.nil_append, List.mem_cons, List.not_mem_nil, or_false] at hL
    rcases hL with rfl | rfl
    · exact ⟨by norm_num, fun t => by have := hg t; norm_num at this ⊢; linarith⟩
    · exact ⟨by norm_num, fun t => by have := hg t; norm_num at this ⊢; linarith⟩

end
end Nnet.NN
