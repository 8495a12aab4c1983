import Verif.NN.Spec
import Verif.NN.MatLemmas
/-!
# What the network functions compute, as pure functions on lists of layers
-/
namespace Nnet.NN
open Finset
noncomputable section

/-- The sample matrix with a column of ones in front. -/
def ones1 (x : Mat ℝ) : Mat ℝ := Mat.of x.nr (x.nc + 1) (fun i j => if j = 0 then 1 else x.f i (j - 1))

namespace Layer

/-- The layer after `forwardprop x`. -/
def fwd (L : Layer) (x : Mat ℝ) : Layer :=
  { L with pa := ones1 x, z := Spec.pre L.W x, a := (Spec.pre L.W x).map L.actfunc.act }

@[simp] theorem fwd_W (L : Layer) (x : Mat ℝ) : (L.fwd x).W = L.W := rfl
@[simp] theorem fwd_act (L : Layer) (x : Mat ℝ) : (L.fwd x).actfunc = L.actfunc := rfl

theorem fwd_a (L : Layer) (x : Mat ℝ) : (L.fwd x).a = Spec.dense L.actfunc.act L.W x := by
  refine Mat.ext' rfl rfl ?_
  intro i j hi hj
  have hi' : i < x.nr := hi
  have hj' : j < L.W.nc := hj
  show ((Spec.pre L.W x).map L.actfunc.act).f i j = _
  rw [Mat.map_f' (by exact hi') (by exact hj')]
  unfold Spec.pre Spec.dense
  rw [Mat.of_f' hi' hj', Mat.of_f' hi' hj']

theorem ones1_mul {x W : Mat ℝ} (h : W.nr = x.nc + 1) : (ones1 x).mul W = .ok (Spec.pre W x) := by
  rw [Mat.mul_ok (by simp [ones1, h])]
  congr 1
  unfold Spec.pre
  show Mat.of x.nr W.nc _ = _
  apply Mat.of_congr
  intro i j hi hj
  show ∑ k ∈ range (x.nc + 1), _ = _
  rw [Finset.sum_range_succ', add_comm]
  congr 1
  · unfold ones1; rw [Mat.of_f' hi (by omega)]; simp
  · refine Finset.sum_congr rfl fun k hk => ?_
    have := mem_range.1 hk
    unfold ones1
    rw [Mat.of_f' hi (by omega)]
    simp

theorem forwardprop_ok {L : Layer} {x : Mat ℝ} (hr : 0 < x.nr) (hc : 0 < x.nc) (hW : L.W.nr = x.nc + 1) :
    L.forwardprop x = .ok ((L.fwd x).a, L.fwd x) := by
  unfold forwardprop
  rw [addcol_ok hr hc, ok_bind]
  have := ones1_mul (x := x) (W := L.W) hW
  unfold ones1 at this
  rw [this]
  rfl

/-- The derivative of the cost with respect to the pre-activations, given the one with respect to the outputs. -/
def dz (L : Layer) (d : Mat ℝ) : Mat ℝ := Mat.of d.nr d.nc (fun i j => d.f i j * L.actfunc.actd (L.z.f i j))

/-- Sample-weighted sum of the inputs: `paᵀ D`. -/
def gradOf (pa D : Mat ℝ) : Mat ℝ := Mat.of pa.nc D.nc (fun k j => ∑ i ∈ range pa.nr, pa.f i k * D.f i j)

/-- `D Wᵀ` without the bias column. -/
def backOf (D W : Mat ℝ) : Mat ℝ := Mat.of D.nr (W.nr - 1) (fun i k => ∑ j ∈ range D.nc, D.f i j * W.f (k + 1) j)

/-- Gradient including the regularisation term. -/
def regGrad (L : Layer) (D : Mat ℝ) : Mat ℝ :=
  Mat.of L.W.nr L.W.nc (fun k j => (gradOf L.pa D).f k j + L.lambda * L.W.f k j)

/-- The layer after `backprop d`. -/
def bwd (L : Layer) (d : Mat ℝ) : Layer := { L with delta := L.dz d, grad := L.regGrad (L.dz d) }

/-- What a layer needs for `backprop` with `m` samples: its caches come from a forward pass with `m` samples. -/
structure Cached (L : Layer) (m : Nat) : Prop where
  pa_nr : L.pa.nr = m
  pa_nc : L.pa.nc = L.W.nr
  z_nr : L.z.nr = m
  z_nc : L.z.nc = L.W.nc
  a_nr : L.a.nr = m
  a_nc : L.a.nc = L.W.nc

theorem fwd_cached {L : Layer} {x : Mat ℝ} (hW : L.W.nr = x.nc + 1) : (L.fwd x).Cached x.nr :=
  ⟨rfl, hW.symm, rfl, rfl, rfl, rfl⟩

theorem grad_ok {L : Layer} {m : Nat} {D : Mat ℝ} (hL : L.Cached m) (h1 : D.nr = m) (h2 : D.nc = L.W.nc) :
    (do let grad ← L.pa.tr.mul D; grad.add (L.W.smul L.lambda) : Res (Mat ℝ)) = .ok (L.regGrad D) := by
  rw [Mat.mul_ok (by rw [Mat.tr_nc, hL.pa_nr, h1]), ok_bind, Mat.add_ok (by simp [hL.pa_nc]) (by simp [h2])]
  congr 1
  unfold regGrad
  simp only [Mat.of_nr, Mat.of_nc, Mat.tr_nr, Mat.tr_nc]
  rw [hL.pa_nc, h2]
  apply Mat.of_congr
  intro i j hi hj
  rw [Mat.of_f' hi hj, Mat.smul_f]
  unfold gradOf
  rw [Mat.of_f' (by rw [hL.pa_nc]; exact hi) (by rw [h2]; exact hj)]
  simp only [Mat.tr_f]

theorem backprop_ok {L : Layer} {m : Nat} {d : Mat ℝ} (hL : L.Cached m) (hm : 0 < m) (hW : 2 ≤ L.W.nr) (h1 : d.nr = m)
    (h2 : d.nc = L.W.nc) : L.backprop d = .ok (backOf (L.dz d) L.W, L.bwd d) := by
  have hs : d.schur (funcop L.z L.actfunc.actd) = .ok (L.dz d) := by
    rw [Mat.schur_ok (by simp [funcop, hL.z_nr, h1]) (by simp [funcop, hL.z_nc, h2])]
    congr 1
    apply Mat.of_congr
    intro i j hi hj
    unfold funcop
    rw [Mat.map_f' (by rw [hL.z_nr, ← h1]; exact hi) (by rw [hL.z_nc, ← h2]; exact hj)]
  unfold backprop
  rw [hs, ok_bind]
  have hg := grad_ok (D := L.dz d) hL (by exact h1) (by exact h2)
  rw [← bind_assoc, hg, ok_bind, Mat.mul_ok (by simp [dz, h2]), ok_bind]
  rw [Mat.submat_ok (by unfold Mat.InView; simp only [Mat.of_nr, Mat.of_nc, Mat.tr_nc, dz, h1]; omega), ok_bind]
  congr 2
  unfold backOf
  simp only [dz, Mat.of_nr, h1, Mat.tr_nc]
  have e1 : ((m : Int) - 1 - 0 + 1).toNat = m := by omega
  have e2 : ((L.W.nr : Int) - 1 - 1 + 1).toNat = L.W.nr - 1 := by omega
  rw [e1, e2]
  apply Mat.of_congr
  intro i k hi hk
  rw [Mat.of_f' (by simpa using hi) (by simp; omega)]
  simp only [Mat.tr_f]
  rfl

end Layer

namespace OutputLayer

/-- The output layer after `backprop y` with derivative `D` of the cost. -/
def bwd (o : OutputLayer) (y D : Mat ℝ) : OutputLayer := { o with y := y, delta := D, grad := o.toLayer.regGrad D }

theorem backprop_ok {o : OutputLayer} {m : Nat} {y D : Mat ℝ} (hL : o.toLayer.Cached m) (hW : 1 ≤ o.W.nr)
    (hD : o.costd y o.a o.z = .ok D) (h1 : D.nr = m) (h2 : D.nc = o.W.nc) :
    o.backprop y = .ok (Layer.backOf D o.W, o.bwd y D) := by
  unfold backprop
  rw [hD, ok_bind]
  have hg := Layer.grad_ok (D := D) hL h1 h2
  rw [← bind_assoc, hg, ok_bind, Mat.mul_ok (by simp [h2]), ok_bind]
  unfold Mat.shedCol0
  rw [if_pos (by simp; omega), ok_bind]
  congr 2
  unfold Layer.backOf
  simp only [Mat.of_nr, Mat.of_nc, Mat.tr_nc]
  apply Mat.of_congr
  intro i k hi hk
  rw [Mat.of_f' hi (by omega)]
  simp only [Mat.tr_f]

theorem forwardprop_ok {o : OutputLayer} {x : Mat ℝ} (hr : 0 < x.nr) (hc : 0 < x.nc) (hW : o.W.nr = x.nc + 1) :
    o.forwardprop x = .ok ((o.toLayer.fwd x).a, { o with toLayer := o.toLayer.fwd x }) := by
  unfold forwardprop
  rw [Layer.forwardprop_ok hr hc hW]
  rfl

end OutputLayer

/-! ## Lists of layers -/

/-- Layers after a forward pass. -/
def fwdL : List Layer → Mat ℝ → List Layer
  | [], _ => []
  | L :: Ls, x => L.fwd x :: fwdL Ls (L.fwd x).a

/-- Output of a forward pass. -/
def outL : List Layer → Mat ℝ → Mat ℝ
  | [], x => x
  | L :: Ls, x => outL Ls (L.fwd x).a

/-- Layers after a backward pass, and the derivative with respect to the input. -/
def bwdL : List Layer → Mat ℝ → List Layer × Mat ℝ
  | [], d => ([], d)
  | L :: Ls, d => (L.bwd (bwdL Ls d).2 :: (bwdL Ls d).1, Layer.backOf (L.dz (bwdL Ls d).2) L.W)

/-- The store holds exactly the dense layers `Ls` under the names `ps`. -/
def Holds (s : Store) (ps : List Nat) (Ls : List Layer) : Prop := ps.map s = Ls.map (fun L => ⟨L, .dense⟩)

theorem holds_of_dense {s : Store} {ps : List Nat} (h : ∀ p ∈ ps, (s p).kind = .dense) : Holds s ps (ps.map (fun p => (s p).base)) := by
  unfold Holds
  rw [List.map_map]
  apply List.map_congr_left
  intro p hp
  have := h p hp
  show s p = ⟨(s p).base, .dense⟩
  rw [← this]

theorem Holds.bases {s : Store} {ps : List Nat} {Ls : List Layer} (h : Holds s ps Ls) : ps.map (fun p => (s p).base) = Ls := by
  have := congrArg (List.map HLayer.base) h
  rw [List.map_map, List.map_map] at this
  simpa [Function.comp_def] using this

theorem Holds.dense {s : Store} {ps : List Nat} {Ls : List Layer} (h : Holds s ps Ls) : ∀ p ∈ ps, (s p).kind = .dense := by
  intro p hp
  have : s p ∈ ps.map s := List.mem_map.2 ⟨p, hp, rfl⟩
  rw [h] at this
  obtain ⟨L, _, e⟩ := List.mem_map.1 this
  rw [← e]

theorem Holds.cons {s : Store} {p : Nat} {ps : List Nat} {L : Layer} {Ls : List Layer} (h1 : s p = ⟨L, .dense⟩) (h2 : Holds s ps Ls) :
    Holds s (p :: ps) (L :: Ls) := by
  unfold Holds at *
  simp [h1, h2]

theorem Holds.cons_inv {s : Store} {p : Nat} {ps : List Nat} {Ls : List Layer} (h : Holds s (p :: ps) Ls) :
    ∃ L Ls', Ls = L :: Ls' ∧ s p = ⟨L, .dense⟩ ∧ Holds s ps Ls' := by
  unfold Holds at h
  cases Ls with
  | nil => simp at h
  | cons L Ls' =>
    simp only [List.map_cons, List.cons.injEq] at h
    exact ⟨L, Ls', rfl, h.1, h.2⟩

theorem put_other {s : Store} {p q : Nat} {v : HLayer} (h : q ≠ p) : s.put p v q = s q := if_neg h
theorem put_same {s : Store} {p : Nat} {v : HLayer} : s.put p v p = v := if_pos rfl

theorem Holds.put {s : Store} {p : Nat} {ps : List Nat} {Ls : List Layer} {v : HLayer} (h : Holds s ps Ls) (hp : p ∉ ps) :
    Holds (s.put p v) ps Ls := by
  unfold Holds at *
  rw [← h]
  apply List.map_congr_left
  intro q hq
  exact put_other (by rintro rfl; exact hp hq)

theorem Holds.congr {s s' : Store} {ps : List Nat} {Ls : List Layer} (h : Holds s ps Ls) (hs : ∀ p ∈ ps, s' p = s p) : Holds s' ps Ls := by
  unfold Holds at *
  rw [← h]
  exact List.map_congr_left hs

/-- Forward pass through the hidden layers. -/
theorem hiddenForward_ok {junk : Nat → Nat → ℝ} : ∀ {ps : List Nat} {s : Store} {Ls : List Layer} {x : Mat ℝ} {q : Nat},
    ps.Nodup → Holds s ps Ls → 0 < x.nr → 0 < x.nc → Spec.Fits x.nc (Ls.map (·.W)) q →
    ∃ s', Net.hiddenForward junk ps s x = .ok (outL Ls x, s') ∧ Holds s' ps (fwdL Ls x) ∧ (∀ r, r ∉ ps → s' r = s r) ∧
      (outL Ls x).nr = x.nr ∧ (outL Ls x).nc = q ∧ 0 < q
  | [], s, Ls, x, q, _, hh, hr, hc, hf => by
    have : Ls = [] := by
      unfold Holds at hh
      cases Ls <;> simp_all
    subst this
    simp only [List.map_nil, Spec.Fits] at hf
    exact ⟨s, rfl, rfl, fun _ _ => rfl, rfl, hf, by omega⟩
  | p :: ps, s, Ls, x, q, hn, hh, hr, hc, hf => by
    obtain ⟨L, Ls', rfl, hp, hps⟩ := hh.cons_inv
    simp only [List.map_cons, Spec.Fits] at hf
    rw [List.nodup_cons] at hn
    obtain ⟨s', e, h1, h2, h3, h4, h5⟩ := hiddenForward_ok (junk := junk) (x := (L.fwd x).a) hn.2
      (hps.put (v := ⟨L.fwd x, .dense⟩) hn.1) (by exact hr) (by exact hf.2.1) hf.2.2
    refine ⟨s', ?_, ?_, ?_, h3, h4, h5⟩
    · unfold Net.hiddenForward HLayer.forwardprop
      rw [hp]
      simp only
      rw [Layer.forwardprop_ok hr hc hf.1, ok_bind, ok_bind]
      exact e
    · refine Holds.cons ?_ h1
      rw [h2 p hn.1, put_same]
    · intro r hr'
      simp only [List.mem_cons, not_or] at hr'
      rw [h2 r hr'.2, put_other hr'.1]

/-- Every layer of the list has caches for `m` samples. -/
def CachedL (Ls : List Layer) (m : Nat) : Prop := ∀ L ∈ Ls, L.Cached m

/-- Sizes of what `bwdL` returns. -/
theorem bwdL_dims : ∀ {Ls : List Layer} {d : Mat ℝ} {m p q : Nat}, Spec.Fits p (Ls.map (·.W)) q → d.nr = m → d.nc = q →
    (bwdL Ls d).2.nr = m ∧ (bwdL Ls d).2.nc = p
  | [], d, m, p, q, hf, h1, h2 => by
    simp only [List.map_nil, Spec.Fits] at hf
    exact ⟨h1, by subst hf; exact h2⟩
  | L :: Ls, d, m, p, q, hf, h1, h2 => by
    simp only [List.map_cons, Spec.Fits] at hf
    have := bwdL_dims hf.2.2 h1 h2
    refine ⟨this.1, ?_⟩
    show L.W.nr - 1 = p
    omega

/-- The backward pass, also returning the last delta. -/
def bwGo (junk : Nat → Nat → ℝ) : List Nat → Store → Mat ℝ → Res (Mat ℝ × Store)
  | [], s, d => .ok (d, s)
  | p :: ps, s, d => do
    let (d', h) ← (s p).backprop junk d
    bwGo junk ps (s.put p h) d'

theorem hiddenBackward_eq {junk : Nat → Nat → ℝ} : ∀ (ps : List Nat) (s : Store) (d : Mat ℝ),
    Net.hiddenBackward junk ps s d = (do let r ← bwGo junk ps s d; .ok r.2)
  | [], s, d => rfl
  | p :: ps, s, d => by
    simp only [Net.hiddenBackward, bwGo, bind_assoc]
    congr 1
    funext v
    exact hiddenBackward_eq ps _ _

theorem bwGo_append {junk : Nat → Nat → ℝ} (b : List Nat) : ∀ (a : List Nat) (s : Store) (d : Mat ℝ),
    bwGo junk (a ++ b) s d = (do let r ← bwGo junk a s d; bwGo junk b r.2 r.1)
  | [], s, d => rfl
  | p :: ps, s, d => by
    simp only [List.cons_append, bwGo, bind_assoc]
    congr 1
    funext v
    exact bwGo_append b ps _ _

/-- Backward pass through the hidden layers. -/
theorem bwGo_ok {junk : Nat → Nat → ℝ} {m q : Nat} {d : Mat ℝ} (hm : 0 < m) (hd1 : d.nr = m) (hd2 : d.nc = q) :
    ∀ {ps : List Nat} {s : Store} {Ls : List Layer} {p : Nat}, ps.Nodup → Holds s ps Ls → CachedL Ls m → 0 < p →
    Spec.Fits p (Ls.map (·.W)) q →
    ∃ s', bwGo junk ps.reverse s d = .ok ((bwdL Ls d).2, s') ∧ Holds s' ps (bwdL Ls d).1 ∧ (∀ r, r ∉ ps → s' r = s r)
  | [], s, Ls, p, _, hh, _, _, _ => by
    have : Ls = [] := by
      unfold Holds at hh
      cases Ls <;> simp_all
    subst this
    exact ⟨s, rfl, rfl, fun _ _ => rfl⟩
  | i :: ps, s, Ls, p, hn, hh, hca, hp, hf => by
    obtain ⟨L, Ls', rfl, hi, hps⟩ := hh.cons_inv
    simp only [List.map_cons, Spec.Fits] at hf
    rw [List.nodup_cons] at hn
    obtain ⟨s1, e, h1, h2⟩ := bwGo_ok (junk := junk) hm hd1 hd2 hn.2 hps (fun L hL => hca L (List.mem_cons_of_mem _ hL)) hf.2.1 hf.2.2
    have hdim := bwdL_dims hf.2.2 hd1 hd2
    refine ⟨s1.put i ⟨L.bwd (bwdL Ls' d).2, .dense⟩, ?_, ?_, ?_⟩
    · rw [List.reverse_cons, bwGo_append, e, ok_bind]
      simp only [bwGo]
      rw [h2 i hn.1, hi]
      unfold HLayer.backprop
      simp only
      rw [Layer.backprop_ok (hca L (by simp)) hm (by omega) hdim.1 hdim.2, ok_bind, ok_bind]
      rfl
    · exact Holds.cons put_same (h1.put hn.1)
    · intro r hr'
      simp only [List.mem_cons, not_or] at hr'
      rw [put_other hr'.1, h2 r hr'.2]

end
end Nnet.NN
