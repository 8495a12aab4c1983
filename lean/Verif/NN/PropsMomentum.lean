import Verif.NN.PropsTrain
/-!
# C42, C43: MomentumTrainer; C57 for it
-/
namespace Nnet.NN
open Finset
noncomputable section

/-! ## Lemmas -/

theorem add_spec {a b r : Mat ℝ} (h : a.add b = .ok r) : r.nr = a.nr ∧ r.nc = a.nc ∧ b.nr = a.nr ∧ b.nc = a.nc ∧ ∀ i j, r.f i j = a.f i j + b.f i j := by
  obtain ⟨h1, h2, rfl⟩ := zip_eq_ok h
  refine ⟨rfl, rfl, h1.symm, h2.symm, fun i j => ?_⟩
  by_cases hij : i < a.nr ∧ j < a.nc
  · exact Mat.of_f' hij.1 hij.2
  · rw [a.out i j (by omega), b.out i j (by omega)]
    exact (Mat.out _ i j (by simp only [Mat.of_nr, Mat.of_nc]; omega)).trans (add_zero 0).symm

theorem mix_momentum {m : ℝ} {it : Nat} {old g r : Mat ℝ} (hm : m ≠ 0) (h : MomentumTrainer.mix m it old g = .ok r) :
    r.nr = old.nr ∧ r.nc = old.nc ∧ g.nr = old.nr ∧ g.nc = old.nc ∧ ∀ i j, r.f i j = m * old.f i j + (1 - m) * g.f i j := by
  unfold MomentumTrainer.mix at h
  rw [if_pos hm] at h
  obtain ⟨h1, h2, h3, h4, h5⟩ := add_spec h
  exact ⟨h1, h2, h3, h4, fun i j => by rw [h5, Mat.smul_f, Mat.smul_f]⟩

theorem mix_zero {it : Nat} {old g r : Mat ℝ} (h : MomentumTrainer.mix 0 it old g = .ok r) :
    r.nr = old.nr ∧ r.nc = old.nc ∧ g.nr = old.nr ∧ g.nc = old.nc ∧ ∀ i j, r.f i j = g.f i j / it := by
  unfold MomentumTrainer.mix at h
  rw [if_neg (by simp)] at h
  split at h
  · cases h
  · rename_i hit
    obtain ⟨h1, h2, h3, h4, h5⟩ := add_spec h
    refine ⟨h1, h2, h3, h4, fun i j => ?_⟩
    rw [h5, Mat.smul_f, Mat.smul_f, Nat.div_eq_of_lt (by omega)]
    simp
    ring

theorem mixAll_spec {m : ℝ} {it : Nat} {s : Store} {n : Net} : ∀ {gs gs' : List (Mat ℝ)} {i : Nat}, MomentumTrainer.mixAll m it s n i gs = .ok gs' →
    gs'.length = gs.length ∧ ∀ l G, gs[l]? = some G → ∃ L G', n.gethidden s (i + l : Nat) = .ok L ∧ gs'[l]? = some G' ∧ MomentumTrainer.mix m it G L.grad = .ok G'
  | [], gs', i, h => by
    cases h
    exact ⟨rfl, fun l G h => by simp at h⟩
  | g :: gs, gs', i, h => by
    unfold MomentumTrainer.mixAll at h
    obtain ⟨L, h1, h⟩ := bind_eq_ok h
    obtain ⟨g', h2, h⟩ := bind_eq_ok h
    obtain ⟨gs2, h3, h⟩ := bind_eq_ok h
    cases h
    obtain ⟨e1, e2⟩ := mixAll_spec h3
    refine ⟨by simp [e1], fun l G hl => ?_⟩
    cases l with
    | zero =>
      simp only [List.getElem?_cons_zero, Option.some.injEq] at hl
      subst hl
      exact ⟨L, g', h1, rfl, h2⟩
    | succ l =>
      simp only [List.getElem?_cons_succ] at hl
      obtain ⟨L', G', q1, q2, q3⟩ := e2 l G hl
      exact ⟨L', G', by rw [show i + (l + 1) = i + 1 + l by omega]; exact q1, by simpa using q2, q3⟩

theorem hlayer_updateWith_grad {h h' : HLayer} {g : Mat ℝ} (he : h.updateWith g = .ok h') : h'.base.grad = h.base.grad := by
  unfold HLayer.updateWith at he
  split at he
  · obtain ⟨a, ha, he⟩ := bind_eq_ok he
    cases he
    unfold Layer.updateWith at ha
    obtain ⟨_, _, ha⟩ := bind_eq_ok ha
    cases ha; rfl
  · obtain ⟨a, ha, he⟩ := bind_eq_ok he
    cases he
    unfold Layer.updateWith at ha
    obtain ⟨_, _, ha⟩ := bind_eq_ok ha
    cases ha; rfl
  · cases he; rfl

theorem hiddenUpdateWith_grad : ∀ {ps : List Nat} {gs : List (Mat ℝ)} {s s' : Store}, Net.hiddenUpdateWith ps gs s = .ok s' →
    ∀ q, (s' q).base.grad = (s q).base.grad
  | [], gs, s, s', h, q => by cases h; rfl
  | p :: ps, [], s, s', h, q => by cases h
  | p :: ps, g :: gs, s, s', h, q => by
    unfold Net.hiddenUpdateWith at h
    obtain ⟨hl, h1, h⟩ := bind_eq_ok h
    rw [hiddenUpdateWith_grad h q]
    by_cases hq : q = p
    · subst hq; rw [put_same, hlayer_updateWith_grad h1]
    · rw [put_other hq]

theorem gethidden_eq_ok {s : Store} {n : Net} {l : Nat} {L : Layer} (h : n.gethidden s l = .ok L) :
    ∃ p, n.hidden[l]? = some p ∧ L = (s p).base := by
  unfold Net.gethidden at h
  obtain ⟨p, h1, h⟩ := bind_eq_ok h
  cases h
  refine ⟨p, ?_, rfl⟩
  unfold vecAt at h1
  cases hv : n.hidden[l]? with
  | none => simp [hv] at h1
  | some r => simp [hv] at h1; rw [h1]

theorem gethidden_some {s : Store} {n : Net} {l p : Nat} (h : n.hidden[l]? = some p) : n.gethidden s l = .ok (s p).base := by
  unfold Net.gethidden
  rw [vecAt_some h, ok_bind]
  rfl

/-- What one call does to the averaged directions, for any network. -/
theorem momentum_call {junk : Nat → Nat → ℝ} {w w' : World} {t t' : MomentumTrainer} {x y : Mat ℝ} (h : t.feeddata junk w x y = .ok (w', t')) :
    t'.toTrainer = t.toTrainer.count ∧ t'.momentum = t.momentum ∧
    (∀ i j, t'.ograd.f i j = t.momentum * t.ograd.f i j + (1 - t.momentum) * (w'.nets t.nnet).output.grad.f i j) ∧
    t'.hgrads.length = t.hgrads.length ∧
    ∀ l G, t.hgrads[l]? = some G → ∃ L G', (w'.nets t.nnet).gethidden w'.store l = .ok L ∧ t'.hgrads[l]? = some G' ∧
      MomentumTrainer.mix t.momentum t.toTrainer.count.iters G L.grad = .ok G' := by
  unfold MomentumTrainer.feeddata at h
  obtain ⟨⟨r, s1, n1⟩, h1, h⟩ := bind_eq_ok h
  obtain ⟨⟨s2, n2⟩, h2, h⟩ := bind_eq_ok h
  obtain ⟨og, h3, h⟩ := bind_eq_ok h
  obtain ⟨hg, h4, h⟩ := bind_eq_ok h
  obtain ⟨⟨s3, n3⟩, h5, h⟩ := bind_eq_ok h
  cases h
  obtain ⟨q1, q2⟩ := mixAll_spec h4
  unfold Net.updateWith at h5
  obtain ⟨L5, h6, h5⟩ := bind_eq_ok h5
  obtain ⟨s5, h7, h5⟩ := bind_eq_ok h5
  cases h5
  have hgr : L5.grad = n2.output.grad := by
    unfold Layer.updateWith at h6
    obtain ⟨_, _, h6⟩ := bind_eq_ok h6
    cases h6; rfl
  refine ⟨rfl, rfl, fun i j => ?_, q1, fun l G hl => ?_⟩
  · have : (w.put t.nnet s3 { n2 with output := { n2.output with toLayer := L5 } }).nets t.nnet = { n2 with output := { n2.output with toLayer := L5 } } := put_nets _ _ _ _
    obtain ⟨_, _, _, _, h8⟩ := add_spec h3
    show og.f i j = _
    rw [h8, Mat.smul_f, Mat.smul_f]
    congr 2
    rw [show (w.put (({ t with toTrainer := t.count } : MomentumTrainer)).nnet s3 { n2 with output := { n2.output with toLayer := L5 } }).nets t.nnet = _ from this]
    show _ = L5.grad.f i j
    rw [hgr]
  · obtain ⟨L, G', g1, g2, g3⟩ := q2 l G hl
    rw [Nat.zero_add] at g1
    obtain ⟨p, hp, rfl⟩ := gethidden_eq_ok g1
    refine ⟨(s3 p).base, G', ?_, g2, ?_⟩
    · show ((w.put t.nnet s3 { n2 with output := { n2.output with toLayer := L5 } }).nets t.nnet).gethidden s3 l = _
      rw [put_nets]
      exact gethidden_some hp
    · rw [hiddenUpdateWith_grad h7]
      exact g3

/-! ## C42 -/

/-- `N` successful calls of `feeddata`: call number `t + 1` finds the world `before t` and leaves `after t`. Whatever happens to the networks between
calls is arbitrary. -/
def Spec.Calls (junk : Nat → Nat → ℝ) (N : Nat) (before after : Nat → World) (T : Nat → MomentumTrainer) (X Y : Nat → Mat ℝ) : Prop :=
  ∀ t < N, (T t).feeddata junk (before t) (X t) (Y t) = .ok (after t, T (t + 1))

theorem zeros_f (m : Mat ℝ) (i j : Nat) : (MomentumTrainer.zeros m).f i j = 0 := by
  unfold MomentumTrainer.zeros
  by_cases h : i < m.nr ∧ j < m.nc
  · exact Mat.of_f' h.1 h.2
  · exact Mat.out _ i j (by simp only [Mat.of_nr, Mat.of_nc]; omega)

theorem calls_conf {junk : Nat → Nat → ℝ} {N : Nat} {before after : Nat → World} {T : Nat → MomentumTrainer} {X Y : Nat → Mat ℝ}
    (h : Spec.Calls junk N before after T X Y) (h0 : (T 0).iters = 0) (hN : N < 2 ^ 64) : ∀ t ≤ N,
    (T t).momentum = (T 0).momentum ∧ (T t).nnet = (T 0).nnet ∧ (T t).iters = t ∧ (T t).hgrads.length = (T 0).hgrads.length := by
  intro t
  induction t with
  | zero => intro _; exact ⟨rfl, rfl, h0, rfl⟩
  | succ t ih =>
    intro ht
    obtain ⟨i1, i2, i3, i4⟩ := ih (by omega)
    obtain ⟨e1, e2, _, e4, _⟩ := momentum_call (h t (by omega))
    refine ⟨e2.trans i1, ?_, ?_, e4.trans i4⟩
    · rw [e1]; exact i2
    · rw [e1]
      show ((T t).iters + 1) % 2 ^ 64 = t + 1
      rw [i3]; omega

/-- **C42, output layer.** A new `MomentumTrainer` with momentum `m` keeps, after `t` successful calls on any network and data, the direction
`∑_{k<t} m^(t-1-k) (1-m) g_k`, where `g_k` is the output layer's gradient that call `k+1` left. -/
theorem C42_output {junk : Nat → Nat → ℝ} {N : Nat} {before after : Nat → World} {T : Nat → MomentumTrainer} {X Y : Nat → Mat ℝ} {w0 : World}
    {t0 : Trainer} {m : ℝ} (h : Spec.Calls junk N before after T X Y) (h0 : T 0 = MomentumTrainer.initmomentum w0 t0 m) (hi : t0.iters = 0)
    (hN : N < 2 ^ 64) : ∀ t ≤ N, ∀ i j,
    (T t).ograd.f i j = ∑ k ∈ range t, m ^ (t - 1 - k) * (1 - m) * ((after k).nets t0.nnet).output.grad.f i j := by
  intro t
  have hconf := calls_conf h (by rw [h0]; exact hi) hN
  have hm : (T 0).momentum = m := by rw [h0]; rfl
  have hn : (T 0).nnet = t0.nnet := by rw [h0]; rfl
  induction t with
  | zero =>
    intro _ i j
    rw [h0]
    exact (zeros_f _ i j).trans (by simp)
  | succ t ih =>
    intro ht i j
    obtain ⟨c1, c2, _, _⟩ := hconf t (by omega)
    obtain ⟨_, _, e3, _, _⟩ := momentum_call (h t (by omega))
    rw [e3, c1, c2, hm, hn, ih (by omega), Finset.sum_range_succ, Finset.mul_sum]
    congr 1
    · refine sum_congr rfl fun k hk => ?_
      have := mem_range.1 hk
      rw [show t + 1 - 1 - k = (t - 1 - k) + 1 by omega, pow_succ]
      ring
    · rw [show t + 1 - 1 - t = 0 by omega, pow_zero, one_mul]

/-- **C42, hidden layers.** For `m ≠ 0` the same holds for hidden layer number `l`. -/
theorem C42_hidden {junk : Nat → Nat → ℝ} {N : Nat} {before after : Nat → World} {T : Nat → MomentumTrainer} {X Y : Nat → Mat ℝ} {w0 : World}
    {t0 : Trainer} {m : ℝ} (h : Spec.Calls junk N before after T X Y) (h0 : T 0 = MomentumTrainer.initmomentum w0 t0 m) (hi : t0.iters = 0)
    (hN : N < 2 ^ 64) (hm0 : m ≠ 0) {l : Nat} (hl : l < (w0.nets t0.nnet).hidden.length) : ∀ t ≤ N, ∃ (G : Mat ℝ) (g : Nat → Layer),
    (T t).hgrads[l]? = some G ∧ (∀ k < t, ((after k).nets t0.nnet).gethidden (after k).store l = .ok (g k)) ∧
    ∀ i j, G.f i j = ∑ k ∈ range t, m ^ (t - 1 - k) * (1 - m) * (g k).grad.f i j := by
  intro t
  have hconf := calls_conf h (by rw [h0]; exact hi) hN
  have hm : (T 0).momentum = m := by rw [h0]; rfl
  have hn : (T 0).nnet = t0.nnet := by rw [h0]; rfl
  induction t with
  | zero =>
    intro _
    obtain ⟨p, hp⟩ : ∃ p, (w0.nets t0.nnet).hidden[l]? = some p := ⟨_, List.getElem?_eq_getElem hl⟩
    refine ⟨MomentumTrainer.zeros (w0.store p).base.W, fun _ => Layer.default, ?_, fun k hk => by omega, fun i j => ?_⟩
    · rw [h0]
      show ((w0.nets t0.nnet).hidden.map _)[l]? = _
      rw [List.getElem?_map, hp]
      rfl
    · rw [zeros_f]; simp
  | succ t ih =>
    intro ht
    obtain ⟨G, g, hG, hg, hsum⟩ := ih (by omega)
    obtain ⟨c1, c2, _, _⟩ := hconf t (by omega)
    obtain ⟨_, _, _, _, e5⟩ := momentum_call (h t (by omega))
    obtain ⟨L, G', g1, g2, g3⟩ := e5 l G hG
    rw [c2, hn] at g1
    rw [c1, hm] at g3
    obtain ⟨_, _, _, _, hf⟩ := mix_momentum hm0 g3
    refine ⟨G', fun k => if k < t then g k else L, g2, fun k hk => ?_, fun i j => ?_⟩
    · by_cases hkt : k < t
      · simp only [if_pos hkt]; exact hg k hkt
      · have : k = t := by omega
        subst this
        simp only [if_neg hkt]; exact g1
    · rw [hf, hsum, Finset.sum_range_succ, Finset.mul_sum]
      simp only [lt_irrefl, if_false]
      congr 1
      · refine sum_congr rfl fun k hk => ?_
        have := mem_range.1 hk
        rw [if_pos this, show t + 1 - 1 - k = (t - 1 - k) + 1 by omega, pow_succ]
        ring
      · rw [show t + 1 - 1 - t = 0 by omega, pow_zero, one_mul]

/-! ### The weights move along the direction -/

theorem sub_spec {a b r : Mat ℝ} (h : a.sub b = .ok r) : b.nr = a.nr ∧ b.nc = a.nc := by
  obtain ⟨h1, h2, _⟩ := zip_eq_ok h
  exact ⟨h1.symm, h2.symm⟩

theorem gradsFit_of_ok : ∀ {ps : List Nat} {gs : List (Mat ℝ)} {s s' : Store}, ps.Nodup → (∀ p ∈ ps, (s p).kind = .dense) →
    Net.hiddenUpdateWith ps gs s = .ok s' → GradsFit (ps.map (fun p => (s p).base)) gs
  | [], gs, s, s', _, _, _ => by cases gs <;> trivial
  | p :: ps, [], s, s', _, _, h => by cases h
  | p :: ps, g :: gs, s, s', hn, hd, h => by
    unfold Net.hiddenUpdateWith at h
    obtain ⟨hl, h1, h⟩ := bind_eq_ok h
    rw [List.nodup_cons] at hn
    have hother : ∀ q ∈ ps, s.put p hl q = s q := fun q hq => put_other (fun he => hn.1 (he ▸ hq))
    have ih := gradsFit_of_ok hn.2 (fun q hq => by rw [hother q hq]; exact hd q (List.mem_cons_of_mem _ hq)) h
    have hmap : ps.map (fun q => (s.put p hl q).base) = ps.map (fun q => (s q).base) := List.map_congr_left fun q hq => by rw [hother q hq]
    rw [hmap] at ih
    unfold HLayer.updateWith at h1
    rw [hd p (by simp)] at h1
    simp only at h1
    obtain ⟨L, h2, h1⟩ := bind_eq_ok h1
    unfold Layer.updateWith at h2
    obtain ⟨W, h3, h2⟩ := bind_eq_ok h2
    have := sub_spec h3
    exact ⟨this.1, this.2, ih⟩

theorem decay_W {s : Store} {n : Net} {p q : Nat} (h : n.WF s p q) (t : Trainer) :
    ((t.decay s n).2.layers (t.decay s n).1).map (·.W) = (n.layers s).map (·.W) ∧ (t.decay s n).2.cost = n.cost ∧
    (∀ x, outL ((t.decay s n).2.layers (t.decay s n).1) x = outL (n.layers s) x) ∧ (t.decay s n).2.hidden = n.hidden := by
  unfold Trainer.decay
  split
  · have hb := setlrate_becomes h (t.r0 * Real.exp (-t.k * t.iters))
    exact ⟨by rw [hb.layers, List.map_map]; rfl, rfl, fun x => by rw [hb.layers, outL_setlrate], rfl⟩
  · exact ⟨rfl, rfl, fun _ => rfl, rfl⟩

theorem hiddenW_of_layersW {s s' : Store} {n n' : Net} (h : (n'.layers s').map (·.W) = (n.layers s).map (·.W)) :
    (n'.hiddenLayers s').map (·.W) = (n.hiddenLayers s).map (·.W) ∧ n'.output.W = n.output.W := by
  unfold Net.layers at h
  rw [List.map_append, List.map_append] at h
  have := List.append_inj' h rfl
  exact ⟨this.1, List.singleton_injective this.2⟩

theorem zipWith_get {Ls : List Layer} {gs : List (Mat ℝ)} {l : Nat} {L : Layer} (hf : GradsFit Ls gs) (hl : Ls[l]? = some L) :
    ∃ G, gs[l]? = some G ∧ (List.zipWith Layer.updWith Ls gs)[l]? = some (L.updWith G) := by
  induction Ls generalizing gs l with
  | nil => simp at hl
  | cons M Ls ih =>
    cases gs with
    | nil => exact hf.elim
    | cons g gs =>
      cases l with
      | zero =>
        simp only [List.getElem?_cons_zero, Option.some.injEq] at hl
        subst hl
        exact ⟨g, rfl, rfl⟩
      | succ l =>
        simp only [List.getElem?_cons_succ] at hl
        obtain ⟨G, h1, h2⟩ := ih hf.2.2 hl
        exact ⟨G, by simpa using h1, by simpa using h2⟩

/-- **C42, the step.** A successful call on a well-formed dense network with fitting data moves the weights of the output layer and of every hidden
layer by minus the layer's learning rate times the averaged direction the trainer then holds for it. -/
theorem C42_step {junk : Nat → Nat → ℝ} {w w' : World} {t t' : MomentumTrainer} {x y : Mat ℝ} {p q : Nat}
    (hw : (w.nets t.nnet).WF w.store p q) (hr : 0 < x.nr) (hc : x.nc = p) (h : t.feeddata junk w x y = .ok (w', t')) :
    (w'.nets t.nnet).output.W = Mat.of (w.nets t.nnet).output.W.nr (w.nets t.nnet).output.W.nc
      (fun i j => (w.nets t.nnet).output.W.f i j - (w'.nets t.nnet).output.lrate * t'.ograd.f i j) ∧
    (∀ l L, (w.nets t.nnet).gethidden w.store l = .ok L → ∃ L' G, (w'.nets t.nnet).gethidden w'.store l = .ok L' ∧ t'.hgrads[l]? = some G ∧
      L'.W = Mat.of L.W.nr L.W.nc (fun i j => L.W.f i j - L'.lrate * G.f i j)) ∧
    (w'.nets t.nnet).WF w'.store p q ∧ (w'.nets t.nnet).result = outL ((w.nets t.nnet).layers w.store) x ∧
    (w'.nets t.nnet).cost = (w.nets t.nnet).cost := by
  unfold MomentumTrainer.feeddata at h
  simp only at h
  rw [show t.count.nnet = t.nnet from rfl] at h
  have hdw := decay_wf hw t.count
  obtain ⟨hdW, hdc, hdo, hdh⟩ := decay_W hw t.count
  generalize (t.count.decay w.store (w.nets t.nnet)).1 = sd at *
  generalize (t.count.decay w.store (w.nets t.nnet)).2 = nd at *
  obtain ⟨⟨r, s1, n1⟩, h1, h⟩ := bind_eq_ok h
  obtain ⟨⟨s2, n2⟩, h2, h⟩ := bind_eq_ok h
  obtain ⟨og, h3, h⟩ := bind_eq_ok h
  obtain ⟨hg, h4, h⟩ := bind_eq_ok h
  obtain ⟨⟨s3, n3⟩, h5, h⟩ := bind_eq_ok h
  cases h
  rw [put_nets]
  obtain ⟨D, hD, hD1, hD2⟩ := delta_of_ok hdw hr hc h1 h2
  obtain ⟨s1', n1', s2', n2', e1, e2, hb, hres, hrd⟩ := passes_ok (junk := junk) hdw hr hc hD hD1 hD2
  rw [h1] at e1
  cases e1
  rw [h2] at e2
  cases e2
  have hW2 : (n2.layers s2).map (·.W) = ((w.nets t.nnet).layers w.store).map (·.W) := by
    rw [hb.layers, passed_W, hdW]
  obtain ⟨hWh, hWo⟩ := hiddenW_of_layersW hW2
  have h5' := h5
  unfold Net.updateWith at h5'
  obtain ⟨L5, h6, h5'⟩ := bind_eq_ok h5'
  obtain ⟨s5, h7, h5'⟩ := bind_eq_ok h5'
  have hgf := gradsFit_of_ok hrd.wf.nodup hrd.wf.dense h7
  have hod : og.nr = n2.output.W.nr ∧ og.nc = n2.output.W.nc := by
    unfold Layer.updateWith at h6
    obtain ⟨_, h8, _⟩ := bind_eq_ok h6
    have := sub_spec h8
    exact ⟨this.1, this.2⟩
  obtain ⟨s3', n3', e3, hb3, hres3, _, hout3⟩ := Net.updateWith_ok hrd.wf hod.1 hod.2 hgf
  rw [h5] at e3
  cases e3
  have hl3 : n3.hiddenLayers s3 = List.zipWith Layer.updWith (n2.hiddenLayers s2) hg := by
    have := hb3.layers
    unfold Net.layers at this
    exact (List.append_inj' this rfl).1
  refine ⟨?_, fun l L hl => ?_, ?_, by rw [hres3, hres, hdo], ?_⟩
  · rw [hout3]
    show Mat.of n2.output.W.nr n2.output.W.nc _ = _
    rw [hWo]; rfl
  · have hL := hiddenLayer_get hl
    obtain ⟨L2, hL2, hWL⟩ : ∃ L2, (n2.hiddenLayers s2)[l]? = some L2 ∧ L2.W = L.W := by
      have := congrArg (·[l]?) hWh
      simp only [List.getElem?_map, hL, Option.map_some, Option.map_eq_some_iff] at this
      exact this
    obtain ⟨G, g1, g2⟩ := zipWith_get hgf hL2
    refine ⟨L2.updWith G, G, gethidden_of (by show (n3.hiddenLayers s3)[l]? = _; rw [hl3]; exact g2), g1, ?_⟩
    show Mat.of L2.W.nr L2.W.nc _ = _
    rw [hWL]; rfl
  · refine hb3.wf hrd.wf (fits_congr ?_ hrd.wf.fits)
    unfold Net.layers
    rw [List.map_append, List.map_append, List.map_append, List.map_append]
    congr 1
    have key : ∀ (Ls : List Layer) (gs : List (Mat ℝ)), GradsFit Ls gs →
        ((List.zipWith Layer.updWith Ls gs).map (·.W)).map (fun W => (W.nr, W.nc)) = (Ls.map (·.W)).map (fun W => (W.nr, W.nc)) := by
      intro Ls
      induction Ls with
      | nil => intro gs _; rfl
      | cons L Ls ih =>
        intro gs hf
        cases gs with
        | nil => exact hf.elim
        | cons g gs =>
          simp only [List.zipWith_cons_cons, List.map_cons]
          rw [ih gs hf.2.2]
          rfl
    exact key _ _ hgf
  · rw [hb3.conf.cost, hb.conf.cost, hdc]

/-! ## C57 -/

/-- **C57 for `MomentumTrainer`**: `feeddata(x, y, true)` trains as `feeddata(x, y)` and returns the cost of the network as it was before the update. -/
theorem C57_momentum {junk : Nat → Nat → ℝ} {w w2 : World} {t t2 : MomentumTrainer} {p q : Nat} {x y : Mat ℝ} {c : ℝ} {cc : Bool}
    (h : (w.nets t.nnet).WF w.store p q) (hr : 0 < x.nr) (hc : x.nc = p) (e : t.feedcost junk w x y cc = .ok (c, w2, t2)) :
    t.feeddata junk w x y = .ok (w2, t2) ∧ (cc = true → (w.nets t.nnet).costOf junk w.store x y = .ok c) ∧ (cc = false → c = 0) := by
  unfold MomentumTrainer.feedcost at e
  obtain ⟨⟨w1, t1⟩, e1, e⟩ := bind_eq_ok e
  obtain ⟨c1, e2, e⟩ := bind_eq_ok e
  cases e
  refine ⟨e1, fun hcc => ?_, fun hcc => ?_⟩
  · rw [if_pos hcc] at e2
    obtain ⟨_, _, _, hres, hcost⟩ := C42_step h hr hc e1
    have hn : t2.nnet = t.nnet := by rw [(momentum_call e1).1]; rfl
    rw [hn] at e2
    unfold Net.computecost Net.getresult at e2
    rw [hres, hcost] at e2
    rw [costOf_eq h hr hc]
    exact e2
  · subst hcc
    cases e2
    rfl

/-! ## C43 -/

/-- **C43 is false.** With momentum 0 the direction of hidden layer `l` after `t` calls is the *last* gradient divided by `t`, because the factor
`(t-1)/t` on the old direction is an integer division and always 0. -/
theorem C43_direction {junk : Nat → Nat → ℝ} {N : Nat} {before after : Nat → World} {T : Nat → MomentumTrainer} {X Y : Nat → Mat ℝ} {w0 : World}
    {t0 : Trainer} (h : Spec.Calls junk N before after T X Y) (h0 : T 0 = MomentumTrainer.initmomentum w0 t0 0) (hi : t0.iters = 0)
    (hN : N < 2 ^ 64) {l : Nat} (hl : l < (w0.nets t0.nnet).hidden.length) {t : Nat} (ht : t < N) : ∃ (G : Mat ℝ) (g : Layer),
    (T (t + 1)).hgrads[l]? = some G ∧ ((after t).nets t0.nnet).gethidden (after t).store l = .ok g ∧
    ∀ i j, G.f i j = g.grad.f i j / (t + 1 : Nat) := by
  have hconf := calls_conf h (by rw [h0]; exact hi) hN
  obtain ⟨c1, c2, c3, c4⟩ := hconf t (by omega)
  have hlen : l < (T t).hgrads.length := by
    rw [c4, h0]
    show l < ((w0.nets t0.nnet).hidden.map _).length
    rw [List.length_map]; exact hl
  obtain ⟨_, _, _, _, e5⟩ := momentum_call (h t ht)
  obtain ⟨L, G', g1, g2, g3⟩ := e5 l _ (List.getElem?_eq_getElem hlen)
  have hn : (T 0).nnet = t0.nnet := by rw [h0]; rfl
  have hm : (T 0).momentum = 0 := by rw [h0]; rfl
  rw [c2, hn] at g1
  rw [c1, hm] at g3
  obtain ⟨_, _, _, _, hf⟩ := mix_zero g3
  refine ⟨G', L, g2, g1, fun i j => ?_⟩
  rw [hf]
  congr 2
  show ((T t).iters + 1) % 2 ^ 64 = t + 1
  rw [c3]; omega

/-- **C43, when it fails.** So the direction is the running average of the gradients `g_0, ..., g_t` exactly when the earlier ones sum to zero. -/
theorem C43_refuted {junk : Nat → Nat → ℝ} {N : Nat} {before after : Nat → World} {T : Nat → MomentumTrainer} {X Y : Nat → Mat ℝ} {w0 : World}
    {t0 : Trainer} (h : Spec.Calls junk N before after T X Y) (h0 : T 0 = MomentumTrainer.initmomentum w0 t0 0) (hi : t0.iters = 0)
    (hN : N < 2 ^ 64) {l : Nat} (hl : l < (w0.nets t0.nnet).hidden.length) {t : Nat} (ht : t < N) {g : Nat → Layer}
    (hg : ∀ k ≤ t, ((after k).nets t0.nnet).gethidden (after k).store l = .ok (g k)) {G : Mat ℝ} (hG : (T (t + 1)).hgrads[l]? = some G) (i j : Nat) :
    G.f i j = (∑ k ∈ range (t + 1), (g k).grad.f i j) / (t + 1 : Nat) ↔ ∑ k ∈ range t, (g k).grad.f i j = 0 := by
  obtain ⟨G', g', h1, h2, h3⟩ := C43_direction h h0 hi hN hl ht
  rw [hG] at h1
  cases h1
  rw [hg t le_rfl] at h2
  cases h2
  rw [h3, Finset.sum_range_succ]
  have hpos : ((t + 1 : Nat) : ℝ) ≠ 0 := by positivity
  rw [div_left_inj' hpos]
  constructor <;> intro hh <;> linarith

end
end Nnet.NN
