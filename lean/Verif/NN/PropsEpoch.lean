import Verif.NN.PropsLinear
import Verif.NN.PropsTrain
import Verif.NN.Kaczmarz
/-!
# C90: every trainer learns linear data that can be fitted
-/
namespace Nnet.NN
open Finset
noncomputable section

/-! ## Specification -/

/-- The weights `V` (row 0: the biases) give every sample of `x` its label. -/
def Spec.FitsExactly (x y : Mat ℝ) (q : Nat) (V : Nat → Nat → ℝ) : Prop :=
  ∀ i < x.nr, ∀ j < q, V 0 j + ∑ k ∈ range x.nc, x.f i k * V (k + 1) j = y.f i j

/-- Repeating `run` learns: the output weights converge to weights that fit the data exactly, and the cost `computecost` reports of it converges to 0. -/
def Spec.LearnsData (junk : Nat → Nat → ℝ) (run : Nat → Res (Store × Net)) (x y : Mat ℝ) (p q : Nat) : Prop :=
  ∃ (W : Nat → Mat ℝ) (U : Nat → Nat → ℝ) (c : Nat → ℝ), (∀ t, (run t).map (fun r => r.2.output.W) = .ok (W t)) ∧ Spec.FitsExactly x y q U ∧
    (∀ k < p + 1, ∀ j < q, Filter.Tendsto (fun t => (W t).f k j) Filter.atTop (nhds (U k j))) ∧
    (∀ t, (do let (s, n) ← run t; let (out, _, n) ← n.forwardprop junk s x; n.computecost out y : Res ℝ) = .ok (c t)) ∧ Filter.Tendsto c Filter.atTop (nhds 0)

/-- The network number `k` after `t` calls of `feed` with the data `x`, `y`. -/
def Spec.netAfter {T : Type} (feed : World → T → Mat ℝ → Mat ℝ → Res (World × T)) (w : World) (tr : T) (k : Nat) (x y : Mat ℝ) (t : Nat) : Res (Store × Net) := do
  let (w, _) ← feedAll feed w tr (List.replicate t (x, y))
  .ok (w.store, w.nets k)

/-! ## Lemmas -/

/-- A batch as tables. -/
def batOf (b : Mat ℝ × Mat ℝ) : GD.Bat := ⟨b.1.nr, Spec.withOne b.1, b.2.f⟩

theorem batOf_len2 (b : Mat ℝ × Mat ℝ) : GD.len2 (b.1.nc + 1) (batOf b) = ∑ i ∈ range b.1.nr, (1 + ∑ k ∈ range b.1.nc, b.1.f i k ^ 2) := by
  unfold GD.len2 batOf
  refine sum_congr rfl fun i _ => ?_
  rw [sum_range_succ', add_comm]
  congr 1
  simp [Spec.withOne]

theorem batOf_exact {b : Mat ℝ × Mat ℝ} {q : Nat} {V : Nat → Nat → ℝ} : GD.Exact (b.1.nc + 1) q (batOf b) V ↔ Spec.FitsExactly b.1 b.2 q V := by
  have : ∀ i j, GD.pred (b.1.nc + 1) (Spec.withOne b.1) V i j = V 0 j + ∑ k ∈ range b.1.nc, b.1.f i k * V (k + 1) j := fun i j => by
    unfold GD.pred
    rw [sum_range_succ', add_comm]
    simp [Spec.withOne]
  unfold GD.Exact Spec.FitsExactly batOf
  simp only [this]

/-- What a list of batches must satisfy. -/
structure BatchesOK (ds : List (Mat ℝ × Mat ℝ)) (p q : Nat) (lrate : ℝ) : Prop where
  ne : ds ≠ []
  dims : ∀ b ∈ ds, 0 < b.1.nr ∧ b.1.nc = p ∧ b.2.nr = b.1.nr ∧ b.2.nc = q
  rate : ∀ b ∈ ds, ∀ i < b.1.nr, lrate * (1 + ∑ k ∈ range b.1.nc, b.1.f i k ^ 2) < 2

theorem replicate_flatten {α : Type} (ds : List α) (hd : 0 < ds.length) : ∀ T : Nat,
    (List.replicate T ds).flatten = (List.range (T * ds.length)).map (fun t => ds[t % ds.length]'(Nat.mod_lt _ hd))
  | 0 => by simp
  | T + 1 => by
    rw [List.replicate_succ', List.flatten_append, replicate_flatten ds hd T, Nat.succ_mul, List.range_add, List.map_append]
    congr 1
    rw [List.flatten_singleton, List.map_map]
    refine List.ext_getElem (by simp) fun i h1 h2 => ?_
    simp only [List.getElem_map, List.getElem_range, Function.comp]
    congr 1
    rw [Nat.add_comm, Nat.add_mul_mod_self_right, Nat.mod_eq_of_lt h1]

variable {junk : Nat → Nat → ℝ} {s : Store} {n : Net} {p q : Nat}

theorem linear_lstep {x y : Mat ℝ} (h : Spec.LinearNet s n p q) (hr : 0 < x.nr) (hc : x.nc = p) (hyr : y.nr = x.nr) (hyc : y.nc = q) :
    ∃ s' n', n.trainOn junk s x y = .ok (s', n') ∧ Spec.LinearNet s' n' p q ∧ n'.output.lrate = n.output.lrate ∧
      GD.LStep (p + 1) q (batOf (x, y)) (n.output.lrate / x.nr) n.output.W.f n'.output.W.f := by
  obtain ⟨s1, n1, e1, e2, e3, e4⟩ := linear_step (junk := junk) h hr hc hyr hyc
  refine ⟨s1, n1, e1, e2, e3, fun k hk j hj => ?_⟩
  rw [e4 k hk j hj]
  have : ∑ i ∈ range x.nr, Spec.withOne x i k * (((outL (n.layers s) x).f i j - y.f i j) / x.nr) =
      (∑ i ∈ range x.nr, Spec.withOne x i k * (GD.pred (p + 1) (Spec.withOne x) n.output.W.f i j - y.f i j)) / x.nr := by
    rw [Finset.sum_div]
    refine sum_congr rfl fun i hi => ?_
    rw [linear_out h hc (mem_range.1 hi) hj]
    unfold GD.pred
    ring
  rw [this]
  show _ = n.output.W.f k j - n.output.lrate / x.nr * ∑ i ∈ range x.nr, Spec.withOne x i k * (GD.pred (p + 1) (Spec.withOne x) n.output.W.f i j - y.f i j)
  ring

theorem linear_cycle {ds : List (Mat ℝ × Mat ℝ)} (h : Spec.LinearNet s n p q) (h0 : 0 < n.output.lrate) (hb : BatchesOK ds p q n.output.lrate) :
    ∃ (R : Nat → Store × Net) (hd : 0 < ds.length), (∀ T, Net.trainSeq junk (List.replicate T ds).flatten s n = .ok (R (T * ds.length))) ∧ (∀ t, Spec.LinearNet (R t).1 (R t).2 p q) ∧
      GD.Cycle (p + 1) q ds.length (fun t => batOf (ds[t % ds.length]'(Nat.mod_lt _ hd))) (fun t => n.output.lrate / (ds[t % ds.length]'(Nat.mod_lt _ hd)).1.nr) (fun t => (R t).2.output.W.f) := by
  have hd : 0 < ds.length := List.length_pos_iff.2 hb.ne
  set D : Nat → Mat ℝ × Mat ℝ := fun t => ds[t % ds.length]'(Nat.mod_lt _ hd) with hD
  have hmem : ∀ t, D t ∈ ds := fun t => List.getElem_mem _
  have key : ∀ t, ∃ r : Store × Net, Net.trainSeq junk ((List.range t).map D) s n = .ok r ∧ Spec.LinearNet r.1 r.2 p q ∧ r.2.output.lrate = n.output.lrate := by
    intro t
    induction t with
    | zero => exact ⟨(s, n), rfl, h, rfl⟩
    | succ t ih =>
      obtain ⟨⟨s1, n1⟩, e1, l1, r1⟩ := ih
      obtain ⟨d1, d2, d3, d4⟩ := hb.dims _ (hmem t)
      obtain ⟨s2, n2, e2, l2, r2, -⟩ := linear_lstep (junk := junk) l1 d1 d2 d3 d4
      refine ⟨(s2, n2), ?_, l2, by rw [r2]; exact r1⟩
      rw [List.range_succ, List.map_append, trainSeq_append, e1, ok_bind]
      show (do let (s, n) ← n1.trainOn junk s1 (D t).1 (D t).2; Net.trainSeq junk [] s n) = _
      rw [e2]
      rfl
  choose R h1 h2 h3 using key
  refine ⟨R, hd, fun T => ?_, h2, ⟨hd, fun t => ?_, fun t => ?_, fun t => ?_, fun t => ?_⟩⟩
  · rw [replicate_flatten ds hd T]
    exact h1 _
  · simp only [Nat.add_mod_right]
  · simp only [Nat.add_mod_right]
  · obtain ⟨d1, d2, d3, d4⟩ := hb.dims _ (hmem t)
    obtain ⟨s2, n2, e2, l2, r2, w2⟩ := linear_lstep (junk := junk) (h2 t) d1 d2 d3 d4
    have := h1 (t + 1)
    rw [List.range_succ, List.map_append, trainSeq_append, h1 t, ok_bind] at this
    have e : R (t + 1) = (s2, n2) := by
      have e3 : (do let (s, n) ← (R t).2.trainOn junk (R t).1 (D t).1 (D t).2; Net.trainSeq junk [] s n) = Except.ok (R (t + 1)) := this
      rw [e2] at e3
      exact (Except.ok.inj e3).symm
    rw [h3 t] at w2
    show GD.LStep _ _ _ _ _ ((R (t + 1)).2.output.W.f)
    rw [e]
    exact w2
  · obtain ⟨d1, d2, d3, d4⟩ := hb.dims _ (hmem t)
    have hm : (0 : ℝ) < (D t).1.nr := by exact_mod_cast d1
    refine ⟨div_pos h0 hm, ?_⟩
    show n.output.lrate / (D t).1.nr * GD.len2 (p + 1) (batOf (D t)) < 2
    rw [← d2, batOf_len2, div_mul_eq_mul_div, div_lt_iff₀ hm, mul_sum]
    calc _ < ∑ i ∈ range (D t).1.nr, (2 : ℝ) := sum_lt_sum_of_nonempty ⟨0, mem_range.2 d1⟩ fun i hi => hb.rate _ (hmem t) i (mem_range.1 hi)
      _ = _ := by rw [sum_const, card_range, nsmul_eq_mul, mul_comm]

theorem fitCost_tendsto {x y : Mat ℝ} {q : Nat} {W : Nat → Nat → Nat → ℝ} {U : Nat → Nat → ℝ} (hyc : y.nc = q) (hU : Spec.FitsExactly x y q U)
    (h : ∀ k < x.nc + 1, ∀ j < q, Filter.Tendsto (fun t => W t k j) Filter.atTop (nhds (U k j))) : Filter.Tendsto (fun t => Spec.fitCost x y (W t)) Filter.atTop (nhds 0) := by
  have hz : Spec.fitCost x y U = 0 := by
    refine Finset.sum_eq_zero fun i hi => Finset.sum_eq_zero fun j hj => ?_
    have : ∑ k ∈ range (x.nc + 1), Spec.withOne x i k * U k j = y.f i j := by
      rw [← hU i (Finset.mem_range.1 hi) j (by have := Finset.mem_range.1 hj; omega), Finset.sum_range_succ']
      unfold Spec.withOne
      simp [add_comm]
    rw [this]; simp
  rw [← hz]
  unfold Spec.fitCost
  refine tendsto_finsetSum _ fun i _ => tendsto_finsetSum _ fun j hj => ?_
  refine ((((tendsto_finsetSum _ fun k hk => ?_).sub_const _).pow 2).div_const _).div_const _
  exact (h k (mem_range.1 hk) j (by have := mem_range.1 hj; omega)).const_mul _

theorem cycle_learns {ds : List (Mat ℝ × Mat ℝ)} {x y : Mat ℝ} {run : Nat → Res (Store × Net)} (h : Spec.LinearNet s n p q) (h0 : 0 < n.output.lrate) (hb : BatchesOK ds p q n.output.lrate)
    (hr : 0 < x.nr) (hc : x.nc = p) (hyr : y.nr = x.nr) (hyc : y.nc = q) (V : Nat → Nat → ℝ) (hV : ∀ b ∈ ds, Spec.FitsExactly b.1 b.2 q V)
    (cover : ∀ U, (∀ b ∈ ds, Spec.FitsExactly b.1 b.2 q U) → Spec.FitsExactly x y q U)
    (hrun : ∀ t, run t = Net.trainSeq junk (List.replicate t ds).flatten s n) : Spec.LearnsData junk run x y p q := by
  obtain ⟨R, hd, r1, r2, r3⟩ := linear_cycle (junk := junk) h h0 hb
  have ex : ∀ (U : Nat → Nat → ℝ) (t : Nat), GD.Exact (p + 1) q (batOf (ds[t % ds.length]'(Nat.mod_lt _ hd))) U ↔
      Spec.FitsExactly (ds[t % ds.length]'(Nat.mod_lt _ hd)).1 (ds[t % ds.length]'(Nat.mod_lt _ hd)).2 q U := fun U t => by
    have := (hb.dims _ (List.getElem_mem (Nat.mod_lt t hd))).2.1
    rw [← batOf_exact, this]
  obtain ⟨U, u1, u2⟩ := GD.cycle_converges (V := V) r3 fun t => (ex V t).2 (hV _ (List.getElem_mem _))
  have hU : Spec.FitsExactly x y q U := cover U fun b hbm => by
    obtain ⟨i, hi, rfl⟩ := List.getElem_of_mem hbm
    have := (ex U i).1 (u1 i)
    simp only [Nat.mod_eq_of_lt hi] at this
    exact this
  have sub : Filter.Tendsto (fun T : Nat => T * ds.length) Filter.atTop Filter.atTop := Filter.tendsto_atTop_mono (fun n => by nlinarith : ∀ n : Nat, n ≤ n * ds.length) Filter.tendsto_id
  have ent : ∀ k < p + 1, ∀ j < q, Filter.Tendsto (fun T => (R (T * ds.length)).2.output.W.f k j) Filter.atTop (nhds (U k j)) := fun k hk j hj => by
    have h1 : Filter.Tendsto (fun T => ((R (T * ds.length)).2.output.W.f k j - U k j) ^ 2) Filter.atTop (nhds 0) :=
      squeeze_zero (fun _ => sq_nonneg _) (fun T => GD.entry_le (fun k j => (R (T * ds.length)).2.output.W.f k j - U k j) hk hj) (u2.comp sub)
    have h2 := h1.sqrt
    simp only [Real.sqrt_sq_eq_abs, Real.sqrt_zero] at h2
    have h3 := (tendsto_zero_iff_abs_tendsto_zero _).2 h2
    have h4 := h3.add_const (U k j)
    simpa using h4
  refine ⟨fun T => (R (T * ds.length)).2.output.W, U, fun T => Spec.fitCost x y (R (T * ds.length)).2.output.W.f, fun T => by rw [hrun, r1]; rfl, hU, ent, fun T => ?_, ?_⟩
  · rw [hrun, r1, ok_bind]
    exact linear_cost (r2 _) hr hc hyr hyc
  · exact fitCost_tendsto hyc hU (by rw [hc]; exact ent)

/-! ## The trainers -/

theorem netAfter_seq {T : Type} {feed : World → T → Mat ℝ → Mat ℝ → Res (World × T)} {k : Nat} {x y : Mat ℝ} {ds : List (Mat ℝ × Mat ℝ)} (P : T → Prop)
    (hf : ∀ w tr, P tr → ∃ tr', P tr' ∧ feed w tr x y = (do let (s, n) ← Net.trainSeq junk ds w.store (w.nets k); .ok (w.put k s n, tr'))) :
    ∀ (t : Nat) (w : World) (tr : T), P tr → Spec.netAfter feed w tr k x y t = Net.trainSeq junk (List.replicate t ds).flatten w.store (w.nets k)
  | 0, w, tr, _ => rfl
  | t + 1, w, tr, hP => by
    obtain ⟨tr', hP', e⟩ := hf w tr hP
    have ih := fun w => netAfter_seq P hf t w tr' hP'
    unfold Spec.netAfter at ih ⊢
    rw [List.replicate_succ, List.replicate_succ, List.flatten_cons, trainSeq_append]
    unfold feedAll
    simp only
    rw [e]
    cases hs : Net.trainSeq junk ds w.store (w.nets k) with
    | error er => rfl
    | ok r =>
      obtain ⟨s1, n1⟩ := r
      have := ih (w.put k s1 n1)
      rw [show (w.put k s1 n1).store = s1 from rfl, show (w.put k s1 n1).nets k = n1 by simp [World.put]] at this
      exact this

theorem decay_off {t : Trainer} (h : t.usedecay = false) (s : Store) (n : Net) : t.decay s n = (s, n) := by
  unfold Trainer.decay
  rw [if_neg (by intro hh; rw [h] at hh; exact absurd hh.1 (by simp))]

variable {w : World} {k : Nat} {x y : Mat ℝ}

/-- **C90** (`Trainer`). If some weights fit the data exactly and `lrate * (1 + |x_i|^2) < 2` for every sample, then feeding the data to a `Trainer` again and again makes the weights of a linear network converge to
weights that fit the data, and the cost to 0. -/
theorem C90_trainer (h : Spec.LinearNet w.store (w.nets k) p q) (hr : 0 < x.nr) (hc : x.nc = p) (hyr : y.nr = x.nr) (hyc : y.nc = q) (h0 : 0 < (w.nets k).output.lrate)
    (h1 : ∀ i < x.nr, (w.nets k).output.lrate * (1 + ∑ l ∈ range x.nc, x.f i l ^ 2) < 2) (V : Nat → Nat → ℝ) (hV : Spec.FitsExactly x y q V) :
    Spec.LearnsData junk (Spec.netAfter (fun w (t : Trainer) => t.feeddata junk w) w (Trainer.new k) k x y) x y p q := by
  refine cycle_learns (ds := [(x, y)]) h h0 ⟨by simp, fun b hb => ?_, fun b hb => ?_⟩ hr hc hyr hyc V (fun b hb => ?_) (fun U hU => hU (x, y) (by simp)) fun t => ?_
  · rw [List.mem_singleton] at hb; subst hb; exact ⟨hr, hc, hyr, hyc⟩
  · rw [List.mem_singleton] at hb; subst hb; exact h1
  · rw [List.mem_singleton] at hb; subst hb; exact hV
  · refine netAfter_seq (fun t : Trainer => t.nnet = k ∧ t.usedecay = false) (fun w t ht => ⟨t.count, ⟨ht.1, ht.2⟩, ?_⟩) t w _ ⟨rfl, rfl⟩
    show Trainer.feeddata junk w t x y = _
    unfold Trainer.feeddata
    simp only [show t.count.nnet = k from ht.1, decay_off (t := t.count) (by exact ht.2)]
    unfold Net.trainSeq
    cases Net.trainOn junk w.store (w.nets k) x y <;> rfl

/-- **C90** (`SGDTrainer`). The same for samples one by one. -/
theorem C90_sgd (h : Spec.LinearNet w.store (w.nets k) p q) (hr : 0 < x.nr) (hc : x.nc = p) (hyr : y.nr = x.nr) (hyc : y.nc = q) (h0 : 0 < (w.nets k).output.lrate)
    (h1 : ∀ i < x.nr, (w.nets k).output.lrate * (1 + ∑ l ∈ range x.nc, x.f i l ^ 2) < 2) (V : Nat → Nat → ℝ) (hV : Spec.FitsExactly x y q V) :
    Spec.LearnsData junk (Spec.netAfter (fun w (t : Trainer) => SGD.feeddata junk w t) w (Trainer.new k) k x y) x y p q := by
  have row : ∀ U i, i < x.nr → (Spec.FitsExactly (x.rowMat i) (y.rowMat i) q U ↔ ∀ j < q, U 0 j + ∑ l ∈ range x.nc, x.f i l * U (l + 1) j = y.f i j) := fun U i hi => by
    have e : ∀ j < q, (U 0 j + ∑ l ∈ range x.nc, (x.rowMat i).f 0 l * U (l + 1) j = (y.rowMat i).f 0 j) ↔ (U 0 j + ∑ l ∈ range x.nc, x.f i l * U (l + 1) j = y.f i j) := fun j hj => by
      have : ∑ l ∈ range x.nc, (x.rowMat i).f 0 l * U (l + 1) j = ∑ l ∈ range x.nc, x.f i l * U (l + 1) j := sum_congr rfl fun l hl => by
        unfold Mat.rowMat; rw [Mat.of_f' (by omega) (mem_range.1 hl)]
      rw [this]
      unfold Mat.rowMat
      rw [Mat.of_f' (by omega) (by omega)]
    constructor
    · intro hf j hj
      exact (e j hj).1 (hf 0 (by show 0 < 1; omega) j hj)
    · intro hf a ha j hj
      replace ha : a < 1 := ha
      obtain rfl : a = 0 := by omega
      exact (e j hj).2 (hf j hj)
  have mem : ∀ b ∈ Spec.samples x y, ∃ i < x.nr, b = (x.rowMat i, y.rowMat i) := fun b hb => by
    unfold Spec.samples at hb
    obtain ⟨i, hi, rfl⟩ := List.mem_map.1 hb
    exact ⟨i, List.mem_range.1 hi, rfl⟩
  refine cycle_learns (ds := Spec.samples x y) h h0 ⟨?_, fun b hb => ?_, fun b hb => ?_⟩ hr hc hyr hyc V (fun b hb => ?_) (fun U hU => ?_) fun t => ?_
  · intro hn
    have := congrArg List.length hn
    simp [Spec.samples] at this
    omega
  · obtain ⟨i, hi, rfl⟩ := mem b hb
    exact ⟨by show 0 < 1; omega, hc, rfl, hyc⟩
  · obtain ⟨i, hi, rfl⟩ := mem b hb
    intro a ha
    replace ha : a < 1 := ha
    obtain rfl : a = 0 := by omega
    have : ∑ l ∈ range (x.rowMat i).nc, (x.rowMat i).f 0 l ^ 2 = ∑ l ∈ range x.nc, x.f i l ^ 2 := sum_congr rfl fun l hl => by
      unfold Mat.rowMat; rw [Mat.of_f' (by omega) (by exact mem_range.1 hl)]
    rw [this]
    exact h1 i hi
  · obtain ⟨i, hi, rfl⟩ := mem b hb
    exact (row V i hi).2 fun j hj => hV i hi j hj
  · intro i hi j hj
    exact (row U i hi).1 (hU _ (List.mem_map.2 ⟨i, List.mem_range.2 hi, rfl⟩)) j hj
  · refine netAfter_seq (fun t : Trainer => t.nnet = k ∧ t.usedecay = false) (fun w t ht => ⟨t.count, ⟨ht.1, ht.2⟩, ?_⟩) t w _ ⟨rfl, rfl⟩
    rw [C40_rows (by omega)]
    simp only [ht.1, decay_off (t := t.count) ht.2]

/-- **C90** (`BatchTrainer`). The same for batches of `b` samples. -/
theorem C90_batch {b : Nat} (hb : 2 ≤ b) (hbn : b ≤ x.nr + 1) (h : Spec.LinearNet w.store (w.nets k) p q) (hr : 0 < x.nr) (hc : x.nc = p) (hyr : y.nr = x.nr) (hyc : y.nc = q)
    (h0 : 0 < (w.nets k).output.lrate) (h1 : ∀ i < x.nr, (w.nets k).output.lrate * (1 + ∑ l ∈ range x.nc, x.f i l ^ 2) < 2) (V : Nat → Nat → ℝ) (hV : Spec.FitsExactly x y q V) :
    Spec.LearnsData junk (Spec.netAfter (fun w (t : BatchTrainer) => t.feeddata junk w) w (BatchTrainer.new k b) k x y) x y p q := by
  have hp : 0 < p := h.wf.pos
  have hq : 0 < q := fits_pos h.wf.pos h.wf.fits
  have mem : ∀ d ∈ Spec.batches x y b, ∃ t, d = (Spec.batch x b t, Spec.batch y b t) := fun d hd => by
    unfold Spec.batches at hd
    obtain ⟨i, -, rfl⟩ := List.mem_map.1 hd
    exact ⟨i, rfl⟩
  have ent : ∀ (m : Mat ℝ) t {r j : Nat}, r < b → j < m.nc → (Spec.batch m b t).f r j = m.f ((t * b + r) % m.nr) j := fun m t r j hr hj => by
    unfold Spec.batch; rw [Mat.of_f' hr hj]
  obtain ⟨c1, c2, c3⟩ := C41_coverage x y b (by omega) hyr
  refine cycle_learns (ds := Spec.batches x y b) h h0 ⟨?_, fun d hd => ?_, fun d hd => ?_⟩ hr hc hyr hyc V (fun d hd => ?_) (fun U hU => ?_) fun t => ?_
  · intro hn
    obtain ⟨t, r, ht, -⟩ := c1 0 hr
    rw [hn] at ht
    exact absurd ht (by simp)
  · obtain ⟨d1, d2, d3, d4⟩ := c2 d hd
    exact ⟨by omega, by omega, by omega, by omega⟩
  · obtain ⟨t, rfl⟩ := mem d hd
    intro r hrb
    replace hrb : r < b := hrb
    have : ∑ l ∈ range (Spec.batch x b t).nc, (Spec.batch x b t).f r l ^ 2 = ∑ l ∈ range x.nc, x.f ((t * b + r) % x.nr) l ^ 2 := sum_congr rfl fun l hl => by
      rw [ent x t hrb (mem_range.1 hl)]
    show _ * (1 + ∑ l ∈ range (Spec.batch x b t).nc, (Spec.batch x b t).f r l ^ 2) < 2
    rw [this]
    exact h1 _ (Nat.mod_lt _ hr)
  · obtain ⟨t, rfl⟩ := mem d hd
    intro r hrb j hj
    replace hrb : r < b := hrb
    have : ∑ l ∈ range (Spec.batch x b t).nc, (Spec.batch x b t).f r l * V (l + 1) j = ∑ l ∈ range x.nc, x.f ((t * b + r) % x.nr) l * V (l + 1) j := sum_congr rfl fun l hl => by
      rw [ent x t hrb (mem_range.1 hl)]
    show V 0 j + ∑ l ∈ range (Spec.batch x b t).nc, (Spec.batch x b t).f r l * V (l + 1) j = (Spec.batch y b t).f r j
    rw [this, ent y t hrb (by omega), hyr]
    exact hV _ (Nat.mod_lt _ hr) j hj
  · intro i hi j hj
    obtain ⟨t, r, ht, hrb, d, hd, e1, e2⟩ := c1 i hi
    have hdm : d ∈ Spec.batches x y b := List.mem_of_getElem? hd
    obtain ⟨d1, d2, d3, d4⟩ := c2 d hdm
    have := hU d hdm r (by omega) j hj
    rw [e2 j (by omega), d3] at this
    rw [← this]
    congr 1
    exact sum_congr rfl fun l hl => by rw [e1 l (mem_range.1 hl)]
  · refine netAfter_seq (fun t : BatchTrainer => t.nnet = k ∧ t.usedecay = false ∧ t.batchsize = b ∧ t.iters < 2 ^ 64)
      (fun w t ht => ⟨{ t with x := x, y := y, iters := (t.iters + Spec.ceilDiv x.nr b) % 2 ^ 64 }, ⟨ht.1, ht.2.1, ht.2.2.1, Nat.mod_lt _ (by positivity)⟩, ?_⟩) t w _
      ⟨rfl, rfl, rfl, by show 0 < 2 ^ 64; positivity⟩
    rw [C41_batches ht.2.2.1 hb hbn hyr (by omega) (by omega) ht.2.2.2]
    simp only [ht.1]
    cases Net.trainSeq junk (Spec.batches x y b) w.store (w.nets k) with
    | error e => rfl
    | ok r =>
      obtain ⟨s1, n1⟩ := r
      simp only [ok_bind]
      rw [decay_off (by exact ht.2.1)]

/-- The hypotheses are met: one input, one output, weights 7, lrate 1/2, the samples -1 and 1 with the labels 1 and 3 (fitted by bias 2 and weight 1), trained sample by sample. -/
example (junk : Nat → Nat → ℝ) (w : World) (hw : w.nets 0 = oneNet 7) :
    Spec.LearnsData junk (Spec.netAfter (fun w (t : Trainer) => SGD.feeddata junk w t) w (Trainer.new 0) 0 (Mat.of 2 1 (fun i _ => if i = 0 then -1 else 1)) (Mat.of 2 1 (fun i _ => if i = 0 then 1 else 3)))
      (Mat.of 2 1 (fun i _ => if i = 0 then -1 else 1)) (Mat.of 2 1 (fun i _ => if i = 0 then 1 else 3)) 1 1 := by
  refine C90_sgd (by rw [hw]; exact ⟨oneNet_wf 7 _, rfl, rfl, rfl, rfl, by simp [oneNet, exLayer, Layer.default]⟩) (by show 0 < 2; omega) rfl rfl rfl (by rw [hw]; simp [oneNet]) (fun i hi => ?_)
    (fun k _ => if k = 0 then 2 else 1) (fun i hi j hj => ?_)
  · replace hi : i < 2 := hi
    rw [hw]
    show 1 / 2 * (1 + ∑ l ∈ range 1, (Mat.of 2 1 (fun i _ => if i = 0 then (-1 : ℝ) else 1)).f i l ^ 2) < 2
    rw [sum_range_one, Mat.of_f' hi (by omega)]
    split <;> norm_num
  · replace hi : i < 2 := hi
    show _ + ∑ l ∈ range 1, (Mat.of 2 1 (fun i _ => if i = 0 then (-1 : ℝ) else 1)).f i l * _ = _
    rw [sum_range_one, Mat.of_f' hi (by omega), Mat.of_f' hi hj]
    interval_cases i <;> norm_num

end
end Nnet.NN
