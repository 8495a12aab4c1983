import Verif.NN.PropsMomentum
import Verif.NN.PropsInit
/-!
# C54: training never breaks a well-formed network
-/
namespace Nnet.NN
open Finset
noncomputable section

/-! ## Programs -/

/-- A trainer object of some class. -/
inductive AnyTrainer where
  | trainer (t : Trainer)
  | sgd (t : Trainer)
  | batch (t : BatchTrainer)
  | momentum (t : MomentumTrainer)

/-- A program's objects. -/
structure Objects where
  w : World
  trainers : Nat → AnyTrainer

/-- A call a program can make on the network `id` or on a trainer. -/
inductive Call where
  | forwardprop (x : Mat ℝ)
  | predict (x : Mat ℝ)
  | backprop (y : Mat ℝ)
  | update
  | setlrate (r : ℝ)
  | randomize (index : Nat) (stddev : ℝ)
  | feed (k : Nat) (x y : Mat ℝ)

/-- `feeddata` of whatever class the trainer has. -/
def AnyTrainer.feeddata (junk : Nat → Nat → ℝ) (w : World) (x y : Mat ℝ) : AnyTrainer → Res (World × AnyTrainer)
  | .trainer t => do let (w, t) ← t.feeddata junk w x y; .ok (w, .trainer t)
  | .sgd t => do let (w, t) ← SGD.feeddata junk w t x y; .ok (w, .sgd t)
  | .batch t => do let (w, t) ← t.feeddata junk w x y; .ok (w, .batch t)
  | .momentum t => do let (w, t) ← t.feeddata junk w x y; .ok (w, .momentum t)

/-- Executing a call. -/
def Call.run (dist : Draws) (junk : Nat → Nat → ℝ) (id : Nat) (o : Objects) : Call → Res Objects
  | .forwardprop x => do
    let (_, s, n) ← (o.w.nets id).forwardprop junk o.w.store x
    .ok { o with w := o.w.put id s n }
  | .predict x => do
    let (_, s, n) ← (o.w.nets id).predict junk o.w.store x
    .ok { o with w := o.w.put id s n }
  | .backprop y => do
    let (s, n) ← (o.w.nets id).backprop junk o.w.store y
    .ok { o with w := o.w.put id s n }
  | .update => do
    let (s, n) ← (o.w.nets id).update o.w.store
    .ok { o with w := o.w.put id s n }
  | .setlrate r => .ok { o with w := o.w.put id ((o.w.nets id).setlrate o.w.store r).1 ((o.w.nets id).setlrate o.w.store r).2 }
  | .randomize index stddev => do
    let (s, n) ← (o.w.nets id).randomizeAt dist o.w.store index stddev
    .ok { o with w := o.w.put id s n }
  | .feed k x y => do
    let (w, t) ← (o.trainers k).feeddata junk o.w x y
    .ok { w := w, trainers := fun j => if j = k then t else o.trainers j }

/-- Executing a sequence of calls. -/
def Call.runAll (dist : Draws) (junk : Nat → Nat → ℝ) (id : Nat) : List Call → Objects → Res Objects
  | [], o => .ok o
  | c :: cs, o => do
    let o ← c.run dist junk id o
    runAll dist junk id cs o

/-! ## Specification -/

/-- Size of a matrix. -/
def dims (m : Mat ℝ) : Nat × Nat := (m.nr, m.nc)

/-- Sizes of all weight matrices of a network. -/
def Net.shapes (s : Store) (n : Net) : List (Nat × Nat) := (n.layers s).map (fun L => dims L.W)

/-- Number of rows of the last batch a trainer works on when it is fed `x`. -/
def AnyTrainer.lastRows (x : Mat ℝ) : AnyTrainer → Nat
  | .trainer _ => x.nr
  | .sgd _ => 1
  | .batch t => t.batchsize.toNat
  | .momentum _ => x.nr

/-- A call with data that fits a network with `p` inputs and `q` outputs, when the last forward pass had `last` rows: labels go with the samples of
the last forward pass; a batch size is between 2 and one more than the number of samples. `ts` are the trainers (their classes and batch sizes never
change). -/
def Call.Fits (p q : Nat) (ts : Nat → AnyTrainer) (last : Option Nat) : Call → Prop
  | .forwardprop x => 0 < x.nr ∧ x.nc = p
  | .predict x => 0 < x.nr ∧ x.nc = p
  | .backprop y => last = some y.nr ∧ y.nc = q
  | .update => True
  | .setlrate _ => True
  | .randomize _ _ => True
  | .feed k x y => 0 < x.nr ∧ x.nc = p ∧ y.nr = x.nr ∧ y.nc = q ∧
      match ts k with
      | .batch t => 2 ≤ t.batchsize ∧ t.batchsize ≤ x.nr + 1
      | _ => True

/-- Rows of the last forward pass after a call. -/
def Call.rowsAfter (ts : Nat → AnyTrainer) (last : Option Nat) : Call → Option Nat
  | .forwardprop x => some x.nr
  | .predict x => some x.nr
  | .feed k x _ => some ((ts k).lastRows x)
  | _ => last

/-- All calls of a sequence fit. -/
def Call.AllFit (p q : Nat) (ts : Nat → AnyTrainer) : Option Nat → List Call → Prop
  | _, [] => True
  | last, c :: cs => c.Fits p q ts last ∧ AllFit p q ts (c.rowsAfter ts last) cs

/-- A trainer as a constructor for the network `id` with weights of the sizes `ds` makes it, or used since; `budget` more calls do not overflow the
counter. -/
def AnyTrainer.Belongs (id : Nat) (ds : List (Nat × Nat)) (budget : Nat) : AnyTrainer → Prop
  | .trainer t => t.nnet = id
  | .sgd t => t.nnet = id
  | .batch t => t.nnet = id ∧ t.iters < 2 ^ 64
  | .momentum t => t.nnet = id ∧ (t.hgrads ++ [t.ograd]).map dims = ds ∧ t.iters + budget < 2 ^ 64

/-- What holds between calls. -/
structure Objects.Good (p q id : Nat) (ds : List (Nat × Nat)) (costd : MatFuncD) (budget : Nat) (last : Option Nat) (o : Objects) : Prop where
  wf : (o.w.nets id).WF o.w.store p q
  shapes : (o.w.nets id).shapes o.w.store = ds
  grads : ∀ L ∈ (o.w.nets id).layers o.w.store, L.grad.nr = L.W.nr ∧ L.grad.nc = L.W.nc
  cached : ∀ m, last = some m → 0 < m ∧ CachedL ((o.w.nets id).layers o.w.store) m
  costd : (o.w.nets id).output.costd = costd
  trainers : ∀ k, (o.trainers k).Belongs id ds budget

/-! ## Lemmas -/

/-- Same configuration and sizes. -/
structure Net.Kept (s : Store) (n : Net) (s' : Store) (n' : Net) : Prop where
  conf : n.SameConf n'
  shapes : n'.shapes s' = n.shapes s

theorem Net.Kept.trans {s s' s'' : Store} {n n' n'' : Net} (h : Net.Kept s n s' n') (h' : Net.Kept s' n' s'' n'') : Net.Kept s n s'' n'' :=
  ⟨h.conf.trans h'.conf, h'.shapes.trans h.shapes⟩

theorem shapes_of_W {s s' : Store} {n n' : Net} (h : (n'.layers s').map (·.W) = (n.layers s).map (·.W)) : n'.shapes s' = n.shapes s := by
  have := congrArg (List.map dims) h
  rw [List.map_map, List.map_map] at this
  exact this

theorem trainOn_kept {junk : Nat → Nat → ℝ} {s : Store} {n : Net} {p q : Nat} {x y : Mat ℝ} (h : n.WF s p q) (hd : OutputLayer.DeltaOK n.output.costd)
    (hr : 0 < x.nr) (hc : x.nc = p) (hyr : y.nr = x.nr) (hyc : y.nc = q) :
    ∃ s' n', n.trainOn junk s x y = .ok (s', n') ∧ n'.Ready s' p q x.nr ∧ Net.Kept s n s' n' := by
  obtain ⟨d1, d2⟩ := outputZ_dims h hc
  obtain ⟨D, hD, hD1, hD2⟩ := hd y ((n.outputZ s x).map n.output.actfunc.act) (n.outputZ s x) (by rw [Mat.map_nr]; omega) (by rw [Mat.map_nc]; omega)
    (by omega) (by omega)
  obtain ⟨s', n', e, hb, _, hrd⟩ := trainOn_ok (junk := junk) (D := D) h hr hc hD (by omega) (by omega)
  refine ⟨s', n', e, hrd, hb.conf, ?_⟩
  unfold Net.shapes
  rw [hb.layers, List.map_map]
  have := congrArg (List.map dims) (passed_W s n x D)
  rw [List.map_map, List.map_map] at this
  exact this

theorem trainSeq_kept {junk : Nat → Nat → ℝ} {p q m : Nat} : ∀ {ds : List (Mat ℝ × Mat ℝ)} {s : Store} {n : Net}, n.WF s p q →
    OutputLayer.DeltaOK n.output.costd → (∀ d ∈ ds, 0 < d.1.nr ∧ d.1.nc = p ∧ d.2.nr = d.1.nr ∧ d.2.nc = q ∧ d.1.nr = m) → ds ≠ [] →
    ∃ s' n', Net.trainSeq junk ds s n = .ok (s', n') ∧ n'.Ready s' p q m ∧ Net.Kept s n s' n'
  | [], _, _, _, _, _, hne => absurd rfl hne
  | d :: ds, s, n, h, hdel, hd, _ => by
    obtain ⟨a1, a2, a3, a4, a5⟩ := hd d (by simp)
    obtain ⟨s1, n1, e1, hr1, hk1⟩ := trainOn_kept (junk := junk) h hdel a1 a2 a3 a4
    rw [a5] at hr1
    by_cases hds : ds = []
    · subst hds
      refine ⟨s1, n1, ?_, hr1, hk1⟩
      unfold Net.trainSeq
      rw [e1, ok_bind]
      rfl
    · obtain ⟨s2, n2, e2, hr2, hk2⟩ := trainSeq_kept (junk := junk) hr1.wf (by rw [hk1.conf.ocostd]; exact hdel)
        (fun d hd' => hd d (List.mem_cons_of_mem _ hd')) hds
      refine ⟨s2, n2, ?_, hr2, hk1.trans hk2⟩
      unfold Net.trainSeq
      rw [e1, ok_bind]
      exact e2

theorem decay_kept {s : Store} {n : Net} {p q : Nat} (h : n.WF s p q) (t : Trainer) : Net.Kept s n (t.decay s n).1 (t.decay s n).2 := by
  refine ⟨?_, shapes_of_W (decay_W h t).1⟩
  unfold Trainer.decay
  split
  · exact ⟨rfl, rfl, rfl, rfl, rfl⟩
  · exact .rfl

theorem decay_ready {s : Store} {n : Net} {p q m : Nat} (h : n.Ready s p q m) (t : Trainer) : (t.decay s n).2.Ready (t.decay s n).1 p q m := by
  unfold Trainer.decay
  split
  · exact setlrate_ready h _
  · exact h

theorem dims_eq {a b : Mat ℝ} (h : dims a = dims b) : a.nr = b.nr ∧ a.nc = b.nc := Prod.mk.inj h

theorem mix_ok {m : ℝ} {it : Nat} {old g : Mat ℝ} (hit : it ≠ 0) (h : dims old = dims g) :
    ∃ r, MomentumTrainer.mix m it old g = .ok r ∧ dims r = dims old := by
  obtain ⟨h1, h2⟩ := dims_eq h
  unfold MomentumTrainer.mix
  by_cases hm : m ≠ 0
  · rw [if_pos hm, Mat.add_ok (by exact h1) (by exact h2)]
    exact ⟨_, rfl, rfl⟩
  · rw [if_neg hm, if_neg hit, Mat.add_ok (by exact h1) (by exact h2)]
    exact ⟨_, rfl, rfl⟩

theorem mixAll_ok {m : ℝ} {it : Nat} {s : Store} {n : Net} (hit : it ≠ 0) : ∀ (gs : List (Mat ℝ)) (i : Nat),
    gs.map dims = ((n.hiddenLayers s).drop i).map (fun L => dims L.grad) →
    ∃ gs', MomentumTrainer.mixAll m it s n i gs = .ok gs' ∧ gs'.map dims = gs.map dims
  | [], i, _ => ⟨[], rfl, rfl⟩
  | g :: gs, i, h => by
    cases hd : (n.hiddenLayers s).drop i with
    | nil => rw [hd] at h; simp at h
    | cons L Ls =>
      rw [hd] at h
      simp only [List.map_cons, List.cons.injEq] at h
      have hget : (n.hiddenLayers s)[i]? = some L := by
        have := congrArg List.head? hd
        rw [List.head?_drop] at this
        exact this
      have hdrop : (n.hiddenLayers s).drop (i + 1) = Ls := by
        have := congrArg List.tail hd
        rw [List.tail_drop] at this
        exact this
      obtain ⟨r, e1, r1⟩ := mix_ok (m := m) hit h.1
      obtain ⟨rs, e2, r2⟩ := mixAll_ok hit gs (i + 1) (by rw [hdrop]; exact h.2)
      refine ⟨r :: rs, ?_, by simp only [List.map_cons]; rw [r1, r2]⟩
      unfold MomentumTrainer.mixAll
      rw [gethidden_of hget, ok_bind, e1, ok_bind, e2, ok_bind]

theorem gradsFit_of_dims : ∀ {Ls : List Layer} {gs : List (Mat ℝ)}, gs.map dims = Ls.map (fun L => dims L.W) → GradsFit Ls gs
  | [], _, _ => trivial
  | _ :: _, [], h => by simp at h
  | L :: Ls, g :: gs, h => by
    simp only [List.map_cons, List.cons.injEq] at h
    obtain ⟨h1, h2⟩ := dims_eq h.1
    exact ⟨h1, h2, gradsFit_of_dims h.2⟩

theorem zipWith_upd_props : ∀ {Ls : List Layer} {gs : List (Mat ℝ)}, GradsFit Ls gs →
    (List.zipWith Layer.updWith Ls gs).map (fun L => dims L.W) = Ls.map (fun L => dims L.W) ∧
    (∀ (P : Layer → Prop), (∀ L g, P L → P (L.updWith g)) → (∀ L ∈ Ls, P L) → ∀ L ∈ List.zipWith Layer.updWith Ls gs, P L)
  | [], gs, _ => ⟨rfl, fun P _ _ L hL => by simp at hL⟩
  | _ :: _, [], h => h.elim
  | L :: Ls, g :: gs, h => by
    obtain ⟨h1, h2⟩ := zipWith_upd_props h.2.2
    refine ⟨?_, fun P hp ha M hM => ?_⟩
    · simp only [List.zipWith_cons_cons, List.map_cons]
      rw [h1]; rfl
    · simp only [List.zipWith_cons_cons, List.mem_cons] at hM
      rcases hM with rfl | hM'
      · exact hp _ _ (ha L (by simp))
      · exact h2 P hp (fun K hK => ha K (List.mem_cons_of_mem _ hK)) M hM'

theorem momentum_kept {junk : Nat → Nat → ℝ} {w : World} {t : MomentumTrainer} {p q : Nat} {x y : Mat ℝ} (h : (w.nets t.nnet).WF w.store p q)
    (hd : OutputLayer.DeltaOK (w.nets t.nnet).output.costd) (hr : 0 < x.nr) (hc : x.nc = p) (hyr : y.nr = x.nr) (hyc : y.nc = q)
    (hg : (t.hgrads ++ [t.ograd]).map dims = (w.nets t.nnet).shapes w.store) (hit : t.iters + 1 < 2 ^ 64) :
    ∃ s' n' t', t.feeddata junk w x y = .ok (w.put t.nnet s' n', t') ∧ n'.Ready s' p q x.nr ∧ Net.Kept w.store (w.nets t.nnet) s' n' ∧
      t'.toTrainer = t.toTrainer.count ∧ (t'.hgrads ++ [t'.ograd]).map dims = (t.hgrads ++ [t.ograd]).map dims := by
  unfold MomentumTrainer.feeddata
  simp only
  rw [show t.count.nnet = t.nnet from rfl]
  have hdw := decay_wf h t.count
  have hdk := decay_kept h t.count
  have hdc : OutputLayer.DeltaOK (t.count.decay w.store (w.nets t.nnet)).2.output.costd := by rw [hdk.conf.ocostd]; exact hd
  rw [← hdk.shapes] at hg
  generalize (t.count.decay w.store (w.nets t.nnet)).1 = sd at *
  generalize (t.count.decay w.store (w.nets t.nnet)).2 = nd at *
  obtain ⟨d1, d2⟩ := outputZ_dims hdw hc
  obtain ⟨D, hD, hD1, hD2⟩ := hdc y ((nd.outputZ sd x).map nd.output.actfunc.act) (nd.outputZ sd x) (by rw [Mat.map_nr]; omega)
    (by rw [Mat.map_nc]; omega) (by omega) (by omega)
  obtain ⟨s1, n1, s2, n2, e1, e2, hb, _, hrd⟩ := passes_ok (junk := junk) hdw hr hc hD (by omega) (by omega)
  have hsh : n2.shapes s2 = nd.shapes sd := shapes_of_W (by rw [hb.layers, passed_W])
  rw [← hsh] at hg
  unfold Net.shapes Net.layers at hg
  rw [List.map_append, List.map_append] at hg
  obtain ⟨hg1, hg2⟩ := List.append_inj' hg rfl
  replace hg2 : dims t.ograd = dims n2.output.W := List.singleton_injective hg2
  have hgo := hrd.grads n2.output.toLayer (by simp [Net.layers])
  obtain ⟨o1, o2⟩ := dims_eq hg2
  obtain ⟨og0, hadd, og01, og02⟩ : ∃ og, (t.ograd.smul t.momentum).add (n2.output.grad.smul (1 - t.momentum)) = .ok og ∧ og.nr = t.ograd.nr ∧
      og.nc = t.ograd.nc := ⟨_, Mat.add_ok (by simp; rw [o1, hgo.1]) (by simp; rw [o2, hgo.2]), rfl, rfl⟩
  obtain ⟨hg', e4, hg4⟩ := mixAll_ok (m := t.momentum) (it := t.count.iters) (s := s2) (n := n2)
    (by show (t.iters + 1) % 2 ^ 64 ≠ 0; rw [Nat.mod_eq_of_lt hit]; omega) t.hgrads 0 (by
      rw [hg1, List.drop_zero]
      apply List.map_congr_left
      intro L hL
      have := hrd.grads L (by simp only [Net.layers, List.mem_append]; exact Or.inl hL)
      unfold dims
      rw [this.1, this.2])
  have hgf : GradsFit (n2.hiddenLayers s2) hg' := gradsFit_of_dims (by rw [hg4, hg1])
  have hog : ∀ og : Mat ℝ, og.nr = t.ograd.nr → og.nc = t.ograd.nc → ∃ s' n', n2.updateWith s2 og hg' = .ok (s', n') ∧ n'.Ready s' p q x.nr ∧ Net.Kept sd nd s' n' := by
    intro og og1 og2
    obtain ⟨s3, n3, e3, hb3, _, _, _⟩ := Net.updateWith_ok hrd.wf (og := og) (by rw [og1, o1]) (by rw [og2, o2]) hgf
    obtain ⟨z1, z2⟩ := zipWith_upd_props hgf
    have hsh3 : n3.shapes s3 = n2.shapes s2 := by
      unfold Net.shapes
      rw [hb3.layers]
      unfold Net.layers
      rw [List.map_append, List.map_append, z1]
      rfl
    refine ⟨s3, n3, e3, ⟨hb3.wf hrd.wf (fits_congr ?_ hrd.wf.fits), ?_, ?_⟩, ⟨hb.conf.trans hb3.conf, hsh3.trans hsh⟩⟩
    · have := hsh3
      unfold Net.shapes at this
      rw [hb3.layers] at this
      rw [List.map_map, List.map_map]
      exact this
    · rw [hb3.layers]
      intro L hL
      rcases List.mem_append.1 hL with hL' | hL'
      · exact z2 (fun L => L.Cached x.nr) (fun _ _ => updWith_cached) (fun K hK => hrd.cached K (by simp only [Net.layers, List.mem_append]; exact Or.inl hK)) L hL'
      · rw [List.mem_singleton] at hL'
        subst hL'
        exact updWith_cached (hrd.cached _ (by simp [Net.layers]))
    · rw [hb3.layers]
      intro L hL
      rcases List.mem_append.1 hL with hL' | hL'
      · exact z2 Layer.GradOK (fun _ _ h => h) (fun K hK => hrd.grads K (by simp only [Net.layers, List.mem_append]; exact Or.inl hK)) L hL'
      · rw [List.mem_singleton] at hL'
        subst hL'
        exact hgo
  obtain ⟨s3, n3, e3, hr3, hk3⟩ := hog og0 og01 og02
  refine ⟨s3, n3, ⟨t.count, t.momentum, og0, hg'⟩, ?_, hr3, hdk.trans hk3, rfl, ?_⟩
  · rw [e1, ok_bind]
    simp only
    rw [e2, ok_bind]
    simp only
    rw [hadd, ok_bind, e4, ok_bind, e3, ok_bind]
  · simp only [List.map_append, hg4, List.map_cons, List.map_nil]
    unfold dims
    rw [og01, og02]

/-! ## One call -/

theorem kept_shapes_of_becomes {s s' : Store} {n n' : Net} {Ls : List Layer} (hb : Net.Becomes s n s' n' Ls) (h : Ls.map (·.W) = (n.layers s).map (·.W)) :
    n'.shapes s' = n.shapes s := shapes_of_W (by rw [hb.layers, h])

/-- The state after a call of a method of the network. -/
theorem good_put {p q id : Nat} {ds : List (Nat × Nat)} {costd : MatFuncD} {budget : Nat} {last last' : Option Nat} {o : Objects} {s' : Store} {n' : Net}
    (h : o.Good p q id ds costd (budget + 1) last) (hw : n'.WF s' p q) (hk : Net.Kept o.w.store (o.w.nets id) s' n')
    (hg : ∀ L ∈ n'.layers s', L.GradOK) (hc : ∀ m, last' = some m → 0 < m ∧ CachedL (n'.layers s') m) :
    Objects.Good p q id ds costd budget last' { o with w := o.w.put id s' n' } := by
  refine ⟨?_, ?_, ?_, ?_, ?_, ?_⟩
  · show ((o.w.put id s' n').nets id).WF s' p q
    rw [put_nets]; exact hw
  · show ((o.w.put id s' n').nets id).shapes s' = ds
    rw [put_nets, hk.shapes, h.shapes]
  · show ∀ L ∈ ((o.w.put id s' n').nets id).layers s', L.GradOK
    rw [put_nets]; exact hg
  · show ∀ m, last' = some m → 0 < m ∧ CachedL (((o.w.put id s' n').nets id).layers s') m
    rw [put_nets]; exact hc
  · show ((o.w.put id s' n').nets id).output.costd = costd
    rw [put_nets, hk.conf.ocostd, h.costd]
  · intro k
    have := h.trainers k
    show (o.trainers k).Belongs id ds budget
    unfold AnyTrainer.Belongs at this ⊢
    split
    · rename_i t ht; rw [ht] at this; exact this
    · rename_i t ht; rw [ht] at this; exact this
    · rename_i t ht; rw [ht] at this; exact this
    · rename_i t ht; rw [ht] at this; exact ⟨this.1, this.2.1, by have := this.2.2; omega⟩

theorem fwdL_gradOK : ∀ {Ls : List Layer} {x : Mat ℝ}, (∀ L ∈ Ls, L.GradOK) → ∀ L ∈ fwdL Ls x, L.GradOK
  | [], _, _, L, hL => by cases hL
  | K :: Ls, x, h, L, hL => by
    rcases List.mem_cons.1 hL with rfl | hL'
    · exact h K (by simp)
    · exact fwdL_gradOK (fun M hM => h M (List.mem_cons_of_mem _ hM)) L hL'

theorem run_forwardprop {dist : Draws} {junk : Nat → Nat → ℝ} {p q id : Nat} {ds : List (Nat × Nat)} {costd : MatFuncD} {budget : Nat} {last : Option Nat}
    {o : Objects} {x : Mat ℝ} (h : o.Good p q id ds costd (budget + 1) last) (hr : 0 < x.nr) (hc : x.nc = p) :
    ∃ o', (Call.forwardprop x).run dist junk id o = .ok o' ∧ o'.Good p q id ds costd budget (some x.nr) ∧ o'.trainers = o.trainers := by
  obtain ⟨s', n', e, hb, _⟩ := Net.forwardprop_ok (junk := junk) h.wf hr hc
  refine ⟨{ o with w := o.w.put id s' n' }, ?_, good_put h (hb.wf h.wf (by rw [fwdL_W]; exact h.wf.fits))
    ⟨hb.conf, kept_shapes_of_becomes hb (fwdL_W _ _)⟩ ?_ ?_, rfl⟩
  · show (do let (_, s, n) ← (o.w.nets id).forwardprop junk o.w.store x; .ok { o with w := o.w.put id s n } : Res Objects) = _
    rw [e, ok_bind]
  · rw [hb.layers]
    exact fwdL_gradOK h.grads
  · intro m hm
    cases hm
    exact ⟨hr, by rw [hb.layers]; exact fwdL_cached (q := q) (by rw [hc]; exact h.wf.fits)⟩

theorem run_predict {dist : Draws} {junk : Nat → Nat → ℝ} {p q id : Nat} {ds : List (Nat × Nat)} {costd : MatFuncD} {budget : Nat} {last : Option Nat}
    {o : Objects} {x : Mat ℝ} (h : o.Good p q id ds costd (budget + 1) last) (hr : 0 < x.nr) (hc : x.nc = p) :
    ∃ o', (Call.predict x).run dist junk id o = .ok o' ∧ o'.Good p q id ds costd budget (some x.nr) ∧ o'.trainers = o.trainers := by
  obtain ⟨s', n', e, hb, _, ha, _⟩ := Net.forwardprop_ok (junk := junk) h.wf hr hc
  have hd := outL_dims (Ls := (o.w.nets id).layers o.w.store) (x := x) (q := q) (by rw [hc]; exact h.wf.fits)
  have hq : 0 < q := fits_pos h.wf.pos h.wf.fits
  obtain ⟨r, er, _⟩ := argmax_ok (o := n'.output) (by rw [ha, hd.2]; exact hq)
  have hb' : Net.Becomes o.w.store (o.w.nets id) s' { n' with result := outL ((o.w.nets id).layers o.w.store) x } (fwdL ((o.w.nets id).layers o.w.store) x) :=
    ⟨⟨hb.conf.1, hb.conf.2, hb.conf.3, hb.conf.4, hb.conf.5⟩, hb.layers, hb.dense, hb.frame⟩
  refine ⟨{ o with w := o.w.put id s' { n' with result := outL ((o.w.nets id).layers o.w.store) x } }, ?_,
    good_put h (hb'.wf h.wf (by rw [fwdL_W]; exact h.wf.fits)) ⟨hb'.conf, kept_shapes_of_becomes hb' (fwdL_W _ _)⟩ ?_ ?_, rfl⟩
  · show (do let (_, s, n) ← (o.w.nets id).predict junk o.w.store x; .ok { o with w := o.w.put id s n } : Res Objects) = _
    unfold Net.predict
    rw [e, ok_bind]
    simp only
    rw [er, ok_bind, ok_bind]
  · rw [hb'.layers]
    exact fwdL_gradOK h.grads
  · intro m hm
    cases hm
    exact ⟨hr, by rw [hb'.layers]; exact fwdL_cached (q := q) (by rw [hc]; exact h.wf.fits)⟩

theorem run_backprop {dist : Draws} {junk : Nat → Nat → ℝ} {p q id : Nat} {ds : List (Nat × Nat)} {costd : MatFuncD} {budget : Nat} {last : Option Nat}
    {o : Objects} {y : Mat ℝ} (hd : OutputLayer.DeltaOK costd) (h : o.Good p q id ds costd (budget + 1) last) (hl : last = some y.nr) (hc : y.nc = q) :
    ∃ o', (Call.backprop y).run dist junk id o = .ok o' ∧ o'.Good p q id ds costd budget last ∧ o'.trainers = o.trainers := by
  obtain ⟨hr, hca⟩ := h.cached _ hl
  obtain ⟨r, _, _, _, hq⟩ := h.wf.split
  have hco := hca (o.w.nets id).output.toLayer (by simp [Net.layers])
  obtain ⟨D, hD, hD1, hD2⟩ := hd y (o.w.nets id).output.a (o.w.nets id).output.z hco.a_nr (by rw [hco.a_nc, hq, hc]) hco.z_nr (by rw [hco.z_nc, hq, hc])
  rw [← h.costd] at hD
  obtain ⟨s', n', e, hb, _⟩ := Net.backprop_ok' (junk := junk) h.wf hca hr hD hD1 (by omega)
  have hW : (bwdNet ((o.w.nets id).hiddenLayers o.w.store) (o.w.nets id).output.toLayer D).map (·.W) = ((o.w.nets id).layers o.w.store).map (·.W) := by
    unfold bwdNet Net.layers
    rw [List.map_append, List.map_append, bwdL_W]
    rfl
  refine ⟨{ o with w := o.w.put id s' n' }, ?_, good_put h (hb.wf h.wf (by rw [hW]; exact h.wf.fits))
    ⟨hb.conf, kept_shapes_of_becomes hb hW⟩ ?_ ?_, rfl⟩
  · show (do let (s, n) ← (o.w.nets id).backprop junk o.w.store y; .ok { o with w := o.w.put id s n } : Res Objects) = _
    rw [e, ok_bind]
  · rw [hb.layers]
    exact bwdNet_gradOK _ _ _
  · intro m hm
    rw [hl] at hm
    cases hm
    refine ⟨hr, ?_⟩
    rw [hb.layers]
    exact bwdNet_cached (fun L hL => hca L (by simp only [Net.layers, List.mem_append]; exact Or.inl hL)) hco

theorem run_update {dist : Draws} {junk : Nat → Nat → ℝ} {p q id : Nat} {ds : List (Nat × Nat)} {costd : MatFuncD} {budget : Nat} {last : Option Nat}
    {o : Objects} (h : o.Good p q id ds costd (budget + 1) last) :
    ∃ o', Call.update.run dist junk id o = .ok o' ∧ o'.Good p q id ds costd budget last ∧ o'.trainers = o.trainers := by
  obtain ⟨s', n', e, hb, _⟩ := Net.update_ok h.wf h.grads
  have hsh : (((o.w.nets id).layers o.w.store).map Layer.upd).map (fun L => dims L.W) = ((o.w.nets id).layers o.w.store).map (fun L => dims L.W) := by
    rw [List.map_map]; rfl
  refine ⟨{ o with w := o.w.put id s' n' }, ?_, good_put h (hb.wf h.wf (fits_congr ?_ h.wf.fits)) ⟨hb.conf, ?_⟩ ?_ ?_, rfl⟩
  · show (do let (s, n) ← (o.w.nets id).update o.w.store; .ok { o with w := o.w.put id s n } : Res Objects) = _
    rw [e, ok_bind]
  · rw [List.map_map, List.map_map, List.map_map]
    rfl
  · unfold Net.shapes
    rw [hb.layers]
    exact hsh
  · rw [hb.layers]
    intro L hL
    obtain ⟨M, hM, rfl⟩ := List.mem_map.1 hL
    exact h.grads M hM
  · intro m hm
    obtain ⟨h1, h2⟩ := h.cached m hm
    refine ⟨h1, ?_⟩
    rw [hb.layers]
    intro L hL
    obtain ⟨M, hM, rfl⟩ := List.mem_map.1 hL
    exact upd_cached (h2 M hM)

theorem run_setlrate {dist : Draws} {junk : Nat → Nat → ℝ} {p q id : Nat} {ds : List (Nat × Nat)} {costd : MatFuncD} {budget : Nat} {last : Option Nat}
    {o : Objects} {r : ℝ} (h : o.Good p q id ds costd (budget + 1) last) :
    ∃ o', (Call.setlrate r).run dist junk id o = .ok o' ∧ o'.Good p q id ds costd budget last ∧ o'.trainers = o.trainers := by
  have hb := setlrate_becomes h.wf r
  refine ⟨_, rfl, good_put h (setlrate_wf h.wf r) ⟨hb.conf, kept_shapes_of_becomes hb (by rw [List.map_map]; rfl)⟩ ?_ ?_, rfl⟩
  · rw [hb.layers]
    intro L hL
    obtain ⟨M, hM, rfl⟩ := List.mem_map.1 hL
    exact h.grads M hM
  · intro m hm
    obtain ⟨h1, h2⟩ := h.cached m hm
    refine ⟨h1, ?_⟩
    rw [hb.layers]
    intro L hL
    obtain ⟨M, hM, rfl⟩ := List.mem_map.1 hL
    obtain ⟨h1, h2, h3, h4, h5, h6⟩ := h2 M hM
    exact ⟨h1, h2, h3, h4, h5, h6⟩

/-- Layers that differ at most in the values of the weights. -/
structure Layer.Alike (L M : Layer) : Prop where
  W : dims M.W = dims L.W
  rest : M = { L with W := M.W }

theorem Layer.Alike.rfl {L : Layer} : L.Alike L := ⟨_root_.rfl, _root_.rfl⟩

theorem alike_init (dist : Draws) (L : Layer) (s : ℝ) : L.Alike { L with W := initW dist L.W.nr L.W.nc s } := ⟨_root_.rfl, _root_.rfl⟩

theorem Layer.Alike.gradOK {L M : Layer} (h : L.Alike M) (hg : L.GradOK) : M.GradOK := by
  obtain ⟨h1, h2⟩ := dims_eq h.W
  unfold Layer.GradOK at hg ⊢
  rw [h1, h2, h.rest]
  exact hg

theorem Layer.Alike.cached {L M : Layer} {m : Nat} (h : L.Alike M) (hg : L.Cached m) : M.Cached m := by
  obtain ⟨h1, h2⟩ := dims_eq h.W
  obtain ⟨a1, a2, a3, a4, a5, a6⟩ := hg
  rw [h.rest]
  exact ⟨a1, a2.trans h1.symm, a3, a4.trans h2.symm, a5, a6.trans h2.symm⟩

theorem alike_map {Ls Ms : List Layer} (h : List.Forall₂ Layer.Alike Ls Ms) : Ms.map (fun L => dims L.W) = Ls.map (fun L => dims L.W) := by
  induction h with
  | nil => rfl
  | cons h _ ih => rw [List.map_cons, List.map_cons, ih, h.W]

theorem forall_of_alike {P : Layer → Prop} (hP : ∀ L M : Layer, L.Alike M → P L → P M) {Ls Ms : List Layer} (h : List.Forall₂ Layer.Alike Ls Ms) :
    (∀ L ∈ Ls, P L) → ∀ M ∈ Ms, P M := by
  induction h with
  | nil => intro _ M hM; cases hM
  | cons h _ ih =>
    intro ha M hM
    rcases List.mem_cons.1 hM with rfl | hM'
    · exact hP _ _ h (ha _ (by simp))
    · exact ih (fun L hL => ha L (List.mem_cons_of_mem _ hL)) M hM'

theorem randomizeAt_ok {dist : Draws} {s : Store} {n : Net} {p q : Nat} (h : n.WF s p q) (index : Nat) (sd : ℝ) :
    ∃ s' n', n.randomizeAt dist s index sd = .ok (s', n') ∧ n.SameConf n' ∧ List.Forall₂ Layer.Alike (n.layers s) (n'.layers s') ∧
      (∀ id ∈ n.hidden, (s' id).kind = .dense) := by
  unfold Net.randomizeAt
  cases hi : n.hidden[index]? with
  | some i =>
    have hmem : i ∈ n.hidden := List.mem_of_getElem? hi
    have hk := h.dense i hmem
    have hex : ∃ h', (s i).randominit dist sd = .ok h' ∧ (s i).base.Alike h'.base ∧ h'.kind = .dense := by
      unfold HLayer.randominit
      rw [hk]
      simp only
      rw [randominit_ok, ok_bind]
      exact ⟨_, rfl, alike_init _ _ _, rfl⟩
    obtain ⟨h', e, h1, h2⟩ := hex
    refine ⟨s.put i h', n, ?_, .rfl, ?_, ?_⟩
    · simp only
      rw [e, ok_bind]
    · unfold Net.layers Net.hiddenLayers
      refine List.rel_append ?_ (List.Forall₂.cons .rfl .nil)
      rw [List.forall₂_map_left_iff, List.forall₂_map_right_iff]
      refine List.forall₂_same.2 fun j hj => ?_
      unfold Store.put
      split
      · rename_i hji; subst hji; exact h1
      · exact .rfl
    · intro id hid
      unfold Store.put
      split
      · exact h2
      · exact h.dense id hid
  | none =>
    refine ⟨s, { n with output := { n.output with toLayer := { n.output.toLayer with W := initW dist n.output.W.nr n.output.W.nc sd } } }, ?_,
      ⟨rfl, rfl, rfl, rfl, rfl⟩, ?_, h.dense⟩
    · simp only
      rw [randominit_ok, ok_bind]
    · unfold Net.layers
      refine List.rel_append (List.forall₂_same.2 fun _ _ => .rfl) (List.Forall₂.cons (alike_init _ _ _) .nil)

theorem run_randomize {dist : Draws} {junk : Nat → Nat → ℝ} {p q id : Nat} {ds : List (Nat × Nat)} {costd : MatFuncD} {budget : Nat} {last : Option Nat}
    {o : Objects} {index : Nat} {sd : ℝ} (h : o.Good p q id ds costd (budget + 1) last) :
    ∃ o', (Call.randomize index sd).run dist junk id o = .ok o' ∧ o'.Good p q id ds costd budget last ∧ o'.trainers = o.trainers := by
  obtain ⟨s', n', e, hcf, hal, hdn⟩ := randomizeAt_ok (dist := dist) h.wf index sd
  have hsh := alike_map hal
  refine ⟨{ o with w := o.w.put id s' n' }, ?_, good_put h ⟨by rw [hcf.hidden]; exact h.wf.nodup, by rw [hcf.hidden]; exact hdn, h.wf.pos, ?_⟩ ⟨hcf, hsh⟩ ?_ ?_, rfl⟩
  · show (do let (s, n) ← (o.w.nets id).randomizeAt dist o.w.store index sd; .ok { o with w := o.w.put id s n } : Res Objects) = _
    rw [e, ok_bind]
  · refine fits_congr ?_ h.wf.fits
    rw [List.map_map, List.map_map]
    exact hsh
  · exact forall_of_alike (fun _ _ h => h.gradOK) hal h.grads
  · intro m hm
    obtain ⟨h1, h2⟩ := h.cached m hm
    exact ⟨h1, forall_of_alike (fun _ _ h => h.cached) hal h2⟩

/-- The state after a call of a trainer. -/
theorem good_feed {p q id k : Nat} {ds : List (Nat × Nat)} {costd : MatFuncD} {budget m : Nat} {last : Option Nat} {o : Objects} {s' : Store} {n' : Net}
    {t' : AnyTrainer} (h : o.Good p q id ds costd (budget + 1) last) (hr : n'.Ready s' p q m) (hm : 0 < m) (hk : Net.Kept o.w.store (o.w.nets id) s' n')
    (ht : t'.Belongs id ds budget) :
    Objects.Good p q id ds costd budget (some m) { w := o.w.put id s' n', trainers := fun j => if j = k then t' else o.trainers j } := by
  have h0 := good_put (last' := some m) h hr.wf hk hr.grads (fun m' hm' => by cases hm'; exact ⟨hm, hr.cached⟩)
  refine ⟨h0.wf, h0.shapes, h0.grads, h0.cached, h0.costd, fun j => ?_⟩
  by_cases hj : j = k
  · simp only [if_pos hj]; exact ht
  · simp only [if_neg hj]; exact h0.trainers j

/-- Trainers of the same class and batch size. -/
def AnyTrainer.SameClass : AnyTrainer → AnyTrainer → Prop
  | .trainer _, .trainer _ => True
  | .sgd _, .sgd _ => True
  | .batch t, .batch t' => t'.batchsize = t.batchsize
  | .momentum _, .momentum _ => True
  | _, _ => False

theorem AnyTrainer.SameClass.rfl : ∀ {t : AnyTrainer}, t.SameClass t
  | .trainer _ => trivial
  | .sgd _ => trivial
  | .batch _ => _root_.rfl
  | .momentum _ => trivial

theorem samples_kept_fit {x y : Mat ℝ} {p q : Nat} (hc : x.nc = p) (hyc : y.nc = q) :
    ∀ d ∈ Spec.samples x y, 0 < d.1.nr ∧ d.1.nc = p ∧ d.2.nr = d.1.nr ∧ d.2.nc = q ∧ d.1.nr = 1 := by
  intro d hd
  unfold Spec.samples at hd
  obtain ⟨i, _, rfl⟩ := List.mem_map.1 hd
  exact ⟨Nat.zero_lt_one, hc, rfl, hyc, rfl⟩

theorem run_feed {dist : Draws} {junk : Nat → Nat → ℝ} {p q id k : Nat} {ds : List (Nat × Nat)} {costd : MatFuncD} {budget : Nat} {last : Option Nat}
    {o : Objects} {x y : Mat ℝ} (hd : OutputLayer.DeltaOK costd) (h : o.Good p q id ds costd (budget + 1) last) (hr : 0 < x.nr) (hc : x.nc = p)
    (hyr : y.nr = x.nr) (hyc : y.nc = q)
    (hb : match o.trainers k with
      | .batch t => 2 ≤ t.batchsize ∧ t.batchsize ≤ x.nr + 1
      | _ => True) :
    ∃ o', (Call.feed k x y).run dist junk id o = .ok o' ∧ o'.Good p q id ds costd budget (some ((o.trainers k).lastRows x)) ∧
      ∀ j, (o.trainers j).SameClass (o'.trainers j) := by
  have hdel : OutputLayer.DeltaOK (o.w.nets id).output.costd := by rw [h.costd]; exact hd
  have hrun : (Call.feed k x y).run dist junk id o = (do
      let (w, t) ← (o.trainers k).feeddata junk o.w x y
      .ok { w := w, trainers := fun j => if j = k then t else o.trainers j }) := rfl
  have hbel := h.trainers k
  rw [hrun]
  cases ht : o.trainers k with
  | trainer t =>
    rw [ht] at hbel
    replace hbel : t.nnet = id := hbel
    subst hbel
    obtain ⟨s', n', e, hrd, hk⟩ := trainOn_kept (junk := junk) (decay_wf h.wf t.count) (by rw [(decay_kept h.wf t.count).conf.ocostd]; exact hdel) hr hc hyr hyc
    have e' : (AnyTrainer.trainer t).feeddata junk o.w x y = .ok (o.w.put t.nnet s' n', .trainer t.count) := by
      show (do let (w, t) ← t.feeddata junk o.w x y; .ok (w, .trainer t) : Res (World × AnyTrainer)) = _
      unfold Trainer.feeddata
      simp only
      rw [show t.count.nnet = t.nnet from rfl, e, ok_bind, ok_bind]
    rw [e', ok_bind]
    refine ⟨_, rfl, good_feed h hrd hr ((decay_kept h.wf t.count).trans hk) (show t.count.nnet = t.nnet from rfl), fun j => ?_⟩
    by_cases hj : j = k
    · subst hj; simp only [ht]; trivial
    · simp only [if_neg hj]; exact .rfl
  | sgd t =>
    rw [ht] at hbel
    replace hbel : t.nnet = id := hbel
    subst hbel
    obtain ⟨s', n', e, hrd, hk⟩ := trainSeq_kept (junk := junk) (m := 1) (decay_wf h.wf t.count) (by rw [(decay_kept h.wf t.count).conf.ocostd]; exact hdel)
      (samples_kept_fit hc hyc) (by
        intro he
        have := congrArg List.length he
        simp [Spec.samples] at this
        omega)
    have e' : (AnyTrainer.sgd t).feeddata junk o.w x y = .ok (o.w.put t.nnet s' n', .sgd t.count) := by
      show (do let (w, t) ← SGD.feeddata junk o.w t x y; .ok (w, .sgd t) : Res (World × AnyTrainer)) = _
      rw [C40_rows (by omega), e, ok_bind, ok_bind]
    rw [e', ok_bind]
    refine ⟨_, rfl, good_feed h hrd Nat.zero_lt_one ((decay_kept h.wf t.count).trans hk) (show t.count.nnet = t.nnet from rfl), fun j => ?_⟩
    by_cases hj : j = k
    · subst hj; simp only [ht]; trivial
    · simp only [if_neg hj]; exact .rfl
  | batch t =>
    rw [ht] at hbel hb
    obtain ⟨hbel, hit⟩ : t.nnet = id ∧ t.iters < 2 ^ 64 := hbel
    subst hbel
    obtain ⟨hb1, hb2⟩ : 2 ≤ t.batchsize ∧ t.batchsize ≤ x.nr + 1 := hb
    obtain ⟨b, hbb⟩ := Int.eq_ofNat_of_zero_le (show 0 ≤ t.batchsize by omega)
    have hq : 0 < q := fits_pos h.wf.pos h.wf.fits
    have hcov := (C41_coverage x y b (by omega) hyr).2.1
    obtain ⟨s', n', e, hrd, hk⟩ := trainSeq_kept (junk := junk) (m := b) h.wf hdel (ds := Spec.batches x y b) (by
        intro d hd'
        obtain ⟨c1, c2, c3, c4⟩ := hcov d hd'
        exact ⟨by omega, by omega, by omega, by omega, c1⟩) (by
        intro he
        have := congrArg List.length he
        simp only [Spec.batches, List.length_map, List.length_range, List.length_nil] at this
        have h0 := (lt_ceilDiv (n := x.nr) (b := b) (t := 0) (by omega)).2 (by omega)
        omega)
    let t' : BatchTrainer := { t with x := x, y := y, iters := (t.iters + Spec.ceilDiv x.nr b) % 2 ^ 64 }
    have e' : (AnyTrainer.batch t).feeddata junk o.w x y = .ok (o.w.put t.nnet (t'.toTrainer.decay s' n').1 (t'.toTrainer.decay s' n').2, .batch t') := by
      show (do let (w, t) ← t.feeddata junk o.w x y; .ok (w, .batch t) : Res (World × AnyTrainer)) = _
      rw [C41_batches hbb (by omega) (by omega) hyr (by have := h.wf.pos; omega) (by omega) hit, e, ok_bind, ok_bind]
    rw [e', ok_bind]
    have hlr : AnyTrainer.lastRows x (.batch t) = b := by
      show t.batchsize.toNat = b
      omega
    rw [hlr]
    refine ⟨_, rfl, good_feed h (decay_ready hrd t'.toTrainer) (by omega) (hk.trans (decay_kept hrd.wf t'.toTrainer)) ⟨rfl, ?_⟩, fun j => ?_⟩
    · show (t.iters + Spec.ceilDiv x.nr b) % 2 ^ 64 < 2 ^ 64
      exact Nat.mod_lt _ (by positivity)
    · by_cases hj : j = k
      · subst hj; simp only [ht]; exact rfl
      · simp only [if_neg hj]; exact .rfl
  | momentum t =>
    rw [ht] at hbel
    obtain ⟨hbel, hg, hit⟩ : t.nnet = id ∧ (t.hgrads ++ [t.ograd]).map dims = ds ∧ t.iters + (budget + 1) < 2 ^ 64 := hbel
    subst hbel
    obtain ⟨s', n', t', e, hrd, hk, htt, hg'⟩ := momentum_kept (junk := junk) h.wf hdel hr hc hyr hyc (by rw [hg, h.shapes]) (by omega)
    have e' : (AnyTrainer.momentum t).feeddata junk o.w x y = .ok (o.w.put t.nnet s' n', .momentum t') := by
      show (do let (w, t) ← t.feeddata junk o.w x y; .ok (w, .momentum t) : Res (World × AnyTrainer)) = _
      rw [e, ok_bind]
    rw [e', ok_bind]
    refine ⟨_, rfl, good_feed h hrd hr hk ⟨?_, ?_, ?_⟩, fun j => ?_⟩
    · rw [htt]; rfl
    · rw [hg', hg]
    · rw [htt]
      show (t.iters + 1) % 2 ^ 64 + budget < 2 ^ 64
      rw [Nat.mod_eq_of_lt (by omega)]
      omega
    · by_cases hj : j = k
      · subst hj; simp only [ht]; trivial
      · simp only [if_neg hj]; exact .rfl

/-! ## Sequences of calls -/

theorem fits_congr_trainers {p q : Nat} {ts ts' : Nat → AnyTrainer} (h : ∀ j, (ts j).SameClass (ts' j)) {last : Option Nat} {c : Call}
    (hf : c.Fits p q ts last) : c.Fits p q ts' last := by
  cases c with
  | feed k x y =>
    obtain ⟨h1, h2, h3, h4, h5⟩ := hf
    refine ⟨h1, h2, h3, h4, ?_⟩
    have hk := h k
    cases hA : ts k <;> cases hB : ts' k <;> rw [hA, hB] at hk <;> first | trivial | exact hk.elim | skip
    rw [hA] at h5
    replace hk : _ = _ := hk
    simp only at h5 ⊢
    rw [hk]
    exact h5
  | _ => exact hf

theorem lastRows_congr {t t' : AnyTrainer} (h : t.SameClass t') (x : Mat ℝ) : t'.lastRows x = t.lastRows x := by
  cases t <;> cases t' <;> first | rfl | exact h.elim | skip
  replace h : _ = _ := h
  unfold AnyTrainer.lastRows
  simp only
  rw [h]

theorem rowsAfter_congr {ts ts' : Nat → AnyTrainer} (h : ∀ j, (ts j).SameClass (ts' j)) (last : Option Nat) (c : Call) :
    c.rowsAfter ts' last = c.rowsAfter ts last := by
  cases c with
  | feed k x y =>
    unfold Call.rowsAfter
    simp only
    rw [lastRows_congr (h k)]
  | _ => rfl

theorem allFit_congr {p q : Nat} {ts ts' : Nat → AnyTrainer} (h : ∀ j, (ts j).SameClass (ts' j)) : ∀ {cs : List Call} {last : Option Nat},
    Call.AllFit p q ts last cs → Call.AllFit p q ts' last cs
  | [], _, _ => trivial
  | c :: cs, last, hf => ⟨fits_congr_trainers h hf.1, by rw [rowsAfter_congr h]; exact allFit_congr h hf.2⟩

theorem run_any {dist : Draws} {junk : Nat → Nat → ℝ} {p q id : Nat} {ds : List (Nat × Nat)} {costd : MatFuncD} {budget : Nat} {last : Option Nat}
    {o : Objects} {c : Call} (hd : OutputLayer.DeltaOK costd) (h : o.Good p q id ds costd (budget + 1) last) (hf : c.Fits p q o.trainers last) :
    ∃ o', c.run dist junk id o = .ok o' ∧ o'.Good p q id ds costd budget (c.rowsAfter o.trainers last) ∧ ∀ j, (o.trainers j).SameClass (o'.trainers j) := by
  have lift : ∀ {last' : Option Nat}, (∃ o', c.run dist junk id o = .ok o' ∧ o'.Good p q id ds costd budget last' ∧ o'.trainers = o.trainers) →
      ∃ o', c.run dist junk id o = .ok o' ∧ o'.Good p q id ds costd budget last' ∧ ∀ j, (o.trainers j).SameClass (o'.trainers j) := by
    rintro last' ⟨o', e, hg, ht⟩
    exact ⟨o', e, hg, fun j => by rw [ht]; exact .rfl⟩
  cases c with
  | forwardprop x => exact lift (run_forwardprop h hf.1 hf.2)
  | predict x => exact lift (run_predict h hf.1 hf.2)
  | backprop y => exact lift (run_backprop hd h hf.1 hf.2)
  | update => exact lift (run_update h)
  | setlrate r => exact lift (run_setlrate h)
  | randomize i r => exact lift (run_randomize h)
  | feed k x y => exact run_feed hd h hf.1 hf.2.1 hf.2.2.1 hf.2.2.2.1 hf.2.2.2.2

theorem runAll_ok {dist : Draws} {junk : Nat → Nat → ℝ} {p q id : Nat} {ds : List (Nat × Nat)} {costd : MatFuncD} (hd : OutputLayer.DeltaOK costd) :
    ∀ {cs : List Call} {budget : Nat} {last : Option Nat} {o : Objects}, o.Good p q id ds costd (budget + cs.length) last → Call.AllFit p q o.trainers last cs →
    ∃ o' last', Call.runAll dist junk id cs o = .ok o' ∧ o'.Good p q id ds costd budget last'
  | [], budget, last, o, h, _ => ⟨o, last, rfl, h⟩
  | c :: cs, budget, last, o, h, hf => by
    obtain ⟨o1, e1, h1, hs⟩ := run_any (dist := dist) (junk := junk) (budget := budget + cs.length) hd h hf.1
    obtain ⟨o2, last2, e2, h2⟩ := runAll_ok hd h1 (allFit_congr hs hf.2)
    refine ⟨o2, last2, ?_, h2⟩
    show (do let o ← c.run dist junk id o; Call.runAll dist junk id cs o : Res Objects) = _
    rw [e1, ok_bind]
    exact e2

/-! ## The property -/

/-- The derivatives of the library's costs accept matching sizes. -/
theorem C54_costs : OutputLayer.DeltaOK Quadratic.costd ∧ OutputLayer.DeltaOK CrossEntropy.costd ∧ OutputLayer.DeltaOK Softmax.costd ∧
    OutputLayer.DeltaOK KullbackLeibler.costd := by
  refine ⟨fun y a z h1 h2 _ _ => ⟨_, diff_costd h1 h2, h1, h2⟩, fun y a z h1 h2 _ _ => ⟨_, diff_costd h1 h2, h1, h2⟩,
    fun y a z h1 h2 _ _ => ⟨_, softmax_costd h1 h2, h1, h2⟩, fun y a z h1 h2 _ _ => ?_⟩
  refine ⟨(Mat.of y.nr y.nc (fun i j => y.f i j / a.f i j)).divS y.nr, ?_, rfl, rfl⟩
  show (do let q ← y.ediv a; .ok (q.divS y.nr) : Res (Mat ℝ)) = _
  rw [Mat.ediv_ok h1.symm h2.symm, ok_bind]

/-- **C54.** A dense network whose layer sizes lead from `p` inputs to `q` outputs, whose gradients have the sizes of the weights (as the
constructors make them) and whose output layer has one of the library's cost derivatives (or any other that accepts matching sizes), together with
any number of trainers of any class made for it: whatever sequence of calls on them is made, with data of matching width, no call throws or has
undefined behaviour, and in the end the network is well-formed with all weight matrices of the sizes they had. -/
theorem C54_training {dist : Draws} {junk : Nat → Nat → ℝ} {p q id : Nat} {o : Objects} {cs : List Call}
    (hwf : (o.w.nets id).WF o.w.store p q) (hg : ∀ L ∈ (o.w.nets id).layers o.w.store, L.grad.nr = L.W.nr ∧ L.grad.nc = L.W.nc)
    (hd : OutputLayer.DeltaOK (o.w.nets id).output.costd)
    (ht : ∀ k, (o.trainers k).Belongs id ((o.w.nets id).shapes o.w.store) cs.length) (hf : Call.AllFit p q o.trainers none cs) :
    ∃ o', Call.runAll dist junk id cs o = .ok o' ∧ (o'.w.nets id).WF o'.w.store p q ∧
      ((o'.w.nets id).layers o'.w.store).map (fun L => (L.W.nr, L.W.nc)) = ((o.w.nets id).layers o.w.store).map (fun L => (L.W.nr, L.W.nc)) := by
  obtain ⟨o', last', e, h⟩ := runAll_ok (dist := dist) (junk := junk) (id := id) (ds := (o.w.nets id).shapes o.w.store) hd (cs := cs) (budget := 0)
    (last := none) (o := o) ⟨hwf, rfl, hg, (fun m hm => nomatch hm), rfl, (by rw [Nat.zero_add]; exact ht)⟩ hf
  exact ⟨o', e, h.wf, h.shapes⟩

/-! ## Constructors make such objects -/

/-- A newly made layer with `p` inputs and `n` units. -/
theorem C54_new_layer (dist : Draws) (junk : Nat → Nat → ℝ) (p n : Nat) (lrate sd lambda : ℝ) (act : ActFunc ℝ) :
    ∃ L, Layer.newDev dist junk p n lrate sd lambda act = .ok L ∧ L.W.nr = p + 1 ∧ L.W.nc = n ∧ L.grad.nr = L.W.nr ∧ L.grad.nc = L.W.nc := by
  unfold Layer.newDev Mat.mk'
  rw [if_pos (by omega), ok_bind, ok_bind, randominit_ok]
  refine ⟨_, rfl, ?_, ?_, ?_, ?_⟩
  · show ((p : Int) + 1).toNat = _; omega
  · show ((n : Int)).toNat = _; omega
  · rfl
  · rfl

/-- A newly made output layer. -/
theorem C54_new_output (dist : Draws) (junk : Nat → Nat → ℝ) (p n : Nat) (lrate sd lambda : ℝ) (act : ActFunc ℝ) (cost : MatFunc) (costd : MatFuncD) :
    ∃ o, OutputLayer.newDev dist junk p n lrate sd lambda act cost costd = .ok o ∧ o.W.nr = p + 1 ∧ o.W.nc = n ∧ o.grad.nr = o.W.nr ∧
      o.grad.nc = o.W.nc ∧ o.costd = costd ∧ o.cost = cost := by
  obtain ⟨L, e, h1, h2, h3, h4⟩ := C54_new_layer dist junk p n lrate sd lambda act
  refine ⟨{ L with cost := cost, costd := costd, y := .empty }, ?_, h1, h2, h3, h4, rfl, rfl⟩
  unfold OutputLayer.newDev
  rw [e, ok_bind]

/-- A network made from an input layer, hidden layers in the store and an output layer has these layers (the input layer is copied with fresh
weights nobody uses). -/
theorem C54_new_net (dist : Draws) (junk : Nat → Nat → ℝ) (input : Layer) (output : OutputLayer) (hidden : List Nat) (s : Store) :
    ∃ n, Net.new dist junk input output hidden = .ok n ∧ n.layers s = hidden.map (fun p => (s p).base) ++ [output.toLayer] ∧ n.hidden = hidden ∧
      n.output.costd = output.costd ∧ n.cost = output.cost := by
  obtain ⟨L1, e1, _⟩ := C53_copy_partial dist junk 1 input
  unfold copies at e1
  obtain ⟨M, h1, e1⟩ := bind_eq_ok e1
  obtain ⟨L2, e2, _⟩ := C53_copy_partial dist junk 1 M
  unfold copies at e2
  obtain ⟨M2, h2, e2⟩ := bind_eq_ok e2
  unfold Net.new
  rw [h1, ok_bind, h2, ok_bind]
  exact ⟨_, rfl, rfl, rfl, rfl, rfl⟩

/-- Newly made trainers of every class belong to their network. -/
theorem C54_new_trainers (w : World) (id : Nat) (bs : Int) (m r0 k : ℝ) (step budget : Nat) (hb : budget < 2 ^ 64) :
    ∀ t ∈ [AnyTrainer.trainer (.new id), .trainer (.newDecay id r0 k step), .sgd (.new id), .sgd (.newDecay id r0 k step), .batch (.new id bs),
      .batch (.newDecay id bs r0 k step), .momentum (.new w id m), .momentum (.newDecay w id m r0 k step)],
      t.Belongs id ((w.nets id).shapes w.store) budget := by
  have hm : ∀ t : Trainer, t.nnet = id → t.iters = 0 → (AnyTrainer.momentum (MomentumTrainer.initmomentum w t m)).Belongs id ((w.nets id).shapes w.store) budget := by
    intro t h1 h2
    subst h1
    refine ⟨rfl, ?_, ?_⟩
    · unfold MomentumTrainer.initmomentum Net.shapes Net.layers Net.hiddenLayers
      simp only [List.map_append, List.map_map, List.map_cons, List.map_nil]
      congr 1
    · show t.iters + budget < 2 ^ 64
      omega
  intro t ht
  simp only [List.mem_cons, List.not_mem_nil, or_false] at ht
  rcases ht with rfl | rfl | rfl | rfl | rfl | rfl | rfl | rfl
  · exact (rfl : id = id)
  · exact (rfl : id = id)
  · exact (rfl : id = id)
  · exact (rfl : id = id)
  · exact ⟨rfl, by norm_num [BatchTrainer.new, Trainer.new]⟩
  · exact ⟨rfl, by norm_num [BatchTrainer.newDecay, Trainer.newDecay]⟩
  · exact hm _ rfl rfl
  · exact hm _ rfl rfl

/-! ## A concrete case -/

/-- A program with a 2-3-2 network and a trainer of each class. -/
def exObjects : Objects :=
  { w := ⟨fun _ => exNet, exStore⟩
    trainers := fun k => match k with
      | 0 => .sgd (.newDecay 0 1 1 2)
      | 1 => .batch (.new 0 2)
      | 2 => .momentum (.new ⟨fun _ => exNet, exStore⟩ 0 (9 / 10))
      | _ => .trainer (.new 0) }

/-- The hypotheses of C54 hold of it and of a sequence of calls that uses everything. -/
example (dist : Draws) (junk : Nat → Nat → ℝ) : ∃ o', Call.runAll dist junk 0
    [.feed 0 exX exY, .feed 1 exX exY, .feed 2 exX exY, .feed 3 exX exY, .predict exX, .backprop exY, .update, .setlrate 3, .randomize 0 1] exObjects = .ok o' := by
  obtain ⟨o', e, _⟩ := C54_training (dist := dist) (junk := junk) (p := 2) (q := 2) (id := 0) (o := exObjects)
    (cs := [.feed 0 exX exY, .feed 1 exX exY, .feed 2 exX exY, .feed 3 exX exY, .predict exX, .backprop exY, .update, .setlrate 3, .randomize 0 1])
    exNet_wf (by
      intro L hL
      simp only [exObjects, Net.layers, Net.hiddenLayers, exNet, exStore, List.map_cons, List.map_nil, List.cons_append, List.nil_append, List.mem_cons,
        List.not_mem_nil, or_false] at hL
      rcases hL with rfl | rfl <;> exact ⟨rfl, rfl⟩) C54_costs.1 (by
      intro k
      have h := C54_new_trainers ⟨fun _ => exNet, exStore⟩ 0 2 (9 / 10) 1 1 2 9 (by norm_num)
      match k with
      | 0 => exact h (.sgd (.newDecay 0 1 1 2)) (by simp)
      | 1 => exact h (.batch (.new 0 2)) (by simp)
      | 2 => exact h (.momentum (.new ⟨fun _ => exNet, exStore⟩ 0 (9 / 10))) (by simp)
      | _ + 3 => exact h (.trainer (.new 0)) (by simp)) (by
      simp [Call.AllFit, Call.Fits, Call.rowsAfter, AnyTrainer.lastRows, exObjects, exX, exY, BatchTrainer.new])
  exact ⟨o', e⟩

end
end Nnet.NN
