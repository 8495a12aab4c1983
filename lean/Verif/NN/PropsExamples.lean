import Verif.NN.PropsDeterminate
/-!
# C70: whole programs whose sizes fit never fail
-/
namespace Nnet.NN
open Finset
noncomputable section

/-! ## Specification -/

/-- The arguments of the constructors lead from `p` inputs to `q` outputs: every layer has as many inputs as the one before it has units, and at least one unit. -/
def Spec.SizesChain : Int → List Spec.DenseArgs → Int → Prop
  | p, [], q => p = q
  | p, a :: as, q => a.inputs = p ∧ 0 < a.nodes ∧ Spec.SizesChain a.nodes as q

/-- A recipe for a network from `p` inputs to `q` outputs. -/
structure Spec.Recipe.Chains (r : Spec.Recipe) (p q : Nat) : Prop where
  inputs : r.inputs = p
  pos : 0 < p
  chain : Spec.SizesChain p (r.hidden ++ [r.out]) q

/-- The cost function accepts predictions of the size of the labels, as all cost functions of the library do (`C70_costs`). -/
def Spec.CostOK (cost : MatFunc) : Prop := ∀ y h : Mat ℝ, h.nr = y.nr → h.nc = y.nc → ∃ J, cost y h = .ok J

/-- A statement with data that fits a network with `p` inputs, `q` outputs and `l` hidden layers. `ks k`: how trainer `k` was made; `last`: rows of the last forward pass. -/
def Spec.Stmt.Fits (p q l : Nat) (ks : Nat → Spec.TrainerArgs) (last : Option Nat) : Spec.Stmt → Prop
  | .make _ _ => True
  | .feed k x y c => 0 < x.nr ∧ x.nc = p ∧ y.nr = x.nr ∧ y.nc = q ∧
      match ks k with
      | .batch b _ => 2 ≤ b ∧ b ≤ x.nr + 1 ∧ c = false
      | _ => True
  | .call (.forwardprop x) => 0 < x.nr ∧ x.nc = p
  | .call (.predict x) => 0 < x.nr ∧ x.nc = p
  | .call (.backprop y) => last = some y.nr ∧ y.nc = q
  | .call (.computecost a y) => a.nr = y.nr ∧ a.nc = y.nc
  | .call (.gethidden i) => i < l
  | .call .update | .call (.setlrate _) | .call (.randomizeAt _ _) | .call .getresult | .call .getnumhidden | .call .getoutput | .call (.save _ _) => True
  | .call _ => False

/-- How the trainers were made, after a statement. -/
def Spec.Stmt.madeAfter (ks : Nat → Spec.TrainerArgs) : Spec.Stmt → Nat → Spec.TrainerArgs
  | .make k a => fun j => if j = k then a else ks j
  | _ => ks

/-- Rows of the last forward pass after a statement. -/
def Spec.Stmt.rowsAfter (ks : Nat → Spec.TrainerArgs) (last : Option Nat) : Spec.Stmt → Option Nat
  | .feed k x _ _ =>
    match ks k with
    | .sgd _ => some 1
    | .batch b _ => some b.toNat
    | _ => some x.nr
  | .call (.forwardprop x) => some x.nr
  | .call (.predict x) => some x.nr
  | _ => last

/-- All statements of a program fit. -/
def Spec.AllFit (p q l : Nat) : (Nat → Spec.TrainerArgs) → Option Nat → List Spec.Stmt → Prop
  | _, _, [] => True
  | ks, last, c :: cs => c.Fits p q l ks last ∧ Spec.AllFit p q l (c.madeAfter ks) (c.rowsAfter ks last) cs

/-! ## Building -/

theorem forall₂_layer {dist : Draws} {mem : Nat → Nat → Nat → ℝ} : ∀ (as : List Spec.DenseArgs) (p : Nat) (s : Store), (∀ a ∈ as, 0 ≤ a.inputs ∧ 0 ≤ a.nodes) →
    ∃ s', Spec.makeHidden dist mem as p s = .ok s' ∧ (∀ j < p, s' j = s j) ∧
      List.Forall₂ (fun a k => (s' k).kind = .dense ∧ ((s' k).base.W.nr : Int) = a.inputs + 1 ∧ ((s' k).base.W.nc : Int) = a.nodes ∧ (s' k).base.GradOK) as (List.range' p as.length)
  | [], p, s, _ => ⟨s, rfl, fun _ _ => rfl, by simp⟩
  | a :: as, p, s, h => by
    obtain ⟨h1, h2⟩ := h a (by simp)
    obtain ⟨L, e, l1, l2, l3, l4⟩ := C54_new_layer dist (mem p) a.inputs.toNat a.nodes.toNat a.lrate a.stddev a.lambda a.act
    rw [Int.toNat_of_nonneg h1, Int.toNat_of_nonneg h2] at e
    obtain ⟨s', e', hs, hf⟩ := forall₂_layer as (p + 1) (s.put p ⟨L, .dense⟩) (fun b hb => h b (by simp [hb]))
    refine ⟨s', ?_, fun j hj => ?_, ?_⟩
    · unfold Spec.makeHidden
      rw [e, ok_bind, e']
    · rw [hs j (by omega)]
      unfold Store.put
      rw [if_neg (by omega)]
    · rw [List.length_cons, List.range'_succ]
      refine .cons ?_ hf
      rw [hs p (by omega)]
      unfold Store.put
      rw [if_pos rfl]
      refine ⟨rfl, ?_, ?_, ⟨l3, l4⟩⟩
      · show (L.W.nr : Int) = _
        rw [l1]; push_cast; omega
      · show (L.W.nc : Int) = _
        rw [l2]; omega

theorem fits_of_chains {s : Store} {out : Layer} {o : Spec.DenseArgs} (h1 : (out.W.nr : Int) = o.inputs + 1) (h2 : (out.W.nc : Int) = o.nodes) :
    ∀ {as : List Spec.DenseArgs} {ks : List Nat} {p q : Nat}, List.Forall₂ (fun a k => (s k).kind = .dense ∧ ((s k).base.W.nr : Int) = a.inputs + 1 ∧ ((s k).base.W.nc : Int) = a.nodes ∧ (s k).base.GradOK) as ks →
      Spec.SizesChain p (as ++ [o]) q → Spec.Fits p ((ks.map (fun k => (s k).base) ++ [out]).map (·.W)) q
  | [], _, p, q, .nil, h => by
    obtain ⟨a, b, c⟩ := h
    have c : o.nodes = (q : Int) := c
    refine ⟨by show out.W.nr = p + 1; omega, by show 0 < out.W.nc; omega, ?_⟩
    show out.W.nc = q
    omega
  | a :: as, k :: ks, p, q, .cons hk hks, h => by
    obtain ⟨ha, hb, hc⟩ := h
    refine ⟨by show (s k).base.W.nr = p + 1; omega, by show 0 < (s k).base.W.nc; omega, ?_⟩
    rw [← hk.2.2.1] at hc
    exact fits_of_chains h1 h2 hks hc

theorem chains_nonneg : ∀ {as : List Spec.DenseArgs} {p q : Int}, 0 ≤ p → Spec.SizesChain p as q → ∀ a ∈ as, 0 ≤ a.inputs ∧ 0 ≤ a.nodes
  | [], _, _, _, _ => by simp
  | a :: as, p, q, hp, h => by
    obtain ⟨ha, hb, hc⟩ := h
    intro b hm
    rcases List.mem_cons.1 hm with e | hm
    · subst e; omega
    · exact chains_nonneg (by omega) hc b hm

theorem build_ok {dist : Draws} {mem : Nat → Nat → Nat → ℝ} {r : Spec.Recipe} {p q : Nat} (h : r.Chains p q) :
    ∃ s n, r.build dist mem = .ok (s, n) ∧ n.WF s p q ∧ (∀ L ∈ n.layers s, L.GradOK) ∧ n.output.costd = r.costd ∧ n.cost = r.cost ∧ n.hidden.length = r.hidden.length := by
  have hnn := chains_nonneg (by omega) h.chain
  obtain ⟨s, e1, -, hf⟩ := forall₂_layer (dist := dist) (mem := mem) r.hidden 0 (fun _ => ⟨Layer.default, .dense⟩) (fun a ha => hnn a (by simp [ha]))
  rw [← List.range_eq_range'] at hf
  obtain ⟨i1, i2⟩ := hnn r.out (by simp)
  obtain ⟨o, e2, o1, o2, o3, o4, o5, o6⟩ := C54_new_output dist (mem r.hidden.length) r.out.inputs.toNat r.out.nodes.toNat r.out.lrate r.out.stddev r.out.lambda r.out.act r.cost r.costd
  rw [Int.toNat_of_nonneg i1, Int.toNat_of_nonneg i2] at e2
  have ein : ∃ L, InputLayer.new (mem (r.hidden.length + 1)) r.inputs = .ok L := by
    unfold InputLayer.new Mat.mk'
    rw [if_pos (by have := h.inputs; omega), ok_bind, ok_bind]
    exact ⟨_, rfl⟩
  obtain ⟨L, ein⟩ := ein
  obtain ⟨n, e3, n1, n2, n3, n4⟩ := C54_new_net dist (mem (r.hidden.length + 2)) L o (List.range r.hidden.length) s
  refine ⟨s, n, ?_, ⟨?_, ?_, h.pos, ?_⟩, ?_, by rw [n3, o5], by rw [n4, o6], by rw [n2, List.length_range]⟩
  · unfold Spec.Recipe.build
    simp only
    rw [ein, ok_bind, e1, ok_bind, e2, ok_bind, e3, ok_bind]
  · rw [n2]; exact List.nodup_range
  · rw [n2]
    intro k hk
    obtain ⟨i, hi, rfl⟩ := List.mem_iff_getElem.1 hk
    have hi' : i < r.hidden.length := by simpa using hi
    exact ((List.forall₂_iff_get.1 hf).2 i hi' hi).1
  · rw [n1]
    exact fits_of_chains (by rw [o1]; push_cast; omega) (by rw [o2]; omega) hf h.chain
  · rw [n1]
    intro M hM
    rcases List.mem_append.1 hM with hM | hM
    · obtain ⟨k, hk, rfl⟩ := List.mem_map.1 hM
      obtain ⟨i, hi, rfl⟩ := List.mem_iff_getElem.1 hk
      have hi' : i < r.hidden.length := by simpa using hi
      exact ((List.forall₂_iff_get.1 hf).2 i hi' hi).2.2.2
    · rw [List.mem_singleton.1 hM]
      exact ⟨o3, o4⟩

/-! ## The cost function of a network never changes -/

theorem loop_all {σ : Type _} {n : Nat} {body : Nat → σ → Res σ} {s s' : σ} (P : σ → Prop) (h : loop n body s = .ok s') (h0 : P s)
    (hb : ∀ i s s', P s → body i s = .ok s' → P s') : P s' := by
  induction n generalizing s' with
  | zero => cases h; exact h0
  | succ n ih =>
    unfold loop at h
    obtain ⟨s1, h1, h2⟩ := bind_eq_ok h
    exact hb n s1 s' (ih h1) h2

theorem forwardprop_cost {junk : Nat → Nat → ℝ} {s s' : Store} {n n' : Net} {x r : Mat ℝ} (h : n.forwardprop junk s x = .ok (r, s', n')) : n'.cost = n.cost := by
  unfold Net.forwardprop at h
  simp only at h
  obtain ⟨_, -, h⟩ := bind_eq_ok h
  obtain ⟨_, -, h⟩ := bind_eq_ok h
  cases h; rfl

theorem backprop_cost {junk : Nat → Nat → ℝ} {s s' : Store} {n n' : Net} {y : Mat ℝ} (h : n.backprop junk s y = .ok (s', n')) : n'.cost = n.cost := by
  unfold Net.backprop at h
  obtain ⟨_, -, h⟩ := bind_eq_ok h
  obtain ⟨_, -, h⟩ := bind_eq_ok h
  cases h; rfl

theorem update_cost {s s' : Store} {n n' : Net} (h : n.update s = .ok (s', n')) : n'.cost = n.cost := by
  unfold Net.update at h
  obtain ⟨_, -, h⟩ := bind_eq_ok h
  obtain ⟨_, -, h⟩ := bind_eq_ok h
  cases h; rfl

theorem updateWith_cost {s s' : Store} {n n' : Net} {g : Mat ℝ} {gs : List (Mat ℝ)} (h : n.updateWith s g gs = .ok (s', n')) : n'.cost = n.cost := by
  unfold Net.updateWith at h
  obtain ⟨_, -, h⟩ := bind_eq_ok h
  obtain ⟨_, -, h⟩ := bind_eq_ok h
  cases h; rfl

theorem predict_cost {junk : Nat → Nat → ℝ} {s s' : Store} {n n' : Net} {x r : Mat ℝ} (h : n.predict junk s x = .ok (r, s', n')) : n'.cost = n.cost := by
  unfold Net.predict at h
  obtain ⟨⟨_, _, n1⟩, h1, h⟩ := bind_eq_ok h
  simp only at h
  obtain ⟨_, -, h⟩ := bind_eq_ok h
  cases h
  exact (show n1.cost = n.cost from forwardprop_cost h1)

theorem randomizeAt_cost {dist : Draws} {s s' : Store} {n n' : Net} {i : Nat} {d : ℝ} (h : n.randomizeAt dist s i d = .ok (s', n')) : n'.cost = n.cost := by
  unfold Net.randomizeAt at h
  split at h
  · obtain ⟨_, -, h⟩ := bind_eq_ok h; cases h; rfl
  · obtain ⟨_, -, h⟩ := bind_eq_ok h; cases h; rfl

theorem trainOn_cost {junk : Nat → Nat → ℝ} {s s' : Store} {n n' : Net} {x y : Mat ℝ} (h : n.trainOn junk s x y = .ok (s', n')) : n'.cost = n.cost := by
  unfold Net.trainOn at h
  obtain ⟨⟨_, _, n1⟩, h1, h⟩ := bind_eq_ok h
  simp only at h
  obtain ⟨⟨_, n2⟩, h2, h⟩ := bind_eq_ok h
  simp only at h
  rw [update_cost h, backprop_cost h2, forwardprop_cost h1]

theorem decay_cost (t : Trainer) (s : Store) (n : Net) : (t.decay s n).2.cost = n.cost := by
  unfold Trainer.decay
  split <;> rfl

theorem feeddata_cost {junk : Nat → Nat → ℝ} {w w' : World} {x y : Mat ℝ} {t t' : AnyTrainer} {id budget : Nat} {ds : List (Nat × Nat)} (ht : t.Belongs id ds budget)
    (h : t.feeddata junk w x y = .ok (w', t')) : (w'.nets id).cost = (w.nets id).cost := by
  cases t with
  | trainer t =>
    obtain ⟨⟨w1, t1⟩, h1, h⟩ := bind_eq_ok h
    cases h
    cases (show t.nnet = id from ht)
    unfold Trainer.feeddata at h1
    simp only at h1
    obtain ⟨⟨s, n⟩, h2, h1⟩ := bind_eq_ok h1
    cases h1
    rw [show t.count.nnet = t.nnet from rfl, put_nets, trainOn_cost h2]
    exact decay_cost _ _ _
  | sgd t =>
    obtain ⟨⟨w1, t1⟩, h1, h⟩ := bind_eq_ok h
    cases h
    cases (show t.nnet = id from ht)
    unfold SGD.feeddata at h1
    simp only at h1
    obtain ⟨⟨s, n⟩, h2, h1⟩ := bind_eq_ok h1
    cases h1
    rw [show t.count.nnet = t.nnet from rfl, put_nets]
    unfold SGD.trainRows at h2
    refine loop_all (fun st : Store × Net => st.2.cost = (w.nets t.nnet).cost) h2 (decay_cost _ _ _) ?_
    rintro i ⟨s1, n1⟩ ⟨s2, n2⟩ hp hb
    obtain ⟨_, -, hb⟩ := bind_eq_ok hb
    obtain ⟨⟨_, _, _⟩, b1, hb⟩ := bind_eq_ok hb
    obtain ⟨_, -, hb⟩ := bind_eq_ok hb
    obtain ⟨⟨_, _⟩, b2, hb⟩ := bind_eq_ok hb
    show n2.cost = _
    rw [update_cost hb, backprop_cost b2, forwardprop_cost b1]
    exact hp
  | batch t =>
    obtain ⟨⟨w1, t1⟩, h1, h⟩ := bind_eq_ok h
    cases h
    cases (show t.nnet = id from ht.1)
    unfold BatchTrainer.feeddata at h1
    simp only at h1
    obtain ⟨_, -, h1⟩ := bind_eq_ok h1
    obtain ⟨_, -, h1⟩ := bind_eq_ok h1
    obtain ⟨⟨it, s, n⟩, h2, h1⟩ := bind_eq_ok h1
    cases h1
    rw [put_nets]
    refine (decay_cost _ _ _).trans ?_
    unfold BatchTrainer.trainBatches at h2
    refine loop_all (fun st : Nat × Store × Net => st.2.2.cost = (w.nets t.nnet).cost) h2 rfl ?_
    rintro i ⟨_, s1, n1⟩ ⟨_, s2, n2⟩ hp hb
    obtain ⟨_, -, hb⟩ := bind_eq_ok hb
    obtain ⟨⟨_, _, _⟩, b1, hb⟩ := bind_eq_ok hb
    obtain ⟨_, -, hb⟩ := bind_eq_ok hb
    obtain ⟨⟨_, _⟩, b2, hb⟩ := bind_eq_ok hb
    obtain ⟨⟨_, _⟩, b3, hb⟩ := bind_eq_ok hb
    cases hb
    show n2.cost = _
    rw [update_cost b3, backprop_cost b2, forwardprop_cost b1]
    exact hp
  | momentum t =>
    obtain ⟨⟨w1, t1⟩, h1, h⟩ := bind_eq_ok h
    cases h
    cases (show t.nnet = id from ht.1)
    unfold MomentumTrainer.feeddata at h1
    simp only at h1
    obtain ⟨⟨_, _, _⟩, b1, h1⟩ := bind_eq_ok h1
    obtain ⟨⟨_, _⟩, b2, h1⟩ := bind_eq_ok h1
    obtain ⟨_, -, h1⟩ := bind_eq_ok h1
    obtain ⟨_, -, h1⟩ := bind_eq_ok h1
    obtain ⟨⟨_, _⟩, b3, h1⟩ := bind_eq_ok h1
    cases h1
    rw [show t.count.nnet = t.nnet from rfl, put_nets, updateWith_cost b3, backprop_cost b2, forwardprop_cost b1]
    exact decay_cost _ _ _

/-! ## Statements -/

/-- The trainer is of the class and batch size it was made with. -/
def Matches : Spec.TrainerArgs → AnyTrainer → Prop
  | .trainer _, .trainer _ => True
  | .sgd _, .sgd _ => True
  | .batch b _, .batch t => t.batchsize = b
  | .momentum _ _, .momentum _ => True
  | _, _ => False

theorem Matches.same {a : Spec.TrainerArgs} {t t' : AnyTrainer} (h : Matches a t) (hs : t.SameClass t') : Matches a t' := by
  cases a <;> cases t <;> cases t' <;> first | exact trivial | exact h.elim | exact hs.elim | exact (show _ = _ from hs).trans h

theorem make_matches (w : World) (a : Spec.TrainerArgs) : Matches a (a.make w) := by
  cases a with
  | trainer d => exact trivial
  | sgd d => exact trivial
  | batch b d => cases d with
    | none => exact rfl
    | some v => obtain ⟨_, _, _⟩ := v; exact rfl
  | momentum m d => cases d with
    | none => exact trivial
    | some v => obtain ⟨_, _, _⟩ := v; exact trivial

theorem make_belongs (w : World) (a : Spec.TrainerArgs) (budget : Nat) (hb : budget < 2 ^ 64) : (a.make w).Belongs 0 ((w.nets 0).shapes w.store) budget := by
  have hall := fun bs m r0 k step => C54_new_trainers w 0 bs m r0 k step budget hb
  cases a with
  | trainer d => cases d with
    | none => exact hall 0 0 0 0 0 _ (by simp [Spec.TrainerArgs.make, Spec.baseTrainer])
    | some v => obtain ⟨r0, k, step⟩ := v; exact hall 0 0 r0 k step _ (by simp [Spec.TrainerArgs.make, Spec.baseTrainer])
  | sgd d => cases d with
    | none => exact hall 0 0 0 0 0 _ (by simp [Spec.TrainerArgs.make, Spec.baseTrainer])
    | some v => obtain ⟨r0, k, step⟩ := v; exact hall 0 0 r0 k step _ (by simp [Spec.TrainerArgs.make, Spec.baseTrainer])
  | batch b d => cases d with
    | none => exact hall b 0 0 0 0 _ (by simp [Spec.TrainerArgs.make])
    | some v => obtain ⟨r0, k, step⟩ := v; exact hall b 0 r0 k step _ (by simp [Spec.TrainerArgs.make])
  | momentum m d => cases d with
    | none => exact hall 0 m 0 0 0 _ (by simp [Spec.TrainerArgs.make])
    | some v => obtain ⟨r0, k, step⟩ := v; exact hall 0 m r0 k step _ (by simp [Spec.TrainerArgs.make])

theorem belongs_less {id budget : Nat} {ds : List (Nat × Nat)} {t : AnyTrainer} (h : t.Belongs id ds (budget + 1)) : t.Belongs id ds budget := by
  cases t with
  | trainer t => exact h
  | sgd t => exact h
  | batch t => exact h
  | momentum t => exact ⟨h.1, h.2.1, by have := h.2.2; omega⟩

/-- What holds between statements. -/
structure Inv (p q : Nat) (ds : List (Nat × Nat)) (costd : MatFuncD) (cost : MatFunc) (budget : Nat) (last : Option Nat) (ks : Nat → Spec.TrainerArgs) (σ : Spec.State) : Prop where
  good : Objects.Good p q 0 ds costd budget last ⟨σ.w, σ.ts⟩
  cost : (σ.w.nets 0).cost = cost
  kinds : ∀ k, Matches (ks k) (σ.ts k)
  small : budget < 2 ^ 64

/-- Nothing but the counters of trainers changes. -/
theorem Inv.idle {p q : Nat} {ds : List (Nat × Nat)} {costd : MatFuncD} {cost : MatFunc} {budget : Nat} {last : Option Nat} {ks : Nat → Spec.TrainerArgs} {σ : Spec.State}
    (h : Inv p q ds costd cost (budget + 1) last ks σ) (fs : Files) : Inv p q ds costd cost budget last ks { σ with fs := fs } :=
  ⟨⟨h.good.wf, h.good.shapes, h.good.grads, h.good.cached, h.good.costd, fun k => belongs_less (h.good.trainers k)⟩, h.cost, h.kinds, by have := h.small; omega⟩

theorem Inv.after {p q : Nat} {ds : List (Nat × Nat)} {costd : MatFuncD} {cost : MatFunc} {budget : Nat} {last last' : Option Nat} {ks : Nat → Spec.TrainerArgs} {σ : Spec.State}
    (h : Inv p q ds costd cost (budget + 1) last ks σ) {s : Store} {n : Net} (hg : Objects.Good p q 0 ds costd budget last' ⟨σ.w.put 0 s n, σ.ts⟩) (hc : n.cost = (σ.w.nets 0).cost) :
    Inv p q ds costd cost budget last' ks { σ with w := σ.w.put 0 s n } :=
  ⟨hg, by show ((σ.w.put 0 s n).nets 0).cost = cost; rw [put_nets, hc, h.cost], h.kinds, by have := h.small; omega⟩

/-- What a statement that fits returns. -/
def Spec.Returns (q l : Nat) : Spec.Stmt → Spec.Returned → Prop
  | .feed _ _ _ c, .number v => c = false → v = 0
  | .call (.forwardprop x), .matrix m => m.nr = x.nr ∧ m.nc = q
  | .call (.predict x), .matrix m => m.nr = x.nr ∧ m.nc = 2 ∧ ∀ i < x.nr, ∃ k < q, m.f i 0 = (k : ℝ)
  | .call (.computecost _ _), .number _ => True
  | .call .getresult, .matrix _ => True
  | .call .getnumhidden, .count k => k = l
  | .call (.gethidden _), .layer _ => True
  | .call .getoutput, .outputLayer _ => True
  | .make _ _, .nothing | .call (.backprop _), .nothing | .call .update, .nothing | .call (.setlrate _), .nothing | .call (.randomizeAt _ _), .nothing | .call (.save _ _), .nothing => True
  | _, _ => False

/-- A statement that writes no file. -/
def Spec.Stmt.NoFile : Spec.Stmt → Prop
  | .call (.save _ _) => False
  | _ => True

theorem feed_ok {dist : Draws} {junk : Nat → Nat → ℝ} {p q k : Nat} {ds : List (Nat × Nat)} {costd : MatFuncD} {cost : MatFunc} {budget : Nat} {last : Option Nat} {ks : Nat → Spec.TrainerArgs}
    {σ : Spec.State} {x y : Mat ℝ} {c : Bool} (hd : OutputLayer.DeltaOK costd) (hco : Spec.CostOK cost) (h : Inv p q ds costd cost (budget + 1) last ks σ) (hr : 0 < x.nr) (hc : x.nc = p) (hyr : y.nr = x.nr) (hyc : y.nc = q)
    (hb : match ks k with
      | .batch b _ => 2 ≤ b ∧ b ≤ x.nr + 1 ∧ c = false
      | _ => True) :
    ∃ v w t, (σ.ts k).feedcost junk σ.w x y c = .ok (v, w, t) ∧ (c = false → v = 0) ∧
      Inv p q ds costd cost budget ((Spec.Stmt.feed k x y c).rowsAfter ks last) ks { σ with w := w, ts := fun j => if j = k then t else σ.ts j } := by
  have hm := h.kinds k
  have hq : 0 < q := fits_pos h.good.wf.pos h.good.wf.fits
  obtain ⟨o', e, hg, hs⟩ := run_feed (dist := dist) (junk := junk) (k := k) hd h.good hr hc hyr hyc (by
    show match σ.ts k with
      | .batch t => 2 ≤ t.batchsize ∧ t.batchsize ≤ x.nr + 1
      | _ => True
    revert hm hb
    generalize σ.ts k = u
    generalize ks k = a
    intro hb hm
    cases a <;> cases u <;> first | exact trivial | exact hm.elim | skip
    rename_i b d t
    have hm : t.batchsize = b := hm
    exact (show 2 ≤ t.batchsize ∧ t.batchsize ≤ x.nr + 1 from by rw [hm]; exact ⟨hb.1, hb.2.1⟩))
  obtain ⟨⟨w1, t1⟩, ef, e⟩ := bind_eq_ok (show ((do let (w, t) ← (σ.ts k).feeddata junk σ.w x y; .ok (⟨w, fun j => if j = k then t else σ.ts j⟩ : Objects)) : Res Objects) = .ok o' from e)
  cases e
  have hbel := h.good.trainers k
  have hcost1 : (w1.nets 0).cost = cost := by rw [feeddata_cost hbel ef]; exact h.cost
  have hkinds : ∀ j, Matches (ks j) (if j = k then t1 else σ.ts j) := fun j => (h.kinds j).same (hs j)
  have hsmall : budget < 2 ^ 64 := by have := h.small; omega
  -- a cost of the right sizes
  have hcomp : ∀ r : Mat ℝ, r.nr = y.nr → r.nc = y.nc → ∃ v, (w1.nets 0).computecost r y = .ok v := by
    intro r h1 h2
    obtain ⟨J, hJ⟩ := hco y r h1 h2
    unfold Net.computecost
    rw [hcost1, hJ, ok_bind]
    exact ⟨_, rfl⟩
  have hwf : (σ.w.nets 0).WF σ.w.store p q := h.good.wf
  have hod := outL_dims (Ls := (σ.w.nets 0).layers σ.w.store) (x := x) (q := q) (by rw [hc]; exact hwf.fits)
  replace hbel : (σ.ts k).Belongs 0 ds (budget + 1) := hbel
  have hra : (Spec.Stmt.feed k x y c).rowsAfter ks last = (match ks k with
    | .sgd _ => some 1
    | .batch b _ => some b.toNat
    | _ => some x.nr) := rfl
  rw [hra]
  dsimp only at hg hs
  generalize hu : σ.ts k = u at hm ef hbel hg
  generalize ha : ks k = a at hm hb ⊢
  cases u with
  | trainer t =>
    cases a <;> first | exact hm.elim | skip
    obtain ⟨⟨w2, t2⟩, e1, e2⟩ := bind_eq_ok ef
    cases e2
    have ht : t.nnet = 0 := hbel
    have e1' := e1
    unfold Trainer.feeddata at e1
    simp only at e1
    obtain ⟨⟨s, n⟩, e3, e1⟩ := bind_eq_ok e1
    cases e1
    have ht' : t.count.nnet = 0 := ht
    rw [ht'] at e3 hcomp hg
    have hdw := decay_wf hwf t.count
    obtain ⟨D, _, _, _, hb', hres, _⟩ := trainOn_of_ok hdw hr hc e3
    have hod' := outL_dims (Ls := (t.count.decay σ.w.store (σ.w.nets 0)).2.layers (t.count.decay σ.w.store (σ.w.nets 0)).1) (x := x) (q := q) (by rw [hc]; exact hdw.fits)
    rw [put_nets] at hcomp
    obtain ⟨v, hv⟩ := hcomp n.getresult (by unfold Net.getresult; rw [hres, hod'.1, hyr]) (by unfold Net.getresult; rw [hres, hod'.2, hyc])
    refine ⟨if c then v else 0, σ.w.put 0 s n, .trainer t.count, ?_, ?_, ⟨hg, by rw [← hcost1, ht'], hkinds, hsmall⟩⟩
    · show (do let (r, w, t) ← t.feedcost junk σ.w x y c; .ok (r, w, AnyTrainer.trainer t) : Res (ℝ × World × AnyTrainer)) = _
      unfold Trainer.feedcost
      rw [e1', ok_bind]
      simp only
      rw [ht', put_nets, hv]
      cases c <;> rfl
    · intro hcf; rw [hcf]; rfl
  | momentum t =>
    cases a <;> first | exact hm.elim | skip
    obtain ⟨⟨w2, t2⟩, e1, e2⟩ := bind_eq_ok ef
    cases e2
    have ht : t.nnet = 0 := hbel.1
    obtain ⟨_, _, _, hres, _⟩ := C42_step (by rw [ht]; exact hwf) hr hc e1
    have ht2 : t2.nnet = 0 := by rw [(momentum_call e1).1]; exact ht
    rw [ht] at hres
    obtain ⟨v, hv⟩ := hcomp (w1.nets 0).getresult (by unfold Net.getresult; rw [hres, hod.1, hyr]) (by unfold Net.getresult; rw [hres, hod.2, hyc])
    refine ⟨if c then v else 0, w1, .momentum t2, ?_, ?_, ⟨hg, hcost1, hkinds, hsmall⟩⟩
    · show (do let (r, w, t) ← t.feedcost junk σ.w x y c; .ok (r, w, AnyTrainer.momentum t) : Res (ℝ × World × AnyTrainer)) = _
      unfold MomentumTrainer.feedcost
      rw [e1, ok_bind]
      simp only
      rw [ht2, hv]
      cases c <;> rfl
    · intro hcf; rw [hcf]; rfl
  | batch t =>
    cases a <;> first | exact hm.elim | skip
    rename_i b dd
    have hm : t.batchsize = b := hm
    obtain ⟨-, -, rfl⟩ := hb
    obtain ⟨⟨w2, t2⟩, e1, e2⟩ := bind_eq_ok ef
    cases e2
    refine ⟨0, w1, .batch t2, ?_, fun _ => rfl, ⟨?_, hcost1, hkinds, hsmall⟩⟩
    · show (do let (r, w, t) ← t.feedcost junk σ.w x y false; .ok (r, w, AnyTrainer.batch t) : Res (ℝ × World × AnyTrainer)) = _
      unfold BatchTrainer.feedcost
      rw [e1, ok_bind]
      simp only
      rw [loop_eq (body := fun _ (c : ℝ) => if false = true then _ else Except.ok c) (fun _ => (0 : ℝ)) rfl (fun i _ => rfl), ok_bind, ok_bind]
    · subst hm; exact hg
  | sgd t =>
    cases a <;> first | exact hm.elim | skip
    obtain ⟨⟨w2, t2⟩, e1, e2⟩ := bind_eq_ok ef
    cases e2
    have ht : t.nnet = 0 := hbel
    have ht2 : t2.nnet = 0 := by
      unfold SGD.feeddata at e1
      simp only at e1
      obtain ⟨⟨s, n⟩, e3, e1⟩ := bind_eq_ok e1
      cases e1
      exact ht
    cases c with
    | false =>
      refine ⟨0, w1, .sgd t2, ?_, fun _ => rfl, ⟨hg, hcost1, hkinds, hsmall⟩⟩
      show (do let (r, w, t) ← SGD.feedcost junk σ.w t x y false; .ok (r, w, AnyTrainer.sgd t) : Res (ℝ × World × AnyTrainer)) = _
      unfold SGD.feedcost
      rw [e1, ok_bind]
      rfl
    | true =>
      have hrows : ∃ st, SGD.costRows junk x y w1.store (w1.nets 0) = .ok st ∧ st.2.2.cost = cost ∧
          ∀ b, Objects.Good p q 0 ds costd b (some 1) ⟨w1.put 0 st.2.1 st.2.2, fun _ => .trainer (Trainer.new 0)⟩ := by
        unfold SGD.costRows
        refine loop_inv (fun _ (st : ℝ × Store × Net) => st.2.2.cost = cost ∧
          ∀ b, Objects.Good p q 0 ds costd b (some 1) ⟨w1.put 0 st.2.1 st.2.2, fun _ => .trainer (Trainer.new 0)⟩) ?_ ?_
        · refine ⟨hcost1, fun b => ⟨?_, ?_, ?_, ?_, ?_, fun _ => rfl⟩⟩
          · show ((w1.put 0 w1.store (w1.nets 0)).nets 0).WF w1.store p q
            rw [put_nets]; exact hg.wf
          · show ((w1.put 0 w1.store (w1.nets 0)).nets 0).shapes w1.store = ds
            rw [put_nets]; exact hg.shapes
          · show ∀ L ∈ ((w1.put 0 w1.store (w1.nets 0)).nets 0).layers w1.store, _
            rw [put_nets]; exact hg.grads
          · show ∀ m, some 1 = some m → 0 < m ∧ CachedL (((w1.put 0 w1.store (w1.nets 0)).nets 0).layers w1.store) m
            rw [put_nets]; exact hg.cached
          · show ((w1.put 0 w1.store (w1.nets 0)).nets 0).output.costd = costd
            rw [put_nets]; exact hg.costd
        · rintro i ⟨v, s, n⟩ hi ⟨hn, hgd⟩
          obtain ⟨o2, e4, hg2, _⟩ := run_predict (dist := dist) (junk := junk) (x := x.rowMat i) (hgd 1) (by show 0 < 1; omega) hc
          have hwn : n.WF s p q := by
            have := (hgd 0).wf
            dsimp only at this
            rw [put_nets] at this
            exact this
          obtain ⟨⟨r3, s3, n3⟩, e5, e6⟩ := bind_eq_ok (show ((do let (_, s', n') ← ((w1.put 0 s n).nets 0).predict junk s (x.rowMat i); .ok (⟨(w1.put 0 s n).put 0 s' n', fun _ => .trainer (Trainer.new 0)⟩ : Objects)) : Res Objects) = .ok o2 from e4)
          cases e6
          rw [put_nets] at e5
          obtain ⟨r4, s4, n4, e7, r1, r2, hres, _⟩ := C32_predict (junk := junk) hwn (x := x.rowMat i) (by show 0 < 1; omega) hc
          rw [e5] at e7
          cases e7
          have hn3 : n3.cost = cost := by rw [predict_cost e5]; exact hn
          have hrd : n3.getresult.nr = (y.rowMat i).nr ∧ n3.getresult.nc = (y.rowMat i).nc := by
            rw [hres, show Spec.denseNet (n.params s) (x.rowMat i) = outL (n.layers s) (x.rowMat i) from (outL_eq_denseNet _ _).symm]
            have hod := outL_dims (Ls := n.layers s) (x := x.rowMat i) (q := q) (by show Spec.Fits x.nc _ _; rw [hc]; exact hwn.fits)
            exact ⟨hod.1, by rw [hod.2]; exact hyc.symm⟩
          obtain ⟨J, hJ⟩ := hco (y.rowMat i) n3.getresult hrd.1 hrd.2
          refine ⟨(v + sumall J, s3, n3), ?_, hn3, fun b => ?_⟩
          · simp only
            rw [row_ok hi, ok_bind, e5, ok_bind]
            simp only
            rw [row_ok (by omega), ok_bind]
            unfold Net.computecost
            rw [hn3, hJ, ok_bind, ok_bind]
          · have hput : (w1.put 0 s n).put 0 s3 n3 = w1.put 0 s3 n3 := by
              unfold World.put
              congr 1
              funext j
              by_cases hj : j = 0 <;> simp [hj]
            rw [hput] at hg2
            exact ⟨hg2.wf, hg2.shapes, hg2.grads, hg2.cached, hg2.costd, fun _ => rfl⟩
      obtain ⟨⟨v, s, n⟩, e3, hn, hgd⟩ := hrows
      refine ⟨v, w1.put 0 s n, .sgd t2, ?_, fun h => (nomatch h), ⟨⟨(hgd 0).wf, (hgd 0).shapes, (hgd 0).grads, (hgd 0).cached, (hgd 0).costd, hg.trainers⟩, ?_, hkinds, hsmall⟩⟩
      · show (do let (r, w, t) ← SGD.feedcost junk σ.w t x y true; .ok (r, w, AnyTrainer.sgd t) : Res (ℝ × World × AnyTrainer)) = _
        unfold SGD.feedcost
        rw [e1, ok_bind]
        simp only [if_true]
        rw [ht2, e3, ok_bind]
        rfl
      · show ((w1.put 0 s n).nets 0).cost = cost
        rw [put_nets]; exact hn

theorem exec_ok {dist : Draws} {io : TextIO} {mem : Nat → Nat → ℝ} {p q l : Nat} {ds : List (Nat × Nat)} {costd : MatFuncD} {cost : MatFunc} {budget : Nat} {last : Option Nat}
    {ks : Nat → Spec.TrainerArgs} {σ : Spec.State} {c : Spec.Stmt} (hd : OutputLayer.DeltaOK costd) (hco : Spec.CostOK cost) (hl : ds.length = l + 1) (h : Inv p q ds costd cost (budget + 1) last ks σ)
    (hf : c.Fits p q l ks last) :
    ∃ r σ', c.exec dist io mem σ = .ok (r, σ') ∧ Spec.Returns q l c r ∧ (c.NoFile → σ'.fs = σ.fs) ∧ Inv p q ds costd cost budget (c.rowsAfter ks last) (c.madeAfter ks) σ' := by
  have hsmall : budget < 2 ^ 64 := by have := h.small; omega
  have hwf : (σ.w.nets 0).WF σ.w.store p q := h.good.wf
  have hlen : (σ.w.nets 0).hidden.length = l := by
    have := congrArg List.length h.good.shapes
    rw [hl] at this
    simpa [Net.shapes, Net.layers, Net.hiddenLayers] using this
  cases c with
  | make k a =>
    refine ⟨.nothing, _, rfl, trivial, fun _ => rfl, ⟨⟨hwf, h.good.shapes, h.good.grads, h.good.cached, h.good.costd, fun j => ?_⟩, h.cost, fun j => ?_, hsmall⟩⟩
    · by_cases hj : j = k
      · simp only [if_pos hj]
        have := make_belongs σ.w a budget hsmall
        rw [show (σ.w.nets 0).shapes σ.w.store = ds from h.good.shapes] at this
        exact this
      · simp only [if_neg hj]
        exact belongs_less (h.good.trainers j)
    · show Matches (if j = k then a else ks j) (if j = k then a.make σ.w else σ.ts j)
      by_cases hj : j = k
      · simp only [if_pos hj]; exact make_matches _ _
      · simp only [if_neg hj]; exact h.kinds j
  | feed k x y c =>
    obtain ⟨h1, h2, h3, h4, h5⟩ := hf
    obtain ⟨v, w, t, e, hv, hi⟩ := feed_ok (dist := dist) (junk := mem) (k := k) (c := c) hd hco h h1 h2 h3 h4 h5
    refine ⟨.number v, { σ with w := w, ts := fun j => if j = k then t else σ.ts j }, ?_, hv, fun _ => rfl, hi⟩
    show (do let (r, w, t) ← (σ.ts k).feedcost mem σ.w x y c; .ok (Spec.Returned.number r, ({ σ with w := w, ts := fun j => if j = k then t else σ.ts j } : Spec.State)) : Res (Spec.Returned × Spec.State)) = _
    rw [e, ok_bind]
  | call m =>
    cases m with
    | forwardprop x =>
      obtain ⟨o', e, hg, ht⟩ := run_forwardprop (dist := dist) (junk := mem) h.good hf.1 hf.2
      obtain ⟨⟨r, s, n⟩, e1, e⟩ := bind_eq_ok (show ((do let (_, s, n) ← (σ.w.nets 0).forwardprop mem σ.w.store x; .ok (⟨σ.w.put 0 s n, σ.ts⟩ : Objects)) : Res Objects) = .ok o' from e)
      cases e
      obtain ⟨_, _, e2, _⟩ := Net.forwardprop_ok (junk := mem) hwf hf.1 hf.2
      have hrr : r = outL ((σ.w.nets 0).layers σ.w.store) x := by rw [e1] at e2; cases e2; rfl
      have hod := outL_dims (Ls := (σ.w.nets 0).layers σ.w.store) (x := x) (q := q) (by rw [hf.2]; exact hwf.fits)
      refine ⟨.matrix r, { σ with w := σ.w.put 0 s n }, ?_, ?_, fun _ => rfl, h.after hg (forwardprop_cost e1)⟩
      · unfold Spec.Stmt.exec Spec.Method.call
        simp only
        rw [e1, ok_bind, ok_bind]
      · rw [hrr]; exact hod
    | predict x =>
      obtain ⟨o', e, hg, ht⟩ := run_predict (dist := dist) (junk := mem) h.good hf.1 hf.2
      obtain ⟨⟨r, s, n⟩, e1, e⟩ := bind_eq_ok (show ((do let (_, s, n) ← (σ.w.nets 0).predict mem σ.w.store x; .ok (⟨σ.w.put 0 s n, σ.ts⟩ : Objects)) : Res Objects) = .ok o' from e)
      cases e
      obtain ⟨r', s', n', e2, r1, r2, _, r3⟩ := C32_predict (junk := mem) hwf hf.1 hf.2
      rw [e1] at e2
      cases e2
      refine ⟨.matrix r, { σ with w := σ.w.put 0 s n }, ?_, ⟨r1, r2, fun i hi => ?_⟩, fun _ => rfl, h.after hg (predict_cost e1)⟩
      · unfold Spec.Stmt.exec Spec.Method.call
        simp only
        rw [e1, ok_bind, ok_bind]
      · obtain ⟨k, k1, _, k2⟩ := r3 i hi
        exact ⟨k, k2.1, k1⟩
    | backprop y =>
      obtain ⟨o', e, hg, ht⟩ := run_backprop (dist := dist) (junk := mem) hd h.good hf.1 hf.2
      obtain ⟨⟨s, n⟩, e1, e⟩ := bind_eq_ok (show ((do let (s, n) ← (σ.w.nets 0).backprop mem σ.w.store y; .ok (⟨σ.w.put 0 s n, σ.ts⟩ : Objects)) : Res Objects) = .ok o' from e)
      cases e
      refine ⟨.nothing, { σ with w := σ.w.put 0 s n }, ?_, trivial, fun _ => rfl, h.after hg (backprop_cost e1)⟩
      unfold Spec.Stmt.exec Spec.Method.call
      simp only
      rw [e1, ok_bind, ok_bind]
    | update =>
      obtain ⟨o', e, hg, ht⟩ := run_update (dist := dist) (junk := mem) h.good
      obtain ⟨⟨s, n⟩, e1, e⟩ := bind_eq_ok (show ((do let (s, n) ← (σ.w.nets 0).update σ.w.store; .ok (⟨σ.w.put 0 s n, σ.ts⟩ : Objects)) : Res Objects) = .ok o' from e)
      cases e
      refine ⟨.nothing, { σ with w := σ.w.put 0 s n }, ?_, trivial, fun _ => rfl, h.after hg (update_cost e1)⟩
      unfold Spec.Stmt.exec Spec.Method.call
      simp only
      rw [e1, ok_bind, ok_bind]
    | setlrate r =>
      obtain ⟨o', e, hg, ht⟩ := run_setlrate (dist := dist) (junk := mem) (r := r) h.good
      cases e
      exact ⟨.nothing, { σ with w := σ.w.put 0 ((σ.w.nets 0).setlrate σ.w.store r).1 ((σ.w.nets 0).setlrate σ.w.store r).2 }, rfl, trivial, fun _ => rfl, h.after hg rfl⟩
    | randomizeAt i d =>
      obtain ⟨o', e, hg, ht⟩ := run_randomize (dist := dist) (junk := mem) (index := i) (sd := d) h.good
      obtain ⟨⟨s, n⟩, e1, e⟩ := bind_eq_ok (show ((do let (s, n) ← (σ.w.nets 0).randomizeAt dist σ.w.store i d; .ok (⟨σ.w.put 0 s n, σ.ts⟩ : Objects)) : Res Objects) = .ok o' from e)
      cases e
      refine ⟨.nothing, { σ with w := σ.w.put 0 s n }, ?_, trivial, fun _ => rfl, h.after hg (randomizeAt_cost e1)⟩
      unfold Spec.Stmt.exec Spec.Method.call
      simp only
      rw [e1, ok_bind, ok_bind]
    | computecost a y =>
      obtain ⟨J, hJ⟩ := hco y a hf.1 hf.2
      have hput : σ.w.put 0 σ.w.store (σ.w.nets 0) = σ.w := by
        unfold World.put
        congr 1
        funext j
        by_cases hj : j = 0 <;> simp [hj]
      refine ⟨.number (sumall J), { σ with w := σ.w.put 0 σ.w.store (σ.w.nets 0) }, ?_, trivial, fun _ => rfl, ?_⟩
      · unfold Spec.Stmt.exec Spec.Method.call Net.computecost
        simp only
        rw [h.cost, hJ, ok_bind, ok_bind, ok_bind]
      · rw [hput]; exact h.idle σ.fs
    | getresult =>
      refine ⟨.matrix (σ.w.nets 0).getresult, { σ with w := σ.w.put 0 σ.w.store (σ.w.nets 0) }, rfl, trivial, fun _ => rfl, ?_⟩
      have hput : σ.w.put 0 σ.w.store (σ.w.nets 0) = σ.w := by
        unfold World.put
        congr 1
        funext j
        by_cases hj : j = 0 <;> simp [hj]
      rw [hput]; exact h.idle σ.fs
    | getnumhidden =>
      refine ⟨.count (σ.w.nets 0).hidden.length, { σ with w := σ.w.put 0 σ.w.store (σ.w.nets 0) }, rfl, hlen, fun _ => rfl, ?_⟩
      have hput : σ.w.put 0 σ.w.store (σ.w.nets 0) = σ.w := by
        unfold World.put
        congr 1
        funext j
        by_cases hj : j = 0 <;> simp [hj]
      rw [hput]; exact h.idle σ.fs
    | getoutput =>
      refine ⟨.outputLayer (σ.w.nets 0).output.copyCtor, { σ with w := σ.w.put 0 σ.w.store (σ.w.nets 0) }, rfl, trivial, fun _ => rfl, ?_⟩
      have hput : σ.w.put 0 σ.w.store (σ.w.nets 0) = σ.w := by
        unfold World.put
        congr 1
        funext j
        by_cases hj : j = 0 <;> simp [hj]
      rw [hput]; exact h.idle σ.fs
    | gethidden i =>
      have hi : i < (σ.w.nets 0).hidden.length := by rw [hlen]; exact hf
      have hL : ∃ L, (σ.w.nets 0).gethidden σ.w.store i = .ok L := by
        unfold Net.gethidden
        rw [vecAt_some (List.getElem?_eq_getElem hi), ok_bind]
        exact ⟨_, rfl⟩
      obtain ⟨L, hL⟩ := hL
      have hput : σ.w.put 0 σ.w.store (σ.w.nets 0) = σ.w := by
        unfold World.put
        congr 1
        funext j
        by_cases hj : j = 0 <;> simp [hj]
      refine ⟨.layer L, { σ with w := σ.w.put 0 σ.w.store (σ.w.nets 0) }, ?_, trivial, fun _ => rfl, ?_⟩
      · unfold Spec.Stmt.exec Spec.Method.call
        simp only
        rw [hL, ok_bind, ok_bind]
      · rw [hput]; exact h.idle σ.fs
    | save path b =>
      have hS : ∃ fs, (σ.w.nets 0).save io σ.w.store path b σ.fs = .ok fs := by
        unfold Net.save
        cases b with
        | true => rw [if_pos rfl, saveText_ok, ok_bind]; exact ⟨_, rfl⟩
        | false => exact ⟨_, rfl⟩
      obtain ⟨fs, hS⟩ := hS
      have hput : σ.w.put 0 σ.w.store (σ.w.nets 0) = σ.w := by
        unfold World.put
        congr 1
        funext j
        by_cases hj : j = 0 <;> simp [hj]
      refine ⟨.nothing, { σ with fs := fs, w := σ.w.put 0 σ.w.store (σ.w.nets 0) }, ?_, trivial, fun hn => hn.elim, ?_⟩
      · unfold Spec.Stmt.exec Spec.Method.call
        simp only
        rw [hS, ok_bind, ok_bind]
      · rw [hput]; exact h.idle fs
    | updateWith _ _ => exact hf.elim
    | randomize _ _ => exact hf.elim
    | load _ => exact hf.elim
    | sethiddenw _ _ => exact hf.elim
    | setoutputw _ => exact hf.elim

theorem execAll_ok {dist : Draws} {io : TextIO} {mem : Nat → Nat → Nat → ℝ} {p q l : Nat} {ds : List (Nat × Nat)} {costd : MatFuncD} {cost : MatFunc} (hd : OutputLayer.DeltaOK costd)
    (hco : Spec.CostOK cost) (hl : ds.length = l + 1) : ∀ (prog : List Spec.Stmt) {last : Option Nat} {ks : Nat → Spec.TrainerArgs} {σ : Spec.State} {k : Nat},
    Inv p q ds costd cost prog.length last ks σ → Spec.AllFit p q l ks last prog →
    ∃ rs fs, Spec.execAll dist io mem σ k prog = (rs, .ok fs) ∧ List.Forall₂ (Spec.Returns q l) prog rs ∧ ((∀ c ∈ prog, c.NoFile) → fs = σ.fs)
  | [], _, _, σ, _, _, _ => ⟨[], σ.fs, rfl, .nil, fun _ => rfl⟩
  | c :: cs, last, ks, σ, k, h, hf => by
    obtain ⟨r, σ', e, h1, h2, h3⟩ := exec_ok (dist := dist) (io := io) (mem := mem k) hd hco hl h hf.1
    obtain ⟨rs, fs, e', h4, h5⟩ := execAll_ok hd hco hl cs (k := k + 1) h3 hf.2
    refine ⟨r :: rs, fs, ?_, .cons h1 h4, fun hn => ?_⟩
    · unfold Spec.execAll
      rw [e]
      simp only
      rw [e']
    · rw [h5 fun d hd => hn d (by simp [hd]), h2 (hn c (by simp))]

/-- All cost functions of the library accept predictions of the size of the labels. -/
theorem C70_costs : Spec.CostOK Quadratic.cost ∧ Spec.CostOK CrossEntropy.cost ∧ Spec.CostOK Softmax.cost ∧ Spec.CostOK KullbackLeibler.cost := by
  refine ⟨fun y h h1 h2 => ⟨_, quadratic_cost h1.symm h2.symm⟩, fun y h h1 h2 => ?_, fun y h h1 h2 => ⟨_, softmax_cost h1.symm h2.symm⟩, fun y h h1 h2 => ?_⟩
  · unfold CrossEntropy.cost logorithm
    rw [Mat.schur_ok (by exact h1.symm) (by exact h2.symm), ok_bind, Mat.schur_ok (by exact h1.symm) (by exact h2.symm), ok_bind, Mat.add_ok (by rfl) (by rfl), ok_bind]
    exact ⟨_, rfl⟩
  · unfold KullbackLeibler.cost
    rw [Mat.ediv_ok (by exact h1.symm) (by exact h2.symm), ok_bind, Mat.schur_ok (by rfl) (by rfl), ok_bind]
    exact ⟨_, rfl⟩

/-- **C70.** A program that builds a network of dense layers whose sizes chain from `p` inputs to `q` outputs, with cost functions that accept matching sizes (all of the library do), makes
trainers and uses them and the network with data of fitting sizes, runs to its end: no statement throws or has undefined behaviour, every statement returns a value of the expected kind and
size, predicted classes are below `q`, and without `save` no file changes. -/
theorem C70_program (dist : Draws) (io : TextIO) (mem : Nat → Nat → Nat → ℝ) (fs : Files) {r : Spec.Recipe} {p q : Nat} {prog : List Spec.Stmt} (h : r.Chains p q)
    (hd : OutputLayer.DeltaOK r.costd) (hc : Spec.CostOK r.cost) (hl : prog.length < 2 ^ 64) (hf : Spec.AllFit p q r.hidden.length (fun _ => .trainer none) none prog) :
    ∃ rs fs', Spec.run dist io mem fs r prog = (rs, .ok fs') ∧ List.Forall₂ (Spec.Returns q r.hidden.length) prog rs ∧ ((∀ c ∈ prog, c.NoFile) → fs' = fs) := by
  obtain ⟨s, n, e, hwf, hg, hcd, hco, hlen⟩ := build_ok (dist := dist) (mem := mem) h
  unfold Spec.run
  rw [e]
  refine execAll_ok (costd := r.costd) (cost := r.cost) (ds := n.shapes s) hd hc ?_ prog (ks := fun _ => .trainer none) (last := none)
    ⟨⟨hwf, rfl, hg, fun m hm => (nomatch hm), hcd, fun _ => rfl⟩, hco, fun _ => trivial, hl⟩ hf
  simp [Net.shapes, Net.layers, Net.hiddenLayers, hlen]

end
end Nnet.NN
