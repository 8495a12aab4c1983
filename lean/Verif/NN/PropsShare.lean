import Verif.NN.PropsFile
import Verif.NN.PropsCopy
/-!
# C37: copies of a network
-/
namespace Nnet.NN
open Finset
noncomputable section

/-- The operations of a network, as a program can call them. -/
inductive Spec.NetOp where
  | forwardprop (x : Mat ℝ)
  | backprop (y : Mat ℝ)
  | update
  | updateWith (ograd : Mat ℝ) (hgrad : List (Mat ℝ))
  | predict (x : Mat ℝ)
  | setlrate (r : ℝ)
  | randomize (index : Nat) (stddev : ℝ)
  | sethiddenw (index : Nat) (w : Mat ℝ)
  | setoutputw (w : Mat ℝ)
  | load (path : String) (fs : Files)

/-- The environment the operations use: contents of fresh memory, random draws, number formats. -/
structure Spec.Env where
  junk : Nat → Nat → ℝ
  dist : Draws
  io : TextIO

/-- Perform one operation. -/
def Spec.NetOp.run (e : Spec.Env) (s : Store) (n : Net) : Spec.NetOp → Res (Store × Net)
  | .forwardprop x => do let (_, r) ← n.forwardprop e.junk s x; .ok r
  | .backprop y => n.backprop e.junk s y
  | .update => n.update s
  | .updateWith og hg => n.updateWith s og hg
  | .predict x => do let (_, r) ← n.predict e.junk s x; .ok r
  | .setlrate r => .ok (n.setlrate s r)
  | .randomize i d => n.randomizeAt e.dist s i d
  | .sethiddenw i w => do let s ← n.sethiddenw s i w; .ok (s, n)
  | .setoutputw w => .ok (s, n.setoutputw w)
  | .load p fs => n.load e.io s p fs

/-- Perform operations one after the other. -/
def Spec.runAll (e : Spec.Env) : Store → Net → List Spec.NetOp → Res (Store × Net)
  | s, n, [] => .ok (s, n)
  | s, n, op :: ops => do
    let (s, n) ← op.run e s n
    Spec.runAll e s n ops

/-- Only layers in `ps` may differ. -/
def Outside (ps : List Nat) (s s' : Store) : Prop := ∀ p, p ∉ ps → s' p = s p

theorem Outside.refl {ps : List Nat} {s : Store} : Outside ps s s := fun _ _ => rfl
theorem Outside.trans {ps : List Nat} {s s' s'' : Store} (h : Outside ps s s') (h' : Outside ps s' s'') : Outside ps s s'' :=
  fun p hp => (h' p hp).trans (h p hp)
theorem Outside.put {ps : List Nat} {s : Store} {p : Nat} {v : HLayer} (h : p ∈ ps) : Outside ps s (s.put p v) :=
  fun _ hq => put_other fun e => hq (e ▸ h)
theorem Outside.mono {ps qs : List Nat} {s s' : Store} (h : Outside ps s s') (hs : ∀ p ∈ ps, p ∈ qs) : Outside qs s s' :=
  fun p hp => h p fun hm => hp (hs p hm)

theorem outside_forward {junk : Nat → Nat → ℝ} : ∀ {ps : List Nat} {s s' : Store} {x r : Mat ℝ}, Net.hiddenForward junk ps s x = .ok (r, s') → Outside ps s s'
  | [], s, s', x, r, h => by cases h; exact .refl
  | p :: ps, s, s', x, r, h => by
    unfold Net.hiddenForward at h
    obtain ⟨⟨r1, h1⟩, e1, h⟩ := bind_eq_ok h
    exact (Outside.put (by simp)).trans ((outside_forward h).mono (by simp +contextual))

theorem outside_backward {junk : Nat → Nat → ℝ} : ∀ {ps : List Nat} {s s' : Store} {d : Mat ℝ}, Net.hiddenBackward junk ps s d = .ok s' → Outside ps s s'
  | [], s, s', d, h => by cases h; exact .refl
  | p :: ps, s, s', d, h => by
    unfold Net.hiddenBackward at h
    obtain ⟨⟨r1, h1⟩, e1, h⟩ := bind_eq_ok h
    exact (Outside.put (by simp)).trans ((outside_backward h).mono (by simp +contextual))

theorem outside_update : ∀ {ps : List Nat} {s s' : Store}, Net.hiddenUpdate ps s = .ok s' → Outside ps s s'
  | [], s, s', h => by cases h; exact .refl
  | p :: ps, s, s', h => by
    unfold Net.hiddenUpdate at h
    obtain ⟨h1, e1, h⟩ := bind_eq_ok h
    exact (Outside.put (by simp)).trans ((outside_update h).mono (by simp +contextual))

theorem outside_updateWith : ∀ {ps : List Nat} {gs : List (Mat ℝ)} {s s' : Store}, Net.hiddenUpdateWith ps gs s = .ok s' → Outside ps s s'
  | [], _, s, s', h => by cases h; exact .refl
  | p :: ps, [], s, s', h => by cases h
  | p :: ps, g :: gs, s, s', h => by
    unfold Net.hiddenUpdateWith at h
    obtain ⟨h1, e1, h⟩ := bind_eq_ok h
    exact (Outside.put (by simp)).trans ((outside_updateWith h).mono (by simp +contextual))

theorem outside_rates (r : ℝ) : ∀ (ps : List Nat) (s : Store), Outside ps s (ps.foldl (fun s p => s.put p ((s p).setlrate r)) s)
  | [], _ => .refl
  | p :: ps, s => (Outside.put (ps := p :: ps) (by simp)).trans ((outside_rates r ps _).mono (by simp +contextual))

theorem vecAt_mem {α : Type} {l : List α} {i : Int} {v : α} (h : vecAt l i = .ok v) : v ∈ l := by
  unfold vecAt at h
  split at h
  · split at h
    · rename_i hp
      cases h
      exact List.mem_of_getElem? hp
    · cases h
  · cases h

theorem run_outside {e : Spec.Env} {s s' : Store} {n n' : Net} {op : Spec.NetOp} (h : op.run e s n = .ok (s', n')) :
    n'.hidden = n.hidden ∧ Outside n.hidden s s' := by
  have hfwd : ∀ {x r : Mat ℝ} {s' : Store} {n' : Net}, n.forwardprop e.junk s x = .ok (r, s', n') → n'.hidden = n.hidden ∧ Outside n.hidden s s' := by
    intro x r s' n' h
    unfold Net.forwardprop at h
    simp only at h
    obtain ⟨⟨r1, s1⟩, e1, h⟩ := bind_eq_ok h
    obtain ⟨⟨r2, o⟩, e2, h⟩ := bind_eq_ok h
    cases h
    exact ⟨rfl, outside_forward e1⟩
  cases op with
  | forwardprop x =>
    obtain ⟨⟨r, s1, n1⟩, e1, h⟩ := bind_eq_ok h
    cases h
    exact hfwd e1
  | backprop y =>
    unfold Spec.NetOp.run Net.backprop at h
    obtain ⟨⟨d, o⟩, e1, h⟩ := bind_eq_ok h
    obtain ⟨s1, e2, h⟩ := bind_eq_ok h
    cases h
    exact ⟨rfl, (outside_backward e2).mono (by simp)⟩
  | update =>
    unfold Spec.NetOp.run Net.update at h
    obtain ⟨L, e1, h⟩ := bind_eq_ok h
    obtain ⟨s1, e2, h⟩ := bind_eq_ok h
    cases h
    exact ⟨rfl, outside_update e2⟩
  | updateWith og hg =>
    unfold Spec.NetOp.run Net.updateWith at h
    obtain ⟨L, e1, h⟩ := bind_eq_ok h
    obtain ⟨s1, e2, h⟩ := bind_eq_ok h
    cases h
    exact ⟨rfl, outside_updateWith e2⟩
  | predict x =>
    obtain ⟨⟨r, s1, n1⟩, e1, h⟩ := bind_eq_ok h
    cases h
    unfold Net.predict at e1
    obtain ⟨⟨r1, s1, n1⟩, e2, e1⟩ := bind_eq_ok e1
    simp only at e1
    obtain ⟨am, e3, e1⟩ := bind_eq_ok e1
    cases e1
    have := hfwd e2
    exact this
  | setlrate r =>
    cases h
    exact ⟨rfl, outside_rates r _ _⟩
  | randomize i d =>
    replace h : n.randomizeAt e.dist s i d = .ok (s', n') := h
    unfold Net.randomizeAt at h
    split at h
    · rename_i p hp
      obtain ⟨h1, e1, h⟩ := bind_eq_ok h
      cases h
      exact ⟨rfl, Outside.put (List.mem_of_getElem? hp)⟩
    · obtain ⟨h1, e1, h⟩ := bind_eq_ok h
      cases h
      exact ⟨rfl, .refl⟩
  | sethiddenw i w =>
    obtain ⟨s1, e1, h⟩ := bind_eq_ok h
    cases h
    unfold Net.sethiddenw at e1
    obtain ⟨p, e2, e1⟩ := bind_eq_ok e1
    cases e1
    exact ⟨rfl, Outside.put (vecAt_mem e2)⟩
  | setoutputw w =>
    cases h
    exact ⟨rfl, .refl⟩
  | load p fs =>
    obtain ⟨s1, n1, e1, ho, -⟩ := C36_any_file e.io s n p fs
    replace h : n.load e.io s p fs = .ok (s', n') := h
    rw [e1] at h
    cases h
    refine ⟨?_, ho.others⟩
    rw [ho.net]

theorem runAll_outside {e : Spec.Env} : ∀ {ops : List Spec.NetOp} {s s' : Store} {n n' : Net}, Spec.runAll e s n ops = .ok (s', n') →
    n'.hidden = n.hidden ∧ Outside n.hidden s s'
  | [], s, s', n, n', h => by cases h; exact ⟨rfl, .refl⟩
  | op :: ops, s, s', n, n', h => by
    unfold Spec.runAll at h
    obtain ⟨⟨s1, n1⟩, e1, h⟩ := bind_eq_ok h
    obtain ⟨h1, h2⟩ := run_outside e1
    obtain ⟨h3, h4⟩ := runAll_outside h
    exact ⟨h3.trans h1, h2.trans (h1 ▸ h4)⟩

theorem hiddenForward_congr {junk : Nat → Nat → ℝ} : ∀ (ps : List Nat) (s s' : Store) (x : Mat ℝ), (∀ p ∈ ps, s' p = s p) →
    (Net.hiddenForward junk ps s' x).map Prod.fst = (Net.hiddenForward junk ps s x).map Prod.fst
  | [], _, _, _, _ => rfl
  | p :: ps, s, s', x, h => by
    unfold Net.hiddenForward
    rw [h p (by simp)]
    cases (s p).forwardprop junk x with
    | error e => rfl
    | ok r =>
      simp only [ok_bind]
      refine hiddenForward_congr ps _ _ _ fun q hq => ?_
      unfold Store.put
      by_cases hqp : q = p
      · rw [if_pos hqp, if_pos hqp]
      · rw [if_neg hqp, if_neg hqp, h q (by simp [hq])]

/-- What a network computes for an input: the result of `forwardprop`, and of `predict`, if no exception is thrown. -/
def Spec.computes (e : Spec.Env) (s : Store) (n : Net) (x : Mat ℝ) : Res (Mat ℝ) × Res (Mat ℝ) :=
  ((n.forwardprop e.junk s x).map (fun r => r.1), (n.predict e.junk s x).map (fun r => r.1))

theorem computes_congr {e : Spec.Env} {s s' : Store} {n : Net} (x : Mat ℝ) (h : ∀ p ∈ n.hidden, s' p = s p) : Spec.computes e s' n x = Spec.computes e s n x := by
  have hc := hiddenForward_congr (junk := e.junk) n.hidden s s' x h
  unfold Spec.computes Net.predict Net.forwardprop InputLayer.forwardprop
  simp only
  cases h1 : Net.hiddenForward e.junk n.hidden s x with
  | error e1 =>
    cases h2 : Net.hiddenForward e.junk n.hidden s' x with
    | error e2 => rw [h1, h2] at hc; cases hc; rfl
    | ok r2 => rw [h1, h2] at hc; cases hc
  | ok r1 =>
    cases h2 : Net.hiddenForward e.junk n.hidden s' x with
    | error e2 => rw [h1, h2] at hc; cases hc
    | ok r2 =>
      rw [h1, h2] at hc
      have hr : r2.1 = r1.1 := by injection hc
      simp only [ok_bind]
      rw [hr]
      cases n.output.forwardprop r1.1 with
      | error e3 => rfl
      | ok o =>
        simp only [ok_bind]
        cases ha : o.2.argmax with
        | error e4 => simp only [error_bind, Except.map]
        | ok am => simp only [ok_bind, Except.map]

/-- **C37 for networks without a common layer.** Whatever is done to a network `m` - any sequence of forward and backward passes, updates, new weights, randomisation, loading -
a network `n` that has no hidden-layer object in common with `m` computes exactly what it did before, and its hidden layers are unchanged. -/
theorem C37_disjoint {e : Spec.Env} {s s' : Store} {m m' n : Net} {ops : List Spec.NetOp} (hd : ∀ p ∈ n.hidden, p ∉ m.hidden)
    (h : Spec.runAll e s m ops = .ok (s', m')) :
    (∀ x, Spec.computes e s' n x = Spec.computes e s n x) ∧ ∀ i, n.gethidden s' i = n.gethidden s i := by
  have ho := (runAll_outside h).2
  refine ⟨fun x => computes_congr x fun p hp => ho p (hd p hp), fun i => ?_⟩
  unfold Net.gethidden
  cases hv : vecAt n.hidden (i : Nat) with
  | error e => rfl
  | ok p =>
    simp only [ok_bind]
    rw [ho p (hd p (vecAt_mem hv))]

/-- **C37 for networks with an output layer only** (the part of the property that holds): a copy made by the copy constructor or by assignment is independent - whatever is done to
the copy, the original computes what it did, and the other way round. The full property says so for every network; with hidden layers it is false (`C37_shared`, `C37_refuted`). -/
theorem C37_copy_partial {e : Spec.Env} {n m self : Net} (hn : n.hidden = []) (hm : n.copyCtor e.dist e.junk = .ok m ∨ m = Net.assign self n) {s s' : Store} {k : Net}
    {ops : List Spec.NetOp} :
    (Spec.runAll e s m ops = .ok (s', k) → ∀ x, Spec.computes e s' n x = Spec.computes e s n x) ∧
    (Spec.runAll e s n ops = .ok (s', k) → ∀ x, Spec.computes e s' m x = Spec.computes e s m x) := by
  have hmh : m.hidden = [] := by
    rcases hm with h | rfl
    · unfold Net.copyCtor at h
      obtain ⟨i, e1, h⟩ := bind_eq_ok h
      cases h
      exact hn
    · exact hn
  exact ⟨fun h => (C37_disjoint (by simp [hn]) h).1, fun h => (C37_disjoint (by simp [hmh]) h).1⟩

/-- **C37 is false in general: a copy shares the hidden layers.** In every state of the program, now and later, a copied or assigned network and the original have the very same hidden layers. -/
theorem C37_shared {dist : Draws} {junk : Nat → Nat → ℝ} {n m self : Net} (hm : n.copyCtor dist junk = .ok m ∨ m = Net.assign self n) (s : Store) (i : Nat) :
    m.gethidden s i = n.gethidden s i := by
  have : m.hidden = n.hidden := by
    rcases hm with h | rfl
    · unfold Net.copyCtor at h
      obtain ⟨i, e1, h⟩ := bind_eq_ok h
      cases h
      rfl
    · rfl
  unfold Net.gethidden
  rw [this]

/-- **C37 is false for every network with a hidden layer.** Giving new weights to hidden layer `i` of the copy gives them to the original. -/
theorem C37_refuted {dist : Draws} {junk : Nat → Nat → ℝ} {n m self : Net} (hm : n.copyCtor dist junk = .ok m ∨ m = Net.assign self n) {s s' : Store} {i : Nat} {w : Mat ℝ}
    (h : m.sethiddenw s i w = .ok s') : ∃ L, n.gethidden s' i = .ok L ∧ L.W = w := by
  rw [← C37_shared hm s' i]
  unfold Net.sethiddenw at h
  obtain ⟨p, e1, h⟩ := bind_eq_ok h
  cases h
  unfold Net.gethidden
  rw [e1, ok_bind]
  refine ⟨_, rfl, ?_⟩
  rw [put_same]
  rfl

theorem lin_out {s : Store} {a b : ℝ} (hk : (s 7).kind = .dense) (ha : (s 7).base.actfunc = Act.identity)
    (hW : (s 7).base.W = Mat.of 2 1 (fun i _ => if i = 0 then a else b)) (junk : Nat → Nat → ℝ) :
    ∃ r s' n', linNet.forwardprop junk s linX = .ok (r, s', n') ∧ r.f 0 0 = a + b := by
  have hwf : linNet.WF s 1 1 := by
    refine ⟨by simp [linNet], fun p hp => ?_, by omega, ?_⟩
    · have : p = 7 := by simpa [linNet] using hp
      rw [this, hk]
    · simp [Net.layers, Net.hiddenLayers, linNet, hW, exLayer, Spec.Fits]
  obtain ⟨s', n', hf, -⟩ := C28_network (junk := junk) hwf (x := linX) (by show 0 < 1; omega) rfl
  refine ⟨_, s', n', hf, ?_⟩
  rw [show linNet.params s = [(Act.identity.act, Mat.of 2 1 (fun i _ => if i = 0 then a else b)), (Act.identity.act, linNet.output.W)] by
    simp [Net.params, Net.layers, Net.hiddenLayers, linNet, hW, ha, exLayer]]
  simp only [Spec.denseNet, Spec.dense]
  rw [Mat.of_f' (by show 0 < 1; omega) (by show 0 < 1; omega)]
  simp only [Mat.of_nc]
  rw [sum_range_one]
  rw [Mat.of_f' (by show 0 < 1; omega) (by show 0 < 1; omega), show linX.nc = 1 from rfl, sum_range_one]
  rw [show linNet.output.W = Mat.of 2 1 (fun i _ => (i : ℝ)) from rfl, Mat.of_f' (by omega) (by omega), Mat.of_f' (by omega) (by omega)]
  rw [Mat.of_f' (by omega) (by omega), Mat.of_f' (by omega) (by omega)]
  rw [show linX.f 0 0 = 1 from Mat.of_f' (by omega) (by omega)]
  show ((0 : ℕ) : ℝ) + ((if (0 : ℕ) = 0 then a else b) + 1 * (if (0 + 1 : ℕ) = 0 then a else b)) * ((0 + 1 : ℕ) : ℝ) = a + b
  norm_num

/-- A concrete network: the original answers 0 to the input 1; after `sethiddenw` on its copy it answers 1. -/
theorem C37_counterexample (e : Spec.Env) : ∃ m s', linNet.copyCtor e.dist e.junk = .ok m ∧
    Spec.runAll e linStore m [.sethiddenw 0 (Mat.of 2 1 (fun i _ => if i = 0 then 0 else 1))] = .ok (s', m) ∧
    ∃ r r', (Spec.computes e linStore linNet linX).1 = .ok r ∧ (Spec.computes e s' linNet linX).1 = .ok r' ∧ r.f 0 0 = 0 ∧ r'.f 0 0 = 1 := by
  have hcopy : ∃ m, linNet.copyCtor e.dist e.junk = .ok m := by
    unfold Net.copyCtor InputLayer.copyCtor Layer.new Layer.newDev Mat.mk'
    simp only [randominit_ok]
    rw [if_pos ⟨by positivity, by positivity⟩]
    exact ⟨_, rfl⟩
  obtain ⟨m, hm⟩ := hcopy
  have hmh : m.hidden = [7] := by
    unfold Net.copyCtor at hm
    obtain ⟨i, e1, h⟩ := bind_eq_ok hm
    cases h
    rfl
  refine ⟨m, linStore.put 7 ((linStore 7).setw (Mat.of 2 1 (fun i _ => if i = 0 then 0 else 1))), hm, ?_, ?_⟩
  · unfold Spec.runAll Spec.NetOp.run Net.sethiddenw vecAt
    simp only [hmh]
    rfl
  · obtain ⟨r, s1, n1, h1, e1⟩ := lin_out (s := linStore) (a := 0) (b := 0) rfl rfl (by
      show Mat.of 2 1 (fun _ _ => 0) = _
      simp) e.junk
    obtain ⟨r', s2, n2, h2, e2⟩ := lin_out (s := linStore.put 7 ((linStore 7).setw (Mat.of 2 1 (fun i _ => if i = 0 then 0 else 1)))) (a := 0) (b := 1) rfl rfl rfl e.junk
    refine ⟨r, r', ?_, ?_, by rw [e1]; norm_num, by rw [e2]; norm_num⟩
    · unfold Spec.computes
      simp only
      rw [h1]
      rfl
    · unfold Spec.computes
      simp only
      rw [h2]
      rfl

end
end Nnet.NN
